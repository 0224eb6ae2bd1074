import Verif.Lemmas.IndexOps

/-!
# C60: index operations at the same time act as if done one after another

`Exec c Allowed l s` is any execution, with any number of hosts and calls, that ends in `s` and passed the states `l`, where no
`sanlock_update_rindex` runs, no lockspace is left while a call of the host runs, and no write that was given up reaches the disk later.
`Exec c (fun _ _ => True) l s` is any execution at all.
-/

namespace Sanlock.IndexOps

/-! ## One after another -/

/-- The index is what the creations and deletions that took effect leave when done one after another, each at most once per call:
a creation fills an entry that is free at that time, a deletion empties the entry that has the name.  Missing: executions with
`sanlock_update_rindex`, with a lockspace left during a call, or with a late write (`update_race_violated`, `removal_race_violated`,
`late_write_violated`). -/
theorem serial_partial {c : Cfg} (hc : c.Ok) {l : List State} {s : State} (h : Exec c Allowed l s) :
    (∀ i, s.idx i = replay s.log i) ∧ Legal s.log ∧ (s.log.map (·.1)).Nodup :=
  ⟨(inv_exec hc h).idx, (inv_exec hc h).legal, (inv_exec hc h).once⟩

/-- Only a creation adds a name, its own, and only a deletion removes one, its own. -/
theorem only_calls_partial {c : Cfg} (hc : c.Ok) {l : List State} {s : State} (h : Exec c Allowed l s) {o : Nat} {d : Change}
    (hd : (o, d) ∈ s.log) : ∃ x, s.ops o = some x ∧ (∀ k n, d = .added k n → x.kind = .create n) ∧
      ∀ k n, d = .removed k n → x.kind = .delete n := by
  obtain ⟨x, hx, hk⟩ := (inv_exec hc h).logged o d hd
  refine ⟨x, hx, ?_, ?_⟩ <;> (rintro k n rfl; exact hk)

/-- The order respects time: what a call changes that has not begun yet comes after everything changed so far. -/
theorem real_time_partial {c : Cfg} (hc : c.Ok) {l : List State} {s : State} (h : Exec c Allowed l s) {s1 : State} (h1 : s1 ∈ l) {o : Nat}
    (ho : s1.ops o = none) : ∃ m, s.log = m ++ s1.log ∧ ∀ d, (o, d) ∉ s1.log := by
  obtain ⟨m, hm⟩ := exec_log h h1
  refine ⟨m, hm, fun d hd => ?_⟩
  obtain ⟨l1, h2⟩ := exec_mem h h1
  obtain ⟨x, hx, _⟩ := (inv_exec hc h2).logged o d hd
  rw [ho] at hx
  simp at hx

/-! ## What calls report -/

/-- A creation that reports area `k` has put its name into entry `k`. -/
theorem create_effect_partial {c : Cfg} (hc : c.Ok) {l : List State} {s : State} (h : Exec c Allowed l s) {o : Nat} {x : Op}
    (hx : s.ops o = some x) {n k : Nat} (hk : x.kind = .create n) (hr : x.pc = .done (.ok k)) : (o, .added k n) ∈ s.log := by
  have := ((inv_exec hc h).op o x hx).res k (.inr (.inr hr))
  simpa only [hk] using this

/-- A deletion that reports success has removed its name. -/
theorem delete_effect_partial {c : Cfg} (hc : c.Ok) {l : List State} {s : State} (h : Exec c Allowed l s) {o : Nat} {x : Op}
    (hx : s.ops o = some x) {n k : Nat} (hk : x.kind = .delete n) (hr : x.pc = .done (.ok k)) : (o, .removed k n) ∈ s.log := by
  have := ((inv_exec hc h).op o x hx).res k (.inr (.inr hr))
  simpa only [hk] using this

/-- A name in the index has an area of that name, inside the lockspace's disk. -/
theorem area_partial {c : Cfg} (hc : c.Ok) {l : List State} {s : State} (h : Exec c Allowed l s) {k n : Nat} (hk : s.idx k = some n) :
    s.area k = some n ∧ k < c.max :=
  (inv_exec hc h).area k n hk

/-- A creation that finds the index full is right: at one time while it ran every entry was taken. -/
theorem create_full_partial {c : Cfg} (hc : c.Ok) {l : List State} {s : State} (h : Exec c Allowed l s) {o : Nat} {x : Op}
    (hx : s.ops o = some x) {n : Nat} (hk : x.kind = .create n) (hr : x.pc = .done .missing) :
    ∃ s1 ∈ l, (∃ x1, s1.ops o = some x1 ∧ x1.active = true) ∧ ∀ k, k < c.max → s1.idx k ≠ none := by
  have := missing_exec hc h o x hx (.inr (.inr hr))
  simpa only [hk, Seen] using this

/-- A deletion that does not find the name is right: at one time while it ran no entry had it. -/
theorem delete_missing_partial {c : Cfg} (hc : c.Ok) {l : List State} {s : State} (h : Exec c Allowed l s) {o : Nat} {x : Op}
    (hx : s.ops o = some x) {n : Nat} (hk : x.kind = .delete n) (hr : x.pc = .done .missing) :
    ∃ s1 ∈ l, (∃ x1, s1.ops o = some x1 ∧ x1.active = true) ∧ ∀ k, k < c.max → s1.idx k ≠ some n := by
  have := missing_exec hc h o x hx (.inr (.inr hr))
  simpa only [hk, Seen] using this

/-- A lookup that reports area `k` is right: while it ran entry `k` had the name.  This holds for every execution. -/
theorem lookup_found {c : Cfg} (hc : c.Ok) {ok : State → Act → Prop} {l : List State} {s : State} (h : Exec c ok l s) {o : Nat} {x : Op}
    (hx : s.ops o = some x) {n k : Nat} (hk : x.kind = .lookup n) (hr : x.pc = .done (.ok k)) :
    k < c.max ∧ ∃ s1 ∈ l, (∃ x1, s1.ops o = some x1 ∧ x1.active = true) ∧ s1.idx k = some n :=
  (hist_exec hc h o x hx).found n hk k (.inr (.inr hr))

/-- A lookup that reports that there is no such name is right for every entry: while it ran there was a time at which the entry
did not have the name.  This holds for every execution. -/
theorem lookup_missing {c : Cfg} (hc : c.Ok) {ok : State → Act → Prop} {l : List State} {s : State} (h : Exec c ok l s) {o : Nat} {x : Op}
    (hx : s.ops o = some x) {n : Nat} (hk : x.kind = .lookup n) (hr : x.pc = .done .missing) {k : Nat} (hkm : k < c.max) :
    ∃ s1 ∈ l, (∃ x1, s1.ops o = some x1 ∧ x1.active = true) ∧ s1.idx k ≠ some n :=
  (hist_exec hc h o x hx).missing n hk (.inr (.inr hr)) k hkm

/-! ## What a user sees -/

theorem stays {c : Cfg} {s : State} (H : Inv c s) {o n k : Nat} (hd : (o, .added k n) ∈ s.log)
    (hn : ∀ o' x', s.ops o' = some x' → x'.kind ≠ .delete n) : s.idx k = some n := by
  obtain ⟨l1, l2, hl⟩ := List.append_of_mem hd
  rw [H.idx, hl]
  refine replay_kept (hl ▸ H.legal) fun o' hm => ?_
  obtain ⟨x', hx', hk'⟩ := H.logged o' (.removed k n) (by rw [hl]; exact List.mem_append_left _ hm)
  exact hn o' x' hx' hk'

/-- A resource that was created stays in its area as long as nobody calls to delete that name. -/
theorem created_stays_partial {c : Cfg} (hc : c.Ok) {l : List State} {s : State} (h : Exec c Allowed l s) {o : Nat} {x : Op}
    (hx : s.ops o = some x) {n k : Nat} (hk : x.kind = .create n) (hr : x.pc = .done (.ok k))
    (hn : ∀ o' x', s.ops o' = some x' → x'.kind ≠ .delete n) : s.idx k = some n ∧ s.area k = some n := by
  have := stays (inv_exec hc h) (create_effect_partial hc h hx hk hr) hn
  exact ⟨this, (area_partial hc h this).1⟩

/-- Two creations get different areas as long as nobody calls to delete either name. -/
theorem own_area_partial {c : Cfg} (hc : c.Ok) {l : List State} {s : State} (h : Exec c Allowed l s) {o o' : Nat} {x x' : Op}
    (hne : o ≠ o') (hx : s.ops o = some x) (hx' : s.ops o' = some x') {n n' k k' : Nat} (hk : x.kind = .create n) (hk' : x'.kind = .create n')
    (hr : x.pc = .done (.ok k)) (hr' : x'.pc = .done (.ok k'))
    (hn : ∀ o1 x1, s.ops o1 = some x1 → x1.kind ≠ .delete n ∧ x1.kind ≠ .delete n') : k ≠ k' := by
  have H := inv_exec hc h
  intro heq
  subst heq
  have h1 := create_effect_partial hc h hx hk hr
  have h2 := create_effect_partial hc h hx' hk' hr'
  have go : ∀ (a b m m' : Nat) (l1 l2 : List (Nat × Change)), (∀ o1 x1, s.ops o1 = some x1 → x1.kind ≠ .delete m') →
      s.log = l1 ++ (a, .added k m) :: l2 → (b, Change.added k m') ∈ l2 → False := by
    intro a b m m' l1 l2 hnd hl hb
    obtain ⟨l3, l4, rfl⟩ := List.append_of_mem hb
    have hleg : Legal ((a, .added k m) :: (l3 ++ (b, .added k m') :: l4)) := legal_suffix (hl ▸ H.legal)
    have h3 : replay (l3 ++ (b, .added k m') :: l4) k = none := hleg.1
    have h4 : Legal (l3 ++ (b, .added k m') :: l4) := hleg.2
    rw [replay_kept h4 fun o1 hm => ?_] at h3
    · simp at h3
    · obtain ⟨x1, hx1, hk1⟩ := H.logged o1 (.removed k m') (by rw [hl]; simp [hm])
      exact hnd o1 x1 hx1 hk1
  obtain ⟨l1, l2, hl⟩ := List.append_of_mem h1
  rw [hl, List.mem_append, List.mem_cons] at h2
  rcases h2 with h2 | h2 | h2
  · obtain ⟨l3, l4, rfl⟩ := List.append_of_mem h2
    refine go o' o n' n l3 (l4 ++ (o, .added k n) :: l2) (fun o1 x1 h1 => (hn o1 x1 h1).1) ?_ (by simp)
    rw [hl]; simp
  · simp only [Prod.mk.injEq] at h2
    exact hne h2.1.symm
  · exact go o o' n n' l1 l2 (fun o1 x1 h1 => (hn o1 x1 h1).2) hl h2

/-- A lookup that begins after a creation has returned finds the name, as long as nobody calls to delete it: it does not report that
there is no such name. -/
theorem lookup_finds_partial {c : Cfg} (hc : c.Ok) {l : List State} {s s0 : State} (h : Exec c Allowed l s) {o o' n k : Nat} {x x' : Op}
    (h0 : s0 ∈ l) (hx : s0.ops o = some x) (hk : x.kind = .create n) (hr : x.pc = .done (.ok k)) (ho' : s0.ops o' = none)
    (hx' : s.ops o' = some x') (hk' : x'.kind = .lookup n) (hn : ∀ o1 x1, s.ops o1 = some x1 → x1.kind ≠ .delete n) :
    x'.pc ≠ .done .missing := by
  intro hm
  obtain ⟨_, e0⟩ := exec_mem h h0
  have hlog := create_effect_partial hc e0 hx hk hr
  have hkm : k < c.max := by
    have hn0 : ∀ o1 x1, s0.ops o1 = some x1 → x1.kind ≠ .delete n := by
      intro o1 x1 hx1
      obtain ⟨x2, hx2, hk2⟩ := (exec_later h (List.mem_cons_of_mem _ h0)).2 o1 x1 hx1
      rw [← hk2]
      exact hn o1 x2 hx2
    exact (area_partial hc e0 (created_stays_partial hc e0 hx hk hr hn0).1).2
  obtain ⟨s1, h1, ⟨x1, hx1, _⟩, hne⟩ := lookup_missing hc h hx' hk' hm hkm
  rcases exec_total h (List.mem_cons_of_mem _ h0) (List.mem_cons_of_mem _ h1) with hl | hl
  · obtain ⟨m, hm1⟩ := hl.1
    obtain ⟨_, e1⟩ := exec_mem h h1
    refine hne (stays (inv_exec hc e1) (o := o) ?_ ?_)
    · rw [hm1]; exact List.mem_append_right _ hlog
    · intro o2 x2 hx2
      obtain ⟨x3, hx3, hk3⟩ := (exec_later h (List.mem_cons_of_mem _ h1)).2 o2 x2 hx2
      rw [← hk3]
      exact hn o2 x3 hx3
  · obtain ⟨x2, hx2, _⟩ := hl.2 o' x1 hx1
    rw [ho'] at hx2
    simp at hx2

/-- When no other call is running and every release reached the disk, a creation or deletion gets the index lease; calls of hosts
that are gone do not stand in its way.  Missing: releases that fail (`release_lost_violated`). -/
theorem idle_free_partial {c : Cfg} (hc : c.Ok) {l : List State} {s : State} (h : Exec c AllReleased l s) {o : Nat} {x : Op}
    (hx : s.ops o = some x) (hb : x.pc = .begun) (hk : (∃ n, x.kind = .create n) ∨ ∃ n, x.kind = .delete n)
    (hidle : ∀ o' x', s.ops o' = some x' → o' ≠ o → x'.active = false) :
    ∃ s', step c s (.acquire o true) = some s' ∧ (s'.ops o).map (·.pc) = some (.reading 0) := by
  have hl : locks x.kind = true := by rcases hk with ⟨n, hk⟩ | ⟨n, hk⟩ <;> simp [hk, locks]
  cases hw : s.owner with
  | none => exact ⟨_, by simp only [step, hx, hb, hl, hw]; rfl, by simp [setOp]⟩
  | some w =>
    have hdead : alive s w = false := by
      rcases (held_exec hc h w hw).2 with h1 | ⟨o', x', hx', hcs, _⟩
      · exact h1
      · by_cases ho : o' = o
        · subst ho
          rw [hx] at hx'
          simp only [Option.some.injEq] at hx'
          subst hx'
          simp [Op.inCS, hb] at hcs
        · have := inCS_active hcs
          rw [hidle o' x' hx' ho] at this
          simp at this
    refine ⟨_, by simp only [step, hx, hb, hl, hw, hdead, or_true, if_true]; rfl, by simp [setOp]⟩

/-! ## Examples -/

/-- Two entries in one sector. -/
def exC : Cfg := ⟨2, 1, 2⟩

theorem exC_ok : exC.Ok := ⟨by decide, by decide⟩

/-- A call that finds everything in order. -/
def exCreate (o h n : Nat) : List Act :=
  [.begin o h (.create n), .acquire o true, .read o true, .init o true none, .write o true true, .release o true, .clear o]

/-- Host 0 creates name 5; host 1 looks it up and creates 6. -/
def exActs : List Act :=
  [.join 0, .join 1] ++ exCreate 0 0 5 ++
  [.begin 1 1 (.lookup 5), .acquire 1 true, .read 1 true, .clear 1] ++ exCreate 2 1 6

/-- Then the index is full for 7; host 0 deletes 5, and host 1 finds it neither to look up nor to delete. -/
def exActs2 : List Act :=
  exActs ++ [.begin 3 1 (.create 7), .acquire 3 true, .read 3 true, .release 3 true, .clear 3,
    .begin 4 0 (.delete 5), .acquire 4 true, .read 4 true, .write 4 true true, .init 4 true none, .release 4 true, .clear 4,
    .begin 5 1 (.lookup 5), .acquire 5 true, .read 5 true, .clear 5,
    .begin 6 1 (.delete 5), .acquire 6 true, .read 6 true, .release 6 true, .clear 6]

/-- No action of the list needs a side condition. -/
def plain : List Act → Bool
  | [] => true
  | .begin _ _ (.add _ _) :: _ => false
  | .begin _ _ (.rem _) :: _ => false
  | .leave _ :: _ => false
  | .land :: _ => false
  | _ :: as => plain as

theorem plain_allowed {c : Cfg} {s : State} {as : List Act} (h : plain as = true) : AllAllowed c s as := by
  induction as generalizing s with
  | nil => trivial
  | cons a as ih =>
    refine ⟨?_, fun s' _ => ih ?_⟩
    · cases a with
      | begin o p kind => cases kind <;> simp [plain, Allowed] at h ⊢
      | leave p => simp [plain] at h
      | land => simp [plain] at h
      | _ => trivial
    · cases a with
      | begin o p kind => cases kind <;> simp [plain] at h ⊢ <;> exact h
      | leave p => simp [plain] at h
      | land => simp [plain] at h
      | _ => simpa only [plain] using h

def exS : State := (run exC initial exActs).get (by decide +kernel)
def exS2 : State := (run exC initial exActs2).get (by decide +kernel)

theorem exS_exec : ∃ l, Exec exC Allowed l exS :=
  exec_allowed .start (plain_allowed (by decide +kernel)) (Option.some_get _).symm

theorem exS2_exec : ∃ l, Exec exC Allowed l exS2 :=
  exec_allowed .start (plain_allowed (by decide +kernel)) (Option.some_get _).symm

/-- `serial_partial`, `only_calls_partial`, `create_effect_partial`, `created_stays_partial`, `own_area_partial`, `area_partial`,
`lookup_found`: names 5 and 6 are created by two hosts and one is looked up. -/
example : (∃ l, Exec exC Allowed l exS) ∧ exS.log = [(2, .added 1 6), (0, .added 0 5)] ∧
    (exS.ops 0).map (fun x => (x.kind, x.pc)) = some (.create 5, .done (.ok 0)) ∧
    (exS.ops 2).map (fun x => (x.kind, x.pc)) = some (.create 6, .done (.ok 1)) ∧
    (exS.ops 1).map (fun x => (x.kind, x.pc)) = some (.lookup 5, .done (.ok 0)) ∧ exS.idx 0 = some 5 ∧ exS.idx 1 = some 6 :=
  ⟨exS_exec, by decide +kernel⟩

/-- `delete_effect_partial`, `create_full_partial`, `delete_missing_partial`, `lookup_missing`. -/
example : (∃ l, Exec exC Allowed l exS2) ∧ exS2.log = [(4, .removed 0 5), (2, .added 1 6), (0, .added 0 5)] ∧
    (exS2.ops 3).map (fun x => (x.kind, x.pc)) = some (.create 7, .done .missing) ∧
    (exS2.ops 4).map (fun x => (x.kind, x.pc)) = some (.delete 5, .done (.ok 0)) ∧
    (exS2.ops 5).map (fun x => (x.kind, x.pc)) = some (.lookup 5, .done .missing) ∧
    (exS2.ops 6).map (fun x => (x.kind, x.pc)) = some (.delete 5, .done .missing) :=
  ⟨exS2_exec, by decide +kernel⟩

/-- `idle_free_partial`: host 0 crashes while its deletion holds the index lease, then host 1 begins a creation. -/
def exActs3 : List Act :=
  [.join 0, .join 1] ++ exCreate 0 0 5 ++ [.begin 1 0 (.delete 5), .acquire 1 true, .read 1 true, .crash 0, .begin 2 1 (.create 6)]

def allReleased : List Act → Bool
  | [] => true
  | .release _ ok :: as => ok && allReleased as
  | _ :: as => allReleased as

theorem exec_released {c : Cfg} {l : List State} {s s' : State} {as : List Act} (h : Exec c AllReleased l s)
    (hp : plain as = true) (hr : allReleased as = true) (hs : run c s as = some s') : ∃ l', Exec c AllReleased l' s' := by
  induction as generalizing s l with
  | nil => simp only [run, Option.some.injEq] at hs; exact ⟨l, hs ▸ h⟩
  | cons a as ih =>
    simp only [run] at hs
    cases h1 : step c s a with
    | none => simp [h1] at hs
    | some s1 =>
      rw [h1] at hs
      refine ih (.next h ⟨(plain_allowed (c := c) hp).1, ?_⟩ h1) ?_ ?_ hs
      · rintro o ok rfl
        simp only [allReleased, Bool.and_eq_true] at hr
        exact hr.1
      · cases a with
        | begin o p kind => cases kind <;> simp [plain] at hp ⊢ <;> exact hp
        | leave p => simp [plain] at hp
        | land => simp [plain] at hp
        | _ => simpa only [plain] using hp
      · cases a with
        | release o ok => simp only [allReleased, Bool.and_eq_true] at hr; exact hr.2
        | _ => simpa only [allReleased] using hr

def exS3 : State := (run exC initial exActs3).get (by decide +kernel)

example : (∃ l, Exec exC AllReleased l exS3) ∧ exS3.owner = some (0, 1) ∧
    (exS3.ops 2).map (fun x => (x.kind, x.pc)) = some (.create 6, .begun) ∧
    (exS3.ops 0).map (·.active) = some false ∧ (exS3.ops 1).map (·.active) = some false :=
  ⟨exec_released .start (by decide +kernel) (by decide +kernel) (Option.some_get _).symm, by decide +kernel⟩

/-- `real_time_partial`, `lookup_finds_partial`: the execution passes a state where the creation has returned and the lookup has
not begun. -/
def exS0 : State := (run exC initial ([.join 0, .join 1] ++ exCreate 0 0 5)).get (by decide +kernel)

theorem run_append {c : Cfg} {s : State} (as bs : List Act) : run c s (as ++ bs) = (run c s as).bind (run c · bs) := by
  induction as generalizing s with
  | nil => rfl
  | cons a as ih => simp only [List.cons_append, run]; cases step c s a <;> simp [ih]

theorem exec_grow {c : Cfg} {l : List State} {s s' : State} {as : List Act} (h : Exec c Allowed l s) (hne : as ≠ [])
    (hok : AllAllowed c s as) (hr : run c s as = some s') : ∃ l', Exec c Allowed l' s' ∧ s ∈ l' := by
  have go : ∀ (as : List Act) (l : List State) (s1 : State), Exec c Allowed l s1 → s ∈ l → AllAllowed c s1 as → run c s1 as = some s' →
      ∃ l', Exec c Allowed l' s' ∧ s ∈ l' := by
    intro as
    induction as with
    | nil => intro l s1 h hs _ hr; simp only [run, Option.some.injEq] at hr; exact ⟨l, hr ▸ h, hs⟩
    | cons a as ih =>
      intro l s1 h hs hok hr
      simp only [run] at hr
      cases h1 : step c s1 a with
      | none => simp [h1] at hr
      | some s2 => rw [h1] at hr; exact ih _ _ (.next h hok.1 h1) (List.mem_cons_of_mem _ hs) (hok.2 s2 h1) hr
  cases as with
  | nil => exact absurd rfl hne
  | cons a as =>
    simp only [run] at hr
    cases h1 : step c s a with
    | none => simp [h1] at hr
    | some s2 => rw [h1] at hr; exact go as _ _ (.next h hok.1 h1) List.mem_cons_self (hok.2 s2 h1) hr

def exRest : List Act := [.begin 1 1 (.lookup 5), .acquire 1 true, .read 1 true, .clear 1] ++ exCreate 2 1 6

example : ∃ l, Exec exC Allowed l exS ∧ exS0 ∈ l ∧ (exS0.ops 0).map (fun x => (x.kind, x.pc)) = some (.create 5, .done (.ok 0)) ∧
    exS0.ops 1 = none ∧ (exS.ops 1).map (fun x => x.kind) = some (.lookup 5) := by
  obtain ⟨l0, e0⟩ : ∃ l, Exec exC Allowed l exS0 := exec_allowed .start (plain_allowed (by decide +kernel)) (Option.some_get _).symm
  have hr : run exC exS0 exRest = some exS := by
    have h1 : run exC initial ([.join 0, .join 1] ++ exCreate 0 0 5) = some exS0 := (Option.some_get _).symm
    have h2 : run exC initial exActs = some exS := (Option.some_get _).symm
    have h3 : exActs = ([.join 0, .join 1] ++ exCreate 0 0 5) ++ exRest := by decide +kernel
    rw [h3, run_append, h1] at h2
    exact h2
  obtain ⟨l, e, hm⟩ := exec_grow e0 (by simp [exRest]) (plain_allowed (by decide +kernel)) hr
  exact ⟨l, e, hm, by decide +kernel, rfl, by decide +kernel⟩

/-! ## What fails -/

/-- `sanlock_update_rindex` does not take the index lease and writes a whole sector that it has read before (rindex.c:878-966): the
entry of a creation that ran in between is lost, although nobody deleted it, and its area is given to another resource. -/
theorem update_race_violated : ∃ as s, run exC initial as = some s ∧
    (s.ops 2).map (fun x => (x.kind, x.pc)) = some (.create 5, .done (.ok 0)) ∧
    (s.ops 3).map (fun x => (x.kind, x.pc)) = some (.create 6, .done (.ok 0)) ∧
    (∀ o x, o < 4 → s.ops o = some x → (match x.kind with | .delete _ | .rem _ => False | _ => True)) ∧ s.area 0 = some 6 := by
  refine ⟨[.join 0, .join 1, .begin 1 0 (.add 1 7), .acquire 1 true, .read 1 true] ++ exCreate 2 1 5 ++
    [.write 1 true true, .clear 1] ++ exCreate 3 1 6, _, (Option.some_get (by decide +kernel)).symm, ?_⟩
  refine ⟨by decide +kernel, by decide +kernel, ?_, by decide +kernel⟩
  have key : ∀ o, o < 4 → ∀ x, ((run exC initial ([.join 0, .join 1, .begin 1 0 (.add 1 7), .acquire 1 true, .read 1 true] ++ exCreate 2 1 5 ++
    [.write 1 true true, .clear 1] ++ exCreate 3 1 6)).get (by decide +kernel)).ops o = some x → x.kind = .add 1 7 ∨ x.kind = .create 5 ∨ x.kind = .create 6 := by
    intro o ho x hx
    have hx' := congrArg (Option.map Op.kind) hx
    match o, ho with
    | 0, _ => exact absurd (show some x.kind = none from hx'.symm.trans (by decide +kernel)) (by simp)
    | 1, _ => exact .inl (Option.some.inj (hx'.symm.trans (by decide +kernel)))
    | 2, _ => exact .inr (.inl (Option.some.inj (hx'.symm.trans (by decide +kernel))))
    | 3, _ => exact .inr (.inr (Option.some.inj (hx'.symm.trans (by decide +kernel))))
  intro o x ho hx
  rcases key o ho x hx with h | h | h <;> simp [h]

/-- A call can begin after the lockspace was asked to be removed (lockspace.c:1664-1669 looks only at `space_dead` and `thread_stop`,
and lockspace.c:1323-1328 looks at `rindex_op` only when asked), and nothing waits for it when the lockspace is left: another host
takes the index lease, and both give the same area to their resource. -/
theorem removal_race_violated : ∃ as s, run exC initial as = some s ∧
    (s.ops 1).map (fun x => (x.kind, x.pc)) = some (.create 5, .done (.ok 0)) ∧
    (s.ops 2).map (fun x => (x.kind, x.pc)) = some (.create 6, .done (.ok 0)) ∧ s.idx 0 = some 5 :=
  ⟨[.join 0, .join 1, .remove 0, .begin 1 0 (.create 5), .acquire 1 true, .read 1 true, .kill 0, .leave 0] ++ exCreate 2 1 6 ++
    [.init 1 true none, .write 1 true true, .release 1 true, .clear 1], _, (Option.some_get (by decide +kernel)).symm,
    by decide +kernel, by decide +kernel, by decide +kernel⟩

/-- A creation does not look whether the name is there already: two creations of one name succeed with different areas
(rindex.c:566-571). -/
theorem same_name_violated : ∃ as s l, run exC initial as = some s ∧ Exec exC Allowed l s ∧
    (s.ops 1).map (fun x => (x.kind, x.pc)) = some (.create 5, .done (.ok 0)) ∧
    (s.ops 2).map (fun x => (x.kind, x.pc)) = some (.create 5, .done (.ok 1)) ∧ s.idx 0 = some 5 ∧ s.idx 1 = some 5 := by
  have hr : run exC initial ([.join 0, .join 1] ++ exCreate 1 0 5 ++ exCreate 2 1 5) =
      some ((run exC initial ([.join 0, .join 1] ++ exCreate 1 0 5 ++ exCreate 2 1 5)).get (by decide +kernel)) :=
    (Option.some_get _).symm
  obtain ⟨l, e⟩ := exec_allowed .start (plain_allowed (by decide +kernel)) hr
  exact ⟨_, _, l, hr, e, by decide +kernel, by decide +kernel, by decide +kernel, by decide +kernel⟩

/-- A write that was given up can reach the disk after the lease was released and another host has written the sector: the entry
of that host is lost. -/
theorem late_write_violated : ∃ as s, run exC initial as = some s ∧
    (s.ops 1).map (fun x => (x.kind, x.pc)) = some (.create 5, .done .error) ∧
    (s.ops 2).map (fun x => (x.kind, x.pc)) = some (.create 6, .done (.ok 0)) ∧ s.idx 0 = some 5 ∧ s.area 0 = some 6 :=
  ⟨[.join 0, .join 1, .begin 1 0 (.create 5), .acquire 1 true, .read 1 true, .init 1 true none, .write 1 false false, .release 1 true,
    .clear 1] ++ exCreate 2 1 6 ++ [.land], _, (Option.some_get (by decide +kernel)).symm,
    by decide +kernel, by decide +kernel, by decide +kernel, by decide +kernel⟩

/-- The result of releasing the index lease is not looked at (rindex.c:608): a creation reports success, no call runs, and yet
creations of other hosts fail as long as the host lives. -/
theorem release_lost_violated : ∃ as s, run exC initial as = some s ∧
    (s.ops 1).map (fun x => (x.kind, x.pc)) = some (.create 5, .done (.ok 0)) ∧ (s.hosts 0).busy = false ∧
    (s.ops 2).map (fun x => (x.kind, x.pc)) = some (.create 6, .clear .error) :=
  ⟨[.join 0, .join 1, .begin 1 0 (.create 5), .acquire 1 true, .read 1 true, .init 1 true none, .write 1 true true, .release 1 false,
    .clear 1, .begin 2 1 (.create 6), .acquire 2 true], _, (Option.some_get (by decide +kernel)).symm,
    by decide +kernel, by decide +kernel, by decide +kernel⟩

end Sanlock.IndexOps
