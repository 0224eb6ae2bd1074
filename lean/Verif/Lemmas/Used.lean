import Verif.Used

/-!
# Lemmas about lockspaces in use
-/

namespace Sanlock.Used

/-! ## The lists of resources -/

def look (l : List Rs) (k : Nat × Nat) : Option Rs := l.find? fun r => r.key = k

theorem at_look (s : State) (k : Nat × Nat) : s.at k = look s.res k := rfl

theorem look_del (l : List Rs) (k j : Nat × Nat) : look (del l k) j = if j = k then none else look l j := by
  induction l with
  | nil => simp [look, del]
  | cons r l ih =>
    unfold look del at *
    by_cases hr : r.key = k
    · simp only [List.filter_cons, hr, ne_eq, not_true_eq_false, decide_false, Bool.false_eq_true, if_false]
      rw [ih]
      by_cases hj : j = k
      · simp [hj]
      · have : ¬ r.key = j := fun h => hj (h.symm.trans hr)
        simp [hj, List.find?_cons, this]
    · simp only [List.filter_cons, hr, ne_eq, not_false_eq_true, decide_true, if_true, List.find?_cons]
      by_cases hj : r.key = j
      · have : ¬ j = k := fun h => hr (hj.trans h)
        simp [hj, this]
      · simp only [hj, decide_false]
        rw [ih]

theorem look_put (l : List Rs) (k j : Nat × Nat) (p : Place) (o : Nat) :
    look (put l k p o) j = if j = k then some ⟨k, p, o⟩ else look l j := by
  have h := look_del l k j
  unfold look del at h
  unfold look put
  rw [List.find?_cons]
  by_cases hj : j = k
  · simp [hj]
  · have : ¬ k = j := fun e => hj e.symm
    simp only [this, decide_false, hj, if_false] at *
    exact h

theorem mem_put {l : List Rs} {k : Nat × Nat} {p : Place} {o : Nat} {r : Rs} (h : r ∈ put l k p o) : r = ⟨k, p, o⟩ ∨ r ∈ l := by
  rcases List.mem_cons.1 h with h | h
  · exact .inl h
  · exact .inr (List.mem_filter.1 h).1

theorem mem_del {l : List Rs} {k : Nat × Nat} {r : Rs} (h : r ∈ del l k) : r ∈ l := (List.mem_filter.1 h).1

theorem look_mem {l : List Rs} {k : Nat × Nat} {r : Rs} (h : look l k = some r) : r ∈ l ∧ r.key = k := by
  refine ⟨List.mem_of_find?_eq_some h, ?_⟩
  have := List.find?_some h
  simpa using this

theorem look_async {i : Nat} {l : List Rs} {t : Tok} {j : Nat × Nat} (h : j ≠ t.key) : look (async i l t) j = look l j := by
  unfold async
  split
  · rw [look_del, if_neg h]
  · split <;> rw [look_put, if_neg h]

theorem look_sync {i : Nat} {l : List Rs} {t : Tok} {j : Nat × Nat} (h : j ≠ t.key) : look (sync i l t) j = look l j := by
  unfold sync
  rw [look_put, if_neg h]

theorem look_fold_async {i : Nat} : ∀ {ts : List Tok} {l : List Rs} {j : Nat × Nat}, (∀ t ∈ ts, j ≠ t.key) →
    look (ts.foldl (async i) l) j = look l j
  | [], _, _, _ => rfl
  | t :: ts, l, j, h => by
    rw [List.foldl_cons, look_fold_async fun t' h' => h t' (List.mem_cons_of_mem _ h'), look_async (h t List.mem_cons_self)]

theorem look_fold_sync {i : Nat} : ∀ {ts : List Tok} {l : List Rs} {j : Nat × Nat}, (∀ t ∈ ts, j ≠ t.key) →
    look (ts.foldl (sync i) l) j = look l j
  | [], _, _, _ => rfl
  | t :: ts, l, j, h => by
    rw [List.foldl_cons, look_fold_sync fun t' h' => h t' (List.mem_cons_of_mem _ h'), look_sync (h t List.mem_cons_self)]

/-- Where orphans come from. -/
theorem orphan_async {i : Nat} : ∀ {ts : List Tok} {l : List Rs} {r : Rs}, r ∈ ts.foldl (async i) l → r.place = .orphan →
    r ∈ l ∨ ∃ t ∈ ts, t.pers = true ∧ t.dead = false ∧ r.key = t.key
  | [], _, _, h, _ => .inl h
  | t :: ts, l, r, h, hp => by
    rw [List.foldl_cons] at h
    rcases orphan_async h hp with h | ⟨t', h1, h2⟩
    · unfold async at h
      split at h
      · exact .inl (mem_del h)
      · rename_i hd
        split at h
        · rename_i hpe
          rcases mem_put h with h | h
          · exact .inr ⟨t, List.mem_cons_self, hpe, by simpa using hd, by rw [h]⟩
          · exact .inl h
        · rcases mem_put h with h | h
          · rw [h] at hp
            exact absurd hp (by simp)
          · exact .inl h
    · exact .inr ⟨t', List.mem_cons_of_mem _ h1, h2⟩

theorem orphan_sync {i : Nat} : ∀ {ts : List Tok} {l : List Rs} {r : Rs}, r ∈ ts.foldl (sync i) l → r.place = .orphan → r ∈ l
  | [], _, _, h, _ => h
  | t :: ts, l, r, h, hp => by
    rw [List.foldl_cons] at h
    rcases mem_put (orphan_sync h hp) with h | h
    · rw [h] at hp
      exact absurd hp (by simp)
    · exact h

/-! ## The invariant -/

def busy (r : Rs) : Prop := r.place = .held ∨ r.place = .adding

structure ClientOk (s : State) (i : Nat) (c : Client) : Prop where
  held : ∀ t ∈ c.toks, look s.res t.key = some ⟨t.key, .held, i⟩
  got : ∀ t, c.cmd = .got t → (∀ t' ∈ c.toks, t'.key ≠ t.key) ∧ ∃ p, look s.res t.key = some ⟨t.key, p, i⟩ ∧ (p = .held ∨ p = .adding)
  live : c.pid = true → ∀ t ∈ c.toks, ∃ sp, s.on t.key.1 = some sp
  fresh : ∀ t o, c.cmd = .info t o → t.dead = false

structure Inv (s : State) : Prop where
  client : ∀ i c, s.cl[i]? = some c → ClientOk s i c
  watched : ∀ n sp, s.on n = some sp → sp.watched = true
  apart : ∀ n, s.leaving n = true → s.on n = none

theorem init_inv : Inv init where
  client i c h := by simp [init] at h
  watched n sp h := by simp [init] at h
  apart n h := by simp [init] at h

/-- Only resources that nobody but process `i` uses change. -/
def Keeps (i : Nat) (l l' : List Rs) : Prop := ∀ k r, look l k = some r → r.owner ≠ i → busy r → look l' k = some r

/-- A resource that nobody uses changes. -/
def Idle (l l' : List Rs) : Prop := ∀ k r, look l k = some r → busy r → look l' k = some r

theorem ClientOk.other {s s' : State} {i j : Nat} {c : Client} (h : ClientOk s j c) (hij : j ≠ i) (hk : Keeps i s.res s'.res)
    (hon : ∀ n sp, c.pid = true → s.on n = some sp → (∃ t ∈ c.toks, t.key.1 = n) → ∃ sp', s'.on n = some sp') : ClientOk s' j c where
  held t ht := hk _ _ (h.held t ht) hij (.inl rfl)
  got t ht := by
    obtain ⟨h1, p, h2, h3⟩ := h.got t ht
    exact ⟨h1, p, hk _ _ h2 hij h3, h3⟩
  live hp t ht := by
    obtain ⟨sp, h1⟩ := h.live hp t ht
    exact hon _ sp hp h1 ⟨t, ht, rfl⟩
  fresh := h.fresh

theorem ClientOk.same {s s' : State} {j : Nat} {c : Client} (h : ClientOk s j c) (hk : Idle s.res s'.res)
    (hon : ∀ n sp, c.pid = true → s.on n = some sp → (∃ t ∈ c.toks, t.key.1 = n) → ∃ sp', s'.on n = some sp') : ClientOk s' j c where
  held t ht := hk _ _ (h.held t ht) (.inl rfl)
  got t ht := by
    obtain ⟨h1, p, h2, h3⟩ := h.got t ht
    exact ⟨h1, p, hk _ _ h2 h3, h3⟩
  live hp t ht := by
    obtain ⟨sp, h1⟩ := h.live hp t ht
    exact hon _ sp hp h1 ⟨t, ht, rfl⟩
  fresh := h.fresh

/-- One process and resources of its own change. -/
theorem Inv.replace {s s' : State} {i : Nat} {c' : Client} (h : Inv s) (hcl : s'.cl = s.cl.set i c') (hon : s'.on = s.on)
    (hl : s'.leaving = s.leaving) (hk : Keeps i s.res s'.res) (hc : ClientOk s' i c') : Inv s' where
  client j c hj := by
    rw [hcl, List.getElem?_set] at hj
    by_cases hij : i = j
    · subst hij
      rw [if_pos rfl] at hj
      split at hj
      · cases hj
        exact hc
      · simp at hj
    · rw [if_neg hij] at hj
      exact (h.client j c hj).other (fun e => hij e.symm) hk fun n sp _ h1 _ => ⟨sp, by rw [hon, h1]⟩
  watched n sp hn := h.watched n sp (by rw [← hon]; exact hn)
  apart n hn := by rw [hon]; exact h.apart n (by rw [← hl]; exact hn)

/-- Resources that nobody uses change. -/
theorem Inv.res {s s' : State} (h : Inv s) (hcl : s'.cl = s.cl) (hon : s'.on = s.on) (hl : ∀ n, s'.leaving n = true → s.leaving n = true)
    (hk : Idle s.res s'.res) : Inv s' where
  client j c hj := (h.client j c (by rw [← hcl]; exact hj)).same hk fun n sp _ h1 _ => ⟨sp, by rw [hon, h1]⟩
  watched n sp hn := h.watched n sp (by rw [← hon]; exact hn)
  apart n hn := by rw [hon]; exact h.apart n (hl n hn)

theorem idle_refl (l : List Rs) : Idle l l := fun _ _ h _ => h

theorem keeps_refl (i : Nat) (l : List Rs) : Keeps i l l := fun _ _ h _ _ => h

/-- A lockspace changes but stays. -/
theorem Inv.space {s s' : State} {n : Nat} {sp : Space} (h : Inv s) (hcl : s'.cl = s.cl) (hr : s'.res = s.res) (hl : s'.leaving = s.leaving)
    (hon : s'.on = set s.on n (some sp)) (hw : sp.watched = true) (hn : s.leaving n = false) : Inv s' where
  client j c hj := by
    refine (h.client j c (by rw [← hcl]; exact hj)).same (by rw [hr]; exact idle_refl _) fun m sp' _ h1 _ => ?_
    rw [hon]
    unfold set
    split
    · exact ⟨_, rfl⟩
    · exact ⟨_, h1⟩
  watched m sp' hm := by
    rw [hon] at hm
    unfold set at hm
    split at hm
    · cases hm
      exact hw
    · exact h.watched m sp' hm
  apart m hm := by
    rw [hl] at hm
    rw [hon]
    unfold set
    split
    · rename_i e
      rw [e, hn] at hm
      cases hm
    · exact h.apart m hm

theorem Inv.stays {s : State} (h : Inv s) {n : Nat} {sp : Space} (hn : s.on n = some sp) : s.leaving n = false := by
  cases hl : s.leaving n
  · rfl
  · rw [h.apart n hl] at hn
    cases hn

theorem doom_ok {s s' : State} {n j : Nat} {c : Client} (h : ClientOk s j c) (hr : s'.res = s.res) (hon : s'.on = s.on) :
    ClientOk s' j (doom n c) := by
  unfold doom
  split
  · rename_i hp
    have hkey : ∀ t ∈ (c.toks.map fun t => if t.key.1 = n then { t with dead := true } else t), ∃ t' ∈ c.toks, t'.key = t.key := by
      intro t ht
      obtain ⟨t', h1, h2⟩ := List.mem_map.1 ht
      refine ⟨t', h1, ?_⟩
      rw [← h2]
      split <;> rfl
    constructor
    · intro t ht
      obtain ⟨t', h1, h2⟩ := hkey t ht
      rw [hr, ← h2]
      exact h.held t' h1
    · intro t ht
      obtain ⟨h1, p, h2, h3⟩ := h.got t ht
      refine ⟨fun t' ht' => ?_, p, by rw [hr]; exact h2, h3⟩
      obtain ⟨u, hu, he⟩ := hkey t' ht'
      rw [← he]
      exact h1 u hu
    · intro _ t ht
      obtain ⟨t', h1, h2⟩ := hkey t ht
      rw [hon, ← h2]
      exact h.live hp t' h1
    · exact h.fresh
  · exact ⟨fun t ht => by rw [hr]; exact h.held t ht, fun t ht => by rw [hr]; exact h.got t ht, fun hp t ht => by rw [hon]; exact h.live hp t ht, h.fresh⟩

theorem kill_inv {s : State} (h : Inv s) (n : Nat) : Inv (kill s n) where
  client j c hj := by
    simp only [kill, List.getElem?_map, Option.map_eq_some_iff] at hj
    obtain ⟨c0, h1, rfl⟩ := hj
    exact doom_ok (h.client j c0 h1) rfl rfl
  watched := h.watched
  apart := h.apart

theorem any_uses {s : State} {n i : Nat} {c : Client} (h : s.cl.any (uses n) = false) (hc : s.cl[i]? = some c) (hp : c.pid = true) :
    ∀ t ∈ c.toks, t.key.1 ≠ n := by
  intro t ht e
  rw [List.any_eq_false] at h
  have := h c (List.mem_of_getElem? hc)
  refine this ?_
  simp only [uses, hp, Bool.true_and, List.any_eq_true, decide_eq_true_eq]
  exact ⟨t, ht, e⟩

theorem allDead_iff {s : State} {n : Nat} {sp : Space} : allDead s n sp = true ↔
    s.cl.any (uses n) = false ∧ sp.ext = false ∧ (sp.orph = true → orphans s n = 0) := by
  unfold allDead
  cases h1 : s.cl.any (uses n) <;> cases h2 : sp.ext <;> cases h3 : sp.orph <;> simp

theorem tick_inv {s : State} (h : Inv s) (n : Nat) (stop : Bool) : Inv (tick s n stop) := by
  unfold tick
  cases hn : s.on n with
  | none => exact h
  | some sp =>
    simp only
    split
    · split
      · rename_i hd
        have hd := allDead_iff.1 hd
        constructor
        · intro j c hj
          refine (h.client j c hj).same (idle_refl _) fun m sp' hp h1 ⟨t, ht, hm⟩ => ⟨sp', ?_⟩
          have : m ≠ n := by
            rw [← hm]
            exact any_uses hd.1 hj hp t ht
          simp [set, this, h1]
        · intro m sp' hm
          simp only [set] at hm
          split at hm
          · cases hm
          · exact h.watched m sp' hm
        · intro m hm
          simp only [set] at hm ⊢
          split
          · rfl
          · rename_i hne
            rw [if_neg hne] at hm
            exact h.apart m hm
      · exact kill_inv h n
    · split
      · exact kill_inv (h.space (s' := { s with on := set s.on n (some { sp with killing := true }) }) (n := n)
          (sp := { sp with killing := true }) rfl rfl rfl rfl (h.watched n sp hn) (h.stays hn)) n
      · exact h

theorem config_inv {s : State} (h : Inv s) (n c : Nat) : Inv (config s n c).1 := by
  unfold config
  cases hn : s.on n with
  | none => exact h
  | some sp =>
    have hw := h.watched n sp hn
    have hl := h.stays hn
    simp only
    split
    · split
      · exact h
      · exact h.space (n := n) (sp := { sp with ext := true }) rfl rfl rfl rfl hw hl
    · split
      · exact h.space (n := n) (sp := { sp with ext := false }) rfl rfl rfl rfl hw hl
      · split
        · split
          · exact h
          · exact h.space (n := n) (sp := { sp with orph := true }) rfl rfl rfl rfl hw hl
        · split
          · exact h.space (n := n) (sp := { sp with orph := false }) rfl rfl rfl rfl hw hl
          · exact h

theorem start_inv {s : State} (h : Inv s) (n : Nat) : Inv (start s n).1 := by
  unfold start
  split
  · exact h
  · cases hn : s.on n with
    | none => exact h
    | some sp => exact h.space (n := n) (sp := { sp with remove := true }) rfl rfl rfl rfl (h.watched n sp hn) (h.stays hn)

theorem Inv.ghost {s : State} (h : Inv s) (f : Nat → Option Nat) : Inv { s with checked := f } :=
  ⟨fun i c hc => ⟨(h.client i c hc).held, (h.client i c hc).got, (h.client i c hc).live, (h.client i c hc).fresh⟩, h.watched, h.apart⟩

theorem put_keeps {l : List Rs} {k : Nat × Nat} {p : Place} {i : Nat} (h : ∀ r, look l k = some r → r.owner ≠ i → ¬ busy r) :
    Keeps i l (put l k p i) := by
  intro j r hj ho hb
  rw [look_put]
  split
  · rename_i e
    subst e
    exact absurd hb (h r hj ho)
  · exact hj

theorem fold_keeps {l : List Rs} {ts : List Tok} {i : Nat} (h : ∀ t ∈ ts, look l t.key = some ⟨t.key, .held, i⟩) :
    Keeps i l (ts.foldl (async i) l) ∧ Keeps i l (ts.foldl (sync i) l) := by
  have : ∀ k r, look l k = some r → r.owner ≠ i → ∀ t ∈ ts, k ≠ t.key := by
    intro k r hk ho t ht e
    subst e
    rw [h t ht] at hk
    cases hk
    exact ho rfl
  exact ⟨fun k r hk ho _ => by rw [look_fold_async (this k r hk ho)]; exact hk,
    fun k r hk ho _ => by rw [look_fold_sync (this k r hk ho)]; exact hk⟩

theorem gone_ok (s : State) (i : Nat) : ClientOk s i ⟨false, .idle, []⟩ :=
  ⟨fun _ h => (nomatch h), fun _ h => (nomatch h), fun h => (nomatch h), fun _ _ h => (nomatch h)⟩

theorem keeps_trans {i : Nat} {a b c : List Rs} (h1 : Keeps i a b) (h2 : Keeps i b c) : Keeps i a c :=
  fun k r hk ho hb => h2 k r (h1 k r hk ho hb) ho hb

/-- The end of a command, after the resource `k` of the command was given up. -/
theorem endCmd_inv {s : State} (h : Inv s) {i : Nat} {c : Client} (hc : s.cl[i]? = some c) :
    Inv (endCmd s i c) := by
  unfold endCmd
  have ok := h.client i c hc
  split
  · refine h.replace (i := i) rfl rfl rfl (keeps_refl _ _) ⟨ok.held, fun t ht => (nomatch ht), ok.live, fun _ _ ht => (nomatch ht)⟩
  · exact h.replace (i := i) rfl rfl rfl (fold_keeps ok.held).2 (gone_ok _ _)

/-- The client without its command. -/
theorem drop_inv {s : State} (h : Inv s) {i : Nat} {c : Client} {t : Tok} (hc : s.cl[i]? = some c) (hg : c.cmd = .got t) :
    Inv (endCmd { s with res := put s.res t.key .rem i } i c) := by
  have ok := h.client i c hc
  obtain ⟨h1, p, h2, h3⟩ := ok.got t hg
  have hk : Keeps i s.res (put s.res t.key .rem i) := put_keeps fun r hr ho => by
    rw [h2] at hr
    cases hr
    exact absurd rfl ho
  have held : ∀ u ∈ c.toks, look (put s.res t.key .rem i) u.key = some ⟨u.key, .held, i⟩ := by
    intro u hu
    rw [look_put, if_neg (h1 u hu)]
    exact ok.held u hu
  unfold endCmd
  split
  · exact h.replace (i := i) rfl rfl rfl hk ⟨held, fun t ht => (nomatch ht), ok.live, fun _ _ ht => (nomatch ht)⟩
  · exact h.replace (i := i) rfl rfl rfl (keeps_trans hk (fold_keeps held).2) (gone_ok _ _)

theorem step_inv {s : State} (h : Inv s) (e : Ev) : Inv (step s e).1 := by
  cases e with
  | add n =>
    simp only [step]
    split
    · exact h
    · rename_i hn
      exact h.space (n := n) (sp := ⟨false, false, false, false, true⟩) rfl rfl rfl rfl rfl (by
        cases hl : s.leaving n
        · rfl
        · exact absurd (.inl hl) hn)
  | config n c => exact config_inv h n c
  | check w n =>
    simp only [step]
    split
    · exact h
    · exact h.ghost _
  | removeUnused w =>
    simp only [step]
    split
    · exact h
    · exact (start_inv h _).ghost _
  | remove n => exact start_inv h n
  | tick n stop => exact tick_inv h n stop
  | ended n =>
    simp only [step]
    split
    · refine h.res rfl rfl ?_ ?_
      · intro m hm
        simp only [set] at hm
        split at hm
        · cases hm
        · exact hm
      · intro k r hk hb
        obtain ⟨l1, l2, e1, e2⟩ : ∃ l1 l2, s.res = l1 ++ r :: l2 ∧ ∀ x ∈ l1, x.key ≠ k := by
          have := List.find?_eq_some_iff_append.1 hk
          obtain ⟨-, as, bs, ha, hb'⟩ := this
          exact ⟨as, bs, ha, fun x hx => by simpa using hb' x hx⟩
        have hr : r.key = k := (look_mem hk).2
        have hno : ¬ r.place = .orphan := by
          rcases hb with hb | hb <;> rw [hb] <;> simp
        unfold look
        simp only
        rw [e1, List.filter_append, List.find?_append]
        have : (l1.filter fun r => ¬(r.place = .orphan ∧ r.key.1 = n)).find? (fun r => r.key = k) = none := by
          rw [List.find?_eq_none]
          intro x hx
          simpa using e2 x (List.mem_filter.1 hx).1
        rw [this]
        simp [List.filter_cons, hno, hr]
    · exact h
  | connect =>
    simp only [step]
    refine ⟨fun j c hj => ?_, h.watched, h.apart⟩
    by_cases hlt : j < s.cl.length
    · rw [List.getElem?_append_left hlt] at hj
      have ok := h.client j c hj
      exact ⟨ok.held, ok.got, ok.live, ok.fresh⟩
    · rw [List.getElem?_append_right (by omega)] at hj
      cases hz : j - s.cl.length with
      | zero =>
        rw [hz] at hj
        simp only [List.getElem?_cons_zero, Option.some.injEq] at hj
        subst hj
        exact ⟨fun _ h => (nomatch h), fun _ h => (nomatch h), fun _ _ h => (nomatch h), fun _ _ h => (nomatch h)⟩
      | succ m =>
        rw [hz] at hj
        simp at hj
  | acqInfo i t orphan =>
    simp only [step]
    cases hc : s.cl[i]? with
    | none => exact h
    | some c =>
      simp only
      split
      · cases hn : s.on t.key.1 with
        | none => exact h
        | some sp =>
          simp only
          split
          · exact h
          · have ok := h.client i c hc
            refine h.replace (i := i) rfl rfl rfl (keeps_refl _ _) ⟨ok.held, fun t ht => (nomatch ht), ok.live, fun u o hu => ?_⟩
            cases hu
            rfl
      · exact h
  | acqToken i =>
    simp only [step]
    cases hc : s.cl[i]? with
    | none => exact h
    | some c =>
      simp only
      have ok := h.client i c hc
      cases hcmd : c.cmd with
      | idle => exact h
      | got t => exact h
      | info t orphan =>
        simp only
        cases hat : s.at t.key with
        | none =>
          simp only
          have hat : look s.res t.key = none := hat
          have hne : ∀ u ∈ c.toks, u.key ≠ t.key := by
            intro u hu e
            have := ok.held u hu
            rw [e, hat] at this
            cases this
          refine h.replace (i := i) rfl rfl rfl (put_keeps fun r hr => by rw [hat] at hr; cases hr) ⟨?_, ?_, ok.live, fun _ _ h => (nomatch h)⟩
          · intro u hu
            simp only [look_put, if_neg (hne u hu)]
            exact ok.held u hu
          · intro u hu
            cases hu
            exact ⟨hne, .adding, by simp [look_put], .inr rfl⟩
        | some r =>
          simp only
          split
          · rename_i hr
            have hat : look s.res t.key = some r := hat
            have hnb : ¬ busy r := by
              intro hb
              rcases hb with hb | hb <;> rw [hb] at hr <;> exact absurd hr.1 (by simp)
            have hne : ∀ u ∈ c.toks, u.key ≠ t.key := by
              intro u hu e
              have := ok.held u hu
              rw [e, hat] at this
              cases this
              exact hnb (.inl rfl)
            refine h.replace (i := i) rfl rfl rfl (put_keeps fun r' hr' _ => by rw [hat] at hr'; cases hr'; exact hnb) ⟨?_, ?_, ok.live, fun _ _ h => (nomatch h)⟩
            · intro u hu
              simp only [look_put, if_neg (hne u hu)]
              exact ok.held u hu
            · intro u hu
              cases hu
              exact ⟨hne, .held, by simp [look_put], .inl rfl⟩
          · exact endCmd_inv h hc
  | acqEnd i okk =>
    simp only [step]
    cases hc : s.cl[i]? with
    | none => exact h
    | some c =>
      simp only
      have ok := h.client i c hc
      cases hcmd : c.cmd with
      | idle => exact h
      | info t o => exact h
      | got t =>
        simp only
        obtain ⟨h1, p, h2, h3⟩ := ok.got t hcmd
        split
        · rename_i hok
          refine h.replace (i := i) rfl rfl rfl (put_keeps fun r hr ho => by rw [h2] at hr; cases hr; exact absurd rfl ho)
            ⟨?_, fun _ h => (nomatch h), ?_, fun _ _ h => (nomatch h)⟩
          · intro u hu
            simp only [look_put]
            rcases List.mem_append.1 hu with hu | hu
            · rw [if_neg (h1 u hu)]
              exact ok.held u hu
            · simp only [List.mem_cons, List.not_mem_nil, or_false] at hu
              rw [hu, if_pos rfl]
          · intro hp u hu
            rcases List.mem_append.1 hu with hu | hu
            · exact ok.live hok.2.1 u hu
            · simp only [List.mem_cons, List.not_mem_nil, or_false] at hu
              rw [hu]
              have := hok.2.2
              cases hon : s.on t.key.1 with
              | none => simp [hon] at this
              | some sp => exact ⟨sp, rfl⟩
        · exact drop_inv h hc hcmd
  | release i k =>
    simp only [step]
    cases hc : s.cl[i]? with
    | none => exact h
    | some c =>
      simp only
      split
      · rename_i hk
        have ok := h.client i c hc
        obtain ⟨t, ht, hte⟩ := List.any_eq_true.1 hk.2.2
        have hte : t.key = k := by simpa using hte
        have hl := ok.held t ht
        rw [hte] at hl
        refine h.replace (i := i) rfl rfl rfl (put_keeps fun r hr ho => by rw [hl] at hr; cases hr; exact absurd rfl ho)
          ⟨?_, ?_, fun hp u hu => ok.live hp u (List.mem_filter.1 hu).1, ok.fresh⟩
        · intro u hu
          have hu' := List.mem_filter.1 hu
          simp only [look_put]
          rw [if_neg (by simpa using hu'.2)]
          exact ok.held u hu'.1
        · intro u hu
          simp only [hk.2.1, reduceCtorEq] at hu
      · exact h
  | exit i =>
    simp only [step]
    cases hc : s.cl[i]? with
    | none => exact h
    | some c =>
      simp only
      have ok := h.client i c hc
      split
      · exact h
      · split
        · exact h.replace (i := i) rfl rfl rfl (fold_keeps ok.held).1 (gone_ok _ _)
        · exact h.replace (i := i) rfl rfl rfl (keeps_refl _ _) ⟨ok.held, ok.got, fun h => (nomatch h), ok.fresh⟩
  | relOrphan k =>
    simp only [step]
    cases hat : s.at k with
    | none => exact h
    | some r =>
      simp only
      split
      · rename_i hr
        have hat : look s.res k = some r := hat
        refine h.res rfl rfl (fun _ h => h) fun j r' hj hb => ?_
        simp only [look_put]
        split
        · rename_i e
          rw [e, hat] at hj
          cases hj
          rcases hb with hb | hb <;> rw [hb] at hr <;> exact absurd hr (by simp)
        · exact hj
      · exact h
  | released k =>
    simp only [step]
    cases hat : s.at k with
    | none => exact h
    | some r =>
      simp only
      split
      · rename_i hr
        have hat : look s.res k = some r := hat
        refine h.res rfl rfl (fun _ h => h) fun j r' hj hb => ?_
        simp only [look_del]
        split
        · rename_i e
          rw [e, hat] at hj
          cases hj
          rcases hb with hb | hb <;> rw [hb] at hr <;> exact absurd hr (by simp)
        · exact hj
      · exact h

theorem run_inv : ∀ {l : List Ev} {s : State}, Inv s → Inv (run s l)
  | [], _, h => h
  | e :: l, s, h => run_inv (l := l) (step_inv h e)

end Sanlock.Used
