import Verif.Lemmas.Used

/-!
# C74: a lockspace in use stays
-/

namespace Sanlock.Used

theorem endCmd_on (s : State) (i : Nat) (c : Client) : (endCmd s i c).on = s.on := by
  unfold endCmd
  split <;> rfl

/-- What one event does to a lockspace. -/
inductive Effect (s : State) (e : Ev) (n : Nat) : Option Space → Option Space → Prop
  | same (x : Option Space) : Effect s e n x x
  | add : e = .add n → (step s e).2 = some 0 → Effect s e n none (some ⟨false, false, false, false, true⟩)
  | used (sp : Space) : e = .config n 1 → sp.killing = false → Effect s e n (some sp) (some { sp with ext := true })
  | unused (sp : Space) : e = .config n 2 → Effect s e n (some sp) (some { sp with ext := false })
  | byOrphans (sp : Space) : e = .config n 4 → sp.killing = false → Effect s e n (some sp) (some { sp with orph := true })
  | notByOrphans (sp : Space) : e = .config n 8 → Effect s e n (some sp) (some { sp with orph := false })
  | remove (sp : Space) : Effect s e n (some sp) (some { sp with remove := true })
  | kill (sp : Space) (stop : Bool) : e = .tick n stop → Effect s e n (some sp) (some { sp with killing := true })
  | leave (sp : Space) (stop : Bool) : e = .tick n stop → sp.killing = true → allDead s n sp = true → Effect s e n (some sp) none

theorem effect_start (s : State) (e : Ev) (m n : Nat) : Effect s e n (s.on n) ((start s m).1.on n) := by
  unfold start
  split
  · exact .same _
  · cases hm : s.on m with
    | none => exact .same _
    | some sp =>
      simp only [set]
      split
      · rename_i he
        rw [he, hm]
        exact .remove sp
      · exact .same _

theorem effect (s : State) (e : Ev) (n : Nat) : Effect s e n (s.on n) ((step s e).1.on n) := by
  cases e with
  | add m =>
    simp only [step]
    split
    · exact .same _
    · rename_i hm
      simp only [set]
      split
      · rename_i he
        subst he
        have : s.on n = none := by
          cases h : s.on n with
          | none => rfl
          | some sp => exact absurd (.inr (by rw [h]; simp)) hm
        rw [this]
        exact .add rfl (by simp only [step]; rw [if_neg hm])
      · exact .same _
  | config m c =>
    simp only [step, config]
    cases hm : s.on m with
    | none => exact .same _
    | some sp =>
      simp only
      by_cases h1 : c = 1
      · rw [if_pos h1]
        split
        · exact .same _
        · rename_i hk
          simp only [set]
          split
          · rename_i he
            subst he h1
            rw [hm]
            exact .used sp rfl (by simpa using hk)
          · exact .same _
      · rw [if_neg h1]
        by_cases h2 : c = 2
        · rw [if_pos h2]
          simp only [set]
          split
          · rename_i he
            subst he h2
            rw [hm]
            exact .unused sp rfl
          · exact .same _
        · rw [if_neg h2]
          by_cases h4 : c = 4
          · rw [if_pos h4]
            split
            · exact .same _
            · rename_i hk
              simp only [set]
              split
              · rename_i he
                subst he h4
                rw [hm]
                exact .byOrphans sp rfl (by simpa using hk)
              · exact .same _
          · rw [if_neg h4]
            split
            · rename_i h8
              simp only [set]
              split
              · rename_i he
                subst he h8
                rw [hm]
                exact .notByOrphans sp rfl
              · exact .same _
            · exact .same _
  | check w m =>
    simp only [step]
    split <;> exact .same _
  | removeUnused w =>
    simp only [step]
    split
    · exact .same _
    · exact effect_start s _ _ n
  | remove m => exact effect_start s _ m n
  | tick m stop =>
    simp only [step, tick]
    cases hm : s.on m with
    | none => exact .same _
    | some sp =>
      simp only
      split
      · rename_i hk
        split
        · rename_i hd
          simp only [set]
          split
          · rename_i he
            subst he
            rw [hm]
            exact .leave sp stop rfl hk hd
          · exact .same _
        · exact .same _
      · split
        · simp only [kill, set]
          split
          · rename_i he
            subst he
            rw [hm]
            exact .kill sp stop rfl
          · exact .same _
        · exact .same _
  | ended m =>
    simp only [step]
    split <;> exact .same _
  | connect => exact .same _
  | acqInfo i t o =>
    simp only [step]
    split
    · exact .same _
    · split
      · split
        · exact .same _
        · split <;> exact .same _
      · exact .same _
  | acqToken i =>
    simp only [step]
    split
    · exact .same _
    · split
      · split
        · exact .same _
        · split
          · exact .same _
          · rw [endCmd_on]
            exact .same _
      · exact .same _
  | acqEnd i ok =>
    simp only [step]
    split
    · exact .same _
    · split
      · split
        · exact .same _
        · rw [endCmd_on]
          exact .same _
      · exact .same _
  | release i k =>
    simp only [step]
    split
    · exact .same _
    · split <;> exact .same _
  | exit i =>
    simp only [step]
    split
    · exact .same _
    · split
      · exact .same _
      · split <;> exact .same _
  | relOrphan k =>
    simp only [step]
    split
    · exact .same _
    · split <;> exact .same _
  | released k =>
    simp only [step]
    split
    · exact .same _
    · split <;> exact .same _

theorem run_append (s : State) (a b : List Ev) : run s (a ++ b) = run (run s a) b := List.foldl_append

/-! ## Marked as used -/

theorem ext_step {s : State} {e : Ev} {n : Nat} (h : ∃ sp, s.on n = some sp ∧ sp.ext = true) (he : e ≠ .config n 2) :
    ∃ sp, (step s e).1.on n = some sp ∧ sp.ext = true := by
  obtain ⟨sp, h1, h2⟩ := h
  have hf := effect s e n
  rw [h1] at hf
  generalize hx : (step s e).1.on n = x at hf
  cases hf with
  | same => exact ⟨sp, rfl, h2⟩
  | used => exact ⟨_, rfl, rfl⟩
  | unused _ h => exact absurd h he
  | byOrphans => exact ⟨_, rfl, h2⟩
  | notByOrphans => exact ⟨_, rfl, h2⟩
  | remove => exact ⟨_, rfl, h2⟩
  | kill => exact ⟨_, rfl, h2⟩
  | leave _ _ _ _ hd => rw [(allDead_iff.1 hd).2.1] at h2; cases h2

theorem ext_run {n : Nat} : ∀ {l : List Ev} {s : State}, (∃ sp, s.on n = some sp ∧ sp.ext = true) → Ev.config n 2 ∉ l →
    ∃ sp, (run s l).on n = some sp ∧ sp.ext = true
  | [], _, h, _ => h
  | e :: l, s, h, hl => ext_run (l := l) (ext_step h fun h => hl (by simp [h])) fun h => hl (List.mem_cons_of_mem _ h)

theorem config_ok {s : State} {n c : Nat} (h : (step s (.config n c)).2 = some 0) :
    ∃ sp, (step s (.config n c)).1.on n = some sp ∧ (c = 1 → sp.ext = true) ∧ (c = 4 → sp.orph = true) := by
  simp only [step, config] at h ⊢
  cases hm : s.on n with
  | none => simp [hm] at h
  | some sp =>
    simp only [hm] at h
    simp only
    by_cases h1 : c = 1
    · subst h1
      simp only [if_true] at h ⊢
      cases hk : sp.killing
      · simp only [Bool.false_eq_true, if_false, set, if_true]
        exact ⟨_, rfl, fun _ => rfl, fun h => (nomatch h)⟩
      · rw [hk] at h
        simp at h
    · by_cases h4 : c = 4
      · subst h4
        simp only [show ¬ (4 = 1) by decide, show ¬ (4 = 2) by decide, if_false, if_true] at h ⊢
        cases hk : sp.killing
        · simp only [Bool.false_eq_true, if_false, set, if_true]
          exact ⟨_, rfl, fun h => (nomatch h), fun _ => rfl⟩
        · rw [hk] at h
          simp at h
      · rw [if_neg h1]
        split
        · exact ⟨_, by simp only [set, if_true]; rfl, fun h => absurd h h1, fun h => absurd h h4⟩
        · split
          · exact ⟨_, by simp only [set, if_true]; rfl, fun h => absurd h h1, fun h => absurd h h4⟩
          · exact ⟨sp, hm, fun h => absurd h h1, fun h => absurd h h4⟩

/-- C74: from the time `set_config` has marked a lockspace as used until it is unmarked, the lockspace stays and its watchdog connection is
kept, whatever processes, removals, lost host ids and shutdowns there are. -/
theorem used_stays {pre post : List Ev} {n : Nat} (h : (step (run init pre) (.config n 1)).2 = some 0) (hno : Ev.config n 2 ∉ post) :
    ∃ sp, (run init (pre ++ .config n 1 :: post)).on n = some sp ∧ sp.watched = true := by
  rw [run_append]
  have h0 := config_ok h
  obtain ⟨sp, h1, h2, -⟩ := h0
  obtain ⟨sp', h3, -⟩ := ext_run (l := post) ⟨sp, h1, h2 rfl⟩ hno
  have hi : Inv (run (step (run init pre) (.config n 1)).1 post) := run_inv (step_inv (run_inv init_inv) _)
  exact ⟨sp', h3, hi.watched n sp' h3⟩

example : (step (run init [.add 3]) (.config 3 1)).2 = some 0 ∧ Ev.config 3 2 ∉ [Ev.tick 3 true, .tick 3 true, .tick 3 true] ∧
    ((run init [.add 3, .tick 3 true, .tick 3 true]).on 3).isNone := by decide

/-! ## Marked as used by orphans -/

/-- Marked as used by orphans, or gone without orphans. -/
def Marked (n : Nat) (s : State) : Prop :=
  (∃ sp, s.on n = some sp ∧ sp.orph = true) ∨ (s.on n = none ∧ ∀ r ∈ s.res, r.place = .orphan → r.key.1 ≠ n)

/-- Orphans come from processes that are there. -/
theorem orphan_step {s : State} (hi : Inv s) {e : Ev} {r : Rs} (h : r ∈ (step s e).1.res) (hp : r.place = .orphan) :
    r ∈ s.res ∨ ∃ sp, s.on r.key.1 = some sp := by
  have hput : ∀ {l : List Rs} {k : Nat × Nat} {p : Place} {o : Nat}, r ∈ put l k p o → p ≠ .orphan → r ∈ l := by
    intro l k p o h hne
    rcases mem_put h with h | h
    · rw [h] at hp
      exact absurd hp hne
    · exact h
  have hend : ∀ {s' : State} {i : Nat} {c : Client}, r ∈ (endCmd s' i c).res → r ∈ s'.res := by
    intro s' i c h
    unfold endCmd at h
    split at h
    · exact h
    · exact orphan_sync h hp
  cases e with
  | add m =>
    simp only [step] at h
    split at h <;> exact .inl h
  | config m c =>
    refine .inl ?_
    have : (config s m c).1.res = s.res := by
      unfold config
      cases s.on m with
      | none => rfl
      | some sp =>
        simp only
        split
        · split <;> rfl
        · split
          · rfl
          · split
            · split <;> rfl
            · split <;> rfl
    rw [← this]
    exact h
  | check w m =>
    simp only [step] at h
    split at h <;> exact .inl h
  | removeUnused w =>
    simp only [step] at h
    split at h
    · exact .inl h
    · refine .inl ?_
      rename_i m hm
      have : (start s m).1.res = s.res := by
        unfold start
        split
        · rfl
        · cases s.on m <;> rfl
      rw [← this]
      exact h
  | remove m =>
    refine .inl ?_
    have : (start s m).1.res = s.res := by
      unfold start
      split
      · rfl
      · cases s.on m <;> rfl
    rw [← this]
    exact h
  | tick m stop =>
    refine .inl ?_
    have : (tick s m stop).res = s.res := by
      unfold tick
      cases s.on m with
      | none => rfl
      | some sp =>
        simp only
        split
        · split <;> rfl
        · split <;> rfl
    rw [← this]
    exact h
  | ended m =>
    simp only [step] at h
    split at h
    · exact .inl (List.mem_filter.1 h).1
    · exact .inl h
  | connect => exact .inl h
  | acqInfo i t o =>
    simp only [step] at h
    split at h
    · exact .inl h
    · split at h
      · split at h
        · exact .inl h
        · split at h <;> exact .inl h
      · exact .inl h
  | acqToken i =>
    simp only [step] at h
    split at h
    · exact .inl h
    · split at h
      · split at h
        · exact .inl (hput h (by simp))
        · split at h
          · exact .inl (hput h (by simp))
          · exact .inl (hend h)
      · exact .inl h
  | acqEnd i ok =>
    simp only [step] at h
    split at h
    · exact .inl h
    · split at h
      · split at h
        · exact .inl (hput h (by simp))
        · exact .inl (hput (hend h) (by simp))
      · exact .inl h
  | release i k =>
    simp only [step] at h
    split at h
    · exact .inl h
    · split at h
      · exact .inl (hput h (by simp))
      · exact .inl h
  | exit i =>
    simp only [step] at h
    cases hc : s.cl[i]? with
    | none => rw [hc] at h; exact .inl h
    | some c =>
      rw [hc] at h
      simp only at h
      split at h
      · exact .inl h
      · rename_i hpid
        split at h
        · rcases orphan_async h hp with h | ⟨t, ht, -, -, hk⟩
          · exact .inl h
          · right
            rw [hk]
            exact (hi.client i c hc).live (by simpa using hpid) t ht
        · exact .inl h
  | relOrphan k =>
    simp only [step] at h
    split at h
    · exact .inl h
    · split at h
      · exact .inl (hput h (by simp))
      · exact .inl h
  | released k =>
    simp only [step] at h
    split at h
    · exact .inl h
    · split at h
      · exact .inl (mem_del h)
      · exact .inl h

theorem leave_res {s : State} {n : Nat} {sp : Space} {stop : Bool} (h1 : s.on n = some sp) (hk : sp.killing = true) (hd : allDead s n sp = true) :
    (step s (.tick n stop)).1.res = s.res := by
  simp only [step, tick, h1, hk, hd, if_true]

theorem no_orphans {s : State} {n : Nat} (h : orphans s n = 0) : ∀ r ∈ s.res, r.place = .orphan → r.key.1 ≠ n := by
  intro r hr hp hn
  have := List.eq_nil_of_length_eq_zero h
  have hm : r ∈ s.res.filter fun r => r.place = .orphan ∧ r.key.1 = n := List.mem_filter.2 ⟨hr, by simp [hp, hn]⟩
  rw [this] at hm
  cases hm

theorem marked_step {s : State} (hi : Inv s) {e : Ev} {n : Nat} (h : Marked n s) (h8 : e ≠ .config n 8)
    (ha : e = .add n → (step s e).2 ≠ some 0) : Marked n (step s e).1 := by
  have hf := effect s e n
  have horph : s.on n = none → (step s e).1.on n = none → (∀ r ∈ s.res, r.place = .orphan → r.key.1 ≠ n) → Marked n (step s e).1 := by
    intro h1 h2 h3
    refine .inr ⟨h2, fun r hr hp hn => ?_⟩
    rcases orphan_step hi hr hp with h | ⟨sp, h⟩
    · exact h3 r h hp hn
    · rw [hn, h1] at h
      cases h
  rcases h with ⟨sp, h1, h2⟩ | ⟨h1, h2⟩
  · rw [h1] at hf
    generalize hx : (step s e).1.on n = x at hf
    cases hf with
    | same => exact .inl ⟨_, hx, h2⟩
    | used => exact .inl ⟨_, hx, h2⟩
    | unused => exact .inl ⟨_, hx, h2⟩
    | byOrphans => exact .inl ⟨_, hx, rfl⟩
    | notByOrphans _ h => exact absurd h h8
    | remove => exact .inl ⟨_, hx, h2⟩
    | kill => exact .inl ⟨_, hx, h2⟩
    | leave _ stop he hk hd =>
      refine .inr ⟨hx, ?_⟩
      subst he
      rw [leave_res h1 hk hd]
      exact no_orphans ((allDead_iff.1 hd).2.2 h2)
  · rw [h1] at hf
    generalize hx : (step s e).1.on n = x at hf
    cases hf with
    | same => exact horph h1 hx h2
    | add he h0 => exact absurd h0 (ha he)

theorem marked_run {n : Nat} : ∀ {l : List Ev} {s : State}, Inv s → Marked n s → Ev.config n 8 ∉ l →
    (∀ a b, l = a ++ .add n :: b → (step (run s a) (.add n)).2 ≠ some 0) → Marked n (run s l)
  | [], _, _, h, _, _ => h
  | e :: l, s, hi, h, hl, ha => by
    refine marked_run (l := l) (step_inv hi e) (marked_step hi h (fun h => hl (by simp [h])) fun he => ?_)
      (fun h => hl (List.mem_cons_of_mem _ h)) fun a b hab => ?_
    · have := ha [] l (by rw [he]; rfl)
      rw [he]
      exact this
    · exact ha (e :: a) b (by rw [hab]; rfl)

/-- C74, part: from the time a lockspace was marked as used by orphans until it is unmarked, whenever there is an orphan lease in it the
lockspace is there and its watchdog connection is kept (until the lockspace is joined again after it was left without orphans).  Missing: an
orphan that is being acquired (`orphans_adopt_violated`), and a persistent lease of a process that exits because the lockspace fails, which
never becomes an orphan (`orphans_killed_violated`). -/
theorem orphans_stay_partial {pre post : List Ev} {n : Nat} (h : (step (run init pre) (.config n 4)).2 = some 0) (hno : Ev.config n 8 ∉ post)
    (ha : ∀ a b, post = a ++ .add n :: b → (step (run init (pre ++ .config n 4 :: a)) (.add n)).2 ≠ some 0) {r : Rs}
    (hr : r ∈ (run init (pre ++ .config n 4 :: post)).res) (hp : r.place = .orphan) (hk : r.key.1 = n) :
    ∃ sp, (run init (pre ++ .config n 4 :: post)).on n = some sp ∧ sp.watched = true := by
  have hi : Inv (step (run init pre) (.config n 4)).1 := step_inv (run_inv init_inv) _
  obtain ⟨sp, h1, -, h2⟩ := config_ok h
  have hm := marked_run (l := post) hi (.inl ⟨sp, h1, h2 rfl⟩) hno fun a b hab => by
    have := ha a b hab
    rw [run_append] at this
    exact this
  rw [run_append] at hr ⊢
  have hi' : Inv (run (step (run init pre) (.config n 4)).1 post) := run_inv hi
  rcases hm with ⟨sp, h1, -⟩ | ⟨-, h2⟩
  · exact ⟨sp, h1, hi'.watched n sp h1⟩
  · exact absurd hk (h2 r hr hp)

/-- A process acquires a persistent lease and exits. -/
def exOrphan : List Ev := [.connect, .acqInfo 0 ⟨(3, 7), true, false⟩ false, .acqToken 0, .acqEnd 0 true, .exit 0]

example : (step (run init [.add 3]) (.config 3 4)).2 = some 0 ∧
    (⟨(3, 7), .orphan, 0⟩ : Rs) ∈ (run init ([.add 3] ++ .config 3 4 :: (exOrphan ++ [.tick 3 true, .tick 3 true, .tick 3 true]))).res ∧
    ((run init ([.add 3] ++ (exOrphan ++ [.tick 3 true, .tick 3 true]))).on 3).isNone := by decide +kernel

/-- C74 is violated: an orphan that is just being acquired does not count.  The lockspace is marked as used by orphans and has one; another
process asks for it, the host id is lost, and the lockspace is left and its watchdog connection closed. -/
theorem orphans_adopt_violated : ∃ l : List Ev, (∀ k, Ev.relOrphan k ∉ l) ∧ (∀ i k, Ev.release i k ∉ l) ∧
    (⟨(3, 7), .orphan, 0⟩ : Rs) ∈ (run init ([.add 3, .config 3 4] ++ exOrphan)).res ∧
    (run init ([.add 3, .config 3 4] ++ exOrphan ++ l)).on 3 = none ∧
    (step (run init ([.add 3, .config 3 4] ++ exOrphan ++ l)) (.acqEnd 1 true)).2 = some (-28) := by
  refine ⟨[.connect, .acqInfo 1 ⟨(3, 7), true, false⟩ true, .tick 3 true, .acqToken 1, .tick 3 true], ?_, ?_, ?_, ?_, ?_⟩
  · intro k h
    simp at h
  · intro i k h
    simp at h
  · decide +kernel
  · decide +kernel
  · decide +kernel

/-- C74 is violated: a process with a persistent lease exits when it is signalled because the lockspace fails; its lease does not become an
orphan, and the lockspace is left although it is marked as used by orphans. -/
theorem orphans_killed_violated :
    let l : List Ev := [.add 3, .config 3 4, .connect, .acqInfo 0 ⟨(3, 7), true, false⟩ false, .acqToken 0, .acqEnd 0 true, .tick 3 true, .exit 0]
    (step (run init (l.take 5)) (.acqEnd 0 true)).2 = some 0 ∧ (run init l).res = [] ∧ (run init (l ++ [.tick 3 true])).on 3 = none := by
  decide +kernel

/-! ## Leaving -/

/-- C74: the daemon gives up a lockspace exactly when it has begun to, no process with a lease in it is left, it is not marked as used, and it
is not both marked as used by orphans and has one. -/
theorem leaves_iff {s : State} {e : Ev} {n : Nat} {sp : Space} (h : s.on n = some sp) :
    (step s e).1.on n = none ↔ (∃ stop, e = .tick n stop) ∧ sp.killing = true ∧ sp.ext = false ∧
      (∀ (i : Nat) (c : Client), s.cl[i]? = some c → c.pid = true → ∀ t ∈ c.toks, t.key.1 ≠ n) ∧
      (sp.orph = true → ∀ r ∈ s.res, r.place = .orphan → r.key.1 ≠ n) := by
  constructor
  · intro hn
    have hf := effect s e n
    rw [h, hn] at hf
    cases hf with
    | leave _ stop he hk hd =>
      have hd := allDead_iff.1 hd
      exact ⟨⟨stop, he⟩, hk, hd.2.1, fun i c hc hp => any_uses hd.1 hc hp, fun ho => no_orphans (hd.2.2 ho)⟩
  · rintro ⟨⟨stop, rfl⟩, hk, hext, hcl, horph⟩
    have hd : allDead s n sp = true := by
      refine allDead_iff.2 ⟨?_, hext, fun ho => ?_⟩
      · rw [List.any_eq_false]
        intro c hc hu
        obtain ⟨i, hi⟩ := List.getElem?_of_mem hc
        simp only [uses, Bool.and_eq_true, List.any_eq_true, decide_eq_true_eq] at hu
        obtain ⟨hp, t, ht, hk⟩ := hu
        exact hcl i c hi hp t ht hk
      · unfold orphans
        rw [List.length_eq_zero_iff, List.filter_eq_nil_iff]
        intro r hr hh
        simp only [decide_eq_true_eq] at hh
        exact horph ho r hr hh.1 hh.2
    simp only [step, tick, h, hk, hd, if_true, set]

example : ((run init [.add 3, .tick 3 true]).on 3).any (fun sp => sp.killing && !sp.ext) := by decide

/-- C74: a lockspace is being given up only after a removal was asked for, the host id was lost, or a shutdown was forced. -/
theorem stops_iff {s : State} {n : Nat} {sp : Space} {stop : Bool} (h : s.on n = some sp) (hk : sp.killing = false) :
    (∃ sp', (step s (.tick n stop)).1.on n = some sp' ∧ (sp'.killing = true ↔ stop = true ∨ sp.remove = true)) ∧
    (stop = false → sp.remove = false → (step s (.tick n stop)).1 = s) := by
  simp only [step, tick, h, hk, Bool.false_eq_true, if_false]
  constructor
  · cases stop <;> cases hr : sp.remove <;> simp [kill, set, h, hk]
  · rintro rfl hr
    simp [hr]

/-- C74: what `set_config` returns and does. -/
theorem config_codes {s : State} {n c : Nat} :
    ((step s (.config n c)).2 = some (-2) ↔ s.on n = none) ∧
    (∀ sp, s.on n = some sp →
      ((step s (.config n c)).2 = some (-28) ↔ sp.killing = true ∧ (c = 1 ∨ c = 4)) ∧
      ((step s (.config n c)).2 = some (-22) ↔ c ≠ 1 ∧ c ≠ 2 ∧ c ≠ 4 ∧ c ≠ 8) ∧
      ((step s (.config n c)).2 = some 0 ↔ c = 2 ∨ c = 8 ∨ (sp.killing = false ∧ (c = 1 ∨ c = 4))) ∧
      ((step s (.config n c)).2 ≠ some 0 → (step s (.config n c)).1 = s) ∧
      ((step s (.config n c)).2 = some 0 → (step s (.config n c)).1 =
        { s with on := fun m => if m = n then some { sp with ext := if c = 1 then true else if c = 2 then false else sp.ext,
                                                              orph := if c = 4 then true else if c = 8 then false else sp.orph } else s.on m })) := by
  simp only [step, config]
  cases hm : s.on n with
  | none => simp
  | some sp =>
    refine ⟨?_, ?_⟩
    · by_cases h1 : c = 1
      · subst h1
        cases hk : sp.killing <;> simp [hk]
      · by_cases h2 : c = 2
        · subst h2
          simp
        · by_cases h4 : c = 4
          · subst h4
            cases hk : sp.killing <;> simp [hk]
          · by_cases h8 : c = 8
            · subst h8
              simp
            · simp [h1, h2, h4, h8]
    · intro sp' hsp
      cases hsp
      by_cases h1 : c = 1
      · subst h1
        cases hk : sp.killing <;> simp [hk, set] <;> rfl
      · by_cases h2 : c = 2
        · subst h2
          simp [set]
          rfl
        · by_cases h4 : c = 4
          · subst h4
            cases hk : sp.killing <;> simp [hk, set] <;> rfl
          · by_cases h8 : c = 8
            · subst h8
              simp [set]
              rfl
            · simp [h1, h2, h4, h8]

example : (step (run init [.add 3, .tick 3 true]) (.config 3 1)).2 = some (-28) := by decide

/-! ## Removal of an unused lockspace -/

/-- C74: `rem_lockspace` with UNUSED returns -EBUSY exactly when there is a lease in the lockspace, of a process, an orphan, or one that is
being acquired or released; then nothing has changed. -/
theorem unused_busy {s : State} {w n : Nat} :
    ((step s (.check w n)).2 = some (-16) ↔ ∃ r ∈ s.res, r.key.1 = n) ∧ ((step s (.check w n)).2 = some (-16) → (step s (.check w n)).1 = s) := by
  simp only [step]
  cases h : isUsed s n with
  | false =>
    simp only [Bool.false_eq_true, if_false, reduceCtorEq, false_iff, false_implies, and_true]
    rintro ⟨r, hr, hn⟩
    unfold isUsed at h
    rw [List.any_eq_false] at h
    exact h r hr (by simpa using hn)
  | true =>
    simp only [if_true, true_iff, true_implies, and_true]
    obtain ⟨r, hr, hn⟩ := List.any_eq_true.1 h
    exact ⟨r, hr, by simpa using hn⟩

theorem kill_none {s : State} {n : Nat} (h : s.cl.any (uses n) = false) : (kill s n).killed = s.killed ∧ (kill s n).cl.any (uses n) = false := by
  constructor
  · simp only [kill]
    suffices hs : ((List.range s.cl.length).filter fun i => (s.cl[i]?).any (uses n)) = [] by
      rw [hs, List.append_nil]
    rw [List.filter_eq_nil_iff]
    intro i _ hu
    rw [List.any_eq_false] at h
    cases hc : s.cl[i]? with
    | none => rw [hc] at hu; cases hu
    | some c => rw [hc] at hu; exact h c (List.mem_of_getElem? hc) hu
  · simp only [kill]
    rw [List.any_eq_false] at h ⊢
    intro c hc hu
    obtain ⟨c0, h0, rfl⟩ := List.mem_map.1 hc
    refine h c0 h0 ?_
    unfold doom at hu
    split at hu
    · rename_i hp
      simp only [uses, Bool.and_eq_true, List.any_eq_true, decide_eq_true_eq] at hu ⊢
      obtain ⟨-, t, ht, hn⟩ := hu
      obtain ⟨t0, ht0, rfl⟩ := List.mem_map.1 ht
      refine ⟨hp, t0, ht0, ?_⟩
      split at hn <;> exact hn
    · exact hu

/-- C74, part: when the check of UNUSED passes, no process has a lease in the lockspace and there is no orphan; if the rest of the removal
follows without another command in between and the lockspace is not marked as used, no process is signalled and the lockspace is left.
Missing: commands in between (`unused_race_violated`), and a marked lockspace (`unused_marked_violated`). -/
theorem unused_safe_partial {l : List Ev} {w n : Nat} {sp : Space} (h : (step (run init l) (.check w n)).2 ≠ some (-16))
    (hn : (run init l).on n = some sp) (hext : sp.ext = false) (b b' : Bool) :
    (∀ (i : Nat) (c : Client), (run init l).cl[i]? = some c → ∀ t ∈ c.toks, t.key.1 ≠ n) ∧ (∀ r ∈ (run init l).res, r.place = .orphan → r.key.1 ≠ n) ∧
    (run init (l ++ [.check w n, .removeUnused w, .tick n b, .tick n b'])).killed = (run init l).killed ∧
    (run init (l ++ [.check w n, .removeUnused w, .tick n b, .tick n b'])).on n = none := by
  have hi : Inv (run init l) := run_inv init_inv
  rw [run_append]
  generalize run init l = s at *
  have hu : ¬ ∃ r ∈ s.res, r.key.1 = n := fun hu => h (unused_busy.1.2 hu)
  have hf : isUsed s n = false := by
    cases hc : isUsed s n
    · rfl
    · exact absurd (by simp [step, hc]) h
  have hcl : ∀ (i : Nat) (c : Client), s.cl[i]? = some c → ∀ t ∈ c.toks, t.key.1 ≠ n := by
    intro i c hc t ht e
    have := look_mem ((hi.client i c hc).held t ht)
    exact hu ⟨_, this.1, e⟩
  have horph : ∀ r ∈ s.res, r.place = .orphan → r.key.1 ≠ n := fun r hr _ e => hu ⟨r, hr, e⟩
  have hany : s.cl.any (uses n) = false := by
    rw [List.any_eq_false]
    intro c hc hu
    obtain ⟨i, hi⟩ := List.getElem?_of_mem hc
    simp only [uses, Bool.and_eq_true, List.any_eq_true, decide_eq_true_eq] at hu
    obtain ⟨hp, t, ht, hk⟩ := hu
    exact hcl i c hi t ht hk
  have hor : orphans s n = 0 := by
    unfold orphans
    rw [List.length_eq_zero_iff, List.filter_eq_nil_iff]
    intro r hr hh
    simp only [decide_eq_true_eq] at hh
    exact horph r hr hh.1 hh.2
  refine ⟨hcl, horph, ?_⟩
  have hl := hi.stays hn
  let s1 : State := { s with on := set s.on n (some { sp with remove := true }), checked := set (set s.checked w (some n)) w none }
  have e1 : (step (step s (.check w n)).1 (.removeUnused w)).1 = s1 := by
    simp only [step, hf, Bool.false_eq_true, if_false, set, if_true, start, hl, hn]
    rfl
  have hon1 : s1.on n = some { sp with remove := true } := by simp [s1, set]
  cases hk : sp.killing with
  | true =>
    have hd : allDead s1 n { sp with remove := true } = true := allDead_iff.2 ⟨hany, hext, fun _ => hor⟩
    have e2 : (step s1 (.tick n b)).1.on n = none ∧ (step s1 (.tick n b)).1.killed = s.killed := by
      rw [hk] at hd
      simp only [step, tick, hon1, hk, hd, if_true, set]
      exact ⟨trivial, rfl⟩
    have e3 : (step (step s1 (.tick n b)).1 (.tick n b')).1 = (step s1 (.tick n b)).1 := by
      generalize step s1 (.tick n b) = x at e2
      simp only [step, tick, e2.1]
    simp only [run, List.foldl_cons, List.foldl_nil, e1, e3]
    exact ⟨e2.2, e2.1⟩
  | false =>
    let s2 : State := kill { s1 with on := set s1.on n (some { sp with remove := true, killing := true }) } n
    have e2 : (step s1 (.tick n b)).1 = s2 := by
      simp only [step, tick, hon1, hk, Bool.false_eq_true, if_false, Bool.or_true, if_true]
      rfl
    have hkn := kill_none (s := { s1 with on := set s1.on n (some { sp with remove := true, killing := true }) }) (n := n) hany
    have hon2 : s2.on n = some { sp with remove := true, killing := true } := by
      show set s1.on n _ n = _
      simp [set]
    have hd : allDead s2 n { sp with remove := true, killing := true } = true := allDead_iff.2 ⟨hkn.2, hext, fun _ => hor⟩
    have e3 : (step s2 (.tick n b')).1.on n = none ∧ (step s2 (.tick n b')).1.killed = s2.killed := by
      simp only [step, tick, hon2, hd, if_true, set]
      exact ⟨trivial, trivial⟩
    simp only [run, List.foldl_cons, List.foldl_nil, e1, e2]
    exact ⟨e3.2.trans hkn.1, e3.1⟩

example : (step (run init [.add 3, .connect]) (.check 0 3)).2 ≠ some (-16) ∧ ((run init [.add 3, .connect]).on 3).any (fun sp => !sp.ext) := by decide

/-- C74 is violated: UNUSED does not look at the mark.  A lockspace marked as used by something else is not busy: its removal begins, from then
on no lease can be acquired in it, it cannot be marked again, and the call does not return before the mark is taken away. -/
theorem unused_marked_violated {l : List Ev} {w n : Nat} {sp : Space} (hn : (run init l).on n = some sp) (hext : sp.ext = true)
    (hk : sp.killing = false) (hu : ∀ r ∈ (run init l).res, r.key.1 ≠ n) :
    (step (run init l) (.check w n)).2 ≠ some (-16) ∧ (step (run init (l ++ [.check w n])) (.removeUnused w)).2 = some 0 ∧
    (step (run init (l ++ [.check w n, .removeUnused w, .tick n false])) (.config n 1)).2 = some (-28) ∧
    (∀ post, Ev.config n 2 ∉ post → (run init (l ++ post)).on n ≠ none) := by
  refine ⟨?_, ?_, ?_, ?_⟩
  rotate_left 3
  · intro post hp h
    obtain ⟨sp', h1, -⟩ := ext_run (l := post) ⟨sp, hn, hext⟩ hp
    rw [run_append, h1] at h
    cases h
  all_goals
    have hi : Inv (run init l) := run_inv init_inv
    try rw [run_append]
    generalize run init l = s at *
    have hf : isUsed s n = false := by
      unfold isUsed
      rw [List.any_eq_false]
      intro r hr h
      exact hu r hr (by simpa using h)
    have hl := hi.stays hn
  · simp [step, hf]
  · simp [run, step, hf, set, start, hl, hn]
  · simp [run, step, hf, set, start, hl, hn, tick, hk, kill, config]

example : ((run init [.add 3, .config 3 1]).on 3).any (fun sp => sp.ext && !sp.killing) ∧ (run init [.add 3, .config 3 1]).res = [] := by decide

/-- C74 is violated: a process that acquires a lease between the check of UNUSED and the removal is signalled. -/
theorem unused_race_violated :
    let l : List Ev := [.add 3, .connect, .check 0 3, .acqInfo 0 ⟨(3, 7), false, false⟩ false, .acqToken 0, .acqEnd 0 true, .removeUnused 0, .tick 3 false]
    (step (run init (l.take 5)) (.acqEnd 0 true)).2 = some 0 ∧ (step (run init (l.take 6)) (.removeUnused 0)).2 = some 0 ∧
    (run init l).killed = [0] := by decide +kernel

/-- C74: a process is signalled only because of a lockspace in which it has a lease. -/
theorem killed_has_lease {s : State} {e : Ev} {i : Nat} (h : i ∈ (step s e).1.killed) (h0 : i ∉ s.killed) :
    ∃ n stop c, e = .tick n stop ∧ s.cl[i]? = some c ∧ c.pid = true ∧ ∃ t ∈ c.toks, t.key.1 = n := by
  have hk : ∀ {s' : State} {n : Nat}, s'.cl = s.cl → s'.killed = s.killed → i ∈ (kill s' n).killed →
      ∃ c, s.cl[i]? = some c ∧ c.pid = true ∧ ∃ t ∈ c.toks, t.key.1 = n := by
    intro s' n h1 h2 h
    simp only [kill, h1, h2, List.mem_append, List.mem_filter] at h
    rcases h with h | ⟨-, h⟩
    · exact absurd h h0
    · cases hc : s.cl[i]? with
      | none => rw [hc] at h; cases h
      | some c =>
        rw [hc] at h
        simp only [Option.any_some, uses, Bool.and_eq_true, List.any_eq_true, decide_eq_true_eq] at h
        exact ⟨c, rfl, h⟩
  cases e with
  | tick n stop =>
    refine ⟨n, stop, ?_⟩
    simp only [step, tick] at h
    cases hn : s.on n with
    | none => rw [hn] at h; exact absurd h h0
    | some sp =>
      rw [hn] at h
      simp only at h
      split at h
      · split at h
        · exact absurd h h0
        · obtain ⟨c, hc⟩ := hk rfl rfl h
          exact ⟨c, rfl, hc⟩
      · split at h
        · obtain ⟨c, hc⟩ := hk rfl rfl h
          exact ⟨c, rfl, hc⟩
        · exact absurd h h0
  | add m => simp only [step] at h; split at h <;> exact absurd h h0
  | config m c =>
    simp only [step, config] at h
    cases hm : s.on m with
    | none => rw [hm] at h; exact absurd h h0
    | some sp =>
      rw [hm] at h
      simp only at h
      split at h
      · split at h <;> exact absurd h h0
      · split at h
        · exact absurd h h0
        · split at h
          · split at h <;> exact absurd h h0
          · split at h <;> exact absurd h h0
  | check w m => simp only [step] at h; split at h <;> exact absurd h h0
  | removeUnused w =>
    simp only [step] at h
    split at h
    · exact absurd h h0
    · unfold start at h
      split at h
      · exact absurd h h0
      · split at h <;> exact absurd h h0
  | remove m =>
    simp only [step, start] at h
    split at h
    · exact absurd h h0
    · split at h <;> exact absurd h h0
  | ended m => simp only [step] at h; split at h <;> exact absurd h h0
  | connect => exact absurd h h0
  | acqInfo j t o =>
    simp only [step] at h
    split at h
    · exact absurd h h0
    · split at h
      · split at h
        · exact absurd h h0
        · split at h <;> exact absurd h h0
      · exact absurd h h0
  | acqToken j =>
    simp only [step] at h
    split at h
    · exact absurd h h0
    · split at h
      · split at h
        · exact absurd h h0
        · split at h
          · exact absurd h h0
          · unfold endCmd at h
            split at h <;> exact absurd h h0
      · exact absurd h h0
  | acqEnd j ok =>
    simp only [step] at h
    split at h
    · exact absurd h h0
    · split at h
      · split at h
        · exact absurd h h0
        · unfold endCmd at h
          split at h <;> exact absurd h h0
      · exact absurd h h0
  | release j k =>
    simp only [step] at h
    split at h
    · exact absurd h h0
    · split at h <;> exact absurd h h0
  | exit j =>
    simp only [step] at h
    split at h
    · exact absurd h h0
    · split at h
      · exact absurd h h0
      · split at h <;> exact absurd h h0
  | relOrphan k =>
    simp only [step] at h
    split at h
    · exact absurd h h0
    · split at h <;> exact absurd h h0
  | released k =>
    simp only [step] at h
    split at h
    · exact absurd h h0
    · split at h <;> exact absurd h h0

end Sanlock.Used
