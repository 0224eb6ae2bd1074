import Verif.Shutdown

/-! # Lemmas about shutting down -/

namespace Sanlock.Shutdown

/-- Facts about every state of a running daemon. -/
structure Inv (s : State) : Prop where
  nodup : (s.spaces.map (·.id)).Nodup
  fresh : ∀ sp ∈ s.spaces, sp.id < s.next
  addNodup : (s.add.map (·.1)).Nodup
  addFresh : ∀ x ∈ s.add, x.1 < s.next
  disj : ∀ sp ∈ s.spaces, ∀ x ∈ s.add, sp.id ≠ x.1
  seen : s.pc = .test false → s.spaces ≠ []

theorem inv_init : Inv init :=
  ⟨List.nodup_nil, by simp [init], List.nodup_nil, by simp [init], by simp [init], by simp [init]⟩

theorem map_ids (l : List Space) (p : Space → Bool) (f : Space → Space) (hf : ∀ x, (f x).id = x.id) :
    (l.map fun x => if p x then f x else x).map (·.id) = l.map (·.id) := by
  rw [List.map_map]
  apply List.map_congr_left
  intro x _
  simp only [Function.comp]
  split
  · exact hf x
  · rfl

theorem map_fsts (l : List (Nat × α)) (id : Nat) (a : α) :
    (l.map fun x => if x.1 == id then (id, a) else x).map (·.1) = l.map (·.1) := by
  rw [List.map_map]
  apply List.map_congr_left
  intro x _
  simp only [Function.comp]
  split
  · rename_i h; exact (beq_iff_eq.mp h).symm
  · rfl

/-- The invariant only looks at the identities of the lockspaces. -/
theorem Inv.of_ids {s t : State} (h : Inv s) (hs : t.spaces.map (·.id) = s.spaces.map (·.id))
    (ha : t.add.map (·.1) = s.add.map (·.1)) (hn : t.next = s.next) (hp : t.pc = s.pc) : Inv t := by
  have key : ∀ {n}, (∃ sp ∈ t.spaces, sp.id = n) ↔ ∃ sp ∈ s.spaces, sp.id = n := by
    intro n
    have := List.mem_map (f := (·.id)) (l := t.spaces) (b := n)
    have := List.mem_map (f := (·.id)) (l := s.spaces) (b := n)
    simp_all
  have keyA : ∀ {n}, (∃ x ∈ t.add, x.1 = n) ↔ ∃ x ∈ s.add, x.1 = n := by
    intro n
    have h1 := List.mem_map (f := (·.1)) (l := t.add) (b := n)
    have h2 := List.mem_map (f := (·.1)) (l := s.add) (b := n)
    rw [ha] at h1
    exact h1.symm.trans h2
  refine ⟨hs ▸ h.nodup, ?_, ha ▸ h.addNodup, ?_, ?_, ?_⟩
  · intro sp hm
    obtain ⟨x, hx, e⟩ := key.mp ⟨sp, hm, rfl⟩
    rw [hn, ← e]; exact h.fresh x hx
  · intro x hm
    obtain ⟨y, hy, e⟩ := keyA.mp ⟨x, hm, rfl⟩
    rw [hn, ← e]; exact h.addFresh y hy
  · intro sp hm x hx e
    obtain ⟨sp', h1, e1⟩ := key.mp ⟨sp, hm, rfl⟩
    obtain ⟨y, hy, e2⟩ := keyA.mp ⟨x, hx, rfl⟩
    exact h.disj sp' h1 y hy (by rw [e1, e2]; exact e)
  · intro hpc hnil
    refine h.seen (hp ▸ hpc) ?_
    rw [hnil] at hs
    simpa using hs.symm

theorem visit_cases (s : State) (bad : Bool) (id : Nat) :
    (∃ sp ∈ s.spaces, sp.id = id ∧ sp.killing = true ∧ sp.users = 0 ∧
      visit s bad id = { s with spaces := s.spaces.filter (·.id != id), rem := (id, false) :: s.rem }) ∨
    (∃ sp ∈ s.spaces, sp.id = id ∧ sp.killing = false ∧ (bad = true ∨ s.shut > 1) ∧
      visit s bad id =
        { s with spaces := s.spaces.map fun x => if x.id == id then { x with killing := true } else x }) ∨
    (visit s bad id = s ∧
      (s.spaces.find? (·.id == id) = none ∨
        ∃ sp, s.spaces.find? (·.id == id) = some sp ∧ (sp.killing = true → sp.users ≠ 0) ∧
          (sp.killing = false → bad = false ∧ s.shut ≤ 1))) := by
  unfold visit
  cases hf : s.spaces.find? (·.id == id) with
  | none => right; right; exact ⟨rfl, .inl rfl⟩
  | some sp =>
    have hm := List.mem_of_find?_eq_some hf
    have hid : sp.id = id := by have := List.find?_some hf; simpa using this
    simp only
    by_cases h1 : (sp.killing && sp.users == 0) = true
    · left
      rw [if_pos h1]
      simp only [Bool.and_eq_true, beq_iff_eq] at h1
      exact ⟨sp, hm, hid, h1.1, h1.2, rfl⟩
    · rw [if_neg h1]
      by_cases h2 : (!sp.killing && (bad || decide (s.shut > 1))) = true
      · right; left
        rw [if_pos h2]
        simp only [Bool.and_eq_true, Bool.not_eq_true', Bool.or_eq_true, decide_eq_true_eq] at h2
        exact ⟨sp, hm, hid, h2.1, h2.2, rfl⟩
      · right; right
        rw [if_neg h2]
        refine ⟨rfl, .inr ⟨sp, rfl, ?_, ?_⟩⟩
        · intro hk hu; apply h1; simp [hk, hu]
        · intro hk
          simp only [hk, Bool.not_false, Bool.true_and, Bool.or_eq_true, decide_eq_true_eq, not_or] at h2
          exact ⟨by simpa using h2.1, by omega⟩

theorem visit_keeps (s : State) (bad : Bool) (id : Nat) :
    (visit s bad id).add = s.add ∧ (visit s bad id).next = s.next ∧ (visit s bad id).shut = s.shut ∧
      (visit s bad id).waiter = s.waiter ∧ (visit s bad id).out = s.out := by
  rcases visit_cases s bad id with ⟨_, _, _, _, _, e⟩ | ⟨_, _, _, _, _, e⟩ | ⟨e, _⟩ <;> rw [e] <;>
    exact ⟨rfl, rfl, rfl, rfl, rfl⟩

/-- No step of the loop over the lockspaces makes a new one. -/
theorem visit_sub (s : State) (bad : Bool) (id : Nat) :
    ∀ sp ∈ (visit s bad id).spaces, ∃ sp' ∈ s.spaces, sp'.id = sp.id ∧ sp'.users = sp.users ∧
      (sp'.killing = true → sp.killing = true) := by
  rcases visit_cases s bad id with ⟨_, _, _, _, _, e⟩ | ⟨_, _, _, _, _, e⟩ | ⟨e, _⟩ <;> rw [e] <;> intro sp hm
  · exact ⟨sp, (List.mem_filter.mp hm).1, rfl, rfl, fun h => h⟩
  · obtain ⟨x, hx, rfl⟩ := List.mem_map.mp hm
    refine ⟨x, hx, ?_, ?_, ?_⟩ <;> split <;> simp
  · exact ⟨sp, hm, rfl, rfl, fun h => h⟩

theorem visit_inv {s : State} (h : Inv s) (bad : Bool) (id : Nat) (todo : List Nat) :
    Inv { visit s bad id with pc := .round todo } := by
  rcases visit_cases s bad id with ⟨sp, hm, hid, _, _, e⟩ | ⟨sp, hm, hid, _, _, e⟩ | ⟨e, _⟩ <;> rw [e]
  · refine ⟨?_, ?_, h.addNodup, h.addFresh, ?_, by simp⟩
    · exact h.nodup.sublist (List.filter_sublist.map _)
    · intro x hx; exact h.fresh x ((List.mem_filter.mp hx).1)
    · intro x hx; exact h.disj x ((List.mem_filter.mp hx).1)
  · have := h.of_ids (t := { s with
        spaces := s.spaces.map fun x => if x.id == id then { x with killing := true } else x })
      (map_ids _ (fun x => x.id == id) _ (fun _ => rfl)) rfl rfl rfl
    exact ⟨this.nodup, this.fresh, this.addNodup, this.addFresh, this.disj, by simp⟩
  · exact ⟨h.nodup, h.fresh, h.addNodup, h.addFresh, h.disj, by simp⟩

theorem Inv.of_pc {s : State} (h : Inv s) {t : State} (hs : t.spaces = s.spaces) (ha : t.add = s.add)
    (hn : t.next = s.next) (hp : t.pc = .test false → s.spaces ≠ []) : Inv t :=
  ⟨hs ▸ h.nodup, hs ▸ hn ▸ h.fresh, ha ▸ h.addNodup, ha ▸ hn ▸ h.addFresh, hs ▸ ha ▸ h.disj,
    fun e => hs ▸ hp e⟩

theorem main_inv {s t : State} (h : Inv s) {bad : Bool} (e : main s bad = some t) : Inv t := by
  unfold main at e
  split at e
  · obtain rfl := Option.some.inj e; exact h.of_pc rfl rfl rfl (by simp)
  · obtain rfl := Option.some.inj e; exact visit_inv h _ _ _
  · obtain rfl := Option.some.inj e
    refine h.of_pc rfl rfl rfl ?_
    intro e2
    simp only [Pc.test.injEq] at e2
    intro hn; rw [hn] at e2; cases e2
  · obtain rfl := Option.some.inj e
    refine h.of_pc rfl rfl rfl ?_
    intro e2; simp only at e2; split at e2 <;> cases e2
  · obtain rfl := Option.some.inj e
    refine h.of_pc rfl rfl rfl ?_
    intro e2; simp only at e2; split at e2 <;> cases e2
  · obtain rfl := Option.some.inj e; exact h.of_pc rfl rfl rfl (by simp)
  · obtain rfl := Option.some.inj e; exact h.of_pc rfl rfl rfl (by simp)
  · split at e
    · obtain rfl := Option.some.inj e; exact h.of_pc rfl rfl rfl (by simp)
    · cases e
  · obtain rfl := Option.some.inj e; exact h.of_pc rfl rfl rfl (by simp)
  · split at e
    · obtain rfl := Option.some.inj e; exact h.of_pc rfl rfl rfl (by simp)
    · cases e
  · cases e

theorem cmd_spec (s : State) (f : Bool) :
    cmd s f = s ∨ (f = true ∧ cmd s f = { s with shut := 2 }) ∨
      (f = false ∧ noSpaces s = true ∧ cmd s f = { s with shut := 1 }) := by
  unfold cmd
  cases f
  · simp only [Bool.false_eq_true, if_false]
    split
    · rename_i h; exact .inr (.inr ⟨trivial, h, rfl⟩)
    · exact .inl rfl
  · exact .inr (.inl ⟨rfl, rfl⟩)

theorem wait_spec (s : State) (c : Nat) (f : Bool) :
    (f = true ∧ wait s c f = { s with waiter := some c, shut := 2 }) ∨
      (f = false ∧ noSpaces s = true ∧ wait s c f = { s with waiter := some c, shut := 1 }) ∨
      (f = false ∧ noSpaces s = false ∧ wait s c f = { s with out := (c, Rv.EBUSY) :: s.out }) := by
  unfold wait
  cases f
  · simp only [Bool.false_eq_true, if_false]
    split
    · rename_i h; exact .inr (.inl ⟨trivial, h, rfl⟩)
    · rename_i h; exact .inr (.inr ⟨trivial, by simpa using h, rfl⟩)
  · exact .inl ⟨rfl, rfl⟩

/-- What the steps of the other threads do to the state. -/
inductive Other (s : State) : Act → State → Prop where
  | cmdF : s.pc = .poll → Other s (.cmd true) { s with shut := 2 }
  | cmdU : s.pc = .poll → noSpaces s = true → Other s (.cmd false) { s with shut := 1 }
  | cmdN : s.pc = .poll → Other s (.cmd false) s
  | waitF (c) : s.pc ≠ .exited → Other s (.wait c true) { s with waiter := some c, shut := 2 }
  | waitU (c) : s.pc ≠ .exited → s.pc.locked = false → noSpaces s = true →
      Other s (.wait c false) { s with waiter := some c, shut := 1 }
  | waitN (c) : s.pc ≠ .exited → s.pc.locked = false → noSpaces s = false →
      Other s (.wait c false) { s with out := (c, Rv.EBUSY) :: s.out }
  | signal : s.pc ≠ .exited → Other s .signal { s with shut := 1 }
  | addStart : s.pc ≠ .exited → s.pc.locked = false →
      Other s .addStart { s with add := (s.next, .acquiring) :: s.add, next := s.next + 1 }
  | acquired (id) : (id, Adding.acquiring) ∈ s.add →
      Other s (.acquired id) { s with add := s.add.map fun x => if x.1 == id then (id, .held) else x }
  | addUndo (id) : (id, Adding.held) ∈ s.add → s.pc.locked = false → s.shut ≠ 0 →
      Other s (.addEnd id) { s with add := s.add.map fun x => if x.1 == id then (id, .undoing) else x }
  | addDone (id) : (id, Adding.held) ∈ s.add → s.pc.locked = false → s.shut = 0 →
      Other s (.addEnd id)
        { s with add := s.add.filter (·.1 != id), spaces := ⟨id, false, 0⟩ :: s.spaces }
  | addDel (id) : s.pc.locked = false → Other s (.addDel id) { s with add := s.add.filter (·.1 != id) }
  | use (id) : (s.spaces.any fun x => x.id == id && !x.killing) = true → s.pc.locked = false →
      s.pc ≠ .exited →
      Other s (.use id)
        { s with spaces := s.spaces.map fun x => if x.id == id then { x with users := x.users + 1 } else x }
  | leave (id) :
      Other s (.leave id)
        { s with spaces := s.spaces.map fun x => if x.id == id then { x with users := x.users - 1 } else x }
  | ended (id) : (id, false) ∈ s.rem →
      Other s (.ended id) { s with rem := s.rem.map fun x => if x.1 == id then (id, true) else x }

theorem step_cases {s t : State} {a : Act} (e : step s a = some t) :
    (∃ b, a = .main b ∧ main s b = some t) ∨ Other s a t := by
  cases a with
  | main b => exact .inl ⟨b, rfl, e⟩
  | cmd f =>
    right
    simp only [step] at e
    split at e
    · rename_i hp
      obtain rfl := Option.some.inj e
      rcases cmd_spec s f with h | ⟨rfl, h⟩ | ⟨rfl, h1, h⟩
      · cases f
        · rw [h]; exact .cmdN hp
        · exact .cmdF hp
      · exact .cmdF hp
      · rw [h]; exact .cmdU hp h1
    · cases e
  | wait c f =>
    right
    simp only [step] at e
    split at e
    · cases e
    · rename_i hp
      obtain rfl := Option.some.inj e
      simp only [Bool.or_eq_true, decide_eq_true_eq, Bool.and_eq_true, Bool.not_eq_true', not_or,
        not_and, Bool.not_eq_true] at hp
      rcases wait_spec s c f with ⟨rfl, h⟩ | ⟨rfl, h1, h⟩ | ⟨rfl, h1, h⟩ <;> rw [h]
      · exact .waitF c hp.1
      · exact .waitU c hp.1 (hp.2 rfl) h1
      · exact .waitN c hp.1 (hp.2 rfl) h1
  | signal =>
    right
    simp only [step] at e
    split at e
    · cases e
    · rename_i hp; obtain rfl := Option.some.inj e; exact .signal hp
  | addStart =>
    right
    simp only [step] at e
    split at e
    · cases e
    · rename_i hp
      obtain rfl := Option.some.inj e
      simp only [Bool.or_eq_true, decide_eq_true_eq, not_or, Bool.not_eq_true] at hp
      exact .addStart hp.1 hp.2
  | acquired id =>
    right
    simp only [step] at e
    split at e
    · rename_i hp; obtain rfl := Option.some.inj e; exact .acquired id hp
    · cases e
  | addEnd id =>
    right
    simp only [step] at e
    split at e
    · rename_i hp
      obtain rfl := Option.some.inj e
      simp only [Bool.and_eq_true, decide_eq_true_eq, Bool.not_eq_true'] at hp
      unfold addEnd
      split
      · rename_i h; exact .addUndo id hp.1 hp.2 (by simpa using h)
      · rename_i h; exact .addDone id hp.1 hp.2 (by simpa using h)
    · cases e
  | addDel id =>
    right
    simp only [step] at e
    split at e
    · rename_i hp
      obtain rfl := Option.some.inj e
      simp only [Bool.and_eq_true, Bool.not_eq_true'] at hp
      exact .addDel id hp.2
    · cases e
  | use id =>
    right
    simp only [step] at e
    split at e
    · rename_i hp
      obtain rfl := Option.some.inj e
      simp only [Bool.and_eq_true, Bool.not_eq_true', bne_iff_ne, ne_eq] at hp
      exact .use id hp.1.1 hp.1.2 hp.2
    · cases e
  | leave id =>
    right
    simp only [step] at e
    obtain rfl := Option.some.inj e
    exact .leave id
  | ended id =>
    right
    simp only [step] at e
    split at e
    · rename_i hp; obtain rfl := Option.some.inj e; exact .ended id hp
    · cases e

theorem Other.pc {s t : State} {a : Act} (h : Other s a t) : t.pc = s.pc := by
  cases h <;> rfl

theorem other_inv {s t : State} {a : Act} (h : Inv s) (o : Other s a t) : Inv t := by
  cases o with
  | cmdF | cmdU | cmdN | waitF | waitU | waitN | signal | ended =>
    exact h.of_pc rfl rfl rfl h.seen
  | addStart =>
    refine ⟨h.nodup, fun x hx => Nat.lt_succ_of_lt (h.fresh x hx), ?_, ?_, ?_, h.seen⟩
    · simp only [List.map_cons, List.nodup_cons]
      refine ⟨?_, h.addNodup⟩
      intro hm
      obtain ⟨x, hx, e⟩ := List.mem_map.mp hm
      have := h.addFresh x hx
      omega
    · intro x hx
      rcases List.mem_cons.mp hx with rfl | hx
      · exact Nat.lt_succ_self _
      · exact Nat.lt_succ_of_lt (h.addFresh x hx)
    · intro sp hm x hx
      rcases List.mem_cons.mp hx with rfl | hx
      · exact Nat.ne_of_lt (h.fresh sp hm)
      · exact h.disj sp hm x hx
  | acquired id => exact h.of_ids rfl (map_fsts _ _ _) rfl rfl
  | addUndo id => exact h.of_ids rfl (map_fsts _ _ _) rfl rfl
  | addDone id hm =>
    refine ⟨?_, ?_, h.addNodup.sublist (List.filter_sublist.map _),
      fun x hx => h.addFresh x ((List.mem_filter.mp hx).1), ?_, fun _ => by simp⟩
    · simp only [List.map_cons, List.nodup_cons]
      refine ⟨?_, h.nodup⟩
      intro h1
      obtain ⟨x, hx, e⟩ := List.mem_map.mp h1
      exact h.disj x hx _ hm e
    · intro sp hs
      rcases List.mem_cons.mp hs with rfl | hs
      · exact h.addFresh _ hm
      · exact h.fresh sp hs
    · intro sp hs x hx
      have hx' := List.mem_filter.mp hx
      rcases List.mem_cons.mp hs with rfl | hs
      · have := hx'.2; simp only [bne_iff_ne, ne_eq] at this; exact fun e => this e.symm
      · exact h.disj sp hs x hx'.1
  | addDel id =>
    exact ⟨h.nodup, h.fresh, h.addNodup.sublist (List.filter_sublist.map _),
      fun x hx => h.addFresh x ((List.mem_filter.mp hx).1),
      fun sp hs x hx => h.disj sp hs x ((List.mem_filter.mp hx).1), h.seen⟩
  | use id => exact h.of_ids (map_ids _ (fun x => x.id == id) _ (fun _ => rfl)) rfl rfl rfl
  | leave id => exact h.of_ids (map_ids _ (fun x => x.id == id) _ (fun _ => rfl)) rfl rfl rfl

theorem step_inv {s t : State} {a : Act} (h : Inv s) (e : step s a = some t) : Inv t := by
  rcases step_cases e with ⟨b, _, e⟩ | o
  · exact main_inv h e
  · exact other_inv h o

theorem run_cons {s u : State} {a : Act} {as : List Act} (h : run s (a :: as) = some u) :
    ∃ t, step s a = some t ∧ run t as = some u := by
  simp only [run, Option.bind_eq_some_iff] at h
  exact h

theorem run_append {s : State} (as bs : List Act) :
    run s (as ++ bs) = (run s as).bind fun t => run t bs := by
  induction as generalizing s with
  | nil => rfl
  | cons a as ih =>
    simp only [List.cons_append, run]
    cases step s a with
    | none => rfl
    | some t => exact ih

/-- A property kept by every step is kept by every run. -/
theorem run_ind {P : State → Prop} {s u : State} {as : List Act} (h : P s) (e : run s as = some u)
    (st : ∀ s t a, a ∈ as → P s → step s a = some t → P t) : P u := by
  induction as generalizing s with
  | nil => obtain rfl := Option.some.inj e; exact h
  | cons a as ih =>
    obtain ⟨t, e1, e2⟩ := run_cons e
    exact ih (st _ _ a (List.mem_cons_self ..) h e1) e2
      fun s t b hb => st s t b (List.mem_cons_of_mem _ hb)

theorem run_inv {s u : State} {as : List Act} (h : Inv s) (e : run s as = some u) : Inv u :=
  run_ind h e fun _ _ _ _ => step_inv

theorem Reach.inv {s : State} (h : Reach s) : Inv s := by
  obtain ⟨as, e⟩ := h
  exact run_inv inv_init e

theorem Reach.run {s u : State} {as : List Act} (h : Reach s) (e : run s as = some u) : Reach u := by
  obtain ⟨bs, e1⟩ := h
  exact ⟨bs ++ as, by rw [run_append, e1]; exact e⟩

/-- Number of steps of the main thread. -/
def mains : List Act → Nat
  | [] => 0
  | .main _ :: as => mains as + 1
  | _ :: as => mains as

theorem mains_other {s t : State} {a : Act} (o : Other s a t) (as : List Act) : mains (a :: as) = mains as := by
  cases o <;> rfl

/-! ### A shutdown that has been accepted without force -/

/-- No lockspace is left and nothing forgets the shutdown. -/
structure Final (s : State) : Prop where
  spaces : s.spaces = []
  rem : s.rem = []
  shut : s.shut ≠ 0
  ignore : s.pc ≠ .ignore
  clear : s.pc ≠ .clear
  test : s.pc ≠ .test false
  round : ∀ l, s.pc = .round l → l = []

/-- Steps of the main thread until the client is answered. -/
def rank : Pc → Nat
  | .free => 6 | .poll => 5 | .round _ => 4 | .test _ => 3 | .drain => 2 | .reply => 1 | _ => 0

theorem final_main {s t : State} (h : Final s) {b : Bool} (e : main s b = some t) :
    Final t ∧ (rank t.pc < rank s.pc ∨ (s.pc = .pool ∧ t.pc = .exited)) := by
  obtain ⟨h1, h2, h3, h4, h5, h6, h7⟩ := h
  unfold main at e
  split at e
  · rename_i hp
    obtain rfl := Option.some.inj e
    refine ⟨⟨h1, h2, h3, by simp, by simp, by simp, ?_⟩, .inl (by rw [hp]; simp [rank])⟩
    intro l e; simp only [h1, List.map_nil, Pc.round.injEq] at e; exact e.symm
  · rename_i hp; have := h7 _ hp; cases this
  · rename_i hp
    obtain rfl := Option.some.inj e
    refine ⟨⟨h1, h2, h3, by simp, by simp, by simp [h1], by simp⟩, .inl (by rw [hp]; simp [rank])⟩
  · rename_i empty hp
    obtain rfl := Option.some.inj e
    have : empty = true := by
      cases empty
      · exact absurd hp h6
      · rfl
    subst this
    have e1 : (if s.shut != 0 && true then Pc.drain else .ignore) = .drain := by simp [h3]
    refine ⟨⟨h1, h2, h3, ?_, ?_, ?_, ?_⟩, ?_⟩ <;> simp only [e1]
    · simp
    · simp
    · simp
    · simp
    · left; rw [hp]; decide
  · rename_i hp; exact absurd hp h4
  · rename_i hp; exact absurd hp h5
  · rename_i hp
    obtain rfl := Option.some.inj e
    refine ⟨⟨h1, by simp [h2], h3, by simp, by simp, by simp, by simp⟩, .inl (by rw [hp]; simp [rank])⟩
  · rename_i hp
    split at e
    · obtain rfl := Option.some.inj e
      refine ⟨⟨h1, rfl, h3, by simp, by simp, by simp, by simp⟩, .inl (by rw [hp]; simp [rank])⟩
    · cases e
  · rename_i hp
    obtain rfl := Option.some.inj e
    refine ⟨⟨h1, h2, h3, by simp, by simp, by simp, by simp⟩, .inl (by rw [hp]; simp [rank])⟩
  · rename_i hp
    split at e
    · obtain rfl := Option.some.inj e
      refine ⟨⟨h1, h2, h3, by simp, by simp, by simp, by simp⟩, .inr ⟨hp, rfl⟩⟩
    · cases e
  · cases e

theorem final_other {s t : State} {a : Act} (h : Final s) (o : Other s a t) : Final t := by
  obtain ⟨h1, h2, h3, h4, h5, h6, h7⟩ := h
  cases o with
  | cmdF => exact ⟨h1, h2, by simp, h4, h5, h6, h7⟩
  | cmdU => exact ⟨h1, h2, by simp, h4, h5, h6, h7⟩
  | cmdN => exact ⟨h1, h2, h3, h4, h5, h6, h7⟩
  | waitF => exact ⟨h1, h2, by simp, h4, h5, h6, h7⟩
  | waitU => exact ⟨h1, h2, by simp, h4, h5, h6, h7⟩
  | waitN => exact ⟨h1, h2, h3, h4, h5, h6, h7⟩
  | signal => exact ⟨h1, h2, by simp, h4, h5, h6, h7⟩
  | addStart => exact ⟨h1, h2, h3, h4, h5, h6, h7⟩
  | acquired => exact ⟨h1, h2, h3, h4, h5, h6, h7⟩
  | addUndo => exact ⟨h1, h2, h3, h4, h5, h6, h7⟩
  | addDone id _ _ hz => exact absurd hz h3
  | addDel => exact ⟨h1, h2, h3, h4, h5, h6, h7⟩
  | use id => exact ⟨by simp [h1], h2, h3, h4, h5, h6, h7⟩
  | leave id => exact ⟨by simp [h1], h2, h3, h4, h5, h6, h7⟩
  | ended id => exact ⟨h1, by simp [h2], h3, h4, h5, h6, h7⟩

theorem final_run {s u : State} {as : List Act} (h : Final s) (e : run s as = some u) :
    Final u ∧ rank u.pc ≤ rank s.pc - mains as := by
  induction as generalizing s with
  | nil => obtain rfl := Option.some.inj e; exact ⟨h, by simp [mains]⟩
  | cons a as ih =>
    obtain ⟨t, e1, e2⟩ := run_cons e
    rcases step_cases e1 with ⟨b, rfl, e1⟩ | o
    · obtain ⟨h1, h2⟩ := final_main h e1
      obtain ⟨h3, h4⟩ := ih h1 e2
      refine ⟨h3, ?_⟩
      simp only [mains]
      rcases h2 with h2 | ⟨hp, hp'⟩
      · omega
      · rw [hp', show rank .exited = 0 from rfl] at h4; omega
    · obtain ⟨h3, h4⟩ := ih (final_other h o) e2
      refine ⟨h3, ?_⟩
      rw [mains_other o, ← o.pc]
      exact h4

theorem final_rank {s : State} (h : Final s) (hr : rank s.pc = 0) : s.pc = .pool ∨ s.pc = .exited := by
  cases hp : s.pc <;> rw [hp] at hr <;> try (simp [rank] at hr; done)
  · exact absurd hp h.ignore
  · exact absurd hp h.clear
  · exact .inl rfl
  · exact .inr rfl

theorem final_goes {s : State} (h : Final s) (hr : rank s.pc ≠ 0) (b : Bool) : (main s b).isSome := by
  unfold main
  split
  all_goals first
    | rfl
    | (rename_i hp; rw [hp] at hr; simp [rank] at hr; done)
    | (rw [h.rem]; rfl)

/-! ### A forced shutdown -/

/-- Requests that write another value than 2 to `external_shutdown`. -/
def Act.unforced : Act → Bool
  | .signal => true
  | .cmd false => true
  | .wait _ false => true
  | _ => false

def allKilling (s : State) : Prop := ∀ sp ∈ s.spaces, sp.killing = true

/-- A forced shutdown is on its way. -/
structure Forced (s : State) : Prop where
  inv : Inv s
  shut : s.shut = 2
  clear : s.pc ≠ .clear

theorem forced_main {s t : State} (h : Forced s) {b : Bool} (e : main s b = some t) : Forced t := by
  refine ⟨main_inv h.inv e, ?_, ?_⟩
  · unfold main at e
    split at e
    case h_2 => obtain rfl := Option.some.inj e; exact (visit_keeps s b _).2.2.1.trans h.shut
    case h_6 => rename_i hp; exact absurd hp h.clear
    all_goals first
      | (obtain rfl := Option.some.inj e; exact h.shut)
      | (split at e
         · obtain rfl := Option.some.inj e; exact h.shut
         · cases e)
      | cases e
  · unfold main at e
    split at e
    case h_5 =>
      obtain rfl := Option.some.inj e
      simp [h.shut]
    case h_4 =>
      obtain rfl := Option.some.inj e
      simp only
      split <;> simp
    all_goals first
      | (obtain rfl := Option.some.inj e; simp; done)
      | (split at e
         · obtain rfl := Option.some.inj e; simp; done
         · cases e)
      | cases e

theorem forced_other {s t : State} {a : Act} (h : Forced s) (o : Other s a t) (hu : a.unforced = false) :
    Forced t := by
  refine ⟨other_inv h.inv o, ?_, o.pc ▸ h.clear⟩
  cases o <;> first | rfl | exact h.shut | (simp [Act.unforced] at hu)

theorem forced_run {s u : State} {as : List Act} (h : Forced s) (hu : ∀ a ∈ as, a.unforced = false)
    (e : run s as = some u) : Forced u :=
  run_ind h e fun s t a ha h e => by
    rcases step_cases e with ⟨b, _, e⟩ | o
    · exact forced_main h e
    · exact forced_other h o (hu a ha)

theorem eq_of_id {l : List Space} (h : (l.map (·.id)).Nodup) {x y : Space} (hx : x ∈ l) (hy : y ∈ l)
    (e : x.id = y.id) : x = y := by
  induction l with
  | nil => cases hx
  | cons z l ih =>
    simp only [List.map_cons, List.nodup_cons] at h
    rcases List.mem_cons.mp hx with rfl | hx' <;> rcases List.mem_cons.mp hy with rfl | hy'
    · rfl
    · exact absurd (List.mem_map.mpr ⟨y, hy', e.symm⟩) h.1
    · exact absurd (List.mem_map.mpr ⟨x, hx', e⟩) h.1
    · exact ih h.2 hx' hy'

/-- While a shutdown is on, the other threads add no lockspace, and a lockspace that is being killed gets no new
user. -/
theorem other_sub {s t : State} {a : Act} (hi : Inv s) (o : Other s a t) (h0 : s.shut ≠ 0) :
    t.spaces.length = s.spaces.length ∧
    ∀ sp ∈ t.spaces, ∃ sp' ∈ s.spaces, sp'.id = sp.id ∧ sp'.killing = sp.killing ∧
      (sp.killing = true → sp.users ≤ sp'.users) := by
  have same : ∀ sp ∈ s.spaces, ∃ sp' ∈ s.spaces, sp'.id = sp.id ∧ sp'.killing = sp.killing ∧
      (sp.killing = true → sp.users ≤ sp'.users) :=
    fun sp h => ⟨sp, h, rfl, rfl, fun _ => Nat.le_refl _⟩
  cases o with
  | cmdF => exact ⟨rfl, same⟩
  | cmdU => exact ⟨rfl, same⟩
  | cmdN => exact ⟨rfl, same⟩
  | waitF => exact ⟨rfl, same⟩
  | waitU => exact ⟨rfl, same⟩
  | waitN => exact ⟨rfl, same⟩
  | signal => exact ⟨rfl, same⟩
  | addStart => exact ⟨rfl, same⟩
  | acquired => exact ⟨rfl, same⟩
  | addUndo => exact ⟨rfl, same⟩
  | addDone _ _ _ hz => exact absurd hz h0
  | addDel => exact ⟨rfl, same⟩
  | ended => exact ⟨rfl, same⟩
  | use id hany =>
    refine ⟨by simp, ?_⟩
    intro sp hm
    obtain ⟨x, hx, rfl⟩ := List.mem_map.mp hm
    obtain ⟨y, hy, hc⟩ := List.any_eq_true.mp hany
    simp only [Bool.and_eq_true, beq_iff_eq, Bool.not_eq_true'] at hc
    refine ⟨x, hx, ?_, ?_, ?_⟩
    · split <;> rfl
    · split <;> rfl
    · split
      · rename_i he
        have := eq_of_id hi.nodup hx hy (by rw [beq_iff_eq.mp he, hc.1])
        subst this
        intro hk; simp only at hk; rw [hc.2] at hk; cases hk
      · exact fun _ => Nat.le_refl _
  | leave id =>
    refine ⟨by simp, ?_⟩
    intro sp hm
    obtain ⟨x, hx, rfl⟩ := List.mem_map.mp hm
    refine ⟨x, hx, ?_, ?_, ?_⟩
    · split <;> rfl
    · split <;> rfl
    · split
      · exact fun _ => Nat.sub_le _ _
      · exact fun _ => Nat.le_refl _

theorem visit_length (s : State) (bad : Bool) (id : Nat) : (visit s bad id).spaces.length ≤ s.spaces.length := by
  rcases visit_cases s bad id with ⟨_, _, _, _, _, e⟩ | ⟨_, _, _, _, _, e⟩ | ⟨e, _⟩ <;> rw [e]
  · exact List.length_filter_le _ _
  · simp
  · exact Nat.le_refl _

/-- After its turn in the loop, a lockspace is gone or being killed, when a shutdown is forced. -/
theorem visit_marks {s : State} (hi : Inv s) (hs : s.shut = 2) (bad : Bool) (id : Nat) :
    ∀ sp ∈ (visit s bad id).spaces, sp.killing = false → sp.id ≠ id ∧ sp ∈ s.spaces := by
  rcases visit_cases s bad id with ⟨_, _, _, _, _, e⟩ | ⟨_, _, _, _, _, e⟩ | ⟨e, hf | ⟨sp', hf, hk, hb⟩⟩ <;>
    rw [e] <;> intro sp hm hkf
  · have := List.mem_filter.mp hm
    exact ⟨by simpa using this.2, this.1⟩
  · obtain ⟨x, hx, rfl⟩ := List.mem_map.mp hm
    split at hkf
    · cases hkf
    · rename_i hne
      rw [if_neg hne]
      exact ⟨by simpa using hne, hx⟩
  · refine ⟨?_, hm⟩
    have := List.find?_eq_none.mp hf sp hm
    simpa using this
  · refine ⟨?_, hm⟩
    intro heq
    cases hk' : sp'.killing with
    | false => have := (hb hk').2; omega
    | true =>
      have hid : sp'.id = id := by have := List.find?_some hf; simpa using this
      have := eq_of_id hi.nodup hm (List.mem_of_find?_eq_some hf) (by rw [heq, hid])
      rw [this, hk'] at hkf; cases hkf

/-- After its turn in the loop, a lockspace that is being killed and has no users is gone. -/
theorem visit_idle {s : State} (hi : Inv s) (h : ∀ sp ∈ s.spaces, sp.killing = true ∧ sp.users = 0) (bad : Bool)
    (id : Nat) : ∀ sp ∈ (visit s bad id).spaces, sp.id ≠ id ∧ sp ∈ s.spaces := by
  rcases visit_cases s bad id with ⟨_, _, _, _, _, e⟩ | ⟨sp', hm', _, hk, _⟩ | ⟨e, hf | ⟨sp', hf, hk, hb⟩⟩
  · rw [e]; intro sp hm
    have := List.mem_filter.mp hm
    exact ⟨by simpa using this.2, this.1⟩
  · rw [(h sp' hm').1] at hk; cases hk
  · rw [e]; intro sp hm
    refine ⟨?_, hm⟩
    have := List.find?_eq_none.mp hf sp hm
    simpa using this
  · have := h sp' (List.mem_of_find?_eq_some hf)
    exact absurd this.2 (hk this.1)

theorem over_main {s t : State} {b : Bool} (h : s.pc.over = true) (e : main s b = some t) : t.pc.over = true := by
  unfold main at e
  split at e
  all_goals first
    | (rename_i hp; rw [hp] at h; simp [Pc.over] at h; done)
    | (obtain rfl := Option.some.inj e; rfl)
    | (split at e
       · obtain rfl := Option.some.inj e; rfl
       · cases e)
    | cases e

/-- All lockspaces are being killed after `k` more steps of the main thread. -/
def MarksIn (s : State) (k : Nat) : Prop :=
  s.pc.over = true ∨ allKilling s ∨
  (∃ todo, s.pc = .round todo ∧ (∀ sp ∈ s.spaces, sp.killing = false → sp.id ∈ todo) ∧ todo.length ≤ k) ∨
  (s.pc = .poll ∧ s.spaces.length + 1 ≤ k) ∨
  (s.pc = .free ∧ s.spaces.length + 2 ≤ k) ∨
  (s.pc = .ignore ∧ s.spaces.length + 3 ≤ k) ∨
  (∃ e, s.pc = .test e ∧ s.spaces.length + 4 ≤ k) ∨
  (∃ todo, s.pc = .round todo ∧ todo.length + s.spaces.length + 5 ≤ k)

theorem visit_killing {s : State} (h : allKilling s) (bad : Bool) (id : Nat) : allKilling (visit s bad id) := by
  intro sp hm
  obtain ⟨x, hx, _, _, hk⟩ := visit_sub s bad id sp hm
  exact hk (h x hx)

theorem main_killing {s t : State} {b : Bool} (h : allKilling s) (e : main s b = some t) : allKilling t := by
  unfold main at e
  split at e
  case h_2 => obtain rfl := Option.some.inj e; exact visit_killing h b _
  all_goals first
    | (obtain rfl := Option.some.inj e; exact h)
    | (split at e
       · obtain rfl := Option.some.inj e; exact h
       · cases e)
    | cases e

theorem marks_main {s t : State} {b : Bool} {k : Nat} (hf : Forced s) (h : MarksIn s k) (e : main s b = some t) :
    MarksIn t (k - 1) := by
  rcases h with h | h | ⟨todo, hp, h, hk⟩ | ⟨hp, hk⟩ | ⟨hp, hk⟩ | ⟨hp, hk⟩ | ⟨em, hp, hk⟩ | ⟨todo, hp, hk⟩
  · exact .inl (over_main h e)
  · exact .inr (.inl (main_killing h e))
  · simp only [main, hp] at e
    cases todo with
    | nil =>
      obtain rfl := Option.some.inj e
      right; left
      intro sp hm
      cases hk' : sp.killing with
      | true => rfl
      | false => have := h sp hm hk'; cases this
    | cons id todo =>
      obtain rfl := Option.some.inj e
      right; right; left
      refine ⟨todo, rfl, ?_, by simp only [List.length_cons] at hk; omega⟩
      intro sp hm hkf
      obtain ⟨h1, h2⟩ := visit_marks hf.inv hf.shut b id sp hm hkf
      exact (List.mem_cons.mp (h sp h2 hkf)).resolve_left h1
  · simp only [main, hp] at e
    obtain rfl := Option.some.inj e
    right; right; left
    exact ⟨_, rfl, fun sp hm _ => List.mem_map_of_mem hm, by simp only [List.length_map]; omega⟩
  · simp only [main, hp] at e
    obtain rfl := Option.some.inj e
    right; right; right; left
    exact ⟨rfl, by simp only; omega⟩
  · simp only [main, hp] at e
    obtain rfl := Option.some.inj e
    right; right; right; right; left
    exact ⟨by simp [hf.shut], by simp only; omega⟩
  · simp only [main, hp] at e
    obtain rfl := Option.some.inj e
    cases em with
    | true => left; simp [hf.shut, Pc.over]
    | false =>
      right; right; right; right; right; left
      exact ⟨by simp, by simp only; omega⟩
  · simp only [main, hp] at e
    cases todo with
    | nil =>
      obtain rfl := Option.some.inj e
      right; right; right; right; right; right; left
      exact ⟨_, rfl, by simp only [List.length_nil] at hk; simp only; omega⟩
    | cons id todo =>
      obtain rfl := Option.some.inj e
      right; right; right; right; right; right; right
      have := visit_length s b id
      exact ⟨_, rfl, by simp only [List.length_cons] at hk; simp only; omega⟩

theorem marks_other {s t : State} {a : Act} {k : Nat} (hf : Forced s) (h : MarksIn s k) (o : Other s a t) :
    MarksIn t k := by
  have hsub := other_sub hf.inv o (by rw [hf.shut]; decide)
  unfold MarksIn at *
  rw [o.pc, hsub.1]
  rcases h with h | h | ⟨todo, hp, h, hk⟩ | h
  · exact .inl h
  · right; left
    intro sp hm
    obtain ⟨x, hx, _, e, _⟩ := hsub.2 sp hm
    rw [← e]; exact h x hx
  · right; right; left
    refine ⟨todo, hp, ?_, hk⟩
    intro sp hm hkf
    obtain ⟨x, hx, e1, e, _⟩ := hsub.2 sp hm
    rw [← e1]; exact h x hx (e.trans hkf)
  · exact .inr (.inr (.inr h))

theorem marks_run {s u : State} {as : List Act} {k : Nat} (hf : Forced s)
    (hu : ∀ a ∈ as, a.unforced = false) (h : MarksIn s k) (e : run s as = some u) :
    MarksIn u (k - mains as) := by
  induction as generalizing s k with
  | nil => obtain rfl := Option.some.inj e; simpa [mains] using h
  | cons a as ih =>
    obtain ⟨t, e1, e2⟩ := run_cons e
    rcases step_cases e1 with ⟨b, rfl, e1⟩ | o
    · have := ih (forced_main hf e1) (fun a ha => hu a (List.mem_cons_of_mem _ ha)) (marks_main hf h e1) e2
      simp only [mains]
      rwa [Nat.sub_sub, Nat.add_comm] at this
    · have := ih (forced_other hf o (hu a (List.mem_cons_self ..)))
        (fun a ha => hu a (List.mem_cons_of_mem _ ha)) (marks_other hf h o) e2
      rwa [mains_other o]

/-- Length of the rest of the list in the loop over the lockspaces. -/
def Pc.left : Pc → Nat
  | .round todo => todo.length
  | _ => 0

theorem marks_start {s : State} (hf : Forced s) : MarksIn s (s.pc.left + s.spaces.length + 5) := by
  unfold MarksIn
  cases hp : s.pc with
  | poll => right; right; right; left; exact ⟨rfl, by simp [Pc.left]⟩
  | round todo => right; right; right; right; right; right; right; exact ⟨todo, rfl, by simp [Pc.left]⟩
  | test e => right; right; right; right; right; right; left; exact ⟨e, rfl, by simp [Pc.left]⟩
  | ignore => right; right; right; right; right; left; exact ⟨rfl, by simp [Pc.left]⟩
  | clear => exact absurd hp hf.clear
  | free => right; right; right; right; left; exact ⟨rfl, by simp [Pc.left]⟩
  | drain => exact .inl rfl
  | reply => exact .inl rfl
  | pool => exact .inl rfl
  | exited => exact .inl rfl

theorem marks_zero {s : State} (h : MarksIn s 0) : s.pc.over = true ∨ allKilling s := by
  rcases h with h | h | ⟨todo, hp, h, hk⟩ | ⟨hp, hk⟩ | ⟨hp, hk⟩ | ⟨hp, hk⟩ | ⟨em, hp, hk⟩ | ⟨todo, hp, hk⟩
  · exact .inl h
  · exact .inr h
  · right
    have : todo = [] := List.eq_nil_of_length_eq_zero (by omega)
    subst this
    intro sp hm
    cases hk' : sp.killing with
    | true => rfl
    | false => have := h sp hm hk'; cases this
  all_goals omega

/-- All lockspaces are being killed and nobody uses them any more. -/
def Idle (s : State) : Prop := ∀ sp ∈ s.spaces, sp.killing = true ∧ sp.users = 0

/-- The loop ends after `k` more steps of the main thread. -/
def EndsIn (s : State) (k : Nat) : Prop :=
  s.pc.over = true ∨
  (s.pc = .test true ∧ 1 ≤ k) ∨
  (∃ todo, s.pc = .round todo ∧ (∀ sp ∈ s.spaces, sp.id ∈ todo) ∧ todo.length + 2 ≤ k) ∨
  (s.pc = .poll ∧ s.spaces.length + 3 ≤ k) ∨
  (s.pc = .free ∧ s.spaces.length + 4 ≤ k) ∨
  (s.pc = .ignore ∧ s.spaces.length + 5 ≤ k) ∨
  (s.pc = .test false ∧ s.spaces.length + 6 ≤ k) ∨
  (∃ todo, s.pc = .round todo ∧ todo.length + s.spaces.length + 7 ≤ k)

theorem idle_main {s t : State} {b : Bool} (hi : Inv s) (h : Idle s) (e : main s b = some t) : Idle t := by
  unfold main at e
  split at e
  case h_2 =>
    obtain rfl := Option.some.inj e
    intro sp hm
    exact h sp (visit_idle hi h b _ sp hm).2
  all_goals first
    | (obtain rfl := Option.some.inj e; exact h)
    | (split at e
       · obtain rfl := Option.some.inj e; exact h
       · cases e)
    | cases e

theorem ends_main {s t : State} {b : Bool} {k : Nat} (hf : Forced s) (hI : Idle s) (h : EndsIn s k)
    (e : main s b = some t) : EndsIn t (k - 1) := by
  rcases h with h | ⟨hp, hk⟩ | ⟨todo, hp, h, hk⟩ | ⟨hp, hk⟩ | ⟨hp, hk⟩ | ⟨hp, hk⟩ | ⟨hp, hk⟩ | ⟨todo, hp, hk⟩
  · exact .inl (over_main h e)
  · simp only [main, hp] at e
    obtain rfl := Option.some.inj e
    left; simp [hf.shut, Pc.over]
  · simp only [main, hp] at e
    cases todo with
    | nil =>
      obtain rfl := Option.some.inj e
      right; left
      have : s.spaces = [] := by
        cases hs : s.spaces with
        | nil => rfl
        | cons x l => have := h x (by rw [hs]; exact List.mem_cons_self ..); cases this
      simp only [this, List.isEmpty_nil, true_and]
      simp only [List.length_nil] at hk; omega
    | cons id todo =>
      obtain rfl := Option.some.inj e
      right; right; left
      refine ⟨todo, rfl, ?_, by simp only [List.length_cons] at hk; omega⟩
      intro sp hm
      obtain ⟨h1, h2⟩ := visit_idle hf.inv hI b id sp hm
      exact (List.mem_cons.mp (h sp h2)).resolve_left h1
  · simp only [main, hp] at e
    obtain rfl := Option.some.inj e
    right; right; left
    exact ⟨_, rfl, fun sp hm => List.mem_map_of_mem hm, by simp only [List.length_map]; omega⟩
  · simp only [main, hp] at e
    obtain rfl := Option.some.inj e
    right; right; right; left
    exact ⟨rfl, by simp only; omega⟩
  · simp only [main, hp] at e
    obtain rfl := Option.some.inj e
    right; right; right; right; left
    exact ⟨by simp [hf.shut], by simp only; omega⟩
  · simp only [main, hp] at e
    obtain rfl := Option.some.inj e
    right; right; right; right; right; left
    exact ⟨by simp, by simp only; omega⟩
  · simp only [main, hp] at e
    cases todo with
    | nil =>
      obtain rfl := Option.some.inj e
      simp only [List.length_nil] at hk
      cases hs : s.spaces.isEmpty with
      | true => right; left; exact ⟨by simp only [hs], by omega⟩
      | false =>
        right; right; right; right; right; right; left
        exact ⟨by simp only [hs], by simp only; omega⟩
    | cons id todo =>
      obtain rfl := Option.some.inj e
      right; right; right; right; right; right; right
      have := visit_length s b id
      exact ⟨_, rfl, by simp only [List.length_cons] at hk; simp only; omega⟩

theorem idle_other {s t : State} {a : Act} (hf : Forced s) (h : Idle s) (o : Other s a t) : Idle t := by
  have hsub := other_sub hf.inv o (by rw [hf.shut]; decide)
  intro sp hm
  obtain ⟨x, hx, _, e, hu⟩ := hsub.2 sp hm
  obtain ⟨h1, h2⟩ := h x hx
  have hk : sp.killing = true := e ▸ h1
  exact ⟨hk, by have := hu hk; omega⟩

theorem ends_other {s t : State} {a : Act} {k : Nat} (hf : Forced s) (h : EndsIn s k) (o : Other s a t) :
    EndsIn t k := by
  have hsub := other_sub hf.inv o (by rw [hf.shut]; decide)
  unfold EndsIn at *
  rw [o.pc, hsub.1]
  rcases h with h | h | ⟨todo, hp, h, hk⟩ | h
  · exact .inl h
  · exact .inr (.inl h)
  · right; right; left
    refine ⟨todo, hp, ?_, hk⟩
    intro sp hm
    obtain ⟨x, hx, e1, e, _⟩ := hsub.2 sp hm
    rw [← e1]; exact h x hx
  · exact .inr (.inr (.inr h))

theorem ends_run {s u : State} {as : List Act} {k : Nat} (hf : Forced s) (hI : Idle s)
    (hu : ∀ a ∈ as, a.unforced = false) (h : EndsIn s k) (e : run s as = some u) :
    EndsIn u (k - mains as) := by
  induction as generalizing s k with
  | nil => obtain rfl := Option.some.inj e; simpa [mains] using h
  | cons a as ih =>
    obtain ⟨t, e1, e2⟩ := run_cons e
    rcases step_cases e1 with ⟨b, rfl, e1⟩ | o
    · have := ih (forced_main hf e1) (idle_main hf.inv hI e1) (fun a ha => hu a (List.mem_cons_of_mem _ ha))
        (ends_main hf hI h e1) e2
      simp only [mains]
      rwa [Nat.sub_sub, Nat.add_comm] at this
    · have := ih (forced_other hf o (hu a (List.mem_cons_self ..))) (idle_other hf hI o)
        (fun a ha => hu a (List.mem_cons_of_mem _ ha)) (ends_other hf h o) e2
      rwa [mains_other o]

theorem ends_start {s : State} (hf : Forced s) : EndsIn s (s.pc.left + s.spaces.length + 7) := by
  unfold EndsIn
  cases hp : s.pc with
  | poll => right; right; right; left; exact ⟨rfl, by simp [Pc.left]⟩
  | round todo => right; right; right; right; right; right; right; exact ⟨todo, rfl, by simp [Pc.left]⟩
  | test e =>
    cases e with
    | true => right; left; exact ⟨rfl, by omega⟩
    | false => right; right; right; right; right; right; left; exact ⟨rfl, by simp [Pc.left]⟩
  | ignore => right; right; right; right; right; left; exact ⟨rfl, by simp [Pc.left]⟩
  | clear => exact absurd hp hf.clear
  | free => right; right; right; right; left; exact ⟨rfl, by simp [Pc.left]⟩
  | drain => exact .inl rfl
  | reply => exact .inl rfl
  | pool => exact .inl rfl
  | exited => exact .inl rfl

theorem ends_zero {s : State} (h : EndsIn s 0) : s.pc.over = true := by
  rcases h with h | ⟨hp, hk⟩ | ⟨todo, hp, h, hk⟩ | ⟨hp, hk⟩ | ⟨hp, hk⟩ | ⟨hp, hk⟩ | ⟨hp, hk⟩ | ⟨todo, hp, hk⟩
  · exact h
  all_goals omega

end Sanlock.Shutdown
