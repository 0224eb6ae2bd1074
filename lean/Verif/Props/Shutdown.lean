import Verif.Lemmas.Shutdown

/-!
# Shutting down (C54)

A shutdown without force is refused while there is a lockspace and then changes nothing; once accepted it ends
the daemon.  A forced shutdown ends every lockspace and then the daemon.  The daemon is not left with a lockspace
behind, and a lockspace is only given up when nobody uses it.
-/

namespace Sanlock.Shutdown

/-! ### Without force -/

/-- `sanlock client shutdown -w 1` without force: refused with `EBUSY` exactly when there is a lockspace, also one
that is being added or removed.  A refused shutdown changes nothing, and one that is not refused is not answered
yet. -/
theorem unforced_answer {s t : State} {c : Nat} (e : step s (.wait c false) = some t) :
    ((s.spaces ≠ [] ∨ s.add ≠ [] ∨ s.rem ≠ []) ∧ t = { s with out := (c, Rv.EBUSY) :: s.out }) ∨
    (s.spaces = [] ∧ s.add = [] ∧ s.rem = [] ∧ t = { s with waiter := some c, shut := 1 }) := by
  rcases step_cases e with ⟨_, h, _⟩ | o
  · cases h
  · cases o with
    | waitU _ _ _ hn =>
      simp only [noSpaces, Bool.and_eq_true, List.isEmpty_iff] at hn
      exact .inr ⟨hn.1.1, hn.2, hn.1.2, rfl⟩
    | waitN _ _ _ hn =>
      refine .inl ⟨?_, rfl⟩
      simp only [noSpaces, Bool.and_eq_false_iff, List.isEmpty_eq_false_iff] at hn
      rcases hn with (h | h) | h
      · exact .inl h
      · exact .inr (.inr h)
      · exact .inr (.inl h)

theorem accepted_final {s t : State} (hi : Inv s) (h1 : s.spaces = []) (h3 : s.rem = [])
    (ts : t.spaces = s.spaces) (tr : t.rem = s.rem) (tp : t.pc = s.pc) (tq : t.shut ≠ 0)
    (hl : s.pc.locked = false) (hg : s.pc ≠ .ignore) (hc : s.pc ≠ .clear) : Final t := by
  refine ⟨ts.trans h1, tr.trans h3, tq, tp ▸ hg, tp ▸ hc, ?_, ?_⟩
  · intro hp; exact hi.seen (tp ▸ hp) h1
  · intro l hp
    rw [← tp, hp] at hl; cases hl

/-- A shutdown without force that has been accepted ends the daemon, whatever the other threads do: no lockspace is
added any more, the request is not forgotten, the main thread does not wait for anything, and after six steps of it
every client that waits for the shutdown is answered with success.

Missing: the request has not come between the two tests of the main thread, see
`accepted_forgotten_violated`. -/
theorem accepted_ends_partial {s t u : State} {c : Nat} {as : List Act} (hr : Reach s)
    (e : step s (.wait c false) = some t) (hacc : t.out = s.out)
    (hp : s.pc ≠ .ignore ∧ s.pc ≠ .clear) (er : run t as = some u) :
    u.spaces = [] ∧ u.rem = [] ∧ u.shut ≠ 0 ∧
      ((u.pc ≠ .pool ∧ u.pc ≠ .exited) → ∀ b, (step u (.main b)).isSome) ∧
      (6 ≤ mains as → u.pc = .pool ∨ u.pc = .exited) := by
  rcases step_cases e with ⟨_, h, _⟩ | o
  · cases h
  have hf : Final t := by
    cases o with
    | waitU _ _ hl hn =>
      simp only [noSpaces, Bool.and_eq_true, List.isEmpty_iff] at hn
      exact accepted_final hr.inv hn.1.1 hn.1.2 rfl rfl rfl (by simp) hl hp.1 hp.2
    | waitN _ _ _ _ =>
      have := congrArg List.length hacc
      simp at this
  obtain ⟨h1, h2⟩ := final_run hf er
  refine ⟨h1.spaces, h1.rem, h1.shut, ?_, ?_⟩
  · intro hn b
    apply final_goes h1
    intro hz
    rcases final_rank h1 hz with h | h
    · exact hn.1 h
    · exact hn.2 h
  · intro h6
    apply final_rank h1
    have : rank t.pc ≤ 6 := by cases t.pc <;> simp [rank]
    omega

/-- The same for `sanlock client shutdown` that does not wait, which is done by the main thread itself: nothing is
missing here. -/
theorem command_ends {s t u : State} {as : List Act} (hr : Reach s) (e : step s (.cmd false) = some t)
    (hacc : s.spaces = [] ∧ s.add = [] ∧ s.rem = []) (er : run t as = some u) :
    u.spaces = [] ∧ u.rem = [] ∧ u.shut ≠ 0 ∧
      ((u.pc ≠ .pool ∧ u.pc ≠ .exited) → ∀ b, (step u (.main b)).isSome) ∧
      (5 ≤ mains as → u.pc = .pool ∨ u.pc = .exited) := by
  have hpc : s.pc = .poll := by
    simp only [step] at e; split at e
    · assumption
    · cases e
  have ht : t = { s with shut := 1 } := by
    rw [step, if_pos hpc] at e
    have hn : noSpaces s = true := by simp [noSpaces, hacc.1, hacc.2.1, hacc.2.2]
    simp only [cmd, hn, if_true, Bool.false_eq_true, if_false] at e
    exact (Option.some.inj e).symm
  have hf : Final t := by
    subst ht
    exact accepted_final hr.inv hacc.1 hacc.2.2 rfl rfl rfl (by simp) (by rw [hpc]; rfl) (by rw [hpc]; simp)
      (by rw [hpc]; simp)
  obtain ⟨h1, h2⟩ := final_run hf er
  refine ⟨h1.spaces, h1.rem, h1.shut, ?_, ?_⟩
  · intro hn b
    apply final_goes h1
    intro hz
    rcases final_rank h1 hz with h | h
    · exact hn.1 h
    · exact hn.2 h
  · intro h6
    apply final_rank h1
    have : t.pc = .poll := by rw [ht]; exact hpc
    rw [this, show rank .poll = 5 from rfl] at h2
    omega

/-- And when there is a lockspace, it changes nothing. -/
theorem command_ignored {s t : State} (e : step s (.cmd false) = some t)
    (h : s.spaces ≠ [] ∨ s.add ≠ [] ∨ s.rem ≠ []) : t = s := by
  rcases step_cases e with ⟨_, h, _⟩ | o
  · cases h
  cases o with
  | cmdU _ hn =>
    simp only [noSpaces, Bool.and_eq_true, List.isEmpty_iff] at hn
    rcases h with h | h | h
    · exact absurd hn.1.1 h
    · exact absurd hn.2 h
    · exact absurd hn.1.2 h
  | cmdN => rfl

/-- Nothing but a forced shutdown, the loss of the lease and a removal ever ends a lockspace: however often a
shutdown without force is asked for and whatever signals come, every lockspace stays and is not killed. -/
theorem unforced_kills_nothing {u : State} {as : List Act}
    (hf : ∀ a ∈ as, a ≠ .main true ∧ a ≠ .cmd true ∧ ∀ c, a ≠ .wait c true)
    (e : run init as = some u) :
    (∀ sp ∈ u.spaces, sp.killing = false) ∧ u.rem = [] := by
  have key : u.shut ≤ 1 ∧ (∀ sp ∈ u.spaces, sp.killing = false) ∧ u.rem = [] := by
    refine run_ind (P := fun u => u.shut ≤ 1 ∧ (∀ sp ∈ u.spaces, sp.killing = false) ∧ u.rem = [])
      ⟨by decide, by simp [init], rfl⟩ e ?_
    intro s t a ha ⟨h1, h2, h3⟩ e
    obtain ⟨hm, hc, hw⟩ := hf a ha
    rcases step_cases e with ⟨b, rfl, e0⟩ | o
    · replace e := e0
      have hb : b = false := by cases b with
        | true => exact absurd rfl hm
        | false => rfl
      subst hb
      unfold main at e
      split at e
      case h_2 =>
        obtain rfl := Option.some.inj e
        rename_i id todo _
        rcases visit_cases s false id with ⟨sp, hm, _, hk, _⟩ | ⟨sp, hm, _, hk, h | h, _⟩ | ⟨e, _⟩
        · rw [h2 sp hm] at hk; cases hk
        · cases h
        · omega
        · rw [e]; exact ⟨h1, h2, h3⟩
      all_goals first
        | (obtain rfl := Option.some.inj e; exact ⟨h1, h2, h3⟩)
        | (obtain rfl := Option.some.inj e; exact ⟨Nat.zero_le _, h2, h3⟩)
        | (obtain rfl := Option.some.inj e; exact ⟨h1, h2, by simp [h3]⟩)
        | (split at e
           · obtain rfl := Option.some.inj e; exact ⟨h1, h2, by simp [h3]⟩
           · cases e)
        | cases e
    · cases o with
      | cmdF => exact absurd rfl hc
      | waitF c => exact absurd rfl (hw c)
      | cmdU => exact ⟨Nat.le_refl _, h2, h3⟩
      | waitU => exact ⟨Nat.le_refl _, h2, h3⟩
      | signal => exact ⟨Nat.le_refl _, h2, h3⟩
      | cmdN => exact ⟨h1, h2, h3⟩
      | waitN => exact ⟨h1, h2, h3⟩
      | addStart => exact ⟨h1, h2, h3⟩
      | acquired => exact ⟨h1, h2, h3⟩
      | addUndo => exact ⟨h1, h2, h3⟩
      | addDel => exact ⟨h1, h2, h3⟩
      | addDone id =>
        refine ⟨h1, ?_, h3⟩
        intro sp hm
        rcases List.mem_cons.mp hm with rfl | hm
        · rfl
        · exact h2 sp hm
      | use id =>
        refine ⟨h1, ?_, h3⟩
        intro sp hm
        obtain ⟨x, hx, rfl⟩ := List.mem_map.mp hm
        split <;> exact h2 x hx
      | leave id =>
        refine ⟨h1, ?_, h3⟩
        intro sp hm
        obtain ⟨x, hx, rfl⟩ := List.mem_map.mp hm
        split <;> exact h2 x hx
      | ended id => exact ⟨h1, h2, by simp [h3]⟩
  exact key.2

/-! ### With force -/

/-- When a shutdown has been forced, and no signal or request without force comes after it, it stays, and no
lockspace is added any more. -/
theorem forced_stays {s u : State} {as : List Act} (hr : Reach s) (h2 : s.shut = 2) (hc : s.pc ≠ .clear)
    (hu : ∀ a ∈ as, a.unforced = false) (e : run s as = some u) :
    u.shut = 2 ∧ ∀ sp ∈ u.spaces, ∃ sp' ∈ s.spaces, sp'.id = sp.id := by
  have hf : Forced s := ⟨hr.inv, h2, hc⟩
  have key : Forced u ∧ ∀ sp ∈ u.spaces, ∃ sp' ∈ s.spaces, sp'.id = sp.id := by
    refine run_ind (P := fun u => Forced u ∧ ∀ sp ∈ u.spaces, ∃ sp' ∈ s.spaces, sp'.id = sp.id)
      ⟨hf, fun sp h => ⟨sp, h, rfl⟩⟩ e ?_
    intro v t a ha ⟨hv, hs⟩ e
    rcases step_cases e with ⟨b, rfl, e0⟩ | o
    · replace e := e0
      refine ⟨forced_main hv e, ?_⟩
      unfold main at e
      split at e
      case h_2 =>
        obtain rfl := Option.some.inj e
        intro sp hm
        obtain ⟨x, hx, e1, _⟩ := visit_sub v b _ sp hm
        obtain ⟨y, hy, e2⟩ := hs x hx
        exact ⟨y, hy, e2.trans e1⟩
      all_goals first
        | (obtain rfl := Option.some.inj e; exact hs)
        | (split at e
           · obtain rfl := Option.some.inj e; exact hs
           · cases e)
        | cases e
    · refine ⟨forced_other hv o (hu a ha), ?_⟩
      intro sp hm
      obtain ⟨x, hx, e1, _⟩ := (other_sub hv.inv o (by rw [hv.shut]; decide)).2 sp hm
      obtain ⟨y, hy, e2⟩ := hs x hx
      exact ⟨y, hy, e2.trans e1⟩
  exact ⟨key.1.shut, key.2⟩

/-- A forced shutdown has every lockspace killed, within one further round of the main thread: the steps left in
this round, one step for each lockspace, and five. -/
theorem forced_kills_partial {s u : State} {as : List Act} (hr : Reach s) (h2 : s.shut = 2) (hc : s.pc ≠ .clear)
    (hu : ∀ a ∈ as, a.unforced = false) (e : run s as = some u)
    (hm : s.pc.left + s.spaces.length + 5 ≤ mains as) :
    u.pc.over = true ∨ ∀ sp ∈ u.spaces, sp.killing = true := by
  have hf : Forced s := ⟨hr.inv, h2, hc⟩
  have := marks_run hf hu (marks_start hf) e
  rw [Nat.sub_eq_zero_of_le hm] at this
  exact marks_zero this

/-- When the processes are gone, the loop of the daemon ends, within one further round of the main thread.

Missing: no signal and no request without force has come after the forced shutdown, see
`forced_forgotten_violated`. -/
theorem forced_ends_partial {s u : State} {as : List Act} (hr : Reach s) (h2 : s.shut = 2) (hc : s.pc ≠ .clear)
    (hi : ∀ sp ∈ s.spaces, sp.killing = true ∧ sp.users = 0)
    (hu : ∀ a ∈ as, a.unforced = false) (e : run s as = some u)
    (hm : s.pc.left + s.spaces.length + 7 ≤ mains as) :
    u.pc.over = true := by
  have hf : Forced s := ⟨hr.inv, h2, hc⟩
  have := ends_run hf hi hu (ends_start hf) e
  rw [Nat.sub_eq_zero_of_le hm] at this
  exact ends_zero this

/-- In the loop the main thread never waits for another thread; after it, it only waits for the threads of the
lockspaces that have been stopped, and for the workers. -/
theorem main_goes (s : State) (b : Bool) (h1 : s.pc = .drain → ∀ x ∈ s.rem, x.2 = true)
    (h2 : s.pc = .pool → s.add = []) (h3 : s.pc ≠ .exited) : (step s (.main b)).isSome := by
  simp only [step]
  unfold main
  split
  all_goals first
    | rfl
    | (rename_i hp; exact absurd hp h3)
    | (rename_i hp; rw [if_pos (List.all_eq_true.mpr (h1 hp))]; rfl)
    | (rename_i hp; rw [h2 hp]; rfl)

/-! ### What is left behind -/

/-- A lockspace is given up only when it is being killed and no process has leases in it; its thread then gives
back the lease of the host. -/
theorem given_up_unused {s t : State} {a : Act} {sp : Space} (hr : Reach s) (e : step s a = some t)
    (hm : sp ∈ s.spaces) (hg : ∀ x ∈ t.spaces, x.id ≠ sp.id) :
    sp.killing = true ∧ sp.users = 0 ∧ (sp.id, false) ∈ t.rem := by
  have stays : ∀ (p : Space → Bool) (f : Space → Space) (_ : ∀ x, (f x).id = x.id),
      ∃ x ∈ s.spaces.map (fun x => if p x then f x else x), x.id = sp.id := by
    intro p f hf
    refine ⟨_, List.mem_map_of_mem hm, ?_⟩
    split
    · exact hf sp
    · rfl
  rcases step_cases e with ⟨b, rfl, e0⟩ | o
  · replace e := e0
    unfold main at e
    split at e
    case h_2 =>
      obtain rfl := Option.some.inj e
      rename_i id todo _
      rcases visit_cases s b id with ⟨sp', hm', hid, hk, hu, e⟩ | ⟨sp', hm', hid, hk, _, e⟩ | ⟨e, _⟩
      · simp only [e] at hg ⊢
        by_cases hsp : sp.id = id
        · have := eq_of_id hr.inv.nodup hm hm' (hsp.trans hid.symm)
          subst this
          exact ⟨hk, hu, by rw [hsp]; exact List.mem_cons_self ..⟩
        · exact absurd rfl (hg sp (List.mem_filter.mpr ⟨hm, by simpa using hsp⟩))
      · simp only [e] at hg
        obtain ⟨x, hx, e⟩ := stays (fun x => x.id == id) (fun x => { x with killing := true }) (fun _ => rfl)
        exact absurd e (hg x hx)
      · simp only [e] at hg
        exact absurd rfl (hg sp hm)
    all_goals first
      | (obtain rfl := Option.some.inj e; exact absurd rfl (hg sp hm))
      | (split at e
         · obtain rfl := Option.some.inj e; exact absurd rfl (hg sp hm)
         · cases e)
      | cases e
  · cases o with
    | use id =>
      obtain ⟨x, hx, e⟩ := stays (fun x => x.id == id) (fun x => { x with users := x.users + 1 }) (fun _ => rfl)
      exact absurd e (hg x hx)
    | leave id =>
      obtain ⟨x, hx, e⟩ := stays (fun x => x.id == id) (fun x => { x with users := x.users - 1 }) (fun _ => rfl)
      exact absurd e (hg x hx)
    | addDone id => exact absurd rfl (hg sp (List.mem_cons_of_mem _ hm))
    | _ => exact absurd rfl (hg sp hm)

/-- A lockspace that has been given up stays known until its thread has ended, and with that the lease of the host
has been given back. -/
theorem freed_ended {s t : State} {a : Act} {id : Nat} (e : step s a = some t) (hm : (id, false) ∈ s.rem) :
    (id, false) ∈ t.rem ∨ a = .ended id := by
  rcases step_cases e with ⟨b, rfl, e0⟩ | o
  · left
    replace e := e0
    unfold main at e
    split at e
    case h_2 =>
      obtain rfl := Option.some.inj e
      rename_i id' todo _
      rcases visit_cases s b id' with ⟨_, _, _, _, _, e⟩ | ⟨_, _, _, _, _, e⟩ | ⟨e, _⟩ <;> simp only [e]
      · exact List.mem_cons_of_mem _ hm
      · exact hm
      · exact hm
    case h_7 => obtain rfl := Option.some.inj e; exact List.mem_filter.mpr ⟨hm, rfl⟩
    case h_8 =>
      split at e
      · rename_i h
        have := List.all_eq_true.mp h _ hm
        cases this
      · cases e
    all_goals first
      | (obtain rfl := Option.some.inj e; exact hm)
      | (split at e
         · obtain rfl := Option.some.inj e; exact hm
         · cases e)
      | cases e
  · cases o with
    | ended id' =>
      by_cases h : id = id'
      · exact .inr (by rw [h])
      · refine .inl (List.mem_map.mpr ⟨_, hm, ?_⟩)
        rw [if_neg (by simpa using h)]
    | _ => exact .inl hm

/-- Runs in which no signal and no forced shutdown comes between the moment the main thread finds that there is no
lockspace, and its test of the shutdown. -/
inductive Undisturbed : State → Prop where
  | init : Undisturbed init
  | step {s t : State} {a : Act} : Undisturbed s →
      (s.pc = .test true → a ≠ .signal ∧ ∀ c, a ≠ .wait c true) → step s a = some t → Undisturbed t

theorem Undisturbed.reach {s : State} (h : Undisturbed s) : Reach s := by
  induction h with
  | init => exact ⟨[], rfl⟩
  | @step s t a _ _ e ih => exact ih.run (as := [a]) (by simp only [Shutdown.run, e]; rfl)

structure Clean (s : State) : Prop where
  test : s.pc = .test true → s.shut ≠ 0 → s.spaces = []
  over : s.pc.over = true → s.spaces = [] ∧ s.shut ≠ 0
  rem : s.pc = .reply ∨ s.pc = .pool ∨ s.pc = .exited → s.rem = []
  add : s.pc = .exited → s.add = []
  out : ∀ c, (c, 0) ∈ s.out → s.pc = .pool ∨ s.pc = .exited

theorem clean_main {s t : State} (h : Clean s) {b : Bool} (e : main s b = some t) : Clean t := by
  have ho : s.pc ≠ .pool → s.pc ≠ .exited → ∀ c, (c, (0 : Int)) ∉ s.out := by
    intro h1 h2 c hc
    rcases h.out c hc with h | h
    · exact h1 h
    · exact h2 h
  unfold main at e
  split at e
  · rename_i hp
    obtain rfl := Option.some.inj e
    exact ⟨by simp, by simp [Pc.over], by simp, by simp, fun c hc => absurd hc (ho (by simp [hp]) (by simp [hp]) c)⟩
  · rename_i id todo hp
    obtain rfl := Option.some.inj e
    refine ⟨by simp, by simp [Pc.over], by simp, by simp, fun c hc => ?_⟩
    simp only [(visit_keeps s b id).2.2.2.2] at hc
    exact absurd hc (ho (by simp [hp]) (by simp [hp]) c)
  · rename_i hp
    obtain rfl := Option.some.inj e
    refine ⟨?_, by simp [Pc.over], by simp, by simp, fun c hc => absurd hc (ho (by simp [hp]) (by simp [hp]) c)⟩
    intro h1 _
    simpa using h1
  · rename_i empty hp
    obtain rfl := Option.some.inj e
    have hout : ∀ c, (c, (0 : Int)) ∉ s.out := ho (by simp [hp]) (by simp [hp])
    by_cases hc : (s.shut != 0 && empty) = true
    · simp only [hc, if_true]
      simp only [Bool.and_eq_true, bne_iff_ne, ne_eq] at hc
      obtain ⟨h1, rfl⟩ := hc
      exact ⟨by simp, fun _ => ⟨h.test hp h1, h1⟩, by simp, by simp, fun c hc => absurd hc (hout c)⟩
    · simp only [hc]
      exact ⟨by simp, by simp [Pc.over], by simp, by simp, fun c hc => absurd hc (hout c)⟩
  · rename_i hp
    obtain rfl := Option.some.inj e
    have hout : ∀ c, (c, (0 : Int)) ∉ s.out := ho (by simp [hp]) (by simp [hp])
    by_cases hc : (s.shut == 1) = true
    · simp only [hc, if_true]
      exact ⟨by simp, by simp [Pc.over], by simp, by simp, fun c hc => absurd hc (hout c)⟩
    · simp only [hc]
      exact ⟨by simp, by simp [Pc.over], by simp, by simp, fun c hc => absurd hc (hout c)⟩
  · rename_i hp
    obtain rfl := Option.some.inj e
    exact ⟨by simp, by simp [Pc.over], by simp, by simp, fun c hc => absurd hc (ho (by simp [hp]) (by simp [hp]) c)⟩
  · rename_i hp
    obtain rfl := Option.some.inj e
    exact ⟨by simp, by simp [Pc.over], by simp, by simp, fun c hc => absurd hc (ho (by simp [hp]) (by simp [hp]) c)⟩
  · rename_i hp
    split at e
    · obtain rfl := Option.some.inj e
      exact ⟨by simp, fun _ => h.over (by rw [hp]; rfl), fun _ => rfl, by simp,
        fun c hc => absurd hc (ho (by simp [hp]) (by simp [hp]) c)⟩
    · cases e
  · rename_i hp
    obtain rfl := Option.some.inj e
    exact ⟨by simp, fun _ => h.over (by rw [hp]; rfl), fun _ => h.rem (.inl hp), by simp, fun c _ => .inl rfl⟩
  · rename_i hp
    split at e
    · rename_i ha
      obtain rfl := Option.some.inj e
      exact ⟨by simp, fun _ => h.over (by rw [hp]; rfl), fun _ => h.rem (.inr (.inl hp)),
        fun _ => List.isEmpty_iff.mp ha, fun c _ => .inr rfl⟩
    · cases e
  · cases e

theorem clean_other {s t : State} {a : Act} (h : Clean s) (o : Other s a t)
    (hq : s.pc = .test true → a ≠ .signal ∧ ∀ c, a ≠ .wait c true) : Clean t := by
  cases o with
  | cmdF hp => exact ⟨by simp [hp], by simp [hp, Pc.over], by simp [hp], by simp [hp], h.out⟩
  | cmdU hp => exact ⟨by simp [hp], by simp [hp, Pc.over], by simp [hp], by simp [hp], h.out⟩
  | cmdN => exact h
  | waitF c =>
    exact ⟨fun hp => absurd rfl ((hq hp).2 c), fun hp => ⟨(h.over hp).1, by simp⟩, h.rem, h.add, h.out⟩
  | waitU c _ _ hn =>
    simp only [noSpaces, Bool.and_eq_true, List.isEmpty_iff] at hn
    exact ⟨fun _ _ => hn.1.1, fun hp => ⟨hn.1.1, by simp⟩, h.rem, h.add, h.out⟩
  | waitN c =>
    refine ⟨h.test, h.over, h.rem, h.add, ?_⟩
    intro c' hc
    rcases List.mem_cons.mp hc with hc | hc
    · simp [Rv.EBUSY] at hc
    · exact h.out c' hc
  | signal => exact ⟨fun hp => absurd rfl (hq hp).1, fun hp => ⟨(h.over hp).1, by simp⟩, h.rem, h.add, h.out⟩
  | addStart hp => exact ⟨h.test, h.over, h.rem, fun e => absurd e hp, h.out⟩
  | acquired id hm => exact ⟨h.test, h.over, h.rem, fun e => by simp [h.add e], h.out⟩
  | addUndo id hm => exact ⟨h.test, h.over, h.rem, fun e => by simp [h.add e], h.out⟩
  | addDone id hm _ hz =>
    refine ⟨fun _ hn => absurd hz hn, fun hp => absurd hz (h.over hp).2, h.rem, fun e => ?_, h.out⟩
    simp [h.add e]
  | addDel id => exact ⟨h.test, h.over, h.rem, fun e => by simp [h.add e], h.out⟩
  | use id =>
    exact ⟨fun hp hn => by simp [h.test hp hn], fun hp => ⟨by simp [(h.over hp).1], (h.over hp).2⟩, h.rem, h.add,
      h.out⟩
  | leave id =>
    exact ⟨fun hp hn => by simp [h.test hp hn], fun hp => ⟨by simp [(h.over hp).1], (h.over hp).2⟩, h.rem, h.add,
      h.out⟩
  | ended id => exact ⟨h.test, h.over, fun e => by simp [h.rem e], h.add, h.out⟩

theorem Undisturbed.clean {s : State} (h : Undisturbed s) : Clean s := by
  induction h with
  | init => exact ⟨by simp [Shutdown.init], by simp [Shutdown.init, Pc.over], by simp [Shutdown.init],
      by simp [Shutdown.init], by simp [Shutdown.init]⟩
  | step _ hq e ih =>
    rcases step_cases e with ⟨b, _, e⟩ | o
    · exact clean_main ih e
    · exact clean_other ih o hq

/-- A daemon that has ended has left no lockspace behind: none in use, none that is still being added, and the
threads of all others have ended.

Missing: no signal and no forced shutdown comes in a short moment of the main thread, see
`exit_with_lockspace_violated`. -/
theorem exit_clean_partial {s : State} (h : Undisturbed s) (hp : s.pc = .exited) :
    s.spaces = [] ∧ s.rem = [] ∧ s.add = [] := by
  have hc := h.clean
  exact ⟨(hc.over (by rw [hp]; rfl)).1, hc.rem (.inr (.inr hp)), hc.add hp⟩

/-- When a client has been told that the shutdown is done, no lockspace is in use and the leases of all that were
have been given back, with the same restriction.  See `answered_early_violated` for lockspaces that are still being
added. -/
theorem answer_clean_partial {s : State} {c : Nat} (h : Undisturbed s) (hc : (c, 0) ∈ s.out) :
    s.spaces = [] ∧ s.rem = [] := by
  have hcl := h.clean
  have hp := hcl.out c hc
  refine ⟨(hcl.over (by rcases hp with hp | hp <;> rw [hp] <;> rfl)).1, hcl.rem (.inr hp)⟩

/-- The client whose request was the last one is answered when the main thread gets to the end. -/
theorem last_answered {s t u : State} {c : Nat} {f : Bool} {as : List Act}
    (hp : s.pc ≠ .pool ∧ s.pc ≠ .exited) (e : step s (.wait c f) = some t) (hacc : t.out = s.out)
    (hn : ∀ a ∈ as, ∀ c' f', a ≠ .wait c' f') (er : run t as = some u)
    (hu : u.pc = .pool ∨ u.pc = .exited) : (c, 0) ∈ u.out := by
  have ht : t.waiter = some c ∧ t.pc = s.pc := by
    rcases step_cases e with ⟨_, h, _⟩ | o
    · cases h
    cases o with
    | waitF => exact ⟨rfl, rfl⟩
    | waitU => exact ⟨rfl, rfl⟩
    | waitN => have := congrArg List.length hacc; simp at this
  have key : u.waiter = some c ∧ (u.pc = .pool ∨ u.pc = .exited → (c, 0) ∈ u.out) := by
    refine run_ind (P := fun u => u.waiter = some c ∧ (u.pc = .pool ∨ u.pc = .exited → (c, 0) ∈ u.out))
      ⟨ht.1, ?_⟩ er ?_
    · rw [ht.2]; intro h; rcases h with h | h
      · exact absurd h hp.1
      · exact absurd h hp.2
    · intro v w a ha ⟨h1, h2⟩ e
      rcases step_cases e with ⟨b, rfl, e0⟩ | o
      · replace e := e0
        unfold main at e
        split at e
        case h_2 =>
          obtain rfl := Option.some.inj e
          exact ⟨(visit_keeps v b _).2.2.2.1.trans h1, by simp⟩
        case h_4 =>
          obtain rfl := Option.some.inj e
          refine ⟨h1, ?_⟩
          simp only
          split <;> simp
        case h_5 =>
          obtain rfl := Option.some.inj e
          refine ⟨h1, ?_⟩
          simp only
          split <;> simp
        case h_9 =>
          obtain rfl := Option.some.inj e
          refine ⟨h1, fun _ => ?_⟩
          simp only [h1]
          exact List.mem_cons_self ..
        case h_10 =>
          rename_i hp
          split at e
          · obtain rfl := Option.some.inj e
            exact ⟨h1, fun _ => h2 (.inl hp)⟩
          · cases e
        all_goals first
          | (obtain rfl := Option.some.inj e; exact ⟨h1, by simp⟩)
          | (split at e
             · obtain rfl := Option.some.inj e; exact ⟨h1, by simp⟩
             · cases e)
          | cases e
      · cases o with
        | waitF c' => exact absurd rfl (hn _ ha c' true)
        | waitU c' => exact absurd rfl (hn _ ha c' false)
        | waitN c' => exact absurd rfl (hn _ ha c' false)
        | _ => exact ⟨h1, h2⟩
  exact key.2 hu

/-! ### What the code does otherwise -/

/-- Asks for a shutdown in any way. -/
def Act.request : Act → Bool
  | .signal => true
  | .cmd _ => true
  | .wait _ _ => true
  | _ => false

/-- A daemon that has forgotten the shutdown goes on. -/
theorem forgotten_stays {s u : State} {as : List Act} (h0 : s.shut = 0) (ho : s.pc.over = false)
    (hr : ∀ a ∈ as, a.request = false) (e : run s as = some u) : u.pc.over = false ∧ u.out = s.out := by
  have key : u.shut = 0 ∧ u.pc.over = false ∧ u.out = s.out := by
    refine run_ind (P := fun u => u.shut = 0 ∧ u.pc.over = false ∧ u.out = s.out) ⟨h0, ho, rfl⟩ e ?_
    intro v w a ha ⟨h1, h2, h3⟩ e
    rcases step_cases e with ⟨b, rfl, e0⟩ | o
    · replace e := e0
      unfold main at e
      split at e
      case h_2 =>
        obtain rfl := Option.some.inj e
        exact ⟨(visit_keeps v b _).2.2.1.trans h1, rfl, (visit_keeps v b _).2.2.2.2.trans h3⟩
      case h_4 => obtain rfl := Option.some.inj e; exact ⟨h1, by simp [h1, Pc.over], h3⟩
      case h_5 => obtain rfl := Option.some.inj e; exact ⟨h1, by simp [h1, Pc.over], h3⟩
      all_goals first
        | (obtain rfl := Option.some.inj e; exact ⟨h1, rfl, h3⟩)
        | (obtain rfl := Option.some.inj e; exact ⟨rfl, rfl, h3⟩)
        | (rename_i hp; rw [hp] at h2; simp [Pc.over] at h2; done)
    · have := hr a ha
      cases o <;> first | exact ⟨h1, h2, h3⟩ | (simp [Act.request] at this)
  exact key.2

/-- A lockspace with one user, a forced shutdown that kills it, and then a signal before the process has ended. -/
def forcedThenSignal : List Act :=
  [.addStart, .acquired 1, .addEnd 1, .use 1, .wait 7 true,
   .main false, .main false, .main false, .signal, .main false, .main false, .main false, .main false,
   .leave 1, .main false, .main false, .main false, .main false, .main false, .ended 1, .main false]

/-- A signal makes the daemon forget a forced shutdown: the lockspaces have been killed and are gone, but the
daemon goes on, and the client that waits for it is never answered.  Stopping the service after a forced shutdown
sends such a signal. -/
theorem forced_forgotten_violated :
    ∃ s, Reach s ∧ s.waiter = some 7 ∧ s.spaces = [] ∧ s.rem = [] ∧ s.add = [] ∧ s.out = [] ∧
      ∀ as u, (∀ a ∈ as, a.request = false) → run s as = some u → u.pc.over = false ∧ u.out = [] := by
  refine ⟨⟨[], [], [], 2, 0, some 7, .poll, []⟩, ⟨forcedThenSignal, by decide +kernel⟩, rfl, rfl, rfl, rfl, rfl, ?_⟩
  intro as u hr e
  exact forgotten_stays rfl rfl hr e

/-- A shutdown without force that comes between the two tests of the main thread is accepted and forgotten, with
the message that a lockspace exists although there is none; the client is never answered. -/
theorem accepted_forgotten_violated :
    ∃ s t u, Reach s ∧ s.spaces = [] ∧ s.add = [] ∧ s.rem = [] ∧ step s (.wait 7 false) = some t ∧
      t.out = s.out ∧ run t [.main false, .main false] = some u ∧
      ∀ as v, (∀ a ∈ as, a.request = false) → run u as = some v → v.pc.over = false ∧ v.out = [] := by
  refine ⟨⟨[], [], [], 1, 0, none, .ignore, []⟩, ⟨[], [], [], 1, 1, some 7, .ignore, []⟩,
    ⟨[], [], [], 1, 0, some 7, .free, []⟩, ⟨[.main false, .main false, .main false], by decide +kernel⟩,
    rfl, rfl, rfl, by decide +kernel, rfl, by decide +kernel, ?_⟩
  intro as v hr e
  exact forgotten_stays rfl rfl hr e

/-- A signal that the daemon ignores because there is a lockspace nevertheless makes it give up another one that is
being added. -/
theorem ignored_signal_violated :
    run init [.addStart, .acquired 1, .addEnd 1, .addStart, .acquired 2,
        .addEnd 2] = some ⟨[⟨2, false, 0⟩, ⟨1, false, 0⟩], [], [], 3, 0, none, .poll, []⟩ ∧
    run init [.addStart, .acquired 1, .addEnd 1, .addStart, .acquired 2, .signal,
        .addEnd 2, .addDel 2, .main false, .main false, .main false, .main false, .main false, .main false,
        .main false] = some ⟨[⟨1, false, 0⟩], [], [], 3, 0, none, .poll, []⟩ := by
  decide +kernel

/-- When a lockspace is added, and a signal or forced shutdown comes, between the moment the main thread finds no
lockspace and its test of the shutdown, the daemon ends with the lockspace in use: its process is not killed and
the lease is not given back. -/
theorem exit_with_lockspace_violated :
    ∃ s, Reach s ∧ s.pc = .exited ∧ s.spaces = [⟨1, false, 1⟩] :=
  ⟨⟨[⟨1, false, 1⟩], [], [], 2, 1, none, .exited, []⟩,
    ⟨[.addStart, .acquired 1, .main false, .main false, .addEnd 1, .use 1, .signal, .main false, .main false,
      .main false, .main false], by decide +kernel⟩, rfl, rfl⟩

/-- Of two clients that wait for the shutdown only the last one is answered. -/
theorem one_answer_violated :
    ∃ s, run init [.wait 7 true, .wait 8 true, .main false, .main false, .main false, .main false, .main false,
      .main false] = some s ∧ s.pc = .exited ∧ s.out = [(8, 0)] :=
  ⟨⟨[], [], [], 1, 2, some 8, .exited, [(8, 0)]⟩, by decide +kernel, rfl, rfl⟩

/-- A client can be told that the shutdown is done while the daemon still holds the lease of a lockspace that was
being added. -/
theorem answered_early_violated :
    ∃ s, Undisturbed s ∧ (7, 0) ∈ s.out ∧ s.add = [(1, .held)] := by
  have h1 := Undisturbed.init.step (a := .addStart) (by first | (intro; constructor <;> intros <;> simp; done) | (intro h; cases h)) rfl
  have h2 := h1.step (a := .acquired 1) (by first | (intro; constructor <;> intros <;> simp; done) | (intro h; cases h)) rfl
  have h3 := h2.step (a := .wait 7 true) (by first | (intro; constructor <;> intros <;> simp; done) | (intro h; cases h)) rfl
  have h4 := h3.step (a := .main false) (by first | (intro; constructor <;> intros <;> simp; done) | (intro h; cases h)) rfl
  have h5 := h4.step (a := .main false) (by first | (intro; constructor <;> intros <;> simp; done) | (intro h; cases h)) rfl
  have h6 := h5.step (a := .main false) (by intro; constructor <;> intros <;> simp) rfl
  have h7 := h6.step (a := .main false) (by first | (intro; constructor <;> intros <;> simp; done) | (intro h; cases h)) rfl
  have h8 := h7.step (a := .main false) (by first | (intro; constructor <;> intros <;> simp; done) | (intro h; cases h)) rfl
  exact ⟨_, h8, by decide, rfl⟩

/-- A shutdown that is accepted when the main thread has already answered is never answered itself. -/
theorem late_unanswered_violated :
    ∃ s t u, Reach s ∧ step s (.wait 7 false) = some t ∧ t.out = s.out ∧ step t (.main false) = some u ∧
      u.pc = .exited ∧ u.out = [] :=
  ⟨⟨[], [], [], 1, 1, none, .pool, []⟩, ⟨[], [], [], 1, 1, some 7, .pool, []⟩,
    ⟨[], [], [], 1, 1, some 7, .exited, []⟩,
    ⟨[.signal, .main false, .main false, .main false, .main false, .main false], by decide +kernel⟩,
    by decide +kernel, rfl, by decide +kernel, rfl, rfl⟩

/-! ### The hypotheses can be met -/

/-- A refused and an accepted shutdown. -/
example : step ⟨[⟨1, false, 1⟩], [], [], 2, 0, none, .poll, []⟩ (.wait 7 false) =
    some ⟨[⟨1, false, 1⟩], [], [], 2, 0, none, .poll, [(7, Rv.EBUSY)]⟩ := by decide +kernel

example : Reach init ∧ step init (.wait 7 false) = some { init with waiter := some 7, shut := 1 } ∧
    init.pc ≠ .ignore ∧ init.pc ≠ .clear ∧
    run { init with waiter := some 7, shut := 1 }
      [.main false, .main false, .addStart, .main false, .acquired 1, .main false, .addEnd 1, .main false] =
      some ⟨[], [(1, .undoing)], [], 2, 1, some 7, .pool, [(7, 0)]⟩ :=
  ⟨⟨[], rfl⟩, by decide +kernel, by decide, by decide, by decide +kernel⟩

example : step init (.cmd false) = some { init with shut := 1 } := by decide +kernel

/-- A lockspace in use, signals and a request without force. -/
example : run init [.addStart, .acquired 1, .addEnd 1, .use 1, .signal, .wait 7 false, .main false, .main false,
    .main false, .main false, .main false, .main false, .main false] =
    some ⟨[⟨1, false, 1⟩], [], [], 2, 0, none, .poll, [(7, Rv.EBUSY)]⟩ := by decide +kernel

/-- A forced shutdown with two lockspaces in use, from the request to the end. -/
def twoForced : List Act :=
  [.addStart, .addStart, .acquired 1, .acquired 2, .addEnd 1, .addEnd 2, .use 1, .use 2, .wait 7 true]

example : run init twoForced =
    some ⟨[⟨2, false, 1⟩, ⟨1, false, 1⟩], [], [], 3, 2, some 7, .poll, []⟩ := by decide +kernel

example : run init (twoForced ++ List.replicate 7 (.main false)) =
    some ⟨[⟨2, true, 1⟩, ⟨1, true, 1⟩], [], [], 3, 2, some 7, .poll, []⟩ := by decide +kernel

example : run init (twoForced ++ List.replicate 7 (.main false) ++ [.leave 1, .leave 2] ++
      List.replicate 5 (.main false) ++ [.ended 1, .ended 2] ++ List.replicate 3 (.main false)) =
    some ⟨[], [], [], 3, 2, some 7, .exited, [(7, 0)]⟩ := by decide +kernel

/-- The step that gives up a lockspace. -/
example : step ⟨[⟨1, true, 0⟩], [], [], 2, 2, none, .round [1], []⟩ (.main false) =
    some ⟨[], [], [(1, false)], 2, 2, none, .round [], []⟩ := by decide +kernel

end Sanlock.Shutdown
