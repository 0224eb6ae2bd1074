import Verif.Lemmas.Client

/-!
# Commands end (C18, C31)

A command thread that has passed its final critical section can always go on to its end by its own steps, whatever the rest of
the daemon does not do; and when its process has died meanwhile, it releases the leases of the process on the way.
-/

namespace Sanlock.Client

/-- The steps of a command thread after its final section. -/
def Act.ofThread (th : Nat) : Act → Prop
  | .relTok t _ => t = th
  | .relCl t => t = th
  | .free t => t = th
  | .reply t => t = th
  | _ => False

/-- Thread `th` can run to its end from `s`, by its own steps, to `s'`. -/
def Ends (th : Nat) (s s' : State) : Prop := ∃ as, (∀ a ∈ as, a.ofThread th) ∧ run s as = some s' ∧ s'.thr th = none

theorem Ends.cons {th : Nat} {s s1 s' : State} {a : Act} (ha : a.ofThread th) (hs : step s a = some s1) (h : Ends th s1 s') :
    Ends th s s' := by
  obtain ⟨as, h1, h2, h3⟩ := h
  refine ⟨a :: as, ?_, ?_, h3⟩
  · intro b hb
    rcases List.mem_cons.mp hb with rfl | hb
    · exact ha
    · exact h1 b hb
  · simp only [run, hs]; exact h2

theorem ends_reply {th : Nat} {s : State} {T : Thr} (hT : s.thr th = some T) (hp : T.phase = .reply) :
    ∃ s', Ends th s s' ∧ s'.rel = s.rel := by
  refine ⟨{ s with cl := set s.cl T.cin (resumeCl (s.cl T.cin)), thr := set s.thr th none }, ⟨[.reply th], ?_, ?_, ?_⟩, rfl⟩
  · intro a ha; simp only [List.mem_singleton] at ha; subst ha; rfl
  · simp [run, step, hT, hp]
  · simp [set]

theorem ends_freeing {th : Nat} {s : State} {T : Thr} (hT : s.thr th = some T) (hp : T.phase = .freeing) :
    ∃ s', Ends th s s' ∧ s'.rel = s.rel := by
  by_cases hk : T.kind = .killpath
  · refine ⟨{ s with
        cl := set (set s.cl T.ct (freeCl (s.cl T.ct))) T.cin { set s.cl T.ct (freeCl (s.cl T.ct)) T.cin with leaked := true }
        thr := set s.thr th none }, ⟨[.free th], ?_, ?_, ?_⟩, rfl⟩
    · intro a ha; simp only [List.mem_singleton] at ha; subst ha; rfl
    · simp [run, step, hT, hp, hk]
    · simp [set]
  · obtain ⟨s', h1, h2⟩ := ends_reply (th := th) (T := { T with phase := .reply })
      (s := { s with cl := set s.cl T.ct (freeCl (s.cl T.ct)), thr := set s.thr th (some { T with phase := .reply }) })
      (by simp [set]) rfl
    exact ⟨s', h1.cons (a := .free th) rfl (by simp [step, hT, hp, hk]), h2⟩

/-- **C18.**  A command in its closing part ends, and every lease it still has is released on the way; if the process was
found dead, all leases of the process are. -/
theorem command_ends {th : Nat} {b : Bool} : ∀ {s : State} {T : Thr}, s.thr th = some T → T.phase = .post b →
    ∃ s', Ends th s s' ∧ (∀ t ∈ T.held, s.rel t < s'.rel t) ∧ (∀ t, s.rel t ≤ s'.rel t) ∧
      (b = true → ∀ t ∈ (s.cl T.ct).tokens, s.rel t < s'.rel t) := by
  intro s T
  generalize hn : T.held.length = n
  induction n generalizing s T with
  | zero =>
    intro hT hp
    have hh : T.held = [] := List.length_eq_zero_iff.mp hn
    cases b
    · obtain ⟨s', h1, h2⟩ := ends_reply (th := th) (T := { T with phase := .reply })
        (s := { s with thr := set s.thr th (some { T with phase := .reply }) }) (by simp [set]) rfl
      refine ⟨s', h1.cons (a := .relCl th) rfl (by simp [step, hT, hp, hh]), by simp [hh], ?_, by simp⟩
      intro t; rw [h2]; exact Nat.le_refl _
    · obtain ⟨s', h1, h2⟩ := ends_freeing (th := th) (T := { T with phase := .freeing })
        (s := { s with
          rel := fun t => s.rel t + (s.cl T.ct).tokens.count t
          cl := set s.cl T.ct { s.cl T.ct with dangling := true }
          thr := set s.thr th (some { T with phase := .freeing }) }) (by simp [set]) rfl
      refine ⟨s', h1.cons (a := .relCl th) rfl (by simp [step, hT, hp, hh]), by simp [hh], ?_, ?_⟩
      · intro t; rw [h2]; exact Nat.le_add_right _ _
      · intro _ t ht
        rw [h2]
        have := List.count_pos_iff.mpr ht
        show s.rel t < s.rel t + (s.cl T.ct).tokens.count t
        omega
  | succ n ih =>
    intro hT hp
    cases hh : T.held with
    | nil => rw [hh] at hn; simp at hn
    | cons t0 rest =>
      have he : T.held.erase t0 = rest := by rw [hh]; simp
      obtain ⟨s', h1, h2, h3, h4⟩ := ih (T := { T with held := rest })
        (s := { s with rel := set s.rel t0 (s.rel t0 + 1), thr := set s.thr th (some { T with held := rest }) })
        (by rw [hh] at hn; simpa using hn) (by simp [set]) hp
      have hmono : ∀ t, s.rel t ≤ set s.rel t0 (s.rel t0 + 1) t := by
        intro t; by_cases ht : t = t0 <;> simp [set, ht]
      refine ⟨s', h1.cons (a := .relTok th t0) rfl ?_, ?_, ?_, ?_⟩
      · cases b <;> simp [step, hT, hp, hh]
      · intro t ht
        rcases List.mem_cons.mp ht with rfl | ht
        · have := h3 t
          simp only [set, if_true] at this
          omega
        · exact Nat.lt_of_le_of_lt (hmono t) (h2 t ht)
      · intro t; exact Nat.le_trans (hmono t) (h3 t)
      · intro hb t ht; exact Nat.lt_of_le_of_lt (hmono t) (h4 hb t ht)

theorem held_kind_step {s s' : State} {a : Act} (h : step s a = some s')
    (hi : ∀ th T, s.thr th = some T → T.phase = .run → T.held ≠ [] → T.kind = .acquire ∨ T.kind = .release) :
    ∀ th T, s'.thr th = some T → T.phase = .run → T.held ≠ [] → T.kind = .acquire ∨ T.kind = .release := by
  intro th T hT hp hh
  cases a <;> simp only [step] at h <;> (repeat' split at h) <;> first
    | (cases h; done)
    | (cases h; exact hi th T hT hp hh)
    | (cases h; simp only [set] at hT; split at hT <;> first
        | (exact hi th T hT hp hh)
        | (simp at hT; done)
        | (simp only [Option.some.injEq] at hT; subst hT; simp_all; done)
        | (simp only [Option.some.injEq] at hT; subst hT; rename_i T0 hT0 _ _; have := hi _ T0 hT0; simp_all; done)
        | (simp only [Option.some.injEq] at hT; subst hT; rename_i hc _; exact hc.2.elim (fun h => .inr h.1) (fun h => by simp_all)))

theorem held_kind {s : State} (h : Reach s) :
    ∀ th T, s.thr th = some T → T.phase = .run → T.held ≠ [] → T.kind = .acquire ∨ T.kind = .release := by
  induction h with
  | init => intro th T hT; simp [init] at hT
  | step _ _ hs ih => exact held_kind_step hs ih

/-- A command that is still working can always enter its final section, a release command after releasing what it has
taken out. -/
theorem command_can_finish {s : State} (h : Reach s) {th : Nat} {T : Thr} (hT : s.thr th = some T) (hp : T.phase = .run) :
    (∃ s', step s (.final th false) = some s') ∨ (∃ t s', t ∈ T.held ∧ step s (.relTok th t) = some s') := by
  by_cases hk : T.kind = .acquire
  · left; simp [step, hT, hp, hk]
  · cases hh : T.held with
    | nil => left; simp [step, hT, hp, hk, hh]
    | cons t rest =>
      have hr : T.kind = .release := (held_kind h th T hT hp (by simp [hh])).resolve_left hk
      right
      exact ⟨t, _, List.mem_cons_self, by simp only [step, hT]; rw [if_pos]; simp [hh, hr, hp]⟩

set_option maxRecDepth 100000 in
/-- Non-vacuity: a process with lease 0 dies while it has acquired lease 1; the command is about to clean up both. -/
example : ((run init [.connect 0, .register 0 100, .addSpace 7 1, .setGen 0 5, .start 0 0 .acquire, .lookup 0 7, .acq 0 ⟨7, 1, 5, 0⟩,
    .final 0 true, .reply 0, .start 0 0 .acquire, .lookup 1 7, .acq 1 ⟨7, 1, 5, 0⟩, .dead1 0, .final 1 true]).any
    fun s => (s.thr 1).any fun T => T.phase == .post true && T.held == [1] && (s.cl T.ct).tokens == [0]) = true := by decide +kernel

end Sanlock.Client
