import Verif.Props.Resource

/-!
# The release after a failed conversion (C24)
-/

namespace Sanlock.Resource

open Rv (EAGAIN EBUSY EEXIST EUCLEAN ENOENT EALREADY EINVAL)

/-- A sequence of at most four releases of which all but the last timed out, and the last succeeded. -/
def Undone (rvs : List Int) : Prop :=
  ∃ k, k ≤ 3 ∧ (∀ j, j < k → rvs[j]? = some Rv.AIO_TIMEOUT) ∧ ∃ r, rvs[k]? = some r ∧ 0 ≤ r

theorem undo_spec (rvs : List Int) (n : Nat) (hn : n ≤ 3) :
    undo n rvs = some true ↔
      ∃ k, n + k ≤ 3 ∧ (∀ j, j < k → rvs[j]? = some Rv.AIO_TIMEOUT) ∧ ∃ r, rvs[k]? = some r ∧ 0 ≤ r := by
  induction rvs generalizing n with
  | nil => simp [undo]
  | cons rv rest ih =>
    have hto : ¬ (0 : Int) ≤ Rv.AIO_TIMEOUT := by decide
    simp only [undo]
    split
    · rename_i hc
      rw [ih (n + 1) (by omega)]
      constructor
      · rintro ⟨k, hk, hj, r, hr, h0⟩
        refine ⟨k + 1, by omega, ?_, r, by simpa using hr, h0⟩
        intro j hjk
        cases j with
        | zero => simp [hc.1]
        | succ j => simpa using hj j (by omega)
      · rintro ⟨k, hk, hj, r, hr, h0⟩
        cases k with
        | zero =>
          simp only [List.getElem?_cons_zero, Option.some.injEq] at hr
          rw [← hr, hc.1] at h0
          exact absurd h0 hto
        | succ k =>
          refine ⟨k, by omega, ?_, r, by simpa using hr, h0⟩
          intro j hjk
          simpa using hj (j + 1) (by omega)
    · rename_i hc
      constructor
      · intro h
        refine ⟨0, by omega, by simp, rv, by simp, by simpa using h⟩
      · rintro ⟨k, hk, hj, r, hr, h0⟩
        cases k with
        | zero =>
          simp only [List.getElem?_cons_zero, Option.some.injEq] at hr
          subst hr; simpa using h0
        | succ k =>
          have := hj 0 (by omega)
          simp only [List.getElem?_cons_zero, Option.some.injEq] at this
          exact absurd ⟨this, by omega⟩ hc

/-- **C24, on disk.**  A conversion to exclusive that fails although the lease was acquired (or the acquire asked for its
proposal to be withdrawn) reports the ownership as given up only if a release succeeded: either the one done because of
other live sharers, or one of the at most four that are tried when the conversion is undone. -/
theorem sh2ex_given_up {acq : Int} {retract : Bool} {n : Nat} {clear : Int} {live : Nat} {rel wr : Int}
    {undoRvs : List Int} {dead : Bool} {c : Conv}
    (h : sh2ex acq retract n clear live rel wr undoRvs dead = some c) (hrv : c.rv < 0) (hacq : 0 ≤ acq ∨ retract = true) :
    c.owner = false ↔
      (0 ≤ acq ∧ 1 < n ∧ 0 ≤ clear ∧ live ≠ 0 ∧ 0 ≤ rel) ∨
      (dead = false ∧ Undone undoRvs ∧ (acq < 0 ∨ clear < 0 ∨ rel < 0)) := by
  have hundo : Undone undoRvs ↔ undo 0 undoRvs = some true := by
    rw [undo_spec _ 0 (by omega)]; simp [Undone]
  rw [hundo]
  have hok : ¬ Rv.OK < 0 := by decide
  have fin : ∀ {e : Int}, ((undo 0 undoRvs).map fun d => (⟨e, true, !d, !d, true⟩ : Conv)) = some c →
      (c.owner = false ↔ undo 0 undoRvs = some true) := by
    intro e hp
    cases hu : undo 0 undoRvs with
    | none => rw [hu] at hp; simp at hp
    | some d => rw [hu] at hp; simp at hp; rw [← hp]; cases d <;> simp
  unfold sh2ex at h
  dsimp only at h
  cases dead <;> simp only [Bool.false_eq_true, ↓reduceIte] at h
  · by_cases ha : acq < 0
    · have hr : retract = true := by rcases hacq with h | h; omega; exact h
      rw [if_pos ha, if_pos hr] at h
      rw [fin h]
      constructor
      · intro hu; exact .inr ⟨rfl, hu, .inl ha⟩
      · rintro (⟨h1, _⟩ | ⟨_, hu, _⟩)
        · omega
        · exact hu
    · rw [if_neg ha] at h
      split at h
      · simp only [Option.some.injEq] at h; subst h; exact absurd hrv hok
      · split at h
        · rename_i hn hc
          rw [fin h]
          constructor
          · intro hu; exact .inr ⟨rfl, hu, .inr (.inl hc)⟩
          · rintro (⟨_, _, h1, _⟩ | ⟨_, hu, _⟩)
            · omega
            · exact hu
        · rename_i hn hc
          split at h
          · rename_i hl
            split at h
            · rename_i hr
              rw [fin h]
              constructor
              · intro hu; exact .inr ⟨rfl, hu, .inr (.inr hr)⟩
              · rintro (⟨_, _, _, _, h1⟩ | ⟨_, hu, _⟩)
                · omega
                · exact hu
            · rename_i hr
              simp only [Option.some.injEq] at h; subst h
              exact ⟨fun _ => .inl ⟨by omega, by omega, by omega, hl, by omega⟩, fun _ => rfl⟩
          · simp only [Option.some.injEq] at h; subst h; exact absurd hrv hok
  · by_cases ha : acq < 0
    · have hr : retract = true := by rcases hacq with h | h; omega; exact h
      rw [if_pos ha, if_pos hr] at h
      simp only [Option.some.injEq] at h; subst h
      simp; intro; omega
    · rw [if_neg ha] at h
      split at h
      · simp only [Option.some.injEq] at h; subst h; exact absurd hrv hok
      · split at h
        · simp only [Option.some.injEq] at h; subst h
          simp; intros; omega
        · split at h
          · rename_i hl
            split at h
            · simp only [Option.some.injEq] at h; subst h
              simp; intros; omega
            · simp only [Option.some.injEq] at h; subst h
              simp; omega
          · simp only [Option.some.injEq] at h; subst h; exact absurd hrv hok

/-- Non-vacuity: the release because of live sharers fails, the first undo times out, the second succeeds. -/
example : sh2ex 1 false 3 1 2 (-5) 0 [Rv.AIO_TIMEOUT, 1] false = some ⟨-5, true, false, false, true⟩ := by decide
/-- Non-vacuity: all four undo calls time out; the ownership is not given up. -/
example : sh2ex 1 false 3 1 2 (-5) 0 [Rv.AIO_TIMEOUT, Rv.AIO_TIMEOUT, Rv.AIO_TIMEOUT, Rv.AIO_TIMEOUT, 1] false =
    some ⟨-5, true, true, true, true⟩ := by decide

end Sanlock.Resource
