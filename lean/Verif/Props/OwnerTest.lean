import Verif.OwnerTest
import Verif.Util

/-!
# Properties of the owner test: C38
-/

namespace Sanlock.OwnerTest

/-- The owner cannot be running, by the host list: it is not listed, its id has a newer generation, or it is free or
dead. -/
def Gone (hosts : List Host) (o : Host) : Prop :=
  ∀ h ∈ hosts, h.hostId = o.hostId →
    h.generation > o.generation ∨ (h.generation = o.generation ∧ (h.flags % 16 = 2 ∨ h.flags % 16 = 5))

theorem mod16 (n : Nat) : n &&& 0xF = n % 16 := Nat.and_two_pow_sub_one_eq_mod n 4

theorem testOne_ok {hosts : List Host} {o : Host} (hn : hosts.Pairwise fun a b => a.hostId ≠ b.hostId) :
    testOne hosts o = .ok false ↔ Gone hosts o := by
  unfold testOne Gone
  cases hf : hosts.find? (fun h => o.hostId == h.hostId) with
  | none =>
    rw [List.find?_eq_none] at hf
    simp only [true_iff]
    intro h hm he
    exact absurd he.symm (by simpa using hf h hm)
  | some h =>
    have hm := List.mem_of_find?_eq_some hf
    have he : o.hostId = h.hostId := by simpa using List.find?_some hf
    have uniq : ∀ x ∈ hosts, x.hostId = o.hostId → x = h := by
      intro x hx hxe
      exact Util.pairwise_inj hn hx hm (hxe.trans he)
    have hred : (∀ x ∈ hosts, x.hostId = o.hostId →
        x.generation > o.generation ∨ (x.generation = o.generation ∧ (x.flags % 16 = 2 ∨ x.flags % 16 = 5))) ↔
        (h.generation > o.generation ∨ (h.generation = o.generation ∧ (h.flags % 16 = 2 ∨ h.flags % 16 = 5))) := by
      constructor
      · intro H; exact H h hm he.symm
      · intro H x hx hxe; rw [uniq x hx hxe]; exact H
    rw [hred]
    simp only [mod16, FREE, DEAD, LIVE, FAIL, UNKNOWN]
    split
    · simp; omega
    · split
      · simp; omega
      · split
        · simp; omega
        · split <;> simp <;> omega

theorem loop_ok {hosts : List Host} (hn : hosts.Pairwise fun a b => a.hostId ≠ b.hostId) :
    ∀ {os : List Host} {f : Bool}, loop hosts os f = .ok false ↔ f = false ∧ ∀ o ∈ os, Gone hosts o := by
  intro os
  induction os with
  | nil => intro f; simp [loop]
  | cons o os ih =>
    intro f
    unfold loop
    cases h : testOne hosts o with
    | error e =>
      have : ¬ Gone hosts o := by rw [← testOne_ok hn, h]; simp
      simp [this]
    | ok b =>
      simp only [ih, List.mem_cons, forall_eq_or_imp]
      cases b with
      | false => have := (testOne_ok hn).mp h; simp [this]
      | true =>
        have : ¬ Gone hosts o := by rw [← testOne_ok hn, h]; simp
        simp [this]

theorem testOne_error {hosts : List Host} {o : Host} : testOne hosts o ≠ .error 0 := by
  intro h1
  unfold testOne at h1
  have hinv : Rv.EINVAL ≠ 0 := by decide
  split at h1
  · simp at h1
  · split at h1
    · simp at h1
    · split at h1
      · simp only [Except.error.injEq] at h1; exact hinv h1
      · simp only at h1
        split at h1
        · simp at h1
        · split at h1
          · simp at h1
          · simp only [Except.error.injEq] at h1; exact hinv h1

theorem loop_error {hosts : List Host} : ∀ (os : List Host) (f : Bool), loop hosts os f ≠ .error 0 := by
  intro os
  induction os with
  | nil => intro f; simp [loop]
  | cons o os ih =>
    intro f
    unfold loop
    cases h1 : testOne hosts o with
    | error e =>
      simp only [ne_eq, Except.error.injEq]
      intro he
      exact testOne_error (he ▸ h1)
    | ok b => exact ih _

/-- **C38**.  For every list of owners and every host list with one entry per host id, the test succeeds without the
failure flag exactly if every owner is missing from the host list, has a newer generation there, or is free or dead. -/
theorem test_clear_iff {owners hosts : List Host} (hn : hosts.Pairwise fun a b => a.hostId ≠ b.hostId) :
    test owners hosts = (0, 0) ↔ ∀ o ∈ owners, Gone hosts o := by
  unfold test
  have := loop_ok hn (os := owners) (f := false)
  cases h : loop hosts owners false with
  | error e =>
    rw [h] at this
    have hne : ¬ ∀ o ∈ owners, Gone hosts o := fun hx => by
      have := this.mpr ⟨rfl, hx⟩; simp at this
    have hz : e ≠ 0 := fun he => loop_error owners false (he ▸ h)
    simp [hne, hz]
  | ok f =>
    rw [h] at this
    cases f with
    | false => simp only [true_iff] at this; exact iff_of_true rfl this.2
    | true =>
      have hne : ¬ ∀ o ∈ owners, Gone hosts o := fun hx => by
        have := this.mpr ⟨rfl, hx⟩; simp at this
      simp [hne]

/-- Whatever the host list, an owner whose (first) entry is alive with the same generation makes the test fail or
report the failure flag. -/
theorem test_live {owners hosts : List Host} {o h : Host} (ho : o ∈ owners)
    (hf : hosts.find? (fun h => o.hostId == h.hostId) = some h) (hg : h.generation = o.generation)
    (hl : h.flags % 16 = 3) : test owners hosts ≠ (0, 0) := by
  have ht : testOne hosts o = .ok true := by
    unfold testOne
    rw [hf]
    simp only [mod16, hl, hg, FREE, DEAD, LIVE]
    simp
  have key : ∀ (os : List Host) (f : Bool), (o ∈ os ∨ f = true) → loop hosts os f ≠ .ok false := by
    intro os
    induction os with
    | nil => intro f hx; rcases hx with hx | hx
             · simp at hx
             · simp [loop, hx]
    | cons a os ih =>
      intro f hx
      unfold loop
      cases h1 : testOne hosts a with
      | error e => simp
      | ok b =>
        refine ih _ ?_
        rcases hx with hx | hx
        · rcases List.mem_cons.mp hx with rfl | hx
          · rw [ht] at h1
            simp only [Except.ok.injEq] at h1
            right; simp [← h1]
          · exact Or.inl hx
        · right; simp [hx]
  unfold test
  cases h : loop hosts owners false with
  | error e =>
    intro he
    simp only [Prod.mk.injEq, and_true] at he
    exact loop_error owners false (he ▸ h)
  | ok f =>
    cases f with
    | false => exact absurd h (key owners false (Or.inl ho))
    | true => simp

example : test [⟨1, 5, 0⟩, ⟨2, 1, 0⟩] [⟨1, 5, 3⟩, ⟨2, 1, 5⟩] = (0, 1) ∧
    test [⟨1, 5, 0⟩, ⟨2, 1, 0⟩] [⟨1, 6, 3⟩, ⟨2, 1, 5⟩] = (0, 0) ∧
    ([⟨1, 6, 3⟩, ⟨2, 1, 5⟩] : List Host).Pairwise (fun a b => a.hostId ≠ b.hostId) := by decide

end Sanlock.OwnerTest
