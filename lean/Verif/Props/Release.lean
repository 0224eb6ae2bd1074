import Verif.Release
import Verif.Props.Client

/-!
# Releasing leases: C33
-/

namespace Sanlock.Release

theorem relAll_eq (slots : List (Option Tok)) : ∀ rem : List Tok, rem.length ≤ maxRes →
    relAll slots rem =
      if rem.length + (held slots).length ≤ maxRes then some (rem ++ held slots, slots.map fun _ => none) else none := by
  induction slots with
  | nil => intro rem hr; simp [relAll, held, hr]
  | cons s ts ih =>
    intro rem hr
    cases s with
    | none =>
      rw [relAll, ih rem hr]
      have : held (none :: ts) = held ts := rfl
      rw [this]
      split <;> rfl
    | some t =>
      have hh : held (some t :: ts) = t :: held ts := rfl
      rw [relAll, hh]
      unfold push
      by_cases hlt : rem.length < maxRes
      · rw [if_pos hlt]
        dsimp only
        rw [ih (rem ++ [t]) (by simp only [List.length_append, List.length_cons, List.length_nil]; omega)]
        simp only [List.length_append, List.length_cons, List.length_nil]
        have : rem.length + (0 + 1) + (held ts).length = rem.length + ((held ts).length + 1) := by omega
        rw [this]
        split <;> simp
      · rw [if_neg hlt, if_neg]
        simp only [List.length_cons]; omega

/-- Release-all of at most eight leases stays inside its array, collects exactly the leases the process has, and leaves none. -/
theorem release_all_partial {slots : List (Option Tok)} (h : (held slots).length ≤ 8) :
    ∃ slots', relAll slots [] = some (held slots, slots') ∧ held slots' = [] := by
  refine ⟨slots.map fun _ => none, ?_, ?_⟩
  · rw [relAll_eq slots [] (Nat.zero_le _), if_pos (by simpa [maxRes] using h)]; rfl
  · unfold held; induction slots with
    | nil => rfl
    | cons _ ts ih => exact List.filterMap_eq_nil_iff.mpr (by intro a ha; obtain ⟨_, _, rfl⟩ := List.mem_map.mp ha; rfl)

/-- Release-all by a process with nine or more leases always writes outside the array. -/
theorem release_all_overflow_violated {slots : List (Option Tok)} (h : 8 < (held slots).length) : relAll slots [] = none := by
  rw [relAll_eq slots [] (Nat.zero_le _), if_neg (by simp only [List.length_nil, maxRes]; omega)]

set_option maxRecDepth 100000 in
/-- A process gets more than eight leases with two acquire commands. -/
example : ((Client.runA Client.init ([.addSpace 7 1, .setGen 0 5, .connect 0, .register 0 100, .start 0 0 .acquire, .lookup 0 7] ++
      List.replicate 5 (.acq 0 ⟨7, 1, 5, 0⟩) ++ [.final 0 true, .reply 0, .start 0 0 .acquire, .lookup 1 7] ++
      List.replicate 5 (.acq 1 ⟨7, 1, 5, 0⟩) ++ [.final 1 true, .reply 1])).any
    fun s => decide ((s.cl 0).tokens.length = 10)) = true := by decide +kernel

example : (held (List.replicate 3 (some (⟨[1], [2]⟩ : Tok)) ++ [none, some ⟨[1], [3]⟩])).length ≤ 8 := by decide

theorem takeOne_none {q : Tok} {slots : List (Option Tok)} (h : (takeOne q slots).1 = none) :
    (takeOne q slots).2 = slots ∧ q ∉ held slots := by
  induction slots with
  | nil => exact ⟨rfl, by simp [held]⟩
  | cons s ts ih =>
    cases s with
    | none =>
      obtain ⟨h1, h2⟩ := ih h
      exact ⟨by simp only [takeOne]; rw [h1], h2⟩
    | some t =>
      have hh : held (some t :: ts) = t :: held ts := rfl
      simp only [takeOne] at h ⊢
      split at h
      · rename_i hs
        obtain ⟨h1, h2⟩ := ih h
        rw [if_pos hs, hh]
        refine ⟨by simp only []; rw [h1], ?_⟩
        rw [List.mem_cons]
        rintro (rfl | h)
        · exact hs rfl
        · exact h2 h
      · rename_i hs
        split at h
        · rename_i hn
          obtain ⟨h1, h2⟩ := ih h
          rw [if_neg hs, if_pos hn, hh]
          refine ⟨by simp only []; rw [h1], ?_⟩
          rw [List.mem_cons]
          rintro (rfl | h)
          · exact hn rfl
          · exact h2 h
        · cases h

theorem takeOne_some {q t : Tok} {slots : List (Option Tok)} (h : (takeOne q slots).1 = some t) :
    t = q ∧ (held slots).Perm (q :: held (takeOne q slots).2) := by
  induction slots with
  | nil => cases h
  | cons s ts ih =>
    cases s with
    | none =>
      obtain ⟨h1, h2⟩ := ih h
      exact ⟨h1, h2⟩
    | some u =>
      have hh : ∀ (u : Tok) ts, held (some u :: ts) = u :: held ts := fun _ _ => rfl
      simp only [takeOne] at h ⊢
      split at h
      · rename_i hs
        obtain ⟨h1, h2⟩ := ih h
        rw [if_pos hs, hh]
        exact ⟨h1, (h2.cons u).trans (List.Perm.swap _ _ _)⟩
      · rename_i hs
        split at h
        · rename_i hn
          obtain ⟨h1, h2⟩ := ih h
          rw [if_neg hs, if_pos hn, hh]
          exact ⟨h1, (h2.cons u).trans (List.Perm.swap _ _ _)⟩
        · rename_i hn
          rw [if_neg hs, if_neg hn]
          have hq : u = q := by
            have a : u.space = q.space := Decidable.not_not.mp hs
            have b : u.name = q.name := Decidable.not_not.mp hn
            rcases u with ⟨u1, u2⟩
            rcases q with ⟨q1, q2⟩
            cases a; cases b; rfl
          cases h
          exact ⟨hq, by rw [← hq]; exact List.Perm.refl _⟩

/-- What releasing a list of names should do to the leases of a process: for each name one lease of that name goes. -/
inductive Released : List Tok → List Tok → List Tok → List Tok → Bool → Prop where
  | nil {l : List Tok} : Released [] l [] l false
  | found {q : Tok} {qs l l1 rem l' : List Tok} {bad : Bool} : l.Perm (q :: l1) → Released qs l1 rem l' bad → Released (q :: qs) l (q :: rem) l' bad
  | missing {q : Tok} {qs l rem l' : List Tok} {bad : Bool} : q ∉ l → Released qs l rem l' bad → Released (q :: qs) l rem l' true

/-- Releasing at most eight names is safe and releases exactly one lease for each name the process has. -/
theorem release_named_partial (qs : List Tok) : ∀ (slots : List (Option Tok)) (rem : List Tok) (bad : Bool), rem.length + qs.length ≤ 8 →
    ∃ rem' slots' bad', relNamed qs slots rem bad = some (rem ++ rem', slots', bad || bad') ∧ Released qs (held slots) rem' (held slots') bad' := by
  induction qs with
  | nil => intro slots rem bad _; exact ⟨[], slots, false, by simp [relNamed], .nil⟩
  | cons q qs ih =>
    intro slots rem bad hl
    simp only [List.length_cons] at hl
    rw [relNamed]
    cases ht : takeOne q slots with
    | mk o slots1 =>
      cases o with
      | none =>
        obtain ⟨h1, h2⟩ := takeOne_none (q := q) (slots := slots) (by rw [ht])
        rw [ht] at h1
        have h1 : slots1 = slots := h1
        subst h1
        obtain ⟨rem', slots', bad', h3, h4⟩ := ih slots1 rem true (by omega)
        exact ⟨rem', slots', true, by dsimp only; rw [h3]; simp, .missing h2 h4⟩
      | some t =>
        obtain ⟨h1, h2⟩ := takeOne_some (q := q) (t := t) (slots := slots) (by rw [ht])
        rw [ht] at h2
        subst h1
        obtain ⟨rem', slots', bad', h3, h4⟩ := ih slots1 (rem ++ [t]) bad (by simp only [List.length_append, List.length_cons, List.length_nil]; omega)
        refine ⟨t :: rem', slots', bad', ?_, .found h2 h4⟩
        dsimp only
        unfold push
        rw [if_pos (by show rem.length < 8; omega)]
        dsimp only
        rw [h3]
        simp

/-- A message with nine resources the process holds writes outside the array: their number is not checked. -/
theorem release_named_overflow_violated : ∃ (qs : List Tok) (slots : List (Option Tok)), qs.length = 9 ∧ relNamed qs slots [] false = none :=
  ⟨List.replicate 9 ⟨[1], [2]⟩, List.replicate 9 (some ⟨[1], [2]⟩), by decide, by decide⟩

example : relNamed [⟨[1], [3]⟩, ⟨[1], [9]⟩] [some ⟨[1], [2]⟩, none, some ⟨[1], [3]⟩] [] false =
    some ([⟨[1], [3]⟩], [some ⟨[1], [2]⟩, none, none], true) := by decide

/-- Slot by slot: nothing happened, or the lease in it was taken out. -/
def Emptied (slots slots' : List (Option Tok)) : Prop :=
  slots'.length = slots.length ∧ ∀ i : Nat, slots'[i]? = slots[i]? ∨ slots'[i]? = some none

theorem takeOne_emptied (q : Tok) (slots : List (Option Tok)) : Emptied slots (takeOne q slots).2 := by
  induction slots with
  | nil => exact ⟨rfl, fun i => Or.inl rfl⟩
  | cons a ts ih =>
    have cons : ∀ x : Option Tok, Emptied (x :: ts) (x :: (takeOne q ts).2) := by
      intro x
      refine ⟨by simpa using ih.1, fun i => ?_⟩
      cases i with
      | zero => exact Or.inl rfl
      | succ i => simpa using ih.2 i
    cases a with
    | none => exact cons none
    | some t =>
      simp only [takeOne]
      split
      · exact cons _
      · split
        · exact cons _
        · refine ⟨rfl, fun i => ?_⟩
          cases i with
          | zero => exact Or.inr rfl
          | succ i => exact Or.inl rfl

/-- **C33**.  Releasing by name leaves every other lease in its slot: the table keeps its size, and each slot is as before
or empty. -/
theorem release_slots (qs : List Tok) : ∀ (slots slots' : List (Option Tok)) (rem rem' : List Tok) (bad bad' : Bool),
    relNamed qs slots rem bad = some (rem', slots', bad') → Emptied slots slots' := by
  induction qs with
  | nil =>
    intro slots slots' rem rem' bad bad' h
    simp only [relNamed, Option.some.injEq, Prod.mk.injEq] at h
    obtain ⟨_, rfl, _⟩ := h
    exact ⟨rfl, fun i => Or.inl rfl⟩
  | cons q qs ih =>
    intro slots slots' rem rem' bad bad' h
    have trans : ∀ {a b c : List (Option Tok)}, Emptied a b → Emptied b c → Emptied a c := by
      intro a b c h1 h2
      refine ⟨by rw [h2.1, h1.1], fun i => ?_⟩
      rcases h2.2 i with h | h
      · rw [h]; exact h1.2 i
      · exact Or.inr h
    have ht := takeOne_emptied q slots
    rw [relNamed] at h
    split at h
    · rename_i heq
      rw [heq] at ht
      exact trans ht (ih _ _ _ _ _ _ h)
    · rename_i heq
      rw [heq] at ht
      split at h
      · cases h
      · exact trans ht (ih _ _ _ _ _ _ h)

/-- The same for releasing all. -/
theorem release_all_slots {slots slots' : List (Option Tok)} {rem : List Tok} (h : relAll slots [] = some (rem, slots')) :
    Emptied slots slots' := by
  rw [relAll_eq slots [] (Nat.zero_le _)] at h
  split at h
  · simp only [Option.some.injEq, Prod.mk.injEq] at h
    obtain ⟨_, rfl⟩ := h
    refine ⟨by simp, fun i => ?_⟩
    rw [List.getElem?_map]
    cases slots[i]? with
    | none => exact Or.inl rfl
    | some x => exact Or.inr rfl
  · cases h

/-- The second of three. -/
example : ∃ rem slots' bad, relNamed [⟨[1], [3]⟩] [some ⟨[1], [2]⟩, some ⟨[1], [3]⟩, some ⟨[1], [4]⟩] [] false = some (rem, slots', bad) ∧
    slots'[2]? = some (some ⟨[1], [4]⟩) := ⟨[⟨[1], [3]⟩], [some ⟨[1], [2]⟩, none, some ⟨[1], [4]⟩], false, by decide, by decide⟩

end Sanlock.Release
