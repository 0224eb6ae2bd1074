/-!
# Small list lemmas used in several places
-/

namespace Sanlock.Util

/-- In a list whose entries have different keys, the key determines the entry. -/
theorem pairwise_inj {α β : Type _} {f : α → β} {l : List α} (h : l.Pairwise fun a b => f a ≠ f b)
    {a b : α} (ha : a ∈ l) (hb : b ∈ l) (he : f a = f b) : a = b := by
  induction l with
  | nil => simp at ha
  | cons x l ih =>
    rw [List.pairwise_cons] at h
    rcases List.mem_cons.mp ha with ha' | ha' <;> rcases List.mem_cons.mp hb with hb' | hb'
    · rw [ha', hb']
    · subst ha'; exact absurd he (h.1 b hb')
    · subst hb'; exact absurd he.symm (h.1 a ha')
    · exact ih h.2 ha' hb'

end Sanlock.Util
