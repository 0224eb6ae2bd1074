import Verif.SyncIo

/-!
# Lemmas about reading and writing without aio
-/

namespace Sanlock.SyncIo

theorem put_nil (d : Dev) (a : Nat) : put d a [] = d := by
  funext i
  unfold put
  rw [if_neg]
  simp only [List.length_nil]
  omega

theorem put_put (d : Dev) (a p k : Nat) (buf : List UInt8) (h : p + k ≤ buf.length) :
    put (put d a (buf.take p)) (a + p) ((buf.drop p).take k) = put d a (buf.take (p + k)) := by
  funext i
  unfold put
  have h1 : ((buf.drop p).take k).length = k := by simp; omega
  have h2 : (buf.take p).length = p := by simp; omega
  have h3 : (buf.take (p + k)).length = p + k := by simp; omega
  rw [h1, h2, h3]
  by_cases c1 : a + p ≤ i ∧ i < a + p + k
  · rw [if_pos c1, if_pos (by omega)]
    simp only [List.getD_eq_getElem?_getD]
    rw [List.getElem?_take, List.getElem?_take, if_pos (by omega), if_pos (by omega), List.getElem?_drop]
    congr 2
    omega
  · rw [if_neg c1]
    by_cases c2 : a ≤ i ∧ i < a + p
    · rw [if_pos c2, if_pos (by omega)]
      simp only [List.getD_eq_getElem?_getD]
      rw [List.getElem?_take, List.getElem?_take, if_pos (by omega), if_pos (by omega)]
    · rw [if_neg c2, if_neg (by omega)]

theorem writeLoop_spec (buf : List UInt8) (d : Dev) (off : Nat) : ∀ (as : List Ans) (pos len : Nat) (f : File),
    pos + len = buf.length → f.pos = off + pos → f.dev = put d off (buf.take pos) →
    ∃ m, pos ≤ m ∧ m ≤ buf.length ∧ (writeLoop buf as pos len f).2.dev = put d off (buf.take m) ∧
      (writeLoop buf as pos len f).2.size = f.size ∧
      ((writeLoop buf as pos len f).1 = none ∨ (writeLoop buf as pos len f).1 = some (-1) ∨
        ((writeLoop buf as pos len f).1 = some 0 ∧ m = buf.length)) := by
  intro as
  induction as with
  | nil => intro pos len f hl hp hd; exact ⟨pos, Nat.le_refl _, by omega, hd, rfl, .inl rfl⟩
  | cons a as ih =>
    intro pos len f hl hp hd
    cases a with
    | eintr => exact ih pos len f hl hp hd
    | err => exact ⟨pos, Nat.le_refl _, by omega, hd, rfl, .inr (.inl rfl)⟩
    | n k =>
      simp only [writeLoop]
      have hlen : ((buf.drop pos).take (min k len)).length = min k len := by simp; omega
      have hd' : (sysWrite f ((buf.drop pos).take (min k len))).dev = put d off (buf.take (pos + min k len)) := by
        simp only [sysWrite]
        rw [hd, hp, put_put d off pos (min k len) buf (by omega)]
      split
      · obtain ⟨m, h1, h2, h3, h4, h5⟩ := ih (pos + min k len) (len - min k len) (sysWrite f ((buf.drop pos).take (min k len)))
          (by omega) (by simp only [sysWrite, hlen, hp]; omega) hd'
        exact ⟨m, by omega, h2, h3, h4, h5⟩
      · rename_i he
        refine ⟨pos + min k len, by omega, by omega, hd', rfl, .inr (.inr ⟨rfl, by omega⟩)⟩

/-- Answers that move something. -/
def moves (as : List Ans) : Nat := as.countP fun a => match a with | .n k => decide (0 < k) | _ => false

theorem writeLoop_ends (buf : List UInt8) : ∀ (as : List Ans) (pos len : Nat) (f : File), 0 < len →
    (len ≤ moves as ∨ .err ∈ as) → (writeLoop buf as pos len f).1 ≠ none := by
  intro as
  induction as with
  | nil => intro pos len f h0 h; rcases h with h | h
           · simp [moves] at h; omega
           · cases h
  | cons a as ih =>
    intro pos len f h0 h
    cases a with
    | eintr =>
      refine ih pos len f h0 ?_
      rcases h with h | h
      · left; simpa [moves, List.countP_cons] using h
      · right; simpa using h
    | err => simp [writeLoop]
    | n k =>
      simp only [writeLoop]
      split
      · refine ih _ _ _ (by omega) ?_
        rcases h with h | h
        · left
          simp only [moves, List.countP_cons] at h ⊢
          by_cases hk : 0 < k
          · simp only [hk, decide_true, if_true] at h
            omega
          · simp only [hk, decide_false, Bool.false_eq_true, if_false] at h
            omega
        · right; simpa using h
      · simp

theorem length_get (d : Dev) (a n : Nat) : (get d a n).length = n := by simp [get]

theorem get_append (d : Dev) (a n m : Nat) : get d a n ++ get d (a + n) m = get d a (n + m) := by
  simp only [get, List.range_add, List.map_append, List.map_map]
  congr 1
  apply List.map_congr_left
  intro i _
  simp only [Function.comp]
  congr 1
  omega

theorem readLoop_spec (len : Nat) (off : Nat) : ∀ (as : List Ans) (pos : Nat) (buf : List UInt8) (f : File),
    buf.length = len → pos ≤ len → f.pos = off + pos → buf.take pos = get f.dev off pos → (0 < pos → off + pos ≤ f.size) →
    (readLoop len as pos buf f).1 = none ∨ (readLoop len as pos buf f).1 = some (-1) ∨
      ((readLoop len as pos buf f).1 = some 0 ∧ (readLoop len as pos buf f).2 = get f.dev off len ∧ (0 < len → off + len ≤ f.size)) := by
  intro as
  induction as with
  | nil =>
    intro pos buf f hb hp hf ht hs
    unfold readLoop
    split
    · exact .inl rfl
    · have : pos = len := by omega
      subst this
      refine .inr (.inr ⟨rfl, ?_, hs⟩)
      rw [← ht, ← hb, List.take_length]
  | cons a as ih =>
    intro pos buf f hb hp hf ht hs
    unfold readLoop
    split
    · rename_i hlt
      cases a with
      | eintr => exact ih pos buf f hb hp hf ht hs
      | err => exact .inr (.inl rfl)
      | n k =>
        simp only
        split
        · exact .inr (.inl rfl)
        · rename_i hne
          generalize hr : min k (min (len - pos) (f.size - f.pos)) = rv at hne ⊢
          have hle : rv ≤ len - pos := by omega
          have hsz : rv ≤ f.size - f.pos := by omega
          have hlen : (splice buf pos (get f.dev f.pos rv)).length = len := by
            simp only [splice, List.length_append, List.length_take, List.length_drop, length_get]
            omega
          have := ih (pos + rv) (splice buf pos (get f.dev f.pos rv)) { f with pos := f.pos + rv } hlen (by omega)
            (by simp only; omega) ?_ (by simp only; intro _; omega)
          · exact this
          · simp only [splice, length_get]
            have e : pos + rv = (buf.take pos ++ get f.dev f.pos rv).length := by
              simp only [List.length_append, List.length_take, length_get]; omega
            rw [e, List.take_left, ht, hf, get_append]
            congr 1
            simp only [List.length_append, length_get]
    · have : pos = len := by omega
      subst this
      refine .inr (.inr ⟨rfl, ?_, hs⟩)
      rw [← ht, ← hb, List.take_length]

theorem readLoop_ends (len : Nat) (off : Nat) : ∀ (as : List Ans) (pos : Nat) (buf : List UInt8) (f : File),
    pos ≤ len → f.pos = off + pos → off + len ≤ f.size → (∀ a ∈ as, a = .eintr ∨ ∃ k, a = .n k ∧ 0 < k) → len - pos ≤ moves as →
    (readLoop len as pos buf f).1 = some 0 := by
  intro as
  induction as with
  | nil =>
    intro pos buf f hp hf hs ha hm
    unfold readLoop
    rw [if_neg (by simp [moves] at hm; omega)]
  | cons a as ih =>
    intro pos buf f hp hf hs ha hm
    unfold readLoop
    split
    · rename_i hlt
      rcases ha a (List.mem_cons_self ..) with rfl | ⟨k, rfl, hk⟩
      · exact ih pos buf f hp hf hs (fun a h => ha a (List.mem_cons_of_mem _ h)) (by simpa [moves, List.countP_cons] using hm)
      · simp only
        rw [if_neg (by omega)]
        refine ih _ _ _ (by omega) (by simp only; omega) hs (fun a h => ha a (List.mem_cons_of_mem _ h)) ?_
        simp only [moves, List.countP_cons, hk, decide_true, if_true] at hm ⊢
        omega
    · rfl

end Sanlock.SyncIo
