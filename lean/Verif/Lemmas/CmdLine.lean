import Verif.CmdLine
import Verif.Props.Direct

/-!
# Lemmas about the command line
-/

namespace Sanlock.CmdLine

open Strings (Str Res)

theorem chr_none {c : UInt8} {s : Str} (h : c ∉ s) : chr c s = none := by
  induction s with
  | nil => rfl
  | cons x xs ih =>
    rw [chr, if_neg (by rintro rfl; exact h (List.mem_cons_self ..)), ih (fun h' => h (List.mem_cons_of_mem _ h'))]
    rfl

theorem chr_append {c : UInt8} {a r : Str} (h : c ∉ a) : chr c (a ++ c :: r) = some (a, r) := by
  induction a with
  | nil => simp [chr]
  | cons x xs ih =>
    rw [List.cons_append, chr, if_neg (by rintro rfl; exact h (List.mem_cons_self ..)), ih (fun h' => h (List.mem_cons_of_mem _ h'))]
    rfl

theorem chr_some {c : UInt8} {s a r : Str} (h : chr c s = some (a, r)) : s = a ++ c :: r ∧ c ∉ a := by
  induction s generalizing a with
  | nil => exact nomatch h
  | cons x xs ih =>
    rw [chr] at h
    split at h
    · rename_i e
      obtain ⟨rfl, rfl⟩ : [] = a ∧ xs = r := by simpa using h
      exact ⟨by rw [e]; rfl, by simp⟩
    · rename_i e
      cases hx : chr c xs with
      | none => rw [hx] at h; exact nomatch h
      | some p =>
        rw [hx] at h
        obtain ⟨h1, h2⟩ : x :: p.1 = a ∧ p.2 = r := by simpa using h
        obtain ⟨i1, i2⟩ := ih (a := p.1) (by rw [hx, ← h2])
        subst h1
        exact ⟨by rw [i1]; rfl, by simpa using ⟨fun h => e h.symm, i2⟩⟩

theorem dec_no {n : Nat} {c : UInt8} (h : c.toNat < 48 ∨ 57 < c.toNat) : c ∉ Strings.dec n := by
  intro hc
  have := Strings.dec_digit hc
  omega

theorem esc_mem {c : UInt8} {w : Str} (h : c ∈ Strings.esc w) : c = 92 ∨ c ∈ w := by
  induction w with
  | nil => exact nomatch h
  | cons x xs ih =>
    unfold Strings.esc at h
    split at h
    · simp only [List.mem_cons] at h
      rcases h with h | h | h
      · exact Or.inl h
      · exact Or.inr (by simp [h])
      · rcases ih h with h | h
        · exact Or.inl h
        · exact Or.inr (List.mem_cons_of_mem _ h)
    · simp only [List.mem_cons] at h
      rcases h with h | h
      · exact Or.inr (by simp [h])
      · rcases ih h with h | h
        · exact Or.inl h
        · exact Or.inr (List.mem_cons_of_mem _ h)

theorem esc_no {c : UInt8} {w : Str} (h : c ∉ w) (h' : c ≠ 92) : c ∉ Strings.esc w := fun hc =>
  (esc_mem hc).elim h' h

/-! ## The rewritten argument -/

/-- Without an `M` behind the third colon nothing changes. -/
theorem rewrite_same {fill : Str} {keep : Bool} {a b t : Str} (ha : 58 ∉ a) (hb : 58 ∉ b) (ht : 77 ∉ t ∨ ∃ c o, t = c ++ 58 :: o ∧ 58 ∉ c ∧ 77 ∉ o) :
    rewrite fill keep (a ++ 58 :: (b ++ 58 :: t)) = some (a ++ 58 :: (b ++ 58 :: t)) := by
  unfold rewrite
  rw [chr_append ha]
  simp only
  rw [chr_append hb]
  simp only
  cases hc : chr 58 t with
  | none => rfl
  | some p =>
    obtain ⟨c, r⟩ := p
    simp only
    have hr : 77 ∉ r := by
      obtain ⟨h1, -⟩ := chr_some hc
      rcases ht with h | ⟨c', o, h2, h3, h4⟩
      · rw [h1] at h
        intro h'
        exact h (by simp [h'])
      · rw [h2, chr_append h3] at hc
        simp only [Option.some.injEq, Prod.mk.injEq] at hc
        rw [← hc.2]; exact h4
    rw [chr_none hr]

theorem rewrite_mega {fill : Str} {keep : Bool} {a b c d t : Str} {n : Nat} (ha : 58 ∉ a) (hb : 58 ∉ b) (hc : 58 ∉ c) (hd : 58 ∉ d)
    (hd' : 77 ∉ d) (ho : offstr fill d = some n) :
    rewrite fill keep (a ++ 58 :: (b ++ 58 :: (c ++ 58 :: (d ++ 77 :: t)))) =
      some (a ++ 58 :: (b ++ 58 :: (c ++ 58 :: (Strings.dec n ++
        (if keep then match chr 58 t with | none => [] | some (_, t) => 58 :: t else []))))) := by
  unfold rewrite
  rw [chr_append ha]
  simp only
  rw [chr_append hb]
  simp only
  rw [chr_append hc]
  simp only
  rw [chr_append hd']
  simp only [ho]
  have : chr 58 (d ++ 77 :: t) = (chr 58 t).map fun p => (d ++ 77 :: p.1, p.2) := by
    cases ht : chr 58 t with
    | none =>
      refine chr_none ?_
      intro h
      have h58 : 58 ∉ t := by
        intro h'
        obtain ⟨x, y, rfl⟩ := List.append_of_mem h'
        have : ∀ (x : Str), chr 58 (x ++ 58 :: y) ≠ none := by
          intro x
          induction x with
          | nil => simp [chr]
          | cons z zs ih =>
            rw [List.cons_append, chr]
            split
            · simp
            · simpa using ih
        exact this x ht
      rcases List.mem_append.1 h with h | h
      · exact hd h
      · rcases List.mem_cons.1 h with h | h
        · exact absurd h (by decide)
        · exact h58 h
    | some p =>
      obtain ⟨h1, h2⟩ := chr_some (a := p.1) (r := p.2) (by rw [ht])
      have : d ++ 77 :: t = (d ++ 77 :: p.1) ++ 58 :: p.2 := by
        conv => lhs; rw [h1]
        simp
      rw [this, chr_append]
      · rfl
      · intro h
        rcases List.mem_append.1 h with h | h
        · exact hd h
        · rcases List.mem_cons.1 h with h | h
          · exact absurd h (by decide)
          · exact h2 h
  rw [this]
  cases chr 58 t <;> rfl

/-- Digits followed by something else: `atoll` reads the digits. -/
theorem atoll_stop {n : Nat} {c : UInt8} {t : Str} (h : n < 2 ^ 63) (hc : 10 ≤ Strings.digit c) :
    Direct.atoll (Strings.dec n ++ c :: t) = n ∧ endless (Strings.dec n ++ c :: t) = false := by
  obtain ⟨x, xs, h1, h2, h3, h4⟩ := Strings.dec_cons n
  obtain ⟨s1, s2, s3, -⟩ := Strings.digit_not_space h2 h3
  have hd : ∀ l : List Nat, (∀ d ∈ l, d < 10) →
      Strings.digits 10 ((l.map fun d => UInt8.ofNat (48 + d)) ++ c :: t) = l := by
    intro l
    induction l with
    | nil => intro _; simp [Strings.digits]; omega
    | cons y ys ih =>
      intro hy
      have hy0 := hy y (List.mem_cons_self ..)
      rw [List.map_cons, List.cons_append, Strings.digits, Strings.digit_ofNat hy0, if_pos hy0,
        ih (fun d hd => hy d (List.mem_cons_of_mem _ hd))]
  have e : (Strings.dec n ++ c :: t).dropWhile Strings.isSpace = Strings.dec n ++ c :: t := by
    rw [h1, List.cons_append, List.dropWhile_cons_of_neg (by simp [s1])]
  have e2 : Strings.sign (Strings.dec n ++ c :: t) = (false, Strings.dec n ++ c :: t) := by
    rw [h1, List.cons_append, Strings.sign_other s2 s3]
  constructor
  · unfold Direct.atoll
    rw [e, e2]
    simp only
    rw [Strings.dec_eq, hd _ (Strings.digs_lt n), Strings.valOf_digs]
    simp only [Bool.false_eq_true, if_false]
    omega
  · unfold endless
    rw [e, e2]
    simp only [List.all_append, List.all_cons, Bool.and_eq_false_imp, decide_eq_true_eq]
    intro _ h
    omega

theorem dec_short {n : Nat} (h : n * 1048576 < 2 ^ 63) : (Strings.dec n).length ≤ 13 :=
  Strings.dec_length (k := 12) (by
    have : n < 8796093022208 := by omega
    exact Nat.lt_trans this (by decide))

theorem offstr_dec {n : Nat} {fill : Str} {c : UInt8} {t : Str} (h : n * 1048576 < 2 ^ 63)
    (hf : (fill.take 16).drop (Strings.dec n).length = c :: t) (hc : 10 ≤ Strings.digit c) :
    offstr fill (Strings.dec n) = some (n * 1048576) := by
  have hl := dec_short h
  obtain ⟨x, xs, h1, -⟩ := Strings.dec_cons n
  unfold offstr
  rw [if_neg (by
    rintro (h | h)
    · rw [h1] at h; exact nomatch h
    · omega)]
  simp only
  rw [hf]
  obtain ⟨h2, h3⟩ := atoll_stop (c := c) (t := t) (show n < 2 ^ 63 by omega) hc
  rw [h3, h2]
  simp only [Bool.false_eq_true, if_false, Option.some.injEq]
  omega

/-! ## Options -/

/-- A word of the command line with its value, or `-D`. -/
inductive Arg where
  | debug
  | opt (o : UInt8) (v : Str)

/-- As given to the tool. -/
def words : List Arg → List Str
  | [] => []
  | .debug :: l => [45, 68] :: words l
  | .opt o v :: l => [45, o] :: v :: words l

/-- Letters other than `D` and `c`. -/
def Plain : List Arg → Prop
  | [] => True
  | .debug :: l => Plain l
  | .opt o _ :: l => o ≠ 68 ∧ o ≠ 99 ∧ Plain l

/-- The letters with their values. -/
def letters : List Arg → List UInt8
  | [] => []
  | .debug :: l => letters l
  | .opt o _ :: l => o :: letters l

/-- One option after the other. -/
def fold (e : Env) (m : Mode) : Com → List Arg → Out Com
  | c, [] => .ok c
  | c, .debug :: l => fold e m (c.set .debug 1) l
  | c, .opt o v :: l =>
    match option e m c o v with
    | .ok c => fold e m c l
    | .fail => .fail
    | .bad => .bad

/-- How the words of a command line end. -/
def cmdWords (cmd : List Str) : List Str := if cmd = [] then [] else [45, 99] :: cmd

theorem loop_form {e : Env} {m : Mode} : ∀ {n : Nat} {c : Com} {argv : List Str} {r : Com × List Str},
    loop e m n c argv = .ok r →
    ∃ l, argv = words l ++ cmdWords r.2 ∧ Plain l ∧ fold e m c l = .ok r.1 ∧ sizesOk r.1 = true := by
  intro n
  induction n with
  | zero => intro c argv r h; simp only [loop, reduceCtorEq] at h
  | succ n ih =>
    intro c argv r h
    have fin : ∀ {c : Com} {cmd : List Str}, finish c cmd = .ok r → r = (c, cmd) ∧ sizesOk c = true := by
      intro c cmd h
      unfold finish at h
      split at h
      · rename_i hs
        simp only [Out.ok.injEq] at h
        exact ⟨h.symm, hs⟩
      · simp only [reduceCtorEq] at h
    cases argv with
    | nil =>
      obtain ⟨rfl, hs⟩ := fin (by simpa only [loop] using h)
      exact ⟨[], rfl, trivial, rfl, hs⟩
    | cons p rest =>
      match p with
      | [] => simp only [loop, reduceCtorEq] at h
      | [_] => simp only [loop, reduceCtorEq] at h
      | _ :: _ :: _ :: _ => simp only [loop, reduceCtorEq] at h
      | [d, o] =>
        simp only [loop] at h
        split at h
        · simp only [reduceCtorEq] at h
        · rename_i hd
          have hd : d = 45 := Classical.byContradiction hd
          subst hd
          split at h
          · rename_i ho
            subst ho
            obtain ⟨l, h1, h2, h3, h4⟩ := ih h
            exact ⟨.debug :: l, by rw [h1]; rfl, h2, h3, h4⟩
          · rename_i ho
            cases rest with
            | nil => simp only [reduceCtorEq] at h
            | cons v rest =>
              simp only at h
              split at h
              · rename_i hc
                subst hc
                obtain ⟨rfl, hs⟩ := fin h
                exact ⟨[], rfl, trivial, rfl, hs⟩
              · rename_i hc
                cases hx : option e m c o v with
                | fail => rw [hx] at h; simp only [reduceCtorEq] at h
                | bad => rw [hx] at h; simp only [reduceCtorEq] at h
                | ok c' =>
                  rw [hx] at h
                  obtain ⟨l, h1, h2, h3, h4⟩ := ih h
                  refine ⟨.opt o v :: l, by rw [h1]; rfl, ⟨ho, hc, h2⟩, ?_, h4⟩
                  rw [fold, hx]
                  exact h3

theorem words_append (l k : List Arg) : words (l ++ k) = words l ++ words k := by
  induction l with
  | nil => rfl
  | cons a l ih => cases a <;> simp [words, ih]

theorem loop_words {e : Env} {m : Mode} {l : List Arg} (hl : Plain l) : ∀ {n : Nat} {c : Com} {t : List Str},
    loop e m (n + l.length) c (words l ++ t) =
      (match fold e m c l with | .ok c => loop e m n c t | .fail => .fail | .bad => .bad) := by
  induction l with
  | nil => intro n c t; rfl
  | cons a l ih =>
    intro n c t
    cases a with
    | debug =>
      simp only [words, List.cons_append, List.length_cons, ← Nat.add_assoc, loop, fold]
      exact ih hl
    | opt o v =>
      obtain ⟨h1, h2, h3⟩ := hl
      simp only [words, List.cons_append, List.length_cons, ← Nat.add_assoc, loop, fold, ne_eq, not_true, if_false, if_neg h1, if_neg h2]
      cases option e m c o v with
      | ok c => exact ih h3
      | fail => rfl
      | bad => rfl

theorem words_length (l : List Arg) : l.length ≤ (words l).length := by
  induction l with
  | nil => simp
  | cons a l ih => cases a <;> simp [words] <;> omega

/-- More rounds than words do not matter. -/
theorem loop_fuel {e : Env} {m : Mode} : ∀ {n k : Nat} {c : Com} {argv : List Str}, argv.length < n → argv.length < k →
    loop e m n c argv = loop e m k c argv := by
  intro n
  induction n with
  | zero => intro k c argv h; omega
  | succ n ih =>
    intro k c argv h hk
    cases k with
    | zero => omega
    | succ k =>
      cases argv with
      | nil => rfl
      | cons p rest =>
        simp only [List.length_cons] at h hk
        match p with
        | [] => rfl
        | [_] => rfl
        | _ :: _ :: _ :: _ => rfl
        | [d, o] =>
          simp only [loop]
          cases rest with
          | nil =>
            simp only [List.length_nil] at h hk
            rw [ih (k := k) (by simp; omega) (by simp; omega)]
          | cons v rest =>
            simp only [List.length_cons] at h hk
            have h1 : ∀ c, loop e m n c (v :: rest) = loop e m k c (v :: rest) := fun c => ih (by simp; omega) (by simp; omega)
            have h2 : ∀ c, loop e m n c rest = loop e m k c rest := fun c => ih (by omega) (by omega)
            simp only [h1, h2]

theorem options_words {e : Env} {m : Mode} {c : Com} {l : List Arg} (hl : Plain l) (cmd : List Str) :
    options e m c (words l ++ cmdWords cmd) =
      (match fold e m c l with | .ok c => finish c cmd | .fail => .fail | .bad => .bad) := by
  unfold options
  have hw := words_length l
  rw [loop_fuel (k := ((cmdWords cmd).length + 1 + (words l).length - l.length) + l.length) (by omega) (by simp; omega), loop_words hl]
  cases fold e m c l with
  | fail => rfl
  | bad => rfl
  | ok c =>
    simp only
    obtain ⟨k, hk⟩ : ∃ k, (cmdWords cmd).length + 1 + (words l).length - l.length = k + 1 := ⟨(cmdWords cmd).length + (words l).length - l.length, by omega⟩
    rw [hk]
    unfold cmdWords
    cases cmd with
    | nil => rfl
    | cons v r => simp [loop]

end Sanlock.CmdLine
