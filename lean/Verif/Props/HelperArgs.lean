import Verif.HelperArgs

/-!
# Properties of the kill script arguments: C41
-/

namespace Sanlock.HelperArgs

/-- `Enc e w`: the characters `e` denote the argument `w`; white space and backslashes are preceded by a backslash. -/
inductive Enc : List UInt8 → List UInt8 → Prop where
  | nil : Enc [] []
  | plain {c : UInt8} {e w : List UInt8} : 33 ≤ c → c ≤ 126 → c ≠ 92 → Enc e w → Enc (c :: e) (c :: w)
  | esc {c : UInt8} {e w : List UInt8} : (c = 92 ∨ c = 32 ∨ (9 ≤ c ∧ c ≤ 13)) → Enc e w → Enc (92 :: c :: e) (c :: w)

/-- `Words s ws`: the string `s` consists of the arguments `ws` separated by white space. -/
inductive Words : List UInt8 → List (List UInt8) → Prop where
  | nil : Words [] []
  | space {c : UInt8} {s : List UInt8} {ws : List (List UInt8)} : (c = 32 ∨ (9 ≤ c ∧ c ≤ 13)) → Words s ws → Words (c :: s) ws
  | last {e w : List UInt8} : Enc e w → w ≠ [] → Words e [w]
  | word {e w : List UInt8} {c : UInt8} {s : List UInt8} {ws : List (List UInt8)} :
      Enc e w → w ≠ [] → (c = 32 ∨ (9 ≤ c ∧ c ≤ 13)) → Words s ws → Words (e ++ c :: s) (w :: ws)

theorem isSpace_iff {c : UInt8} : isSpace c = true ↔ (c = 32 ∨ (9 ≤ c ∧ c ≤ 13)) := by
  simp [isSpace]

theorem scan_full {s : List UInt8} {av : List (List UInt8)} {arg : List UInt8} (h : av.length = MAX_AV) :
    scan s av arg = (av, arg) := by
  cases s with
  | nil => rfl
  | cons c cs => unfold scan; rw [if_pos h]

/-- Scanning one encoded argument. -/
theorem scan_enc {e w : List UInt8} (h : Enc e w) : ∀ {s : List UInt8} {av : List (List UInt8)} {arg : List UInt8},
    av.length < MAX_AV → scan (e ++ s) av arg = scan s av (arg ++ w) := by
  induction h with
  | nil => intro s av arg _; simp
  | @plain c e w h1 h2 h3 _ ih =>
    intro s av arg ha
    rw [List.cons_append]
    conv => lhs; unfold scan
    rw [if_neg (by omega), if_neg (show c ≠ BACKSLASH from h3), if_pos (by simp [isGraph, h1, h2]), ih ha]
    simp
  | @esc c e w h1 _ ih =>
    intro s av arg ha
    rw [List.cons_append, List.cons_append]
    conv => lhs; unfold scan
    rw [if_neg (by omega), if_pos (show (92 : UInt8) = BACKSLASH from rfl)]
    simp only
    by_cases hc : c = BACKSLASH
    · rw [if_pos hc, ih ha]; simp
    · rw [if_neg hc, if_pos, ih ha]
      · simp
      · rw [isSpace_iff]
        rcases h1 with h1 | h1
        · exact absurd h1 hc
        · exact h1

theorem space_ne {c : UInt8} (h : c = 32 ∨ (9 ≤ c ∧ c ≤ 13)) : c ≠ BACKSLASH ∧ isGraph c = false := by
  have h' := isSpace_iff.mpr h
  revert h'
  have : ∀ n < 256, isSpace (UInt8.ofNat n) = true → (UInt8.ofNat n) ≠ BACKSLASH ∧ isGraph (UInt8.ofNat n) = false := by
    decide +kernel
  have h2 := this c.toNat (by simpa using c.toNat_lt)
  rwa [UInt8.ofNat_toNat] at h2

theorem scan_space {c : UInt8} {s : List UInt8} {av : List (List UInt8)} {arg : List UInt8}
    (h : c = 32 ∨ (9 ≤ c ∧ c ≤ 13)) (ha : av.length < MAX_AV) :
    scan (c :: s) av arg = scan s (if arg ≠ [] then av ++ [arg] else av) [] := by
  conv => lhs; unfold scan
  obtain ⟨h1, h2⟩ := space_ne h
  rw [if_neg (by omega), if_neg h1, if_neg (by simp [h2]), if_pos (isSpace_iff.mpr h)]

/-- The vector after the loop, with the last argument added. -/
def finish (r : List (List UInt8) × List UInt8) : List (List UInt8) :=
  if r.1.length < MAX_AV ∧ r.2 ≠ [] then r.1 ++ [r.2] else r.1

theorem finish_scan {s : List UInt8} {ws : List (List UInt8)} (h : Words s ws) :
    ∀ {av : List (List UInt8)}, av.length ≤ MAX_AV → finish (scan s av []) = (av ++ ws).take MAX_AV := by
  induction h with
  | nil =>
    intro av ha
    show finish (av, []) = _
    rw [finish, if_neg (by simp), List.append_nil, List.take_of_length_le ha]
  | @space c s ws hc _ ih =>
    intro av ha
    by_cases hl : av.length = MAX_AV
    · rw [scan_full hl, finish, if_neg (by simp), List.take_append_of_le_length (by omega),
        List.take_of_length_le (by omega)]
    · rw [scan_space hc (by omega), if_neg (by simp)]
      exact ih ha
  | @last e w he hw =>
    intro av ha
    by_cases hl : av.length = MAX_AV
    · rw [scan_full hl, finish, if_neg (by simp), List.take_append_of_le_length (by omega),
        List.take_of_length_le (by omega)]
    · have := scan_enc he (s := []) (av := av) (arg := []) (by omega)
      rw [List.append_nil, List.nil_append] at this
      rw [this]
      show finish (av, w) = _
      rw [finish, if_pos ⟨by show av.length < MAX_AV; omega, hw⟩, List.take_of_length_le (by simp; omega)]
  | @word e w c s ws he hw hc _ ih =>
    intro av ha
    by_cases hl : av.length = MAX_AV
    · rw [scan_full hl, finish, if_neg (by simp), List.take_append_of_le_length (by omega),
        List.take_of_length_le (by omega)]
    · rw [scan_enc he (by omega), List.nil_append, scan_space hc (by omega), if_pos hw, ih (by simp; omega)]
      rw [List.append_assoc]; rfl

/-- **C41** for well formed argument strings.  The script gets its path, then the arguments denoted by the string, then
the process id, cut at eight entries.  Missing: strings with other characters, see `truncated_violated`. -/
theorem argv_words_partial {path s : List UInt8} {ws : List (List UInt8)} (h : Words s ws) (pid : Option (List UInt8)) :
    argv path s pid = (path :: ws ++ pid.toList).take 8 := by
  have hf := finish_scan h (av := [path]) (by simp [MAX_AV])
  unfold argv
  have hd : ∀ r : List (List UInt8) × List UInt8, (if r.1.length < MAX_AV ∧ r.2 ≠ [] then r.1 ++ [r.2] else r.1) = finish r :=
    fun _ => rfl
  simp only [hd, hf]
  rw [show MAX_AV = 8 from rfl, show [path] ++ ws = path :: ws from rfl]
  cases pid with
  | none => simp
  | some p =>
    simp only [Option.toList_some]
    split
    · rename_i hlt
      rw [List.length_take] at hlt
      rw [List.take_of_length_le (by omega), List.take_of_length_le (by simp at hlt ⊢; omega)]
    · rename_i hlt
      rw [List.length_take] at hlt
      rw [List.take_append_of_le_length (by omega)]

/-- Escaping of an argument. -/
def escape : List UInt8 → List UInt8
  | [] => []
  | c :: w => if c = 92 ∨ c = 32 ∨ (9 ≤ c ∧ c ≤ 13) then 92 :: c :: escape w else c :: escape w

def joinArgs : List (List UInt8) → List UInt8
  | [] => []
  | [w] => escape w
  | w :: ws => escape w ++ 32 :: joinArgs ws

theorem enc_escape {w : List UInt8} (h : ∀ c ∈ w, (33 ≤ c ∧ c ≤ 126) ∨ c = 32 ∨ (9 ≤ c ∧ c ≤ 13)) : Enc (escape w) w := by
  induction w with
  | nil => exact .nil
  | cons c w ih =>
    have ih := ih fun d hd => h d (List.mem_cons_of_mem _ hd)
    unfold escape
    split
    · rename_i hc; exact .esc hc ih
    · rename_i hc
      rcases h c List.mem_cons_self with ⟨h1, h2⟩ | h1
      · exact .plain h1 h2 (fun he => hc (Or.inl he)) ih
      · exact absurd (Or.inr h1) hc

theorem words_join {ws : List (List UInt8)} (h : ∀ w ∈ ws, w ≠ [] ∧ ∀ c ∈ w, (33 ≤ c ∧ c ≤ 126) ∨ c = 32 ∨ (9 ≤ c ∧ c ≤ 13)) :
    Words (joinArgs ws) ws := by
  induction ws with
  | nil => exact .nil
  | cons w ws ih =>
    have ih := ih fun d hd => h d (List.mem_cons_of_mem _ hd)
    obtain ⟨h1, h2⟩ := h w List.mem_cons_self
    cases ws with
    | nil => exact .last (enc_escape h2) h1
    | cons w' ws => exact .word (enc_escape h2) h1 (Or.inl rfl) ih

/-- **C41** (round trip).  Up to seven non empty arguments of printable ASCII and white space, escaped and joined by
spaces, reach the script unchanged; the process id follows if there is room. -/
theorem argv_roundtrip {path : List UInt8} {ws : List (List UInt8)} {pid : Option (List UInt8)}
    (h : ∀ w ∈ ws, w ≠ [] ∧ ∀ c ∈ w, (33 ≤ c ∧ c ≤ 126) ∨ c = 32 ∨ (9 ≤ c ∧ c ≤ 13))
    (hl : ws.length ≤ 7) : argv path (joinArgs ws) pid = path :: ws ++ (if ws.length < 7 then pid.toList else []) := by
  rw [argv_words_partial (words_join h)]
  split
  · rename_i hlt
    rw [List.take_of_length_le]
    cases pid <;> simp <;> omega
  · rw [List.take_append_of_le_length (by simp; omega), List.take_of_length_le (by simp; omega), List.append_nil]

example : argv [47] (joinArgs [[97, 32, 98], [92], [99]]) (some [49]) = [[47], [97, 32, 98], [92], [99], [49]] := by
  decide

theorem scan_len {s : List UInt8} {av : List (List UInt8)} {arg : List UInt8} {n : Nat} (ha : av.length ≤ MAX_AV)
    (hav : ∀ a ∈ av.tail, a.length ≤ n) (hne : av ≠ []) (harg : arg.length + s.length ≤ n) :
    (scan s av arg).1.length ≤ MAX_AV ∧ (∀ a ∈ (scan s av arg).1.tail, a.length ≤ n) ∧ (scan s av arg).2.length ≤ n ∧
      (scan s av arg).1 ≠ [] := by
  fun_induction scan s av arg with
  | case1 av arg => exact ⟨ha, hav, by simpa using harg, hne⟩
  | case4 | case5 | case7 =>
    rename_i ih
    simp only [List.length_cons] at harg
    exact ih ha hav hne (by simp; omega)
  | case8 =>
    rename_i av arg _ _ _ _ ih
    simp only [List.length_cons] at harg
    by_cases hx : arg ≠ []
    · rw [if_pos hx] at ih ⊢
      refine ih (by simp; omega) ?_ (by simp) (by simp; omega)
      intro a h
      rw [List.tail_append_of_ne_nil hne] at h
      rcases List.mem_append.mp h with h | h
      · exact hav a h
      · simp at h; subst h; omega
    · rw [if_neg hx] at ih ⊢
      exact ih ha hav hne (by simp; omega)
  | case2 | case3 | case6 | case9 =>
    refine ⟨ha, hav, ?_, hne⟩
    simp only
    omega

/-- **C41** (memory).  Whatever the argument string, the vector has at most eight entries (its array holds nine, the
last being NULL), and no argument is longer than the string, so that it fits the buffer of the same size. -/
theorem argv_bounded (path s : List UInt8) (pid : Option (List UInt8)) :
    (argv path s pid).length ≤ 8 ∧ (scan s [path] []).2.length ≤ s.length ∧
      ∀ a ∈ (scan s [path] []).1.tail, a.length ≤ s.length := by
  obtain ⟨h1, h2, h3, h4⟩ := scan_len (s := s) (av := [path]) (arg := []) (n := s.length) (by simp [MAX_AV]) (by simp)
    (by simp) (by simp)
  refine ⟨?_, h3, h2⟩
  unfold argv
  rw [show MAX_AV = 8 from rfl] at *
  simp only
  have h5 : (if (scan s [path] []).1.length < 8 ∧ (scan s [path] []).2 ≠ [] then
      (scan s [path] []).1 ++ [(scan s [path] []).2] else (scan s [path] []).1).length ≤ 8 := by
    split
    · simp; omega
    · exact h1
  generalize (if (scan s [path] []).1.length < 8 ∧ (scan s [path] []).2 ≠ [] then
      (scan s [path] []).1 ++ [(scan s [path] []).2] else (scan s [path] []).1) = l at h5 ⊢
  cases pid with
  | none => exact h5
  | some p =>
    simp only
    split
    · simp only [List.length_append, List.length_cons, List.length_nil]; omega
    · exact h5

/-- **Finding**.  Any other character silently ends the arguments: a byte outside ASCII, or a backslash in front of an
ordinary character.  Here `a`, `é`, `b` becomes `a` alone, and `x\y z` becomes `x`. -/
theorem truncated_violated :
    argv [47] [97, 32, 0xC3, 0xA9, 32, 98] none = [[47], [97]] ∧
    argv [47] [120, 92, 121, 32, 122] none = [[47], [120]] := by decide

end Sanlock.HelperArgs
