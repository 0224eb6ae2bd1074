import Verif.Strings

/-!
# Properties of resource strings: C34
-/

namespace Sanlock.Strings

/-! ## Numbers -/

/-- The decimal digits of a number as values. -/
def digs (n : Nat) : List Nat :=
  if n < 10 then [n] else digs (n / 10) ++ [n % 10]
termination_by n
decreasing_by omega

theorem digs_lt (n : Nat) : ∀ d ∈ digs n, d < 10 := by
  induction n using digs.induct with
  | case1 n h => unfold digs; rw [if_pos h]; simp; exact h
  | case2 n h ih =>
    unfold digs; rw [if_neg h]
    intro d hd
    rcases List.mem_append.mp hd with h1 | h1
    · exact ih d h1
    · simp at h1; omega

theorem dec_eq (n : Nat) : dec n = (digs n).map fun d => UInt8.ofNat (48 + d) := by
  induction n using digs.induct with
  | case1 n h => unfold digs dec; rw [if_pos h, if_pos h]; rfl
  | case2 n h ih => unfold digs dec; rw [if_neg h, if_neg h, ih]; simp

theorem valOf_digs (n : Nat) : valOf 10 (digs n) = n := by
  induction n using digs.induct with
  | case1 n h => unfold digs; rw [if_pos h]; simp [valOf]
  | case2 n h ih =>
    unfold digs; rw [if_neg h]
    unfold valOf at ih ⊢
    rw [List.foldl_append, ih]
    simp only [List.foldl_cons, List.foldl_nil]
    omega

theorem digit_ofNat {d : Nat} (h : d < 10) : digit (UInt8.ofNat (48 + d)) = d := by
  have : d = 0 ∨ d = 1 ∨ d = 2 ∨ d = 3 ∨ d = 4 ∨ d = 5 ∨ d = 6 ∨ d = 7 ∨ d = 8 ∨ d = 9 := by omega
  rcases this with h | h | h | h | h | h | h | h | h | h <;> subst h <;> rfl

theorem digits_map {b : Nat} (hb : 10 ≤ b) {l : List Nat} (h : ∀ d ∈ l, d < 10) : digits b (l.map fun d => UInt8.ofNat (48 + d)) = l := by
  induction l with
  | nil => rfl
  | cons a l ih =>
    have ha := h a (List.mem_cons_self ..)
    rw [List.map_cons]
    unfold digits
    rw [digit_ofNat ha, if_pos (by omega), ih (fun d hd => h d (List.mem_cons_of_mem _ hd))]

theorem digs_cons (n : Nat) : ∃ a l, digs n = a :: l ∧ a < 10 ∧ (a = 0 → n = 0 ∧ l = []) := by
  induction n using digs.induct with
  | case1 n h => refine ⟨n, [], ?_, h, fun h => ⟨h, rfl⟩⟩; unfold digs; rw [if_pos h]
  | case2 n h ih =>
    obtain ⟨a, l, h1, h2, h3⟩ := ih
    refine ⟨a, l ++ [n % 10], ?_, h2, fun h0 => ?_⟩
    · conv => lhs; unfold digs
      rw [if_neg h, h1]; rfl
    · have := (h3 h0).1
      omega

/-- The first digit is none of the special characters. -/
theorem dec_cons (n : Nat) : ∃ c cs, dec n = c :: cs ∧ 48 ≤ c.toNat ∧ c.toNat ≤ 57 ∧ (c = 48 → n = 0 ∧ cs = []) := by
  obtain ⟨a, l, h1, h2, h3⟩ := digs_cons n
  have hc : (UInt8.ofNat (48 + a)).toNat = 48 + a := by simp; omega
  refine ⟨UInt8.ofNat (48 + a), l.map fun d => UInt8.ofNat (48 + d), by rw [dec_eq, h1]; rfl, by omega, by omega, fun h0 => ?_⟩
  have : (UInt8.ofNat (48 + a)).toNat = 48 := by rw [h0]; rfl
  obtain ⟨h4, h5⟩ := h3 (by omega)
  exact ⟨h4, by rw [h5]; rfl⟩

theorem dec_digit {n : Nat} {c : UInt8} (h : c ∈ dec n) : 48 ≤ c.toNat ∧ c.toNat ≤ 57 := by
  rw [dec_eq] at h
  obtain ⟨d, hd, rfl⟩ := List.mem_map.mp h
  have := digs_lt n d hd
  have hc : (UInt8.ofNat (48 + d)).toNat = 48 + d := by simp; omega
  omega

theorem dec_length {k : Nat} : ∀ {n : Nat}, n < 10 ^ (k + 1) → (dec n).length ≤ k + 1 := by
  induction k with
  | zero => intro n h; unfold dec; rw [if_pos (by omega)]; simp
  | succ k ih =>
    intro n h
    unfold dec
    split
    · simp
    · have := ih (n := n / 10) (by rw [Nat.pow_succ] at h; omega)
      simp; omega

theorem digit_not_space {c : UInt8} (h1 : 48 ≤ c.toNat) (h2 : c.toNat ≤ 57) :
    isSpace c = false ∧ c ≠ 43 ∧ c ≠ 45 ∧ c ≠ 92 ∧ c ≠ 58 ∧ c ≠ 32 ∧ c ≠ 83 := by
  have hne : ∀ k : UInt8, (k.toNat < 48 ∨ 57 < k.toNat) → c ≠ k := fun k hk h => by subst h; omega
  refine ⟨?_, hne _ (by decide), hne _ (by decide), hne _ (by decide), hne _ (by decide), hne _ (by decide), hne _ (by decide)⟩
  have : ¬ c ≤ 13 := by rw [UInt8.le_iff_toNat_le]; show ¬ c.toNat ≤ 13; omega
  simp [isSpace, hne 32 (by decide), this]

theorem sign_other {c : UInt8} {cs : Str} (h1 : c ≠ 43) (h2 : c ≠ 45) : sign (c :: cs) = (false, c :: cs) := by
  unfold sign
  split
  · rename_i h; simp at h; exact absurd h.1 h1
  · rename_i h; simp at h; exact absurd h.1 h2
  · rfl

/-- Reading a printed number with `sscanf`. -/
theorem scanDec_dec {n : Nat} (h : n < 2 ^ 64) : scanDec (dec n) = some n := by
  obtain ⟨c, cs, h1, h2, h3, h4⟩ := dec_cons n
  obtain ⟨s1, s2, s3, -⟩ := digit_not_space h2 h3
  unfold scanDec
  rw [h1, List.dropWhile_cons_of_neg (by simp [s1]), sign_other s2 s3, ← h1]
  simp only
  rw [dec_eq, digits_map (by omega) (digs_lt n)]
  obtain ⟨a, l, g1, -⟩ := digs_cons n
  have hv := valOf_digs n
  rw [g1] at hv ⊢
  simp only [hv, negate, clamp]
  simp [h]

/-- Reading a printed number with `strtoull`. -/
theorem strtoull_dec {n : Nat} (h : n < 2 ^ 64) : strtoull (dec n) = n := by
  obtain ⟨c, cs, h1, h2, h3, h4⟩ := dec_cons n
  obtain ⟨s1, s2, s3, -⟩ := digit_not_space h2 h3
  unfold strtoull
  rw [h1, List.dropWhile_cons_of_neg (by simp [s1]), sign_other s2 s3]
  by_cases h0 : c = 48
  · obtain ⟨h5, h6⟩ := h4 h0
    subst h0 h5 h6
    rfl
  · have hb : baseOf (c :: cs) = (10, c :: cs) := by
      unfold baseOf
      split <;> rename_i hh <;> simp at hh <;> first | exact absurd hh.1 h0 | rfl
    simp only [hb]
    rw [← h1, dec_eq, digits_map (by omega) (digs_lt n), valOf_digs]
    simp [negate, clamp, h]

/-! ## Paths -/

/-- A path with a backslash before every space and colon. -/
def esc : Str → Str
  | [] => []
  | c :: cs => if c = SPACE ∨ c = COLON then BACKSLASH :: c :: esc cs else c :: esc cs

/-- `Enc e w`: the characters `e` denote `w`, with a backslash before a character that is to be taken as it is. -/
inductive Enc : Str → Str → Prop where
  | nil : Enc [] []
  | plain {c : UInt8} {e w : Str} : c ≠ BACKSLASH → c ≠ COLON → Enc e w → Enc (c :: e) (c :: w)
  | esc {c : UInt8} {e w : Str} : Enc e w → Enc (BACKSLASH :: c :: e) (c :: w)

theorem enc_esc {w : Str} (h : ∀ c ∈ w, c ≠ BACKSLASH) : Enc (esc w) w := by
  induction w with
  | nil => exact .nil
  | cons c cs ih =>
    unfold esc
    have ih := ih (fun x hx => h x (List.mem_cons_of_mem _ hx))
    split
    · exact .esc ih
    · rename_i hc
      exact .plain (h c (List.mem_cons_self ..)) (fun h => hc (Or.inr h)) ih

theorem enc_plain {w : Str} (h : ∀ c ∈ w, c ≠ BACKSLASH ∧ c ≠ COLON) : Enc w w := by
  induction w with
  | nil => exact .nil
  | cons c cs ih =>
    have hc := h c (List.mem_cons_self ..)
    exact .plain hc.1 hc.2 (ih (fun x hx => h x (List.mem_cons_of_mem _ hx)))

theorem enc_dec (n : Nat) : Enc (dec n) (dec n) := enc_plain fun c hc => by
  obtain ⟨h1, h2⟩ := dec_digit hc
  exact ⟨(digit_not_space h1 h2).2.2.2.1, (digit_not_space h1 h2).2.2.2.2.1⟩

/-- One step of the export. -/
theorem exportLoop_cons {n : Nat} {c : UInt8} {cs acc : Str} (h : c ≠ BACKSLASH) :
    exportLoop n (c :: cs) acc =
      if c = SPACE ∨ c = COLON then (if acc.length > n - 3 then acc else exportLoop n cs (acc ++ [BACKSLASH, c]))
      else if acc.length > n - 2 then acc else exportLoop n cs (acc ++ [c]) := by
  cases cs with
  | nil => simp only [exportLoop, if_neg h]
  | cons c' cs => conv => lhs; unfold exportLoop; rw [if_neg h]

theorem exportLoop_esc {n : Nat} {w : Str} : ∀ {acc : Str}, (∀ c ∈ w, c ≠ BACKSLASH) → acc.length + (esc w).length + 1 ≤ n →
    exportLoop n w acc = acc ++ esc w := by
  induction w with
  | nil => intro acc _ _; simp [exportLoop, esc]
  | cons c cs ih =>
    intro acc h hl
    rw [exportLoop_cons (h c (List.mem_cons_self ..))]
    have h' := fun x hx => h x (List.mem_cons_of_mem _ hx)
    unfold esc at hl ⊢
    split
    · rename_i hc
      rw [if_pos hc] at hl
      simp only [List.length_cons] at hl
      rw [if_neg (by omega), ih h' (by simp; omega)]
      simp
    · rename_i hc
      rw [if_neg hc] at hl
      simp only [List.length_cons] at hl
      rw [if_neg (by omega), ih h' (by simp; omega)]
      simp

theorem pathExport_eq {n : Nat} {w : Str} (h : ∀ c ∈ w, c ≠ BACKSLASH) (hl : (esc w).length + 1 ≤ n) : pathExport n w = esc w := by
  unfold pathExport
  rw [exportLoop_esc h (by simpa using hl)]; rfl

theorem importLoop_esc {n : Nat} {w : Str} : ∀ {acc : Str}, (∀ c ∈ w, c ≠ BACKSLASH) → acc.length + w.length < n →
    importLoop n (esc w) acc = some (acc ++ w) := by
  induction w with
  | nil => intro acc _ hl; unfold esc importLoop; rw [if_pos (by simpa using hl)]; simp
  | cons c cs ih =>
    intro acc h hl
    have h' := fun x hx => h x (List.mem_cons_of_mem _ hx)
    have hc := h c (List.mem_cons_self ..)
    simp only [List.length_cons] at hl
    have hstep : importLoop n (c :: esc cs) acc = some (acc ++ c :: cs) := by
      unfold importLoop
      rw [if_pos (by omega)]
      simp only
      rw [if_neg hc, ih h' (by simp; omega)]
      simp
    unfold esc
    split
    · unfold importLoop
      rw [if_pos (by omega)]
      simp only [if_true]
      exact hstep
    · exact hstep

/-- C34: exporting a path and importing the result gives the path back, for every path without backslashes whose
escaped form fits. -/
theorem path_roundtrip_partial {n m : Nat} {w : Str} (h : ∀ c ∈ w, c ≠ BACKSLASH) (hl : (esc w).length + 1 ≤ n) (hm : w.length < m) :
    pathImport m (pathExport n w) = some w := by
  rw [pathExport_eq h hl]
  unfold pathImport
  rw [importLoop_esc h (by simpa using hm)]; rfl

example : (∀ c ∈ ([47, 97, 58, 32, 98] : Str), c ≠ BACKSLASH) ∧ (esc [47, 97, 58, 32, 98]).length + 1 ≤ 1025 := by decide

/-! ## Splitting -/

theorem splitSubs_plain {c : UInt8} {s cur : Str} (h1 : c ≠ BACKSLASH) (h2 : c ≠ COLON) (hl : cur.length < PATH_LEN) :
    splitSubs (c :: s) cur = splitSubs s (cur ++ [c]) := by
  cases s with
  | nil => simp only [splitSubs, if_neg h1, if_pos h2]; rw [if_neg (by omega)]
  | cons c' s => conv => lhs; unfold splitSubs; rw [if_neg h1, if_pos h2, if_neg (by omega)]

theorem splitSubs_bs {c : UInt8} {s cur : Str} (hl : cur.length < PATH_LEN) :
    splitSubs (BACKSLASH :: c :: s) cur = splitSubs s (cur ++ [c]) := by
  conv => lhs; unfold splitSubs; rw [if_pos rfl, if_neg (by omega)]

theorem splitSubs_colon {s cur : Str} : splitSubs (COLON :: s) cur = (splitSubs s []).map (cur :: ·) := by
  cases s with
  | nil => rfl
  | cons c' s => conv => lhs; unfold splitSubs; rw [if_neg (by decide), if_neg (by simp)]

theorem splitSubs_enc {e w : Str} (h : Enc e w) : ∀ {s cur : Str}, cur.length + w.length ≤ PATH_LEN →
    splitSubs (e ++ s) cur = splitSubs s (cur ++ w) := by
  induction h with
  | nil => intro s cur _; simp
  | plain h1 h2 _ ih =>
    intro s cur hl
    simp only [List.length_cons] at hl
    rw [List.cons_append, splitSubs_plain h1 h2 (by omega), ih (by simp; omega)]
    simp
  | esc _ ih =>
    intro s cur hl
    simp only [List.length_cons] at hl
    rw [List.cons_append, List.cons_append, splitSubs_bs (by omega), ih (by simp; omega)]
    simp

theorem countColons_plain {c : UInt8} {s : Str} (h1 : c ≠ BACKSLASH) (h2 : c ≠ COLON) : countColons (c :: s) = countColons s := by
  cases s with
  | nil => simp only [countColons, if_neg h1, if_neg h2]
  | cons c' s => conv => lhs; unfold countColons; rw [if_neg h1, if_neg h2]

theorem countColons_colon {s : Str} : countColons (COLON :: s) = countColons s + 1 := by
  cases s with
  | nil => rfl
  | cons c' s => conv => lhs; unfold countColons; rw [if_neg (by decide), if_pos rfl]

theorem countColons_enc {e w : Str} (h : Enc e w) : ∀ {s : Str}, countColons (e ++ s) = countColons s := by
  induction h with
  | nil => intro s; rfl
  | plain h1 h2 _ ih => intro s; rw [List.cons_append, countColons_plain h1 h2, ih]
  | esc _ ih =>
    intro s
    rw [List.cons_append, List.cons_append]
    conv => lhs; unfold countColons
    rw [if_pos rfl, ih]

/-- Substrings preceded by colons. -/
def tailC : List Str → Str
  | [] => []
  | e :: es => COLON :: (e ++ tailC es)

theorem tailC_append (a b : List Str) : tailC (a ++ b) = tailC a ++ tailC b := by
  induction a with
  | nil => rfl
  | cons x xs ih => simp [tailC, ih]

/-- Pointwise encoding. -/
inductive Encs : List Str → List Str → Prop where
  | nil : Encs [] []
  | cons {e w : Str} {es ws : List Str} : Enc e w → w.length ≤ PATH_LEN → Encs es ws → Encs (e :: es) (w :: ws)

theorem Encs.append {a b c d : List Str} (h1 : Encs a b) (h2 : Encs c d) : Encs (a ++ c) (b ++ d) := by
  induction h1 with
  | nil => exact h2
  | cons a b _ ih => exact .cons a b ih

theorem Encs.length {a b : List Str} (h : Encs a b) : a.length = b.length := by
  induction h with
  | nil => rfl
  | cons _ _ _ ih => simp [ih]

theorem countColons_tail {es ws : List Str} (h : Encs es ws) : countColons (tailC es) = es.length := by
  induction h with
  | nil => rfl
  | cons a _ _ ih => simp only [tailC, countColons_colon, countColons_enc a, ih, List.length_cons]

theorem splitSubs_tail {es ws : List Str} (h : Encs es ws) : ∀ {cur : Str}, splitSubs (tailC es) cur = some (cur :: ws) := by
  induction h with
  | nil => intro cur; rfl
  | cons a b _ ih =>
    intro cur
    simp only [tailC]
    rw [splitSubs_colon, splitSubs_enc a (by simpa using b), List.nil_append, ih]
    rfl

/-! ## Resources -/

/-- The substrings for disks. -/
def diskSubs : List Disk → List Str
  | [] => []
  | d :: ds => d.path :: dec d.offset :: diskSubs ds

/-- A disk whose path and offset can be represented: the path is not empty and terminated, has no backslash, and its
escaped form fits into the buffer used for it. -/
structure DiskOk (d : Disk) : Prop where
  nonempty : 1 ≤ d.path.length
  term : d.path.length < PATH_LEN
  noBs : ∀ c ∈ d.path, c ≠ BACKSLASH
  fits : (esc d.path).length ≤ PATH_LEN
  off : d.offset < 2 ^ 64

/-- A name that can be represented: terminated, without backslash and colon. -/
structure NameOk (n : Str) : Prop where
  term : n.length < NAME_LEN
  chars : ∀ c ∈ n, c ≠ BACKSLASH ∧ c ≠ COLON

/-- A resource that can be represented. -/
structure ResOk (r : Res) : Prop where
  space : NameOk r.space
  name : NameOk r.name
  some : 1 ≤ r.disks.length
  most : r.disks.length ≤ MAX_DISKS
  disks : ∀ d ∈ r.disks, DiskOk d
  lver : r.lver < 2 ^ 64

theorem set_mid {done : List Disk} {x y : Disk} {l : List Disk} : (done ++ x :: l).set done.length y = done ++ y :: l := by
  induction done with
  | nil => rfl
  | cons a d ih => simp only [List.cons_append, List.length_cons, List.set_cons_succ, ih]

theorem procDisks {hl n : Nat} {tail : List Str} : ∀ {ds done : List Disk} {r : Res}, (∀ d ∈ ds, DiskOk d) →
    r.disks = done ++ List.replicate ds.length ⟨[], 0⟩ → done.length + ds.length = n →
    procSubs n hl (2 + 2 * done.length) done.length r (diskSubs ds ++ tail) =
      procSubs n hl (2 + 2 * n) n { r with disks := done ++ ds } tail := by
  intro ds
  induction ds with
  | nil =>
    intro done r _ hr hn
    simp only [List.length_nil, Nat.add_zero] at hn
    subst hn
    simp only [List.length_nil, List.replicate_zero, List.append_nil] at hr
    simp only [diskSubs, List.nil_append, List.append_nil, ← hr]
  | cons x ds ih =>
    intro done r hd hr hn
    have hx := hd x (List.mem_cons_self ..)
    obtain ⟨x1, x2, x3, x4, x5⟩ := hx
    simp only [List.length_cons] at hn
    have hlen : r.disks.length = n := by rw [hr]; simp; omega
    simp only [diskSubs, List.cons_append]
    conv => lhs; unfold procSubs
    rw [if_neg (by omega), if_neg (by unfold PATH_LEN at *; omega), if_neg (by omega), if_neg (by omega),
      if_pos (by omega), if_neg (by omega), dif_pos (by omega)]
    have hr1 : r.disks.set done.length { r.disks[done.length]'(by omega) with path := x.path } =
        done ++ ⟨x.path, 0⟩ :: List.replicate ds.length ⟨[], 0⟩ := by
      have hgo : (r.disks[done.length]'(by omega)).offset = 0 := by
        simp only [hr]
        rw [List.getElem_append_right (Nat.le_refl _)]
        simp
      show r.disks.set done.length ⟨x.path, (r.disks[done.length]'(by omega)).offset⟩ = _
      rw [hgo, hr]
      simp only [List.length_cons, List.replicate_succ]
      rw [set_mid]
    conv => lhs; unfold procSubs
    obtain ⟨c, cs, k1, k2, k3, k4⟩ := dec_cons x.offset
    have hdl : (dec x.offset).length ≤ 20 := dec_length (k := 19) (Nat.lt_of_lt_of_le x5 (by decide))
    have hdl1 : 1 ≤ (dec x.offset).length := by rw [k1]; simp
    rw [if_neg (by omega), if_neg (by unfold PATH_LEN at *; omega), if_neg (by omega), if_neg (by omega),
      if_neg (by omega), dif_pos (by simp; omega), scanDec_dec x5]
    simp only [hr1]
    have hg2 : ((done ++ ⟨x.path, 0⟩ :: List.replicate ds.length ⟨[], 0⟩)[done.length]'(by simp) : Disk).path = x.path := by
      rw [List.getElem_append_right (Nat.le_refl _)]; simp
    rw [hg2, set_mid]
    have := ih (done := done ++ [x]) (r := { r with disks := done ++ x :: List.replicate ds.length ⟨[], 0⟩ })
      (fun d h => hd d (List.mem_cons_of_mem _ h)) (by simp) (by simp; omega)
    simp only [List.length_append, List.length_cons, List.length_nil, Nat.zero_add] at this
    rw [show 2 + 2 * done.length + 1 + 1 = 2 + 2 * (done.length + 1) by omega]
    rw [this]
    simp

/-- What the last substring is. -/
def lastSub (r : Res) : Str := if r.shared then [83, 72] else dec r.lver

/-- The parsed resource: what of a resource is represented in its string. -/
def image (r : Res) : Res :=
  { r with hasLver := !r.shared, lver := if r.shared then 0 else r.lver }

theorem lastSub_bounds {r : Res} (h : r.lver < 2 ^ 64) : 1 ≤ (lastSub r).length ∧ (lastSub r).length ≤ 20 ∧ Enc (lastSub r) (lastSub r) := by
  unfold lastSub
  split
  · exact ⟨by simp, by simp, enc_plain (by decide)⟩
  · obtain ⟨c, cs, k1, -⟩ := dec_cons r.lver
    exact ⟨by rw [k1]; simp, dec_length (k := 19) (Nat.lt_of_lt_of_le h (by decide)), enc_dec _⟩

theorem procSubs_all {r : Res} (ok : ResOk r) :
    procSubs r.disks.length 1 0 0 ⟨[], [], 0, false, false, List.replicate r.disks.length ⟨[], 0⟩⟩
      (r.space :: r.name :: (diskSubs r.disks ++ [lastSub r])) = some (some (image r)) := by
  have h1 := ok.space.term
  have h2 := ok.name.term
  unfold procSubs
  rw [if_neg (by omega), if_neg (by omega), if_pos rfl]
  unfold procSubs
  rw [if_neg (by omega), if_neg (by omega), if_neg (by omega), if_pos rfl]
  have := procDisks (hl := 1) (n := r.disks.length) (tail := [lastSub r]) (ds := r.disks) (done := [])
    (r := ⟨r.space, r.name, 0, false, false, List.replicate r.disks.length ⟨[], 0⟩⟩) ok.disks (by simp) (by simp)
  simp only [List.length_nil, Nat.mul_zero, Nat.add_zero, List.nil_append] at this
  rw [show (0 + 1 + 1 : Nat) = 2 from rfl, this]
  obtain ⟨l1, l2, -⟩ := lastSub_bounds ok.lver
  unfold procSubs
  rw [if_neg (by omega), if_neg (by unfold PATH_LEN; omega), if_neg (by omega), if_neg (by omega), if_pos (by omega),
    if_pos ⟨by decide, rfl⟩]
  unfold lastSub image
  cases hs : r.shared with
  | true =>
    simp only [if_true, List.take]
    unfold procSubs
    rfl
  | false =>
    simp only [Bool.false_eq_true, if_false]
    rw [if_neg]
    · unfold procSubs
      rw [strtoull_dec ok.lver]
      rfl
    · obtain ⟨c, cs, k1, k2, k3, -⟩ := dec_cons r.lver
      rw [k1]
      intro hh
      have hc : c = 83 := by
        cases cs <;> simp at hh
        exact hh.1
      exact (digit_not_space k2 k3).2.2.2.2.2.2 hc

theorem diskSubs_length (ds : List Disk) : (diskSubs ds).length = 2 * ds.length := by
  induction ds with
  | nil => rfl
  | cons d ds ih => simp [diskSubs, ih]; omega

/-- Parsing any string whose substrings encode the parts of a resource. -/
theorem strToRes_encs {r : Res} (ok : ResOk r) {e0 : Str} {es : List Str} (h0 : Enc e0 r.space)
    (he : Encs es (r.name :: (diskSubs r.disks ++ [lastSub r]))) : strToRes (e0 ++ tailC es) = some (some (image r)) := by
  have hlen := he.length
  have hds := diskSubs_length r.disks
  have hsome := ok.some
  have hmost := ok.most
  simp only [List.length_cons, List.length_append, List.length_nil, hds] at hlen
  have hcc : countColons (e0 ++ tailC es) = 2 * r.disks.length + 2 := by
    rw [countColons_enc h0, countColons_tail he, hlen]
  have hl3 : 3 ≤ (e0 ++ tailC es).length := by
    have h : ∀ l : List Str, l.length ≤ (tailC l).length := fun l => by
      induction l with
      | nil => simp
      | cons a l ih => simp [tailC]; omega
    have := h es
    simp; omega
  unfold strToRes
  simp only [hcc]
  rw [if_neg (by omega), if_neg (by omega), if_neg (by omega),
    splitSubs_enc h0 (by have := ok.space.term; unfold NAME_LEN at this; unfold PATH_LEN; simp; omega), List.nil_append,
    splitSubs_tail he]
  simp only
  rw [show (2 * r.disks.length + 2 - 1) / 2 = r.disks.length by omega,
    show (2 * r.disks.length + 2 - 1) % 2 = 1 by omega]
  exact procSubs_all ok

/-- The encoded substrings for disks. -/
def diskEncs : List Disk → List Str
  | [] => []
  | d :: ds => esc d.path :: dec d.offset :: diskEncs ds

theorem diskEncs_ok {ds : List Disk} (h : ∀ d ∈ ds, DiskOk d) : Encs (diskEncs ds) (diskSubs ds) := by
  induction ds with
  | nil => exact .nil
  | cons d ds ih =>
    have hd := h d (List.mem_cons_self ..)
    have hdl : (dec d.offset).length ≤ 20 := dec_length (k := 19) (Nat.lt_of_lt_of_le hd.off (by decide))
    exact .cons (enc_esc hd.noBs) (Nat.le_of_lt hd.term) (.cons (enc_dec _) (by unfold PATH_LEN; omega)
      (ih (fun x hx => h x (List.mem_cons_of_mem _ hx))))

theorem diskEncs_len {ds : List Disk} (h : ∀ d ∈ ds, DiskOk d) : (tailC (diskEncs ds)).length ≤ ds.length * 1046 := by
  induction ds with
  | nil => simp [diskEncs, tailC]
  | cons d ds ih =>
    have hd := h d (List.mem_cons_self ..)
    have hdl : (dec d.offset).length ≤ 20 := dec_length (k := 19) (Nat.lt_of_lt_of_le hd.off (by decide))
    have hf := hd.fits
    have := ih (fun x hx => h x (List.mem_cons_of_mem _ hx))
    unfold PATH_LEN at hf
    simp [diskEncs, tailC]
    omega

theorem disksToStr_eq {ds : List Disk} : ∀ {acc : Str}, (∀ d ∈ ds, DiskOk d) → acc.length + ds.length * 1046 < MAX_RES_STR →
    disksToStr ds acc = some (acc ++ tailC (diskEncs ds)) := by
  induction ds with
  | nil => intro acc _ _; simp [disksToStr, diskEncs, tailC]
  | cons d ds ih =>
    intro acc h hl
    have hd := h d (List.mem_cons_self ..)
    have hdl : (dec d.offset).length ≤ 20 := dec_length (k := 19) (Nat.lt_of_lt_of_le hd.off (by decide))
    have hf := hd.fits
    unfold PATH_LEN at hf
    simp only [List.length_cons] at hl
    unfold disksToStr
    rw [pathExport_eq hd.noBs (by unfold PATH_LEN; omega)]
    simp only
    rw [if_neg (by simp; omega), ih (fun x hx => h x (List.mem_cons_of_mem _ hx)) (by simp; omega)]
    simp [diskEncs, tailC]

/-- The string of a resource. -/
theorem resToStr_eq {r : Res} (ok : ResOk r) :
    resToStr r = some (some (r.space ++ tailC (r.name :: (diskEncs r.disks ++ [lastSub r])))) := by
  have h1 := ok.space.term
  have h2 := ok.name.term
  have h3 := ok.most
  obtain ⟨l1, l2, -⟩ := lastSub_bounds ok.lver
  have hdl := diskEncs_len ok.disks
  unfold NAME_LEN at h1 h2
  unfold MAX_DISKS at h3
  unfold resToStr NAME_LEN
  rw [if_neg (by omega)]
  simp only
  rw [if_neg (by simp; unfold MAX_RES_STR; omega), disksToStr_eq ok.disks (by simp; unfold MAX_RES_STR; omega)]
  simp only
  have ht : (if r.shared then [COLON, 83, 72] else [COLON] ++ dec r.lver) = COLON :: lastSub r := by
    unfold lastSub; split <;> rfl
  rw [ht, if_neg (by simp; unfold MAX_RES_STR; omega)]
  simp [tailC, tailC_append]

/-- C34, part: parsing the string made for a resource gives its names, disks, offsets and version or shared flag back.
Missing: names with colons or backslashes or without terminator, paths with backslashes, paths that do not fit when
escaped, and resources without disks; for each of these the claim is false, see the theorems below. -/
theorem res_roundtrip_partial {r : Res} (ok : ResOk r) :
    ∃ s, resToStr r = some (some s) ∧ strToRes s = some (some (image r)) := by
  obtain ⟨l1, l2, l3⟩ := lastSub_bounds ok.lver
  refine ⟨_, resToStr_eq ok, strToRes_encs ok (enc_plain ok.space.chars) ?_⟩
  refine .cons (enc_plain ok.name.chars) ?_ ((diskEncs_ok ok.disks).append (.cons l3 (by unfold PATH_LEN; omega) .nil))
  have := ok.name.term
  unfold NAME_LEN at this
  unfold PATH_LEN
  omega

/-- A resource with two disks, one of whose paths has a colon and a space. -/
def exRes : Res := ⟨[108, 115], [114, 49], 7, true, false, [⟨[47, 97, 58, 32, 98], 1048576⟩, ⟨[47, 99], 0⟩]⟩

theorem exRes_ok : ResOk exRes := by
  refine ⟨⟨by decide, by decide⟩, ⟨by decide, by decide⟩, by decide, by decide, fun d hd => ?_, by decide⟩
  simp only [exRes, List.mem_cons, List.not_mem_nil, or_false] at hd
  rcases hd with rfl | rfl
  · exact ⟨by decide, by decide, by decide, by decide, by decide⟩
  · exact ⟨by decide, by decide, by decide, by decide, by decide⟩

/-- Parsing never writes outside the result, whatever the string. -/
theorem splitSubs_count {s : Str} : ∀ {cur : Str} {subs : List Str}, splitSubs s cur = some subs → subs.length = countColons s + 1 := by
  intro cur
  fun_induction splitSubs s cur with
  | case1 cur => intro subs h; simp at h; subst h; rfl
  | case2 => intro subs h; simp at h
  | case3 => intro subs h; simp at h
  | case4 c cur h1 h2 h3 => intro subs h; simp at h; subst h; simp [countColons, h1, h2]
  | case5 c cur h1 h2 =>
    intro subs h
    simp at h h2
    subst h; subst h2; rfl
  | case6 => intro subs h; simp at h
  | case7 c' rest cur h1 ih =>
    intro subs h
    rw [ih h]
    simp [countColons]
  | case8 => intro subs h; simp at h
  | case9 c c' rest cur h1 h2 h3 ih =>
    intro subs h
    rw [ih h, countColons_plain h1 h2]
  | case10 c c' rest cur h1 h2 ih =>
    intro subs h
    simp at h2
    subst h2
    rw [countColons_colon]
    cases hh : splitSubs (c' :: rest) [] with
    | none => rw [hh] at h; simp at h
    | some t =>
      rw [hh] at h
      simp at h
      subst h
      simp [ih hh]

theorem procSubs_safe {n hl : Nat} : ∀ {subs : List Str} {k d : Nat} {r : Res}, r.disks.length = n → hl < 2 →
    k + subs.length ≤ 2 + 2 * n + hl → (k ≤ 2 → d = 0) → (2 ≤ k → d = (k - 2) / 2) → procSubs n hl k d r subs ≠ none := by
  intro subs
  induction subs with
  | nil => intro k d r _ _ _ _ _; simp [procSubs]
  | cons sub subs ih =>
    intro k d r hr hhl hlen h1 h2
    simp only [List.length_cons] at hlen
    unfold procSubs
    split
    · simp
    split
    · simp
    split
    · exact ih hr hhl (by omega) (fun _ => h1 (by omega)) (fun _ => by omega)
    split
    · exact ih hr hhl (by omega) (fun _ => h1 (by omega)) (fun _ => by have := h1 (by omega); omega)
    have hk : 2 ≤ k := by omega
    have hd := h2 hk
    split
    · split
      · split
        · exact ih hr hhl (by omega) (fun _ => by omega) (fun _ => by omega)
        · exact ih hr hhl (by omega) (fun _ => by omega) (fun _ => by omega)
      · rename_i hn
        have : d < r.disks.length := by
          rw [hr]
          rcases Nat.lt_or_ge d n with h | h
          · exact h
          · exfalso
            have : k = 2 + 2 * n := by omega
            apply hn
            exact ⟨by omega, by omega⟩
        rw [dif_pos this]
        exact ih (by simp [hr]) hhl (by omega) (fun _ => by omega) (fun _ => by omega)
    · have : d < r.disks.length := by omega
      rw [dif_pos this]
      split
      · simp
      · exact ih (by simp [hr]) hhl (by omega) (fun _ => by omega) (fun _ => by omega)

/-- C34: parsing is memory safe for every string. -/
theorem strToRes_safe (s : Str) : strToRes s ≠ none := by
  unfold strToRes
  split
  · simp
  simp only
  split
  · simp
  split
  · simp
  split
  · simp
  · rename_i h0 _ subs hs
    have hc := splitSubs_count hs
    refine procSubs_safe (by simp) (by omega) ?_ (fun _ => rfl) (fun h => absurd h (by omega))
    omega

/-! ## State strings -/

/-- `St k e e'`: reading the characters `e` after `k` colons of a resource puts `e'` into the buffer. -/
inductive St (k : Nat) : Str → Str → Prop where
  | nil : St k [] []
  | plain {c : UInt8} {e e' : Str} : c ≠ BACKSLASH → c ≠ COLON → c ≠ SPACE → St k e e' → St k (c :: e) (c :: e')
  | space {e e' : Str} : k < 3 → St k e e' → St k (SPACE :: e) (BACKSLASH :: SPACE :: e')
  | esc {c : UInt8} {e e' : Str} : c ≠ BACKSLASH → St k e e' → St k (BACKSLASH :: c :: e) (BACKSLASH :: c :: e')

theorem push_ok {cur : Str} {c : UInt8} (h : cur.length < MAX_RES_STR) : push cur c = some (cur ++ [c]) := by
  unfold push; rw [if_pos h]

theorem stateLoop_st {k : Nat} {e e' : Str} (h : St k e e') : ∀ {s cur : Str}, cur.length + e'.length ≤ MAX_RES_STR →
    stateLoop (e ++ s) cur false k = stateLoop s (cur ++ e') false k := by
  induction h with
  | nil => intro s cur _; simp
  | plain h1 h2 h3 _ ih =>
    intro s cur hl
    simp only [List.length_cons] at hl
    rw [List.cons_append]
    conv => lhs; unfold stateLoop
    rw [if_neg h1, if_neg (by simp), if_neg (fun h => h3 h.1), if_pos h3, push_ok (by omega)]
    simp only
    rw [if_neg h2, ih (by simp; omega)]
    simp
  | space hk _ ih =>
    intro s cur hl
    simp only [List.length_cons] at hl
    rw [List.cons_append]
    conv => lhs; unfold stateLoop
    rw [if_neg (by decide), if_neg (by simp), if_pos ⟨rfl, hk⟩, push_ok (by omega)]
    simp only
    rw [push_ok (by simp; omega)]
    simp only
    rw [ih (by simp; omega)]
    simp
  | @esc c e e' hc _ ih =>
    intro s cur hl
    simp only [List.length_cons] at hl
    rw [List.cons_append, List.cons_append]
    conv => lhs; unfold stateLoop
    rw [if_pos rfl, push_ok (by omega)]
    simp only
    conv => lhs; unfold stateLoop
    rw [if_neg hc, if_pos rfl, push_ok (by simp; omega)]
    simp only
    rw [ih (by simp; omega)]
    simp

/-- Names with a backslash before every space. -/
def escSp : Str → Str
  | [] => []
  | c :: cs => if c = SPACE then BACKSLASH :: c :: escSp cs else c :: escSp cs

theorem st_name {k : Nat} (hk : k < 3) {n : Str} (h : ∀ c ∈ n, c ≠ BACKSLASH ∧ c ≠ COLON) : St k n (escSp n) := by
  induction n with
  | nil => exact .nil
  | cons c cs ih =>
    have hc := h c (List.mem_cons_self ..)
    have ih := ih (fun x hx => h x (List.mem_cons_of_mem _ hx))
    unfold escSp
    split
    · rename_i h; subst h; exact .space hk ih
    · rename_i h; exact .plain hc.1 hc.2 h ih

theorem enc_escSp {n : Str} (h : ∀ c ∈ n, c ≠ BACKSLASH ∧ c ≠ COLON) : Enc (escSp n) n := by
  induction n with
  | nil => exact .nil
  | cons c cs ih =>
    have hc := h c (List.mem_cons_self ..)
    have ih := ih (fun x hx => h x (List.mem_cons_of_mem _ hx))
    unfold escSp
    split
    · exact .esc ih
    · exact .plain hc.1 hc.2 ih

theorem escSp_length (n : Str) : (escSp n).length ≤ 2 * n.length := by
  induction n with
  | nil => simp [escSp]
  | cons c cs ih => unfold escSp; split <;> simp <;> omega

theorem st_esc {k : Nat} {w : Str} (h : ∀ c ∈ w, c ≠ BACKSLASH) : St k (esc w) (esc w) := by
  induction w with
  | nil => exact .nil
  | cons c cs ih =>
    have ih := ih (fun x hx => h x (List.mem_cons_of_mem _ hx))
    have hc := h c (List.mem_cons_self ..)
    unfold esc
    split
    · exact .esc hc ih
    · rename_i hh
      exact .plain hc (fun h => hh (Or.inr h)) (fun h => hh (Or.inl h)) ih

theorem st_plain {k : Nat} {w : Str} (h : ∀ c ∈ w, c ≠ BACKSLASH ∧ c ≠ COLON ∧ c ≠ SPACE) : St k w w := by
  induction w with
  | nil => exact .nil
  | cons c cs ih =>
    have hc := h c (List.mem_cons_self ..)
    exact .plain hc.1 hc.2.1 hc.2.2 (ih (fun x hx => h x (List.mem_cons_of_mem _ hx)))

theorem st_dec {k n : Nat} : St k (dec n) (dec n) := st_plain fun c hc => by
  obtain ⟨h1, h2⟩ := dec_digit hc
  obtain ⟨-, -, -, s4, s5, s6, -⟩ := digit_not_space h1 h2
  exact ⟨s4, s5, s6⟩

/-- Substrings preceded by colons, read after `k` colons. -/
inductive Sts : Nat → List Str → List Str → Prop where
  | nil {k : Nat} : Sts k [] []
  | cons {k : Nat} {e e' : Str} {es es' : List Str} : St (k + 1) e e' → Sts (k + 1) es es' → Sts k (e :: es) (e' :: es')

theorem stateLoop_tail {k : Nat} {es es' : List Str} (h : Sts k es es') : ∀ {s cur : Str},
    cur.length + (tailC es').length ≤ MAX_RES_STR →
    stateLoop (tailC es ++ s) cur false k = stateLoop s (cur ++ tailC es') false (k + es.length) := by
  induction h with
  | nil => intro s cur _; simp [tailC]
  | @cons k e e' es es' h1 _ ih =>
    intro s cur hl
    simp only [tailC, List.length_cons, List.length_append] at hl
    simp only [tailC, List.cons_append, List.append_assoc]
    conv => lhs; unfold stateLoop
    rw [if_neg (by decide), if_neg (by simp), if_neg (by rintro ⟨h, -⟩; exact absurd h (by decide)), if_pos (by decide), push_ok (by omega)]
    simp only [if_true]
    rw [stateLoop_st h1 (by simp; omega), ih (by simp; omega)]
    simp only [List.append_assoc, List.length_cons, List.cons_append, List.nil_append]
    rw [show k + 1 + es.length = k + (es.length + 1) by omega]

theorem sts_disks {k : Nat} {ds : List Disk} (h : ∀ d ∈ ds, DiskOk d) {es es' : List Str} (ht : Sts (k + 2 * ds.length) es es') :
    Sts k (diskEncs ds ++ es) (diskEncs ds ++ es') := by
  induction ds generalizing k with
  | nil => simpa [diskEncs] using ht
  | cons d ds ih =>
    have hd := h d (List.mem_cons_self ..)
    refine .cons (st_esc hd.noBs) (.cons st_dec (ih (fun x hx => h x (List.mem_cons_of_mem _ hx)) ?_))
    have : k + 1 + 1 + 2 * ds.length = k + 2 * (d :: ds).length := by simp; omega
    rwa [this]

/-- Reading one resource of a state string. -/
theorem stateLoop_res {r : Res} (ok : ResOk r) {s : Str} (hs : resToStr r = some (some s)) (t : Str) :
    ∃ s' k, stateLoop (s ++ t) [] false 0 = stateLoop t s' false k ∧ 3 ≤ k ∧ strToRes s' = some (some (image r)) := by
  rw [resToStr_eq ok] at hs
  simp only [Option.some.injEq] at hs
  subst hs
  obtain ⟨l1, l2, l3⟩ := lastSub_bounds ok.lver
  have h1 := ok.space.term
  have h2 := ok.name.term
  have h3 := ok.most
  have h4 := ok.some
  have hdl := diskEncs_len ok.disks
  have e1 := escSp_length r.space
  have e2 := escSp_length r.name
  unfold NAME_LEN at h1 h2
  unfold MAX_DISKS at h3
  have hlast : ∀ k, St k (lastSub r) (lastSub r) := fun k => by
    unfold lastSub
    split
    · exact st_plain (by decide)
    · exact st_dec
  have hst : Sts 0 (r.name :: (diskEncs r.disks ++ [lastSub r])) (escSp r.name :: (diskEncs r.disks ++ [lastSub r])) :=
    .cons (st_name (by omega) ok.name.chars) (sts_disks ok.disks (.cons (hlast _) .nil))
  refine ⟨escSp r.space ++ tailC (escSp r.name :: (diskEncs r.disks ++ [lastSub r])), 0 + (r.name :: (diskEncs r.disks ++ [lastSub r])).length, ?_, ?_, ?_⟩
  · rw [List.append_assoc, stateLoop_st (st_name (by omega) ok.space.chars) (by simp; unfold MAX_RES_STR; omega), List.nil_append,
      stateLoop_tail hst (by simp [tailC, tailC_append]; unfold MAX_RES_STR; omega)]
  · have : (diskEncs r.disks).length = 2 * r.disks.length := by
      have := (diskEncs_ok ok.disks).length
      rw [diskSubs_length] at this
      exact this
    simp [this]; omega
  · refine strToRes_encs ok (enc_escSp ok.space.chars) (.cons (enc_escSp ok.name.chars) (by unfold PATH_LEN; omega)
      ((diskEncs_ok ok.disks).append (.cons l3 (by unfold PATH_LEN; omega) .nil)))

theorem resToStr_length {r : Res} (ok : ResOk r) {s : Str} (hs : resToStr r = some (some s)) : s.length ≤ MAX_RES_STR - 1 := by
  rw [resToStr_eq ok] at hs
  simp only [Option.some.injEq] at hs
  subst hs
  obtain ⟨l1, l2, l3⟩ := lastSub_bounds ok.lver
  have h1 := ok.space.term
  have h2 := ok.name.term
  have h3 := ok.most
  have hdl := diskEncs_len ok.disks
  unfold NAME_LEN at h1 h2
  unfold MAX_DISKS at h3
  simp [tailC, tailC_append]
  unfold MAX_RES_STR
  omega

/-- C34, part: a list of any number of resources can be put into a state string and read back.  Names may contain
spaces.  Missing: as for `res_roundtrip_partial`. -/
theorem state_roundtrip_partial {rs : List Res} (hne : rs ≠ []) (ok : ∀ r ∈ rs, ResOk r) :
    ∃ s, argsToState rs = some (some s) ∧ stateToArgs s = some (some (rs.map image)) := by
  induction rs with
  | nil => exact absurd rfl hne
  | cons r rs ih =>
    have okr := ok r (List.mem_cons_self ..)
    obtain ⟨s, hs, -⟩ := res_roundtrip_partial okr
    have hl := resToStr_length okr hs
    cases rs with
    | nil =>
      refine ⟨s, by unfold argsToState; rw [hs]; simp only; rw [if_neg (by omega)], ?_⟩
      obtain ⟨s', k, a, b, c⟩ := stateLoop_res okr hs []
      unfold stateToArgs
      rw [List.append_nil] at a
      rw [a]
      unfold stateLoop
      rw [c]
      rfl
    | cons r' rs =>
      obtain ⟨t, ht1, ht2⟩ := ih (by simp) (fun x hx => ok x (List.mem_cons_of_mem _ hx))
      refine ⟨s ++ [SPACE] ++ t, by unfold argsToState; rw [hs]; simp only; rw [if_neg (by omega), ht1], ?_⟩
      obtain ⟨s', k, a, b, c⟩ := stateLoop_res okr hs ([SPACE] ++ t)
      unfold stateToArgs at ht2 ⊢
      rw [List.append_assoc, a]
      simp only [List.cons_append, List.nil_append]
      unfold stateLoop
      rw [if_neg (by decide), if_neg (by simp), if_neg (by omega), if_neg (by simp), c]
      simp only
      rw [ht2]
      rfl

example : ∃ s, argsToState [exRes, exRes] = some (some s) ∧ stateToArgs s = some (some [image exRes, image exRes]) :=
  state_roundtrip_partial (by simp) (fun r hr => by
    simp only [List.mem_cons, List.not_mem_nil, or_false] at hr
    rcases hr with rfl | rfl <;> exact exRes_ok)

/-! ## Violations -/

/-- C34 is false of the code for a resource without disks: its string is refused. -/
theorem no_disks_violated : ∃ s, resToStr ⟨[97], [98], 0, false, false, []⟩ = some (some s) ∧ strToRes s = some none :=
  ⟨[97, 58, 98, 58, 48], by decide +kernel, by decide +kernel⟩

/-- C34 is false of the code for names with a colon: the parts are mixed up, or the string is refused. -/
theorem colon_name_violated : ∃ s, resToStr ⟨[97], [98, 58, 99], 1, true, true, [⟨[47, 120], 5⟩]⟩ = some (some s) ∧
    strToRes s ≠ some (some (image ⟨[97], [98, 58, 99], 1, true, true, [⟨[47, 120], 5⟩]⟩)) :=
  ⟨[97, 58, 98, 58, 99, 58, 47, 120, 58, 53, 58, 83, 72], by decide +kernel, by decide +kernel⟩

/-- C34 is false of the code for paths with a backslash: the backslash is lost, so that another file is named. -/
theorem backslash_path_violated : ∃ s, resToStr ⟨[97], [98], 1, true, false, [⟨[47, 120, 92, 121], 5⟩]⟩ = some (some s) ∧
    strToRes s = some (some ⟨[97], [98], 1, true, false, [⟨[47, 120, 121], 5⟩]⟩) :=
  ⟨[97, 58, 98, 58, 47, 120, 92, 121, 58, 53, 58, 49], by decide +kernel, by decide +kernel⟩

/-- C34 is false of the code for names of 48 bytes, which are allowed to have no terminator: formatting such a resource
reads past the end of the name. -/
theorem full_name_violated (r : Res) (h : r.name.length = NAME_LEN) : resToStr r = none := by
  unfold resToStr
  rw [if_pos (Or.inr (by omega))]

example : (List.replicate 48 (97 : UInt8)).length = NAME_LEN := rfl

/-- C34 is false of the code for paths that do not fit when escaped: the path is cut without an error. -/
theorem long_path_violated : ∃ s, resToStr ⟨[97], [98], 1, true, false, [⟨List.replicate 600 58, 5⟩]⟩ = some (some s) ∧
    strToRes s = some (some ⟨[97], [98], 1, true, false, [⟨List.replicate 512 58, 5⟩]⟩) := by
  refine ⟨[97, 58, 98, 58] ++ ((List.replicate 512 [92, 58]).flatten ++ [58, 53, 58, 49]), by decide +kernel, by decide +kernel⟩

/-- Reading a state string is not memory safe: a string without separators that is longer than the buffer on the stack
is written past its end. -/
theorem state_overflow_violated : ∃ s, stateToArgs s = none := by
  refine ⟨List.replicate 4401 97, ?_⟩
  decide +kernel

end Sanlock.Strings
