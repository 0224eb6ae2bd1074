import Verif.Rindex
import Verif.Props.OnDisk
import Verif.Props.Verify

/-!
# Lemmas for the resource index
-/

namespace Sanlock.Rindex

open OnDisk

/-- The bytes of a slice. -/
def slice (buf : List UInt8) (off n : Nat) : List UInt8 := (buf.drop off).take n

theorem slice?_eq {buf : List UInt8} {off n : Nat} (h : off + n ≤ buf.length) : slice? buf off n = some (slice buf off n) := by
  unfold slice?; rw [if_pos h]; rfl

theorem slice?_some {buf b : List UInt8} {off n : Nat} (h : slice? buf off n = some b) :
    off + n ≤ buf.length ∧ b = slice buf off n := by
  unfold slice? at h
  split at h
  · rename_i hl; simp only [Option.some.injEq] at h; exact ⟨hl, h.symm⟩
  · simp at h

theorem slice_length {buf : List UInt8} {off n : Nat} (h : off + n ≤ buf.length) : (slice buf off n).length = n := by
  unfold slice; simp; omega

theorem splice_length {buf bs : List UInt8} {off : Nat} (h : off + bs.length ≤ buf.length) :
    (splice buf off bs).length = buf.length := by
  unfold splice; simp; omega

theorem getElem?_splice {buf bs : List UInt8} {off : Nat} (h : off + bs.length ≤ buf.length) (i : Nat) :
    (splice buf off bs)[i]? = if i < off then buf[i]? else if i < off + bs.length then bs[i - off]? else buf[i]? := by
  unfold splice
  rw [List.getElem?_append, List.length_take, Nat.min_eq_left (by omega)]
  split
  · rw [List.getElem?_take]; rename_i h1; rw [if_pos h1]
  · rename_i h1
    rw [List.getElem?_append]
    split
    · rename_i h2; rw [if_pos (by omega)]
    · rename_i h2
      rw [if_neg (by omega), List.getElem?_drop]
      congr 1
      omega

theorem getElem?_slice {buf : List UInt8} {off n i : Nat} :
    (slice buf off n)[i]? = if i < n then buf[off + i]? else none := by
  unfold slice
  rw [List.getElem?_take]
  split
  · rw [List.getElem?_drop]
  · rfl

theorem slice_splice_same {buf bs : List UInt8} {off : Nat} (h : off + bs.length ≤ buf.length) :
    slice (splice buf off bs) off bs.length = bs := by
  apply List.ext_getElem?
  intro i
  rw [getElem?_slice]
  split
  · rename_i h1
    rw [getElem?_splice h, if_neg (by omega), if_pos (by omega)]
    congr 1
    omega
  · rename_i h1; rw [List.getElem?_eq_none (by omega)]

theorem slice_splice_other {buf bs : List UInt8} {off o n : Nat} (h : off + bs.length ≤ buf.length)
    (hd : o + n ≤ off ∨ off + bs.length ≤ o) : slice (splice buf off bs) o n = slice buf o n := by
  apply List.ext_getElem?
  intro i
  rw [getElem?_slice, getElem?_slice]
  split
  · rename_i h1
    rw [getElem?_splice h]
    split
    · rfl
    · rw [if_neg (by omega)]
  · rfl

/-- A slice inside a spliced part. -/
theorem slice_splice_inner {buf bs : List UInt8} {off o n : Nat} (h : off + bs.length ≤ buf.length)
    (h1 : off ≤ o) (h2 : o + n ≤ off + bs.length) : slice (splice buf off bs) o n = slice bs (o - off) n := by
  apply List.ext_getElem?
  intro i
  rw [getElem?_slice, getElem?_slice]
  split
  · rename_i h3
    rw [getElem?_splice h, if_neg (by omega), if_pos (by omega)]
    congr 1
    omega
  · rfl

theorem slice_slice {buf : List UInt8} {a n b m : Nat} (h : b + m ≤ n) : slice (slice buf a n) b m = slice buf (a + b) m := by
  apply List.ext_getElem?
  intro i
  rw [getElem?_slice, getElem?_slice (off := a + b)]
  split
  · rw [getElem?_slice, if_pos (by omega)]
    congr 1
    omega
  · rfl

/-- Entry `i` of an index buffer. -/
def entryAt (e : Endian) (h : Hdr) (buf : List UInt8) (i : Nat) : RindexEntry :=
  rindexEntryIn e (slice buf (h.sector + i * 64) 64)

theorem entryOut_length (e : Endian) (r : RindexEntry) : (rindexEntryOut e r).length = 64 := by
  have := r.name.len
  simp [rindexEntryOut, putField_eq, this]

theorem entryIn_out (e : Endian) (r : RindexEntry) : rindexEntryIn e (rindexEntryOut e r) = r := by
  have := rindexEntry_roundtrip e e r []
  rwa [List.append_nil] at this

/-- A header with supported sizes. -/
structure Ok (h : Hdr) : Prop where
  sizes : (h.sector = 512 ∧ h.align = 1048576) ∨ (h.sector = 4096 ∧ h.align = 1048576) ∨
    (h.sector = 4096 ∧ h.align = 2097152) ∨ (h.sector = 4096 ∧ h.align = 4194304) ∨
    (h.sector = 4096 ∧ h.align = 8388608)
  max : h.maxRes ≤ sizeToMax h.sector h.align

theorem Ok.fits {h : Hdr} (ok : Ok h) : h.sector + h.max * 64 ≤ h.align ∧ h.max ≤ 128000 ∧
    (h.sector = 512 ∨ h.sector = 4096) ∧ h.align ≤ 8388608 ∧ 1048576 ≤ h.align ∧ h.sector ≤ h.align := by
  have hm := ok.max
  unfold Hdr.max
  rcases ok.sizes with ⟨h1, h2⟩ | ⟨h1, h2⟩ | ⟨h1, h2⟩ | ⟨h1, h2⟩ | ⟨h1, h2⟩ <;>
    · rw [h1, h2] at hm ⊢
      simp only [sizeToMax, SizeFlags.M1, SizeFlags.M2, SizeFlags.M4, SizeFlags.M8] at hm ⊢
      simp at hm ⊢
      split <;> omega

theorem resOffset_some {h : Hdr} {off i r : Nat} (hr : resOffset h off i = some r) : r = off + (i + 2) * h.align := by
  unfold resOffset mulInt at hr
  split at hr
  · rename_i a b h1 h2
    split at h1
    · split at h2
      · simp only [Option.some.injEq] at h1 h2 hr
        subst h1 h2 hr
        rw [Nat.add_mul]
        omega
      · simp at h2
    · simp at h1
  · simp at hr

theorem resOffset_ok {h : Hdr} {off i : Nat} (h1 : 2 * h.align < 2 ^ 31) (h2 : i * h.align < 2 ^ 31) :
    resOffset h off i = some (off + (i + 2) * h.align) := by
  unfold resOffset mulInt
  rw [if_pos h1, if_pos h2]
  simp only [Option.some.injEq]
  rw [Nat.add_mul]
  omega

theorem searchLoop_some {e : Endian} {h : Hdr} {off : Nat} {buf : List UInt8} {f : Find} {ent res : Nat} :
    ∀ {n i : Nat}, searchLoop e h off buf f n i = some (some (ent, res)) →
    ∃ k, i ≤ k ∧ k < i + n ∧ ent = h.sector + k * 64 ∧ res = off + (k + 2) * h.align ∧
      h.sector + k * 64 + 64 ≤ buf.length ∧ hit f (entryAt e h buf k) = true ∧
      ∀ j, i ≤ j → j < k → hit f (entryAt e h buf j) = false := by
  intro n
  induction n with
  | zero => intro i hs; simp [searchLoop] at hs
  | succ n ih =>
    intro i hs
    unfold searchLoop at hs
    split at hs
    · simp at hs
    · rename_i b hb
      obtain ⟨hl, hb⟩ := slice?_some hb
      subst hb
      split at hs
      · rename_i hh
        split at hs
        · simp at hs
        · rename_i r hr
          simp only [Option.some.injEq, Prod.mk.injEq] at hs
          obtain ⟨h1, h2⟩ := hs
          refine ⟨i, Nat.le_refl _, by omega, h1.symm, ?_, hl, hh, fun j h3 h4 => absurd h4 (by omega)⟩
          rw [← h2]; exact resOffset_some hr
      · rename_i hh
        obtain ⟨k, a, b, c, d, g, m, z⟩ := ih hs
        refine ⟨k, by omega, by omega, c, d, g, m, fun j h3 h4 => ?_⟩
        by_cases hj : j = i
        · subst hj; simpa [entryAt, ENTRY] using hh
        · exact z j (by omega) h4

theorem searchLoop_none {e : Endian} {h : Hdr} {off : Nat} {buf : List UInt8} {f : Find} :
    ∀ {n i : Nat}, searchLoop e h off buf f n i = some none →
    ∀ j, i ≤ j → j < i + n → hit f (entryAt e h buf j) = false := by
  intro n
  induction n with
  | zero => intro i _ j h1 h2; omega
  | succ n ih =>
    intro i hs j h1 h2
    unfold searchLoop at hs
    split at hs
    · simp at hs
    · rename_i b hb
      obtain ⟨hl, hb⟩ := slice?_some hb
      subst hb
      split at hs
      · split at hs <;> simp at hs
      · rename_i hh
        by_cases hj : j = i
        · subst hj; simpa [entryAt, ENTRY] using hh
        · exact ih hs j (by omega) (by omega)

/-- No undefined behaviour as long as the products stay below 2^31. -/
theorem searchLoop_defined {e : Endian} {h : Hdr} {off : Nat} {buf : List UInt8} {f : Find} :
    ∀ {n i : Nat}, h.sector + (i + n) * 64 ≤ buf.length → 2 * h.align < 2 ^ 31 → (i + n - 1) * h.align < 2 ^ 31 →
    searchLoop e h off buf f n i ≠ none := by
  intro n
  induction n with
  | zero => intro i _ _ _; simp [searchLoop]
  | succ n ih =>
    intro i h1 h2 h3
    unfold searchLoop
    rw [slice?_eq (by rw [show ENTRY = 64 from rfl]; omega)]
    simp only
    split
    · have : i * h.align < 2 ^ 31 := Nat.lt_of_le_of_lt (Nat.mul_le_mul_right _ (by omega)) h3
      rw [resOffset_ok h2 this]
      simp
    · have e1 : i + 1 + n = i + (n + 1) := by omega
      exact ih (by rw [e1]; exact h1) h2 (by rw [e1]; exact h3)

/-- The sector written for entry `k` and its effect. -/
theorem updateIndex_spec {e : Endian} {h : Hdr} (ok : Ok h) {buf : List UInt8} {re : RindexEntry} {k : Nat}
    (hl : buf.length = h.align) (hk : k < h.max) :
    ∃ so bs, updateIndex e h buf re (h.sector + k * 64) = some (so, bs) ∧ bs.length = h.sector ∧
      h.sector ≤ so ∧ so + h.sector ≤ h.align ∧
      (∀ j, j < h.max → entryAt e h (splice buf so bs) j = if j = k then re else entryAt e h buf j) ∧
      slice (splice buf so bs) 0 h.sector = slice buf 0 h.sector := by
  obtain ⟨f1, f2, f3, f4, f5, f6⟩ := ok.fits
  have hs0 : 0 < h.sector := by omega
  have hmod64 : h.sector % 64 = 0 := by omega
  generalize hent : h.sector + k * 64 = ent
  have hent2 : ent + 64 ≤ h.align := by omega
  have hdm := Nat.div_add_mod ent h.sector
  have hml := Nat.mod_lt ent hs0
  have hq1 : 1 ≤ ent / h.sector := (Nat.le_div_iff_mul_le hs0).mpr (by omega)
  generalize hq : ent / h.sector = q at *
  generalize hr : ent % h.sector = r at *
  have hr64 : r % 64 = 0 := by
    have : (h.sector * q + r) % 64 = 0 := by rw [hdm, ← hent]; omega
    rw [Nat.add_mod, Nat.mul_mod, hmod64] at this
    omega
  have hrs : r + 64 ≤ h.sector := by omega
  have hsq : h.sector ≤ q * h.sector := Nat.le_mul_of_pos_left _ hq1
  have hqs : q * h.sector = h.sector * q := Nat.mul_comm _ _
  have halign : h.align % h.sector = 0 := by
    rcases ok.sizes with ⟨h1, h2⟩ | ⟨h1, h2⟩ | ⟨h1, h2⟩ | ⟨h1, h2⟩ | ⟨h1, h2⟩ <;> rw [h1, h2]
  have htop : q * h.sector + h.sector ≤ h.align := by
    have h1 : q < h.align / h.sector := by
      rw [← hq]
      apply (Nat.div_lt_iff_lt_mul hs0).mpr
      rw [Nat.div_mul_cancel (Nat.dvd_of_mod_eq_zero halign)]
      omega
    have h2 : (q + 1) * h.sector ≤ h.align / h.sector * h.sector := Nat.mul_le_mul_right _ h1
    rw [Nat.div_mul_cancel (Nat.dvd_of_mod_eq_zero halign), Nat.add_mul] at h2
    omega
  have hso : (q * h.sector) % 2 ^ 32 = q * h.sector := Nat.mod_eq_of_lt (by omega)
  have hsl : (slice buf (q * h.sector) h.sector).length = h.sector := slice_length (by omega)
  have heo := entryOut_length e re
  have hbl : (splice (slice buf (q * h.sector) h.sector) r (rindexEntryOut e re)).length = h.sector := by
    rw [splice_length (by omega), hsl]
  refine ⟨q * h.sector, splice (slice buf (q * h.sector) h.sector) r (rindexEntryOut e re), ?_, hbl, hsq, htop, ?_, ?_⟩
  · unfold updateIndex
    rw [if_neg (by omega)]
    simp only [hq, hr, hso]
    rw [slice?_eq (by omega)]
    simp only
    rw [if_pos (by rw [show ENTRY = 64 from rfl]; omega)]
  · intro j hj
    unfold entryAt
    by_cases hjk : j = k
    · subst hjk
      rw [if_pos rfl, hent, slice_splice_inner (by omega) (by omega) (by omega),
        show ent - q * h.sector = r by omega]
      have := slice_splice_same (buf := slice buf (q * h.sector) h.sector) (bs := rindexEntryOut e re) (off := r) (by omega)
      rw [heo] at this
      rw [this, entryIn_out]
    · rw [if_neg hjk]
      congr 1
      have hjl : h.sector + j * 64 + 64 ≤ ent ∨ ent + 64 ≤ h.sector + j * 64 := by omega
      -- entries lie inside one sector
      have hjdm := Nat.div_add_mod (h.sector + j * 64) h.sector
      have hjml := Nat.mod_lt (h.sector + j * 64) hs0
      generalize hjq : (h.sector + j * 64) / h.sector = jq at *
      generalize hjr : (h.sector + j * 64) % h.sector = jr at *
      have hjr64 : jr % 64 = 0 := by
        have : (h.sector * jq + jr) % 64 = 0 := by rw [hjdm]; omega
        rw [Nat.add_mod, Nat.mul_mod, hmod64] at this
        omega
      rcases Nat.lt_trichotomy jq q with hlt | heq | hgt
      · have : h.sector * (jq + 1) ≤ h.sector * q := Nat.mul_le_mul_left _ hlt
        rw [Nat.mul_add] at this
        rw [slice_splice_other (by omega) (Or.inl (by omega))]
      · subst heq
        rw [slice_splice_inner (by omega) (by omega) (by omega),
          slice_splice_other (by omega) (by omega), slice_slice (by omega)]
        congr 1
        omega
      · have : h.sector * (q + 1) ≤ h.sector * jq := Nat.mul_le_mul_left _ hgt
        rw [Nat.mul_add] at this
        rw [slice_splice_other (by omega) (Or.inr (by omega))]
  · rw [slice_splice_other (by omega) (Or.inl (by omega))]

end Sanlock.Rindex
