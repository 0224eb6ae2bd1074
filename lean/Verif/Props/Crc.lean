import Verif.Crc

/-!
# C07: record checksums detect corruption

`bit buf i` is bit `i` of a byte string, counted from the least significant bit of byte 0.  The
leader record keeps 168 data bytes and a 4-byte checksum, the ballot block 48 and 4.
-/

namespace Sanlock.Crc

open Sanlock.OnDisk

/-! ## What is written verifies -/

theorem take_head (a b : List UInt8) (n : Nat) (h : a.length = n) : (a ++ b).take n = a := by
  rw [List.take_append_of_le_length (by omega), List.take_of_length_le (by omega)]

theorem leaderHead_len (e : Endian) (l : Leader) : (leaderHead e l).length = 168 := by
  simp [leaderHead, l.spaceName.len, l.resourceName.len]

theorem dblockHead_len (e : Endian) (d : Dblock) : (dblockHead e d).length = 48 := by
  simp [dblockHead]

theorem u32_field (e : Endian) (v : UInt32) (a b : List UInt8) (n : Nat) (h : a.length = n) :
    UInt32.ofNat (getField e n 4 (a ++ (putField e 4 v.toNat ++ b))) = v := by
  rw [getField_skip _ _ _ _ _ (by omega), h, Nat.sub_self, getField_zero, u32_rt]

theorem swap_endian (e₁ e₂ : Endian) (n v : Nat) : putField e₁ n v = putField e₂ n v := by
  rw [putField_eq, putField_eq]

/-- C07: a leader record written by any host verifies on every host, whatever follows it. -/
theorem written_leader_verifies (e₁ e₂ : Endian) (l : Leader) (rest : List UInt8) :
    leaderChecksumOk e₂ (leaderWrite e₁ l ++ rest) = true := by
  have h168 := leaderHead_len e₁ l
  simp only [leaderChecksumOk, leaderWrite, leaderChecksum, leaderIn, leaderOut, List.append_assoc]
  rw [take_head _ _ _ h168, take_head _ _ _ h168, swap_endian e₁ e₂ 4, u32_field _ _ _ _ _ h168]
  simp

/-- C07: a ballot block written by any host is accepted by every host, whatever follows it. -/
theorem written_dblock_verifies (e₁ e₂ : Endian) (d : Dblock) (rest : List UInt8) :
    verifyDblock e₂ (dblockWrite e₁ d ++ rest) = true := by
  have h48 := dblockHead_len e₁ d
  have hc : (dblockIn e₂ (dblockWrite e₁ d ++ rest)).checksum
      = dblockChecksum (dblockWrite e₁ d ++ rest) := by
    simp only [dblockWrite, dblockChecksum, dblockIn, dblockOut, List.append_assoc]
    rw [take_head _ _ _ h48, take_head _ _ _ h48, swap_endian e₁ e₂ 4, u32_field _ _ _ _ _ h48]
  simp only [verifyDblock, hc]
  split <;> simp

/-! ## Corruption is detected -/

/-- Every bit of `a` and `b` among the first `len` bytes agrees, except inside the 32 consecutive
bits that start at `n`. -/
def DiffersOnlyIn32 (len n : Nat) (a b : List UInt8) : Prop :=
  ∀ i, i < 8 * len → (i < n ∨ n + 32 ≤ i) → bit a i = bit b i

theorem bit_take (l : List UInt8) (len i : Nat) (h : i < 8 * len) : bit (l.take len) i = bit l i := by
  simp only [bit, List.getD_eq_getElem?_getD]
  rw [List.getElem?_take_of_lt (by omega)]

theorem leaderOk_residue (e : Endian) (buf : List UInt8) (h : 172 ≤ buf.length) :
    leaderChecksumOk e buf = true ↔ crcBits 0xFFFFFFFE#32 (bitsOf (buf.take 172)) = 0 := by
  rw [← residue e 168 buf (by omega)]
  simp [leaderChecksumOk, leaderChecksum, leaderIn]

/-- C07, leader record: a corruption confined to 32 consecutive bits of the 172 bytes made of the
checksummed part and the checksum is detected. -/
theorem leader_burst_detected (e : Endian) (buf buf' : List UInt8) (n : Nat)
    (hlen : 172 ≤ buf.length) (hlen' : 172 ≤ buf'.length)
    (hok : leaderChecksumOk e buf = true)
    (hburst : DiffersOnlyIn32 172 n buf buf')
    (hdiff : buf.take 172 ≠ buf'.take 172) :
    leaderChecksumOk e buf' = false := by
  rw [← Bool.not_eq_true]
  intro hok'
  rw [leaderOk_residue e _ hlen] at hok
  rw [leaderOk_residue e _ hlen'] at hok'
  apply hdiff
  refine burst_eq _ _ (by simp; omega) n ?_ hok hok'
  intro i hi ho
  have h172 : (buf.take 172).length = 172 := by simp; omega
  rw [h172] at hi
  rw [bit_take _ _ _ hi, bit_take _ _ _ hi]
  exact hburst i hi ho

/-- C07, leader record: an odd number of wrong bits is detected. -/
theorem leader_odd_detected (e : Endian) (buf buf' : List UInt8)
    (hlen : 172 ≤ buf.length) (hlen' : 172 ≤ buf'.length)
    (hok : leaderChecksumOk e buf = true)
    (hodd : bitErrors (buf.take 172) (buf'.take 172) % 2 = 1) :
    leaderChecksumOk e buf' = false := by
  rw [← Bool.not_eq_true]
  intro hok'
  rw [leaderOk_residue e _ hlen] at hok
  rw [leaderOk_residue e _ hlen'] at hok'
  have := even_errors _ _ (by simp; omega) hok hok'
  omega

/-- C07, leader record: two wrong bits, however far apart, are detected. -/
theorem leader_two_detected (e : Endian) (buf buf' : List UInt8) (i j : Nat)
    (hlen : 172 ≤ buf.length) (hlen' : 172 ≤ buf'.length)
    (hok : leaderChecksumOk e buf = true)
    (hij : i < j) (hj : j < 8 * 172)
    (hout : ∀ k, k < 8 * 172 → k ≠ i → k ≠ j → bit buf k = bit buf' k)
    (hdiff : buf.take 172 ≠ buf'.take 172) :
    leaderChecksumOk e buf' = false := by
  rw [← Bool.not_eq_true]
  intro hok'
  rw [leaderOk_residue e _ hlen] at hok
  rw [leaderOk_residue e _ hlen'] at hok'
  have h172 : (buf.take 172).length = 172 := by simp; omega
  apply hdiff
  refine two_errors _ _ (by simp; omega) (by omega) i j hij (by omega) ?_ hok hok'
  intro k hk h1 h2
  rw [h172] at hk
  rw [bit_take _ _ _ hk, bit_take _ _ _ hk]
  exact hout k hk h1 h2

theorem dblockOk_residue (e : Endian) (buf : List UInt8) (h : 52 ≤ buf.length) :
    (dblockIn e buf).checksum = dblockChecksum buf ↔
      crcBits 0xFFFFFFFE#32 (bitsOf (buf.take 52)) = 0 := by
  rw [← residue e 48 buf (by omega)]
  simp [dblockChecksum, dblockIn]

/-- `verify_dblock` accepts a block only if its checksum matches or if everything in it that the
ballot uses (`mbal`, `bal`, `inp`, `lver`) is zero, like in a block never written. -/
theorem verifyDblock_sound (e : Endian) (buf : List UInt8) (h : verifyDblock e buf = true) :
    (dblockIn e buf).checksum = dblockChecksum buf ∨
      ((dblockIn e buf).mbal = 0 ∧ (dblockIn e buf).bal = 0 ∧ (dblockIn e buf).inp = 0 ∧
        (dblockIn e buf).lver = 0) := by
  simp only [verifyDblock] at h
  split at h
  · rename_i hz
    simp only [Bool.and_eq_true, beq_iff_eq] at hz
    obtain ⟨⟨⟨⟨_, h2⟩, h3⟩, h4⟩, h5⟩ := hz
    exact Or.inr ⟨h2, h3, h4, h5⟩
  · left; simpa using h

theorem getField_bits (e : Endian) (off n : Nat) (a b : List UInt8) (ha : off + n ≤ a.length)
    (hb : off + n ≤ b.length) (h : ∀ i, 8 * off ≤ i → i < 8 * (off + n) → bit a i = bit b i) :
    getField e off n a = getField e off n b := by
  rw [getField_leVal e off n a ha, getField_leVal e off n b hb]
  congr 1
  apply bitsOf_inj (by simp; omega)
  apply List.ext_getElem
  · rw [bitsOf_length, bitsOf_length]; simp; omega
  · intro i h1 h2
    have hbit : ∀ l : List UInt8, i < 8 * n → bit ((l.drop off).take n) i = bit l (8 * off + i) := by
      intro l hi
      rw [bit_take _ _ _ hi]
      simp only [bit, List.getD_eq_getElem?_getD, List.getElem?_drop]
      have h3 : (8 * off + i) / 8 = off + i / 8 := by omega
      have h4 : (8 * off + i) % 8 = i % 8 := by omega
      rw [h3, h4]
    have hi : i < 8 * n := by
      rw [bitsOf_length] at h1; simp at h1; omega
    have e1 := bitsOf_getD ((a.drop off).take n) i
    have e2 := bitsOf_getD ((b.drop off).take n) i
    rw [hbit _ hi] at e1 e2
    have := h (8 * off + i) (by omega) (by omega)
    rw [this, ← e2] at e1
    simpa [List.getD_eq_getElem?_getD, List.getElem?_eq_getElem h1, List.getElem?_eq_getElem h2]
      using e1

/-- C07, ballot block: a corruption confined to 32 consecutive bits of a block that takes part in a
ballot (`mbal` and `lver` non-zero, as in every block `run_ballot` writes) is detected. -/
theorem dblock_burst_detected (e : Endian) (buf buf' : List UInt8) (n : Nat)
    (hlen : 52 ≤ buf.length) (hlen' : 52 ≤ buf'.length)
    (hmbal : (dblockIn e buf).mbal ≠ 0) (hlver : (dblockIn e buf).lver ≠ 0)
    (hok : verifyDblock e buf = true)
    (hburst : DiffersOnlyIn32 52 n buf buf')
    (hdiff : buf.take 52 ≠ buf'.take 52) :
    verifyDblock e buf' = false := by
  rw [← Bool.not_eq_true]
  intro hok'
  rcases verifyDblock_sound e buf hok with hc | ⟨h1, _⟩
  · rcases verifyDblock_sound e buf' hok' with hc' | ⟨h1, _, _, h4⟩
    · rw [dblockOk_residue e _ hlen] at hc
      rw [dblockOk_residue e _ hlen'] at hc'
      apply hdiff
      refine burst_eq _ _ (by simp; omega) n ?_ hc hc'
      intro i hi ho
      have h52 : (buf.take 52).length = 52 := by simp; omega
      rw [h52] at hi
      rw [bit_take _ _ _ hi, bit_take _ _ _ hi]
      exact hburst i hi ho
    · by_cases hn : n < 64
      · apply hlver
        rw [← h4]
        simp only [dblockIn]
        rw [getField_bits e 40 8 buf buf' (by omega) (by omega)]
        intro i hi1 hi2
        exact hburst i (by omega) (by omega)
      · apply hmbal
        rw [← h1]
        simp only [dblockIn]
        rw [getField_bits e 0 8 buf buf' (by omega) (by omega)]
        intro i hi1 hi2
        exact hburst i (by omega) (by omega)
  · exact hmbal h1

/-- The flags word of a ballot block (which carries the "released" mark) is outside the checksum:
no change of it is noticed. -/
theorem dblock_flags_unprotected (e : Endian) (d : Dblock) (f : UInt32) :
    ∃ buf : List UInt8, buf.take 52 = (dblockWrite e d).take 52 ∧
      (dblockIn e buf).flags = f ∧ verifyDblock e buf = true := by
  refine ⟨dblockWrite e { d with flags := f }, ?_, ?_, ?_⟩
  · have h := dblockHead_len e d
    have h2 := dblockHead_len e { d with flags := f }
    have hh : dblockHead e { d with flags := f } = dblockHead e d := rfl
    simp only [dblockWrite, dblockChecksum, dblockOut]
    rw [hh, take_head _ _ _ h, take_head _ _ _ h]
    simp [List.take_append, h]
  · cases d
    simp [dblockIn, dblockWrite, dblockOut, dblockHead, getField_zero, getField_zero', getField_skip]
  · have := written_dblock_verifies e e { d with flags := f } []
    simpa using this

/-! ## Non-vacuity -/

def exDblock : Dblock := { mbal := 5, bal := 5, inp := 3, inp2 := 1, inp3 := 77, lver := 9, checksum := 0, flags := 0 }

set_option maxRecDepth 20000 in
/-- A one-byte error in `inp` of a written block: all hypotheses of `dblock_burst_detected` hold. -/
example : (dblockIn .little (dblockWrite .little exDblock)).mbal ≠ 0 ∧
    (dblockIn .little (dblockWrite .little exDblock)).lver ≠ 0 ∧
    verifyDblock .little (dblockWrite .little exDblock) = true ∧
    (dblockWrite .little exDblock).take 52 ≠ ((dblockWrite .little exDblock).set 16 4).take 52 ∧
    verifyDblock .little ((dblockWrite .little exDblock).set 16 4) = false := by
  decide

example (a : List UInt8) (v : UInt8) : DiffersOnlyIn32 52 128 a (a.set 16 v) := by
  intro i hi ho
  simp only [bit, List.getD_eq_getElem?_getD]
  rw [List.getElem?_set_ne (by omega)]

def exName : Name := ⟨List.replicate 48 65, by simp⟩

def exLeader : Leader := {
  magic := 0x06152010, version := 0x00060004, flags := 0x10, sectorSize := 512, numHosts := 2000,
  maxHosts := 2000, ownerId := 1, ownerGeneration := 3, lver := 5, spaceName := exName,
  resourceName := exName, timestamp := 1000, unused1 := 0, checksum := 0, unused2 := 0,
  ioTimeout := 10, writeId := 1, writeGeneration := 3, writeTimestamp := 1000 }

set_option maxRecDepth 20000 in
example : leaderChecksumOk .big (leaderWrite .little exLeader) = true ∧
    leaderChecksumOk .big ((leaderWrite .little exLeader).set 32 2) = false := by
  decide

end Sanlock.Crc
