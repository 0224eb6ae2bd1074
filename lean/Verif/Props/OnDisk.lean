import Verif.OnDisk

/-!
# C06: on-disk structures survive a write and a read

A structure written by a host of byte order `e₁` and read by a host of byte order `e₂` is read back
unchanged, whatever follows it in the sector.
-/

namespace Sanlock.OnDisk

/-- C06, leader record.  The checksum read back is the one that was stored. -/
theorem leader_roundtrip (e₁ e₂ : Endian) (l : Leader) (ck : UInt32) (rest : List UInt8) :
    leaderIn e₂ (leaderOut e₁ l ck ++ rest) = { l with checksum := ck } := by
  have h1 := l.spaceName.len
  have h2 := l.resourceName.len
  cases l
  simp only at h1 h2
  simp [leaderIn, leaderOut, leaderHead, putField_eq e₁, ← putField_eq e₂, List.append_assoc,
    getField_zero, getField_skip, getName_zero, getName_skip, h1, h2]

/-- C06, request record. -/
theorem request_roundtrip (e₁ e₂ : Endian) (r : Request) (rest : List UInt8) :
    requestIn e₂ (requestOut e₁ r ++ rest) = r := by
  cases r
  simp [requestIn, requestOut, putField_eq e₁, ← putField_eq e₂, List.append_assoc,
    getField_zero, getField_skip]

/-- C06, ballot block. -/
theorem dblock_roundtrip (e₁ e₂ : Endian) (d : Dblock) (ck : UInt32) (rest : List UInt8) :
    dblockIn e₂ (dblockOut e₁ d ck ++ rest) = { d with checksum := ck } := by
  cases d
  simp [dblockIn, dblockOut, dblockHead, putField_eq e₁, ← putField_eq e₂, List.append_assoc,
    getField_zero, getField_skip]

/-- C06, mode block. -/
theorem modeBlock_roundtrip (e₁ e₂ : Endian) (m : ModeBlock) (rest : List UInt8) :
    modeBlockIn e₂ (modeBlockOut e₁ m ++ rest) = m := by
  cases m
  simp only [modeBlockIn, modeBlockOut, putField_eq e₁, ← putField_eq e₂, List.append_assoc,
    getField_zero]
  rw [getField_skip _ _ _ _ _ (by simp), getField_skip _ _ _ _ _ (by simp)]
  simp [getField_zero]

/-- C06, resource-index header. -/
theorem rindexHeader_roundtrip (e₁ e₂ : Endian) (h : RindexHeader) (rest : List UInt8) :
    rindexHeaderIn e₂ (rindexHeaderOut e₁ h ++ rest) = h := by
  have h1 := h.lockspaceName.len
  cases h
  simp [rindexHeaderIn, rindexHeaderOut, putField_eq e₁, ← putField_eq e₂, List.append_assoc,
    getField_zero, getField_skip, getName_zero, getName_skip]

/-- C06, resource-index entry. -/
theorem rindexEntry_roundtrip (e₁ e₂ : Endian) (r : RindexEntry) (rest : List UInt8) :
    rindexEntryIn e₂ (rindexEntryOut e₁ r ++ rest) = r := by
  cases r
  simp [rindexEntryIn, rindexEntryOut, putField_eq e₁, ← putField_eq e₂, List.append_assoc,
    getField_zero, getField_skip, getName_zero, getName_skip]

/-- C06: the bytes on disk do not depend on the byte order of the writing host. -/
theorem encodings_portable (e₁ e₂ : Endian) :
    (∀ l ck, leaderOut e₁ l ck = leaderOut e₂ l ck) ∧
    (∀ r, requestOut e₁ r = requestOut e₂ r) ∧
    (∀ d ck, dblockOut e₁ d ck = dblockOut e₂ d ck) ∧
    (∀ m, modeBlockOut e₁ m = modeBlockOut e₂ m) ∧
    (∀ h, rindexHeaderOut e₁ h = rindexHeaderOut e₂ h) ∧
    (∀ r, rindexEntryOut e₁ r = rindexEntryOut e₂ r) := by
  refine ⟨?_, ?_, ?_, ?_, ?_, ?_⟩ <;> intros <;>
    simp [leaderOut, leaderHead, requestOut, dblockOut, dblockHead, modeBlockOut, rindexHeaderOut,
      rindexEntryOut, putField_eq]

/-- C06: encoded sizes.  A leader record fits into `LEADER_RECORD_MAX` (256) bytes so that it does not
touch the bitmap in the second half of the sector, the checksum follows byte 168, the dblock fits below
the mode block at offset 128, and an index entry has the fixed size 64. -/
theorem encodings_length (e : Endian) :
    (∀ l ck, (leaderOut e l ck).length = 200) ∧ (∀ l, (leaderHead e l).length = 168) ∧
    (∀ r, (requestOut e r).length = 20) ∧
    (∀ d ck, (dblockOut e d ck).length = 56) ∧ (∀ d, (dblockHead e d).length = 48) ∧
    (∀ m, (modeBlockOut e m).length = 16) ∧ (∀ h, (rindexHeaderOut e h).length = 80) ∧
    (∀ r, (rindexEntryOut e r).length = 64) := by
  refine ⟨?_, ?_, ?_, ?_, ?_, ?_, ?_, ?_⟩ <;> intro x <;> try intro ck
  · have h1 := x.spaceName.len; have h2 := x.resourceName.len
    simp [leaderOut, leaderHead, h1, h2]
  · have h1 := x.spaceName.len; have h2 := x.resourceName.len
    simp [leaderHead, h1, h2]
  · simp [requestOut]
  · simp [dblockOut, dblockHead]
  · simp [dblockHead]
  · simp [modeBlockOut]
  · have h1 := x.lockspaceName.len
    simp [rindexHeaderOut, h1]
  · have h1 := x.name.len
    simp [rindexEntryOut, h1]

/-- C06: first byte of a field, independently of the decoder: the owner id is the little-endian number in
bytes 32-39 of the record. -/
theorem leader_owner_at_32 (e : Endian) (l : Leader) (ck : UInt32) :
    ((leaderOut e l ck).drop 32).take 8 = leBytes 8 l.ownerId.toNat := by
  simp [leaderOut, leaderHead, putField_eq, List.append_assoc, List.drop_append,
    List.drop_eq_nil_of_le]

/-- C06: the comparison of leader records used when counting copies (`leaders_match`,
`src/paxos_lease.c:1064`, a `memcmp` of the first 152 bytes) identifies exactly the records equal in all
fields before the timestamp. -/
theorem leader_compare_prefix (e : Endian) (l m : Leader) (c d : UInt32) :
    ((leaderOut e l c).take 152 = (leaderOut e m d).take 152) ↔
      (l.magic = m.magic ∧ l.version = m.version ∧ l.flags = m.flags ∧ l.sectorSize = m.sectorSize ∧
       l.numHosts = m.numHosts ∧ l.maxHosts = m.maxHosts ∧ l.ownerId = m.ownerId ∧
       l.ownerGeneration = m.ownerGeneration ∧ l.lver = m.lver ∧ l.spaceName = m.spaceName ∧
       l.resourceName = m.resourceName) := by
  constructor
  · intro h
    -- replace the tails by those of a common record: the prefixes determine the decoded fields
    have key : ∀ (x : Leader) (k : UInt32),
        leaderIn e ((leaderOut e x k).take 152) =
          { x with timestamp := 0, unused1 := 0, checksum := 0, unused2 := 0, ioTimeout := 0,
                   writeId := 0, writeGeneration := 0, writeTimestamp := 0 } := by
      intro x k
      have h1 := x.spaceName.len
      have h2 := x.resourceName.len
      have ht : (leaderOut e x k).take 152 =
          putField e 4 x.magic.toNat ++ (putField e 4 x.version.toNat ++ (putField e 4 x.flags.toNat ++
          (putField e 4 x.sectorSize.toNat ++ (putField e 8 x.numHosts.toNat ++
          (putField e 8 x.maxHosts.toNat ++ (putField e 8 x.ownerId.toNat ++
          (putField e 8 x.ownerGeneration.toNat ++ (putField e 8 x.lver.toNat ++
          (x.spaceName.bytes ++ x.resourceName.bytes))))))))) := by
        simp [leaderOut, leaderHead, List.append_assoc, List.take_append, List.take_of_length_le,
          h1, h2]
      have hnil : ∀ off n, getField e off n [] = 0 := by
        intro off n; cases e
        · simp [getField, loadNative, leVal, leToCpu, cpuToLe]
        · have : ∀ n, leVal (leBytes n 0).reverse = 0 := by
            intro n
            have hz : ∀ n, leBytes n 0 = List.replicate n 0 := by
              intro n; induction n with
              | zero => rfl
              | succ n ih => simp [leBytes, ih, List.replicate_succ]
            rw [hz, List.reverse_replicate]
            induction n with
            | zero => rfl
            | succ n ih => simp [List.replicate_succ, leVal, ih]
          simp [getField, loadNative, leVal, leToCpu, cpuToLe, bswap, this]
      rw [ht]
      have hnil' : ∀ (off n : Nat) (a : List UInt8), a.length ≤ off → getField e off n a = 0 := by
        intro off n a ha
        rw [← List.append_nil a, getField_skip _ _ _ _ _ ha, hnil]
      cases x
      simp only at h1 h2
      simp [leaderIn, getField_zero, getField_skip, getName_zero, getName_zero', getName_skip, h1, h2,
        hnil']
    have hk := congrArg (leaderIn e) h
    rw [key, key] at hk
    injection hk
    refine ⟨?_, ?_, ?_, ?_, ?_, ?_, ?_, ?_, ?_, ?_, ?_⟩ <;> assumption
  · rintro ⟨h1, h2, h3, h4, h5, h6, h7, h8, h9, h10, h11⟩
    have n1 := m.spaceName.len
    have n2 := m.resourceName.len
    simp [leaderOut, leaderHead, List.append_assoc, List.take_append, h1, h2, h3, h4, h5, h6, h7, h8,
      h9, h10, h11, n1, n2]

/-- Non-vacuity: a concrete ballot block written on a big endian host and read on a little endian one. -/
example : dblockIn .little (dblockOut .big ⟨5, 3, 7, 1, 99, 2, 0, 1⟩ 77) = ⟨5, 3, 7, 1, 99, 2, 77, 1⟩ := by
  decide

example : dblockOut .big ⟨5, 3, 7, 1, 99, 258, 0, 1⟩ 77 =
    [5,0,0,0,0,0,0,0, 3,0,0,0,0,0,0,0, 7,0,0,0,0,0,0,0, 1,0,0,0,0,0,0,0, 99,0,0,0,0,0,0,0,
     2,1,0,0,0,0,0,0, 77,0,0,0, 1,0,0,0] := by decide

end Sanlock.OnDisk
