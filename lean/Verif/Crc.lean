import Verif.OnDisk

/-!
# CRC-32C

Models `src/crc32c.c` with the literal table of lines 22-87, and the checksum functions of
`src/paxos_lease.c:66-74`.  `uint32_t` is `BitVec 32`.
-/

namespace Sanlock.Crc

open Sanlock.OnDisk

/-- `crc32c_table` (`src/crc32c.c:22-87`), copied literally. -/
def table : List (BitVec 32) := [
  0x00000000, 0xF26B8303, 0xE13B70F7, 0x1350F3F4, 0xC79A971F, 0x35F1141C, 0x26A1E7E8, 0xD4CA64EB,
  0x8AD958CF, 0x78B2DBCC, 0x6BE22838, 0x9989AB3B, 0x4D43CFD0, 0xBF284CD3, 0xAC78BF27, 0x5E133C24,
  0x105EC76F, 0xE235446C, 0xF165B798, 0x030E349B, 0xD7C45070, 0x25AFD373, 0x36FF2087, 0xC494A384,
  0x9A879FA0, 0x68EC1CA3, 0x7BBCEF57, 0x89D76C54, 0x5D1D08BF, 0xAF768BBC, 0xBC267848, 0x4E4DFB4B,
  0x20BD8EDE, 0xD2D60DDD, 0xC186FE29, 0x33ED7D2A, 0xE72719C1, 0x154C9AC2, 0x061C6936, 0xF477EA35,
  0xAA64D611, 0x580F5512, 0x4B5FA6E6, 0xB93425E5, 0x6DFE410E, 0x9F95C20D, 0x8CC531F9, 0x7EAEB2FA,
  0x30E349B1, 0xC288CAB2, 0xD1D83946, 0x23B3BA45, 0xF779DEAE, 0x05125DAD, 0x1642AE59, 0xE4292D5A,
  0xBA3A117E, 0x4851927D, 0x5B016189, 0xA96AE28A, 0x7DA08661, 0x8FCB0562, 0x9C9BF696, 0x6EF07595,
  0x417B1DBC, 0xB3109EBF, 0xA0406D4B, 0x522BEE48, 0x86E18AA3, 0x748A09A0, 0x67DAFA54, 0x95B17957,
  0xCBA24573, 0x39C9C670, 0x2A993584, 0xD8F2B687, 0x0C38D26C, 0xFE53516F, 0xED03A29B, 0x1F682198,
  0x5125DAD3, 0xA34E59D0, 0xB01EAA24, 0x42752927, 0x96BF4DCC, 0x64D4CECF, 0x77843D3B, 0x85EFBE38,
  0xDBFC821C, 0x2997011F, 0x3AC7F2EB, 0xC8AC71E8, 0x1C661503, 0xEE0D9600, 0xFD5D65F4, 0x0F36E6F7,
  0x61C69362, 0x93AD1061, 0x80FDE395, 0x72966096, 0xA65C047D, 0x5437877E, 0x4767748A, 0xB50CF789,
  0xEB1FCBAD, 0x197448AE, 0x0A24BB5A, 0xF84F3859, 0x2C855CB2, 0xDEEEDFB1, 0xCDBE2C45, 0x3FD5AF46,
  0x7198540D, 0x83F3D70E, 0x90A324FA, 0x62C8A7F9, 0xB602C312, 0x44694011, 0x5739B3E5, 0xA55230E6,
  0xFB410CC2, 0x092A8FC1, 0x1A7A7C35, 0xE811FF36, 0x3CDB9BDD, 0xCEB018DE, 0xDDE0EB2A, 0x2F8B6829,
  0x82F63B78, 0x709DB87B, 0x63CD4B8F, 0x91A6C88C, 0x456CAC67, 0xB7072F64, 0xA457DC90, 0x563C5F93,
  0x082F63B7, 0xFA44E0B4, 0xE9141340, 0x1B7F9043, 0xCFB5F4A8, 0x3DDE77AB, 0x2E8E845F, 0xDCE5075C,
  0x92A8FC17, 0x60C37F14, 0x73938CE0, 0x81F80FE3, 0x55326B08, 0xA759E80B, 0xB4091BFF, 0x466298FC,
  0x1871A4D8, 0xEA1A27DB, 0xF94AD42F, 0x0B21572C, 0xDFEB33C7, 0x2D80B0C4, 0x3ED04330, 0xCCBBC033,
  0xA24BB5A6, 0x502036A5, 0x4370C551, 0xB11B4652, 0x65D122B9, 0x97BAA1BA, 0x84EA524E, 0x7681D14D,
  0x2892ED69, 0xDAF96E6A, 0xC9A99D9E, 0x3BC21E9D, 0xEF087A76, 0x1D63F975, 0x0E330A81, 0xFC588982,
  0xB21572C9, 0x407EF1CA, 0x532E023E, 0xA145813D, 0x758FE5D6, 0x87E466D5, 0x94B49521, 0x66DF1622,
  0x38CC2A06, 0xCAA7A905, 0xD9F75AF1, 0x2B9CD9F2, 0xFF56BD19, 0x0D3D3E1A, 0x1E6DCDEE, 0xEC064EED,
  0xC38D26C4, 0x31E6A5C7, 0x22B65633, 0xD0DDD530, 0x0417B1DB, 0xF67C32D8, 0xE52CC12C, 0x1747422F,
  0x49547E0B, 0xBB3FFD08, 0xA86F0EFC, 0x5A048DFF, 0x8ECEE914, 0x7CA56A17, 0x6FF599E3, 0x9D9E1AE0,
  0xD3D3E1AB, 0x21B862A8, 0x32E8915C, 0xC083125F, 0x144976B4, 0xE622F5B7, 0xF5720643, 0x07198540,
  0x590AB964, 0xAB613A67, 0xB831C993, 0x4A5A4A90, 0x9E902E7B, 0x6CFBAD78, 0x7FAB5E8C, 0x8DC0DD8F,
  0xE330A81A, 0x115B2B19, 0x020BD8ED, 0xF0605BEE, 0x24AA3F05, 0xD6C1BC06, 0xC5914FF2, 0x37FACCF1,
  0x69E9F0D5, 0x9B8273D6, 0x88D28022, 0x7AB90321, 0xAE7367CA, 0x5C18E4C9, 0x4F48173D, 0xBD23943E,
  0xF36E6F75, 0x0105EC76, 0x12551F82, 0xE03E9C81, 0x34F4F86A, 0xC69F7B69, 0xD5CF889D, 0x27A40B9E,
  0x79B737BA, 0x8BDCB4B9, 0x988C474D, 0x6AE7C44E, 0xBE2DA0A5, 0x4C4623A6, 0x5F16D052, 0xAD7D5351]

/-- One iteration of the loop of `crc32c` (`src/crc32c.c:97-98`):
`crc = crc32c_table[(crc ^ *data++) & 0xFFL] ^ (crc >> 8)`. -/
def crcByte (crc : BitVec 32) (b : UInt8) : BitVec 32 :=
  table.getD ((crc ^^^ b.toBitVec.setWidth 32) &&& 0xFF#32).toNat 0 ^^^ (crc >>> 8)

/-- `crc32c(crc, data, length)` (`src/crc32c.c:95-101`). -/
def crc32c (crc : BitVec 32) (data : List UInt8) : BitVec 32 := data.foldl crcByte crc

/-- `leader_checksum` (`src/paxos_lease.c:66-69`): `crc32c((uint32_t)~1, lr, LEADER_CHECKSUM_LEN)`; the
argument is the encoded record.  `delta_lease.c` uses the same function. -/
def leaderChecksum (buf : List UInt8) : UInt32 := ⟨crc32c 0xFFFFFFFE#32 (buf.take 168)⟩

/-- `dblock_checksum` (`src/paxos_lease.c:71-74`). -/
def dblockChecksum (buf : List UInt8) : UInt32 := ⟨crc32c 0xFFFFFFFE#32 (buf.take 48)⟩

/-- Encoding of a leader with its checksum, as the `write_leader` functions do
(`src/paxos_lease.c:248-269`, `src/delta_lease.c:484-490`): convert, compute over the converted
structure, store. -/
def leaderWrite (e : Endian) (l : Leader) : List UInt8 :=
  leaderOut e l (leaderChecksum (leaderOut e l 0))

/-- Encoding of a dblock with its checksum (`write_dblock`, `src/paxos_lease.c:216-246`). -/
def dblockWrite (e : Endian) (d : Dblock) : List UInt8 :=
  dblockOut e d (dblockChecksum (dblockOut e d 0))

/-- The checksum test of `_verify_leader` (`src/paxos_lease.c:1020-1032`). -/
def leaderChecksumOk (e : Endian) (buf : List UInt8) : Bool :=
  (leaderIn e buf).checksum == leaderChecksum buf

/-- `verify_dblock` (`src/paxos_lease.c:392-404`): an all-zero block is accepted, otherwise the checksum
must match. -/
def verifyDblock (e : Endian) (buf : List UInt8) : Bool :=
  let pd := dblockIn e buf
  if pd.checksum == 0 && pd.mbal == 0 && pd.bal == 0 && pd.inp == 0 && pd.lver == 0 then true
  else pd.checksum == dblockChecksum buf

/-! ## The bit-serial view and its algebra -/

/-- Multiplication by `x` modulo the (reflected) CRC-32C polynomial. -/
def shift1 (c : BitVec 32) : BitVec 32 :=
  (c >>> 1) ^^^ (if c.getLsbD 0 then 0x82F63B78#32 else 0)

def shiftN : Nat → BitVec 32 → BitVec 32
  | 0, c => c
  | n + 1, c => shiftN n (shift1 c)

theorem shift1_xor (a b : BitVec 32) : shift1 (a ^^^ b) = shift1 a ^^^ shift1 b := by
  unfold shift1
  rw [BitVec.ushiftRight_xor_distrib, BitVec.getLsbD_xor]
  cases a.getLsbD 0 <;> cases b.getLsbD 0 <;> simp
  · rw [BitVec.xor_assoc]
  · rw [BitVec.xor_assoc, BitVec.xor_assoc, BitVec.xor_comm (b >>> 1)]
  · rw [← BitVec.xor_assoc (a >>> 1 ^^^ _), BitVec.xor_assoc (a >>> 1),
      BitVec.xor_comm (0x82F63B78#32) (b >>> 1), ← BitVec.xor_assoc, BitVec.xor_assoc]
    simp

theorem shiftN_xor (n : Nat) (a b : BitVec 32) :
    shiftN n (a ^^^ b) = shiftN n a ^^^ shiftN n b := by
  induction n generalizing a b with
  | zero => rfl
  | succ n ih => simp only [shiftN, shift1_xor, ih]

theorem shift1_zero : shift1 0 = 0 := by decide

theorem shiftN_zero (n : Nat) : shiftN n 0 = 0 := by
  induction n with
  | zero => rfl
  | succ n ih => simp only [shiftN, shift1_zero, ih]

theorem shiftN_add (m n : Nat) (c : BitVec 32) : shiftN (m + n) c = shiftN n (shiftN m c) := by
  induction m generalizing c with
  | zero => simp [shiftN]
  | succ m ih => rw [Nat.add_right_comm]; simp only [shiftN, ih]

/-- Multiplication by `x` is injective because the polynomial has a constant term. -/
theorem shift1_eq_zero {c : BitVec 32} (h : shift1 c = 0) : c = 0 := by
  have h31 : (shift1 c).getLsbD 31 = c.getLsbD 0 := by
    unfold shift1
    rw [BitVec.getLsbD_xor, BitVec.getLsbD_ushiftRight]
    have : c.getLsbD (1 + 31) = false := BitVec.getLsbD_of_ge _ _ (by omega)
    rw [this]
    cases c.getLsbD 0 <;> decide
  have h0 : c.getLsbD 0 = false := by rw [← h31, h]; simp
  have hs : c >>> 1 = 0 := by
    unfold shift1 at h; rw [h0] at h; simpa using h
  apply BitVec.eq_of_getLsbD_eq
  intro i hi
  cases i with
  | zero => simpa using h0
  | succ i =>
    have := congrArg (fun v => v.getLsbD i) hs
    simp only [BitVec.getLsbD_ushiftRight] at this
    rw [Nat.add_comm] at this
    simpa using this

theorem shiftN_eq_zero {n : Nat} {c : BitVec 32} (h : shiftN n c = 0) : c = 0 := by
  induction n generalizing c with
  | zero => exact h
  | succ n ih => exact shift1_eq_zero (ih h)

theorem shift1_shl (u : BitVec 32) (hu : u.getLsbD 31 = false) : shift1 (u <<< 1) = u := by
  have h0 : (u <<< 1).getLsbD 0 = false := by simp
  unfold shift1
  rw [h0]
  simp only [Bool.false_eq_true, if_false]
  apply BitVec.eq_of_getLsbD_eq
  intro i hi
  rw [BitVec.getLsbD_xor, BitVec.getLsbD_ushiftRight, BitVec.getLsbD_shiftLeft]
  have h3 : 1 + i - 1 = i := by omega
  have h2 : ¬ (1 + i < 1) := by omega
  rw [h3]
  by_cases h4 : 1 + i < 32
  · simp [h4, h2]
  · have : i = 31 := by omega
    subst this
    rw [hu]; simp

theorem shl_shl (u : BitVec 32) (k : Nat) : u <<< (k + 1) = (u <<< k) <<< 1 := by
  rw [BitVec.shiftLeft_add]

theorem shiftN_shl (u : BitVec 32) (k : Nat) (hu : ∀ i, 32 ≤ i + k → u.getLsbD i = false) :
    shiftN k (u <<< k) = u := by
  induction k with
  | zero => simp [shiftN]
  | succ k ih =>
    simp only [shiftN]
    rw [shl_shl, shift1_shl, ih (fun i hi => hu i (by omega))]
    rw [BitVec.getLsbD_shiftLeft]
    by_cases h : 31 < k
    · simp [h]
    · rw [hu (31 - k) (by omega)]; simp

set_option maxRecDepth 100000 in
/-- Every entry of the literal table is the CRC of its index. -/
theorem table_spec : ∀ i : Fin 256, table.getD i.val 0 = shiftN 8 (BitVec.ofNat 32 i.val) := by
  decide

theorem table_shift (t : BitVec 32) :
    table.getD (t &&& 0xFF#32).toNat 0 ^^^ (t >>> 8) = shiftN 8 t := by
  have hlt : (t &&& 0xFF#32).toNat < 256 := by
    rw [BitVec.toNat_and]
    have : (0xFF#32).toNat = 2 ^ 8 - 1 := rfl
    rw [this, Nat.and_two_pow_sub_one_eq_mod]
    exact Nat.mod_lt _ (by decide)
  have h1 := table_spec ⟨_, hlt⟩
  simp only at h1
  rw [h1]
  have h2 : BitVec.ofNat 32 (t &&& 0xFF#32).toNat = t &&& 0xFF#32 := by simp
  rw [h2]
  have h3 : shiftN 8 ((t >>> 8) <<< 8) = t >>> 8 := by
    apply shiftN_shl
    intro i hi
    rw [BitVec.getLsbD_ushiftRight]
    exact BitVec.getLsbD_of_ge _ _ (by omega)
  rw [← h3, ← shiftN_xor]
  congr 1
  apply BitVec.eq_of_getLsbD_eq
  intro i hi
  have hff : (0xFF#32).getLsbD i = decide (i < 8) := by
    have hx : ∀ j : Fin 32, (0xFF#32).getLsbD j.val = decide (j.val < 8) := by decide
    exact hx ⟨i, hi⟩
  simp only [BitVec.getLsbD_xor, BitVec.getLsbD_and, BitVec.getLsbD_shiftLeft,
    BitVec.getLsbD_ushiftRight, hff]
  by_cases h : i < 8
  · simp [h]
  · have : 8 + (i - 8) = i := by omega
    simp [h, this, hi]

/-- The table-driven step equals eight bit steps. -/
theorem crcByte_eq (c : BitVec 32) (b : UInt8) :
    crcByte c b = shiftN 8 (c ^^^ b.toBitVec.setWidth 32) := by
  rw [← table_shift]
  unfold crcByte
  congr 1
  rw [BitVec.ushiftRight_xor_distrib]
  have : b.toBitVec.setWidth 32 >>> 8 = 0 := by
    apply BitVec.eq_of_getLsbD_eq
    intro i hi
    simp only [BitVec.getLsbD_ushiftRight, BitVec.getLsbD_setWidth]
    simp
  rw [this]; simp

/-- A bit as a word. -/
def bit1 (b : Bool) : BitVec 32 := if b then 1#32 else 0#32

/-- Feed one bit. -/
def crcBit (c : BitVec 32) (b : Bool) : BitVec 32 := shift1 (c ^^^ bit1 b)

/-- Feed a list of bits. -/
def crcBits (c : BitVec 32) (l : List Bool) : BitVec 32 := l.foldl crcBit c

/-- The word whose bit `i` is the `i`-th element. -/
def word : List Bool → BitVec 32
  | [] => 0
  | b :: l => bit1 b ^^^ (word l <<< 1)

theorem one_getLsbD (i : Nat) (hi : i < 32) : (1#32).getLsbD i = decide (i = 0) := by
  have hx : ∀ j : Fin 32, (1#32).getLsbD j.val = decide (j.val = 0) := by decide
  exact hx ⟨i, hi⟩

theorem word_getLsbD (l : List Bool) (i : Nat) (hi : i < 32) :
    (word l).getLsbD i = l.getD i false := by
  induction l generalizing i with
  | nil => simp [word]
  | cons b l ih =>
    rw [word, BitVec.getLsbD_xor, BitVec.getLsbD_shiftLeft]
    cases i with
    | zero => cases b <;> simp [bit1]
    | succ i =>
      have h1 : (bit1 b).getLsbD (i + 1) = false := by
        cases b
        · simp [bit1]
        · simp only [bit1, if_true]; rw [one_getLsbD _ hi]; simp
      rw [h1, Nat.add_sub_cancel, ih i (by omega)]
      simp [hi]

theorem crcBits_word (c : BitVec 32) (l : List Bool) (hl : l.length ≤ 32) :
    crcBits c l = shiftN l.length (c ^^^ word l) := by
  induction l generalizing c with
  | nil => simp [crcBits, word, shiftN]
  | cons b l ih =>
    simp only [List.length_cons] at hl
    have : crcBits c (b :: l) = crcBits (crcBit c b) l := rfl
    rw [this, ih _ (by omega), List.length_cons]
    simp only [shiftN, word]
    congr 1
    rw [← BitVec.xor_assoc, shift1_xor _ (word l <<< 1), shift1_shl]
    · rfl
    · rw [word_getLsbD _ _ (by omega)]
      simp only [List.getD_eq_getElem?_getD]
      rw [List.getElem?_eq_none (by omega)]
      rfl

/-- The bits of a byte, least significant first. -/
def byteBits (b : UInt8) : List Bool := (List.range 8).map fun i => b.toBitVec.getLsbD i

/-- The bits of a byte string, in the order the CRC consumes them. -/
def bitsOf (l : List UInt8) : List Bool := l.flatMap byteBits

theorem byteBits_length (b : UInt8) : (byteBits b).length = 8 := by simp [byteBits]

theorem byteBits_getD (b : UInt8) (i : Nat) (hi : i < 8) :
    (byteBits b).getD i false = b.toBitVec.getLsbD i := by
  simp [byteBits, List.getD_eq_getElem?_getD, hi]

theorem word_byteBits (b : UInt8) : word (byteBits b) = b.toBitVec.setWidth 32 := by
  apply BitVec.eq_of_getLsbD_eq
  intro i hi
  rw [word_getLsbD _ _ hi, BitVec.getLsbD_setWidth]
  by_cases h : i < 8
  · rw [byteBits_getD _ _ h]; simp [hi]
  · simp only [List.getD_eq_getElem?_getD]
    rw [List.getElem?_eq_none (by rw [byteBits_length]; omega),
      BitVec.getLsbD_of_ge _ _ (by omega)]
    simp

theorem crcBits_append (c : BitVec 32) (l m : List Bool) :
    crcBits c (l ++ m) = crcBits (crcBits c l) m := by
  simp [crcBits, List.foldl_append]

/-- The table-driven byte CRC is the bit-serial CRC of the bits. -/
theorem crc32c_bits (c : BitVec 32) (l : List UInt8) : crc32c c l = crcBits c (bitsOf l) := by
  induction l generalizing c with
  | nil => rfl
  | cons b l ih =>
    have h1 : crc32c c (b :: l) = crc32c (crcByte c b) l := rfl
    have h2 : bitsOf (b :: l) = byteBits b ++ bitsOf l := by simp [bitsOf]
    rw [h1, ih, h2, crcBits_append]
    congr 1
    rw [crcBits_word _ _ (by rw [byteBits_length]; omega), byteBits_length, word_byteBits,
      crcByte_eq]

/-! ## Linearity -/

/-- Bitwise difference of two bit lists. -/
def xorBits (l m : List Bool) : List Bool := List.zipWith (fun a b => a ^^ b) l m

theorem bit1_xor (a b : Bool) : bit1 (a ^^ b) = bit1 a ^^^ bit1 b := by
  cases a <;> cases b <;> decide

theorem xor4 (a b c d : BitVec 32) : (a ^^^ b) ^^^ (c ^^^ d) = (a ^^^ c) ^^^ (b ^^^ d) := by
  rw [BitVec.xor_assoc, BitVec.xor_assoc, ← BitVec.xor_assoc b, BitVec.xor_comm b c,
    BitVec.xor_assoc c]

theorem crcBits_linear (c d : BitVec 32) (l m : List Bool) (h : l.length = m.length) :
    crcBits c l ^^^ crcBits d m = crcBits (c ^^^ d) (xorBits l m) := by
  induction l generalizing c d m with
  | nil =>
    cases m with
    | nil => rfl
    | cons => simp at h
  | cons a l ih =>
    cases m with
    | nil => simp at h
    | cons b m =>
      have h1 : crcBits c (a :: l) = crcBits (crcBit c a) l := rfl
      have h2 : crcBits d (b :: m) = crcBits (crcBit d b) m := rfl
      have h3 : xorBits (a :: l) (b :: m) = (a ^^ b) :: xorBits l m := rfl
      have h4 : crcBits (c ^^^ d) ((a ^^ b) :: xorBits l m)
          = crcBits (crcBit (c ^^^ d) (a ^^ b)) (xorBits l m) := rfl
      rw [h1, h2, h3, h4, ih _ _ _ (by simpa using h)]
      congr 1
      simp only [crcBit]
      rw [bit1_xor, ← shift1_xor, xor4]

theorem crcBits_zeros (c : BitVec 32) (n : Nat) :
    crcBits c (List.replicate n false) = shiftN n c := by
  induction n generalizing c with
  | zero => rfl
  | succ n ih =>
    have : crcBits c (List.replicate (n + 1) false)
        = crcBits (crcBit c false) (List.replicate n false) := rfl
    rw [this, ih]
    simp [crcBit, bit1, shiftN]

theorem word_eq_zero {l : List Bool} (hl : l.length ≤ 32) (h : word l = 0) :
    l = List.replicate l.length false := by
  apply List.ext_getElem (by simp)
  intro i h1 h2
  have := word_getLsbD l i (by omega)
  rw [h] at this
  simp only [List.getD_eq_getElem?_getD, List.getElem?_eq_getElem h1] at this
  simp at this
  simpa using this.symm

/-- A non-zero run of at most 32 bits inside zeros is never a multiple of the polynomial. -/
theorem crcBits_burst (n k : Nat) (m : List Bool) (hm : m.length ≤ 32)
    (hz : crcBits 0 (List.replicate n false ++ m ++ List.replicate k false) = 0) :
    m = List.replicate m.length false := by
  rw [crcBits_append, crcBits_append, crcBits_zeros, crcBits_zeros, shiftN_zero] at hz
  have := shiftN_eq_zero hz
  rw [crcBits_word _ _ hm] at this
  have := shiftN_eq_zero this
  have h0 : (0 : BitVec 32) ^^^ word m = word m := BitVec.zero_xor
  rw [h0] at this
  exact word_eq_zero hm this

/-! ## Parity -/

/-- Parity of the one bits of a word. -/
def par (c : BitVec 32) : Bool := (List.range 32).foldl (fun a i => a ^^ c.getLsbD i) false

/-- Parity of the one bits of a bit list. -/
def parL (l : List Bool) : Bool := l.foldl (fun a b => a ^^ b) false

theorem foldl_xor_init (l : List Bool) (a : Bool) :
    l.foldl (fun x y => x ^^ y) a = (a ^^ parL l) := by
  induction l generalizing a with
  | nil => simp [parL]
  | cons b l ih =>
    simp only [List.foldl_cons, parL]
    rw [ih, ih (false ^^ b)]
    simp

theorem parL_cons (b : Bool) (l : List Bool) : parL (b :: l) = (b ^^ parL l) := by
  conv => lhs; unfold parL
  rw [List.foldl_cons, foldl_xor_init]; simp

theorem par_eq (c : BitVec 32) : par c = parL ((List.range 32).map c.getLsbD) := by
  unfold par parL
  rw [List.foldl_map]

theorem parL_append (l m : List Bool) : parL (l ++ m) = (parL l ^^ parL m) := by
  induction l with
  | nil => simp [parL]
  | cons b l ih => rw [List.cons_append, parL_cons, parL_cons, ih, Bool.xor_assoc]

theorem parL_xor (l m : List Bool) (h : l.length = m.length) :
    parL (xorBits l m) = (parL l ^^ parL m) := by
  induction l generalizing m with
  | nil => cases m with
    | nil => rfl
    | cons => simp at h
  | cons a l ih => cases m with
    | nil => simp at h
    | cons b m =>
      have h3 : xorBits (a :: l) (b :: m) = (a ^^ b) :: xorBits l m := rfl
      rw [h3, parL_cons, parL_cons, parL_cons, ih _ (by simpa using h)]
      cases a <;> cases b <;> simp

theorem par_xor (a b : BitVec 32) : par (a ^^^ b) = (par a ^^ par b) := by
  rw [par_eq, par_eq, par_eq, ← parL_xor _ _ (by simp)]
  congr 1
  unfold xorBits
  rw [List.zipWith_map]
  apply List.ext_getElem (by simp)
  intro i h1 h2
  simp

theorem par_shift (c : BitVec 32) : (par (c >>> 1) ^^ c.getLsbD 0) = par c := by
  rw [par_eq, par_eq]
  have h1 : (List.range 32).map c.getLsbD = c.getLsbD 0 :: (List.range 31).map fun i => c.getLsbD (i + 1) := by
    rw [List.range_succ_eq_map]
    simp
  have h2 : (List.range 32).map (c >>> 1).getLsbD
      = ((List.range 31).map fun i => c.getLsbD (i + 1)) ++ [false] := by
    rw [List.range_succ]
    simp only [List.map_append, BitVec.getLsbD_ushiftRight, List.map_cons, List.map_nil]
    rw [BitVec.getLsbD_of_ge _ (1 + 31) (by omega)]
    congr 1
  have h3 : parL [false] = false := rfl
  rw [h1, h2, parL_append, h3, parL_cons]
  cases c.getLsbD 0 <;> simp

/-- The polynomial has an even number of terms: multiplying by `x` preserves parity. -/
theorem par_shift1 (c : BitVec 32) : par (shift1 c) = par c := by
  unfold shift1
  rw [par_xor, ← par_shift c]
  cases c.getLsbD 0
  · have : par 0#32 = false := by decide
    simp [this]
  · have : par (0x82F63B78#32) = true := by decide
    simp [this]

theorem par_crcBits (c : BitVec 32) (l : List Bool) : par (crcBits c l) = (par c ^^ parL l) := by
  induction l generalizing c with
  | nil => simp [crcBits, parL]
  | cons b l ih =>
    have h1 : crcBits c (b :: l) = crcBits (crcBit c b) l := rfl
    rw [h1, ih, crcBit, par_shift1, par_xor, parL_cons]
    have : par (bit1 b) = b := by cases b <;> decide
    rw [this, Bool.xor_assoc]

/-! ## Two-bit errors -/

/-- Does `x^k = 1` happen for some `1 ≤ k ≤ n`? -/
def returns : Nat → BitVec 32 → Bool
  | 0, _ => false
  | n + 1, c => let c' := shift1 c; c' == 1#32 || returns n c'

theorem returns_sound (n : Nat) (c : BitVec 32) (h : returns n c = false) (k : Nat) (h1 : 1 ≤ k)
    (h2 : k ≤ n) : shiftN k c ≠ 1#32 := by
  induction n generalizing c k with
  | zero => omega
  | succ n ih =>
    simp only [returns, Bool.or_eq_false_iff] at h
    cases k with
    | zero => omega
    | succ k =>
      simp only [shiftN]
      cases k with
      | zero => simpa [shiftN] using h.1
      | succ k => exact ih _ h.2 (k + 1) (by omega) (by omega)

set_option maxRecDepth 100000 in
theorem order_large : returns 1400 1#32 = false := by decide

/-! ## Bits of byte strings -/

/-- Bit `i` of a byte string: bit `i % 8` (least significant is 0) of byte `i / 8`. -/
def bit (l : List UInt8) (i : Nat) : Bool := (l.getD (i / 8) 0).toNat.testBit (i % 8)

theorem bitsOf_length (l : List UInt8) : (bitsOf l).length = 8 * l.length := by
  induction l with
  | nil => rfl
  | cons b l ih =>
    have h2 : bitsOf (b :: l) = byteBits b ++ bitsOf l := by simp [bitsOf]
    rw [h2, List.length_append, ih, byteBits_length, List.length_cons]; omega

theorem bit_cons_lt (b : UInt8) (l : List UInt8) (i : Nat) (hi : i < 8) :
    bit (b :: l) i = b.toBitVec.getLsbD i := by
  have h1 : i / 8 = 0 := by omega
  have h2 : i % 8 = i := by omega
  simp only [bit, h1, h2]
  rfl

theorem bit_cons_ge (b : UInt8) (l : List UInt8) (i : Nat) (hi : 8 ≤ i) :
    bit (b :: l) i = bit l (i - 8) := by
  have h1 : i / 8 = (i - 8) / 8 + 1 := by omega
  have h2 : i % 8 = (i - 8) % 8 := by omega
  simp only [bit, h1, h2]
  rfl

theorem bitsOf_getD (l : List UInt8) (i : Nat) : (bitsOf l).getD i false = bit l i := by
  induction l generalizing i with
  | nil => simp [bitsOf, bit]
  | cons b l ih =>
    have h2 : bitsOf (b :: l) = byteBits b ++ bitsOf l := by simp [bitsOf]
    rw [h2]
    by_cases h : i < 8
    · rw [bit_cons_lt _ _ _ h, ← byteBits_getD _ _ h]
      simp only [List.getD_eq_getElem?_getD]
      rw [List.getElem?_append_left (by rw [byteBits_length]; omega)]
    · rw [bit_cons_ge _ _ _ (by omega), ← ih]
      simp only [List.getD_eq_getElem?_getD]
      rw [List.getElem?_append_right (by rw [byteBits_length]; omega), byteBits_length]

theorem bitsOf_inj {l m : List UInt8} (h : l.length = m.length) (hb : bitsOf l = bitsOf m) :
    l = m := by
  induction l generalizing m with
  | nil => cases m with
    | nil => rfl
    | cons => simp at h
  | cons a l ih => cases m with
    | nil => simp at h
    | cons b m =>
      have h2 : ∀ (b : UInt8) l, bitsOf (b :: l) = byteBits b ++ bitsOf l := by
        intros; simp [bitsOf]
      rw [h2, h2] at hb
      have h3 := List.append_inj hb (by rw [byteBits_length, byteBits_length])
      rw [ih (by simpa using h) h3.2]
      congr 1
      apply UInt8.toBitVec_inj.mp
      apply BitVec.eq_of_getLsbD_eq
      intro i hi
      rw [← byteBits_getD _ _ hi, ← byteBits_getD _ _ hi, h3.1]

theorem leVal_testBit (l : List UInt8) (i : Nat) : (leVal l).testBit i = bit l i := by
  induction l generalizing i with
  | nil => simp [leVal, bit]
  | cons b l ih =>
    have hb := b.toNat_lt
    have h : leVal (b :: l) = 2 ^ 8 * leVal l + b.toNat := by simp only [leVal]; omega
    rw [h, Nat.testBit_two_pow_mul_add _ (by omega)]
    by_cases h8 : i < 8
    · rw [bit_cons_lt _ _ _ h8]; simp only [h8, if_true]; rfl
    · rw [bit_cons_ge _ _ _ (by omega), if_neg h8, ih]

theorem word_bitsOf (l : List UInt8) : word (bitsOf l) = BitVec.ofNat 32 (leVal l) := by
  apply BitVec.eq_of_getLsbD_eq
  intro i hi
  rw [word_getLsbD _ _ hi, bitsOf_getD, BitVec.getLsbD_ofNat, leVal_testBit]
  simp [hi]

theorem getField_leVal (e : Endian) (off n : Nat) (buf : List UInt8) (h : off + n ≤ buf.length) :
    getField e off n buf = leVal ((buf.drop off).take n) := by
  have hl : ((buf.drop off).take n).length = n := by simp; omega
  have := leToCpu_load e n (leVal ((buf.drop off).take n))
  have h2 := leBytes_leVal ((buf.drop off).take n)
  rw [hl] at h2
  rw [h2] at this
  have h3 := leVal_leBytes n (leVal ((buf.drop off).take n))
  rw [h2] at h3
  simp only [getField]
  rw [this, ← h3]

theorem bitsOf_append (l m : List UInt8) : bitsOf (l ++ m) = bitsOf l ++ bitsOf m := by
  simp [bitsOf]

/-- A stored checksum matches exactly when the CRC of data and checksum together is zero. -/
theorem residue (e : Endian) (off : Nat) (buf : List UInt8) (h : off + 4 ≤ buf.length) :
    UInt32.ofNat (getField e off 4 buf) = ⟨crc32c 0xFFFFFFFE#32 (buf.take off)⟩ ↔
      crcBits 0xFFFFFFFE#32 (bitsOf (buf.take (off + 4))) = 0 := by
  rw [getField_leVal e off 4 buf h]
  have hsplit : buf.take (off + 4) = buf.take off ++ (buf.drop off).take 4 := by
    rw [List.take_add]
  have hl4 : (bitsOf ((buf.drop off).take 4)).length = 32 := by
    rw [bitsOf_length]; simp; omega
  rw [hsplit, bitsOf_append, crcBits_append, crcBits_word _ _ (by omega), hl4, word_bitsOf,
    ← crc32c_bits]
  constructor
  · intro hh
    have h1 := congrArg UInt32.toBitVec hh
    simp only [UInt32.toBitVec_ofNat'] at h1
    rw [h1]
    simp only [BitVec.xor_self]
    exact shiftN_zero 32
  · intro hh
    have h1 := shiftN_eq_zero hh
    apply UInt32.toBitVec_inj.mp
    simp only [UInt32.toBitVec_ofNat']
    exact (BitVec.xor_eq_zero_iff.mp h1).symm

theorem xorBits_getElem? (l m : List Bool) (i : Nat) (h : l.length = m.length) :
    (xorBits l m).getD i false = (l.getD i false ^^ m.getD i false) := by
  induction l generalizing m i with
  | nil => cases m with
    | nil => simp [xorBits]
    | cons => simp at h
  | cons a l ih => cases m with
    | nil => simp at h
    | cons b m =>
      cases i with
      | zero => simp [xorBits]
      | succ i =>
        have := ih m i (by simpa using h)
        simpa [xorBits] using this

theorem xorBits_length (l m : List Bool) (h : l.length = m.length) :
    (xorBits l m).length = l.length := by
  simp [xorBits, h]

theorem xorBits_zero {l m : List Bool} (h : l.length = m.length)
    (hz : xorBits l m = List.replicate l.length false) : l = m := by
  apply List.ext_getElem h
  intro i h1 h2
  have := xorBits_getElem? l m i h
  rw [hz] at this
  simp only [List.getD_eq_getElem?_getD, List.getElem?_eq_getElem h1,
    List.getElem?_eq_getElem h2, List.getElem?_replicate] at this
  simp [h1] at this
  exact this

theorem eq_replicate_of_getD (l : List Bool) (h : ∀ i < l.length, l.getD i false = false) :
    l = List.replicate l.length false := by
  apply List.ext_getElem (by simp)
  intro i h1 h2
  have := h i h1
  simp only [List.getD_eq_getElem?_getD, List.getElem?_eq_getElem h1] at this
  simpa using this

/-- Two byte strings with the same residue that differ only within 32 consecutive bits are equal. -/
theorem burst_eq (a b : List UInt8) (hlen : a.length = b.length) (n : Nat)
    (hout : ∀ i, i < 8 * a.length → (i < n ∨ n + 32 ≤ i) → bit a i = bit b i)
    (ha : crcBits 0xFFFFFFFE#32 (bitsOf a) = 0) (hb : crcBits 0xFFFFFFFE#32 (bitsOf b) = 0) :
    a = b := by
  have hbl : (bitsOf a).length = (bitsOf b).length := by rw [bitsOf_length, bitsOf_length, hlen]
  have hlin := crcBits_linear 0xFFFFFFFE#32 0xFFFFFFFE#32 _ _ hbl
  rw [ha, hb] at hlin
  have hx : (0 : BitVec 32) ^^^ 0 = 0 := by decide
  have hx2 : (0xFFFFFFFE#32 : BitVec 32) ^^^ 0xFFFFFFFE#32 = 0 := by decide
  rw [hx, hx2] at hlin
  apply bitsOf_inj hlen
  apply xorBits_zero hbl
  generalize hE : xorBits (bitsOf a) (bitsOf b) = E at hlin ⊢
  have hEl : E.length = 8 * a.length := by
    rw [← hE, xorBits_length _ _ hbl, bitsOf_length]
  have hEd : ∀ i, i < 8 * a.length → (i < n ∨ n + 32 ≤ i) → E.getD i false = false := by
    intro i hi ho
    rw [← hE, xorBits_getElem? _ _ _ hbl, bitsOf_getD, bitsOf_getD, hout i hi ho]
    simp
  have hsp : E = E.take n ++ (E.drop n).take 32 ++ E.drop (n + 32) := by
    rw [← List.take_add, List.take_append_drop]
  have h1 : E.take n = List.replicate (E.take n).length false := by
    apply eq_replicate_of_getD
    intro i hi
    simp only [List.length_take] at hi
    have := hEd i (by omega) (by omega)
    simp only [List.getD_eq_getElem?_getD] at this ⊢
    rw [List.getElem?_take_of_lt (by omega)]
    exact this
  have h3 : E.drop (n + 32) = List.replicate (E.drop (n + 32)).length false := by
    apply eq_replicate_of_getD
    intro i hi
    simp only [List.length_drop] at hi
    have := hEd (n + 32 + i) (by omega) (by omega)
    simp only [List.getD_eq_getElem?_getD, List.getElem?_drop] at this ⊢
    exact this
  have h2 : (E.drop n).take 32 = List.replicate ((E.drop n).take 32).length false := by
    apply crcBits_burst (E.take n).length (E.drop (n + 32)).length
    · simp; omega
    · rw [← h1, ← h3, ← hsp]; exact hlin.symm
  rw [hsp, h1, h2, h3]
  simp only [List.replicate_append_replicate]
  congr 1
  simp
  rw [bitsOf_length, ← hEl]; omega

/-- Number of bit positions in which two byte strings differ. -/
def bitErrors (a b : List UInt8) : Nat :=
  ((List.range (8 * a.length)).filter fun i => bit a i != bit b i).length

theorem parL_count (l : List Bool) : parL l = decide ((l.filter id).length % 2 = 1) := by
  induction l with
  | nil => rfl
  | cons b l ih =>
    rw [parL_cons, ih]
    cases b
    · simp
    · simp only [Bool.true_xor, List.filter_cons, id, if_true, List.length_cons]
      by_cases h : (List.filter id l).length % 2 = 1
      · have : ¬ ((List.filter id l).length + 1) % 2 = 1 := by omega
        simp [h, this]
      · have : ((List.filter id l).length + 1) % 2 = 1 := by omega
        simp [h, this]

theorem list_eq_map_range (l : List Bool) : l = (List.range l.length).map fun i => l.getD i false := by
  apply List.ext_getElem (by simp)
  intro i h1 h2
  simp [List.getD_eq_getElem?_getD, List.getElem?_eq_getElem h1]

/-- Two byte strings with zero residue differ in an even number of bits. -/
theorem even_errors (a b : List UInt8) (hlen : a.length = b.length)
    (ha : crcBits 0xFFFFFFFE#32 (bitsOf a) = 0) (hb : crcBits 0xFFFFFFFE#32 (bitsOf b) = 0) :
    bitErrors a b % 2 = 0 := by
  have hbl : (bitsOf a).length = (bitsOf b).length := by rw [bitsOf_length, bitsOf_length, hlen]
  have hlin := crcBits_linear 0xFFFFFFFE#32 0xFFFFFFFE#32 _ _ hbl
  rw [ha, hb] at hlin
  have hx : (0 : BitVec 32) ^^^ 0 = 0 := by decide
  have hx2 : (0xFFFFFFFE#32 : BitVec 32) ^^^ 0xFFFFFFFE#32 = 0 := by decide
  rw [hx, hx2] at hlin
  have hp := congrArg par hlin
  rw [par_crcBits] at hp
  have h0 : par 0 = false := by decide
  rw [h0, Bool.false_xor, parL_count, list_eq_map_range (xorBits _ _), List.filter_map,
    List.length_map, xorBits_length _ _ hbl, bitsOf_length] at hp
  have hp := of_decide_eq_false hp.symm
  have hf : ((List.range (8 * a.length)).filter
      (id ∘ fun i => (xorBits (bitsOf a) (bitsOf b)).getD i false)).length = bitErrors a b := by
    unfold bitErrors
    congr 2
    funext i
    simp only [Function.comp, id]
    rw [xorBits_getElem? _ _ _ hbl, bitsOf_getD, bitsOf_getD]
  rw [hf] at hp
  omega

theorem two_form (E : List Bool) (n i j : Nat) (hl : E.length = n) (hij : i < j) (hj : j < n)
    (h1 : E.getD i false = true) (h2 : E.getD j false = true)
    (h3 : ∀ k, k < n → k ≠ i → k ≠ j → E.getD k false = false) :
    E = List.replicate i false ++ [true] ++ List.replicate (j - i - 1) false ++ [true]
      ++ List.replicate (n - j - 1) false := by
  apply List.ext_getElem
  · simp; omega
  · intro k hk _
    have hk3 := h3 k (by omega)
    simp only [List.getD_eq_getElem?_getD] at h1 h2 hk3
    grind

/-- Two strings of at most 175 bytes with zero residue that differ only in bits `i < j` are equal. -/
theorem two_errors (a b : List UInt8) (hlen : a.length = b.length) (hmax : a.length ≤ 175)
    (i j : Nat) (hij : i < j) (hj : j < 8 * a.length)
    (hout : ∀ k, k < 8 * a.length → k ≠ i → k ≠ j → bit a k = bit b k)
    (ha : crcBits 0xFFFFFFFE#32 (bitsOf a) = 0) (hb : crcBits 0xFFFFFFFE#32 (bitsOf b) = 0) :
    a = b := by
  apply Classical.byContradiction
  intro hne
  have hi : bit a i ≠ bit b i := by
    intro heq
    refine hne (burst_eq a b hlen j (fun k hk ho => ?_) ha hb)
    by_cases h : k = i
    · rw [h]; exact heq
    · exact hout k hk h (by omega)
  have hjd : bit a j ≠ bit b j := by
    intro heq
    refine hne (burst_eq a b hlen i (fun k hk ho => ?_) ha hb)
    by_cases h : k = j
    · rw [h]; exact heq
    · exact hout k hk (by omega) h
  have hbl : (bitsOf a).length = (bitsOf b).length := by rw [bitsOf_length, bitsOf_length, hlen]
  have hlin := crcBits_linear 0xFFFFFFFE#32 0xFFFFFFFE#32 _ _ hbl
  rw [ha, hb] at hlin
  have hx : (0 : BitVec 32) ^^^ 0 = 0 := by decide
  have hx2 : (0xFFFFFFFE#32 : BitVec 32) ^^^ 0xFFFFFFFE#32 = 0 := by decide
  rw [hx, hx2] at hlin
  have hE : xorBits (bitsOf a) (bitsOf b) = List.replicate i false ++ [true]
      ++ List.replicate (j - i - 1) false ++ [true] ++ List.replicate (8 * a.length - j - 1) false := by
    have hd := fun k => xorBits_getElem? (bitsOf a) (bitsOf b) k hbl
    simp only [bitsOf_getD] at hd
    apply two_form
    · rw [xorBits_length _ _ hbl, bitsOf_length]
    · exact hij
    · exact hj
    · rw [hd]; revert hi; cases bit a i <;> cases bit b i <;> simp
    · rw [hd]; revert hjd; cases bit a j <;> cases bit b j <;> simp
    · intro k hk h1 h2
      rw [hd, hout k hk h1 h2]; simp
  rw [hE] at hlin
  simp only [crcBits_append, crcBits_zeros, shiftN_zero] at hlin
  have h1 := shiftN_eq_zero hlin.symm
  simp only [crcBits, List.foldl_cons, List.foldl_nil, crcBit] at h1
  have h2 := shift1_eq_zero h1
  have h3 := BitVec.xor_eq_zero_iff.mp h2
  have h4 : ∀ m c, shiftN m (shift1 c) = shiftN (m + 1) c := fun _ _ => rfl
  rw [h4] at h3
  have h5 : (0 : BitVec 32) ^^^ bit1 true = 1#32 := by decide
  rw [h5] at h3
  exact returns_sound 1400 1#32 order_large (j - i - 1 + 1) (by omega) (by omega) h3

end Sanlock.Crc
