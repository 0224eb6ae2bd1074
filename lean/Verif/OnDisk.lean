/-!
# On-disk codecs

Models `src/ondisk.c` (lines 32-170) and the structures of `src/leader.h` (62-82, 97-102),
`src/paxos_dblock.h`, `src/mode_block.h` and `src/rindex_disk.h`.

A disk buffer is a `List UInt8`.  The structures are copied to the buffer with `memcpy` after each
field has been converted with `cpu_to_leNN`; both the conversion and the store depend on the byte
order of the host, which is the parameter `e : Endian` below.
-/

namespace Sanlock.OnDisk

/-- Byte order of the host the code runs on (`__BYTE_ORDER`, used by the `cpu_to_le*` macros of
`src/ondisk.h`). -/
inductive Endian where
  | little
  | big
deriving DecidableEq, Repr

/-- The `n` low bytes of `v`, least significant first. -/
def leBytes : Nat → Nat → List UInt8
  | 0, _ => []
  | n + 1, v => UInt8.ofNat v :: leBytes n (v / 256)

/-- The number denoted by bytes, least significant first. -/
def leVal : List UInt8 → Nat
  | [] => 0
  | b :: bs => b.toNat + 256 * leVal bs

/-- How an `n`-byte unsigned integer is laid out in the memory of a host. -/
def storeNative (e : Endian) (n v : Nat) : List UInt8 :=
  match e with
  | .little => leBytes n v
  | .big => (leBytes n v).reverse

/-- The `n`-byte integer a host reads from memory. -/
def loadNative (e : Endian) (bs : List UInt8) : Nat :=
  match e with
  | .little => leVal bs
  | .big => leVal bs.reverse

/-- `bswap_16/32/64`. -/
def bswap (n v : Nat) : Nat := leVal (leBytes n v).reverse

/-- `cpu_to_le16/32/64` (`src/ondisk.h`): identity on little endian hosts, byte swap on others. -/
def cpuToLe (e : Endian) (n v : Nat) : Nat :=
  match e with
  | .little => v
  | .big => bswap n v

/-- `le16/32/64_to_cpu`. -/
def leToCpu (e : Endian) (n v : Nat) : Nat := cpuToLe e n v

/-- Store one converted field: `end->f = cpu_to_leNN(lr->f)` followed by copying the structure. -/
def putField (e : Endian) (n v : Nat) : List UInt8 := storeNative e n (cpuToLe e n v)

/-- Load one field at byte offset `off`: `lr->f = leNN_to_cpu(end->f)`. -/
def getField (e : Endian) (off n : Nat) (buf : List UInt8) : Nat :=
  leToCpu e n (loadNative e ((buf.drop off).take n))

/-- `char name[NAME_ID_SIZE]`: exactly 48 bytes, not necessarily NUL terminated. -/
structure Name where
  bytes : List UInt8
  len : bytes.length = 48
deriving DecidableEq

/-- Copy 48 bytes out of a buffer (`memcpy(lr->space_name, end->space_name, NAME_ID_SIZE)`); a buffer
that is too short, which the code never passes, is padded with zeros. -/
def getName (off : Nat) (buf : List UInt8) : Name :=
  ⟨((buf.drop off).take 48 ++ List.replicate 48 0).take 48, by simp⟩

/-- `struct leader_record` (`src/leader.h:62-82`). -/
structure Leader where
  magic : UInt32
  version : UInt32
  flags : UInt32
  sectorSize : UInt32
  numHosts : UInt64
  maxHosts : UInt64
  ownerId : UInt64
  ownerGeneration : UInt64
  lver : UInt64
  spaceName : Name
  resourceName : Name
  timestamp : UInt64
  unused1 : UInt64
  checksum : UInt32
  unused2 : UInt16
  ioTimeout : UInt16
  writeId : UInt64
  writeGeneration : UInt64
  writeTimestamp : UInt64
deriving DecidableEq

/-- The first 168 bytes of an encoded leader, the part covered by the checksum
(`leader_record_out`, `src/ondisk.c:55-69`; `LEADER_CHECKSUM_LEN`, `src/leader.h:46`). -/
def leaderHead (e : Endian) (l : Leader) : List UInt8 :=
  putField e 4 l.magic.toNat ++ (putField e 4 l.version.toNat ++ (putField e 4 l.flags.toNat ++
  (putField e 4 l.sectorSize.toNat ++ (putField e 8 l.numHosts.toNat ++
  (putField e 8 l.maxHosts.toNat ++ (putField e 8 l.ownerId.toNat ++
  (putField e 8 l.ownerGeneration.toNat ++ (putField e 8 l.lver.toNat ++
  (l.spaceName.bytes ++ (l.resourceName.bytes ++
  (putField e 8 l.timestamp.toNat ++ putField e 8 l.unused1.toNat)))))))))))

/-- `leader_record_out` (`src/ondisk.c:55-77`) followed by the assignment of the checksum
(`src/paxos_lease.c:258-263`), which the callers do on the encoded structure. -/
def leaderOut (e : Endian) (l : Leader) (checksum : UInt32) : List UInt8 :=
  leaderHead e l ++
  (putField e 4 checksum.toNat ++ (putField e 2 l.unused2.toNat ++ (putField e 2 l.ioTimeout.toNat ++
  (putField e 8 l.writeId.toNat ++ (putField e 8 l.writeGeneration.toNat ++
  putField e 8 l.writeTimestamp.toNat)))))

/-- `leader_record_in` (`src/ondisk.c:32-53`); the offsets are those of the C structure. -/
def leaderIn (e : Endian) (b : List UInt8) : Leader where
  magic := UInt32.ofNat (getField e 0 4 b)
  version := UInt32.ofNat (getField e 4 4 b)
  flags := UInt32.ofNat (getField e 8 4 b)
  sectorSize := UInt32.ofNat (getField e 12 4 b)
  numHosts := UInt64.ofNat (getField e 16 8 b)
  maxHosts := UInt64.ofNat (getField e 24 8 b)
  ownerId := UInt64.ofNat (getField e 32 8 b)
  ownerGeneration := UInt64.ofNat (getField e 40 8 b)
  lver := UInt64.ofNat (getField e 48 8 b)
  spaceName := getName 56 b
  resourceName := getName 104 b
  timestamp := UInt64.ofNat (getField e 152 8 b)
  unused1 := UInt64.ofNat (getField e 160 8 b)
  checksum := UInt32.ofNat (getField e 168 4 b)
  unused2 := UInt16.ofNat (getField e 172 2 b)
  ioTimeout := UInt16.ofNat (getField e 174 2 b)
  writeId := UInt64.ofNat (getField e 176 8 b)
  writeGeneration := UInt64.ofNat (getField e 184 8 b)
  writeTimestamp := UInt64.ofNat (getField e 192 8 b)

/-- `struct request_record` (`src/leader.h:97-102`). -/
structure Request where
  magic : UInt32
  version : UInt32
  lver : UInt64
  forceMode : UInt32

/-- `request_record_out` (`src/ondisk.c:87-93`). -/
def requestOut (e : Endian) (r : Request) : List UInt8 :=
  putField e 4 r.magic.toNat ++ (putField e 4 r.version.toNat ++ (putField e 8 r.lver.toNat ++
  putField e 4 r.forceMode.toNat))

/-- `request_record_in` (`src/ondisk.c:79-85`). -/
def requestIn (e : Endian) (b : List UInt8) : Request where
  magic := UInt32.ofNat (getField e 0 4 b)
  version := UInt32.ofNat (getField e 4 4 b)
  lver := UInt64.ofNat (getField e 8 8 b)
  forceMode := UInt32.ofNat (getField e 16 4 b)

/-- `struct paxos_dblock` (`src/paxos_dblock.h`). -/
structure Dblock where
  mbal : UInt64
  bal : UInt64
  inp : UInt64
  inp2 : UInt64
  inp3 : UInt64
  lver : UInt64
  checksum : UInt32
  flags : UInt32
deriving DecidableEq, Repr

/-- The 48 checksummed bytes of an encoded dblock (`DBLOCK_CHECKSUM_LEN`). -/
def dblockHead (e : Endian) (d : Dblock) : List UInt8 :=
  putField e 8 d.mbal.toNat ++ (putField e 8 d.bal.toNat ++ (putField e 8 d.inp.toNat ++
  (putField e 8 d.inp2.toNat ++ (putField e 8 d.inp3.toNat ++ putField e 8 d.lver.toNat))))

/-- `paxos_dblock_out` (`src/ondisk.c:107-118`) plus the checksum assignment done by its callers. -/
def dblockOut (e : Endian) (d : Dblock) (checksum : UInt32) : List UInt8 :=
  dblockHead e d ++ (putField e 4 checksum.toNat ++ putField e 4 d.flags.toNat)

/-- `paxos_dblock_in` (`src/ondisk.c:95-105`). -/
def dblockIn (e : Endian) (b : List UInt8) : Dblock where
  mbal := UInt64.ofNat (getField e 0 8 b)
  bal := UInt64.ofNat (getField e 8 8 b)
  inp := UInt64.ofNat (getField e 16 8 b)
  inp2 := UInt64.ofNat (getField e 24 8 b)
  inp3 := UInt64.ofNat (getField e 32 8 b)
  lver := UInt64.ofNat (getField e 40 8 b)
  checksum := UInt32.ofNat (getField e 48 4 b)
  flags := UInt32.ofNat (getField e 52 4 b)

/-- `struct mode_block` (`src/mode_block.h`); the C compiler inserts four padding bytes before the
8-byte aligned `generation`. -/
structure ModeBlock where
  flags : UInt32
  generation : UInt64
deriving DecidableEq, Repr

/-- `mode_block_out` (`src/ondisk.c:126-130`); the padding is zero because the callers clear the
sector first (`src/resource.c:414-514`). -/
def modeBlockOut (e : Endian) (m : ModeBlock) : List UInt8 :=
  putField e 4 m.flags.toNat ++ (List.replicate 4 0 ++ putField e 8 m.generation.toNat)

/-- `mode_block_in` (`src/ondisk.c:120-124`). -/
def modeBlockIn (e : Endian) (b : List UInt8) : ModeBlock where
  flags := UInt32.ofNat (getField e 0 4 b)
  generation := UInt64.ofNat (getField e 8 8 b)

/-- `struct rindex_header` (`src/rindex_disk.h`). -/
structure RindexHeader where
  magic : UInt32
  version : UInt32
  flags : UInt32
  sectorSize : UInt32
  maxResources : UInt32
  unused : UInt32
  rxOffset : UInt64
  lockspaceName : Name

/-- `rindex_header_out` (`src/ondisk.c:144-154`). -/
def rindexHeaderOut (e : Endian) (h : RindexHeader) : List UInt8 :=
  putField e 4 h.magic.toNat ++ (putField e 4 h.version.toNat ++ (putField e 4 h.flags.toNat ++
  (putField e 4 h.sectorSize.toNat ++ (putField e 4 h.maxResources.toNat ++
  (putField e 4 h.unused.toNat ++ (putField e 8 h.rxOffset.toNat ++ h.lockspaceName.bytes))))))

/-- `rindex_header_in` (`src/ondisk.c:132-142`). -/
def rindexHeaderIn (e : Endian) (b : List UInt8) : RindexHeader where
  magic := UInt32.ofNat (getField e 0 4 b)
  version := UInt32.ofNat (getField e 4 4 b)
  flags := UInt32.ofNat (getField e 8 4 b)
  sectorSize := UInt32.ofNat (getField e 12 4 b)
  maxResources := UInt32.ofNat (getField e 16 4 b)
  unused := UInt32.ofNat (getField e 20 4 b)
  rxOffset := UInt64.ofNat (getField e 24 8 b)
  lockspaceName := getName 32 b

/-- `struct rindex_entry` (`src/rindex_disk.h`), 64 bytes. -/
structure RindexEntry where
  resOffset : UInt64
  flags : UInt32
  unused : UInt32
  name : Name

/-- `rindex_entry_out` (`src/ondisk.c:164-170`). -/
def rindexEntryOut (e : Endian) (r : RindexEntry) : List UInt8 :=
  putField e 8 r.resOffset.toNat ++ (putField e 4 r.flags.toNat ++ (putField e 4 r.unused.toNat ++
  r.name.bytes))

/-- `rindex_entry_in` (`src/ondisk.c:156-162`). -/
def rindexEntryIn (e : Endian) (b : List UInt8) : RindexEntry where
  resOffset := UInt64.ofNat (getField e 0 8 b)
  flags := UInt32.ofNat (getField e 8 4 b)
  unused := UInt32.ofNat (getField e 12 4 b)
  name := getName 16 b

/-! ## Lemmas -/

@[simp] theorem leBytes_length (n v : Nat) : (leBytes n v).length = n := by
  induction n generalizing v with
  | zero => rfl
  | succ n ih => simp [leBytes, ih]

theorem leVal_leBytes (n v : Nat) : leVal (leBytes n v) = v % 256 ^ n := by
  induction n generalizing v with
  | zero => simp [leBytes, leVal, Nat.mod_one]
  | succ n ih =>
    simp only [leBytes, leVal, ih]
    rw [Nat.pow_succ, Nat.mul_comm (256 ^ n) 256, Nat.mod_mul]
    simp [UInt8.toNat_ofNat']

theorem leBytes_leVal (bs : List UInt8) : leBytes bs.length (leVal bs) = bs := by
  induction bs with
  | nil => rfl
  | cons b bs ih =>
    have hb := b.toNat_lt
    have h1 : UInt8.ofNat (b.toNat + 256 * leVal bs) = b := by
      apply UInt8.toNat_inj.mp
      rw [UInt8.toNat_ofNat']
      omega
    have h2 : (b.toNat + 256 * leVal bs) / 256 = leVal bs := by omega
    simp only [List.length_cons, leBytes, leVal, h1, h2, ih]

/-- Whatever the byte order of the host, a converted field is stored little endian. -/
theorem putField_eq (e : Endian) (n v : Nat) : putField e n v = leBytes n v := by
  cases e with
  | little => rfl
  | big =>
    simp only [putField, storeNative, cpuToLe, bswap]
    have h := leBytes_leVal (leBytes n v).reverse
    rw [List.length_reverse, leBytes_length] at h
    rw [h, List.reverse_reverse]

@[simp] theorem putField_length (e : Endian) (n v : Nat) : (putField e n v).length = n := by
  simp [putField_eq]

theorem leToCpu_load (e : Endian) (n v : Nat) :
    leToCpu e n (loadNative e (leBytes n v)) = v % 256 ^ n := by
  cases e with
  | little => exact leVal_leBytes n v
  | big =>
    simp only [leToCpu, cpuToLe, loadNative, bswap]
    have h := leBytes_leVal (leBytes n v).reverse
    rw [List.length_reverse, leBytes_length] at h
    rw [h, List.reverse_reverse, leVal_leBytes]

theorem getField_zero (e : Endian) (n v : Nat) (post : List UInt8) :
    getField e 0 n (putField e n v ++ post) = v % 256 ^ n := by
  have h : List.take n (putField e n v ++ post) = leBytes n v := by
    rw [List.take_append_of_le_length (by simp), List.take_of_length_le (by simp), putField_eq]
  simp only [getField, List.drop_zero, h, leToCpu_load]

theorem getField_zero' (e : Endian) (n v : Nat) :
    getField e 0 n (putField e n v) = v % 256 ^ n := by
  have := getField_zero e n v []
  simpa using this

theorem getField_skip (e : Endian) (off n : Nat) (a b : List UInt8) (h : a.length ≤ off) :
    getField e off n (a ++ b) = getField e (off - a.length) n b := by
  simp only [getField]
  rw [List.drop_append, List.drop_eq_nil_of_le h, List.nil_append]

theorem Name.ext {a b : Name} (h : a.bytes = b.bytes) : a = b := by
  cases a; cases b; cases h; rfl

theorem getName_zero (nm : Name) (post : List UInt8) : getName 0 (nm.bytes ++ post) = nm := by
  apply Name.ext
  have h := nm.len
  simp only [getName, List.drop_zero]
  rw [List.take_append_of_le_length (l₁ := nm.bytes) (by omega), ← h, List.take_length,
    List.take_append_of_le_length (by omega), List.take_length]

theorem getName_zero' (nm : Name) : getName 0 nm.bytes = nm := by
  have := getName_zero nm []
  simpa using this

theorem getName_skip (off : Nat) (a b : List UInt8) (h : a.length ≤ off) :
    getName off (a ++ b) = getName (off - a.length) b := by
  apply Name.ext
  simp only [getName]
  rw [List.drop_append, List.drop_eq_nil_of_le h, List.nil_append]

theorem u16_rt (x : UInt16) : UInt16.ofNat (x.toNat % 256 ^ 2) = x := by
  have := x.toNat_lt
  rw [Nat.mod_eq_of_lt (by omega)]; simp

theorem u32_rt (x : UInt32) : UInt32.ofNat (x.toNat % 256 ^ 4) = x := by
  have := x.toNat_lt
  rw [Nat.mod_eq_of_lt (by omega)]; simp

theorem u64_rt (x : UInt64) : UInt64.ofNat (x.toNat % 256 ^ 8) = x := by
  have := x.toNat_lt
  rw [Nat.mod_eq_of_lt (by omega)]; simp

end Sanlock.OnDisk
