import Verif.Owners
import Verif.HostEvent
import Verif.Acquire
import Verif.Delta
import Verif.Strings

/-!
# The commands of the tool that work on a disk directly

Models `direct_read_leader_sizes` (`src/direct.c:42-79`), the actions release, read_leader and write_leader of `do_paxos_action`
and release_id, read_leader and write_leader of `do_delta_action` (`src/direct.c:122-436`), `direct_dump` (`553-853`),
`direct_next_free` (`855-927`), and in the tool `read_file_leader`, `do_direct_read_leader`, `do_direct_write_leader`
(`src/main.c:3477-3685`).

Simplifications: a disk is a function that gives for an offset and a length either the bytes or a negative error, and it does not
change while one command runs; what is printed is a list of records, one for each line, not text; offsets are exact naturals instead
of `uint64_t`; the device opens; the text of `-A` and `-Z` and of the file for write_leader has been read already; one disk;
`malloc` fails only for a negative length.
-/

namespace Sanlock.Direct

open OnDisk Crc Verify SizeFlags Owners

/-- `RINDEX_DISK_MAGIC` (`src/rindex_disk.h:73`). -/
def rindexMagic : UInt32 := 0x01042018

/-- A device as `read_sectors` sees it: `dev offset len`. -/
abbrev Dev := Nat → Nat → Except Int (List UInt8)

/-- `read_sectors` of `len` bytes: other sector sizes are refused (`src/diskio.c:942-945`). -/
def readSectors (dev : Dev) (sector : Nat) (off len : Nat) : Except Int (List UInt8) :=
  if sector ≠ 512 ∧ sector ≠ 4096 then .error Rv.EINVAL else dev off len

/-- An unsigned 32-bit field stored in an `int`. -/
def asInt (x : UInt32) : Int := Int.bmod x.toNat 4294967296

/-- `direct_read_leader_sizes` (`src/direct.c:42-79`) for the device at `off`: the return value if it leaves the sizes alone, or the two
sizes. -/
def leaderSizes (e : Endian) (dev : Dev) (off : Nat) : Except Int (Int × Int) :=
  match readSectors dev 4096 off 4096 with
  | .error rv => .error rv
  | .ok b =>
    let l := leaderIn e b
    if l.magic = deltaMagic ∨ l.magic = paxosMagic then
      .ok (asInt l.sectorSize, if alignOfFlags l.flags ≠ 0 then alignOfFlags l.flags else alignOldInt (asInt l.sectorSize))
    else .error (-1)

/-! ## dump -/

/-- The text before and after the first colon without a backslash before it (`src/direct.c:592-604`); `skip`: the character before was a
backslash that counts. -/
def cutAt (skip : Bool) : List UInt8 → List UInt8 × Option (List UInt8)
  | [] => ([], none)
  | c :: rest =>
    if skip then (c :: (cutAt false rest).1, (cutAt false rest).2)
    else if c = Strings.BACKSLASH then (c :: (cutAt true rest).1, (cutAt true rest).2)
    else if c = Strings.COLON then ([], some rest)
    else (c :: (cutAt false rest).1, (cutAt false rest).2)

/-- From the beginning of a text. -/
def cut (s : List UInt8) : List UInt8 × Option (List UInt8) := cutAt false s

/-- `atoll`, which stops at the limits of `long long`, stored in a `uint64_t`. -/
def atoll (s : List UInt8) : Nat :=
  let r := Strings.sign (s.dropWhile Strings.isSpace)
  let v := Strings.valOf 10 (Strings.digits 10 r.2)
  if r.1 then (2 ^ 64 - min v (2 ^ 63)) % 2 ^ 64 else min v (2 ^ 63 - 1)

/-- A number that may end with M (`src/direct.c:615-629`); the `int64_t` multiplication is taken modulo `2 ^ 64`. -/
def number (s : List UInt8) : Nat :=
  if 77 ∈ s then atoll (s.takeWhile (· ≠ 77)) * 1048576 % 2 ^ 64 else atoll s

/-- The argument of dump (`src/direct.c:584-638`): path, offset and size; the path is `none` if it does not fit. -/
def parsePath (arg : List UInt8) : Option (List UInt8) × Nat × Nat :=
  let a := cut arg
  match a.2 with
  | none => (Strings.pathImport 1024 a.1, 0, 0)
  | some r =>
    let b := cut r
    (Strings.pathImport 1024 a.1, number b.1, match b.2 with | none => 0 | some t => number t)

/-- One printed line of `direct_dump`. -/
inductive Line where
  /-- a host id: offset, lockspace, host name, timestamp, owner id, generation, the host ids whose bit is set -/
  | delta (off : Nat) (space res : List UInt8) (ts owner gen : UInt64) (bits : List Nat)
  /-- a resource: offset, lockspace, resource name, timestamp, owner id, generation, version, and the request with `-f` -/
  | paxos (off : Nat) (space res : List UInt8) (ts owner gen lver : UInt64) (req : Option (UInt64 × UInt32))
  /-- a host that holds the resource shared -/
  | sh (host : Nat) (gen : UInt64)
  /-- a ballot block -/
  | dblock (i : Nat) (d : Dblock)
  /-- the head of a resource index -/
  | header (off : Nat) (space : List UInt8) (flags sector max : UInt32) (rx : UInt64)
  /-- an entry of a resource index -/
  | entry (off : Nat) (space name : List UInt8) (resOff : UInt64)
deriving DecidableEq, Repr

/-- What is fixed for one run of the loop: sizes and the number of `-f`. -/
structure Cfg where
  e : Endian
  sector : Nat
  align : Nat
  force : Nat

/-- `sector_count = align_size / sector_size` -/
def Cfg.count (c : Cfg) : Nat := c.align / c.sector

/-- A 48-byte name printed through a buffer of 49 bytes. -/
def cstr (n : Name) : List UInt8 := n.bytes.takeWhile (· != 0)

/-- The host ids printed with `-f` (`src/direct.c:737-743`): LEADER_RECORD_MAX is 256. -/
def bits (c : Cfg) (b : List UInt8) : List Nat :=
  ((List.range (sizeToMaxHosts c.sector c.align)).filter fun i =>
    (HostEvent.testBit (i + 1) (b.drop 256)).getD false).map (· + 1)

/-- Sector `i` of an area with host ids (`src/direct.c:716-745`). -/
def deltaLine (c : Cfg) (off : Nat) (data : List UInt8) (i : Nat) : Option Line :=
  let b := data.drop (i * c.sector)
  let l := leaderIn c.e b
  if l.magic = 0 then none
  else if l.ownerId = 0 ∧ l.ownerGeneration = 0 then none
  else some (.delta (off + i * c.sector) (cstr l.spaceName) (cstr l.resourceName) l.timestamp l.ownerId l.ownerGeneration
    (if c.force = 0 then [] else bits c b))

/-- One round of the loop over the hosts of a resource (`src/direct.c:774-804`). -/
def hostLines (c : Cfg) (data : List UInt8) (i : Nat) : List Line :=
  let d := dblockIn c.e (data.drop ((2 + i) * c.sector))
  let m := blockAt c.e data c.sector i
  (if c.force > 1 ∧ (d.mbal ≠ 0 ∨ d.inp ≠ 0 ∨ d.lver ≠ 0) then [.dblock i d] else []) ++
  (if shared m then [.sh (i + 1) m.generation] else [])

/-- The request printed with `-f` (`src/direct.c:766-771`). -/
def request (c : Cfg) (data : List UInt8) : Option (UInt64 × UInt32) :=
  if c.force = 0 then none
  else some ((requestIn c.e (data.drop c.sector)).lver, (requestIn c.e (data.drop c.sector)).forceMode)

/-- Entry `j` of sector `i` of an index (`src/direct.c:827-842`), `some none` if it is not printed, `none` if `%s` runs past the end of a name
without a NUL. -/
def entryLine (c : Cfg) (off : Nat) (space : List UInt8) (data : List UInt8) (i j : Nat) : Option (Option Line) :=
  let r := rindexEntryIn c.e (data.drop (i * c.sector + j * 64))
  if r.resOffset = 0 ∧ r.name.bytes.headD 0 = 0 then some none
  else if 0 ∉ r.name.bytes then none
  else some (some (.entry (off + (i * c.sector + j * 64)) space (cstr r.name) r.resOffset))

/-- The positions of the entries of an index in the order of the loops: all sectors but the first. -/
def entryPos (c : Cfg) : List (Nat × Nat) :=
  (List.range (c.count - 1)).flatMap fun i => (List.range (c.sector / 64)).map fun j => (i + 1, j)

/-- `mapM` for the entries, as the loops do it. -/
def entryLines (c : Cfg) (off : Nat) (space : List UInt8) (data : List UInt8) : List (Nat × Nat) → Option (List Line)
  | [] => some []
  | p :: ps =>
    match entryLine c off space data p.1 p.2 with
    | none => none
    | some o =>
      match entryLines c off space data ps with
      | none => none
      | some ls => some (o.toList ++ ls)

/-- One area at `off` in the buffer (`src/direct.c:708-848`): `none` if memory outside of a buffer is read, `some none` if the area has
none of the three magic numbers. -/
def area (c : Cfg) (off : Nat) (data : List UInt8) : Option (Option (List Line)) :=
  let l := leaderIn c.e data
  if l.magic = deltaMagic then some (some ((List.range c.count).filterMap (deltaLine c off data)))
  else if l.magic = paxosMagic then
    if (l.numHosts ≠ 0 ∧ c.align < (1 + l.numHosts.toNat) * c.sector + 144) ∨ (c.force ≠ 0 ∧ c.align < c.sector + 20) then none
    else some (some (.paxos off (cstr l.spaceName) (cstr l.resourceName) l.timestamp l.ownerId l.ownerGeneration l.lver (request c data)
      :: (List.range l.numHosts.toNat).flatMap (hostLines c data)))
  else if l.magic = rindexMagic then
    let h := rindexHeaderIn c.e data
    let first : Line := .header off (cstr h.lockspaceName) h.flags h.sectorSize h.maxResources h.rxOffset
    if c.force = 0 then some (some [first])
    else
      match entryLines c off (cstr h.lockspaceName) data (entryPos c) with
      | none => none
      | some ls => some (some (first :: ls))
  else some none

/-- How `direct_dump` ends: return value and lines, a store or load outside of a buffer, or not yet. -/
inductive Out where
  | done (rv : Int) (lines : List Line)
  | outside
  | running
deriving DecidableEq, Repr

/-- The buffer after `memset(data, 0, sector_size)` and `read_sectors`, whose result is not looked at (`src/direct.c:703-706`). -/
def fill (c : Cfg) (data : List UInt8) : Except Int (List UInt8) → List UInt8
  | .ok b => b
  | .error _ => List.replicate c.sector 0 ++ data.drop c.sector

/-- The loop (`src/direct.c:700-850`), at most `fuel` rounds. -/
def loop (c : Cfg) (dev : Dev) (start endNr : Nat) : Nat → Nat → List UInt8 → List Line → Out
  | 0, _, _, _ => .running
  | fuel + 1, nr, data, out =>
    if endNr ≠ 0 ∧ endNr ≤ nr then .done 0 out
    else
      let d := fill c data (readSectors dev c.sector (start + nr * c.sector) c.align)
      match area c (start + nr * c.sector) d with
      | none => .outside
      | some none => if endNr = 0 then .done 0 out else loop c dev start endNr fuel (nr + c.count) d out
      | some (some ls) => loop c dev start endNr fuel (nr + c.count) d (out ++ ls)

/-- The search for the sizes (`src/direct.c:642-662`) with `n` rounds left: return value of the last read and the sizes. -/
def search (e : Endian) (dev : Dev) (start size : Nat) : Nat → Nat → Int → Int → Int × Int × Int
  | 0, _, s, a => (0, s, a)
  | n + 1, off, s, a =>
    let r := leaderSizes e dev off
    let s' := match r with | .ok (x, _) => x | .error _ => s
    let a' := match r with | .ok (_, x) => x | .error _ => a
    let rv := match r with | .ok _ => 0 | .error rv => rv
    if s' ≠ 0 ∧ a' ≠ 0 then (rv, s', a')
    else if (size ≠ 0 ∧ off + 1048576 ≥ start + size) ∨ n = 0 then (rv, s', a')
    else search e dev start size n (off + 1048576) s' a'

/-- `direct_dump` (`src/direct.c:553-853`) after the path has been read: `start` and `size` from the path, `gs` and `ga` the sizes given
with `-Z` and `-A`, 0 if not given. -/
def dump (e : Endian) (dev : Dev) (force start size : Nat) (gs ga : Nat) (fuel : Nat) : Out :=
  let r := if gs = 0 ∨ ga = 0 then search e dev start size 1024 start gs ga else (0, (gs : Int), (ga : Int))
  let s := r.2.1
  let a := r.2.2
  if s = 0 ∨ a = 0 then .done r.1 []
  else if a < 0 then .done Rv.ENOMEM []
  else if s < 0 ∨ s > a then .outside
  else
    let c : Cfg := ⟨e, s.toNat, a.toNat, force⟩
    loop c dev start (size / c.sector) fuel 0 (List.replicate c.align 0) []

/-! ## next_free -/

/-- The buffer after `memset(data, 0, sector_size)` and `read_sectors` (`src/direct.c:902-905`). -/
def sectorOrZero (dev : Dev) (sector off : Nat) : List UInt8 :=
  match readSectors dev sector off sector with
  | .ok b => b
  | .error _ => List.replicate sector 0

/-- The loop of `direct_next_free` (`src/direct.c:899-919`): the number it prints. -/
def freeLoop (e : Endian) (dev : Dev) (sector count base : Nat) : Nat → Nat → Option Nat
  | 0, _ => none
  | fuel + 1, nr =>
    let m := (leaderIn e (sectorOrZero dev sector (base + nr * sector))).magic
    if m ≠ deltaMagic ∧ m ≠ paxosMagic ∧ m ≠ rindexMagic then some (nr * sector)
    else freeLoop e dev sector count base fuel (nr + count)

/-- How `direct_next_free` ends. -/
inductive FreeOut where
  | printed (n : Nat)
  /-- an automatic variable is read that was not set -/
  | undefined
  | running
deriving DecidableEq, Repr

/-- `direct_next_free` (`src/direct.c:855-927`); `base` is the offset in the path, 0 if there is none. -/
def nextFree (e : Endian) (dev : Dev) (base gs ga fuel : Nat) : FreeOut :=
  if gs = 0 ∨ ga = 0 then .undefined
  else match freeLoop e dev gs (ga / gs) base fuel 0 with
    | some n => .printed n
    | none => .running

/-! ## release -/

/-- The action release of `do_paxos_action` (`src/direct.c:200-224`) after the leader has been read: the token has host id and generation
0 because it was cleared.  Result as in `Acquire.release`: the return value if nothing is written, or the record written. -/
def release (sum : Leader → UInt32) (first again : Except Int Leader) (now : UInt64) : Except Int Leader :=
  match first with
  | .error rv => .error rv
  | .ok l => Acquire.release 0 0 sum again (some l) none now

/-- The action release_id of `do_delta_action` (`src/direct.c:368-392`): the record written. -/
def releaseId (sum : Leader → UInt32) (first : Except Int Leader) : Except Int Leader :=
  match first with
  | .error rv => .error rv
  | .ok l => .ok (Delta.releaseLeader sum l)

/-! ## read_leader and write_leader -/

/-- `delta_lease_leader_read` (`src/delta_lease.c:251-287`) on the record given back and the return value. -/
def readDelta (e : Endian) (space : List UInt8) (zero : Leader) : Except Int (List UInt8) → Int × Leader
  | .error rv => (rv, zero)
  | .ok b => (verifyDeltaSector e space b, leaderIn e b)

/-- `_leader_read_one` called by `do_paxos_action`, whose `leader` is not set before (`src/direct.c:129`, `226-236`, `255-257`); `none` is a
record never set. -/
def readPaxos (e : Endian) (want : Want) : Except Int (List UInt8) → Int × Option Leader
  | .error rv => (rv, none)
  | .ok b => (verifyPaxosSector e want b, some (leaderIn e b))

/-- A line of the file for write_leader (`src/main.c:3503-3570`). -/
inductive SetField where
  | magic (v : UInt32) | version (v : UInt32) | flags (v : UInt32) | sectorSize (v : UInt32)
  | numHosts (v : UInt64) | maxHosts (v : UInt64) | ownerId (v : UInt64) | ownerGeneration (v : UInt64) | lver (v : UInt64)
  | spaceName (v : Name) | resourceName (v : Name) | timestamp (v : UInt64) | checksum (v : UInt32) | ioTimeout (v : UInt16)
  | writeId (v : UInt64) | writeGeneration (v : UInt64) | writeTimestamp (v : UInt64)

/-- The record and the checksum of the file after one line (`src/main.c:3509-3570`). -/
def apply (s : Leader × UInt32) : SetField → Leader × UInt32
  | .magic v => ({ s.1 with magic := v }, s.2)
  | .version v => ({ s.1 with version := v }, s.2)
  | .flags v => ({ s.1 with flags := v }, s.2)
  | .sectorSize v => ({ s.1 with sectorSize := v }, s.2)
  | .numHosts v => ({ s.1 with numHosts := v }, s.2)
  | .maxHosts v => ({ s.1 with maxHosts := v }, s.2)
  | .ownerId v => ({ s.1 with ownerId := v }, s.2)
  | .ownerGeneration v => ({ s.1 with ownerGeneration := v }, s.2)
  | .lver v => ({ s.1 with lver := v }, s.2)
  | .spaceName v => ({ s.1 with spaceName := v }, s.2)
  | .resourceName v => ({ s.1 with resourceName := v }, s.2)
  | .timestamp v => ({ s.1 with timestamp := v }, s.2)
  | .checksum v => (s.1, v)
  | .ioTimeout v => ({ s.1 with ioTimeout := v }, s.2)
  | .writeId v => ({ s.1 with writeId := v }, s.2)
  | .writeGeneration v => ({ s.1 with writeGeneration := v }, s.2)
  | .writeTimestamp v => ({ s.1 with writeTimestamp := v }, s.2)

/-- The first 168 bytes of a `struct leader_record` in the memory of the host, not converted. -/
def nativeHead (e : Endian) (l : Leader) : List UInt8 :=
  storeNative e 4 l.magic.toNat ++ (storeNative e 4 l.version.toNat ++ (storeNative e 4 l.flags.toNat ++
  (storeNative e 4 l.sectorSize.toNat ++ (storeNative e 8 l.numHosts.toNat ++
  (storeNative e 8 l.maxHosts.toNat ++ (storeNative e 8 l.ownerId.toNat ++
  (storeNative e 8 l.ownerGeneration.toNat ++ (storeNative e 8 l.lver.toNat ++
  (l.spaceName.bytes ++ (l.resourceName.bytes ++
  (storeNative e 8 l.timestamp.toNat ++ storeNative e 8 l.unused1.toNat)))))))))))

/-- `read_file_leader` (`src/main.c:3477-3589`): the record in memory.  The checksum is taken of the record before it is converted. -/
def fileLeader (e : Endian) (force : Bool) (l : Leader) (fs : List SetField) : Leader :=
  let s := fs.foldl apply (l, 0)
  { s.1 with checksum := if force then s.2 else leaderChecksum (nativeHead e s.1) }

/-- The bytes `delta_lease_leader_clobber` writes (`src/delta_lease.c:295-311`). -/
def clobberDelta (e : Endian) (l : Leader) : List UInt8 := leaderOut e l l.checksum

/-- The bytes `paxos_lease_leader_clobber` writes (`src/paxos_lease.c:277-298`). -/
def clobberPaxos (e : Endian) (l : Leader) : List UInt8 := leaderOut e l (leaderChecksum (leaderHead e l))

/-- write_leader for a host id (`src/main.c:3640-3685`): the bytes written.  A failed read leaves zeros. -/
def writeDelta (e : Endian) (force : Bool) (space : List UInt8) (zero : Leader) (disk : Except Int (List UInt8)) (fs : List SetField) :
    List UInt8 :=
  clobberDelta e (fileLeader e force (readDelta e space zero disk).2 fs)

/-- write_leader for a resource: `junk` is what was on the stack. -/
def writePaxos (e : Endian) (force : Bool) (want : Want) (junk : Leader) (disk : Except Int (List UInt8)) (fs : List SetField) :
    List UInt8 :=
  clobberPaxos e (fileLeader e force ((readPaxos e want disk).2.getD junk) fs)

end Sanlock.Direct
