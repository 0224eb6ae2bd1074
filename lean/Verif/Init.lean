import Verif.Verify
import Verif.SizeFlags

/-!
# Initialising a lockspace or a resource, and crashes in the middle of it

Models `delta_lease_init` (`src/delta_lease.c:834-945`), `paxos_lease_init`
(`src/paxos_lease.c:2410-2517`) and the reads that meet their result: `delta_read_lockspace_sizes`
(`src/delta_lease.c:211-249`), `delta_read_lockspace` (`149-209`), `cmd_read_lockspace`
(`src/cmd.c:1572-1589`), the first reads of a joining host (`src/lockspace.c:792-823`, then
`src/delta_lease.c:362-369`), and `paxos_read_resource` (`src/paxos_lease.c:1073-1144`).

A disk area is a function from sector numbers to bytes; the sectors have the size the area is being
initialised with.  Simplifications: a sector is written whole or not at all; a write that was interrupted
has landed on an arbitrary set of its sectors; only one disk per resource; the reader uses the sector
size of the initialisation (a user can pass a wrong size flag to `read_lockspace`, this is not modelled).
-/

namespace Sanlock.Init

open OnDisk Crc Verify SizeFlags

/-- Contents of the disk from the offset of the lease on. -/
abbrev Area := Nat → List UInt8

/-- A write of `n` sectors with contents `new` of which only those in `S` have landed. -/
def land (n : Nat) (S : Nat → Bool) (new old : Area) : Area :=
  fun i => if i < n ∧ S i = true then new i else old i

/-- A write that has completed. -/
def landAll (n : Nat) (new old : Area) : Area := land n (fun _ => true) new old

/-! ## Lockspace -/

/-- What `sanlock direct init` / `sanlk_write_lockspace` is given, after `sizes_from_flags` and the
defaults (`src/delta_lease.c:850-863`). -/
structure LsPar where
  e : Endian
  name : Name
  sector : Nat
  align : Nat
  maxHosts : Nat
  ioTimeout : UInt16

/-- The record of one host (`src/delta_lease.c:879-892`). -/
def deltaRecord (P : LsPar) : Leader where
  magic := deltaMagic
  version := 0x00030004
  flags := flagOfAlign P.align
  sectorSize := UInt32.ofNat P.sector
  numHosts := 0
  maxHosts := 1
  ownerId := 0
  ownerGeneration := 0
  lver := 0
  spaceName := P.name
  resourceName := ⟨List.replicate 48 0, by simp⟩
  timestamp := 0
  unused1 := 0
  checksum := 0
  unused2 := 0
  ioTimeout := P.ioTimeout
  writeId := 0
  writeGeneration := 0
  writeTimestamp := 0

/-- A record in a zeroed sector. -/
def padTo (n : Nat) (b : List UInt8) : List UInt8 := b ++ List.replicate (n - b.length) 0

/-- Number of sectors of the area. -/
def LsPar.n (P : LsPar) : Nat := P.align / P.sector

/-- The first write: a record per host, the first with magic 0 (`src/delta_lease.c:873-911`). -/
def deltaBuf1 (P : LsPar) : Area := fun i =>
  if i = 0 then padTo P.sector (leaderWrite P.e { deltaRecord P with magic := 0 })
  else if i < P.maxHosts then padTo P.sector (leaderWrite P.e (deltaRecord P))
  else List.replicate P.sector 0

/-- The second write, one sector (`src/delta_lease.c:922-938`). -/
def deltaBuf2 (P : LsPar) : Area := fun _ => padTo P.sector (leaderWrite P.e (deltaRecord P))

/-- The states of the disk in which `delta_lease_init` can be interrupted, or finish. -/
inductive DeltaCrash (P : LsPar) (old : Area) : Area → Prop where
  /-- before the first write, during it, or after it -/
  | first (S : Nat → Bool) : DeltaCrash P old (land P.n S (deltaBuf1 P) old)
  /-- during or after the second write, which is issued only when the first one has completed -/
  | second (S : Nat → Bool) : DeltaCrash P old (land 1 S (deltaBuf2 P) (landAll P.n (deltaBuf1 P) old))

/-- The disk after a `delta_lease_init` that returned success. -/
def deltaDone (P : LsPar) (old : Area) : Area := landAll 1 (deltaBuf2 P) (landAll P.n (deltaBuf1 P) old)

/-- Align size from the flags of a record, with the historical default (`src/delta_lease.c:244-246`). -/
def recordAlign (l : Leader) : Nat :=
  if alignOfFlags l.flags ≠ 0 then alignOfFlags l.flags else (alignOld l.sectorSize.toNat).getD 0

/-- `delta_read_lockspace_sizes` (`src/delta_lease.c:211-249`); the checksum is not looked at. -/
def readSizes (e : Endian) (D : Area) : Except Int (Nat × Nat) :=
  let l := leaderIn e (D 0)
  if l.magic ≠ deltaMagic then .error Rv.LEADER_MAGIC
  else if l.version &&& 0xFFFF0000 ≠ deltaMajor then .error Rv.LEADER_VERSION
  else .ok (l.sectorSize.toNat, recordAlign l)

/-- `delta_read_lockspace` (`src/delta_lease.c:149-209`): the record of one host; an empty name in the
request accepts any name. -/
def readLockspace (e : Endian) (name : List UInt8) (hostId : Nat) (D : Area) : Except Int Leader :=
  let l := leaderIn e (D (hostId - 1))
  let want := if name.headD 0 = 0 then l.spaceName.bytes else name
  let rv := verifyDelta want l (leaderChecksum (D (hostId - 1)))
  if rv = Rv.OK then .ok l else .error rv

/-- `cmd_read_lockspace` (`src/cmd.c:1572-1589`): the sizes are read from the first record only when the
caller has not given them. -/
def cmdReadLockspace (e : Endian) (sizesGiven : Bool) (name : List UInt8) (hostId : Nat) (D : Area) :
    Except Int Leader :=
  if sizesGiven then readLockspace e name hostId D
  else match readSizes e D with
    | .error rv => .error rv
    | .ok (s, _) => if s ≠ 512 ∧ s ≠ 4096 then .error (-22) else readLockspace e name hostId D

/-- The reads with which a host joins: sizes, checks, then its own record
(`src/lockspace.c:792-823`; `delta_lease_leader_read` in `delta_lease_acquire`,
`src/delta_lease.c:362-369`). -/
def joinRead (e : Endian) (name : List UInt8) (hostId : Nat) (D : Area) : Except Int Leader :=
  match readSizes e D with
  | .error rv => .error rv
  | .ok (s, a) =>
    if s ≠ 512 ∧ s ≠ 4096 then .error Rv.LEADER_SECTORSIZE
    else if sizeToMaxHosts s a = 0 then .error (-1)
    else if sizeToMaxHosts s a < hostId then .error (-1)
    else
      let rv := verifyDeltaSector e name (D (hostId - 1))
      if rv = Rv.OK then .ok (leaderIn e (D (hostId - 1))) else .error rv

/-! ## Resource -/

/-- What `paxos_lease_init` is given, after `sizes_from_flags` and the defaults
(`src/paxos_lease.c:2428-2440`). -/
structure LeasePar where
  e : Endian
  space : Name
  name : Name
  sector : Nat
  align : Nat
  numHosts : UInt64
  maxHosts : UInt64
  /-- `write_clear` and the clock -/
  clear : Bool
  now : UInt64

/-- Number of sectors of the area. -/
def LeasePar.n (P : LeasePar) : Nat := P.align / P.sector

/-- The leader record (`src/paxos_lease.c:2458-2475`). -/
def leaseRecord (P : LeasePar) : Leader where
  magic := if P.clear then paxosClear else paxosMagic
  version := 0x00060004
  flags := flagOfAlign P.align
  sectorSize := UInt32.ofNat P.sector
  numHosts := P.numHosts
  maxHosts := P.maxHosts
  ownerId := 0
  ownerGeneration := 0
  lver := 0
  spaceName := P.space
  resourceName := P.name
  timestamp := 0
  unused1 := 0
  checksum := 0
  unused2 := 0
  ioTimeout := 0
  writeId := 0
  writeGeneration := 0
  writeTimestamp := if P.clear then P.now else 0

/-- The request record (`src/paxos_lease.c:2477-2479`). -/
def requestRecord : Request where
  magic := 0x08292011
  version := 0x00010001
  lver := 0
  forceMode := 0

/-- The buffer that is written (`src/paxos_lease.c:2481-2494`). -/
def leaseBuf (P : LeasePar) : Area := fun i =>
  if i = 0 then padTo P.sector (leaderWrite P.e (leaseRecord P))
  else if i = 1 then padTo P.sector (requestOut P.e requestRecord)
  else List.replicate P.sector 0

/-- The states of the disk in which `paxos_lease_init` can be interrupted, or finish: one write. -/
inductive LeaseCrash (P : LeasePar) (old : Area) : Area → Prop where
  | write (S : Nat → Bool) : LeaseCrash P old (land P.n S (leaseBuf P) old)

/-- `paxos_read_resource` (`src/paxos_lease.c:1073-1144`): empty names in the request accept any name;
`exists` is `T_CHECK_EXISTS`, with which only the magic number is tested.  `host_id` of the token is 0
there, so the number of hosts is not tested. -/
def readResource (e : Endian) (checkExists : Bool) (space name : List UInt8) (D : Area) : Except Int Leader :=
  let l := leaderIn e (D 0)
  let sp := if space.headD 0 = 0 then l.spaceName.bytes else space
  let nm := if name.headD 0 = 0 then l.resourceName.bytes else name
  let rv := if checkExists then (if l.magic ≠ paxosMagic then Rv.LEADER_MAGIC else Rv.OK)
    else verifyLeader ⟨sp, nm, 0⟩ l (leaderChecksum (D 0))
  if rv = Rv.OK then .ok l else .error rv

end Sanlock.Init
