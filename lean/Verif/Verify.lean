import Verif.OnDisk
import Verif.Crc
import Verif.Rv
import Verif.Ballot

/-!
# Reading and verifying leader records

Models `_verify_leader` and `leaders_match` (`src/paxos_lease.c:944-1035`, `1064-1069`), the delta
`verify_leader` (`src/delta_lease.c:82-144`), `_leader_read_one`, `_leader_read_num`
(`src/paxos_lease.c:1179-1300`) and the leader part of `_lease_read_num` (`1442-1537`).
-/

namespace Sanlock.Verify

open OnDisk Crc

/-- `strncmp(a, b, n) == 0` on the bytes of two character arrays; reading past the end of a list, which
does not happen for the 48-byte arrays, yields a NUL. -/
def strncmpEq : Nat → List UInt8 → List UInt8 → Bool
  | 0, _, _ => true
  | n + 1, a, b =>
    let x := a.headD 0
    let y := b.headD 0
    if x ≠ y then false
    else if x = 0 then true
    else strncmpEq n a.tail b.tail

/-- What a caller asks for: `token->r.lockspace_name`, `token->r.name`, `token->host_id`. -/
structure Want where
  space : List UInt8
  resource : List UInt8
  hostId : UInt64

/-- `PAXOS_DISK_MAGIC`, `PAXOS_DISK_CLEAR`, `PAXOS_DISK_VERSION_MAJOR`, `DELTA_DISK_MAGIC`,
`DELTA_DISK_VERSION_MAJOR` (`src/leader.h:14-36`). -/
def paxosMagic : UInt32 := 0x06152010
def paxosClear : UInt32 := 0x11282016
def paxosMajor : UInt32 := 0x00060000
def deltaMagic : UInt32 := 0x12212010
def deltaMajor : UInt32 := 0x00030000

/-- `_verify_leader` (`src/paxos_lease.c:944-1035`), logging omitted. -/
def verifyLeader (t : Want) (lr : Leader) (checksum : UInt32) : Int :=
  if lr.magic = paxosClear then Rv.LEADER_MAGIC
  else if lr.magic ≠ paxosMagic then Rv.LEADER_MAGIC
  else if lr.version &&& 0xFFFF0000 ≠ paxosMajor then Rv.LEADER_VERSION
  else if !strncmpEq 48 lr.spaceName.bytes t.space then Rv.LEADER_LOCKSPACE
  else if !strncmpEq 48 lr.resourceName.bytes t.resource then Rv.LEADER_RESOURCE
  else if lr.numHosts < t.hostId then Rv.LEADER_NUMHOSTS
  else if lr.checksum ≠ checksum then Rv.LEADER_CHECKSUM
  else Rv.OK

/-- `read_leader` then `verify_leader` on the bytes of the sector (`src/paxos_lease.c:365-390`). -/
def verifyPaxosSector (e : Endian) (t : Want) (buf : List UInt8) : Int :=
  verifyLeader t (leaderIn e buf) (leaderChecksum buf)

/-- Delta lease `verify_leader` (`src/delta_lease.c:82-144`). -/
def verifyDelta (space : List UInt8) (lr : Leader) (checksum : UInt32) : Int :=
  if lr.magic ≠ deltaMagic then Rv.LEADER_MAGIC
  else if lr.version &&& 0xFFFF0000 ≠ deltaMajor then Rv.LEADER_VERSION
  else if !strncmpEq 48 lr.spaceName.bytes space then Rv.LEADER_LOCKSPACE
  else if lr.checksum ≠ checksum then Rv.LEADER_CHECKSUM
  else Rv.OK

/-- `delta_lease_leader_read` on the bytes of the sector (`src/delta_lease.c:251-287`). -/
def verifyDeltaSector (e : Endian) (space : List UInt8) (buf : List UInt8) : Int :=
  verifyDelta space (leaderIn e buf) (leaderChecksum buf)

/-! ## Reading from several disks -/

/-- `leaders_match` (`src/paxos_lease.c:1064-1069`): the first 152 bytes, that is all fields before
`timestamp`; the structure has no padding there. -/
def leadersMatch (a b : Leader) : Bool :=
  a.magic == b.magic && a.version == b.version && a.flags == b.flags &&
  a.sectorSize == b.sectorSize && a.numHosts == b.numHosts && a.maxHosts == b.maxHosts &&
  a.ownerId == b.ownerId && a.ownerGeneration == b.ownerGeneration && a.lver == b.lver &&
  decide (a.spaceName = b.spaceName) && decide (a.resourceName = b.resourceName)

/-- Result of reading one disk: what is in `leaders[d]` afterwards, and whether read and verification
succeeded.  `read_leader` decodes its buffer into `leaders[d]` also when the read or the verification
fails, so the content of a failed disk is arbitrary here. -/
structure DiskRead where
  leader : Leader
  ok : Bool

/-- `for (i = 0; i < d; i++) if (leaders_match(...)) { leader_reps[i]++; break; }`
(`src/paxos_lease.c:1258-1263`). -/
def bumpFirst (l : Leader) : List (Leader × Nat) → List (Leader × Nat)
  | [] => []
  | (m, n) :: rest => if leadersMatch l m then (m, n + 1) :: rest else (m, n) :: bumpFirst l rest

/-- Body of the loop over the disks (`src/paxos_lease.c:1243-1264`). -/
def addRead (acc : List (Leader × Nat)) (r : DiskRead) : List (Leader × Nat) :=
  if r.ok then bumpFirst r.leader acc ++ [(r.leader, 1)] else acc ++ [(r.leader, 0)]

/-- The arrays `leaders` and `leader_reps` after the loop. -/
def reps (disks : List DiskRead) : List (Leader × Nat) := disks.foldl addRead []

/-- The first disk whose count is a majority (`src/paxos_lease.c:1276-1287`). -/
def pick (numDisks : Nat) : List (Leader × Nat) → Option Leader
  | [] => none
  | (l, n) :: rest => if Ballot.majority numDisks n then some l else pick numDisks rest

/-- `_leader_read_num` (`src/paxos_lease.c:1204-1300`). -/
def leaderReadNum (disks : List DiskRead) : Except Int Leader :=
  if !Ballot.majority disks.length (disks.filter (·.ok)).length then .error Rv.LEADER_READ
  else match pick disks.length (reps disks) with
    | none => .error Rv.LEADER_DIFF
    | some l => .ok l

/-- The same loop in `_lease_read_num` (`src/paxos_lease.c:1484-1537`): `leaders[d]` stays zeroed when
`_lease_read_one` fails, there is no majority check on the number of reads, and the function returns the
variable `rv` of the last disk, not success.  `rv d` is the result of `_lease_read_one` on each disk,
`zero` the zeroed record. -/
def leaseReadNum (zero : Leader) (disks : List (Leader × Int)) : Int × Option Leader :=
  let ds := disks.map fun (l, rv) => if rv < 0 then ⟨zero, false⟩ else (⟨l, true⟩ : DiskRead)
  if (ds.filter (·.ok)).length = 0 then (Rv.DBLOCK_READ, none)
  else match pick disks.length (reps ds) with
    | none => (Rv.LEADER_DIFF, none)
    | some l => ((disks.getLast?.map (·.2)).getD 0, some l)

/-- `_leader_read_one` (`src/paxos_lease.c:1179-1202`) on the result of reading the sector. -/
def leaderReadOne (e : Endian) (t : Want) : Except Int (List UInt8) → Except Int Leader
  | .error rv => .error rv
  | .ok buf =>
    let rv := verifyPaxosSector e t buf
    if rv = Rv.OK then .ok (leaderIn e buf) else .error rv

end Sanlock.Verify
