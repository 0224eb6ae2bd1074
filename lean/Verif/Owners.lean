import Verif.Verify
import Verif.SizeFlags

/-!
# The list of hosts that own a lease

Models `read_resource_owners` (`src/resource.c:157-327`), which answers `sanlock_read_resource_owners`
(`src/client.c:637-736`, `src/cmd.c:1710-1816`), with `paxos_read_buf` (`src/paxos_lease.c:1146-1177`).

Simplifications: memory exhaustion is left out; the `int` arithmetic of buffer positions is exact; a mode block outside the
buffer is the outcome `outside`.
-/

namespace Sanlock.Owners

open OnDisk Crc Verify SizeFlags

/-- `struct sanlk_host` (`src/sanlock_admin.h`), the fields that are set. -/
structure Host where
  hostId : Nat
  generation : UInt64
  timestamp : UInt64
deriving DecidableEq, Repr

/-- How one pass ends: error return, `goto retry` with other sizes, a read outside the buffer, or success with `res->lver`, the
flag SANLK_RES_SHARED, the number of hosts for which memory was allocated, and the hosts filled in. -/
inductive Out where
  | fail (rv : Int)
  | again (sector align : Int)
  | outside
  | owners (lver : UInt64) (shared : Bool) (count : Nat) (hosts : List Host)
deriving DecidableEq, Repr

/-- `sector_size_to_align_size_old` as the `int` it returns (`src/sizeflags.c:54-61`). -/
def alignOldInt (sector : Int) : Int :=
  if sector = 512 then 1048576 else if sector = 4096 then 8388608 else -1

/-- Mode block `i` in the buffer (`src/resource.c:247-250`; MBLOCK_OFFSET is 128). -/
def blockAt (e : Endian) (buf : List UInt8) (sector i : Nat) : ModeBlock :=
  modeBlockIn e (buf.drop ((2 + i) * sector + 128))

/-- `mb.flags & MBLOCK_SHARED` -/
def shared (m : ModeBlock) : Bool := m.flags &&& 1 != 0

/-- `leader.timestamp && leader.owner_id` -/
def owned (l : Leader) : Bool := l.timestamp != 0 && l.ownerId != 0

/-- One round of the first loop (`src/resource.c:246-265`): the counter and SANLK_RES_SHARED. -/
def countStep (e : Endian) (buf : List UInt8) (sector : Nat) (l : Leader) (acc : Nat × Bool) (i : Nat) : Nat × Bool :=
  if !shared (blockAt e buf sector i) then acc
  else if owned l && i + 1 == l.ownerId.toNat then (acc.1, true)
  else (acc.1 + 1, true)

/-- One round of the second loop (`src/resource.c:300-317`). -/
def fillStep (e : Endian) (buf : List UInt8) (sector : Nat) (l : Leader) (acc : List Host) (i : Nat) : List Host :=
  if !shared (blockAt e buf sector i) then acc
  else if owned l && i + 1 == l.ownerId.toNat then acc
  else acc ++ [⟨i + 1, (blockAt e buf sector i).generation, 0⟩]

/-- After the leader has been verified (`src/resource.c:240-318`). -/
def collect (e : Endian) (buf : List UInt8) (sector : Nat) (l : Leader) : Out :=
  let n := l.numHosts.toNat
  if n ≠ 0 ∧ buf.length < (1 + n) * sector + 144 then .outside
  else
    let c := (List.range n).foldl (countStep e buf sector l) (if owned l then 1 else 0, false)
    if c.1 = 0 then .owners l.lver c.2 0 []
    else
      let first : List Host := if owned l then [⟨l.ownerId.toNat, l.ownerGeneration, l.timestamp⟩] else []
      .owners l.lver c.2 c.1 ((List.range n).foldl (fillStep e buf sector l) first)

/-- The alignment a leader record says (`src/resource.c:200-202`). -/
def leaderAlign (l : Leader) : Int :=
  if alignOfFlags l.flags ≠ 0 then alignOfFlags l.flags else alignOldInt l.sectorSize.toNat

/-- `paxos_read_buf` and the code up to the verification (`src/resource.c:188-238`).  `read len` is the result of reading `len`
bytes from the start of the area; `setS`, `setA`: the caller gave the sizes. -/
def pass (e : Endian) (t : Want) (setS setA : Bool) (read : Nat → Except Int (List UInt8)) (sector align : Int) : Out :=
  if sector = 0 ∨ align = 0 then .fail Rv.EINVAL
  else if align < 0 then .fail align
  else
    match read align.toNat with
    | .error rv => .fail rv
    | .ok buf =>
      let l := leaderIn e buf
      let a := leaderAlign l
      if setS ∧ sector ≠ l.sectorSize.toNat then .fail Rv.EINVAL
      else if setA ∧ align ≠ a then .fail Rv.EINVAL
      else if sector ≠ l.sectorSize.toNat ∨ align ≠ a then .again l.sectorSize.toNat a
      else
        let rv := verifyLeader t l (leaderChecksum buf)
        if rv < 0 then .fail rv
        else collect e buf sector.toNat l

/-- The loop with label `retry`: `none` if it has not ended after `fuel` passes; `read k` is what pass `k` reads. -/
def loop (e : Endian) (t : Want) (setS setA : Bool) (read : Nat → Nat → Except Int (List UInt8)) :
    Nat → Nat → Int → Int → Option Out
  | 0, _, _, _ => none
  | fuel + 1, k, sector, align =>
    match pass e t setS setA (read k) sector align with
    | .again s a => loop e t setS setA read fuel (k + 1) s a
    | o => some o

/-- `read_resource_owners` with the sizes the caller gave, 0 if not given (`src/resource.c:170-186`). -/
def readOwners (e : Endian) (t : Want) (sector align : Nat) (read : Nat → Nat → Except Int (List UInt8)) (fuel : Nat) :
    Option Out :=
  let s : Int := if sector = 0 then 512 else sector
  let a : Int := if align = 0 then alignOldInt s else align
  loop e t (sector != 0) (align != 0) read fuel 0 s a

end Sanlock.Owners
