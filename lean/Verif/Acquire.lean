import Verif.Liveness
import Verif.SizeFlags

/-!
# Acquiring and releasing a paxos lease: the caller of the ballot

Models `paxos_lease_acquire` (`src/paxos_lease.c:1647-2191`) and `paxos_lease_release`
(`src/paxos_lease.c:2230-2408`) as programs over the results of the disk reads, disk writes, clock readings
and ballots they perform.  What the reads return is arbitrary here; the disk, other hosts and the ballot
are modelled in `Verif/Ballot.lean` and `Verif/Lease.lean`.
-/

namespace Sanlock.Acquire

open OnDisk Liveness SizeFlags

/-- Parameters of the call: `token->host_id`, `token->host_generation`, `acquire_lver`, `new_num_hosts`,
the flags `PAXOS_ACQUIRE_FORCE`, `PAXOS_ACQUIRE_OWNER_NOWAIT`, `PAXOS_ACQUIRE_SHARED`; the I/O timeout of
the lockspace (`host_info` substitutes it for a missing one) and `com.watchdog_fire_timeout`. -/
structure Par where
  hostId : UInt64
  hostGen : UInt64
  acquireLver : UInt64
  newNumHosts : UInt32
  force : Bool
  nowait : Bool
  shared : Bool
  ownIo : UInt16
  wd : Nat

/-- `LFL_SHORT_HOLD` (`src/leader.h:55`). -/
def shortHold : UInt32 := 1

/-- The variables of the wait loop. -/
structure Wait where
  cur : Leader
  maxMbal : UInt64
  hs : HostStatus
  waitStart : UInt64
  lastTs : UInt64

/-- Program points; each waits for the result of one external operation. -/
inductive Pc where
  /-- `restart:` about to call `paxos_lease_read` (1690) -/
  | restart
  /-- about to call `lockspace_disk` and `open_disks_fd` (1768-1786) -/
  | lockspace (cur : Leader) (maxMbal : UInt64)
  /-- about to call `host_info` and `monotime` (1789-1799) -/
  | hostInfo (cur : Leader) (maxMbal : UInt64)
  /-- about to read the owner's host lease (1813) -/
  | delta (w : Wait)
  /-- about to read the owner's dblock (1903) -/
  | ownerBlk (w : Wait)
  /-- about to call `monotime` (1926) -/
  | clock (w : Wait)
  /-- in `sleep(1)` (1959) -/
  | sleep (w : Wait)
  /-- about to read the leader in the wait loop (1973) -/
  | reread (w : Wait)
  /-- `retry_ballot:` (2012); `copy` is `copy_cur_leader` -/
  | retry (cur : Leader) (mbal : UInt64) (copy : Bool)
  /-- in `run_ballot` (2095) -/
  | ballot (cur : Leader) (mbal : UInt64)
  /-- about to call `monotime` and `write_new_leader` (2126, 2152) -/
  | write (cur : Leader)
  /-- returned: the return value, what is in `*leader_ret` and in `*dblock_ret` if they were set -/
  | done (rv : Int) (ret : Option Leader) (dblock : Option Dblock)

/-- Program point, the variables `dblock`, `disk_open`, `token->sector_size`, `token->align_size` and the flag
`T_RETRACT_PAXOS`; `written` is the record of the last successful `write_new_leader` (for properties). -/
structure St where
  pc : Pc
  dblock : Dblock
  diskOpen : Bool
  sector : Nat
  align : Nat
  retract : Bool
  written : Option Leader

/-- Results of the external operations, in the order of their use.  `t` are clock readings, for `delta` the
time at which the sector was read; the program does not see that one. -/
inductive In where
  /-- `paxos_lease_read`: leader and `max_mbal` -/
  | lease (r : Except Int (Leader × UInt64))
  /-- `lockspace_disk`, `open_disks_fd`: 0, or which one failed -/
  | lockspace (r : Except Int Unit)
  /-- `host_info`: the entry of the table, `none` if not found; `garbage` is what the variable `hs` contains
  if it is not set; `t` is the clock. -/
  | hostInfo (t : UInt64) (entry : Option HostStatus) (garbage : HostStatus)
  /-- `delta_lease_leader_read` -/
  | delta (t : UInt64) (r : Except Int Leader)
  /-- `read_dblock` of the owner: `none` on error, else whether `DBLOCK_FL_RELEASED` is set -/
  | ownerBlk (released : Option Bool)
  /-- `monotime` -/
  | clock (now : UInt64)
  /-- end of `sleep(1)`: value of `external_shutdown` -/
  | slept (shutdown : Bool)
  /-- `paxos_lease_leader_read` -/
  | leader (r : Except Int Leader)
  /-- `run_ballot`: return value, `dblock_out` if it was set, and whether it set `T_RETRACT_PAXOS` -/
  | ballot (rv : Int) (dblock : Option Dblock) (retract : Bool)
  /-- `monotime` and the return value of `write_new_leader` -/
  | written (now : UInt64) (rv : Int)

def St.init (sector align : Nat) : St where
  pc := .restart
  dblock := ⟨0, 0, 0, 0, 0, 0, 0, 0⟩
  diskOpen := false
  sector := sector
  align := align
  retract := false
  written := none

/-- `align_size` of the record (`src/paxos_lease.c:1694-1696`); -1 for an unknown sector size is 0 here. -/
def leaderAlign (l : Leader) : Nat :=
  if alignOfFlags l.flags = 0 then (alignOld l.sectorSize.toNat).getD 0 else alignOfFlags l.flags

/-- `src/paxos_lease.c:2005-2010`.  Division by zero (`max_hosts` 0) is undefined in C; such records do not
pass initialisation. -/
def ourMbal (P : Par) (cur : Leader) (maxMbal : UInt64) : UInt64 :=
  if maxMbal = 0 then P.hostId
  else maxMbal - maxMbal % cur.maxHosts + cur.maxHosts + P.hostId

/-- `run:` (`src/paxos_lease.c:1988-2010`). -/
def toRun (P : Par) (s : St) (cur : Leader) (maxMbal : UInt64) (copy : Bool) : St :=
  { s with pc := .retry cur (ourMbal P cur maxMbal) copy }

/-- The decisions after `paxos_lease_read` (`src/paxos_lease.c:1690-1786`). -/
def afterRead (P : Par) (s : St) (cur : Leader) (maxMbal : UInt64) : St :=
  if cur.sectorSize.toNat ≠ s.sector ∨ leaderAlign cur ≠ s.align then
    { s with pc := .restart, sector := cur.sectorSize.toNat, align := leaderAlign cur }
  else if P.force then toRun P s cur maxMbal true
  else if P.acquireLver ≠ 0 ∧ cur.lver ≠ P.acquireLver then { s with pc := .done Rv.ACQUIRE_LVER none none }
  else if cur.timestamp = 0 then toRun P s cur maxMbal true
  else if cur.ownerId = P.hostId ∧ cur.ownerGeneration = P.hostGen then toRun P s cur maxMbal true
  else if cur.ownerId = P.hostId ∧ cur.ownerGeneration < P.hostGen then toRun P s cur maxMbal true
  else if s.diskOpen then { s with pc := .hostInfo cur maxMbal }
  else { s with pc := .lockspace cur maxMbal }

/-- `src/paxos_lease.c:1789-1799`. -/
def afterHostInfo (P : Par) (s : St) (cur : Leader) (maxMbal t : UInt64) (entry : Option HostStatus)
    (garbage : HostStatus) : St :=
  match hostInfo P.ownIo entry with
  | some hs =>
    if hs.lastCheck ≠ 0 ∧ hs.lastLive ≠ 0 ∧ hs.ownerId = cur.ownerId ∧
        hs.ownerGeneration = cur.ownerGeneration then
      { s with pc := .delta ⟨cur, maxMbal, hs, hs.lastLive, hs.timestamp⟩ }
    else { s with pc := .delta ⟨cur, maxMbal, hs, t, 0⟩ }
  | none => { s with pc := .delta ⟨cur, maxMbal, garbage, t, 0⟩ }

/-- The decisions on the owner's host lease (`src/paxos_lease.c:1834-1919`). -/
def afterDelta (P : Par) (s : St) (w : Wait) (l : Leader) : St :=
  if l.timestamp = 0 then toRun P s w.cur w.maxMbal false
  else if l.ownerId ≠ w.cur.ownerId ∨ l.ownerGeneration > w.cur.ownerGeneration then
    toRun P s w.cur w.maxMbal false
  else if w.lastTs = 0 then { s with pc := .sleep { w with lastTs := l.timestamp } }
  else if l.timestamp ≠ w.lastTs ∨ (w.hs.lastLive ≠ 0 ∧ w.hs.lastCheck = w.hs.lastLive) then
    if w.cur.writeId ≠ w.cur.ownerId then { s with pc := .ownerBlk w }
    else { s with pc := .done Rv.ACQUIRE_IDLIVE (some w.cur) none }
  else { s with pc := .clock w }

/-- `src/paxos_lease.c:1926-1954`. -/
def afterClock (P : Par) (s : St) (w : Wait) (now : UInt64) : St :=
  if now - w.waitStart > deadSecs P.wd w.hs.ioTimeout then toRun P s w.cur w.maxMbal false
  else if P.nowait then { s with pc := .done Rv.ACQUIRE_OWNED_RETRY none none }
  else { s with pc := .sleep w }

/-- The checks of the leader before a ballot (`src/paxos_lease.c:2028-2093`). -/
def beforeBallot (P : Par) (s : St) (cur tmp : Leader) (mbal : UInt64) : St :=
  if tmp.lver = cur.lver + 1 then
    if tmp.ownerId = P.hostId ∧ tmp.ownerGeneration = P.hostGen then
      { s with pc := .done Rv.OK (some tmp) (some s.dblock) }
    else { s with pc := .done Rv.ACQUIRE_OWNED (some tmp) none }
  else if tmp.lver > cur.lver + 1 then { s with pc := .restart }
  else if cur ≠ tmp then { s with pc := .restart }
  else { s with pc := .ballot cur mbal }

/-- The record to commit (`src/paxos_lease.c:2118-2150`); `checksum` is computed when it is written and then
stored in the variable as well (`write_leader`, 262). -/
def newLeader (P : Par) (sum : Leader → UInt32) (cur : Leader) (db : Dblock) (now : UInt64) : Leader :=
  let l : Leader :=
    { cur with
      lver := db.lver
      ownerId := db.inp
      ownerGeneration := db.inp2
      timestamp := db.inp3
      writeId := P.hostId
      writeGeneration := P.hostGen
      writeTimestamp := now
      numHosts := if P.newNumHosts ≠ 0 then P.newNumHosts.toInt32.toInt64.toUInt64 else cur.numHosts
      flags := if db.inp = P.hostId then (if P.shared then cur.flags ||| shortHold else cur.flags &&& ~~~shortHold)
        else cur.flags
      checksum := 0 }
  { l with checksum := sum l }

/-- One step: the program point consumes the result it waits for. -/
def step (P : Par) (sum : Leader → UInt32) (s : St) : In → Option St
  | .lease r =>
    match s.pc with
    | .restart =>
      match r with
      | .error e => some { s with pc := .done e none none }
      | .ok (cur, m) => some (afterRead P s cur m)
    | _ => none
  | .lockspace r =>
    match s.pc with
    | .lockspace cur m =>
      match r with
      | .error e => some { s with pc := .done e none none }
      | .ok () => some { s with pc := .hostInfo cur m, diskOpen := true }
    | _ => none
  | .hostInfo t entry garbage =>
    match s.pc with
    | .hostInfo cur m => some (afterHostInfo P s cur m t entry garbage)
    | _ => none
  | .delta _ r =>
    match s.pc with
    | .delta w =>
      match r with
      | .error e => some { s with pc := .done e none none }
      | .ok l => some (afterDelta P s w l)
    | _ => none
  | .ownerBlk r =>
    match s.pc with
    | .ownerBlk w =>
      if r = some true then some (toRun P s w.cur w.maxMbal false)
      else some { s with pc := .done Rv.ACQUIRE_IDLIVE (some w.cur) none }
    | _ => none
  | .clock now =>
    match s.pc with
    | .clock w => some (afterClock P s w now)
    | _ => none
  | .slept shutdown =>
    match s.pc with
    | .sleep w =>
      if shutdown then some { s with pc := .done (-1) none none } else some { s with pc := .reread w }
    | _ => none
  | .leader r =>
    match s.pc with
    | .reread w =>
      match r with
      | .error e => some { s with pc := .done e none none }
      | .ok tmp => if w.cur ≠ tmp then some { s with pc := .restart } else some { s with pc := .delta w }
    | .retry cur mbal false =>
      match r with
      | .error e => some { s with pc := .done e none none }
      | .ok tmp => some (beforeBallot P s cur tmp mbal)
    | _ => none
  | .ballot rv db retract =>
    match s.pc with
    | .ballot cur mbal =>
      let s := { s with dblock := db.getD ⟨0, 0, 0, 0, 0, 0, 0, 0⟩, retract := s.retract || retract }
      if rv = Rv.DBLOCK_MBAL ∨ rv = Rv.DBLOCK_LVER then
        some { s with pc := .retry cur (mbal + cur.maxHosts) false }
      else if rv < 0 then some { s with pc := .done rv none none }
      else some { s with pc := .write cur }
    | _ => none
  | .written now rv =>
    match s.pc with
    | .write cur =>
      let new := newLeader P sum cur s.dblock now
      if rv < 0 then some { s with pc := .done rv (some new) none, retract := true }
      else if new.ownerId ≠ P.hostId then
        some { s with pc := .done Rv.ACQUIRE_OTHER (some new) none, written := some new }
      else some { s with pc := .done Rv.OK (some new) (some s.dblock), written := some new }
    | _ => none

/-- The step that needs no input: `copy_cur_leader` (`src/paxos_lease.c:2014-2018`). -/
def settle (P : Par) (s : St) : St :=
  match s.pc with
  | .retry cur mbal true => beforeBallot P s cur cur mbal
  | _ => s

/-- Executions: `ins` are the results of the operations so far, newest first. -/
inductive Exec (P : Par) (sum : Leader → UInt32) (s0 : St) : List In → St → Prop
  | nil : Exec P sum s0 [] s0
  | step {ins : List In} {s s' : St} {i : In} :
    Exec P sum s0 ins s → step P sum s i = some s' → Exec P sum s0 (i :: ins) (settle P s')

/-- Execute, oldest result first. -/
def run (P : Par) (sum : Leader → UInt32) (s : St) : List In → Option St
  | [] => some s
  | i :: rest => (step P sum s i).bind fun s' => run P sum (settle P s') rest

/-! ## Release -/

/-- `paxos_lease_release` (`src/paxos_lease.c:2230-2408`) up to the write: `disk` is the result of reading the
leader, `last` is `leader_last`, `rename` the new resource name; the result is the return value if nothing is
written, or the record given to `write_new_leader`. -/
def release (hostId hostGen : UInt64) (sum : Leader → UInt32) (disk : Except Int Leader)
    (last : Option Leader) (rename : Option Name) (now : UInt64) : Except Int Leader :=
  match disk with
  | .error e => .error e
  | .ok leader =>
    let last := last.getD leader
    if leader.writeId ≠ hostId then .error 0
    else if leader.lver ≠ last.lver then .error Rv.RELEASE_LVER
    else if leader.timestamp = 0 then .error Rv.RELEASE_OWNER
    else if leader.ownerId ≠ hostId ∨ leader.ownerGeneration ≠ hostGen then .error Rv.RELEASE_OWNER
    else if leader ≠ last then .error Rv.RELEASE_OWNER
    else
      let l : Leader :=
        { leader with
          resourceName := rename.getD leader.resourceName
          timestamp := 0
          writeId := hostId
          writeGeneration := hostGen
          writeTimestamp := now
          flags := leader.flags &&& ~~~shortHold
          checksum := 0 }
      .ok { l with checksum := sum l }

end Sanlock.Acquire
