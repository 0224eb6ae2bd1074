import Verif.Verify

/-!
# Host id (delta) leases

Models `src/delta_lease.c`: the decisions of `delta_lease_acquire` (328-514), `delta_lease_renew`
(516-779), `delta_lease_release` (781-829) on decoded leader records, and, on top of these functions, any
number of hosts competing for one host id in real time.
-/

namespace Sanlock.Delta

open OnDisk Crc Verify

/-- `calc_host_dead_seconds` and the delay before taking over a host id that looks abandoned
(`src/delta_lease.c:402-408`), for the watchdog fire timeout `wd`. -/
def hostDead (wd io : Nat) : Nat := 8 * io + wd
def largeDelay (wd io : Nat) : Nat := max (hostDead wd io) (2 * io + 6 * io)

/-- `other_io_timeout` (`src/delta_lease.c:357-366`). -/
def otherIo (l : Leader) (own : UInt32) : Nat := if l.ioTimeout = 0 then own.toNat else l.ioTimeout.toNat

/-- `snprintf(leader.resource_name, NAME_ID_SIZE, "%s", our_host_name)` (`src/delta_lease.c:451`): at most
47 characters and a NUL; the bytes behind keep what was there. -/
def snprintfName (old : Name) (s : List UInt8) : Name :=
  let t := (s.takeWhile (· ≠ 0)).take 47
  ⟨(t ++ 0 :: old.bytes.drop (t.length + 1)), by
    have h : t.length ≤ 47 := by simp only [t, List.length_take]; omega
    have := old.len
    simp only [List.length_append, List.length_cons, List.length_drop]; omega⟩

/-- What the first read leads to (`src/delta_lease.c:348-375`). -/
inductive First where
  | write
  | wait
deriving DecidableEq, Repr

/-- `src/delta_lease.c:368-374`. -/
def first (name : List UInt8) (l : Leader) : First :=
  if l.timestamp = 0 then .write
  else if strncmpEq 48 l.resourceName.bytes name then .write
  else .wait

/-- The record after the delay: go on, or `SANLK_HOSTID_BUSY` (`src/delta_lease.c:427-443`). -/
def second (before l : Leader) : Bool := decide (before = l) || decide (l.timestamp = 0)

/-- The new record (`src/delta_lease.c:445-467`); `sum` computes the checksum of the encoded record. -/
def newLeader (sum : Leader → UInt32) (io : UInt32) (hostId : UInt64) (name : List UInt8) (l : Leader)
    (ts : UInt64) : Leader :=
  let l' : Leader :=
    { l with
      timestamp := ts
      ioTimeout := (io &&& 0xFF).toUInt16
      ownerId := hostId
      ownerGeneration := l.ownerGeneration + 1
      resourceName := snprintfName l.resourceName name
      checksum := 0 }
  { l' with checksum := sum l' }

/-- The final read must find the record as written (`src/delta_lease.c:491-499`). -/
def final (written l : Leader) : Bool := decide (written = l)

/-- `struct delta_extra`, the three fields the main loop puts into the record. -/
structure Extra where
  field1 : UInt64
  field2 : UInt64
  field3 : UInt64

/-- `delta_lease_renew` from the completed read to the write (`src/delta_lease.c:657-733`): an error code, or
the record to write.  `last` is `leader_last`, `prevOk` whether the previous renewal succeeded, `l` and
`checksum` the record found in our sector and its computed checksum, `ts` the clock. -/
def renew (sum : Leader → UInt32) (space : List UInt8) (io : UInt32) (prevOk : Bool) (last l : Leader)
    (checksum : UInt32) (ts : UInt64) (ex : Option Extra) : Except Int Leader :=
  if verifyDelta space l checksum < 0 then .error (verifyDelta space l checksum)
  else if l.ownerId ≠ last.ownerId ∨ l.ownerGeneration ≠ last.ownerGeneration ∨
      l.resourceName ≠ last.resourceName then .error Rv.RENEW_OWNER
  else if prevOk = true ∧ l ≠ last then .error Rv.RENEW_DIFF
  else
    let l1 : Leader := if l.ioTimeout.toUInt32 ≠ io then { l with ioTimeout := (io &&& 0xFF).toUInt16 } else l
    let l2 : Leader := { l1 with timestamp := ts, checksum := 0 }
    let l3 : Leader := match ex with
      | none => l2
      | some x => { l2 with writeId := x.field1, writeGeneration := x.field2, writeTimestamp := x.field3 }
    .ok { l3 with checksum := sum l3 }

/-- The record `delta_lease_release` writes, without reading first (`src/delta_lease.c:796-810`). -/
def releaseLeader (sum : Leader → UInt32) (last : Leader) : Leader :=
  let l : Leader := { last with timestamp := 0, checksum := 0 }
  { l with checksum := sum l }

/-! ## Hosts competing for one host id -/

/-- There are `hosts` hosts.  Real time is counted in ticks, `hz` ticks per second; host `p` has a clock in whole seconds that runs
`off p` ticks ahead, I/O timeout `io p` and name `name p`.  `slack` bounds, in ticks, the time from a host's
read to the moment its write based on it reaches the disk. -/
structure Cfg where
  hosts : Nat
  hz : Nat
  off : Nat → Nat
  io : Nat → UInt32
  name : Nat → List UInt8
  wd : Nat
  hostId : UInt64
  sum : Leader → UInt32
  space : List UInt8
  slack : Nat

/-- `monotime()` of host `p` at real time `t`. -/
def clk (c : Cfg) (p t : Nat) : Nat := (t + c.off p) / c.hz

/-- Where a host is: in `delta_lease_acquire`, or running its lockspace thread. -/
inductive Pc where
  | idle
  /-- first delay: record seen, `other_io_timeout`, time of the read -/
  | wait1 (seen : Leader) (oio readAt : Nat)
  /-- decided to write, at the read of `base` -/
  | writing (base : Leader) (oio readAt : Nat)
  /-- second delay: record written, time of the write -/
  | wait2 (new : Leader) (oio landedAt : Nat)
  /-- told success: `leader` and `delta_result == SANLK_OK` of the lockspace thread -/
  | holding (last : Leader) (prevOk : Bool)
  /-- has decided to renew at the read of `cur` -/
  | renewing (last cur : Leader) (prevOk : Bool) (readAt : Nat)

structure State where
  now : Nat
  disk : Leader
  pc : Nat → Pc
  /-- history: host and generation of the successful joins, latest first -/
  wins : List (Nat × UInt64)

/-- Outcome of a write. -/
inductive WriteRes where
  | ok
  | errApplied
  | err
deriving DecidableEq, Repr

inductive Act where
  | tick (d : Nat)
  /-- first read -/
  | begin (p : Nat)
  /-- read after the first delay -/
  | reread (p : Nat)
  /-- the new record, with the clock read at real time `t`, reaches the disk; error or success is returned -/
  | land (p t : Nat) (ok : Bool)
  /-- last read -/
  | check (p : Nat)
  /-- the lockspace thread reads its record -/
  | renewRead (p : Nat)
  /-- and writes it -/
  | renewLand (p t : Nat) (ex : Option Extra) (res : WriteRes)
  /-- `delta_lease_release` -/
  | release (p : Nat)
  /-- error, abort, crash -/
  | quit (p : Nat)

def State.set (s : State) (p : Nat) (pc : Pc) : State :=
  { s with pc := fun x => if x = p then pc else s.pc x }

/-- One step.  Reads never fail and records on disk are never corrupted (an error makes the host give up,
`quit`). -/
def step (c : Cfg) (s : State) : Act → Option State
  | .tick d => some { s with now := s.now + d }
  | .begin p =>
    match s.pc p with
    | .idle =>
      if p < c.hosts then
        match first (c.name p) s.disk with
        | .write => some (s.set p (.writing s.disk (otherIo s.disk (c.io p)) s.now))
        | .wait => some (s.set p (.wait1 s.disk (otherIo s.disk (c.io p)) s.now))
      else none
    | _ => none
  | .reread p =>
    match s.pc p with
    | .wait1 seen oio readAt =>
      if s.now < readAt + largeDelay c.wd oio * c.hz then none
      else if second seen s.disk then some (s.set p (.writing s.disk oio s.now))
      else some (s.set p .idle)
    | _ => none
  | .land p t ok =>
    match s.pc p with
    | .writing base oio _ =>
      let new := newLeader c.sum (c.io p) c.hostId (c.name p) base (UInt64.ofNat (clk c p t))
      let s' := { s with disk := new }
      some (if ok then s'.set p (.wait2 new oio s.now) else s'.set p .idle)
    | _ => none
  | .check p =>
    match s.pc p with
    | .wait2 new oio landedAt =>
      if s.now < landedAt + 2 * oio * c.hz then none
      else if final new s.disk then
        some { s.set p (.holding s.disk true) with wins := (p, s.disk.ownerGeneration) :: s.wins }
      else some (s.set p .idle)
    | _ => none
  | .renewRead p =>
    match s.pc p with
    | .holding last prevOk =>
      match renew c.sum c.space (c.io p) prevOk last s.disk s.disk.checksum 0 none with
      | .error _ => some (s.set p (.holding last false))
      | .ok _ => some (s.set p (.renewing last s.disk prevOk s.now))
    | _ => none
  | .renewLand p t ex res =>
    match s.pc p with
    | .renewing last cur prevOk _ =>
      match renew c.sum c.space (c.io p) prevOk last cur cur.checksum (UInt64.ofNat (clk c p t)) ex with
      | .error _ => none
      | .ok new =>
        match res with
        | .ok => some ({ s with disk := new }.set p (.holding new true))
        | .errApplied => some ({ s with disk := new }.set p (.holding last false))
        | .err => some (s.set p (.holding last false))
    | _ => none
  | .release p =>
    match s.pc p with
    | .holding last true => some ({ s with disk := releaseLeader c.sum last }.set p .idle)
    | _ => none
  | .quit p => some (s.set p .idle)

/-- The host still has its id according to its last successful renewal, with its own clock: at the latest
host-dead seconds after the timestamp its watchdog resets it (C15). -/
def live (c : Cfg) (s : State) (p : Nat) (last : Leader) : Prop :=
  clk c p s.now < last.timestamp.toNat + hostDead c.wd (c.io p).toNat

instance (c : Cfg) (s : State) (p : Nat) (l : Leader) : Decidable (live c s p l) :=
  inferInstanceAs (Decidable (_ < _))

/-- What is assumed of the environment: a write of a joining host reaches the disk less than `slack` after
the read it is based on, writes of a host that is dead do not reach the disk, clock values are positive
64-bit numbers read before the write, and generations have not reached the end of their range. -/
def Allowed (c : Cfg) (s : State) : Act → Prop
  | .land p t _ =>
    match s.pc p with
    | .writing base _ readAt => s.now < readAt + c.slack ∧ t ≤ s.now ∧ readAt ≤ t ∧
        0 < clk c p t ∧ clk c p t < 2 ^ 64 ∧ base.ownerGeneration.toNat + 1 < 2 ^ 64
    | _ => True
  | .renewLand p t _ _ =>
    match s.pc p with
    | .renewing last _ _ readAt => live c s p last ∧ t ≤ s.now ∧ readAt ≤ t ∧
        0 < clk c p t ∧ clk c p t < 2 ^ 64
    | _ => True
  | .release p =>
    match s.pc p with
    | .holding last _ => live c s p last
    | _ => True
  | _ => True

/-- Host `p` has been told that it joined, and has neither released the id nor been reset. -/
def Holds (c : Cfg) (s : State) (p : Nat) : Prop :=
  match s.pc p with
  | .holding last _ => live c s p last
  | .renewing last _ _ _ => live c s p last
  | _ => False

/-- States reachable from `s0`. -/
inductive Reach (c : Cfg) (s0 : State) : State → Prop where
  | refl : Reach c s0 s0
  | step {s a s'} : Reach c s0 s → Allowed c s a → step c s a = some s' → Reach c s0 s'

/-- Executions without the assumptions. -/
def run (c : Cfg) (s : State) : List Act → Option State
  | [] => some s
  | a :: rest => (step c s a).bind fun s' => run c s' rest

end Sanlock.Delta
