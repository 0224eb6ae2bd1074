/-!
# The Disk Paxos ballot

Models `run_ballot` (`src/paxos_lease.c:453-903`), `majority_disks` (`src/diskio.c:206-226`) and the
disk state they work on, for any number of hosts and disks.

One atomic step is one sector write, one sector read, or the processing of one disk's buffer.  A read
of a whole disk (`read_iobuf`, one large read) is a sequence of sector reads in any order, so torn
large reads are included.  A write may fail with or without having reached the disk.  A host may stop,
crash or give up at any step (`Act.quit`), and may start again.

Simplifications: `uint64_t` values are natural numbers; blocks on disk are never corrupted (then
`verify_dblock` always accepts them, see `Verif/Crc.lean`); a write that failed does not reach the disk
after the operation has returned; the mode block part of the sector is modelled in
`Verif/Lease.lean`.
-/

namespace Sanlock.Ballot

/-- `struct paxos_dblock` (`src/paxos_dblock.h`) without checksum and flags, which `run_ballot` does
not use. -/
structure Blk where
  lver : Nat
  mbal : Nat
  bal : Nat
  inp : Nat
  inp2 : Nat
  inp3 : Nat
deriving DecidableEq, Repr

/-- An all-zero block (`memset(&bk_max, 0, ...)`, or a block never written). -/
def Blk.zero : Blk := ⟨0, 0, 0, 0, 0, 0⟩

/-- The value a ballot decides on: owner id, owner generation, timestamp. -/
def Blk.val (k : Blk) : Nat × Nat × Nat := (k.inp, k.inp2, k.inp3)

/-- `majority_disks` (`src/diskio.c:206-226`). -/
def majority (numDisks num : Nat) : Bool :=
  if numDisks = 1 ∧ num = 0 then false
  else if numDisks % 2 ≠ 0 then decide (num ≥ numDisks / 2 + 1)
  else if num > numDisks / 2 then true
  else if num < numDisks / 2 then false
  else false

/-- The ways `run_ballot` aborts while reading. -/
inductive Abort where
  | lver
  | mbal
deriving DecidableEq, Repr

/-- Body of the phase 1 loop over one block (`src/paxos_lease.c:554-659`). -/
def phase1Blk (dblock mx bk : Blk) : Except Abort Blk :=
  if bk.lver < dblock.lver then .ok mx
  else if bk.lver > dblock.lver then .error .lver
  else if bk.mbal > dblock.mbal then .error .mbal
  else if bk.inp = 0 then .ok mx
  else if bk.bal = 0 then .ok mx
  else if bk.bal > mx.bal then .ok bk
  else .ok mx

/-- The phase 1 loop `for (q = 0; q < num_hosts; q++)` over one disk's buffer. -/
def phase1Disk (dblock mx : Blk) : List Blk → Except Abort Blk
  | [] => .ok mx
  | bk :: rest =>
    match phase1Blk dblock mx bk with
    | .error e => .error e
    | .ok mx' => phase1Disk dblock mx' rest

/-- Body of the phase 2 loop over one block (`src/paxos_lease.c:767-861`). -/
def phase2Blk (dblock bk : Blk) : Except Abort Unit :=
  if bk.lver < dblock.lver then .ok ()
  else if bk.lver > dblock.lver then .error .lver
  else if bk.mbal > dblock.mbal then .error .mbal
  else .ok ()

/-- The phase 2 loop over one disk's buffer. -/
def phase2Disk (dblock : Blk) : List Blk → Except Abort Unit
  | [] => .ok ()
  | bk :: rest =>
    match phase2Blk dblock bk with
    | .error e => .error e
    | .ok () => phase2Disk dblock rest

/-- Choice of the phase 2 value (`src/paxos_lease.c:688-699`); `now` is the result of `monotime()`. -/
def choose (dblock mx : Blk) (hostId gen now : Nat) : Blk :=
  if mx.inp ≠ 0 then
    { dblock with inp := mx.inp, inp2 := mx.inp2, inp3 := mx.inp3, bal := dblock.mbal }
  else
    { dblock with inp := hostId, inp2 := gen, inp3 := now, bal := dblock.mbal }

/-- Where a host is inside `run_ballot`.  `d` is the loop variable over the disks.  The C counters
`num_writes` and `num_reads` are the lengths of the lists of disks written (`w`, `w1`) and read (`r`);
the lists themselves are only used in proofs.  `buf` is the buffer of the disk being read. -/
inductive Pc where
  | idle
  | write1 (d : Nat) (w : List Nat)
  | read1 (d : Nat) (w1 r : List Nat) (buf : Nat → Option Blk) (mx : Blk)
  | write2 (d : Nat) (w1 w : List Nat)
  | read2 (d : Nat) (w1 w r : List Nat) (buf : Nat → Option Blk)
  | won (w1 w : List Nat)

/-- The local state of one host's acquire: program point and local variable `dblock`. -/
structure Proc where
  pc : Pc
  dblock : Blk
  gen : Nat

/-- A value chosen for phase 2 (history, not part of the program). -/
structure Vote where
  host : Nat
  lver : Nat
  bal : Nat
  val : Nat × Nat × Nat
  w1 : List Nat

/-- A host that finished the ballot and wrote the leader record (history). -/
structure Done where
  host : Nat
  blk : Blk
  w : List Nat

/-- `disk d q` is the block of host index `q` (host id `q + 1`) on disk `d`. -/
structure State where
  disk : Nat → Nat → Blk
  proc : Nat → Proc
  votes : List Vote
  log : List Done

/-- Number of disks, number of hosts of the lease (`leader.num_hosts`) and `leader.max_hosts`. -/
structure Cfg where
  disks : Nat
  hosts : Nat
  maxHosts : Nat

/-- Outcome of a sector write: success, error though the data reached the disk, error. -/
inductive WriteRes where
  | ok
  | errApplied
  | err
deriving DecidableEq, Repr

/-- The steps of host `p`. -/
inductive Act where
  /-- enter `run_ballot(next_lver, our_mbal)` -/
  | start (p lver mbal gen : Nat)
  /-- one `write_dblock` of phase 1 or 2 -/
  | write (p : Nat) (res : WriteRes)
  /-- after the write loop -/
  | writesDone (p : Nat)
  /-- the sector of host `q` arrives in the buffer -/
  | readSector (p q : Nat)
  /-- the read of the current disk failed -/
  | readFail (p : Nat)
  /-- the read of the current disk is complete: process the buffer -/
  | readDone (p : Nat)
  /-- after the read loop; `now` is `monotime()` -/
  | readsDone (p now : Nat)
  /-- the leader record with the ballot's values has been written to a majority of disks -/
  | leaderWritten (p : Nat)
  /-- error return, crash, restart of the host -/
  | quit (p : Nat)

/-- Replace a process. -/
def State.setProc (s : State) (p : Nat) (pr : Proc) : State :=
  { s with proc := fun x => if x = p then pr else s.proc x }

/-- Overwrite a block. -/
def State.setDisk (s : State) (d q : Nat) (k : Blk) : State :=
  { s with disk := fun x y => if x = d ∧ y = q then k else s.disk x y }

/-- Program point update. -/
def State.setPc (s : State) (p : Nat) (pc : Pc) : State :=
  s.setProc p { s.proc p with pc := pc }

/-- A buffer is complete when it has the block of every host. -/
def collect (hosts : Nat) (buf : Nat → Option Blk) : Option (List Blk) :=
  (List.range hosts).mapM buf

def emptyBuf : Nat → Option Blk := fun _ => none

/-- One step of the program. `none` means the action does not apply in this state. -/
def step (c : Cfg) (s : State) : Act → Option State
  | .start p lver mbal gen =>
    match (s.proc p).pc with
    | .idle =>
      if p < c.hosts then
        some (s.setProc p ⟨.write1 0 [], { Blk.zero with lver := lver, mbal := mbal }, gen⟩)
      else none
    | _ => none
  | .write p res =>
    let k := (s.proc p).dblock
    match (s.proc p).pc with
    | .write1 d w =>
      if d < c.disks then
        match res with
        | .ok => some ((s.setDisk d p k).setPc p (.write1 (d + 1) (d :: w)))
        | .errApplied => some ((s.setDisk d p k).setPc p (.write1 (d + 1) w))
        | .err => some (s.setPc p (.write1 (d + 1) w))
      else none
    | .write2 d w1 w =>
      if d < c.disks then
        match res with
        | .ok => some ((s.setDisk d p k).setPc p (.write2 (d + 1) w1 (d :: w)))
        | .errApplied => some ((s.setDisk d p k).setPc p (.write2 (d + 1) w1 w))
        | .err => some (s.setPc p (.write2 (d + 1) w1 w))
      else none
    | _ => none
  | .writesDone p =>
    match (s.proc p).pc with
    | .write1 d w =>
      if d < c.disks then none
      else if majority c.disks w.length then some (s.setPc p (.read1 0 w [] emptyBuf Blk.zero))
      else some (s.setPc p .idle)
    | .write2 d w1 w =>
      if d < c.disks then none
      else if majority c.disks w.length then some (s.setPc p (.read2 0 w1 w [] emptyBuf))
      else some (s.setPc p .idle)
    | _ => none
  | .readSector p q =>
    match (s.proc p).pc with
    | .read1 d w1 r buf mx =>
      if d < c.disks then
        some (s.setPc p (.read1 d w1 r (fun x => if x = q then some (s.disk d q) else buf x) mx))
      else none
    | .read2 d w1 w r buf =>
      if d < c.disks then
        some (s.setPc p (.read2 d w1 w r (fun x => if x = q then some (s.disk d q) else buf x)))
      else none
    | _ => none
  | .readFail p =>
    match (s.proc p).pc with
    | .read1 d w1 r _ mx =>
      if d < c.disks then some (s.setPc p (.read1 (d + 1) w1 r emptyBuf mx)) else none
    | .read2 d w1 w r _ =>
      if d < c.disks then some (s.setPc p (.read2 (d + 1) w1 w r emptyBuf)) else none
    | _ => none
  | .readDone p =>
    match (s.proc p).pc with
    | .read1 d w1 r buf mx =>
      if d < c.disks then
        match collect c.hosts buf with
        | none => none
        | some l =>
          match phase1Disk (s.proc p).dblock mx l with
          | .error _ => some (s.setPc p .idle)
          | .ok mx' => some (s.setPc p (.read1 (d + 1) w1 (d :: r) emptyBuf mx'))
      else none
    | .read2 d w1 w r buf =>
      if d < c.disks then
        match collect c.hosts buf with
        | none => none
        | some l =>
          match phase2Disk (s.proc p).dblock l with
          | .error _ => some (s.setPc p .idle)
          | .ok () => some (s.setPc p (.read2 (d + 1) w1 w (d :: r) emptyBuf))
      else none
    | _ => none
  | .readsDone p now =>
    match (s.proc p).pc with
    | .read1 d w1 r _ mx =>
      if d < c.disks then none
      else if majority c.disks r.length then
        let k := choose (s.proc p).dblock mx (p + 1) (s.proc p).gen now
        some { s.setProc p ⟨.write2 0 w1 [], k, (s.proc p).gen⟩ with
          votes := ⟨p, k.lver, k.bal, k.val, w1⟩ :: s.votes }
      else some (s.setPc p .idle)
    | .read2 d w1 w r _ =>
      if d < c.disks then none
      else if majority c.disks r.length then some (s.setPc p (.won w1 w))
      else some (s.setPc p .idle)
    | _ => none
  | .leaderWritten p =>
    match (s.proc p).pc with
    | .won _ w =>
      some { s.setPc p .idle with log := ⟨p, (s.proc p).dblock, w⟩ :: s.log }
    | _ => none
  | .quit p => some (s.setPc p .idle)

/-- The first ballot number of an acquire (`src/paxos_lease.c:2005-2010`); `maxMbal` is the largest
`mbal` found by `paxos_lease_read`. -/
def ourMbal (maxMbal maxHosts hostId : Nat) : Nat :=
  if maxMbal = 0 then hostId
  else maxMbal - maxMbal % maxHosts + maxHosts + hostId

/-- The same with the `uint64_t` arithmetic of the C code. -/
def ourMbal64 (maxMbal maxHosts hostId : UInt64) : UInt64 :=
  if maxMbal = 0 then hostId
  else maxMbal - maxMbal % maxHosts + maxHosts + hostId

/-- `our_mbal += cur_leader.max_hosts` before a retry (`src/paxos_lease.c:2106`). -/
def retryMbal (mbal maxHosts : Nat) : Nat := mbal + maxHosts

/-- Freshly initialised disks (`paxos_lease_init`, `src/paxos_lease.c:2410-2517`), nobody running. -/
def init : State where
  disk := fun _ _ => Blk.zero
  proc := fun _ => ⟨.idle, Blk.zero, 0⟩
  votes := []
  log := []

/-- `(a, b)` precedes `(c, d)` lexicographically. -/
def lexLt (a b c d : Nat) : Prop := a < c ∨ (a = c ∧ b < d)

/-- What the callers of `run_ballot` guarantee when they start a ballot:

* the ballot number is positive and congruent to the host id modulo `max_hosts`
  (`src/paxos_lease.c:2005-2010`, `2106`);
* the pair (lease version, ballot number) is larger than in any earlier ballot of this host that got
  to phase 2, and the version is larger than any version for which this host wrote the leader record.

`Verif/Lease.lean` derives the second part from the code of `paxos_lease_acquire` for executions in
which the leader record on disk never goes back to an older version. -/
def Allowed (c : Cfg) (s : State) : Act → Prop
  | .start p lver mbal _ =>
    0 < mbal ∧ mbal % c.maxHosts = (p + 1) % c.maxHosts ∧
    (∀ h ∈ s.votes, h.host = p → lexLt h.lver h.bal lver mbal) ∧
    (∀ e ∈ s.log, e.host = p → e.blk.lver < lver)
  | _ => True

instance (a b c d : Nat) : Decidable (lexLt a b c d) := inferInstanceAs (Decidable (_ ∨ _))

instance (c : Cfg) (s : State) (a : Act) : Decidable (Allowed c s a) := by
  cases a <;> simp only [Allowed] <;> infer_instance

/-- Execute a list of steps, without the callers' guarantee. -/
def run (c : Cfg) (s : State) : List Act → Option State
  | [] => some s
  | a :: rest => (step c s a).bind fun s' => run c s' rest

/-- Execute a list of steps, checking the callers' guarantee. -/
def runAllowed (c : Cfg) (s : State) : List Act → Option State
  | [] => some s
  | a :: rest =>
    if Allowed c s a then (step c s a).bind fun s' => runAllowed c s' rest else none

/-- Runs of any number of hosts, in any interleaving. -/
inductive Reach (c : Cfg) : State → Prop where
  | init : Reach c init
  | step {s s' : State} {a : Act} : Reach c s → Allowed c s a → step c s a = some s' → Reach c s'

end Sanlock.Ballot
