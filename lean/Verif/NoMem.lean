import Verif.Acquire
import Verif.Verify
import Verif.Rv

/-!
# What happens when memory runs out

Most buffers for disk I/O are obtained with `posix_memalign`, which reports a failure by returning the *positive* number
`ENOMEM` (12) and leaves the pointer alone.  Some functions turn that into `-ENOMEM`, others return it as it is, and callers
test `rv < 0`.  Here the functions are programs over four kinds of operation: an allocation, a write to a disk, any other
operation whose result the program looks at (opening, reading, checking what was read, taking and giving back the lease that
protects an index), and the use of a null pointer.

Modelled: `write_sectors`, `read_sectors` (`src/diskio.c:822-994`), `write_dblock_mblock_sh`, `paxos_read_buf`, `run_ballot`'s
allocations, `paxos_lease_init` (`src/paxos_lease.c:156-214, 453-492, 1145-1177, 2409-2515`), `delta_lease_renew`,
`delta_lease_init` (`src/delta_lease.c:560-778, 834-960`), `write_host_block`, `read_mode_block`, `read_resource_owners`,
the value block part of `acquire_token` (`src/resource.c:156-330, 414-585, 1962-1990`), `cmd_write_lockspace`,
`cmd_write_resource` (`src/cmd.c:1815-1970`), all of `src/rindex.c:187-1135` from the point of view of its results,
`sanlock_get_lockspaces`, `sanlock_get_hosts`, `sanlock_read_resource_owners` on the client's side (`src/client.c:205-370,
650-735`), and `paxos_lease_acquire` with the two calls whose positive result it takes for success (1690-1692, 2095-2117).

Not modelled: what is written (C01-C05, C27), leaks of the buffers, allocations by the C library itself, the argument checks
that come before the allocation.
-/

namespace Sanlock.NoMem

open OnDisk

/-- What is written to a disk: a lease area (`paxos_lease_init`, `delta_lease_init`), an entry of an index or the whole index,
anything else. -/
inductive What where
  | lease | entry | other
deriving DecidableEq

/-- A program: the next operation and what is done with its result. -/
inductive Prog (α : Type) where
  | ret (a : α)
  /-- `malloc`, `posix_memalign`: true if there was memory -/
  | alloc (k : Bool → Prog α)
  /-- an operation that does not write the data in question -/
  | op (k : Int → Prog α)
  | write (w : What) (k : Int → Prog α)
  /-- a null pointer is followed -/
  | crash

def Prog.bind {α β : Type} (p : Prog α) (f : α → Prog β) : Prog β :=
  match p with
  | .ret a => f a
  | .alloc k => .alloc fun m => (k m).bind f
  | .op k => .op fun r => (k r).bind f
  | .write w k => .write w fun r => (k r).bind f
  | .crash => .crash

/-- What can be observed. -/
inductive Ev where
  | alloc (m : Bool)
  | op (r : Int)
  | write (w : What) (r : Int)
deriving DecidableEq

inductive End (α : Type) where
  | done (a : α)
  | crash

/-- A complete execution: memory and devices answer as they like. -/
inductive Runs {α : Type} : Prog α → List Ev → End α → Prop
  | ret (a : α) : Runs (.ret a) [] (.done a)
  | crash : Runs .crash [] .crash
  | alloc {k : Bool → Prog α} (m : Bool) {t : List Ev} {e : End α} : Runs (k m) t e → Runs (.alloc k) (.alloc m :: t) e
  | op {k : Int → Prog α} (r : Int) {t : List Ev} {e : End α} : Runs (k r) t e → Runs (.op k) (.op r :: t) e
  | write {w : What} {k : Int → Prog α} (r : Int) {t : List Ev} {e : End α} :
      Runs (k r) t e → Runs (.write w k) (.write w r :: t) e

/-- The positive `ENOMEM` of `posix_memalign`. -/
def enomem : Int := 12

/-! ## Sectors -/

/-- `write_sectors` (`src/diskio.c:822-870`), and `write_dblock_mblock_sh` (`src/paxos_lease.c:156-214`), which has the same
shape. -/
def writeSectors : Prog Int :=
  .alloc fun m => if m then .write .other fun r => .ret r else .ret Rv.ENOMEM

/-- `read_sectors` (`src/diskio.c:932-994`). -/
def readSectors : Prog Int :=
  .alloc fun m => if m then .op fun r => .ret r else .ret Rv.ENOMEM

/-- The loop over the disks in `write_host_block` (`src/resource.c:472-490`): it stops at the first error. -/
def hostBlockLoop (rv : Int) : Nat → Prog Int
  | 0 => .ret rv
  | n + 1 => .write .other fun r => if r < 0 then .ret r else hostBlockLoop r n

/-- `write_host_block` (`src/resource.c:414-500`); `n` is `num_disks`. -/
def writeHostBlock (n : Nat) : Prog Int :=
  .alloc fun m => if m then hostBlockLoop 0 n else .ret Rv.ENOMEM

/-- `read_mode_block` (`src/resource.c:539-585`): it reads one disk. -/
def readModeBlock : Prog Int :=
  .alloc fun m => if m then .op fun r => .ret r else .ret Rv.ENOMEM

/-- `delta_lease_renew` from the read on (`src/delta_lease.c:638-778`); `buf` says that `task->iobuf` is there from the last
renewal.  When it cannot be allocated the read is done with a null pointer, which the kernel refuses (`EFAULT`).
The checks of what was read are one operation. -/
def renew (buf : Bool) : Prog Int :=
  let rest : Prog Int := .op fun v => if v < 0 then .ret v else
    .alloc fun m => if m then .write .other fun r => .ret (if r < 0 then r else Rv.OK) else .ret Rv.ENOMEM
  let read (have_ : Bool) : Prog Int := .op fun r =>
    if have_ then (if r ≠ 0 then .ret r else rest) else .ret (if r < 0 then r else -14)
  if buf then read true else .alloc fun m => read m

/-! ## Writing lease areas -/

/-- The writes of `paxos_lease_init` (`src/paxos_lease.c:2495-2511`). -/
def initLoop : Nat → Prog Int
  | 0 => .ret 0
  | n + 1 => .write .lease fun r => if r < 0 then .ret r else initLoop n

/-- `paxos_lease_init` (`src/paxos_lease.c:2447-2515`); the result of `posix_memalign` is returned (2450-2451). -/
def paxosInit (n : Nat) : Prog Int :=
  .alloc fun m => if m then initLoop n else .ret enomem

/-- `delta_lease_init` (`src/delta_lease.c:867-960`); also here (870-871). -/
def deltaInit : Prog Int :=
  .alloc fun m => if m then
      .write .lease fun r => if r < 0 then .ret r else .write .lease fun r2 => .ret r2
    else .ret enomem

/-- `cmd_write_lockspace` (`src/cmd.c:1815-1873`): the result is what `sanlock_write_lockspace` returns. -/
def cmdWriteLockspace : Prog Int :=
  .op fun o => if o < 0 then .ret (-19) else deltaInit

/-- `cmd_write_resource` (`src/cmd.c:1875-1970`): the result is what `sanlock_write_resource` returns. -/
def cmdWriteResource (n : Nat) : Prog Int :=
  .alloc fun m => if m then .op fun o => if o < 0 then .ret o else paxosInit n else .ret Rv.ENOMEM

/-! ## The index -/

/-- `read_rindex_header` (`src/rindex.c:283-380`). -/
def readHeader : Prog Int :=
  .alloc fun m => if m then .op fun r => if r < 0 then .ret r else .op fun v => .ret v else .ret Rv.ENOMEM

/-- `read_rindex` (`src/rindex.c:246-281`): the result, and whether the caller's pointer was set. -/
def readRindex : Prog (Int × Bool) :=
  .alloc fun m => if m then .op fun r => .ret (r, decide (0 ≤ r)) else .ret (enomem, false)

/-- `search_entries` (`src/rindex.c:127-185`) on the buffer, which may be null. -/
def search (buf : Bool) : Prog Int := if buf then .op fun r => .ret r else .crash

/-- `update_rindex` (`src/rindex.c:187-244`). -/
def updateRindex (buf : Bool) : Prog Int :=
  .alloc fun m => if m then (if buf then .write .entry fun r => .ret r else .crash) else .ret enomem

/-- `paxos_lease_release` at the end, whose result is ignored. -/
def released (rv : Int) : Prog Int := .op fun _ => .ret rv

/-- `rindex_format` (`src/rindex.c:378-492`). -/
def rindexFormat : Prog Int :=
  .op fun o => if o < 0 then .ret o else
  .alloc fun m => if !m then .ret enomem else
  .write .entry fun w => if w < 0 then .ret w else
  .alloc fun m => if !m then .ret Rv.ENOMEM else
  (paxosInit 1).bind fun rv => if rv < 0 then .ret rv else .ret 0

/-- The common beginning of `rindex_create` and `rindex_delete` (`src/rindex.c:507-561, 643-700`): open, claim the operation,
read the header, set up the two tokens, take the lease of the index. -/
def begin_ (k : Prog Int) : Prog Int :=
  .op fun o => if o < 0 then .ret o else
  .op fun b => if b < 0 then .ret b else
  readHeader.bind fun h => if h < 0 then .ret h else
  .alloc fun m => if !m then .ret Rv.ENOMEM else
  .alloc fun m => if !m then .ret Rv.ENOMEM else
  .op fun a => if a < 0 then .ret a else k

/-- `rindex_create` (`src/rindex.c:494-617`). -/
def rindexCreate : Prog Int := begin_ <|
  readRindex.bind fun (r, buf) => if r < 0 then released r else
  (search buf).bind fun s => if s < 0 then released s else
  (paxosInit 1).bind fun i => if i < 0 then released i else
  (updateRindex buf).bind fun u => if u < 0 then released u else released 0

/-- `rindex_delete` (`src/rindex.c:624-752`). -/
def rindexDelete : Prog Int := begin_ <|
  readRindex.bind fun (r, buf) => if r < 0 then released r else
  (search buf).bind fun s => if s < 0 then released s else
  (updateRindex buf).bind fun u => if u < 0 then released u else
  (paxosInit 1).bind fun i => if i < 0 then released i else released 0

/-- `rindex_lookup` (`src/rindex.c:755-876`) by name; the other forms also use the buffer. -/
def rindexLookup : Prog Int :=
  .op fun o => if o < 0 then .ret o else
  .op fun b => if b < 0 then .ret b else
  readHeader.bind fun h => if h < 0 then .ret h else
  readRindex.bind fun (r, buf) => if r < 0 then .ret r else
  (search buf).bind fun s => if s < 0 then .ret s else .ret 0

/-- `rindex_update` (`src/rindex.c:878-962`). -/
def rindexUpdate : Prog Int :=
  .op fun o => if o < 0 then .ret o else
  .op fun b => if b < 0 then .ret b else
  readHeader.bind fun h => if h < 0 then .ret h else
  readRindex.bind fun (r, buf) => if r < 0 then .ret r else
  (updateRindex buf).bind fun u => if u < 0 then .ret u else .ret 0

/-- The loop of `rindex_rebuild` (`src/rindex.c:1077-1120`): `there` tells for each place whether a lease is there; reading it
(`paxos_read_resource`, with `read_sectors`) needs memory.  The result is which entries are made; only the end of the device
stops the loop, every other error counts as "no lease here". -/
def rebuildLoop : List Bool → Prog (List Bool)
  | [] => .ret []
  | t :: rest => readSectors.bind fun r =>
    if r = -90 then .ret ((t :: rest).map fun _ => false)
    else (rebuildLoop rest).bind fun l => .ret (decide (0 ≤ r ∧ t = true) :: l)

/-- `rindex_rebuild` (`src/rindex.c:964-1145`): the result and, if the index was written, its entries. -/
def rindexRebuild (there : List Bool) : Prog (Int × Option (List Bool)) :=
  .op fun o => if o < 0 then .ret (o, none) else
  .op fun b => if b < 0 then .ret (b, none) else
  readHeader.bind fun h => if h < 0 then .ret (h, none) else
  .alloc fun m => if !m then .ret (Rv.ENOMEM, none) else
  .alloc fun m => if !m then .ret (Rv.ENOMEM, none) else
  .op fun a => if a < 0 then .ret (a, none) else
  readRindex.bind fun (r, buf) => if r < 0 then .op fun _ => .ret (r, none) else
  if !buf then .crash else
  (rebuildLoop there).bind fun l =>
  .write .entry fun w => .op fun _ => .ret (if w < 0 then w else 0, if w < 0 then none else some l)

/-! ## Reading owners, value blocks, lists -/

/-- `paxos_read_buf` (`src/paxos_lease.c:1145-1177`): the result, and whether the caller's pointer was set. -/
def readBuf : Prog (Int × Bool) :=
  .alloc fun m => if m then .op fun r => .ret (r, true) else .ret (enomem, false)

/-- `read_resource_owners` (`src/resource.c:156-330`) with the right sizes given; the checks of the record are one operation,
whose result is the number of owners. -/
def readOwners : Prog Int :=
  readBuf.bind fun (r, buf) => if r < 0 then .ret r else
  if !buf then .crash else
  .op fun v => if v < 0 then .ret v else if v = 0 then .ret 0 else
  .alloc fun m => if !m then .ret Rv.ENOMEM else .ret 0

/-- The end of `acquire_token` when the value block is asked for (`src/resource.c:1962-1990`): the result, and whether
`r->lvb` is there. -/
def acquireLvb : Prog (Int × Bool) :=
  .alloc fun m => if m then .op fun _ => .ret (Rv.OK, true) else .ret (Rv.OK, false)

/-- The receiving loop of the lists (`src/client.c:262-277, 350-365, 714-729`). -/
def recvLoop (rv : Int) : Nat → Prog (Int × Bool)
  | 0 => .ret (rv, true)
  | n + 1 => .op fun r => if r < 0 then .ret (r, false) else recvLoop rv n

/-- `sanlock_get_lockspaces`, `sanlock_get_hosts`, `sanlock_read_resource_owners` from the reply on
(`src/client.c:246-281, 334-370, 702-735`): the daemon announces `n` items with result `rv`; the result of the call and whether
the caller's pointer to the list is set. -/
def clientList (rv : Int) (n : Nat) : Prog (Int × Bool) :=
  if rv < 0 ∧ rv ≠ Rv.ENOSPC then .ret (rv, false)
  else .alloc fun m => if m then recvLoop rv n else .ret (rv, false)

/-! ## Acquire -/

/-- The buffers of `run_ballot` (`src/paxos_lease.c:486-492`); `k` is the ballot. -/
def ballotBufs (k : Prog Int) : Nat → Prog Int
  | 0 => k
  | n + 1 => .alloc fun m => if m then ballotBufs k n else .ret enomem

/-- What happens to `paxos_lease_acquire`: the results of its operations as before, or memory runs out in
`paxos_lease_read` (`_lease_read_one`, `src/paxos_lease.c:1358-1360`) or in `run_ballot` (489-491). -/
inductive InM where
  | op (i : Acquire.In)
  | readNoMem
  | ballotNoMem

/-- The state of `paxos_lease_acquire`, with the content of the variables `cur_leader` and `max_mbal`, which keep their values
when it starts again; `unset` if they were used before they were set. -/
structure StM where
  s : Acquire.St
  vars : Option (Leader × UInt64)
  unset : Bool

/-- One step of `paxos_lease_acquire`. -/
def stepM (P : Acquire.Par) (sum : Leader → UInt32) (x : StM) : InM → Option StM
  | .op i => (Acquire.step P sum x.s i).map fun s' =>
      { x with s := s', vars := match i with
        | .lease (.ok v) => some v
        | _ => x.vars }
  -- 1690-1692: `error < 0` is false, the variables are taken as they are
  | .readNoMem =>
    match x.s.pc with
    | .restart =>
      match x.vars with
      | some (cur, m) => some { x with s := Acquire.afterRead P x.s cur m }
      | none => some { x with s := { x.s with pc := .done (-1) none none }, unset := true }
    | _ => none
  -- 2095-2117: `run_ballot` returns 12 and has not set `dblock`
  | .ballotNoMem => (Acquire.step P sum x.s (.ballot enomem none false)).map fun s' => { x with s := s' }

def StM.init (sector align : Nat) : StM := ⟨Acquire.St.init sector align, none, false⟩

/-- Executions, newest input first. -/
inductive ExecM (P : Acquire.Par) (sum : Leader → UInt32) (x0 : StM) : List InM → StM → Prop
  | nil : ExecM P sum x0 [] x0
  | step {ins : List InM} {x x' : StM} {i : InM} :
    ExecM P sum x0 ins x → stepM P sum x i = some x' →
    ExecM P sum x0 (i :: ins) { x' with s := Acquire.settle P x'.s }

/-- Execute, oldest input first. -/
def runM (P : Acquire.Par) (sum : Leader → UInt32) (x : StM) : List InM → Option StM
  | [] => some x
  | i :: rest => (stepM P sum x i).bind fun x' => runM P sum { x' with s := Acquire.settle P x'.s } rest

/-! ## Reading several disks -/

/-- `_lease_read_one` on one of several disks: no memory, an error before the record was decoded, an error in what was read, or
success. -/
inductive Rd where
  | noMem
  | err (e : Int)
  | bad (e : Int) (l : Leader)
  | ok (l : Leader)

/-- The results of the reads as the loop of `_lease_read_num` sees them (`src/paxos_lease.c:1484-1499`): the variable
`leader_one` is shared by all disks, `one` is its content (`none`: never set).  The result is `none` if it is used unset.
`zero` stands for the content after an error, which is not used. -/
def seen (zero : Leader) (one : Option Leader) : List Rd → Option (List (Leader × Int))
  | [] => some []
  | .noMem :: rest => one.bind fun l => (seen zero one rest).map ((l, enomem) :: ·)
  | .err e :: rest => (seen zero one rest).map ((zero, e) :: ·)
  | .bad e l :: rest => (seen zero (some l) rest).map ((zero, e) :: ·)
  | .ok l :: rest => (seen zero (some l) rest).map ((l, 0) :: ·)

/-- `_lease_read_num` (`src/paxos_lease.c:1442-1541`). -/
def readNum (zero : Leader) (rds : List Rd) : Option (Int × Option Leader) :=
  (seen zero none rds).map (Verify.leaseReadNum zero)

end Sanlock.NoMem
