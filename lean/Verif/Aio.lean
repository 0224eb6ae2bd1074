/-!
# Buffers of asynchronous disk I/O

Models the ownership of the buffers given to the kernel: the callback slots of a task, `find_callback_slot`, `do_linux_aio` and
`read_iobuf_reap` (`src/diskio.c:550-1066`), `close_task_aio` (`src/task.c:66-156`) and the callers that allocate and free buffers.

A buffer is a number; the numbers are never used twice, so an address that `malloc` gives out again is a new number.
What the kernel answers is given by the environment (`Ev`, `Env`), for all answers.
A slot for which `io_submit` succeeded is in flight (`fly`) until its event is collected, it is cancelled, or the context is destroyed.
`bad` records that a buffer in flight was freed, touched or submitted again, or that a freed buffer was freed, touched or submitted.

Not modelled: failing allocations, the synchronous I/O used without aio, and the contents of the buffers.
A task belongs to one thread, so its calls do not overlap.
-/

namespace Sanlock.Aio

/-- `f` with `v` at `i`. -/
def set {β} (f : Nat → β) (i : Nat) (v : β) : Nat → β := fun j => if j = i then v else f j

@[grind =] theorem set_apply {β} (f : Nat → β) (i v j) : set f i v j = if j = i then v else f j := rfl

/-- Result of an I/O: 0, SANLK_AIO_TIMEOUT, or another negative number. -/
inductive Res where
  | ok | fail | timeout
deriving DecidableEq

/-- Answer of one `io_getevents(ctx, 1, 1, …)`: -EINTR, another error, the event of slot `i` (with the expected result or not),
or nothing in time. -/
inductive Ev where
  | intr | err | event (i : Nat) (ok : Bool) | timeout
deriving DecidableEq

/-- Answers of the kernel during one `do_linux_aio`. -/
structure Env where
  /-- answers in `find_callback_slot` -/
  slot : List Ev := []
  /-- `io_submit` succeeds -/
  submit : Bool := true
  /-- answers in `do_linux_aio` -/
  evs : List Ev := []
  /-- `io_cancel` succeeds -/
  cancel : Bool := false
deriving DecidableEq

/-- `struct task` (`src/sanlock_internal.h:267-279`) with the state of the kernel and of the heap. -/
structure State where
  /-- cb_size -/
  n : Nat
  /-- `callbacks[i].used` -/
  used : Nat → Bool
  /-- `callbacks[i].buf`; while the slot is used it is also the buffer in the iocb -/
  sbuf : Nat → Option Nat
  /-- buffer the kernel works on for slot `i` -/
  fly : Nat → Option Nat
  /-- number of buffers allocated -/
  next : Nat
  /-- how often a buffer was freed -/
  freed : Nat → Nat
  bad : Bool
  /-- `task->iobuf`, buffer of the renewal read -/
  iobuf : Option Nat
  /-- `task->read_iobuf_timeout_aicb` -/
  to : Option Nat
  /-- `delta_result` of the lockspace thread -/
  last : Res
  /-- `r->lvb` -/
  lvb : Option Nat
  /-- the task is closed -/
  closed : Bool

/-- After `setup_task_aio` (`src/task.c:29-64`). -/
def init (n : Nat) : State :=
  { n
    used := fun _ => false
    sbuf := fun _ => none
    fly := fun _ => none
    next := 0
    freed := fun _ => 0
    bad := false
    iobuf := none
    to := none
    last := .ok
    lvb := none
    closed := false }

/-- The kernel works on buffer `b`. -/
def inFlight (s : State) (b : Nat) : Bool := (List.range s.n).any fun i => s.fly i == some b

/-- `free(b)` of a buffer -/
def free1 (s : State) (b : Nat) : State :=
  { s with
    freed := set s.freed b (s.freed b + 1)
    bad := s.bad || inFlight s b || s.freed b != 0 }

/-- `free(p)`; nothing for NULL -/
def free (s : State) : Option Nat → State
  | none => s
  | some b => free1 s b

/-- The program reads or writes the buffer (memset, memcpy). -/
def touch (s : State) (b : Nat) : State :=
  { s with bad := s.bad || inFlight s b || s.freed b != 0 }

/-- `posix_memalign` -/
def alloc (s : State) : State × Nat := ({ s with next := s.next + 1 }, s.next)

/-- An event is collected: the kernel is done with the slot, and `ev_aicb->used = 0`. -/
def collect (s : State) (i : Nat) : State :=
  { s with
    used := set s.used i false
    fly := set s.fly i none }

/-- `free(ev_aicb->buf); ev_aicb->buf = NULL` -/
def drop (s : State) (i : Nat) : State :=
  { free s (s.sbuf i) with sbuf := set s.sbuf i none }

/-- The loop of `io_getevents` for slot `k` in `do_linux_aio` (`src/diskio.c:682-757`) and in `read_iobuf_reap` (`1012-1061`).
Events of other slots have their buffers freed. The kernel only reports slots in flight; other answers are skipped.
The end of the list is a timeout. -/
def wait (k : Nat) : List Ev → State → State × Res
  | [], s => (s, .timeout)
  | .intr :: es, s => wait k es s
  | .err :: _, s => (s, .fail)
  | .timeout :: _, s => (s, .timeout)
  | .event i ok :: es, s =>
    if s.fly i = none then wait k es s
    else if i ≠ k then wait k es (drop (collect s i) i)
    else (collect s i, if ok then .ok else .fail)

/-- First slot not used (`src/diskio.c:558-562`). -/
def firstFree (s : State) : Option Nat := (List.range s.n).find? fun i => !s.used i

/-- The `io_getevents` in `find_callback_slot` (`src/diskio.c:569-596`); gives the state and whether an event was collected. -/
def clearOne : List Ev → State → State × Bool
  | [], s => (s, false)
  | .intr :: es, s => clearOne es s
  | .err :: _, s => (s, false)
  | .timeout :: _, s => (s, false)
  | .event i _ :: es, s => if s.fly i = none then clearOne es s else (drop (collect s i) i, true)

/-- `find_callback_slot` (`src/diskio.c:550-599`) -/
def findSlot (s : State) (es : List Ev) : State × Option Nat :=
  match firstFree s with
  | some k => (s, some k)
  | none =>
    match clearOne es s with
    | (s, true) => (s, firstFree s)
    | (s, false) => (s, none)

/-- `io_submit`, `used = 1`, `buf = buf` (`src/diskio.c:664-677`). The kernel now works on `b`. -/
def submit (s : State) (k b : Nat) : State :=
  { touch s b with
    used := set s.used k true
    sbuf := set s.sbuf k (some b)
    fly := set s.fly k (some b) }

/-- The timeout branch (`src/diskio.c:778-799`). -/
def timedOut (s : State) (k : Nat) (rd : Bool) (cancel : Bool) : State × Res :=
  if cancel then (collect s k, .fail)
  else ({ s with to := if rd then some k else s.to }, .timeout)

/-- `do_linux_aio` (`src/diskio.c:623-802`); `rd` for IO_CMD_PREAD. -/
def aio (s : State) (b : Nat) (rd : Bool) (e : Env) : State × Res :=
  match findSlot s e.slot with
  | (s, none) => (s, .fail)
  | (s, some k) =>
    if e.submit = false then (s, .fail)
    else
      match wait k e.evs (submit s k b) with
      | (s, .timeout) => timedOut s k rd e.cancel
      | (s, r) => (s, r)

/-- I/O with one buffer on one disk after the other until one fails, the buffer being used after each success. -/
def seriesLoop (b : Nat) (rd : Bool) : List Env → State → State × Res
  | [], s => (s, .ok)
  | e :: es, s =>
    match aio s b rd e with
    | (s, .ok) => seriesLoop b rd es (touch s b)
    | (s, r) => (s, r)

/-- Allocate, I/O, free unless it timed out: `_write_sectors`, `read_sectors` (`src/diskio.c:824-975`), `write_dblock_mblock_sh`,
`_lease_read_one` (`src/paxos_lease.c:156-214, 1327-1438`), `write_host_block`, `read_mode_block` (`src/resource.c:414-585`),
`read_resource_owners` with `paxos_read_buf` (`src/resource.c:190-197`), `delta_lease_init` (`src/delta_lease.c:867-945`),
`update_rindex`, `read_rindex_header`, `rindex_rebuild` (`src/rindex.c:216-244, 306-362, 1123-1133`). -/
def series (rd : Bool) (es : List Env) (s : State) : State × Res :=
  let (s, b) := alloc s
  match seriesLoop b rd es (touch s b) with
  | (s, .timeout) => (s, .timeout)
  | (s, r) => (free1 s b, r)

/-- `paxos_lease_init` (`src/paxos_lease.c:2447-2516`): the buffer is not freed when a write fails. -/
def leaseInit (es : List Env) (s : State) : State × Res :=
  let (s, b) := alloc s
  match seriesLoop b false es (touch s b) with
  | (s, .ok) => (free1 s b, .ok)
  | (s, r) => (s, r)

/-- Allocate `d` buffers (`src/paxos_lease.c:485-491`). -/
def allocN : Nat → State → State × List (Option Nat)
  | 0, s => (s, [])
  | d + 1, s => ((allocN d (alloc s).1).1, some (alloc s).2 :: (allocN d (alloc s).1).2)

/-- Read one disk after the other with its own buffer; a buffer that timed out is forgotten
(`src/paxos_lease.c:539-551, 752-764`). A shorter list of answers is a ballot given up before all disks are read. -/
def readRound : List (Option Nat) → List Env → State → State × List (Option Nat)
  | [], _, s => (s, [])
  | bs, [], s => (s, bs)
  | none :: bs, _ :: es, s => ((readRound bs es s).1, none :: (readRound bs es s).2)
  | some b :: bs, e :: es, s =>
    match aio (touch s b) b true e with
    | (s, .timeout) => ((readRound bs es s).1, none :: (readRound bs es s).2)
    | (s, .fail) => ((readRound bs es s).1, some b :: (readRound bs es s).2)
    | (s, .ok) => ((readRound bs es (touch s b)).1, some b :: (readRound bs es (touch s b)).2)

/-- Free the buffers that did not time out (`src/paxos_lease.c:879-884`). -/
def freeAll : List (Option Nat) → State → State
  | [], s => s
  | b :: bs, s => freeAll bs (free s b)

/-- Several calls of `series`, as for the dblocks on all disks. -/
def seriesAll (rd : Bool) : List (List Env) → State → State
  | [], s => s
  | es :: ess, s => seriesAll rd ess (series rd es s).1

/-- The buffers in `run_ballot` (`src/paxos_lease.c:453-903`): dblock writes, reads, dblock writes, reads. -/
def ballot (d : Nat) (w1 : List (List Env)) (r1 : List Env) (w2 : List (List Env)) (r2 : List Env) (s : State) : State :=
  let (s, bs) := allocN d s
  let s := seriesAll false w1 s
  let (s, bs) := readRound bs r1 s
  let s := seriesAll false w2 s
  let (s, bs) := readRound bs r2 s
  freeAll bs s

/-- `read_rindex` (`src/rindex.c:247-276`), which frees the buffer after every error, then the rest of its callers
(`src/rindex.c:519-611` and so on), which do other I/O and free the buffer. -/
def rindex (e : Env) (rest : List (List Env)) (s : State) : State :=
  let (s, b) := alloc s
  match aio (touch s b) b true e with
  | (s, .ok) => free1 (touch (seriesAll false rest (touch s b)) b) b
  | (s, _) => free1 s b

/-- Read the lvb during an acquire (`src/resource.c:1960-1979`, `660-681`). -/
def lvbRead (e : Env) (s : State) : State × Res :=
  let (s, b) := alloc s
  aio { s with lvb := some b } b true e

/-- `write_lvb_block` (`src/resource.c:683-700`) -/
def lvbWrite (e : Env) (s : State) : State × Res :=
  match s.lvb with
  | none => (s, .ok)
  | some b => aio s b false e

/-- `res_set_lvb`, `res_get_lvb` (`src/resource.c:702-771`) -/
def lvbUse (s : State) : State :=
  match s.lvb with
  | none => s
  | some b => touch s b

/-- `free_resource` (`src/resource.c:74-75`); the resource is cleared before it is used again (`src/resource.c:1295`). -/
def lvbFree (s : State) : State := { free s s.lvb with lvb := none }

/-- Try to reap the read that timed out (`src/delta_lease.c:568-611`), gives whether the read is done.
The fd, length, offset and opcode of the slot are those of the renewal read. -/
def renewReap (evs : List Ev) (s : State) : State × Res :=
  match s.to, s.iobuf with
  | some k, some b =>
    if s.used k = false then (s, .fail)
    else if s.sbuf k ≠ some b then (s, .fail)
    else wait k evs s
  | _, _ => (s, .fail)

/-- `task->read_iobuf_timeout_aicb = NULL; task->iobuf = NULL` -/
def abandon (s : State) : State := { s with to := none, iobuf := none }

/-- From `read_done` on (`src/delta_lease.c:673-775`), with the copy of the buffer by the lockspace thread
(`src/lockspace.c:974-978`). `v` says that the record read is as expected. -/
def renewWrite (b : Nat) (v : Bool) (w : Env) (s : State) : State :=
  if v = false then { touch s b with last := .fail }
  else { touch (series false [w] (touch s b)).1 b with last := (series false [w] (touch s b)).2 }

/-- Forget a read that timed out outside a renewal (`src/delta_lease.c:617-633`). -/
def renewSkip (s : State) : State := if s.to ≠ none then abandon s else s

/-- Get the buffer of the renewal read (`src/delta_lease.c:641-654`). -/
def renewAlloc (s : State) : State :=
  if s.iobuf = none then { (alloc s).1 with iobuf := some (alloc s).2 } else s

/-- The read of a renewal (`src/delta_lease.c:613-671`). -/
def renewRead (r : Env) (v : Bool) (w : Env) (s : State) : State :=
  match (renewAlloc (renewSkip s)).iobuf with
  | none => renewAlloc (renewSkip s)
  | some b =>
    match aio (renewAlloc (renewSkip s)) b true r with
    | (s, .ok) => renewWrite b v w s
    | (s, x) => { s with last := x }

/-- `delta_lease_renew` (`src/delta_lease.c:518-790`). -/
def renew (evs : List Ev) (r : Env) (v : Bool) (w : Env) (s : State) : State :=
  if s.last = .timeout then
    match renewReap evs s with
    | (s, .ok) =>
      match s.iobuf with
      | none => s
      | some b => renewWrite b v w { s with to := none }
    | (s, _) => renewRead r v w (abandon s)
  else renewRead r v w s

/-- The loop of `close_task_aio` (`src/task.c:81-136`). The end of the list is the end of the 120 seconds. -/
def closeLoop : List Ev → State → State
  | [], s => s
  | ev :: es, s =>
    if (List.range s.n).all fun i => !s.used i then s
    else
      match ev with
      | .intr => closeLoop es s
      | .timeout => closeLoop es s
      | .err => s
      | .event i _ =>
        if s.fly i = none then closeLoop es s
        else closeLoop es (drop { collect s i with iobuf := if s.sbuf i = s.iobuf then none else s.iobuf } i)

/-- `io_destroy`, which waits for what it cannot cancel, and `free(task->callbacks)` (`src/task.c:140, 151-153`). -/
def destroy (s : State) : State := { s with fly := fun _ => none, used := fun _ => false }

/-- `close_task_aio` (`src/task.c:66-156`). -/
def close (es : List Ev) (s : State) : State :=
  { free (destroy (closeLoop es s)) (closeLoop es s).iobuf with iobuf := none, closed := true }

/-- What a task does. -/
inductive Op where
  | series (rd : Bool) (es : List Env)
  | leaseInit (es : List Env)
  | ballot (d : Nat) (w1 : List (List Env)) (r1 : List Env) (w2 : List (List Env)) (r2 : List Env)
  | rindex (e : Env) (rest : List (List Env))
  | lvbRead (e : Env)
  | lvbWrite (e : Env)
  | lvbUse
  | lvbFree
  | renew (evs : List Ev) (r : Env) (v : Bool) (w : Env)
  | close (es : List Ev)

/-- One operation. -/
def exec (s : State) : Op → State
  | .series rd es => (series rd es s).1
  | .leaseInit es => (leaseInit es s).1
  | .ballot d w1 r1 w2 r2 => ballot d w1 r1 w2 r2 s
  | .rindex e rest => rindex e rest s
  | .lvbRead e => (lvbRead e s).1
  | .lvbWrite e => (lvbWrite e s).1
  | .lvbUse => lvbUse s
  | .lvbFree => lvbFree s
  | .renew evs r v w => renew evs r v w s
  | .close es => close es s

/-- When the threads do an operation: a task is not used after it is closed; the lockspace thread does other I/O
(`delta_lease_acquire`, `delta_lease_release`) only when the last result was success (`src/lockspace.c:871, 1015`);
an acquire starts with a cleared resource. -/
def Enabled (s : State) : Op → Prop
  | .renew .. | .close .. => s.closed = false
  | .lvbRead _ => s.closed = false ∧ s.last = .ok ∧ s.lvb = none
  | _ => s.closed = false ∧ s.last = .ok

end Sanlock.Aio
