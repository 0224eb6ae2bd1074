import Verif.HostEvent

/-!
# Host events between hosts (`src/lockspace.c`, `src/resource.c`)

A program on one host asks the daemon to send an event to another host (`sanlock_set_event`).  The daemon writes the
event and a bitmap of the hosts it is meant for into its own host lease sector with the next renewal; every other host
reads all sectors with its own renewals and passes the events found there to the programs registered
(`sanlock_reg_event`).  The same bitmap is used by lease requests (`sanlock_request`).

`Verif.HostEvent` has the bitmap and the look at one sector; here all hosts of one lockspace run side by side.
-/

namespace Sanlock.Event

open HostEvent (Seen)

/-- The values of `struct sanlk_host_event` that travel (`src/sanlock.h:171-176`; `host_id` does not). -/
structure He where
  gen : Nat
  event : Nat
  data : Nat
deriving DecidableEq

/-- No event. -/
def He.zero : He := ⟨0, 0, 0⟩

/-- What a host puts in the queue of its resource thread for an event (`struct recv_he`, `src/resource.c:2411-2417`,
`check_other_leases`, `src/lockspace.c:501-523`). -/
structure Note where
  recv : Nat
  sender : Nat
  senderGen : Nat
  he : He
deriving DecidableEq

/-- The flags of `sanlock_set_event` (`src/sanlock_admin.h:537-541`). -/
structure Flags where
  curGen : Bool := false
  clearHost : Bool := false
  clearEvent : Bool := false
  replace : Bool := false
  all : Bool := false
deriving DecidableEq

/-- A host lease sector: the fields used here. -/
structure Sec where
  gen : Nat
  ts : Nat
  he : He
  bitmap : List UInt8
deriving DecidableEq

/-- `struct space` of one host: the fields used here.  `bits` are the `set_bit_time` of all host ids; `prep` is what
`create_bitmap_and_extra` handed to the renewal under way; `buf` is `renewal_read_buf` sector by sector; `seen` is
`host_status`; `queue` the events in `host_events` for this lockspace; `regs` the programs in `event_fds`. -/
structure Node where
  bits : List Nat
  evTime : Nat
  ev : He
  prep : Option (List UInt8 × He)
  buf : Nat → Sec
  seen : Nat → Seen
  queue : List Note
  regs : List Nat

/-- The lockspace with all its hosts.  `got` lists what the programs have received (host, program, event), `done` the
events the resource threads have passed on. -/
structure State where
  now : Nat
  node : Nat → Option Node
  sec : Nat → Sec
  got : List (Nat × Nat × Note)
  done : List Note

/-- Number of host ids and `set_bitmap_seconds`. -/
structure Par where
  N : Nat
  secs : Nat

/-- Update of a function at one place. -/
def upd {α : Type} (f : Nat → α) (i : Nat) (v : α) : Nat → α := fun j => if j = i then v else f j

/-- A sector nobody ever wrote (only its generation and bitmap matter). -/
def Sec.empty : Sec := ⟨0, 0, He.zero, List.replicate 256 0⟩

/-- A host that has just joined: `add_lockspace_start` clears `struct space` (`src/lockspace.c:1047-1050`). -/
def Node.fresh (P : Par) : Node :=
  { bits := List.replicate P.N 0, evTime := 0, ev := He.zero, prep := none, buf := fun _ => Sec.empty,
    seen := fun _ => ⟨0, 0, 0, 0⟩, queue := [], regs := [] }

/-- The event with its generation filled in (`src/lockspace.c:1832-1835`). -/
def fill (nd : Node) (tgt : Nat) (he : He) (fl : Flags) : He :=
  if he.gen = 0 ∧ fl.curGen then { he with gen := (nd.seen tgt).ownerGen } else he

/-- `lockspace_set_event` on the lockspace found (`src/lockspace.c:1805-1885`): the result and the new state of the
host. -/
def setEvent (P : Par) (now : Nat) (nd : Node) (tgt : Nat) (he0 : He) (fl : Flags) : Int × Node :=
  if tgt = 0 ∨ tgt > 2000 then (Rv.EINVAL, nd)
  else if tgt > P.N then (Rv.EINVAL, nd)
  else
    let he := fill nd tgt he0 fl
    if fl.clearEvent then (0, { nd with ev := He.zero, evTime := now })
    else if fl.clearHost then (0, { nd with bits := nd.bits.set (tgt - 1) 0 })
    else if fl.replace = false ∧ HostEvent.sub64 now nd.evTime < P.secs ∧ nd.ev.event ≠ 0 ∧ he.event ≠ 0 ∧
        nd.ev.event ≠ he.event then (Rv.EBUSY, nd)
    else
      let b1 := nd.bits.set (tgt - 1) now
      (0, { nd with evTime := now, ev := he, bits := if fl.all then b1.map (fun _ => now) else b1 })

/-- `send_event_callbacks` (`src/lockspace.c:1887-1940`): one message to every program registered; a program whose
socket gives an error is dropped.  `ok c` says whether the send to `c` succeeds. -/
def callbacks (h : Nat) (ok : Nat → Bool) (n : Note) (regs : List Nat) : List (Nat × Nat × Note) × List Nat :=
  ((regs.filter ok).map (fun c => (h, c, n)), regs.filter ok)

/-- One look at the sector of host `w` in the buffer (`check_other_leases`, `src/lockspace.c:378-530`, for a sector with
the right magic and lockspace name); `none` is a load outside the bitmap. -/
def checkOne (P : Par) (r now : Nat) (nd : Node) (w : Nat) : Option Node :=
  let b := nd.buf w
  match HostEvent.look r now P.secs (w - 1) (nd.seen w) ⟨w, b.gen, b.ts, b.he.event, b.bitmap⟩ with
  | none => none
  | some n =>
    some { nd with
      seen := upd nd.seen w n.seen
      queue := if n.event then nd.queue ++ [⟨r, w, b.gen, b.he⟩] else nd.queue }

/-- What can happen. -/
inductive Act where
  /-- time passes -/
  | tick (d : Nat)
  /-- a host gets its host id (`delta_lease_acquire` writes the record into a zeroed sector) -/
  | join (h : Nat)
  /-- a host gives its host id back (`delta_lease_release`, likewise) -/
  | leave (h : Nat)
  /-- a host dies -/
  | die (h : Nat)
  /-- a program on `h` calls `sanlock_set_event` -/
  | setEvent (h tgt : Nat) (he : He) (fl : Flags)
  /-- a program on `h` requests a lease that host `tgt` owns (`cmd_request` calls `host_status_set_bit`) -/
  | request (h tgt : Nat)
  /-- a renewal begins: `create_bitmap_and_extra` -/
  | prepare (h : Nat)
  /-- the renewal writes the sector -/
  | write (h : Nat)
  /-- the renewal fails -/
  | abort (h : Nat)
  /-- a renewal of `r` reads the sector of `w` -/
  | fetch (r w : Nat)
  /-- the main thread of `r` looks at the sector of `w` read last -/
  | check (r w : Nat)
  /-- program `c` on `r` registers for events -/
  | reg (r c : Nat)
  /-- the resource thread of `r` passes on the oldest event; `ok` says which sends succeed -/
  | callback (r : Nat) (ok : Nat → Bool)

/-- One step; `none` if it cannot happen.  The clock is the same on all hosts here, in the code every host uses its
own; the code never compares the clocks of two hosts in the functions modelled here.  A write that fails is taken not
to have reached the disk. -/
def step (P : Par) (s : State) : Act → Option State
  | .tick d => if s.now + d < 2 ^ 64 then some { s with now := s.now + d } else none
  | .join h =>
    if 1 ≤ h ∧ h ≤ P.N then
      match s.node h with
      | some _ => none
      | none => some { s with
          node := upd s.node h (some (Node.fresh P))
          sec := upd s.sec h ⟨(s.sec h).gen + 1, s.now, (s.sec h).he, List.replicate 256 0⟩ }
    else none
  | .leave h =>
    match s.node h with
    | none => none
    | some _ => some { s with
        node := upd s.node h none
        sec := upd s.sec h { s.sec h with ts := 0, bitmap := List.replicate 256 0 } }
  | .die h =>
    match s.node h with
    | none => none
    | some _ => some { s with node := upd s.node h none }
  | .setEvent h tgt he fl =>
    match s.node h with
    | none => none
    | some nd => some { s with node := upd s.node h (some (setEvent P s.now nd tgt he fl).2) }
  | .request h tgt =>
    match s.node h with
    | none => none
    | some nd => some { s with
        node := upd s.node h (some { nd with bits := (HostEvent.setHostBit P.N s.now nd.bits tgt).2 }) }
  | .prepare h =>
    match s.node h with
    | none => none
    | some nd =>
      match HostEvent.createBitmap h s.now P.secs nd.bits with
      | none => none
      | some (bits', bm) => some { s with
          node := upd s.node h (some { nd with bits := bits', prep := some (bm, nd.ev) }) }
  | .write h =>
    match s.node h with
    | none => none
    | some nd =>
      match nd.prep with
      | none => none
      | some (bm, he) => some { s with
          node := upd s.node h (some { nd with prep := none })
          sec := upd s.sec h ⟨(s.sec h).gen, s.now, he, bm⟩ }
  | .abort h =>
    match s.node h with
    | none => none
    | some nd => some { s with node := upd s.node h (some { nd with prep := none }) }
  | .fetch r w =>
    if 1 ≤ w ∧ w ≤ P.N then
      match s.node r with
      | none => none
      | some nd => some { s with node := upd s.node r (some { nd with buf := upd nd.buf w (s.sec w) }) }
    else none
  | .check r w =>
    if 1 ≤ w ∧ w ≤ P.N then
      match s.node r with
      | none => none
      | some nd =>
        match checkOne P r s.now nd w with
        | none => none
        | some nd' => some { s with node := upd s.node r (some nd') }
    else none
  | .reg r c =>
    match s.node r with
    | none => none
    | some nd =>
      if nd.regs.length < 32 then some { s with node := upd s.node r (some { nd with regs := nd.regs ++ [c] }) }
      else none
  | .callback r ok =>
    match s.node r with
    | none => none
    | some nd =>
      match nd.queue with
      | [] => none
      | n :: q => some { s with
          node := upd s.node r (some { nd with queue := q, regs := (callbacks r ok n nd.regs).2 })
          got := s.got ++ (callbacks r ok n nd.regs).1
          done := n :: s.done }

/-- A lockspace nobody has joined yet. -/
def State.init (t0 : Nat) : State :=
  { now := t0, node := fun _ => none, sec := fun _ => Sec.empty, got := [], done := [] }

/-- A run. -/
def run (P : Par) : State → List Act → Option State
  | s, [] => some s
  | s, a :: as =>
    match step P s a with
    | none => none
    | some s' => run P s' as

/-- An execution from the empty lockspace with its history, last step first: every step with the state before it. -/
inductive Exec (P : Par) (t0 : Nat) : List (State × Act) → State → Prop where
  | init : Exec P t0 [] (State.init t0)
  | step {H s a s'} : Exec P t0 H s → step P s a = some s' → Exec P t0 ((s, a) :: H) s'

end Sanlock.Event
