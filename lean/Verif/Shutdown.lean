import Verif.Verify

/-!
# Shutting the daemon down

Models the ways a shutdown is asked for (`sanlock client shutdown [-f 0|1] [-w 0|1]`, signals), the part of
`main_loop` that obeys or forgets it, and the end of the daemon (`src/main.c:768-934`, `1420-1425`,
`1811-1822`; `src/cmd.c:1234-1300`, `3077-3093`; `src/lockspace.c:1196-1256`, `2045-2059`).

`external_shutdown` is a plain variable that is read and written by the main thread, by worker threads and by a
signal handler, with no lock that all of them take.  One step of the main thread is therefore one access to
this variable, or one entry of the list of lockspaces; steps of the other threads come between.

Lockspaces are known by a number here (`space_id`); what makes two lockspaces the same is in
`Verif/Lockspace.lean`, the signals sent to processes are in `Verif/Kill.lean`.
-/

namespace Sanlock.Shutdown

/-- An entry of `spaces`. -/
structure Space where
  id : Nat
  /-- `killing_pids` -/
  killing : Bool
  /-- what makes `all_pids_dead` return 0 (`src/main.c:695-766`): processes with leases in the lockspace -/
  users : Nat
deriving DecidableEq, Repr

/-- How far `add_lockspace` of an entry of `spaces_add` is. -/
inductive Adding where
  /-- the thread of the lockspace has not published a result -/
  | acquiring
  /-- the host id lease is ours -/
  | held
  /-- `thread_stop` set, the worker is in `pthread_join` (`src/lockspace.c:1235-1239`) -/
  | undoing
deriving DecidableEq, Repr

/-- Where the main thread is. -/
inductive Pc where
  /-- `poll` and the commands done by the main thread itself (`src/main.c:786-837`) -/
  | poll
  /-- in the loop over `spaces`, holding `spaces_mutex`; what is left of the list (`src/main.c:849-907`) -/
  | round (todo : List Nat)
  /-- `spaces_mutex` released, before `if (external_shutdown && empty)` (`src/main.c:910`) -/
  | test (empty : Bool)
  /-- before `if (external_shutdown == 1)` (`src/main.c:913`) -/
  | ignore
  /-- before `external_shutdown = 0` (`src/main.c:915`) -/
  | clear
  /-- before `free_lockspaces(0)` (`src/main.c:918`) -/
  | free
  /-- left the loop: `free_lockspaces(1)` (`src/main.c:929`) -/
  | drain
  /-- `daemon_shutdown_reply` (`src/main.c:931`) -/
  | reply
  /-- `thread_pool_free` (`src/main.c:1816`) -/
  | pool
  | exited
deriving DecidableEq, Repr

/-- The loop of `main_loop` has been left. -/
def Pc.over : Pc → Bool
  | .drain | .reply | .pool | .exited => true
  | _ => false

/-- The main thread holds `spaces_mutex` for longer than one step. -/
def Pc.locked : Pc → Bool
  | .round _ | .drain => true
  | _ => false

structure State where
  spaces : List Space
  /-- `spaces_add` -/
  add : List (Nat × Adding)
  /-- `spaces_rem`, and whether the thread of the lockspace, which gives back the host id lease at its end, has
  ended -/
  rem : List (Nat × Bool)
  /-- `space_id_counter` -/
  next : Nat
  /-- `external_shutdown` -/
  shut : Nat
  /-- `shutdown_reply_ci`, `shutdown_reply_fd` -/
  waiter : Option Nat
  pc : Pc
  /-- results sent to clients that wait for the shutdown, last first -/
  out : List (Nat × Int)
deriving DecidableEq, Repr

def init : State := ⟨[], [], [], 1, 0, none, .poll, []⟩

inductive Act where
  /-- next step of the main thread; `bad`: `check_our_lease` fails or `external_remove` is set, for the
  lockspace at hand -/
  | main (bad : Bool)
  /-- `SM_CMD_SHUTDOWN`, done by the main thread -/
  | cmd (force : Bool)
  /-- `SM_CMD_SHUTDOWN_WAIT`, done by a worker -/
  | wait (c : Nat) (force : Bool)
  /-- one of the signals `SIGHUP`, `SIGINT`, `SIGTERM` (`src/main.c:1578-1592`) -/
  | signal
  /-- `add_lockspace_start` by a worker -/
  | addStart
  /-- `delta_lease_acquire` has succeeded in the thread of the lockspace -/
  | acquired (id : Nat)
  /-- `add_lockspace_wait` sees that it has succeeded -/
  | addEnd (id : Nat)
  /-- the worker removes an entry from `spaces_add` that has failed or has been undone -/
  | addDel (id : Nat)
  /-- a process gets its first lease in the lockspace -/
  | use (id : Nat)
  /-- a process with leases in the lockspace has ended or has given them back -/
  | leave (id : Nat)
  /-- the thread of a lockspace of `spaces_rem` has ended -/
  | ended (id : Nat)
deriving DecidableEq, Repr

/-- All three lists are empty (`src/cmd.c:1249-1251`, `3085-3087`). -/
def noSpaces (s : State) : Bool := s.spaces.isEmpty && s.rem.isEmpty && s.add.isEmpty

/-- The body of the loop over `spaces` for one entry (`src/main.c:850-906`). -/
def visit (s : State) (bad : Bool) (id : Nat) : State :=
  match s.spaces.find? (·.id == id) with
  | none => s
  | some sp =>
    if sp.killing && sp.users == 0 then
      { s with spaces := s.spaces.filter (·.id != id), rem := (id, false) :: s.rem }
    else if !sp.killing && (bad || decide (s.shut > 1)) then
      { s with spaces := s.spaces.map fun x => if x.id == id then { x with killing := true } else x }
    else s

/-- One step of the main thread; `none`: it has to wait. -/
def main (s : State) (bad : Bool) : Option State :=
  match s.pc with
  | .poll => some { s with pc := .round (s.spaces.map (·.id)) }
  | .round (id :: todo) => some { visit s bad id with pc := .round todo }
  | .round [] => some { s with pc := .test s.spaces.isEmpty }
  | .test empty => some { s with pc := if s.shut != 0 && empty then .drain else .ignore }
  | .ignore => some { s with pc := if s.shut == 1 then .clear else .free }
  | .clear => some { s with shut := 0, pc := .free }
  | .free => some { s with rem := s.rem.filter (!·.2), pc := .poll }
  | .drain => if s.rem.all (·.2) then some { s with rem := [], pc := .reply } else none
  | .reply =>
    some { s with
      out := match s.waiter with
        | some c => (c, 0) :: s.out
        | none => s.out
      pc := .pool }
  | .pool => if s.add.isEmpty then some { s with pc := .exited } else none
  | .exited => none

/-- `SM_CMD_SHUTDOWN` (`src/cmd.c:3077-3093`); the caller gets no result. -/
def cmd (s : State) (force : Bool) : State :=
  if force then { s with shut := 2 }
  else if noSpaces s then { s with shut := 1 }
  else s

/-- `cmd_shutdown_wait` and `daemon_shutdown_start` (`src/cmd.c:1237-1281`).  The two assignments of the waiting
client and the one of `external_shutdown` are one step here. -/
def wait (s : State) (c : Nat) (force : Bool) : State :=
  if force then { s with waiter := some c, shut := 2 }
  else if noSpaces s then { s with waiter := some c, shut := 1 }
  else { s with out := (c, Rv.EBUSY) :: s.out }

/-- `add_lockspace_wait` after success of the thread (`src/lockspace.c:1220-1247`). -/
def addEnd (s : State) (id : Nat) : State :=
  if s.shut != 0 then { s with add := s.add.map fun x => if x.1 == id then (id, .undoing) else x }
  else { s with add := s.add.filter (·.1 != id), spaces := ⟨id, false, 0⟩ :: s.spaces }

/-- One step.  A worker that needs `spaces_mutex` waits while the main thread holds it, and there are no workers
after `thread_pool_free`. -/
def step (s : State) : Act → Option State
  | .main bad => main s bad
  | .cmd force => if s.pc = .poll then some (cmd s force) else none
  | .wait c force =>
    if s.pc = .exited || (!force && s.pc.locked) then none else some (wait s c force)
  | .signal => if s.pc = .exited then none else some { s with shut := 1 }
  | .addStart =>
    if s.pc = .exited || s.pc.locked then none
    else some { s with add := (s.next, .acquiring) :: s.add, next := s.next + 1 }
  | .acquired id =>
    if (id, Adding.acquiring) ∈ s.add then
      some { s with add := s.add.map fun x => if x.1 == id then (id, .held) else x }
    else none
  | .addEnd id =>
    if (id, Adding.held) ∈ s.add && !s.pc.locked then some (addEnd s id) else none
  | .addDel id =>
    if ((id, Adding.acquiring) ∈ s.add || (id, Adding.undoing) ∈ s.add) && !s.pc.locked then
      some { s with add := s.add.filter (·.1 != id) }
    else none
  | .use id =>
    if (s.spaces.any fun x => x.id == id && !x.killing) && !s.pc.locked && s.pc != .exited then
      some { s with spaces := s.spaces.map fun x => if x.id == id then { x with users := x.users + 1 } else x }
    else none
  | .leave id =>
    some { s with spaces := s.spaces.map fun x => if x.id == id then { x with users := x.users - 1 } else x }
  | .ended id =>
    if (id, false) ∈ s.rem then
      some { s with rem := s.rem.map fun x => if x.1 == id then (id, true) else x }
    else none

def run (s : State) : List Act → Option State
  | [] => some s
  | a :: as => (step s a).bind fun t => run t as

/-- States of a daemon that has been started. -/
def Reach (s : State) : Prop := ∃ as, run init as = some s

end Sanlock.Shutdown
