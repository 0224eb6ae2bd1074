import Verif.Kill

/-!
# The helper process and its pipe

The daemon does not send signals itself: `kill_pids` writes messages to a pipe, and a helper process that runs as root
reads them, one per turn of its loop, and carries them out (`src/main.c:93-183`, `596-766`, `1604-1720`,
`src/helper.c:145-267`).  The threads of lockspaces and resources write to the same pipe
(`src/lockspace.c:51-115`, `src/resource.c:2119-2185`).

A message has 512 bytes, less than `PIPE_BUF`, so a write puts the whole message into the pipe or fails; the pipe
holds 128 of them.  The decision which signal to send is `Kill.killOne`; one step is one turn of the loop of
`kill_pids`, at any time and in any order.  `SIGPIPE` is neither caught nor ignored by the daemon, so that a write to
a pipe without reader ends it.  The heartbeat of the helper is left out: the daemon only reports it.
-/

namespace Sanlock.Helper

open Kill

/-- `struct helper_msg`. -/
inductive Msg where
  /-- HELPER_MSG_KILLPID -/
  | kill (pid : Nat) (sig : Sig)
  /-- HELPER_MSG_RUNPATH with the program of client `ci` -/
  | run (ci : Nat)
  /-- HELPER_MSG_WRITE_SYSFS, or a message of the resource thread -/
  | other (n : Nat)
deriving DecidableEq

/-- 64 KB pipe, 512 byte messages (`src/main.c:109-116`). -/
def cap : Nat := 128

structure State where
  /-- the table `client` -/
  cls : List Cl
  /-- `sp->killing_pids` -/
  killing : Nat
  pipe : List Msg
  /-- `helper_kill_fd != -1` -/
  fd : Bool
  /-- the helper process exists -/
  alive : Bool
  /-- the daemon has been ended by `SIGPIPE` -/
  crashed : Bool
  /-- messages the daemon has written, first one first -/
  sent : List Msg
  /-- messages the helper has carried out, first one first -/
  done : List Msg
deriving DecidableEq

/-- The message for a signal (`src/main.c:138-152`). -/
def msg (ci pid : Nat) : Sig → Msg
  | .runpath => .run ci
  | s => .kill pid s

/-- Results of `write`. -/
inductive Wr where
  | ok | nofd | full | pipe
deriving DecidableEq

/-- Write to the pipe without blocking. -/
def write (s : State) (m : Msg) : State × Wr :=
  if !s.fd then (s, .nofd)
  else if !s.alive then ({ s with crashed := true }, .pipe)
  else if s.pipe.length ≥ cap then (s, .full)
  else ({ s with pipe := s.pipe ++ [m], sent := s.sent ++ [m] }, .ok)

/-- `send_helper_kill` (`src/main.c:118-183`). -/
def sendKill (s : State) (ci : Nat) (c : Cl) (sig : Sig) : State :=
  if c.runpathSent && sig == .runpath then s
  else
    match write s (msg ci (c.pid.getD 0) sig) with
    | (t, .ok) => if sig == .runpath then { t with cls := t.cls.set ci { c with runpathSent := true } } else t
    | (t, _) => t

/-- One turn of the loop of `kill_pids` (`src/main.c:626-692`). -/
def visit (e : Env) (s : State) (ci : Nat) : State :=
  match s.cls[ci]? with
  | none => s
  | some c =>
    match killOne { e with killing := s.killing } c with
    | (_, none) => s
    | (c', some sig) => sendKill { s with cls := s.cls.set ci c' } ci c' sig

/-- The counts of `all_pids_dead` (`src/main.c:695-724`): `killing_pids` becomes 2 when all the processes that are left
have been tried `kill_count_max` times. -/
def allStuck (e : Env) (s : State) : State :=
  let us := s.cls.filter fun c => c.used && c.pid.isSome && usingSpace e c
  if !us.isEmpty && us.all (fun c => decide (c.killCount ≥ e.countMax)) && decide (s.killing < 2) then
    { s with killing := 2 }
  else s

inductive Act where
  | visit (e : Env) (ci : Nat)
  | check (e : Env)
  /-- another thread writes a message -/
  | other (n : Nat)
  /-- the helper reads a message and carries it out -/
  | helper
  /-- the helper ends -/
  | dies
  /-- the main thread sees that the helper has ended: `helper_dead`, `close_helper` -/
  | hangup
  /-- the process of a client ends, or gives back its leases in the lockspace -/
  | exits (ci : Nat)

/-- What is left of a client entry (`_client_free`). -/
def gone (c : Cl) : Cl := { c with used := false, pid := none, tokens := [] }

def step (s : State) : Act → Option State
  | .visit e ci => if s.crashed || decide (s.killing > 1) then none else some (visit e s ci)
  | .check e => if s.crashed then none else some (allStuck e s)
  | .other n => if s.crashed then none else some (write s (.other n)).1
  | .helper =>
    match s.alive, s.pipe with
    | true, m :: rest => some { s with pipe := rest, done := s.done ++ [m] }
    | _, _ => none
  | .dies => if s.alive then some { s with alive := false, pipe := [] } else none
  | .hangup => if !s.alive && s.fd && !s.crashed then some { s with fd := false } else none
  | .exits ci => some { s with cls := s.cls.modify ci gone }

def run (s : State) : List Act → Option State
  | [] => some s
  | a :: as => (step s a).bind fun t => run t as

/-- A daemon that begins to kill the processes of the given table. -/
def start (cls : List Cl) : State := ⟨cls, 1, [], true, true, false, [], []⟩

end Sanlock.Helper
