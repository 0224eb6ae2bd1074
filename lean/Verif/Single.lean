/-!
# Starting and ending the daemons

`sanlock`, `fence_sanlockd` and `wdmd` guard their start with a lock on a file, `wdmd` also with a shared memory object
that outlives it.  Any number of processes of one of these programs run side by side on one host, from boot to reset;
every system call on a shared thing is a step.

* `sanlock`: `do_daemon` (`src/main.c:1771-1820`), `lockfile` (`src/lockfile.c:31-99`), `setup_listener`
  (`src/main.c:1371-1418`);
* `fence_sanlockd`: `main` (`fence_sanlock/fence_sanlockd.c:609-942`), `lockfile` (`182-239`), `read_lockfile` (`152-180`);
* `wdmd`: `main` (`wdmd/main.c:1862-1943`), `lockfile` (`1626-1680`), `setup_shm`, `close_shm` (`1491-1508`).

A file is its inode number; a name leads to one inode or none.  `fcntl` locks belong to a process and are given up when it
ends.  What the daemons do between their start and their end is one phase, except for the operations on the watchdog.
Errors of `open`, `write` and the like that make a start fail are the step `kill` before anything is shared, or `stop` after.
-/

namespace Sanlock.Single

/-- What the program does: `unlinks`, it removes its lock file when it ends (`wdmd/main.c:1939`,
`fence_sanlockd.c:938`; `sanlock` only closes it, `src/main.c:1817-1819`); `shm`, it creates the shared memory object. -/
structure Cfg where
  unlinks : Bool
  shm : Bool

def sanlock : Cfg := ⟨false, false⟩
def fenced : Cfg := ⟨true, false⟩
def wdmd : Cfg := ⟨true, true⟩

inductive Ph where
  | new
  /-- has opened the lock file -/
  | opened (ino : Nat)
  /-- has the lock and has written its pid -/
  | locked (ino : Nat)
  /-- runs: its socket is there and it may use the watchdog -/
  | up (ino : Nat)
  /-- has closed everything but the lock file -/
  | down (ino : Nat)
  /-- `wdmd -p`, `-t` with the shared memory object: tries the watchdog devices -/
  | probing
  | dead
deriving DecidableEq, Repr

structure State where
  /-- the inode the name of the lock file leads to -/
  path : Option Nat
  /-- the next new inode -/
  next : Nat
  lock : Nat → Option Nat
  /-- the pid written in the file -/
  names : Nat → Option Nat
  shm : Bool
  /-- the process that listens on the socket that clients find -/
  sock : Option Nat
  /-- the watchdog runs -/
  armed : Bool
  /-- number of operations on the watchdog device so far -/
  used : Nat
  ph : Nat → Ph

inductive Act where
  | open (p : Nat)
  | lock (p : Nat)
  /-- `setup_shm` and the rest of the start -/
  | guard (p : Nat)
  /-- opens, pings or closes the device; the watchdog runs afterwards or not -/
  | dev (p : Nat) (armed : Bool)
  /-- the end of the main loop: `close_watchdog`, `close_shm` -/
  | stop (p : Nat)
  /-- the lock file is removed and the process ends -/
  | exit (p : Nat)
  | kill (p : Nat)
  | probe (p : Nat)
  | probed (p : Nat)
deriving DecidableEq, Repr

def State.setPh (s : State) (p : Nat) (x : Ph) : State := { s with ph := fun q => if q = p then x else s.ph q }

/-- The end of a process gives up its locks. -/
def State.ends (s : State) (p : Nat) : State :=
  { s.setPh p .dead with lock := fun i => if s.lock i = some p then none else s.lock i }

def step (c : Cfg) (s : State) : Act → Option State
  | .open p =>
    match s.ph p, s.path with
    | .new, some i => some (s.setPh p (.opened i))
    | .new, none => some { s.setPh p (.opened s.next) with path := some s.next, next := s.next + 1 }
    | _, _ => none
  | .lock p =>
    match s.ph p with
    | .opened i =>
      match s.lock i with
      | none => some { s.setPh p (.locked i) with
                        lock := fun j => if j = i then some p else s.lock j
                        names := fun j => if j = i then some p else s.names j }
      | some _ => some (s.ends p)
    | _ => none
  | .guard p =>
    match s.ph p with
    | .locked i =>
      if c.shm && s.shm then some (s.setPh p (.down i))
      else some { s.setPh p (.up i) with shm := c.shm, sock := some p }
    | _ => none
  | .dev p a =>
    match s.ph p with
    | .up _ | .probing => if c.shm then some { s with armed := a, used := s.used + 1 } else none
    | _ => none
  | .stop p =>
    match s.ph p with
    | .up i => some { s.setPh p (.down i) with shm := false }
    | _ => none
  | .exit p =>
    match s.ph p with
    | .down _ => some { s.ends p with path := if c.unlinks then none else s.path }
    | _ => none
  | .kill p => some (s.ends p)
  | .probe p =>
    match s.ph p with
    | .new => if !c.shm then none else if s.shm then some (s.setPh p .dead) else some { s.setPh p .probing with shm := true }
    | _ => none
  | .probed p =>
    match s.ph p with
    | .probing => some { s.setPh p .dead with shm := false }
    | _ => none

def run (c : Cfg) (s : State) : List Act → Option State
  | [] => some s
  | a :: as => (step c s a).bind fun t => run c t as

/-- After boot. -/
def init : State := ⟨none, 0, fun _ => none, fun _ => none, false, none, false, 0, fun _ => .new⟩

end Sanlock.Single
