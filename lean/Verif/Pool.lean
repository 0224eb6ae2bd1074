import Verif.Rv

/-!
# The worker threads (`thread_pool_*` in `src/main.c:936-1048`)

Everything done under `pool.mutex` is one step.  A condition variable wakes one waiting thread when it is
signalled, all on a broadcast, and may wake a thread without a signal.  A command (`struct cmd_args`) is a number.
-/

namespace Sanlock.Pool

/-- Where a worker is in `thread_pool_worker` (`src/main.c:936-976`). -/
inductive W where
  /-- created, has not taken the mutex yet -/
  | start
  /-- in `pthread_cond_wait` -/
  | waiting
  /-- woken, has not taken the mutex back yet -/
  | woken
  /-- in `call_cmd_thread` -/
  | running (c : Nat)
  | exited
deriving DecidableEq

/-- The thread that calls `thread_pool_free` (`src/main.c:1009-1018`). -/
inductive M where
  | open
  /-- in `pthread_cond_wait(&pool.quit_wait)` -/
  | waiting
  /-- `quit_wait` was signalled or the wait ended for no reason -/
  | done
deriving DecidableEq

/-- `struct thread_pool` (`src/main.c:63-72`), the threads, and a record of what happened. -/
structure St where
  numWorkers : Nat
  maxWorkers : Nat
  freeWorkers : Nat
  quit : Bool
  work : List Nat
  ws : List W
  m : M
  /-- history: commands accepted by `thread_pool_add_work`, taken by a worker, finished; in order -/
  accepted : List Nat
  started : List Nat
  finished : List Nat
deriving DecidableEq

/-- `thread_pool_create` (`src/main.c:1020-1048`) when all threads could be created. -/
def St.init (min max : Nat) : St :=
  { numWorkers := min, maxWorkers := max, freeWorkers := 0, quit := false, work := [], ws := List.replicate min .start, m := .open
    accepted := [], started := [], finished := [] }

/--
The part of `thread_pool_worker` between taking the mutex and giving it up (`src/main.c:947-972`), for worker `i`: take a command, leave, or wait.
-/
def next (s : St) (i : Nat) : St :=
  match s.work with
  | c :: rest => { s with work := rest, ws := s.ws.set i (.running c), started := s.started ++ [c] }
  | [] =>
    if s.quit then
      { s with
        numWorkers := s.numWorkers - 1
        ws := s.ws.set i .exited
        m := if s.numWorkers - 1 = 0 ∧ s.m = .waiting then .done else s.m }
    else { s with freeWorkers := s.freeWorkers + 1, ws := s.ws.set i .waiting }

/-- `pthread_cond_signal(&pool.cond)`: `k` is the thread that wakes; nothing happens when none waits. -/
def signal (s : St) (k : Nat) : Option St :=
  if s.ws[k]? = some .waiting then some { s with ws := s.ws.set k .woken }
  else if W.waiting ∈ s.ws then none
  else some s

inductive Act where
  /-- `thread_pool_add_work` of command `c`; `ok` is the success of `pthread_create`, `k` the thread woken -/
  | add (c : Nat) (ok : Bool) (k : Nat)
  /-- worker `i` takes the mutex, first or after waiting -/
  | enter (i : Nat)
  /-- worker `i` finishes its command and takes the mutex -/
  | finish (i : Nat)
  /-- worker `i` wakes up without a signal -/
  | spurious (i : Nat)
  /-- `thread_pool_free` up to its wait -/
  | quit
  /-- the wait in `thread_pool_free` ends without a signal -/
  | spuriousQuit
deriving DecidableEq

/-- One step; `none` when it is not possible. -/
def step (s : St) : Act → Option St
  | .add c ok k =>
    if s.quit then some s
    else
      let s1 := { s with work := s.work ++ [c] }
      if s.freeWorkers = 0 ∧ s.numWorkers < s.maxWorkers then
        if ok then
          signal { s1 with numWorkers := s.numWorkers + 1, ws := s.ws ++ [.start], accepted := s.accepted ++ [c] } k
        else some s
      else signal { s1 with accepted := s.accepted ++ [c] } k
  | .enter i =>
    match s.ws[i]? with
    | some .start => some (next s i)
    | some .woken => some (next { s with freeWorkers := s.freeWorkers - 1 } i)
    | _ => none
  | .finish i =>
    match s.ws[i]? with
    | some (.running c) => some (next { s with finished := s.finished ++ [c] } i)
    | _ => none
  | .spurious i =>
    match s.ws[i]? with
    | some .waiting => some { s with ws := s.ws.set i .woken }
    | _ => none
  | .quit =>
    if s.m = .open then
      some { s with
        quit := true
        ws := s.ws.map (fun w => if w = .waiting then .woken else w)
        m := if 0 < s.numWorkers then .waiting else .done }
    else none
  | .spuriousQuit => if s.m = .waiting then some { s with m := .done } else none

def run (s : St) : List Act → Option St
  | [] => some s
  | a :: l => match step s a with
    | some s' => run s' l
    | none => none

end Sanlock.Pool
