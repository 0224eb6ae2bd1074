import Verif.Wdmd

/-!
# Test scripts of the watchdog daemon (`wdmd/main.c:838-1112`)

The table of scripts, the directory scan at start and on SIGHUP, and `test_scripts`, on top of the poll loop of `Verif/Wdmd.lean`.
What the scripts do is arbitrary: the input of a round says which forks succeed and what each `waitpid` returns.

A name stands for a file; the times are those of `monotime()`.  `TEST_FILES` is not defined, so `test_files` is 0.  Scripts are
allowed (`-S 1`).  The option `-k`, which kills a script, only has an effect on what `waitpid` returns later.
-/

namespace Sanlock.Scripts

open Sanlock.Wdmd (St)

/-- `MAX_SCRIPTS` (main.c:95). -/
def maxScripts : Nat := 8

/-- `struct script_status` (main.c:83-93): `running` is `pid != 0`, `failed` is `last_result != 0`.  The counters are only printed. -/
structure Script where
  name : Nat
  running : Bool
  failed : Bool
  start : Nat
deriving DecidableEq, Repr

/-- The array `scripts`; `none` is an entry without a name. -/
abbrev Table := List (Option Script)

/-- A run of a script that has ended (history). -/
structure Run where
  name : Nat
  start : Nat
  fin : Nat
  pass : Bool
deriving DecidableEq, Repr

/-- `find_script` (main.c:840-849). -/
def listed (t : Table) (n : Nat) : Bool := t.any fun e => match e with | some sc => sc.name == n | none => false

/-- `add_script` (main.c:851-864): the first free entry, or nothing. -/
def addScript (n : Nat) : Table → Table
  | [] => []
  | none :: t => some ⟨n, false, false, 0⟩ :: t
  | some sc :: t => some sc :: addScript n t

/-- `setup_scripts` (main.c:915-950).  The directory as `scandir` returns it; the second component says whether the name does not
begin with a dot and `check_path` (866-882) accepts the file. -/
def setupScripts (t : Table) : List (Nat × Bool) → Table
  | [] => t
  | (n, ok) :: dir => setupScripts (if ok && !listed t n then addScript n t else t) dir

/-- The first loop of `test_scripts` for one entry (main.c:964-992): `ok` is whether `run_script` (884-909) starts the script. -/
def startOne (std begin : Nat) (ok : Bool) : Option Script → Option Script
  | none => none
  | some sc =>
    if sc.running then some sc
    else if !sc.failed && decide (begin - sc.start < std - 1) then some sc
    else if ok then some { sc with running := true, start := begin }
    else none

/-- What `waitpid` says about one script (main.c:1006-1068). -/
inductive Out
  /-- still running, or stopped or continued -/
  | busy
  | exit (code : Nat)
  | signal
  /-- an error return of `waitpid` -/
  | error
deriving DecidableEq, Repr

/-- One entry in the loop of main.c:999-1077 at time `now`. -/
def pollOne (now : Nat) (o : Out) : Option Script → Option Script × Option Run
  | none => (none, none)
  | some sc =>
    if sc.running then
      match o with
      | .busy | .error => (some sc, none)
      | .exit code => (some { sc with running := false, failed := code != 0 }, some ⟨sc.name, sc.start, now, code == 0⟩)
      | .signal => (some { sc with running := false, failed := true }, some ⟨sc.name, sc.start, now, false⟩)
    else (some sc, none)

/-- All entries once.  A script without an entry in `outs` is still running. -/
def poll (now : Nat) (outs : List Out) (t : Table) : Table × List Run :=
  let r := t.mapIdx fun i e => pollOne now (outs.getD i .busy) e
  (r.map (·.1), r.filterMap (·.2))

/-- The number of entries that are running. -/
def running (t : Table) : Nat := t.countP fun e => match e with | some sc => sc.running | none => false

/-- The loop of main.c:996-1085.  Each element of the list is one pass: the time, and the answers of `waitpid`; the input must be
exactly as long as the loop runs, and its times must not go back. -/
def waitLoop (std begin : Nat) (t : Table) (hist : List Run) (prev : Nat) : List (Nat × List Out) → Option (Table × List Run × Nat)
  | [] => none
  | (now, outs) :: rest =>
    if now < prev then none
    else
      let p := poll now outs t
      if running p.1 = 0 ∨ now - begin ≥ std - 1 then
        if rest.isEmpty then some (p.1, p.2 ++ hist, now) else none
      else waitLoop std begin p.1 (p.2 ++ hist) now rest

/-- `test_scripts` (main.c:952-1112) that begins at time `begin`: the new table, the number of failures, the runs that ended
(newest first) and the time at the end. -/
def testScripts (std begin : Nat) (oks : List Bool) (polls : List (Nat × List Out)) (t : Table) :
    Option (Table × Nat × List Run × Nat) :=
  let t1 := t.mapIdx fun i e => startOne std begin (oks.getD i true) e
  match waitLoop std begin t1 [] begin polls with
  | none => none
  | some (t2, runs, now) => some (t2, (runs.countP fun r => !r.pass) + running t2, runs, now)

/-- The daemon with its scripts. -/
structure Sys where
  w : St
  table : Table
  hist : List Run
deriving Repr

inductive Ev
  /-- an event of `Wdmd` that is not the end of an iteration -/
  | base (e : Wdmd.Ev)
  /-- SIGHUP (main.c:1446-1448) -/
  | sighup (dir : List (Nat × Bool))
  /-- the end of one iteration of `test_loop` -/
  | round (oks : List Bool) (polls : List (Nat × List Out)) (reopenOk : Bool)
deriving DecidableEq, Repr

/-- The iteration comes to the tests (main.c:1547-1583). -/
def tests (w : St) : Bool :=
  !w.exited && !(w.quit && !Wdmd.active w.clients) && w.enabled &&
  !(!Wdmd.active w.clients && !Wdmd.external w.clients && !w.resetting) && decide (w.now - w.testTime ≥ w.testInterval)

/-- One event.  `none`: the input of a round is not one of `test_scripts`. -/
def step (s : Sys) : Ev → Option Sys
  | .base (.round _ _ _) => none
  | .base e => some { s with w := Wdmd.step s.w e }
  | .sighup dir => if s.w.exited then some s else some { s with table := setupScripts s.table dir }
  | .round oks polls reopenOk =>
    if tests s.w then
      match testScripts s.w.stdInterval s.w.now oks polls s.table with
      | none => none
      | some (t, fails, runs, now) =>
        some ⟨Wdmd.step s.w (.round (now - s.w.now) fails reopenOk), t, runs ++ s.hist⟩
    else some { s with w := Wdmd.step s.w (.round 0 0 reopenOk) }

def run (s : Sys) : List Ev → Option Sys
  | [] => some s
  | e :: es => (step s e).bind (run · es)

/-- The start of the daemon with a directory of scripts. -/
def init (now : Nat) (dir : List (Nat × Bool)) : Sys :=
  ⟨Wdmd.init now, setupScripts (List.replicate maxScripts none) dir, []⟩

end Sanlock.Scripts
