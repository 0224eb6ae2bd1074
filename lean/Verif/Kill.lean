/-!
# Signals sent to processes that use a failed lockspace

Models `kill_pids` and `send_helper_kill` in `src/main.c`.  Lockspace names are numbers.  Times are natural numbers, so
the sums in `kill_pids` do not wrap around.  The pipe to the helper process is not modelled: a message is an element of the
resulting list.
-/

namespace Sanlock.Kill

inductive Sig where
  /-- SIGRUNPATH: run the program of the process -/
  | runpath
  | term
  | kill
deriving DecidableEq

/-- `struct client` (`src/sanlock_internal.h:288-309`), the fields used here. -/
structure Cl where
  used : Bool
  /-- `none` stands for a pid that is not positive -/
  pid : Option Nat
  killCount : Nat
  killLast : Nat
  /-- `killpath` is not empty -/
  killpath : Bool
  /-- SANLK_RESTRICT_SIGKILL -/
  noKill : Bool
  /-- SANLK_RESTRICT_SIGTERM -/
  noTerm : Bool
  /-- CL_RUNPATH_SENT -/
  runpathSent : Bool
  /-- lockspace names of the tokens -/
  tokens : List Nat
deriving DecidableEq

/-- The lockspace and global settings. -/
structure Env where
  name : Nat
  /-- `sp->killing_pids` -/
  killing : Nat
  externalRemove : Bool
  /-- `external_shutdown` -/
  shutdown : Nat
  /-- `kill_grace_seconds` -/
  grace : Nat
  /-- `id_renewal_fail_seconds` -/
  fail : Nat
  lastSuccess : Nat
  now : Nat
  /-- `kill_count_max` -/
  countMax : Nat

/-- `client_using_space` (`src/main.c:575-594`). -/
def usingSpace (e : Env) (c : Cl) : Bool := c.tokens.any (· == e.name)

def inGrace (e : Env) : Bool := decide (e.now < e.lastSuccess + e.fail + e.grace)

/-- `src/main.c:662-670` -/
def baseSig (e : Env) (c : Cl) : Sig :=
  if e.externalRemove || decide (e.shutdown > 1) then .kill
  else if decide (e.grace > 0) && inGrace e && c.killpath then .runpath
  else if inGrace e then .term
  else .kill

/-- `src/main.c:678-682` -/
def restrict (c : Cl) (s : Sig) : Sig :=
  let s := if s = .kill ∧ c.noKill = true then .term else s
  if s = .term ∧ c.noTerm = true then .kill else s

/-- The critical section in the loop of `kill_pids` (`src/main.c:629-684`): the new entry and the signal. -/
def killOne (e : Env) (c : Cl) : Cl × Option Sig :=
  if c.used = false then (c, none)
  else if c.pid = none then (c, none)
  else if c.killCount ≥ e.countMax then (c, none)
  else if c.killCount > 0 ∧ e.now - c.killLast < 1 then (c, none)
  else if usingSpace e c = false then (c, none)
  else ({ c with killLast := e.now, killCount := c.killCount + 1 }, some (restrict c (baseSig e c)))

/-- `send_helper_kill` (`src/main.c:118-183`) when the write succeeds. -/
def send (c : Cl) (s : Sig) : Cl × Option Sig :=
  if c.runpathSent = true ∧ s = .runpath then (c, none)
  else (if s = .runpath then { c with runpathSent := true } else c, some s)

/-- One round of the loop. -/
def round (e : Env) (c : Cl) : Cl × Option Sig :=
  match killOne e c with
  | (c, none) => (c, none)
  | (c, some s) => send c s

/-- `kill_pids` (`src/main.c:596-693`): the new table and what was sent to whom. -/
def killPids (e : Env) (t : List Cl) : List Cl × List (Option Sig) :=
  if e.killing > 1 then (t, t.map fun _ => none)
  else (t.map fun c => (round e c).1, t.map fun c => (round e c).2)

end Sanlock.Kill
