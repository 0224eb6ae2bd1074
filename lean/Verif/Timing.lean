/-!
# Timeouts (`timeouts.c`) and their configuration (`main.c`)
-/

namespace Sanlock.Timing

/-- A C `int` result; `none` is overflow, which is undefined behaviour. -/
def cint (x : Int) : Option Int := if -2147483648 ≤ x ∧ x ≤ 2147483647 then some x else none

/-- `calc_host_dead_seconds` (timeouts.c:70-74), `wd` is `com.watchdog_fire_timeout`. -/
def hostDeadSeconds (wd io : Int) : Option Int := do
  let f ← cint (8 * io)
  cint (f + wd)

/-- `calc_id_renewal_seconds` (timeouts.c:76-79). -/
def renewalSeconds (io : Int) : Option Int := cint (2 * io)

/-- `calc_id_renewal_fail_seconds` (timeouts.c:81-84). -/
def failSeconds (io : Int) : Option Int := cint (8 * io)

/-- `calc_id_renewal_warn_seconds` (timeouts.c:86-89). -/
def warnSeconds (io : Int) : Option Int := cint (6 * io)

/-- `calc_set_bitmap_seconds` (timeouts.c:91-97), `com` is `com.set_bitmap_seconds`. -/
def setBitmapSeconds (com io : Int) : Option Int := if com ≠ 0 then some com else cint (6 * io)

/-- The settings of `struct command_line` concerned here. -/
structure Config where
  io : Int
  wd : Int
  grace : Int
  graceSet : Bool
deriving DecidableEq, Repr

/-- Defaults (main.c:3917-3923). -/
def Config.default : Config := { io := 10, wd := 60, grace := 40, graceSet := false }

/-- One option of the configuration file or command line (main.c:2440-2446, 2475-2480, 2818-2833). -/
inductive Option'
  | ioTimeout (v : Int)
  | watchdogFireTimeout (v : Int)
  | killGraceSeconds (v : Int)
deriving DecidableEq, Repr

def Config.set (c : Config) : Option' → Config
  | .ioTimeout v => if v > 0 then { c with io := v } else c
  | .watchdogFireTimeout v => if v > 0 then { c with wd := v } else c
  | .killGraceSeconds v => if v ≤ 60 ∧ v ≥ 0 then { c with grace := v, graceSet := true } else c

/-- `setup_timeouts` (timeouts.c:30-62). -/
def setupTimeouts (c : Config) : Config :=
  if c.graceSet = false ∧ c.wd < 60 then
    if c.wd < 60 ∧ c.wd ≥ 30 then { c with grace := 15 }
    else if c.wd < 30 then { c with grace := 0 }
    else c
  else c

/-- All options applied, then `setup_timeouts`. -/
def configure (opts : List Option') : Config := setupTimeouts (opts.foldl Config.set Config.default)

end Sanlock.Timing
