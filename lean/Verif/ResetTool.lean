import Verif.Liveness

/-!
# Resetting another host (`reset/sanlk_reset.c`, `reset/sanlk_resetd.c`)

`sanlk-reset` asks another host through one or more lockspaces to reset itself and waits until it can report that
this has happened.  `sanlk-resetd` runs on every host, takes such requests and makes the watchdog fire.  Both are
modelled after their start: the lockspaces are registered and the request has been set.
-/

namespace Sanlock.ResetTool

open Liveness (Flag)

/-- `MAX_LS` (`reset/sanlk_reset.c:42`). -/
def maxLs : Nat := 64

/-- `NATIVE_TIMEOUT_SECONDS` and `NATIVE_RENEWAL_SECONDS` (`reset/sanlk_reset.c:125-126`). -/
def nativeTimeout : UInt64 := 90
def nativeRenewal : UInt64 := 70

/-- What the tool keeps of one lockspace (the arrays at `reset/sanlk_reset.c:142-152`).  `reg` is
`ls_names[i] != NULL`. -/
structure Ls where
  reg : Bool
  hostId : UInt64
  beginTs : UInt64
  beginLocal : UInt64
  timestamp : UInt64
  flag : Option Flag
  isResetting : Bool
  isDead : Bool
  isFree : Bool
  renewals : Nat
deriving DecidableEq, Repr

/-- A lockspace given on the command line, just registered (`reset/sanlk_reset.c:812-865`). -/
def Ls.start (hostId : UInt64) : Ls :=
  { reg := true, hostId := hostId, beginTs := 0, beginLocal := 0, timestamp := 0, flag := none, isResetting := false,
    isDead := false, isFree := false, renewals := 0 }

/-- An entry without a lockspace. -/
def Ls.none : Ls := { Ls.start 0 with reg := false }

/-- The variables of `sanlk-reset` (`reset/sanlk_reset.c:129-152`).  `native` is `native_timeout != 0`. -/
structure St where
  ls : Nat → Ls
  native : Bool
  resourceMode : Bool
  wdFailed : Bool
  begin : UInt64

/-- The answer of `sanlock_get_hosts` for the host (`struct sanlk_host`): the fields looked at. -/
structure Host where
  timestamp : UInt64
  ioTimeout : UInt32
  flag : Option Flag
deriving DecidableEq, Repr

/-- What `sanlock_get_event` returns other than `-EAGAIN`: an error, or the sender and whether the event has the bits
`EVENT_RESETTING` and `EVENT_REBOOTING`. -/
inductive Got where
  | err
  | event (from_ : UInt64) (resetting rebooting : Bool)
deriving DecidableEq, Repr

/-- What one pass through the main loop meets: the clock, the answer of `sanlock_get_hosts` for every lockspace (`none`
is an error), the events waiting in every lockspace, and connections found closed.  The clock is read once; the
readings within one pass differ by the time the calls to the daemon take. -/
structure Pass where
  now : UInt64
  hosts : Nat → Option Host
  got : Nat → List Got
  hup : Nat → Bool

/-- The first loop of `reset_done` for one lockspace (`reset/sanlk_reset.c:401-439`). -/
def refresh (l : Ls) (r : Option Host) : Ls :=
  if l.reg then
    match r with
    | .none => l
    | some h =>
      { l with
        renewals := if l.timestamp ≠ 0 ∧ l.timestamp ≠ h.timestamp then l.renewals + 1 else l.renewals
        timestamp := h.timestamp
        flag := h.flag }
  else l

/-- The answer disables the native timeout (`reset/sanlk_reset.c:432-436`). -/
def disables (l : Ls) (r : Option Host) : Bool :=
  l.reg && match r with
  | .none => false
  | some h => h.timestamp != 0 && h.ioTimeout != 10

/-- The start of the count for a lockspace with a reply (`reset/sanlk_reset.c:457-465`). -/
def note (now : UInt64) (l : Ls) : Ls :=
  if l.reg && l.isResetting && l.beginLocal == 0 then { l with beginTs := l.timestamp, beginLocal := now } else l

/-- The native timeout has passed (`reset/sanlk_reset.c:467`). -/
def passed (now : UInt64) (l : Ls) : Bool :=
  l.reg && l.isResetting && decide (now - l.beginLocal > nativeTimeout)

/-- A renewal later than the reset can have come was seen (`reset/sanlk_reset.c:468`); the subtraction is unsigned. -/
def late (l : Ls) : Bool := decide (l.timestamp - l.beginTs > nativeRenewal)

/-- The states seen are remembered (`reset/sanlk_reset.c:533-543`). -/
def look (l : Ls) : Ls :=
  if l.reg then { l with isDead := l.isDead || l.flag == some .dead, isFree := l.isFree || l.flag == some .free } else l

/-- Done by the host's state (`reset/sanlk_reset.c:545-553`). -/
def deadDone (resourceMode : Bool) (l : Ls) : Bool := l.reg && l.isDead && (resourceMode || l.isResetting)

def anyLs (p : Nat → Bool) : Bool := (List.range maxLs).any p

/-- `reset_done` (`reset/sanlk_reset.c:386-560`). -/
def resetDone (s : St) (now : UInt64) (hosts : Nat → Option Host) : St × Bool :=
  let ls1 := fun i => refresh (s.ls i) (hosts i)
  let native := s.native && !anyLs fun i => disables (s.ls i) (hosts i)
  let ls2 := if native then fun i => note now (ls1 i) else ls1
  let done1 := native && anyLs fun i => passed now (ls2 i) && !late (ls2 i)
  let wdFailed := s.wdFailed || (native && anyLs fun i => passed now (ls2 i) && late (ls2 i))
  if native && wdFailed then ({ s with ls := ls2, native := native, wdFailed := wdFailed }, false)
  else
    let ls3 := fun i => look (ls2 i)
    ({ s with ls := ls3, native := native, wdFailed := wdFailed },
      done1 || anyLs fun i => deadDone s.resourceMode (ls3 i))

/-- One lockspace in `reset_fail` (`reset/sanlk_reset.c:308-376`): the tool gives up on it. -/
def givesUp (now begin : UInt64) (l : Ls) : Bool :=
  if l.isResetting then decide (now - begin > 300)
  else l.isDead || l.isFree || decide (l.renewals ≥ 4)

/-- `reset_fail` (`reset/sanlk_reset.c:299-384`). -/
def resetFail (s : St) (now : UInt64) : Bool :=
  s.wdFailed ||
    ((anyLs fun i => (s.ls i).reg && givesUp now s.begin (s.ls i)) &&
      !(anyLs fun i => (s.ls i).reg && !givesUp now s.begin (s.ls i)))

/-- `unregister_ls` (`reset/sanlk_reset.c:188-196`).  A second call has no effect: `sanlock_end_event` refuses a null
name (`src/client.c:858-859`). -/
def unregister (l : Ls) : Ls := { l with reg := false }

/-- `get_events` (`reset/sanlk_reset.c:562-603`): nothing is read after an error. -/
def getEvents (l : Ls) : List Got → Ls
  | [] => l
  | .err :: _ => unregister l
  | .event f resetting _ :: es =>
    getEvents (if f = l.hostId && resetting then { l with isResetting := true } else l) es

/-- The connections of one pass (`reset/sanlk_reset.c:924-936`). -/
def readLs (l : Ls) (got : List Got) (hup : Bool) : Ls :=
  if l.reg then
    let l1 := getEvents l got
    if hup then unregister l1 else l1
  else l

inductive Outcome where
  | waiting | done | failed
deriving DecidableEq, Repr

/-- One pass of the main loop (`reset/sanlk_reset.c:909-937`). -/
def pass (s : St) (p : Pass) : St × Outcome :=
  let r := resetDone s p.now p.hosts
  if r.2 then (r.1, .done)
  else if resetFail r.1 p.now then (r.1, .failed)
  else ({ r.1 with ls := fun i => readLs (r.1.ls i) (p.got i) (p.hup i) }, .waiting)

/-- The tool after its start: the lockspaces in `hosts` (at most 64 of them), nothing received yet. -/
def start (ids : List UInt64) (native resourceMode : Bool) (begin : UInt64) : St where
  ls := fun i => match ids[i]? with
    | some h => Ls.start h
    | .none => Ls.none
  native := native
  resourceMode := resourceMode
  wdFailed := false
  begin := begin

/-- The passes so far, last first, none of which has ended the program. -/
inductive Exec (s0 : St) : List Pass → St → Prop
  | nil : Exec s0 [] s0
  | cons {h : List Pass} {s s' : St} (p : Pass) : Exec s0 h s → pass s p = (s', .waiting) → Exec s0 (p :: h) s'

/-- Run passes in order until the program ends. -/
def run (s : St) : List Pass → Outcome
  | [] => .waiting
  | p :: ps => match pass s p with
    | (s', .waiting) => run s' ps
    | (_, o) => o

/-! ## The daemon -/

namespace Daemon

/-- The variables of `sanlk-resetd` (`reset/sanlk_resetd.c:44-70`). -/
structure D where
  useWatchdog : Bool
  useSysrq : Bool
  resourceMode : Bool
  resetting : Bool
  wdFailed : Bool
  rebooting : Bool
deriving DecidableEq, Repr

def D.start (useWatchdog useSysrq resourceMode : Bool) : D :=
  { useWatchdog, useSysrq, resourceMode, resetting := false, wdFailed := false, rebooting := false }

/-- A request read from a lockspace and what the calls made for it return. -/
structure Req where
  ls : Nat
  from_ : UInt64
  gen : UInt64
  reset : Bool
  reboot : Bool
  now : UInt64
  cfgOk : Bool
  liveOk : Bool
deriving DecidableEq, Repr

/-- What the daemon does: `live` is `wdmd_test_live` with the given expiry, `ok` whether the message went out; `used`
is `sanlock_set_config(SANLK_CONFIG_USED)`; `reply` is `sanlock_set_event` for all hosts. -/
inductive Out where
  | used (ls : Nat) (ok : Bool)
  | live (expire : UInt64) (ok : Bool)
  | reply (ls : Nat) (resetting rebooting : Bool)
deriving DecidableEq, Repr

/-- One event in `get_events` (`reset/sanlk_resetd.c:304-407`) with `watchdog_reset_self` (150-168).  Events that are
notices only are requests with both bits clear. -/
def handle (d : D) (r : Req) : D × List Out :=
  let reboot := r.reboot && d.useSysrq
  let o1 := if r.reset && !d.resourceMode then [Out.used r.ls r.cfgOk] else []
  let cfgFailed := r.reset && !d.resourceMode && !r.cfgOk
  let first := r.reset && !d.resetting
  let o2 := if first && d.useWatchdog then [Out.live r.now r.liveOk] else []
  let d1 := if first then { d with resetting := true, wdFailed := d.useWatchdog && !r.liveOk } else d
  let d2 := if reboot then { d1 with rebooting := true } else d1
  let outR := d2.resetting && !d2.wdFailed
  let o3 := if (outR || d2.rebooting) && !cfgFailed then [Out.reply r.ls outR d2.rebooting] else []
  (d2, o1 ++ o2 ++ o3)

/-- A sequence of requests; the effects in order. -/
def handleAll (d : D) : List Req → D × List Out
  | [] => (d, [])
  | r :: rs =>
    let a := handle d r
    let b := handleAll a.1 rs
    (b.1, a.2 ++ b.2)

end Daemon

end Sanlock.ResetTool
