import Verif.ResetTool

/-!
# Which lockspaces `sanlk-resetd` watches (`reset/sanlk_resetd.c`, `reset/sanlk_reset.c`)

`sanlk-resetd` keeps a table of lockspaces.  Each has a registration with sanlock, a descriptor on which host events
arrive.  `sanlk-reset reg|end|clear` changes the table through a datagram; the main loop polls the descriptors, reads
events and answers them (`ResetTool.Daemon.handle` models what one event does).

Simplifications: a descriptor is a number that is never given out twice; what a call returns is an input of the model;
log messages are left out.  `open_` and `log` are not variables of the program: `open_` holds the descriptors that
`sanlock_reg_event` returned and that have not been closed, with the lockspace they are for, and `log` what the
program did.
-/

namespace Sanlock.Resetd

open Sanlock.ResetTool

abbrev Bytes := List UInt8

/-- Entry `i` of `ls_names`, `ls_fd` and `pollfd` (`reset/sanlk_resetd.c:63-67`).  `none` is `NULL` or `-1`. -/
structure Slot where
  name : Option Bytes
  fd : Option Nat
  poll : Option Nat
deriving DecidableEq, Repr

def Slot.empty : Slot := ⟨none, none, none⟩

/-- What the daemon does.  `reg` is a successful `sanlock_reg_event`, `ended` is `sanlock_end_event` (which closes the
descriptor), `got` an event read, `act` one of the effects of an event, `sysrq` is `sysrq_reboot`. -/
inductive Eff where
  | reg (name : Bytes) (fd : Nat)
  | ended (name : Bytes) (fd : Option Nat)
  | got (name : Option Bytes) (reset reboot : Bool) (now : UInt64)
  | act (name : Option Bytes) (o : Daemon.Out)
  | sysrq (now : UInt64)
deriving DecidableEq, Repr

/-- The variables of the daemon (`reset/sanlk_resetd.c:44-70`); `timed` is whether `poll_timeout` is 1000. -/
structure S where
  slots : List Slot
  count : Int
  next : Nat
  d : Daemon.D
  delay : Int
  rebootAt : UInt64
  timed : Bool
  updOpen : Bool
  quit : Bool
  open_ : List (Nat × Bytes)
  log : List Eff
deriving DecidableEq, Repr

def S.slot (s : S) (i : Nat) : Slot := s.slots.getD i Slot.empty

/-- How the copy of the name and `sanlock_reg_event` end. -/
inductive RegRes where
  | ok
  | fail
  | nomem
deriving DecidableEq, Repr

/-- `register_ls` after `ls_names[i] = strdup(name)` (`reset/sanlk_resetd.c:263-283`). -/
def register (s : S) (i : Nat) (x : Bytes) (r : RegRes) : S :=
  match r with
  | .nomem => { s with slots := s.slots.set i { s.slot i with name := none } }
  | .fail => { s with slots := s.slots.set i { s.slot i with name := none } }
  | .ok =>
    { s with
      slots := s.slots.set i ⟨some x, some s.next, some s.next⟩
      count := s.count + 1
      next := s.next + 1
      open_ := (s.next, x) :: s.open_
      log := s.log ++ [.reg x s.next] }

/-- `unregister_ls` (`reset/sanlk_resetd.c:285-296`) with `sanlock_end_event` (`src/client.c:851-873`), which does
nothing without a name and closes the descriptor otherwise. -/
def unregister (s : S) (i : Nat) : S :=
  let sl := s.slot i
  let s1 := match sl.name with
    | none => s
    | some x =>
      { s with
        open_ := s.open_.filter (fun p => decide (some p.1 ≠ sl.fd))
        log := s.log ++ [Eff.ended x sl.fd] }
  { s1 with slots := s1.slots.set i Slot.empty, count := s1.count - 1 }

/-- A return of `sanlock_get_event` other than `-EAGAIN`. -/
inductive GetRes where
  | ev (r : Daemon.Req)
  | err
deriving DecidableEq, Repr

/-- Whether the effects of an event include the reply, after which `get_events` stops
(`reset/sanlk_resetd.c:401-408`). -/
def replied : List Daemon.Out → Bool
  | [] => false
  | .reply _ _ _ :: _ => true
  | _ :: os => replied os

/-- One event of `get_events` (`reset/sanlk_resetd.c:315-399`). -/
def oneEvent (s : S) (i : Nat) (r : Daemon.Req) : S × List Daemon.Out :=
  let h := Daemon.handle s.d { r with ls := i }
  let nm := (s.slot i).name
  let reboots := r.reboot && s.d.useSysrq && !s.d.rebooting
  ({ s with
      d := h.1
      rebootAt := if reboots then r.now else s.rebootAt
      timed := s.timed || (r.reset && !s.d.resetting) || reboots
      log := s.log ++ (.got nm r.reset r.reboot r.now :: h.2.map (.act nm)) }, h.2)

/-- The loop of `get_events` (`reset/sanlk_resetd.c:306-409`).  The list ends with `-EAGAIN`. -/
def getLoop (s : S) (i : Nat) : List GetRes → S
  | [] => s
  | .err :: _ => unregister s i
  | .ev r :: evs =>
    let a := oneEvent s i r
    if replied a.2 then { a.1 with slots := a.1.slots.set i { a.1.slot i with poll := none } }
    else getLoop a.1 i evs

/-- `get_events` (`reset/sanlk_resetd.c:298-410`).  With the descriptor `-1` the first call fails. -/
def getEvents (s : S) (i : Nat) (evs : List GetRes) : S :=
  match (s.slot i).fd with
  | none => unregister s i
  | some _ => getLoop s i evs

/-! ## Updates -/

/-- `isspace` in the C locale. -/
def isSpace (c : UInt8) : Bool := c = 32 || (9 ≤ c && c ≤ 13)

def solid (c : UInt8) : Bool := !isSpace c

/-- `sscanf(buf, "%s %s", cmd, name)` returning 2 (`reset/sanlk_resetd.c:491-495`). -/
def scan2 (s : Bytes) : Option (Bytes × Bytes) :=
  let a := s.dropWhile isSpace
  let w := a.takeWhile solid
  let b := (a.dropWhile solid).dropWhile isSpace
  let v := b.takeWhile solid
  if w = [] ∨ v = [] then none else some (w, v)

inductive Upd where
  | reg (x : Bytes)
  | end_ (x : Bytes)
  | clear
deriving DecidableEq, Repr

def wReg : Bytes := [114, 101, 103]
def wEnd : Bytes := [101, 110, 100]
def wClear : Bytes := [99, 108, 101, 97, 114]

/-- The reading of a datagram in `process_update` (`reset/sanlk_resetd.c:480-535`): exactly 256 bytes, the last set
to zero, two words. -/
def parse (b : Bytes) : Option Upd :=
  if b.length ≠ 256 then none
  else
    match scan2 ((b.take 255).takeWhile (· ≠ 0)) with
    | none => none
    | some (w, v) =>
      if w = wReg then some (.reg v) else if w = wEnd then some (.end_ v) else if w = wClear then some .clear else none

/-- The datagram of `update_local_daemon` (`reset/sanlk_reset.c:617-620`). -/
def datagram (cmd name : Bytes) : Bytes :=
  let t := (cmd ++ 32 :: name).take 255
  t ++ List.replicate (256 - t.length) 0

/-- `update_local_daemon` (`reset/sanlk_reset.c:605-632`): the datagrams sent, and whether the command reports
success.  `oks` says which `sendto` work. -/
def updateLocal (cmd : Bytes) : List Bytes → List Bool → List Bytes × Bool
  | [], _ => ([], true)
  | x :: xs, oks =>
    match oks with
    | true :: oks =>
      let r := updateLocal cmd xs oks
      (datagram cmd x :: r.1, r.2)
    | _ => ([], false)

/-- `find_ls` (`reset/sanlk_resetd.c:248-261`). -/
def findLs (s : S) (x : Bytes) : Option Nat := s.slots.findIdx? (fun sl => decide (sl.name = some x))

/-- The search for a free entry (`reset/sanlk_resetd.c:509-511`). -/
def findFree (s : S) : Option Nat := s.slots.findIdx? (fun sl => decide (sl.name = none))

/-- The loop of `clear` (`reset/sanlk_resetd.c:529-533`). -/
def clearFrom (s : S) : List Nat → S
  | [] => s
  | i :: is => clearFrom (if (s.slot i).name = none then s else unregister s i) is

/-- `process_update` after the datagram is read (`reset/sanlk_resetd.c:497-536`). -/
def update (s : S) (u : Upd) (r : RegRes) : S :=
  match u with
  | .reg x =>
    match findLs s x with
    | some i => register (unregister s i) i x r
    | none =>
      match findFree s with
      | some i => register s i x r
      | none => s
  | .end_ x =>
    match findLs s x with
    | some i => unregister s i
    | none => s
  | .clear => clearFrom s (List.range s.slots.length)

/-! ## The main loop -/

/-- What `poll` reports for an entry, and what the calls of `sanlock_get_event` for it return. -/
structure In where
  pin : Bool := false
  hup : Bool := false
  evs : List GetRes := []
deriving DecidableEq, Repr

/-- A return of `poll` and what the pass meets.  `sig` is a signal read, true for SIGTERM or SIGINT; `upd` a datagram
read. -/
structure Ready where
  sig : Option Bool := none
  upd : Option Bytes := none
  reg : RegRes := .ok
  updErr : Bool := false
  now : UInt64 := 0
  ins : List In := []
deriving DecidableEq, Repr

inductive Poll where
  | intr
  | fail
  | ready (p : Ready)
deriving DecidableEq, Repr

/-- `revents` after `poll`: zero for an entry whose descriptor is `-1`. -/
def revents (s : S) (ins : List In) : List (Nat × In) :=
  (List.range s.slots.length).map fun i => (i, if (s.slot i).poll.isSome then ins.getD i {} else {})

/-- The loop over the lockspaces (`reset/sanlk_resetd.c:716-729`). -/
def sweep (s : S) : List (Nat × In) → S
  | [] => s
  | (i, e) :: rest =>
    let s1 := if e.pin then getEvents s i e.evs else s
    let s2 := if e.hup then unregister s1 i else s1
    sweep s2 rest

/-- The cleanup at the end (`reset/sanlk_resetd.c:734-740`). -/
def cleanup (s : S) : List Nat → S
  | [] => s
  | i :: is =>
    cleanup (if (s.slot i).name = none then s else if (s.slot i).fd = none then s else unregister s i) is

def leave (s : S) : S := { cleanup s (List.range s.slots.length) with quit := true }

/-- `process_signal` and `process_update` in a pass (`reset/sanlk_resetd.c:697-708`). -/
def front (s : S) (p : Ready) : S :=
  let s1 := match (if s.updOpen then p.upd else none).bind parse with
    | some u => update s u p.reg
    | none => s
  { s1 with updOpen := s.updOpen && !p.updErr }

/-- Whether the delay before the reboot is over (`reset/sanlk_resetd.c:713`); the delay is converted to unsigned. -/
def due (s : S) (now : UInt64) : Bool := s.d.rebooting && decide (UInt64.ofInt s.delay ≤ now - s.rebootAt)

/-- One pass of the main loop (`reset/sanlk_resetd.c:690-730`). -/
def pass (s : S) (q : Poll) : S :=
  if s.quit then s
  else
    match q with
    | .intr => s
    | .fail => leave s
    | .ready p =>
      let rv := revents s p.ins
      let s1 := front s p
      if p.sig = some true then leave s1
      else
        let s2 := if due s1 p.now then { s1 with log := s1.log ++ [.sysrq p.now] } else s1
        sweep s2 rv

def run (s : S) : List Poll → S
  | [] => s
  | q :: qs => run (pass s q) qs

/-- The registrations at the start (`reset/sanlk_resetd.c:683-684`). -/
def startReg (s : S) : Nat → List (Bytes × RegRes) → S
  | _, [] => s
  | i, (x, r) :: rest => startReg (register s i x r) (i + 1) rest

def blank (n : Nat) (d : Daemon.D) (delay : Int) : S :=
  { slots := List.replicate n Slot.empty, count := 0, next := 0, d, delay, rebootAt := 0, timed := false,
    updOpen := true, quit := false, open_ := [], log := [] }

/-- `main` up to its loop (`reset/sanlk_resetd.c:618-686`): arguments beyond the 64th are ignored. -/
def start (useWatchdog useSysrq resourceMode : Bool) (delay : Int) (args : List (Bytes × RegRes)) : S :=
  startReg (blank 64 (.start useWatchdog useSysrq resourceMode) delay) 0 (args.take 64)

end Sanlock.Resetd
