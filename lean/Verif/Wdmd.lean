/-!
# The watchdog multiplexing daemon (`wdmd/main.c`)

The poll loop is cut into events: one message, hang-up or signal on one connection, or the part of one
loop iteration after the connections were served.  The events can come in any order, which covers every
order in which `poll` can report them.  Time is `monotime()`, whole seconds.
-/

namespace Sanlock.Wdmd

/-- `struct client` (wdmd/main.c:96-108).  `isOpen` is `fd >= 0`.  Name, pid and the renewal time are only
logged and left out. -/
structure Client where
  used : Bool
  isOpen : Bool
  internal : Bool
  refcount : Bool
  expire : UInt64
  pidDead : Bool
deriving DecidableEq, Repr

/-- A zeroed entry with `fd = -1` (main.c:169-174 and 215-220). -/
def Client.empty : Client :=
  { used := false, isOpen := false, internal := false, refcount := false, expire := 0, pidDead := false }

/-- Operations on the watchdog device. -/
inductive DevOp
  | opened | keepalive | closeClean | closeUnclean
deriving DecidableEq, Repr

/-- The kernel's watchdog timer.  Opening the device starts it, opening and keep-alives restart the count
down, a close after writing "V" stops it, a close without restarts it once more and leaves it running
(comment main.c:687-705).  It fires `fire` seconds after `lastPing`. -/
structure Dev where
  armed : Bool
  lastPing : Nat
deriving DecidableEq, Repr

def Dev.op (d : Dev) (now : Nat) : DevOp → Dev
  | .opened => { armed := true, lastPing := now }
  | .keepalive => { d with lastPing := now }
  | .closeClean => { d with armed := false }
  | .closeUnclean => { d with lastPing := now }

/-- The daemon's variables (main.c:61-80, `test_loop` locals 1514-1520) and the device. `log` records the
device operations, newest first. -/
structure St where
  clients : List Client
  now : Nat
  quit : Bool
  exited : Bool
  enabled : Bool
  resetting : Bool
  testTime : Nat
  stdInterval : Nat
  testInterval : Nat
  fire : Nat
  devOpen : Bool
  dev : Dev
  log : List (Nat × DevOp)
deriving DecidableEq, Repr

def St.emit (s : St) (op : DevOp) : St :=
  { s with dev := s.dev.op s.now op, log := (s.now, op) :: s.log }

/-- `main` up to `test_loop` (main.c:1883-1921): the device was opened and closed cleanly by
`setup_watchdog`, listener and signal connections exist. -/
def init (now : Nat) : St where
  clients := [{ Client.empty with used := true, isOpen := true, internal := true },
              { Client.empty with used := true, isOpen := true, internal := true }]
  now := now
  quit := false
  exited := false
  enabled := false
  resetting := false
  testTime := 0
  stdInterval := 10
  testInterval := 10
  fire := 60
  devOpen := false
  dev := { armed := false, lastPing := now }
  log := []

/-- `client_add` (main.c:180-203): the first unused entry.  The array is grown by one entry instead of 16;
unused entries have no effect. -/
def clientAdd : List Client → List Client
  | [] => [{ Client.empty with used := true, isOpen := true }]
  | c :: cs => if c.used then c :: clientAdd cs else { c with used := true, isOpen := true } :: cs

/-- `client_pid_dead` (main.c:205-253). -/
def clientPidDead (c : Client) : Client :=
  if c.expire = 0 then Client.empty else { c with pidDead := true, isOpen := false }

/-- `_init_test_interval` (main.c:342-357). -/
def testIntervalFor (fire : Nat) : Nat :=
  if fire ≥ 60 then 10 else if fire ≥ 30 then 5 else if fire ≥ 10 then 2 else 1

/-- `close_watchdog` (main.c:378-395). -/
def closeWatchdog (s : St) : St :=
  if s.devOpen then { s.emit .closeClean with devOpen := false } else s

/-- `close_watchdog_unclean` (main.c:397-407). -/
def closeWatchdogUnclean (s : St) : St :=
  if s.devOpen then { s.emit .closeUnclean with devOpen := false } else s

/-- `pet_watchdog` (main.c:409-417): nothing happens at the device if it is not open. -/
def petWatchdog (s : St) : St := if s.devOpen then s.emit .keepalive else s

/-- `open_dev` (main.c:359-376). -/
def openDev (s : St) (ok : Bool) : St × Bool :=
  if s.devOpen then (s, false)
  else if ok then ({ s.emit .opened with devOpen := true }, true)
  else (s, false)

/-- `_open_watchdog` (main.c:419-489): `openOk` is whether the device can be opened, `accepted` whether
it ends up with the requested timeout. -/
def openWatchdog (s : St) (fire : Nat) (openOk accepted : Bool) : St :=
  if s.enabled then s
  else if fire = 0 then s
  else
    let (s', ok) := openDev s openOk
    if ok = false then s
    else if accepted then
      let s'' := { s' with fire := fire, stdInterval := testIntervalFor fire, testInterval := testIntervalFor fire }
      { petWatchdog s'' with enabled := true }
    else closeWatchdog s'

/-- One client in `test_clients` (main.c:656-723).  The subtraction is unsigned 64 bit and wraps. -/
def clientFails (std now : Nat) (c : Client) : Bool :=
  c.used && c.expire != 0 &&
    (decide (now ≥ c.expire.toNat) || decide (now ≥ (c.expire - UInt64.ofNat std).toNat))

def testClients (std now : Nat) (cs : List Client) : Nat := (cs.filter (clientFails std now)).length

/-- `count_clients` / `active_clients` (main.c:725-754): entries not used are zeroed, so both functions
agree. -/
def active (cs : List Client) : Bool := cs.any fun c => c.used && c.refcount

def external (cs : List Client) : Bool := cs.any fun c => c.used && !c.internal

/-- `active_clients` looks at all entries (main.c:725-734). -/
def activeClients (cs : List Client) : Bool := cs.any fun c => c.refcount

/-- What can happen.  `round scripts fails reopenOk` is the rest of one loop iteration: the scripts take
`scripts` seconds and `fails` of them (or of the test files) fail; `reopenOk` is whether the device can be
opened again. -/
inductive Ev
  | wait (d : Nat)
  | connect
  | refSet (ci : Nat)
  | refClear (ci : Nat)
  | testLive (ci : Nat) (expire : UInt64)
  | openWatchdog (ci fire : Nat) (openOk accepted : Bool)
  | hup (ci : Nat)
  | sigterm
  | round (scripts fails : Nat) (reopenOk : Bool)
deriving DecidableEq, Repr

/-- Apply a function to entry `ci` if its connection is open (`if (client[i].fd < 0) continue`,
main.c:1530-1531). -/
def onClient (s : St) (ci : Nat) (f : Client → Client) : St :=
  { s with clients := s.clients.modify ci fun c => if c.isOpen then f c else c }

def isOpenAt (s : St) (ci : Nat) : Bool := (s.clients[ci]?.map (·.isOpen)).getD false

/-- The tests of one iteration (main.c:1581-1612).  All clock readings after the scripts are the same
second. -/
def runTests (s : St) (scripts fails : Nat) (reopenOk : Bool) : St :=
  let s := { s with testTime := s.now, now := s.now + scripts }
  if fails + testClients s.stdInterval s.now s.clients = 0 then
    let s := if s.devOpen then petWatchdog s else petWatchdog (openDev s reopenOk).1
    { s with testInterval := s.stdInterval, resetting := false }
  else
    { closeWatchdogUnclean s with testInterval := 1, resetting := true }

/-- The end of one iteration of `test_loop` (main.c:1544-1620) and, on exit, `main` (1923). -/
def round (s : St) (scripts fails : Nat) (reopenOk : Bool) : St :=
  if s.quit && !active s.clients then { closeWatchdog s with exited := true }
  else if !s.enabled then s
  else if !active s.clients && !external s.clients && !s.resetting then
    { closeWatchdog s with enabled := false, testInterval := s.stdInterval, testTime := 0 }
  else if s.now - s.testTime ≥ s.testInterval then runTests s scripts fails reopenOk
  else s

/-- One event: `process_connection` (491-574), `client_pid_dead`, `process_signals` (1429-1449),
`process_listener`, the rest of the iteration.  After the daemon has left its loop nothing happens but
time. -/
def step (s : St) : Ev → St
  | .wait d => { s with now := s.now + d }
  | e =>
    if s.exited then s
    else match e with
    | .wait _ => s
    | .connect => { s with clients := clientAdd s.clients }
    | .refSet ci => onClient s ci fun c => { c with refcount := true }
    | .refClear ci => onClient s ci fun c => { c with refcount := false }
    | .testLive ci e => onClient s ci fun c => { c with expire := e }
    | .openWatchdog ci fire openOk accepted =>
      if isOpenAt s ci then openWatchdog s fire openOk accepted else s
    | .hup ci => onClient s ci clientPidDead
    | .sigterm => { s with quit := s.quit || !activeClients s.clients }
    | .round scripts fails reopenOk => round s scripts fails reopenOk

def run (s : St) (es : List Ev) : St := es.foldl step s

end Sanlock.Wdmd
