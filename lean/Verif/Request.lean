/-!
# Requests for a lease

Models the request record of a lease: `request_token`, `examine_token`, `do_request`, `set_resource_examine`
(`src/resource.c:1991-2207`), `resource_thread_examine` (`2377-2411`) and the part of `resource_thread` that starts it (`2534-2558`).

One resource is modelled, with its leader record and request record on disk and the entry in `resources_held` of one host.
Failing reads and writes of the records are a result of the environment (`io`).
Not modelled: the sizes of the lease, the transport of the notification between hosts (`host_status_set_bit`, `src/lockspace.c:440-530`),
which only decides when `set_resource_examine` is called, and a helper that does not take the message.
-/

namespace Sanlock.Request

/-- `struct leader_record`: what `request_token` uses. -/
structure Leader where
  /-- timestamp is LEASE_FREE -/
  free : Bool
  lver : UInt64
  owner : UInt64
deriving DecidableEq

/-- `struct request_record` (`src/ondisk.h`) -/
structure Req where
  /-- magic is REQ_DISK_MAGIC -/
  magic : Bool
  /-- major version is REQ_DISK_VERSION_MAJOR -/
  version : Bool
  lver : UInt64
  mode : UInt32
deriving DecidableEq

/-- Result of `request_token`. -/
inductive Rv where
  | ok | old | lver | magic | version | io
deriving DecidableEq

/-- `request_token` (`src/resource.c:1991-2088`) with the leader and request records read; gives the result, the owner reported and
the record to write, if one is written. `lver` and `next` are `acquire_lver` and `next_lver`. -/
def request (leader : Leader) (req : Req) (lver : UInt64) (mode : UInt32) (next : Bool) : Rv × UInt64 × Option Req :=
  if lver = 0 ∧ mode = 0 then
    if req.magic = false then (.magic, 0, none)
    else if req.version = false then (.version, 0, none)
    else (.ok, 0, some { req with version := true, lver := lver, mode := mode })
  else if leader.free then (.ok, 0, none)
  else
    let lver := if lver = 0 ∧ next then leader.lver + 1 else lver
    if lver ≤ leader.lver then (.old, leader.owner, none)
    else if req.magic = false then (.magic, leader.owner, none)
    else if req.version = false then (.version, leader.owner, none)
    else if lver < req.lver then (.lver, leader.owner, none)
    else (.ok, leader.owner, some { req with version := true, lver := lver, mode := mode })

/-- SANLK_REQ_FORCE, SANLK_REQ_GRACEFUL (`src/sanlock_resource.h:127-128`) -/
def force : UInt32 := 1
@[inherit_doc force] def graceful : UInt32 := 2

/-- Message to the helper (`src/helper.h`). -/
inductive Msg where
  /-- `kill(pid, SIGKILL)` -/
  | sigkill (pid : Nat)
  /-- `kill(pid, SIGTERM)` -/
  | sigterm (pid : Nat)
  /-- run the killpath program of the holder `pid` -/
  | runpath (pid : Nat)
deriving DecidableEq

/-- A held resource (`struct resource`). `pid` is 0 for a lease acquired shared (`src/resource.c:1311-1319`); a conversion leaves it
(`src/resource.c:1492-1537`). `inst` numbers the acquisitions. -/
structure Res where
  inst : Nat
  pid : Nat
  shared : Bool
  lver : UInt64
  restrictKill : Bool
  restrictTerm : Bool
  killpath : Bool
  /-- R_THREAD_EXAMINE -/
  examine : Bool
deriving DecidableEq

/-- The message `do_request` sends for a resource found (`src/resource.c:2153-2174`); none for an unknown mode. -/
def message (r : Res) (pid : Nat) (mode : UInt32) : Option Msg :=
  if mode = force then some (if r.restrictKill then .sigterm pid else .sigkill pid)
  else if mode = graceful then
    if r.killpath then some (.runpath pid)
    else some (if r.restrictTerm then .sigkill pid else .sigterm pid)
  else none

/-- Where the resource thread is. -/
inductive Thread where
  | idle
  /-- copied from resource `inst` (`src/resource.c:2534-2553`) -/
  | picked (inst pid : Nat) (lver : UInt64)
  /-- about to call `do_request` for a request of version `req` -/
  | act (inst pid : Nat) (lver : UInt64) (req : UInt64) (mode : UInt32)
deriving DecidableEq

/-- A message that was sent, with the version requested, and the resource it was sent for. -/
structure Sent where
  msg : Msg
  req : UInt64
  res : Res
deriving DecidableEq

structure State where
  leader : Leader
  req : Req
  held : Option Res
  thread : Thread
  /-- number of resources so far -/
  next : Nat
  sent : List Sent
  /-- number of calls of `set_resource_examine` that found the resource -/
  examines : Nat

/-- What can happen. The disk is written by all hosts. -/
inductive Act where
  /-- the leader record changes -/
  | leader (l : Leader)
  /-- some host calls `request_token`; the write may fail -/
  | request (lver : UInt64) (mode : UInt32) (next : Bool) (io : Bool)
  /-- an acquire on this host succeeds (`src/resource.c:1984-1986`) -/
  | acquire (pid : Nat) (shared : Bool) (lver : UInt64) (restrictKill restrictTerm killpath : Bool)
  /-- the resource leaves `resources_held` -/
  | release
  /-- `convert_token` -/
  | convert (shared : Bool) (lver : UInt64)
  /-- `set_resource_examine` -/
  | examine
  /-- the thread takes a resource to examine -/
  | pick
  /-- the thread reads the request record; `io` for success -/
  | read (io : Bool)
  /-- `do_request` -/
  | act

/-- One step. -/
def step (s : State) : Act → Option State
  | .leader l => some { s with leader := l }
  | .request lver mode next io =>
    match (request s.leader s.req lver mode next).2.2 with
    | some r => some (if io then { s with req := r } else s)
    | none => some s
  | .acquire pid shared lver rk rt kp =>
    if s.held ≠ none ∨ pid = 0 then none
    else
      some { s with
        held := some { inst := s.next, pid := if shared then 0 else pid, shared := shared, lver := lver, restrictKill := rk && !shared, restrictTerm := rt && !shared, killpath := kp, examine := false }
        next := s.next + 1 }
  | .release => some { s with held := none }
  | .convert sh lver =>
    match s.held with
    | none => none
    | some r => some { s with held := some { r with shared := sh, lver := lver } }
  | .examine =>
    match s.held with
    | none => some s
    | some r => some { s with held := some { r with examine := true }, examines := s.examines + 1 }
  | .pick =>
    match s.thread, s.held with
    | .idle, some r =>
      if r.examine then some { s with held := some { r with examine := false }, thread := .picked r.inst r.pid r.lver } else none
    | _, _ => none
  | .read io =>
    match s.thread with
    | .picked i pid lver =>
      if io = false ∨ s.req.magic = false ∨ s.req.version = false then some { s with thread := .idle }
      else if s.req.mode = 0 ∨ s.req.lver = 0 then some { s with thread := .idle }
      else if s.req.lver ≤ lver then some { s with thread := .idle }
      else some { s with thread := .act i pid lver s.req.lver s.req.mode }
    | _ => none
  | .act =>
    match s.thread with
    | .act _ pid _ req mode =>
      match s.held with
      | some r =>
        if r.pid = pid then
          match message r pid mode with
          | some m => some { s with thread := .idle, sent := ⟨m, req, r⟩ :: s.sent }
          | none => some { s with thread := .idle }
        else some { s with thread := .idle }
      | none => some { s with thread := .idle }
    | _ => none

/-- Nothing held. -/
def init (l : Leader) (r : Req) : State :=
  { leader := l
    req := r
    held := none
    thread := .idle
    next := 0
    sent := []
    examines := 0 }

/-- All executions. -/
inductive Reach : State → Prop
  | init (l r) : Reach (init l r)
  | step {s a s'} : Reach s → step s a = some s' → Reach s'

/-- A list of steps. -/
def run (s : State) : List Act → Option State
  | [] => some s
  | a :: as => (step s a).bind (run · as)

theorem run_reach {s s' as} (h : Reach s) (hr : run s as = some s') : Reach s' := by
  induction as generalizing s with
  | nil => cases hr; exact h
  | cons a as ih =>
    simp only [run, Option.bind_eq_some_iff] at hr
    obtain ⟨s1, h1, h2⟩ := hr
    exact ih (h.step h1) h2

end Sanlock.Request
