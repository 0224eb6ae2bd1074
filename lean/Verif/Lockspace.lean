import Verif.Verify

/-!
# The daemon's lists of lockspaces

Models `_search_space`, `add_lockspace_start`, `add_lockspace_wait`, `inq_lockspace`,
`rem_lockspace_start`, `rem_lockspace_wait`, the rindex operation marks and `free_lockspaces`
(`src/lockspace.c:121-154`, `1052-1380`, `1650-1695`, `2045-2059`) and the part of `main_loop` that moves
lockspaces (`src/main.c:849-908`).  One step is one critical section of `spaces_mutex`.

Allocation and thread creation failures are actions; the host id lease itself is in `Verif/Delta.lean`.
-/

namespace Sanlock.Lockspace

open Verify

/-- `struct space`, the fields used here. -/
structure Space where
  id : Nat
  name : List UInt8
  path : List UInt8
  offset : Nat
  hostId : Nat
  externalRemove : Bool
  /-- `space_dead` and `killing_pids` are set together (`src/main.c:897-898`) -/
  killing : Bool
  rindexOp : Bool
deriving DecidableEq

/-- `struct sanlk_lockspace` of a request. -/
structure Req where
  name : List UInt8
  path : List UInt8
  offset : Nat
  hostId : Nat
deriving DecidableEq

/-- Condition of the loop body of `_search_space`; `none` stands for a `NULL` argument, 0 for no host id. -/
def matches? (name : Option (List UInt8)) (disk : Option (List UInt8 × Nat)) (hostId : Nat) (sp : Space) : Bool :=
  (match name with | none => true | some n => strncmpEq 48 sp.name n) &&
  (match disk with | none => true | some (p, o) => strncmpEq 1024 sp.path p && sp.offset == o) &&
  (hostId == 0 || sp.hostId == hostId)

/-- `_search_space` over the concatenation of the given lists (`src/lockspace.c:121-154`). -/
def search (name : Option (List UInt8)) (disk : Option (List UInt8 × Nat)) (hostId : Nat)
    (l : List Space) : Option Space :=
  l.find? (matches? name disk hostId)

structure State where
  spaces : List Space
  add : List Space
  rem : List Space
  counter : Nat
  /-- `external_shutdown` -/
  shutdown : Nat

/-- `_search_space` for an identical lockspace in one list. -/
def searchReq (r : Req) (l : List Space) : Option Space :=
  search (some r.name) (some (r.path, r.offset)) r.hostId l

/-- `name[0]` etc. -/
def emptyStr (l : List UInt8) : Bool := l.headD 0 == 0

/-- `add_lockspace_start` (`src/lockspace.c:1052-1194`), without the start of the thread. -/
def addStart (s : State) (r : Req) : Int × State :=
  if emptyStr r.name || r.hostId == 0 || emptyStr r.path then (Rv.EINVAL, s)
  else if (searchReq r s.spaces).isSome then (Rv.EEXIST, s)
  else if (searchReq r s.add).isSome then (Rv.EINPROGRESS, s)
  else if (searchReq r s.rem).isSome then (Rv.EAGAIN, s)
  else if (search (some r.name) none 0 (s.spaces ++ (s.add ++ s.rem))).isSome then (Rv.EINVAL, s)
  else if (search none (some (r.path, r.offset)) 0 (s.spaces ++ (s.add ++ s.rem))).isSome then (Rv.EINVAL, s)
  else
    let sp : Space := ⟨s.counter, r.name, r.path, r.offset, r.hostId, false, false, false⟩
    (0, { s with add := sp :: s.add, counter := s.counter + 1 })

/-- Removal of a list entry (`list_del`). -/
def del (id : Nat) (l : List Space) : List Space := l.filter (·.id != id)

/-- `add_lockspace_wait` after the thread has published its result, or the thread could not be created
(`src/lockspace.c:1172-1193`, `1196-1256`). -/
def addWait (s : State) (id : Nat) (ok : Bool) : Int × State :=
  match s.add.find? (·.id == id) with
  | none => (0, s)
  | some sp =>
    if !ok then (-1, { s with add := del id s.add })
    else if sp.externalRemove || s.shutdown != 0 then (-1, { s with add := del id s.add })
    else (0, { s with add := del id s.add, spaces := sp :: s.spaces })

/-- `inq_lockspace` (`src/lockspace.c:1258-1284`). -/
def inq (s : State) (r : Req) : Int :=
  if (searchReq r s.spaces).isSome then 0
  else if (searchReq r (s.add ++ s.rem)).isSome then Rv.EINPROGRESS
  else Rv.ENOENT

/-- Change one entry. -/
def upd (id : Nat) (f : Space → Space) (l : List Space) : List Space :=
  l.map fun sp => if sp.id = id then f sp else sp

/-- `rem_lockspace_start` (`src/lockspace.c:1286-1350`). -/
def remStart (s : State) (r : Req) : Int × State :=
  match searchReq r s.rem with
  | some _ => (Rv.EINPROGRESS, s)
  | none =>
    match searchReq r s.add with
    | some sp => (0, { s with add := upd sp.id (fun x => { x with externalRemove := true }) s.add })
    | none =>
      match searchReq r s.spaces with
      | none => (Rv.ENOENT, s)
      | some sp =>
        if sp.rindexOp then (Rv.EBUSY, s)
        else (0, { s with spaces := upd sp.id (fun x => { x with externalRemove := true }) s.spaces })

/-- One check of the loop in `rem_lockspace_wait` (`src/lockspace.c:1354-1380`): is the removal done? -/
def remDone (s : State) (r : Req) (id : Nat) : Bool :=
  match searchReq r (s.spaces ++ (s.rem ++ s.add)) with
  | some sp => sp.id != id
  | none => true

/-- One round of `main_loop` over the lockspaces (`src/main.c:849-908`).  `dead id` is the result of
`all_pids_dead`, `fail id` of `check_our_lease` (non zero is failure). -/
def mainRound (s : State) (dead fail : Nat → Bool) : State :=
  let gone := s.spaces.filter fun sp => sp.killing && dead sp.id
  let stay := s.spaces.filter fun sp => !(sp.killing && dead sp.id)
  { s with
    spaces := stay.map fun sp =>
      if !sp.killing && (fail sp.id || sp.externalRemove || decide (s.shutdown > 1)) then
        { sp with killing := true }
      else sp
    rem := gone.reverse ++ s.rem }

/-- `external_shutdown == 1` is ignored when there are lockspaces (`src/main.c:913-916`). -/
def shutdownIgnored (s : State) : State :=
  if s.shutdown == 1 && !s.spaces.isEmpty then { s with shutdown := 0 } else s

/-- `free_lockspaces` (`src/lockspace.c:2045-2059`); `done id`: the thread has exited. -/
def freeLockspaces (s : State) (done : Nat → Bool) : State :=
  { s with rem := s.rem.filter fun sp => !done sp.id }

/-- `lockspace_begin_rindex_op` (`src/lockspace.c:1650-1681`). -/
def beginRindex (s : State) (name : List UInt8) : Int × State :=
  match search (some name) none 0 s.spaces with
  | none => (Rv.ENOENT, s)
  | some sp =>
    if sp.killing then (Rv.ENOSPC, s)
    else if sp.rindexOp then (Rv.EBUSY, s)
    else (0, { s with spaces := upd sp.id (fun x => { x with rindexOp := true }) s.spaces })

/-- `lockspace_clear_rindex_op` (`src/lockspace.c:1683-1696`). -/
def clearRindex (s : State) (name : List UInt8) : Int × State :=
  match search (some name) none 0 s.spaces with
  | none => (Rv.ENOENT, s)
  | some sp => (0, { s with spaces := upd sp.id (fun x => { x with rindexOp := false }) s.spaces })

inductive Act where
  | addStart (r : Req)
  | addWait (id : Nat) (ok : Bool)
  | remStart (r : Req)
  | mainRound (dead fail : Nat → Bool)
  | free (done : Nat → Bool)
  | beginRindex (name : List UInt8)
  | clearRindex (name : List UInt8)
  | shutdown (level : Nat)

def step (s : State) : Act → State
  | .addStart r => (addStart s r).2
  | .addWait id ok => (addWait s id ok).2
  | .remStart r => (remStart s r).2
  | .mainRound d f => shutdownIgnored (mainRound s d f)
  | .free d => freeLockspaces s d
  | .beginRindex n => (beginRindex s n).2
  | .clearRindex n => (clearRindex s n).2
  | .shutdown l => { s with shutdown := l }

def init : State := ⟨[], [], [], 1, 0⟩

def run (s : State) (l : List Act) : State := l.foldl step s

end Sanlock.Lockspace
