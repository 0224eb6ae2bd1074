/-!
# Index operations at the same time (`src/rindex.c`, `src/lockspace.c:1650-1696`)

Any number of hosts run `rindex_create`, `rindex_delete`, `rindex_lookup` and `rindex_update` on one resource index, one step per
sector.  `Verif/Rindex.lean` has the bytes; here an entry is its number and the name in it, and a resource area is the name in its
leader record.  Entry `i` belongs to area `i` (`search_location`, `update_inside_partial`).

The lease that protects the index is abstract: acquiring it is one step that succeeds if the lease is free, or its owner is this host
or no longer a member of the lockspace (C02, C03, C38), and a release has an effect only on the version that was acquired (C05).

Not modelled: `rindex_format` and `rindex_rebuild` (C27), the header, which does not change, the flag `SANLK_RX_NO_LOCKSPACE`, memory
allocation, and the case that a lookup asks for an offset (C28).
-/

namespace Sanlock.IndexOps

/-- Entries per sector, sectors, and the number of resources (rindex.c:150-156). -/
structure Cfg where
  per : Nat
  secs : Nat
  max : Nat
deriving DecidableEq, Repr

inductive Kind
  | create (n : Nat)
  | delete (n : Nat)
  | lookup (n : Nat)
  /-- `SANLK_RXUP_ADD` and `SANLK_RXUP_REM` -/
  | add (k n : Nat)
  | rem (k : Nat)
deriving DecidableEq, Repr

/-- What a call returns. -/
inductive Res
  /-- success, with the number of the area (for a deletion, of the area that was cleared) -/
  | ok (k : Nat)
  /-- `search_entries` found nothing: `-ENOENT` (rindex.c:177) -/
  | missing
  /-- any other error -/
  | error
deriving DecidableEq, Repr

/-- Where an operation is. -/
inductive Pc
  /-- `lockspace_begin_rindex_op` has succeeded -/
  | begun
  /-- `read_rindex`, with the number of sectors read -/
  | reading (j : Nat)
  /-- before `paxos_lease_init` of area `k` -/
  | init (k : Nat)
  /-- before `update_rindex` for entry `k` -/
  | write (k : Nat)
  /-- before `paxos_lease_release`, with the result -/
  | release (r : Res)
  /-- before `lockspace_clear_rindex_op` -/
  | clear (r : Res)
  | done (r : Res)
deriving DecidableEq, Repr

/-- One call.  `gen` is the generation that `lockspace_begin_rindex_op` copied, `lver` the version of the index lease that was
acquired, `buf` the entries in the buffer. -/
structure Op where
  host : Nat
  gen : Nat
  kind : Kind
  pc : Pc
  lver : Nat
  buf : Nat → Option Nat

/-- The call has not returned. -/
def Op.active (x : Op) : Bool := match x.pc with | .done _ => false | _ => true

/-- The call ends with its host. -/
def Op.lost (x : Op) : Op := if x.active then { x with pc := .done .error } else x

/-- The lockspace of one host: `rem` is `external_remove`, `dead` is `space_dead`, `busy` is `rindex_op`. -/
structure Host where
  joined : Bool
  gen : Nat
  rem : Bool
  dead : Bool
  busy : Bool
deriving DecidableEq, Repr

/-- A change of the index (history). -/
inductive Change
  | added (k n : Nat)
  | removed (k n : Nat)
deriving DecidableEq, Repr

structure State where
  idx : Nat → Option Nat
  area : Nat → Option Nat
  /-- owner of the index lease, and its version -/
  owner : Option (Nat × Nat)
  lver : Nat
  hosts : Nat → Host
  ops : Nat → Option Op
  /-- writes that were given up and may still reach the disk: sector and contents -/
  pend : List (Nat × (Nat → Option Nat))
  /-- changes that creations and deletions made, newest first, with the call -/
  log : List (Nat × Change)

def initial : State where
  idx _ := none
  area _ := none
  owner := none
  lver := 0
  hosts _ := ⟨false, 0, false, false, false⟩
  ops _ := none
  pend := []
  log := []

def setOp (s : State) (o : Nat) (x : Op) : State := { s with ops := fun i => if i = o then some x else s.ops i }

def setHost (s : State) (h : Nat) (x : Host) : State := { s with hosts := fun i => if i = h then x else s.hosts i }

/-- The first entry that `p` accepts (`search_entries`, rindex.c:140-178). -/
def search (c : Cfg) (buf : Nat → Option Nat) (p : Option Nat → Bool) : Option Nat := (List.range c.max).find? fun i => p (buf i)

/-- What follows the read of the index: rindex.c:566-571, 706-711, 847-856, 930-940. -/
def afterRead (c : Cfg) (x : Op) : Pc :=
  match x.kind with
  | .create _ => match search c x.buf (· == none) with | some k => .init k | none => .release .missing
  | .delete n => match search c x.buf (· == some n) with | some k => .write k | none => .release .missing
  | .lookup n => match search c x.buf (· == some n) with | some k => .clear (.ok k) | none => .clear .missing
  | .add k _ => .write k
  | .rem k => .write k

/-- The contents of entry `k` that `update_rindex` writes (rindex.c:216-226). -/
def newEntry : Kind → Option Nat
  | .create n => some n
  | .delete _ => none
  | .lookup _ => none
  | .add _ n => some n
  | .rem _ => none

/-- The sector of `update_rindex`: the buffer with one entry replaced (rindex.c:228-234). -/
def newBuf (x : Op) (k : Nat) : Nat → Option Nat := fun i => if i = k then newEntry x.kind else x.buf i

/-- One sector of the index is written. -/
def writeSector (c : Cfg) (idx : Nat → Option Nat) (sec : Nat) (b : Nat → Option Nat) : Nat → Option Nat :=
  fun i => if i / c.per = sec then b i else idx i

/-- What a creation or deletion changes, for the history. -/
def change (kind : Kind) (k : Nat) : Option Change :=
  match kind with
  | .create n => some (.added k n)
  | .delete n => some (.removed k n)
  | _ => none

inductive Act
  /-- the host joins the lockspace -/
  | join (h : Nat)
  /-- `rem_lockspace` (lockspace.c:1323-1345) -/
  | remove (h : Nat)
  /-- the main loop acts on `external_remove` -/
  | kill (h : Nat)
  /-- the host lease is lost -/
  | fail (h : Nat)
  /-- the lockspace is freed, the host lease is released or has expired -/
  | leave (h : Nat)
  /-- the host is reset -/
  | crash (h : Nat)
  /-- a call begins -/
  | begin (o h : Nat) (kind : Kind)
  /-- `paxos_lease_acquire`; `ok` is false when the disk fails -/
  | acquire (o : Nat) (ok : Bool)
  /-- one sector is read; `ok` is false when the disk fails -/
  | read (o : Nat) (ok : Bool)
  /-- `paxos_lease_init`; if it fails, the area is left with `v` -/
  | init (o : Nat) (ok : Bool) (v : Option Nat)
  /-- `update_rindex`; a write that fails has reached the disk or not -/
  | write (o : Nat) (ok landed : Bool)
  /-- `paxos_lease_release`, whose result is not used -/
  | release (o : Nat) (ok : Bool)
  /-- `lockspace_clear_rindex_op`: the lockspace is found by its name -/
  | clear (o : Nat)
  /-- a write that was given up reaches the disk -/
  | land
deriving DecidableEq, Repr

/-- Whether the kind takes the index lease. -/
def locks : Kind → Bool
  | .create _ | .delete _ => true
  | _ => false

/-- The owner of the index lease is a member of the lockspace. -/
def alive (s : State) (w : Nat × Nat) : Bool := (s.hosts w.1).joined && (s.hosts w.1).gen == w.2

/-- Where an operation goes when something fails: the index lease is released only if it was taken. -/
def giveUp (x : Op) : Pc := if locks x.kind then .release .error else .clear .error

def step (c : Cfg) (s : State) : Act → Option State
  | .join h =>
    if (s.hosts h).joined then none else some (setHost s h ⟨true, (s.hosts h).gen + 1, false, false, false⟩)
  | .remove h =>
    if (s.hosts h).joined && !(s.hosts h).busy then some (setHost s h { s.hosts h with rem := true }) else none
  | .kill h =>
    if (s.hosts h).joined && (s.hosts h).rem then some (setHost s h { s.hosts h with dead := true }) else none
  | .fail h =>
    if (s.hosts h).joined then some (setHost s h { s.hosts h with dead := true }) else none
  | .leave h =>
    if (s.hosts h).joined && (s.hosts h).dead then some (setHost s h { s.hosts h with joined := false }) else none
  | .crash h =>
    some { setHost s h { s.hosts h with joined := false, busy := false } with
      ops := fun i => (s.ops i).map fun x => if x.host = h then x.lost else x }
  | .begin o h kind =>
    if (s.hosts h).joined && !(s.hosts h).dead && !(s.hosts h).busy && (s.ops o).isNone then
      some (setOp (setHost s h { s.hosts h with busy := true }) o ⟨h, (s.hosts h).gen, kind, .begun, 0, fun _ => none⟩)
    else none
  | .acquire o ok =>
    match s.ops o with
    | none => none
    | some x =>
      if x.pc = .begun then
        if !locks x.kind then some (setOp s o { x with pc := .reading 0 })
        else if !ok then some (setOp s o { x with pc := .clear .error })
        else
          match s.owner with
          | none => some { setOp s o { x with pc := .reading 0, lver := s.lver + 1 } with owner := some (x.host, x.gen), lver := s.lver + 1 }
          | some w =>
            if (w.1 = x.host ∧ w.2 ≤ x.gen) ∨ alive s w = false then
              some { setOp s o { x with pc := .reading 0, lver := s.lver + 1 } with owner := some (x.host, x.gen), lver := s.lver + 1 }
            else some (setOp s o { x with pc := .clear .error })
      else none
  | .read o ok =>
    match s.ops o with
    | none => none
    | some x =>
      match x.pc with
      | .reading j =>
        if !ok then some (setOp s o { x with pc := giveUp x })
        else
          let x1 : Op := { x with buf := fun i => if i / c.per = j then s.idx i else x.buf i }
          if j + 1 < c.secs then some (setOp s o { x1 with pc := .reading (j + 1) })
          else some (setOp s o { x1 with pc := afterRead c x1 })
      | _ => none
  | .init o ok v =>
    match s.ops o with
    | none => none
    | some x =>
      match x.pc with
      | .init k =>
        if ok then
          some { setOp s o { x with pc := match x.kind with | .create _ => .write k | _ => .release (.ok k) } with
            area := fun i => if i = k then newEntry x.kind else s.area i }
        else some { setOp s o { x with pc := .release .error } with area := fun i => if i = k then v else s.area i }
      | _ => none
  | .write o ok landed =>
    match s.ops o with
    | none => none
    | some x =>
      match x.pc with
      | .write k =>
        if ok && !landed then none
        else
          let pc : Pc := if ok then (match x.kind with | .create _ => .release (.ok k) | .delete _ => .init k | _ => .clear (.ok k)) else giveUp x
          let s1 := setOp s o { x with pc := pc }
          if landed then
            some { s1 with
              idx := writeSector c s.idx (k / c.per) (newBuf x k)
              log := match change x.kind k with | some d => (o, d) :: s.log | none => s.log }
          else some { s1 with pend := (k / c.per, newBuf x k) :: s.pend }
      | _ => none
  | .release o ok =>
    match s.ops o with
    | none => none
    | some x =>
      match x.pc with
      | .release r =>
        let s1 := setOp s o { x with pc := .clear r }
        if ok && decide (s.owner = some (x.host, x.gen)) && s.lver == x.lver then some { s1 with owner := none } else some s1
      | _ => none
  | .clear o =>
    match s.ops o with
    | none => none
    | some x =>
      match x.pc with
      | .clear r => some (setOp (setHost s x.host { s.hosts x.host with busy := false }) o { x with pc := .done r })
      | _ => none
  | .land =>
    match s.pend with
    | [] => none
    | (sec, b) :: rest => some { s with idx := writeSector c s.idx sec b, pend := rest }

def run (c : Cfg) (s : State) : List Act → Option State
  | [] => some s
  | a :: as => (step c s a).bind (run c · as)

end Sanlock.IndexOps
