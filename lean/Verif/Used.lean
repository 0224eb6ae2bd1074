/-!
# Lockspaces in use

What keeps a lockspace: the marks of `sanlock_set_config` (`lockspace_set_config`, `src/lockspace.c:1598-1646`), orphan leases and processes,
against what removes it: `sanlock_rem_lockspace` with and without `SANLK_REM_UNUSED` (`cmd_rem_lockspace`, `src/cmd.c:1436-1483`), a host id
that cannot be renewed, and a forced shutdown, all carried out by `main_loop` (`src/main.c:850-906`).

Simplifications: a lockspace and a resource are numbers; lockspaces being added are left out (`Verif.Lockspace`), as are operations on an index;
a resource has one token (shared ones: `Verif.Resource`); a process has one command at a time (C44), `acquire` of one resource in three steps,
other commands in one; a process with a lease in a lockspace being stopped is counted as signalled (how: `Verif.Kill`, `Verif.Helper`).
-/

namespace Sanlock.Used

/-- The lists a resource can be on (`src/resource.c:47-51`). -/
inductive Place where
  | adding | held | rem | orphan
deriving DecidableEq, Repr

/-- `struct resource`: the names of the lockspace and of the resource, the list, and the process `r->pid`. -/
structure Rs where
  key : Nat × Nat
  place : Place
  owner : Nat
deriving DecidableEq, Repr

/-- `struct token`: the names, `SANLK_RES_PERSISTENT`, `space_dead`. -/
structure Tok where
  key : Nat × Nat
  pers : Bool
  dead : Bool
deriving DecidableEq, Repr

/-- The command of a process: none; `acquire` that has found the lockspace (`src/cmd.c:390-414`), with `SANLK_ACQUIRE_ORPHAN`; `acquire` that has
entered its resource. -/
inductive Cmd where
  | idle
  | info (t : Tok) (orphan : Bool)
  | got (t : Tok)
deriving DecidableEq, Repr

/-- `struct client` of a registered process: `pid` is false once the connection is closed (`cl->pid` is -1). -/
structure Client where
  pid : Bool
  cmd : Cmd
  toks : List Tok
deriving DecidableEq, Repr

/-- `struct space` on the list `spaces`: `external_remove`, `killing_pids` (set together with `space_dead`), the flags `SP_EXTERNAL_USED` and
`SP_USED_BY_ORPHANS`, and whether the watchdog connection is active. -/
structure Space where
  remove : Bool
  killing : Bool
  ext : Bool
  orph : Bool
  watched : Bool
deriving DecidableEq, Repr

structure State where
  /-- the list `spaces` -/
  on : Nat → Option Space
  /-- the list `spaces_rem` -/
  leaving : Nat → Bool
  res : List Rs
  cl : List Client
  /-- a removal with `SANLK_REM_UNUSED` that has passed the check, by command -/
  checked : Nat → Option Nat
  /-- the processes signalled so far because of their lockspace -/
  killed : List Nat

/-- The daemon after its start. -/
def init : State := ⟨fun _ => none, fun _ => false, [], [], fun _ => none, []⟩

def set {β : Type} (f : Nat → β) (a : Nat) (b : β) : Nat → β := fun x => if x = a then b else f x

/-- `find_resource` (`src/resource.c:1184-1196`) over the lists. -/
def State.at (s : State) (k : Nat × Nat) : Option Rs := s.res.find? fun r => r.key = k

/-- `list_move` of a resource, or a new one. -/
def put (l : List Rs) (k : Nat × Nat) (p : Place) (o : Nat) : List Rs := ⟨k, p, o⟩ :: l.filter fun r => r.key ≠ k

/-- `free_resource` -/
def del (l : List Rs) (k : Nat × Nat) : List Rs := l.filter fun r => r.key ≠ k

/-- `release_token_async` (`src/resource.c:1158-1182`), the lease having been acquired. -/
def async (i : Nat) (l : List Rs) (t : Tok) : List Rs :=
  if t.dead then del l t.key else if t.pers then put l t.key .orphan i else put l t.key .rem i

/-- `release_token` (`src/resource.c:1147-1151`, `941-961`): on `resources_rem` until the disk has been written. -/
def sync (i : Nat) (l : List Rs) (t : Tok) : List Rs := put l t.key .rem i

/-- `client_using_space` (`src/main.c:575-594`) for a process that is there. -/
def uses (n : Nat) (c : Client) : Bool := c.pid && c.toks.any fun t => t.key.1 = n

/-- The names in `lockspace_is_used` (`src/resource.c:1203-1229`). -/
def isUsed (s : State) (n : Nat) : Bool := s.res.any fun r => r.key.1 = n

/-- `resource_orphan_count` (`src/resource.c:1231-1243`). -/
def orphans (s : State) (n : Nat) : Nat := (s.res.filter fun r => r.place = .orphan ∧ r.key.1 = n).length

/-- `all_pids_dead` (`src/main.c:695-756`). -/
def allDead (s : State) (n : Nat) (sp : Space) : Bool :=
  if s.cl.any (uses n) then false
  else if sp.ext then false
  else if sp.orph ∧ orphans s n ≠ 0 then false
  else true

/-- `client_using_space` marks the tokens (`src/main.c:589-590`). -/
def doom (n : Nat) (c : Client) : Client :=
  if c.pid then { c with toks := c.toks.map fun t => if t.key.1 = n then { t with dead := true } else t } else c

/-- `kill_pids` (`src/main.c:596-692`): the processes with a lease in the lockspace. -/
def kill (s : State) (n : Nat) : State :=
  { s with
    cl := s.cl.map (doom n)
    killed := s.killed ++ (List.range s.cl.length).filter fun i => (s.cl[i]?).any (uses n) }

/-- The end of a command of a process (`src/cmd.c:499-563`): if the connection was closed meanwhile, its leases are released. -/
def endCmd (s : State) (i : Nat) (c : Client) : State :=
  if c.pid then { s with cl := s.cl.set i { c with cmd := .idle } }
  else { s with cl := s.cl.set i ⟨false, .idle, []⟩, res := c.toks.foldl (sync i) s.res }

/-- What can happen. -/
inductive Ev where
  /-- a lockspace has been joined: `spaces_add` to `spaces` -/
  | add (n : Nat)
  /-- `sanlock_set_config` -/
  | config (n c : Nat)
  /-- the check of `SANLK_REM_UNUSED` in command `w` -/
  | check (w n : Nat)
  /-- the rest of this command -/
  | removeUnused (w : Nat)
  /-- `sanlock_rem_lockspace` without it -/
  | remove (n : Nat)
  /-- `main_loop` looks at the lockspace; `stop`: the host id could not be renewed in time, or a shutdown is forced -/
  | tick (n : Nat) (stop : Bool)
  /-- the thread of the lockspace has ended and its memory is freed -/
  | ended (n : Nat)
  | connect
  | acqInfo (i : Nat) (t : Tok) (orphan : Bool)
  | acqToken (i : Nat)
  | acqEnd (i : Nat) (ok : Bool)
  | release (i : Nat) (k : Nat × Nat)
  /-- the connection of the process is closed -/
  | exit (i : Nat)
  /-- `release_orphan` -/
  | relOrphan (k : Nat × Nat)
  /-- a release on the disk is done -/
  | released (k : Nat × Nat)
deriving DecidableEq, Repr

/-- `lockspace_set_config` (`src/lockspace.c:1598-1646`).  It is called by the main thread (`src/main.c:1299`), so nothing happens in between. -/
def config (s : State) (n c : Nat) : State × Int :=
  match s.on n with
  | none => (s, -2)
  | some sp =>
    if c = 1 then (if sp.killing then (s, -28) else ({ s with on := set s.on n (some { sp with ext := true }) }, 0))
    else if c = 2 then ({ s with on := set s.on n (some { sp with ext := false }) }, 0)
    else if c = 4 then (if sp.killing then (s, -28) else ({ s with on := set s.on n (some { sp with orph := true }) }, 0))
    else if c = 8 then ({ s with on := set s.on n (some { sp with orph := false }) }, 0)
    else (s, -22)

/-- `rem_lockspace_start` (`src/lockspace.c:1286-1350`). -/
def start (s : State) (n : Nat) : State × Int :=
  if s.leaving n then (s, -115)
  else match s.on n with
    | none => (s, -2)
    | some sp => ({ s with on := set s.on n (some { sp with remove := true }) }, 0)

/-- The part of `main_loop` for one lockspace (`src/main.c:850-906`). -/
def tick (s : State) (n : Nat) (stop : Bool) : State :=
  match s.on n with
  | none => s
  | some sp =>
    if sp.killing then
      if allDead s n sp then { s with on := set s.on n none, leaving := set s.leaving n true }
      else kill s n
    else if stop || sp.remove then kill { s with on := set s.on n (some { sp with killing := true }) } n
    else s

/-- One event; an event that cannot happen changes nothing.  The number is what a caller gets, if a call ends. -/
def step (s : State) : Ev → State × Option Int
  | .add n =>
    if s.leaving n ∨ s.on n ≠ none then (s, some (-1))
    else ({ s with on := set s.on n (some ⟨false, false, false, false, true⟩) }, some 0)
  | .config n c => ((config s n c).1, some (config s n c).2)
  | .check w n => if isUsed s n then (s, some (-16)) else ({ s with checked := set s.checked w (some n) }, none)
  | .removeUnused w =>
    match s.checked w with
    | none => (s, none)
    | some n => ({ (start s n).1 with checked := set s.checked w none }, some (start s n).2)
  | .remove n => ((start s n).1, some (start s n).2)
  | .tick n stop => (tick s n stop, none)
  | .ended n =>
    if s.leaving n then
      ({ s with leaving := set s.leaving n false, res := s.res.filter fun r => ¬(r.place = .orphan ∧ r.key.1 = n) }, none)
    else (s, none)
  | .connect => ({ s with cl := s.cl ++ [⟨true, .idle, []⟩] }, none)
  | .acqInfo i t orphan =>
    match s.cl[i]? with
    | none => (s, none)
    | some c =>
      if c.pid ∧ c.cmd = .idle then
        match s.on t.key.1 with
        | none => (s, some (-28))
        | some sp => if sp.killing then (s, some (-28)) else ({ s with cl := s.cl.set i { c with cmd := .info { t with dead := false } orphan } }, none)
      else (s, none)
  | .acqToken i =>
    match s.cl[i]? with
    | none => (s, none)
    | some c =>
      match c.cmd with
      | .info t orphan =>
        match s.at t.key with
        | none => ({ s with cl := s.cl.set i { c with cmd := .got t }, res := put s.res t.key .adding i }, none)
        | some r =>
          if r.place = .orphan ∧ orphan then
            ({ s with cl := s.cl.set i { c with cmd := .got t }, res := put s.res t.key .held i }, none)
          else (endCmd s i c, some (-17))
      | _ => (s, none)
  | .acqEnd i ok =>
    match s.cl[i]? with
    | none => (s, none)
    | some c =>
      match c.cmd with
      | .got t =>
        if ok ∧ c.pid ∧ (s.on t.key.1).any (fun sp => !sp.killing) then
          ({ s with cl := s.cl.set i { c with cmd := .idle, toks := c.toks ++ [t] }, res := put s.res t.key .held i }, some 0)
        else (endCmd { s with res := put s.res t.key .rem i } i c, some (-28))
      | _ => (s, none)
  | .release i k =>
    match s.cl[i]? with
    | none => (s, none)
    | some c =>
      if c.pid ∧ c.cmd = .idle ∧ c.toks.any (fun t => t.key = k) then
        ({ s with cl := s.cl.set i { c with toks := c.toks.filter fun t => t.key ≠ k }, res := put s.res k .rem i }, some 0)
      else (s, some (-2))
  | .exit i =>
    match s.cl[i]? with
    | none => (s, none)
    | some c =>
      if c.pid = false then (s, none)
      else if c.cmd = .idle then ({ s with cl := s.cl.set i ⟨false, .idle, []⟩, res := c.toks.foldl (async i) s.res }, none)
      else ({ s with cl := s.cl.set i { c with pid := false } }, none)
  | .relOrphan k =>
    match s.at k with
    | none => (s, some 0)
    | some r => if r.place = .orphan then ({ s with res := put s.res k .rem r.owner }, some 1) else (s, some 0)
  | .released k =>
    match s.at k with
    | none => (s, none)
    | some r => if r.place = .rem then ({ s with res := del s.res k }, none) else (s, none)

/-- Any sequence of events. -/
def run (s : State) (l : List Ev) : State := l.foldl (fun s e => (step s e).1) s

end Sanlock.Used
