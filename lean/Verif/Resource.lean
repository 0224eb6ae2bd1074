import Verif.Rv

/-!
# The resources of one host

Models the lists `resources_add`, `resources_held`, `resources_rem`, `resources_orphan` and the tokens of
`src/resource.c`: `acquire_token` (1623-1989), `_release_token` (938-1136), `release_token_async` (1158-1181),
`convert_token` (1539-1621), `resource_thread_release` (2252-2375), `release_orphan` (2570-2595) and
`purge_resource_list` (2597-2611).  Each action is one critical section of `resource_mutex`, or the end of the disk
operations between two critical sections; the results of the disk operations are arbitrary.

Simplifications: a name stands for the pair of lockspace and resource names compared by `find_resource` (1183-1197);
resource structures have unique numbers instead of addresses, reuse of freed structures (`get_free_resource`,
104-128) is not modelled; lists are sets.
That no two commands of a process are in flight at once is proved in `Verif/Client.lean`; here a token in a command is
not touched by others.
-/

namespace Sanlock.Resource

open Rv (EAGAIN EBUSY EEXIST EUCLEAN ENOENT EALREADY EINVAL)

/-- The list a resource is on. -/
inductive Loc where
  | add | held | rem | orphan
deriving DecidableEq, Repr

/-- `struct resource` (`src/sanlock_internal.h:136-155`): name, list, `R_SHARED`, `leader.lver ≠ 0`,
`R_THREAD_RELEASE`, and the list `tokens`. -/
structure Res where
  name : Nat
  loc : Loc
  shared : Bool
  lver : Bool
  threadRel : Bool
  toks : List Nat
deriving DecidableEq, Repr

/-- Where the command using a token is. -/
inductive Phase where
  /-- no lease: not yet acquired, failed or released -/
  | none
  /-- in `acquire_token`, resource on `resources_add` (1795-1985) -/
  | adding
  /-- in `acquire_token`, orphan adopted, opening the disks (1735-1747, 1760-1772) -/
  | adopting
  /-- acquired, no command active -/
  | held
  /-- in `convert_token` after the checks (1600-1616); `true`: to shared -/
  | conv (toSh : Bool)
  /-- in `_release_token` after the first critical section, as last token (978-1136) -/
  | reling
deriving DecidableEq, Repr

/-- `struct token`: name, `acquire_flags & SANLK_RES_SHARED`, `acquire_flags & SANLK_RES_PERSISTENT`, `resource`. -/
structure Tok where
  name : Nat
  shared : Bool
  persistent : Bool
  phase : Phase
  res : Nat
deriving DecidableEq, Repr

/-- `res` is the set of resource structures on the four lists, `nres` the number of structures created,
`thread` the one the resource thread is working on. -/
structure State where
  res : Nat → Option Res
  nres : Nat
  tok : Nat → Tok
  thread : Option Nat

def init : State where
  res := fun _ => none
  nres := 0
  tok := fun _ => ⟨0, false, false, .none, 0⟩
  thread := none

def set {α : Type} (f : Nat → α) (i : Nat) (x : α) : Nat → α := fun j => if j = i then x else f j

/-- `find_resource` (1183-1197). -/
def find (s : State) (loc : Loc) (name : Nat) : Option Nat :=
  (List.range s.nres).find? fun r => match s.res r with
    | some x => x.loc == loc && x.name == name
    | none => false

/-- The arguments of an acquire call: `SANLK_RES_SHARED`, `SANLK_RES_PERSISTENT`, and the command flags
`SANLK_ACQUIRE_LVB`, `SANLK_ACQUIRE_ORPHAN`, `SANLK_ACQUIRE_ORPHAN_ONLY`. -/
structure Args where
  name : Nat
  shared : Bool
  persistent : Bool
  lvb : Bool
  orphan : Bool
  orphanOnly : Bool
deriving DecidableEq, Repr

/-- What the first critical section of `acquire_token` decides. -/
inductive Lookup where
  | err (rv : Int)
  | addShared (r : Nat)
  | adopt (r : Nat)
  | create
deriving DecidableEq, Repr

/-- The checks of `acquire_token` after those of the first three lists (1697-1784).  `cmd_flags & only_orphan` in line
1781 tests bit 0, which is `SANLK_ACQUIRE_LVB`, because `only_orphan` is 0 or 1. -/
def lookupOrphan (s : State) (a : Args) : Lookup :=
  match find s .orphan a.name with
  | some r =>
    let allow := a.orphan || a.orphanOnly
    let shared := match s.res r with
      | some x => x.shared
      | none => false
    if ¬ allow then .err EUCLEAN
    else if shared ≠ a.shared then .err EUCLEAN
    else .adopt r
  | none => if a.orphanOnly && a.lvb then .err ENOENT else .create

/-- `acquire_token` (1653-1784). -/
def lookup (s : State) (a : Args) : Lookup :=
  match find s .rem a.name with
  | some _ => .err EAGAIN
  | none =>
    match find s .add a.name with
    | some _ => .err EBUSY
    | none =>
      match find s .held a.name with
      | some r =>
        let shared := match s.res r with
          | some x => x.shared
          | none => false
        if a.shared && shared then .addShared r else .err EEXIST
      | none => lookupOrphan s a

/-- Actions.  `t` is a token, `r` a resource structure. -/
inductive Act where
  /-- the first critical section of `acquire_token` -/
  | acquire (t : Nat) (a : Args)
  /-- the end of the disk operations of `acquire_token`; on failure with `rv`, `lver` tells whether `r->leader` was
  set; then the first critical section of `_release_token` follows -/
  | acquired (t : Nat) (ok : Bool) (rv : Int) (lver : Bool)
  /-- the end of `open_disks` after adopting an orphan -/
  | adopted (t : Nat) (ok : Bool) (rv : Int)
  /-- the first critical section of `_release_token` -/
  | release (t : Nat)
  /-- the process has died while a command was active, which calls `release_cl_tokens` (`src/cmd.c:92-104`) at its
  end: the first critical section of `_release_token` -/
  | diesInCmd (t : Nat)
  /-- the end of `_release_token` (1105-1135) -/
  | released (t : Nat) (timeout : Bool) (rv : Int)
  /-- `release_token_async` -/
  | dies (t : Nat) (spaceDead : Bool)
  /-- the resource thread takes a resource to release (2500-2522) -/
  | threadTake (r : Nat)
  /-- the end of `resource_thread_release` (2358-2374) -/
  | threadDone (timeout : Bool)
  /-- `release_orphan` for one orphan -/
  | releaseOrphan (r : Nat)
  /-- `purge_resource_orphans` for one orphan -/
  | purge (r : Nat)
  /-- the checks of `convert_token` (1550-1599) -/
  | convert (t : Nat) (toSh : Bool)
  /-- the end of `convert_sh2ex_token` or `convert_ex2sh_token` -/
  | converted (t : Nat) (ok : Bool) (rv : Int)
deriving DecidableEq, Repr

/-- The first critical section of `_release_token` (957-967) and the returns after it (969-982): remove the token from
the resource; if it was the last one move the resource to `resources_rem`. -/
def relSection (s : State) (t : Nat) (x : Res) (lver : Bool) : State × Option Int :=
  let k := s.tok t
  let toks := x.toks.erase t
  if toks = [] then
    ({ s with
       res := set s.res k.res (some { x with loc := .rem, toks := [], lver := lver })
       tok := set s.tok t { k with phase := .reling } }, none)
  else
    ({ s with
       res := set s.res k.res (some { x with toks := toks, lver := lver })
       tok := set s.tok t { k with phase := .none } }, some (if x.shared then Rv.OK else Rv.ERROR))

/-- One action; the second component is the value returned to the caller of `acquire_token`, `release_token` or
`convert_token` if the action ends the call. -/
def step (s : State) : Act → Option (State × Option Int)
  | .acquire t a =>
    if (s.tok t).phase ≠ .none then none else
    match lookup s a with
    | .err rv => some (s, some rv)
    | .addShared r =>
      match s.res r with
      | none => none
      | some x => some
        ({ s with
           res := set s.res r (some { x with toks := t :: x.toks })
           tok := set s.tok t ⟨a.name, a.shared, a.persistent, .held, r⟩ }, some Rv.OK)
    | .adopt r =>
      match s.res r with
      | none => none
      | some x => some
        ({ s with
           res := set s.res r (some { x with toks := t :: x.toks, loc := .held })
           tok := set s.tok t ⟨a.name, a.shared, a.persistent, .adopting, r⟩ }, none)
    | .create => some
      ({ s with
         res := set s.res s.nres (some ⟨a.name, .add, a.shared, false, false, [t]⟩)
         nres := s.nres + 1
         tok := set s.tok t ⟨a.name, a.shared, a.persistent, .adding, s.nres⟩ }, none)
  | .acquired t ok rv lver =>
    let k := s.tok t
    if k.phase ≠ .adding then none else
    match s.res k.res with
    | none => none
    | some x =>
      if ok then some
        ({ s with
           res := set s.res k.res (some { x with loc := .held, lver := true })
           tok := set s.tok t { k with phase := .held } }, some Rv.OK)
      else some ((relSection s t x lver).1, some rv)
  | .adopted t ok rv =>
    let k := s.tok t
    if k.phase ≠ .adopting then none else
    match s.res k.res with
    | none => none
    | some x =>
      if ok then some ({ s with tok := set s.tok t { k with phase := .held } }, some Rv.OK)
      else some ((relSection s t x x.lver).1, some rv)
  | .release t =>
    let k := s.tok t
    if k.phase ≠ .held then none else
    match s.res k.res with
    | none => none
    | some x => some (relSection s t x x.lver)
  | .diesInCmd t =>
    let k := s.tok t
    if k.phase ≠ .held then none else
    match s.res k.res with
    | none => none
    | some x => some ((relSection s t x x.lver).1, none)
  | .released t timeout rv =>
    let k := s.tok t
    if k.phase ≠ .reling then none else
    match s.res k.res with
    | none => none
    | some x =>
      if timeout then some
        ({ s with
           res := set s.res k.res (some { x with threadRel := true })
           tok := set s.tok t { k with phase := .none } }, some Rv.AIO_TIMEOUT)
      else some
        ({ s with
           res := set s.res k.res none
           tok := set s.tok t { k with phase := .none } }, some rv)
  | .dies t spaceDead =>
    let k := s.tok t
    if k.phase ≠ .held then none else
    match s.res k.res with
    | none => none
    | some x =>
      let toks := x.toks.erase t
      let tok := set s.tok t { k with phase := .none }
      if toks ≠ [] then some ({ s with res := set s.res k.res (some { x with toks := toks }), tok := tok }, none)
      else if spaceDead ∨ ¬ x.lver then some ({ s with res := set s.res k.res none, tok := tok }, none)
      else if k.persistent then some
        ({ s with res := set s.res k.res (some { x with toks := [], loc := .orphan }), tok := tok }, none)
      else some
        ({ s with res := set s.res k.res (some { x with toks := [], loc := .rem, threadRel := true }), tok := tok }, none)
  | .threadTake r =>
    if s.thread ≠ none then none else
    match s.res r with
    | none => none
    | some x =>
      if x.loc = .rem ∧ x.threadRel then some
        ({ s with res := set s.res r (some { x with threadRel := false }), thread := some r }, none)
      else none
  | .threadDone timeout =>
    match s.thread with
    | none => none
    | some r =>
      match s.res r with
      | none => none
      | some x =>
        if timeout then some ({ s with res := set s.res r (some { x with threadRel := true }), thread := none }, none)
        else some ({ s with res := set s.res r none, thread := none }, none)
  | .releaseOrphan r =>
    match s.res r with
    | none => none
    | some x =>
      if x.loc = .orphan then some
        ({ s with res := set s.res r (some { x with loc := .rem, threadRel := true }) }, none)
      else none
  | .purge r =>
    match s.res r with
    | none => none
    | some x => if x.loc = .orphan then some ({ s with res := set s.res r none }, none) else none
  | .convert t toSh =>
    let k := s.tok t
    if k.phase ≠ .held then none else
    match find s .held k.name with
    | none => some (s, some ENOENT)
    | some r =>
      match s.res r with
      | none => none
      | some x =>
        let anySh := x.toks.any fun u => (s.tok u).shared
        if t ∉ x.toks then some (s, some ENOENT)
        else if anySh ≠ x.shared then some (s, some EINVAL)
        else if toSh = x.shared then some (s, some EALREADY)
        else some ({ s with tok := set s.tok t { k with phase := .conv toSh } }, none)
  | .converted t ok rv =>
    let k := s.tok t
    match k.phase with
    | .conv toSh =>
      match s.res k.res with
      | none => none
      | some x =>
        if ok then some
          ({ s with
             res := set s.res k.res (some { x with shared := toSh })
             tok := set s.tok t { k with phase := .held, shared := toSh } }, some Rv.OK)
        else some ({ s with tok := set s.tok t { k with phase := .held } }, some rv)
    | _ => none

/-- Runs. -/
def run (s : State) : List Act → Option State
  | [] => some s
  | a :: rest => (step s a).bind fun r => run r.1 rest

/-! ## Conversion on disk -/

/-- What `convert_sh2ex_token` leaves behind: the value returned, the token's and resource's mode (`true` shared),
`R_ERASE_ALL`, and whether the disk operations were: the lease acquired, the release of its ownership done, our shared
marker cleared. -/
structure Conv where
  rv : Int
  shared : Bool
  eraseAll : Bool
  owner : Bool
  marker : Bool
deriving DecidableEq, Repr

/-- The undo loop `fail:` (1444-1489): `rvs` are the results of the calls of `paxos_lease_release`; at most four are
used.  The result tells whether the ownership was released. -/
def undo : Nat → List Int → Option Bool
  | _, [] => none
  | n, rv :: rest =>
    if rv = Rv.AIO_TIMEOUT ∧ n < 3 then undo (n + 1) rest
    else some (decide (0 ≤ rv))

/-- `convert_sh2ex_token` (1324-1490): result `acq` of `paxos_lease_acquire` with `T_RETRACT_PAXOS`, `sharedCount`
found by it, result and `live_count` of `clear_dead_shared`, result of `release_disk`, result of `write_host_block`,
results of the undo loop, and `token->space_dead`.  A read-back that fails leaves `owner` set. -/
def sh2ex (acq : Int) (retract : Bool) (sharedCount : Nat) (clear : Int) (live : Nat) (rel : Int) (wr : Int)
    (undoRvs : List Int) (spaceDead : Bool) : Option Conv :=
  let fail (error : Int) : Option Conv :=
    if spaceDead then some ⟨error, true, false, true, true⟩
    else (undo 0 undoRvs).map fun done => ⟨error, true, !done, !done, true⟩
  if acq < 0 then
    if retract then fail acq else some ⟨acq, true, false, false, true⟩
  else if sharedCount ≤ 1 then some ⟨Rv.OK, false, false, true, decide (wr < 0)⟩
  else if clear < 0 then fail clear
  else if live ≠ 0 then
    if rel < 0 then fail rel else some ⟨EAGAIN, true, false, false, true⟩
  else some ⟨Rv.OK, false, false, true, decide (wr < 0)⟩

/-- The loop `retry:` of `convert_ex2sh_token` (1508-1531): results of `release_disk` and whether the record written
was nevertheless changed on disk (a timed out write may still land); `ioTimeout` bounds the repetitions.  The result
is the return value and whether the record on disk was freed. -/
def ex2shLoop (ioTimeout : Nat) (spaceDead : Bool) : Nat → Bool → List (Int × Bool) → Option (Int × Bool)
  | _, _, [] => none
  | n, freed, (rv, landed) :: rest =>
    let freed := freed || landed || decide (0 ≤ rv)
    if rv = Rv.AIO_TIMEOUT ∧ n < ioTimeout then
      if spaceDead then some (rv, freed) else ex2shLoop ioTimeout spaceDead (n + 1) freed rest
    else some (rv, freed)

/-- `convert_ex2sh_token` (1492-1537): result of writing our block with the shared marker (`landed`: the marker is on
disk although the write failed), then the loop.  The early return for a dead lockspace does not set `R_ERASE_ALL`. -/
def ex2sh (wr : Int) (wrLanded : Bool) (ioTimeout : Nat) (spaceDead : Bool) (rels : List (Int × Bool)) : Option Conv :=
  if wr < 0 then some ⟨wr, false, false, true, wrLanded⟩
  else (ex2shLoop ioTimeout spaceDead 0 false rels).map fun (rv, freed) =>
    if rv < 0 then ⟨rv, false, !(spaceDead && decide (rv = Rv.AIO_TIMEOUT)), !freed, true⟩
    else ⟨Rv.OK, true, false, !freed, true⟩

end Sanlock.Resource
