/-!
# Client slots, commands on behalf of registered processes, and lockspaces

Models the life of the entries of the `client` array in `src/main.c` and the commands that work for a registered
process in `src/cmd.c` (acquire, release, inquire, convert, killpath), with all interleavings of the main thread and any
number of worker threads.  One step is one critical section of `cl->mutex` (with `spaces_mutex` where both are held), or
one call of `acquire_token` / `release_token`.

Leases are abstract tokens; what acquiring and releasing them does on disk is in other modules.  The number of NULL
slots in `cl->tokens` is not modelled: the array is a list of the tokens in it.  File descriptors, the messages and the
poll array are not modelled; the main thread may handle a hangup of a connection at any time.
-/

namespace Sanlock.Client

abbrev Tok := Nat

/-- Update of one entry of an array. -/
def set {α : Type} (f : Nat → α) (i : Nat) (a : α) : Nat → α := fun j => if j = i then a else f j

/-- `struct client` (`src/sanlock_internal.h:288-309`), the fields used here. -/
structure Cl where
  used : Bool
  /-- `pid`, `none` for -1 -/
  pid : Option Nat
  /-- `deadfn` is `client_pid_dead` -/
  reg : Bool
  cmdActive : Bool
  pidDead : Bool
  suspend : Bool
  needFree : Bool
  killCount : Nat
  /-- the non NULL entries of `tokens` -/
  tokens : List Tok
  /-- the entries of `tokens` point to freed memory, after `release_cl_tokens` or the loop in `client_pid_dead` -/
  dangling : Bool
  /-- ghost: a command from this connection ended without resuming it -/
  leaked : Bool
  /-- ghost: a convert command ended without clearing `cmdActive` -/
  stuck : Bool
deriving DecidableEq

/-- A free slot (`client_alloc`, `_client_free`). -/
def Cl.empty : Cl := ⟨false, none, false, false, false, false, false, 0, [], false, false, false⟩

/-- Commands that work for a registered process; `other` stands for those that do not. -/
inductive Kind where
  | acquire | release | inquire | convert | killpath | other
deriving DecidableEq

/-- Where a command thread is. -/
inductive Phase where
  /-- working; `cmd_active` is set -/
  | run
  /-- after the final critical section, in which `pid_dead` had the given value -/
  | post (dead : Bool)
  /-- after `release_cl_tokens`, before `client_free` -/
  | freeing
  /-- before `client_resume` -/
  | reply
deriving DecidableEq

/-- What `lockspace_info` returned for a resource (`src/cmd.c:394-408`): name of the lockspace, host id, generation.
`inst` tells apart lockspaces of the same name that existed one after the other. -/
structure Info where
  name : Nat
  hostId : Nat
  gen : Nat
  inst : Nat
deriving DecidableEq

/-- A command in a worker thread (`struct cmd_args` and local variables). -/
structure Thr where
  cin : Nat
  ct : Nat
  kind : Kind
  phase : Phase
  /-- `new_tokens` already acquired, or `rem_tokens` not yet released -/
  held : List Tok
  infos : List Info
deriving DecidableEq

/-- A lockspace on the list `spaces`. -/
structure Space where
  inst : Nat
  name : Nat
  hostId : Nat
  gen : Nat
  /-- `killing_pids` -/
  killing : Bool
deriving DecidableEq

structure State where
  cl : Nat → Cl
  thr : Nat → Option Thr
  nthr : Nat
  /-- how often `release_token` was called for a token -/
  rel : Tok → Nat
  info : Tok → Info
  /-- ghost: the thread that acquired a token -/
  by' : Tok → Nat
  next : Tok
  spaces : List Space
  ninst : Nat
  /-- the main thread is between the two critical sections of `client_pid_dead` for this slot -/
  main : Option Nat
  /-- ghost: what the final section of an acquire decided -/
  granted : Nat → Bool

def init : State :=
  ⟨fun _ => Cl.empty, fun _ => none, 0, fun _ => 0, fun _ => ⟨0, 0, 0, 0⟩, fun _ => 0, 0, [], 0, none, fun _ => false⟩

/-- `_client_free` (`src/main.c:221-289`). -/
def freeCl (c : Cl) : Cl :=
  if c.used = false then c
  else if c.pid.isSome then c
  else if c.suspend then { c with needFree := true }
  else Cl.empty

/-- `client_resume` (`src/main.c:346-387`). -/
def resumeCl (c : Cl) : Cl :=
  if c.used = false then c
  else if c.suspend = false then c
  else if c.needFree then freeCl { c with suspend := false }
  else { c with suspend := false }

/-- `_lockspace_info` for the lockspace of a token (`src/lockspace.c:190-217`). -/
def findSpace (l : List Space) (name : Nat) : Option Space := l.find? (·.name == name)

/-- The part of `check_new_tokens_space` that is about lockspaces (`src/cmd.c:140-151`). -/
def checkTok (s : State) (t : Tok) : Bool :=
  match findSpace s.spaces (s.info t).name with
  | none => false
  | some sp => !sp.killing && sp.hostId == (s.info t).hostId

/-- `client_using_space` (`src/main.c:575-594`). -/
def usingSpace (s : State) (c : Cl) (name : Nat) : Bool := c.tokens.any fun t => (s.info t).name == name

/-- `all_pids_dead`, the part about processes, for slots below `n` (`src/main.c:695-725`). -/
def allPidsDead (s : State) (n name : Nat) : Bool :=
  (List.range n).all fun ci => !((s.cl ci).used && (s.cl ci).pid.isSome && usingSpace s (s.cl ci) name)

inductive Act where
  /-- `client_add` (`src/main.c:389-418`) -/
  | connect (ci : Nat)
  /-- SM_CMD_REGISTER (`src/cmd.c:3049-3074`) -/
  | register (ci pid : Nat)
  /-- `process_cmd_thread_registered` for the connection `cin` and the target `ct` -/
  | start (cin ct : Nat) (k : Kind)
  /-- `process_cmd_thread_unregistered` -/
  | startOther (cin : Nat)
  /-- `lockspace_info` for one resource of an acquire (`src/cmd.c:392-408`) -/
  | lookup (th name : Nat)
  /-- `acquire_token` succeeds for the resource with this info -/
  | acq (th : Nat) (i : Info)
  /-- `cmd_release` takes a token from the client -/
  | take (th : Nat) (t : Tok)
  /-- `release_token` for a held token -/
  | relTok (th : Nat) (t : Tok)
  /-- final critical section; `ok` means that `result` is zero -/
  | final (th : Nat) (ok : Bool)
  /-- `release_cl_tokens`, or nothing if the process is alive -/
  | relCl (th : Nat)
  /-- `client_free` -/
  | free (th : Nat)
  /-- `client_resume` -/
  | reply (th : Nat)
  /-- first and second section of `client_pid_dead` -/
  | dead1 (ci : Nat)
  | dead2
  /-- `client_free` as `deadfn`, or after a command with `auto_close` -/
  | hangup (ci : Nat)
  /-- `cmd_convert` could not receive the resource (`src/cmd.c:935-939`) -/
  | convertFail (th : Nat)
  /-- a lockspace is put on `spaces`; the generation is stored later -/
  | addSpace (name hostId : Nat)
  | setGen (inst gen : Nat)
  /-- `main_loop` sets `killing_pids` -/
  | killSpace (inst : Nat)
  /-- `main_loop` takes a lockspace off `spaces`; slots below `n` exist -/
  | remSpace (n inst : Nat)
  /-- `kill_pids` counts a signal for a slot -/
  | kill (inst ci : Nat)
deriving DecidableEq

/-- The tests in `process_cmd_thread_registered` (`src/main.c:1146-1190`). -/
def accepts (c : Cl) (k : Kind) : Bool :=
  c.used && c.pid.isSome && !c.pidDead && !c.needFree && !(decide (c.killCount > 0) && k == .acquire) && !c.cmdActive

/-- One step; `none` if the action is not possible. -/
def step (s : State) : Act → Option State
  | .connect ci =>
    if s.main.isNone ∧ (s.cl ci).used = false then some { s with cl := set s.cl ci { Cl.empty with used := true } } else none
  | .register ci pid =>
    -- src/cmd.c:3049-3074; an existing array of tokens is freed
    if s.main.isNone ∧ (s.cl ci).used ∧ (s.cl ci).suspend = false then
      some { s with cl := set s.cl ci { s.cl ci with pid := some pid, reg := true, tokens := [], dangling := false } }
    else none
  | .start cin ct k =>
    -- src/main.c:1098-1238, after client_suspend(cin)
    if s.main.isNone ∧ (s.cl cin).used ∧ (s.cl cin).suspend = false ∧ k ≠ .other then
      if accepts (s.cl ct) k then
        let cl := set s.cl cin { s.cl cin with suspend := true }
        some { s with cl := set cl ct { cl ct with cmdActive := true }, thr := set s.thr s.nthr (some ⟨cin, ct, k, .run, [], []⟩),
                      nthr := s.nthr + 1 }
      else some s
    else none
  | .startOther cin =>
    if s.main.isNone ∧ (s.cl cin).used ∧ (s.cl cin).suspend = false then
      some { s with cl := set s.cl cin { s.cl cin with suspend := true },
                    thr := set s.thr s.nthr (some ⟨cin, cin, .other, .reply, [], []⟩), nthr := s.nthr + 1 }
    else none
  | .lookup th name =>
    match s.thr th with
    | some T =>
      if T.kind = .acquire ∧ T.phase = .run then
        match findSpace s.spaces name with
        | some sp =>
          if sp.killing then none
          else some { s with thr := set s.thr th (some { T with infos := ⟨sp.name, sp.hostId, sp.gen, sp.inst⟩ :: T.infos }) }
        | none => none
      else none
    | none => none
  | .acq th i =>
    match s.thr th with
    | some T =>
      if T.kind = .acquire ∧ T.phase = .run ∧ i ∈ T.infos then
        some { s with thr := set s.thr th (some { T with held := s.next :: T.held }), info := set s.info s.next i,
                      by' := set s.by' s.next th, next := s.next + 1 }
      else none
    | none => none
  | .take th t =>
    match s.thr th with
    | some T =>
      if T.kind = .release ∧ T.phase = .run ∧ t ∈ (s.cl T.ct).tokens then
        some { s with cl := set s.cl T.ct { s.cl T.ct with tokens := (s.cl T.ct).tokens.erase t },
                      thr := set s.thr th (some { T with held := t :: T.held }) }
      else none
    | none => none
  | .relTok th t =>
    match s.thr th with
    | some T =>
      if t ∈ T.held ∧ ((T.kind = .release ∧ T.phase = .run) ∨ T.phase = .post true ∨ T.phase = .post false) then
        some { s with rel := set s.rel t (s.rel t + 1), thr := set s.thr th (some { T with held := T.held.erase t }) }
      else none
    | none => none
  | .final th ok =>
    match s.thr th with
    | some T =>
      if T.phase = .run then
        let c := s.cl T.ct
        if T.kind = .acquire then
          -- src/cmd.c:498-530
          if ok ∧ c.pidDead = false ∧ T.held.all (checkTok s) then
            some { s with cl := set s.cl T.ct { c with cmdActive := false, tokens := c.tokens ++ T.held },
                          thr := set s.thr th (some { T with phase := .reply, held := [] }),
                          granted := set s.granted th true }
          else
            some { s with cl := set s.cl T.ct { c with cmdActive := false },
                          thr := set s.thr th (some { T with phase := .post c.pidDead }) }
        else if T.held = [] then
          let kc := if T.kind = .release ∧ c.pidDead = false ∧ c.tokens = [] then 0 else c.killCount
          some { s with cl := set s.cl T.ct { c with cmdActive := false, killCount := kc },
                        thr := set s.thr th (some { T with phase := .post c.pidDead }) }
        else none
      else none
    | none => none
  | .relCl th =>
    match s.thr th with
    | some T =>
      if T.held = [] ∧ T.phase = .post true then
        some { s with rel := fun t => s.rel t + (s.cl T.ct).tokens.count t,
                      cl := set s.cl T.ct { s.cl T.ct with dangling := true },
                      thr := set s.thr th (some { T with phase := .freeing }) }
      else if T.held = [] ∧ T.phase = .post false then
        some { s with thr := set s.thr th (some { T with phase := .reply }) }
      else none
    | none => none
  | .free th =>
    match s.thr th with
    | some T =>
      if T.phase = .freeing then
        let cl := set s.cl T.ct (freeCl (s.cl T.ct))
        if T.kind = .killpath then
          -- src/cmd.c:2018-2023 returns without client_resume
          some { s with cl := set cl T.cin { cl T.cin with leaked := true }, thr := set s.thr th none }
        else some { s with cl := cl, thr := set s.thr th (some { T with phase := .reply }) }
      else none
    | none => none
  | .reply th =>
    match s.thr th with
    | some T =>
      if T.phase = .reply then some { s with cl := set s.cl T.cin (resumeCl (s.cl T.cin)), thr := set s.thr th none }
      else none
    | none => none
  | .dead1 ci =>
    if s.main.isNone ∧ (s.cl ci).reg then
      if (s.cl ci).used = false ∨ (s.cl ci).pid.isNone then some s
      else
        some { s with cl := set s.cl ci { s.cl ci with pid := none, pidDead := true },
                      main := if (s.cl ci).cmdActive then none else some ci }
    else none
  | .dead2 =>
    match s.main with
    | some ci =>
      some { s with rel := fun t => s.rel t + (s.cl ci).tokens.count t,
                    cl := set s.cl ci (freeCl { s.cl ci with dangling := true }), main := none }
    | none => none
  | .hangup ci =>
    if s.main.isNone ∧ ((s.cl ci).reg = false ∨ (s.cl ci).pid.isSome) then some { s with cl := set s.cl ci (freeCl (s.cl ci)) } else none
  | .convertFail th =>
    match s.thr th with
    | some T =>
      if T.kind = .convert ∧ T.phase = .run then
        some { s with cl := set s.cl T.ct { s.cl T.ct with stuck := true }, thr := set s.thr th (some { T with phase := .reply }) }
      else none
    | none => none
  | .addSpace name hostId =>
    -- a second lockspace of the same name is refused (src/lockspace.c:1086-1123)
    if (findSpace s.spaces name).isNone then
      some { s with spaces := ⟨s.ninst, name, hostId, 0, false⟩ :: s.spaces, ninst := s.ninst + 1 }
    else none
  | .setGen inst gen =>
    some { s with spaces := s.spaces.map fun sp => if sp.inst = inst then { sp with gen := gen } else sp }
  | .killSpace inst =>
    some { s with spaces := s.spaces.map fun sp => if sp.inst = inst then { sp with killing := true } else sp }
  | .remSpace n inst =>
    match s.spaces.find? (·.inst == inst) with
    | some sp =>
      if sp.killing ∧ allPidsDead s n sp.name then some { s with spaces := s.spaces.filter (·.inst != inst) } else none
    | none => none
  | .kill inst ci =>
    match s.spaces.find? (·.inst == inst) with
    | some sp =>
      if sp.killing ∧ (s.cl ci).used ∧ (s.cl ci).pid.isSome ∧ usingSpace s (s.cl ci) sp.name then
        some { s with cl := set s.cl ci { s.cl ci with killCount := (s.cl ci).killCount + 1 } }
      else none
    | none => none

/-- Runs a list of actions. -/
def run (s : State) : List Act → Option State
  | [] => some s
  | a :: as =>
    match step s a with
    | none => none
    | some s' => run s' as

end Sanlock.Client
