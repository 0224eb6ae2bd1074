import Verif.OnDisk

/-!
# Lock value blocks

Models the life of the value block of one lease: the buffer allocated and read by an acquire
(`src/resource.c:1960-1979`, `661-681`), `res_set_lvb` and `res_get_lvb` (`702-771`), and the places that
write it: `_release_token` (`1085-1092`), `convert_ex2sh_token` (`1500-1501`) and the retry of a release in
`resource_thread_release` (`2336-2343`).

Simplifications: exclusion between hosts is a premise here (an exclusive lease is granted only when no
other host has the lease on disk, a shared one only when no other host has it exclusively on disk; C02 and
C23 are about that); one token per host; the buffer has the sector size of the leader record (the code
allocates with the size of the token, which an acquire sets to that of the leader record).
-/

namespace Sanlock.Lvb

abbrev Bytes := List UInt8

/-- How the local daemon sees the lease: not at all, held in a mode, or on `resources_rem` waiting for a
retry of the release. -/
inductive Pc where
  | none
  | sh
  | ex
  | rem
deriving DecidableEq

structure Host where
  pc : Pc
  /-- what the disk says: neither, shared mark, owner -/
  disk : Pc
  /-- `r->lvb` -/
  buf : Option Bytes
  /-- `R_LVB_WRITE_RELEASE` -/
  dirty : Bool
  /-- `R_SHARED` -/
  shared : Bool
  /-- `R_ERASE_ALL` -/
  erase : Bool
  /-- ghost: set while the lease was held shared, and not converted to exclusive since -/
  priv : Bool

/-- A host that has nothing to do with the lease. -/
def noHost : Host where
  pc := .none
  disk := .none
  buf := none
  dirty := false
  shared := false
  erase := false
  priv := false

/-- `value` is a ghost: what the last exclusive holder made of the value block. -/
structure State where
  sector : Nat
  lvb : Bytes
  host : Nat → Host
  value : Bytes

def State.set (s : State) (h : Nat) (x : Host) : State :=
  { s with host := fun i => if i = h then x else s.host i }

/-- Result of releasing the leader record: done; timed out but landed; timed out and lost. -/
inductive Rel where
  | ok
  | landed
  | lost
deriving DecidableEq

inductive Act where
  /-- acquire in a mode, with or without `SANLK_ACQUIRE_LVB`; `read` is the result of reading the
  sector, `junk` what the uninitialised buffer contains -/
  | acquire (h : Nat) (excl lvb read : Bool) (junk : Bytes)
  | set (h : Nat) (v : Bytes)
  /-- convert ex to sh; result of the lvb write (ignored by the code) and of the release of the leader;
  on an error the caller is told that the conversion failed -/
  | down (h : Nat) (wr : Bool) (rel : Rel)
  /-- convert sh to ex -/
  | up (h : Nat)
  /-- release, or the retry of a release: result of the lvb write and of the release of the leader -/
  | release (h : Nat) (wr : Bool) (rel : Rel)

/-- `memcpy(r->lvb, lvb, lvblen)` -/
def over (v b : Bytes) : Bytes := v ++ b.drop v.length

/-- `read_iobuf` into the buffer allocated by the acquire. -/
def readBuf (read : Bool) (disk junk : Bytes) : Bytes := if read then disk else junk

/-- `if (r_flags & R_LVB_WRITE_RELEASE) write_lvb_block(...)`: the sector afterwards. -/
def writeLvb (x : Host) (wr : Bool) (disk : Bytes) : Bytes :=
  match x.buf with
  | some b => if x.dirty && wr then b else disk
  | none => disk

/-- A token of host `h` as `_release_token` and `resource_thread_release` process it: the value block is
written only for an exclusive lease without `R_ERASE_ALL` (`src/resource.c:1012-1106`, `2277-2355`). -/
def releaseStep (s : State) (h : Nat) (wr : Bool) (rel : Rel) : State :=
  let x := s.host h
  let writes := !x.shared && !x.erase
  let x' : Host := { x with dirty := if writes && wr then false else x.dirty }
  let s1 := if writes then { s with lvb := writeLvb x wr s.lvb } else s
  match rel with
  | .ok => s1.set h noHost
  | .landed => s1.set h { x' with pc := .rem, disk := .none }
  | .lost => s1.set h { x' with pc := .rem }

/-- Ghost: a value set while the lease was shared counts once it is held exclusively. -/
def upValue (x : Host) (v : Bytes) : Bytes :=
  match x.buf with
  | some b => if x.dirty then b else v
  | none => v

/-- One step; `none` when the action is not possible. -/
def step (s : State) : Act → Option State
  | .acquire h excl lvb read junk =>
    if (s.host h).pc = .none ∧ (s.host h).disk = .none then
      some (s.set h { pc := if excl then .ex else .sh, disk := if excl then .ex else .sh,
                      buf := if lvb then some (readBuf read s.lvb junk) else none,
                      dirty := false, shared := !excl, erase := false, priv := false })
    else none
  | .set h v =>
    -- found on resources_held only
    if (s.host h).pc = .ex ∨ (s.host h).pc = .sh then
      match (s.host h).buf with
      | none => some s                                   -- -EINVAL
      | some b =>
        if s.sector < v.length then some s               -- -E2BIG
        else
          let x : Host :=
            { s.host h with buf := some (over v b), dirty := true, priv := (s.host h).pc == .sh }
          some { s.set h x with value := if (s.host h).pc = .ex then over v b else s.value }
    else none
  | .down h wr rel =>
    if (s.host h).pc = .ex ∧ (s.host h).erase = false then
      let s1 := { s with lvb := writeLvb (s.host h) wr s.lvb }
      match rel with
      | .ok => some (s1.set h { s.host h with pc := .sh, disk := .sh, shared := true })
      -- the caller keeps an exclusive token, with R_ERASE_ALL
      | .landed => some (s1.set h { s.host h with disk := .sh, erase := true })
      | .lost => some (s1.set h { s.host h with erase := true })
    else none
  | .up h =>
    if (s.host h).pc = .sh then
      some { s.set h { s.host h with pc := .ex, disk := .ex, shared := false, priv := false } with
             value := upValue (s.host h) s.value }
    else none
  | .release h wr rel =>
    if (s.host h).pc = .none then none else some (releaseStep s h wr rel)

/-- Exclusion on disk, assumed here. -/
def Exclusive (s : State) : Act → Prop
  | .acquire h excl _ _ _ =>
    ∀ i, i ≠ h → (s.host i).disk ≠ .ex ∧ (excl = true → (s.host i).disk = .none)
  | .up h => ∀ i, i ≠ h → (s.host i).disk = .none
  | _ => True

def init (sector : Nat) (b : Bytes) : State where
  sector := sector
  lvb := b
  host := fun _ => noHost
  value := b

/-- No I/O error on the value block, and no failed conversion: what the theorems without a violation
assume. -/
def NoError : Act → Prop
  | .acquire _ _ lvb read _ => lvb = true → read = true
  | .down _ wr rel => wr = true ∧ rel = .ok
  | .release _ wr _ => wr = true
  | _ => True

inductive Reach (sector : Nat) (b : Bytes) : State → Prop where
  | init : Reach sector b (init sector b)
  | step {s t : State} (a : Act) (hr : Reach sector b s) (he : Exclusive s a) (hs : step s a = some t) :
      Reach sector b t

/-- The executions without an error on the value block. -/
inductive ReachA (sector : Nat) (b : Bytes) : State → Prop where
  | init : ReachA sector b (init sector b)
  | step {s t : State} (a : Act) (hr : ReachA sector b s) (he : Exclusive s a) (hn : NoError a)
      (hs : step s a = some t) : ReachA sector b t

/-- Several steps, each one possible and allowed. -/
inductive Steps : State → List Act → State → Prop where
  | nil {s : State} : Steps s [] s
  | cons {s t u : State} {a : Act} {l : List Act} (he : Exclusive s a) (hn : NoError a)
      (hs : step s a = some t) (hl : Steps t l u) : Steps s (a :: l) u

/-- `res_get_lvb` (`src/resource.c:733-771`): 0 asks for the whole sector; asking for more than the
buffer holds reads behind it, which is `none` here. -/
def get (s : State) (h len : Nat) : Option (Except Int Bytes) :=
  match (s.host h).pc, (s.host h).buf with
  | .ex, none | .sh, none => some (.error (-22))
  | .ex, some b | .sh, some b =>
    let n := if len = 0 then s.sector else len
    if s.sector < n then none else some (.ok (b.take n))
  | _, _ => some (.error (-2))

end Sanlock.Lvb
