import Verif.Config

/-!
# The size of requests to the disk of a lockspace (`src/lockspace.c`, `src/diskio.c`, `src/helper.c`)

`set_lockspace_max_sectors_kb` runs when a lockspace is joined.  It reads two files of the device in sysfs and writes one of them, itself if the
daemon is root, otherwise through the helper process, which does it later.
-/

namespace Sanlock.Sectors

open Config (Str atoi)

/-- A file or device.  `text` is what reading `max_hw_sectors_kb` gives, `none` if it cannot be read; `max` is the value of `max_sectors_kb` and
`shown` says whether it can be read; `takes v`: the kernel takes the value `v`. -/
structure Dev where
  regular : Bool
  text : Option Str
  shown : Bool
  max : Nat
  takes : Nat → Bool

/-- `read_sysfs_uint` (`src/diskio.c:35-62`): the value, which stays 0 if there is no text. -/
def readUint (s : Str) : Nat :=
  let t := Config.cstr (s.take 32)
  let t := if t.getLast? = some 10 then t.dropLast else t
  if t = [] then 0 else (atoi t % 4294967296).toNat

/-- `write_sysfs_uint` (`src/diskio.c:64-87`): the device after it and whether it succeeded. -/
def Dev.write (d : Dev) (v : Nat) : Dev × Bool := if d.takes v then ({ d with max := v }, true) else (d, false)

/-- The value that is set, if any (`src/lockspace.c:671-712`): `align` is the align size in bytes. -/
def choose (cfg : Config.Sectors) (align : Nat) (d : Dev) : Option Nat :=
  if d.regular then none
  else
    let want : Option Nat := match cfg with
      | .ignore => none
      | .align => some (align / 1024)
      | .num n => if n = 0 then none else some (n % 4294967296).toNat
    match want, d.text with
    | some set, some t =>
      let hw := readUint t
      if hw = 0 then none
      else if hw < set then (if hw < 1024 then none else if set < 1024 then none else some 1024)
      else some set
    | _, _ => none

/-- The daemon, the helper and the devices.  `queue` are the messages to the helper; `told` the values shown by `sanlock status`
(`sp->set_max_sectors_kb`, `src/cmd.c:2404`), one for each lockspace joined, latest first, with its device. -/
structure State where
  dev : Nat → Dev
  queue : List (Nat × Nat)
  told : List (Nat × Nat)

def State.put (s : State) (i : Nat) (d : Dev) : State := { s with dev := fun j => if j = i then d else s.dev j }

/-- What happens. -/
inductive Ev where
  /-- a lockspace on device `i` is joined; `sent`: the message to the helper can be sent -/
  | join (i align : Nat) (sent : Bool)
  /-- the helper takes the next message -/
  | helper
  /-- something else sets the device -/
  | other (i v : Nat)

/-- `set_lockspace_max_sectors_kb` (`src/lockspace.c:664-738`) with `set_max_sectors_kb` (`src/diskio.c:140-161`) if the daemon is root and
`helper_set_max_sectors_kb` (`src/lockspace.c:51-119`) if not; `HELPER_MSG_WRITE_SYSFS` (`src/helper.c:225-229`).  The delay of two
milliseconds after the message is not modelled: it is no guarantee. -/
def step (root : Bool) (cfg : Config.Sectors) (s : State) : Ev → State
  | .join i align sent =>
    let d := s.dev i
    match choose cfg align d with
    | none => { s with told := (i, 0) :: s.told }
    | some v =>
      if d.shown = false then { s with told := (i, 0) :: s.told }
      else if d.max = v then { s with told := (i, v) :: s.told }
      else if root then
        let r := d.write v
        { s.put i r.1 with told := (i, if r.2 then v else 0) :: s.told }
      else if sent then { s with queue := s.queue ++ [(i, v)], told := (i, v) :: s.told }
      else { s with told := (i, 0) :: s.told }
  | .helper =>
    match s.queue with
    | [] => s
    | (i, v) :: q => { s.put i ((s.dev i).write v).1 with queue := q }
  | .other i v => s.put i ((s.dev i).write v).1

def run (root : Bool) (cfg : Config.Sectors) (s : State) (evs : List Ev) : State := evs.foldl (step root cfg) s

end Sanlock.Sectors
