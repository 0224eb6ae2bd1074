import Verif.HelperArgs
import Verif.Strings

/-!
# The Python bindings (`python/sanlock.c`)

The Python 3 branch of the code.  A Python value is given by what the argument parser of Python can see of it.  A binding is
a function from its arguments to the call made of the C library or to an exception, together with a function from what the
library returns to a Python value or an exception.  Memory that cannot be allocated is left out.
-/

namespace Sanlock.Python

abbrev Bytes := List UInt8

/-- A Python object as an argument: an `int` (this includes `True` and `False`), a `bytes`, a `str` with its encoding by
the file system encoding, if it has one, `None`, or an object of another type. -/
inductive Arg where
  | int (n : Int)
  | bytes (b : Bytes)
  | str (b : Option Bytes)
  | none
  | other
deriving DecidableEq, Repr

/-- An element of the list of disks. -/
inductive DiskArg where
  | tuple (xs : List Arg)
  | notTuple
deriving DecidableEq, Repr

/-- Exceptions: the ones of Python, and `SanlockException` with its number. -/
inductive Exc where
  | type
  | value
  | overflow
  | encode
  | sanlock (errno : Int)
deriving DecidableEq, Repr

instance [DecidableEq ε] [DecidableEq α] : DecidableEq (Except ε α)
  | .ok a, .ok b => if h : a = b then isTrue (by rw [h]) else isFalse (fun e => h (by injection e))
  | .error a, .error b => if h : a = b then isTrue (by rw [h]) else isFalse (fun e => h (by injection e))
  | .ok _, .error _ => isFalse (fun e => by injection e)
  | .error _, .ok _ => isFalse (fun e => by injection e)

/-- `SANLK_NAME_LEN`, `SANLK_PATH_LEN`, `SANLK_HELPER_ARGS_LEN` and `SANLK_HELPER_PATH_LEN` (`src/sanlock.h:20-40`,
`src/sanlock_admin.h`). -/
def NAME_LEN : Nat := 48
def PATH_LEN : Nat := 1024
def HELPER_LEN : Nat := 128

def EINVAL : Int := 22
def ENOENT : Int := 2
def EAGAIN : Int := 11
def EINPROGRESS : Int := 115
def ENOSPC : Int := 28

/-! ## Conversion of arguments -/

/-- The bytes of a C string: those in front of the first zero. -/
def cstr (b : Bytes) : Bytes := b.takeWhile (· ≠ 0)

/-- `strncpy` of a string into a field of zeros of size `n`. -/
def strncpy (n : Nat) (b : Bytes) : Bytes := (cstr b).take n ++ List.replicate (n - ((cstr b).take n).length) 0

/-- `convert_to_pybytes` (`python/sanlock.c:480-503`). -/
def toBytes : Arg → Except Exc Bytes
  | .bytes b => .ok b
  | _ => .error .type

/-- `pypath_converter`, that is `PyUnicode_FSConverter` (`python/sanlock.c:75-114`): the path as bytes without zero.
Objects with `__fspath__` are left out. -/
def toPath : Arg → Except Exc Bytes
  | .bytes b => if 0 ∈ b then .error .value else .ok b
  | .str (some b) => if 0 ∈ b then .error .value else .ok b
  | .str Option.none => .error .encode
  | _ => .error .type

/-- The formats "k", "K" (64 bits) and "I" (32 bits) of `PyArg_ParseTuple`: the low bits, without an overflow check. -/
def toMask (w : Nat) : Arg → Except Exc Nat
  | .int n => .ok (n % 2 ^ w).toNat
  | _ => .error .type

/-- The formats "i" (32 bits) and "l" (64 bits). -/
def toInt (w : Nat) : Arg → Except Exc Int
  | .int n => if -2 ^ (w - 1) ≤ n ∧ n < 2 ^ (w - 1) then .ok n else .error .overflow
  | _ => .error .type

/-- An argument that may be left out. -/
def opt (d : α) (f : Arg → Except Exc α) : Option Arg → Except Exc α
  | some a => f a
  | Option.none => .ok d

/-- The format "O!" with `PyList_Type`. -/
def toList : Option (List α) → Except Exc (List α)
  | some l => .ok l
  | Option.none => .error .type

/-! ## The structures of the C library -/

/-- `struct sanlk_disk` (`src/sanlock.h:54-59`). -/
structure Disk where
  path : Bytes
  offset : Nat
deriving DecidableEq, Repr

/-- `struct sanlk_lockspace` (`src/sanlock.h`). -/
structure Ls where
  name : Bytes
  hostId : Nat
  path : Bytes
  offset : Nat
  flags : Nat
deriving DecidableEq, Repr

/-- `struct sanlk_resource` (`src/sanlock.h:98-109`), the fields the bindings use. -/
structure Res where
  space : Bytes
  name : Bytes
  lver : Nat
  flags : Nat
  disks : List Disk
deriving DecidableEq, Repr

/-- `struct sanlk_host_event`. -/
structure Event where
  hostId : Nat
  generation : Nat
  event : Nat
  data : Nat
deriving DecidableEq, Repr

/-- Calls of the C library, with their arguments.  Names and paths passed as a pointer are C strings. -/
inductive Call where
  | align (d : Disk)
  | writeLockspace (l : Ls) (maxHosts : Int) (flags : Nat) (ioTimeout : Nat)
  | readLockspace (l : Ls) (flags : Nat)
  | readResource (r : Res) (flags : Nat)
  | writeResource (r : Res) (maxHosts numHosts : Int) (flags : Nat)
  | addLockspace (l : Ls) (flags : Nat) (ioTimeout : Nat)
  | inqLockspace (l : Ls) (flags : Nat)
  | remLockspace (l : Ls) (flags : Nat)
  | getHosts (name : Bytes) (hostId : Nat)
  | acquire (fd pid : Int) (flags : Nat) (r : Res)
  | inquire (fd pid : Int)
  | release (fd pid : Int) (flags : Nat) (r : Res)
  | request (flags : Nat) (action : Int) (r : Res)
  | readOwners (r : Res)
  | killpath (fd : Int) (path args : Bytes)
  | regEvent (name : Bytes)
  | endEvent (fd : Int) (name : Bytes)
  | setEvent (name : Bytes) (e : Event) (flags : Nat)
  | setLvb (r : Res) (data : Bytes)
  | getLvb (r : Res) (size : Nat)
deriving DecidableEq, Repr

/-- The path field of a structure: 1023 bytes are copied, the last byte stays zero. -/
def pathField (p : Bytes) : Bytes := strncpy (PATH_LEN - 1) p ++ [0]

/-- `validate_path` (`python/sanlock.c:148-157`). -/
def validatePath (p : Bytes) : Except Exc Unit := if p.length > PATH_LEN - 1 then .error .value else .ok ()

/-- `parse_single_disk` (`python/sanlock.c:159-187`).  Every error of the parser is turned into a ValueError. -/
def parseDisk : DiskArg → Except Exc Disk
  | .tuple [p, o] =>
    match toPath p, toMask 64 o with
    | .ok p, .ok o => do
      validatePath p
      .ok ⟨pathField p, o⟩
    | _, _ => .error .value
  | _ => .error .value

/-- The loop of `parse_disks` (`python/sanlock.c:206-232`). -/
def parseDisks : List DiskArg → Except Exc (List Disk)
  | [] => .ok []
  | d :: ds => do
    let d ← parseDisk d
    let ds ← parseDisks ds
    .ok (d :: ds)

/-- `add_align_flag` (`python/sanlock.c:260-281`). -/
def alignFlag (align : Int) : Except Exc Nat :=
  if align = 1048576 then .ok 0x10
  else if align = 2097152 then .ok 0x20
  else if align = 4194304 then .ok 0x40
  else if align = 8388608 then .ok 0x80
  else .error .value

/-- `add_sector_flag` (`python/sanlock.c:236-251`). -/
def sectorFlag (sector : Int) : Except Exc Nat :=
  if sector = 512 then .ok 0x100
  else if sector = 4096 then .ok 0x200
  else .error .value

/-- Both flags, in the order of the code. -/
def sizeFlags (align sector : Int) : Except Exc Nat := do
  let a ← alignFlag align
  let s ← sectorFlag sector
  .ok (a ||| s)

/-! ## The bindings up to the call of the library -/

/-- `py_get_alignment` (`python/sanlock.c:438-450`). -/
def getAlignment (path : Arg) : Except Exc Call := do
  let p ← toPath path
  .ok (.align ⟨pathField p, 0⟩)

/-- `py_write_lockspace` (`python/sanlock.c:514-547`). -/
def writeLockspace (lockspace path : Arg) (offset maxHosts ioTimeout align sector : Option Arg) : Except Exc Call := do
  let n ← toBytes lockspace
  let p ← toPath path
  let o ← opt 0 (toMask 64) offset
  let m ← opt 0 (toInt 32) maxHosts
  let t ← opt 0 (toMask 32) ioTimeout
  let a ← opt 1048576 (toInt 64) align
  let s ← opt 512 (toInt 32) sector
  let f ← sizeFlags a s
  .ok (.writeLockspace ⟨strncpy NAME_LEN n, 0, pathField p, o, f⟩ m 0 t)

/-- `py_read_lockspace` (`python/sanlock.c:570-602`). -/
def readLockspace (path : Arg) (offset align sector : Option Arg) : Except Exc Call := do
  let p ← toPath path
  let o ← opt 0 (toMask 64) offset
  let a ← opt 1048576 (toInt 64) align
  let s ← opt 512 (toInt 32) sector
  let f ← sizeFlags a s
  .ok (.readLockspace ⟨strncpy NAME_LEN [], 0, pathField p, o, f⟩ 0)

/-- `py_read_resource` (`python/sanlock.c:634-670`). -/
def readResource (path : Arg) (offset align sector : Option Arg) : Except Exc Call := do
  let p ← toPath path
  let o ← opt 0 (toMask 64) offset
  let a ← opt 1048576 (toInt 64) align
  let s ← opt 512 (toInt 32) sector
  validatePath p
  let f ← sizeFlags a s
  .ok (.readResource ⟨strncpy NAME_LEN [], strncpy NAME_LEN [], 0, f, [⟨pathField p, o⟩]⟩ 0)

/-- `py_write_resource` (`python/sanlock.c:712-754`). -/
def writeResource (lockspace resource : Arg) (disks : Option (List DiskArg))
    (maxHosts numHosts clear align sector : Option Arg) : Except Exc Call := do
  let n ← toBytes lockspace
  let r ← toBytes resource
  let ds ← toList disks
  let m ← opt 0 (toInt 32) maxHosts
  let nh ← opt 0 (toInt 32) numHosts
  let c ← opt 0 (toInt 32) clear
  let a ← opt 1048576 (toInt 64) align
  let s ← opt 512 (toInt 32) sector
  let ds ← parseDisks ds
  let f ← sizeFlags a s
  .ok (.writeResource ⟨strncpy NAME_LEN n, strncpy NAME_LEN r, 0, f, ds⟩ m nh (if c ≠ 0 then 1 else 0))

/-- `py_add_lockspace` (`python/sanlock.c:779-810`). -/
def addLockspace (lockspace hostId path : Arg) (offset ioTimeout wait : Option Arg) : Except Exc Call := do
  let n ← toBytes lockspace
  let h ← toMask 64 hostId
  let p ← toPath path
  let o ← opt 0 (toMask 64) offset
  let t ← opt 0 (toMask 32) ioTimeout
  let w ← opt 1 (toInt 32) wait
  .ok (.addLockspace ⟨strncpy NAME_LEN n, h, pathField p, o, 0⟩ (if w = 0 then 1 else 0) t)

/-- `py_inq_lockspace` (`python/sanlock.c:835-864`). -/
def inqLockspace (lockspace hostId path : Arg) (offset wait : Option Arg) : Except Exc Call := do
  let n ← toBytes lockspace
  let h ← toMask 64 hostId
  let p ← toPath path
  let o ← opt 0 (toMask 64) offset
  let w ← opt 0 (toInt 32) wait
  .ok (.inqLockspace ⟨strncpy NAME_LEN n, h, pathField p, o, 0⟩ (if w ≠ 0 then 1 else 0))

/-- `py_rem_lockspace` (`python/sanlock.c:895-930`). -/
def remLockspace (lockspace hostId path : Arg) (offset wait unused : Option Arg) : Except Exc Call := do
  let n ← toBytes lockspace
  let h ← toMask 64 hostId
  let p ← toPath path
  let o ← opt 0 (toMask 64) offset
  let w ← opt 1 (toInt 32) wait
  let u ← opt 0 (toInt 32) unused
  .ok (.remLockspace ⟨strncpy NAME_LEN n, h, pathField p, o, 0⟩ ((if w = 0 then 1 else 0) ||| (if u ≠ 0 then 2 else 0)))

/-- `py_get_hosts` (`python/sanlock.c:1027-1046`).  The library copies the name with `strncpy` (`src/client.c:298`). -/
def getHosts (lockspace : Arg) (hostId : Option Arg) : Except Exc Call := do
  let n ← toBytes lockspace
  let h ← opt 0 (toMask 64) hostId
  .ok (.getHosts (strncpy NAME_LEN n) h)

/-- The version argument (`python/sanlock.c:1118-1126,1323-1332`): `None` for no version, otherwise the flag and the low 64
bits.  An object that is no integer, and a value whose low bits are all set, are refused. -/
def toVersion : Arg → Except Exc (Option Nat)
  | .none => .ok Option.none
  | .int n => if (n % 2 ^ 64).toNat = 2 ^ 64 - 1 then .error (.sanlock EINVAL) else .ok (some (n % 2 ^ 64).toNat)
  | _ => .error (.sanlock EINVAL)

/-- `py_acquire` (`python/sanlock.c:1076-1131`).  The version is parsed last. -/
def acquire (lockspace resource : Arg) (disks : Option (List DiskArg)) (slkfd pid shared lvb version : Option Arg) :
    Except Exc Call := do
  let n ← toBytes lockspace
  let r ← toBytes resource
  let ds ← toList disks
  let fd ← opt (-1) (toInt 32) slkfd
  let p ← opt (-1) (toInt 32) pid
  let sh ← opt 0 (toInt 32) shared
  let lv ← opt 0 (toInt 32) lvb
  if fd = -1 ∧ p = -1 then .error (.sanlock EINVAL)
  else do
    let ds ← parseDisks ds
    let v ← toVersion (version.getD .none)
    .ok (.acquire fd p (if lv ≠ 0 then 1 else 0)
      ⟨strncpy NAME_LEN n, strncpy NAME_LEN r, v.getD 0, (if sh ≠ 0 then 4 else 0) ||| (if v.isSome then 1 else 0), ds⟩)

/-- `py_inquire` (`python/sanlock.c:1171-1202`). -/
def inquire (slkfd pid : Option Arg) : Except Exc Call := do
  let fd ← opt (-1) (toInt 32) slkfd
  let p ← opt (-1) (toInt 32) pid
  if fd = -1 ∧ p = -1 then .error (.sanlock EINVAL) else .ok (.inquire fd p)

/-- `py_release` (`python/sanlock.c:1237-1266`). -/
def release (lockspace resource : Arg) (disks : Option (List DiskArg)) (slkfd pid : Option Arg) : Except Exc Call := do
  let n ← toBytes lockspace
  let r ← toBytes resource
  let ds ← toList disks
  let fd ← opt (-1) (toInt 32) slkfd
  let p ← opt (-1) (toInt 32) pid
  let ds ← parseDisks ds
  .ok (.release fd p 0 ⟨strncpy NAME_LEN n, strncpy NAME_LEN r, 0, 0, ds⟩)

/-- `py_request` (`python/sanlock.c:1293-1334`). -/
def request (lockspace resource : Arg) (disks : Option (List DiskArg)) (action version : Option Arg) : Except Exc Call := do
  let n ← toBytes lockspace
  let r ← toBytes resource
  let ds ← toList disks
  let a ← opt 2 (toInt 32) action
  let ds ← parseDisks ds
  let v ← toVersion (version.getD .none)
  .ok (.request (if v.isNone then 1 else 0) a
    ⟨strncpy NAME_LEN n, strncpy NAME_LEN r, v.getD 0, if v.isSome then 1 else 0, ds⟩)

/-- `py_read_resource_owners` (`python/sanlock.c:1362-1402`). -/
def readOwners (lockspace resource : Arg) (disks : Option (List DiskArg)) (align sector : Option Arg) : Except Exc Call := do
  let n ← toBytes lockspace
  let r ← toBytes resource
  let ds ← toList disks
  let a ← opt 1048576 (toInt 64) align
  let s ← opt 512 (toInt 32) sector
  let ds ← parseDisks ds
  let f ← sizeFlags a s
  .ok (.readOwners ⟨strncpy NAME_LEN n, strncpy NAME_LEN r, 0, f, ds⟩)

/-- The characters written for an argument by `parse_killpath_item` (`python/sanlock.c:1453-1459`). -/
def escapeItem : Bytes → Bytes
  | [] => []
  | c :: w => if c = 32 ∨ c = 92 then 92 :: c :: escapeItem w else c :: escapeItem w

/-- `parse_killpath_item` for every argument (`python/sanlock.c:1421-1464,1499-1505`); `acc` is the buffer so far. -/
def killpathItems : List Arg → Bytes → Except Exc Bytes
  | [], acc => .ok acc
  | a :: as, acc => do
    let p ← toPath a
    if acc.length + (escapeItem p).length + 2 > HELPER_LEN then .error (.sanlock EINVAL)
    else killpathItems as ((if acc.length > 0 then acc ++ [32] else acc) ++ escapeItem p)

/-- `py_killpath` (`python/sanlock.c:1475-1510`). -/
def killpath (path : Arg) (args : Option (List Arg)) (slkfd : Option Arg) : Except Exc Call := do
  let p ← toPath path
  let as ← toList args
  let fd ← opt (-1) (toInt 32) slkfd
  if p.length + 1 > HELPER_LEN then .error (.sanlock EINVAL)
  else do
    let s ← killpathItems as []
    .ok (.killpath fd p s)

/-- `py_reg_event` (`python/sanlock.c:1550-1560`).  The library copies the name with `strncpy` (`src/client.c:806`). -/
def regEvent (lockspace : Arg) : Except Exc Call := do
  let n ← toBytes lockspace
  .ok (.regEvent (strncpy NAME_LEN n))

/-- `py_end_event` (`python/sanlock.c:1651-1662`, `src/client.c:884`). -/
def endEvent (fd lockspace : Arg) : Except Exc Call := do
  let f ← toInt 32 fd
  let n ← toBytes lockspace
  .ok (.endEvent f (strncpy NAME_LEN n))

/-- `py_set_event` (`python/sanlock.c:1730-1747`, `src/client.c:931`). -/
def setEvent (lockspace hostId generation event : Arg) (data flags : Option Arg) : Except Exc Call := do
  let n ← toBytes lockspace
  let h ← toMask 64 hostId
  let g ← toMask 64 generation
  let e ← toMask 64 event
  let d ← opt 0 (toMask 64) data
  let f ← opt 0 (toMask 32) flags
  .ok (.setEvent (strncpy NAME_LEN n) ⟨h, g, e, d⟩ f)

/-- `py_set_lvb` (`python/sanlock.c:1780-1804`). -/
def setLvb (lockspace resource : Arg) (disks : Option (List DiskArg)) (data : Arg) : Except Exc Call := do
  let n ← toBytes lockspace
  let r ← toBytes resource
  let ds ← toList disks
  let b ← toBytes data
  let ds ← parseDisks ds
  .ok (.setLvb ⟨strncpy NAME_LEN n, strncpy NAME_LEN r, 0, 0, ds⟩ b)

/-- `py_get_lvb` (`python/sanlock.c:1839-1877`). -/
def getLvb (lockspace resource : Arg) (disks : Option (List DiskArg)) (size : Arg) : Except Exc Call := do
  let n ← toBytes lockspace
  let r ← toBytes resource
  let ds ← toList disks
  let k ← toMask 32 size
  if k < 1 ∨ k > 4096 then .error .value
  else do
    let ds ← parseDisks ds
    .ok (.getLvb ⟨strncpy NAME_LEN n, strncpy NAME_LEN r, 0, 0, ds⟩ k)

/-! ## The kill script -/

/-- The two strings `sanlock_killpath` puts on the wire (`src/client.c:1083-1111`): `snprintf` with 127 keeps 126
characters. -/
def killpathWire (path args : Bytes) : Bytes × Bytes := ((cstr path).take (HELPER_LEN - 2), (cstr args).take (HELPER_LEN - 2))

/-- The vector with which the script is run after `killpath` from Python.  The flags are 0, so that the process id is not
added (`src/helper.c`, see `HelperArgs.argv`). -/
def scriptArgv (path args : Bytes) : List Bytes :=
  HelperArgs.argv (killpathWire path args).1 (killpathWire path args).2 Option.none

/-! ## Results -/

/-- `set_sanlock_error` (`python/sanlock.c:38-60`): the number of the exception. -/
def excErrno (rv : Int) : Int := if rv < 0 ∧ rv > -200 then -rv else rv

/-- Functions that return `None`, for a result that must be zero (`python/sanlock.c:549-559`; also 756-767, 812-822, 932-942,
1133-1144, 1268-1279, 1336-1347, 1512-1521). -/
def doneIfZero (rv : Int) : Except Exc Unit := if rv ≠ 0 then .error (.sanlock (excErrno rv)) else .ok ()

/-- Functions for which only negative results are errors: `register`, `get_alignment`, `reg_event` return the number
(`python/sanlock.c:424-429,456-465,1563-1572`), `end_event`, `set_event`, `set_lvb` return `None`. -/
def valueIfNonneg (rv : Int) : Except Exc Int := if rv < 0 then .error (.sanlock (excErrno rv)) else .ok rv

/-- Result of `inq_lockspace` (`python/sanlock.c:866-881`): `some true`, `some false` or `none`.  The value -1000, which
stands for an argument error, is not returned by the library. -/
def inqResult (rv : Int) : Except Exc (Option Bool) :=
  if rv = 0 then .ok (some true)
  else if rv = -ENOENT then .ok (some false)
  else if rv = -EINPROGRESS then .ok Option.none
  else .error (.sanlock (excErrno rv))

/-- The bytes of an integer in memory. -/
def le : Nat → Nat → Bytes
  | 0, _ => []
  | n + 1, v => UInt8.ofNat (v % 256) :: le n (v / 256)

/-- `struct sanlk_lockspace` in memory (`src/sanlock.h`): name, host id, flags, padding, path.  What follows the path is
not reached, for the path ends with a zero. -/
def lsMem (l : Ls) : Bytes := l.name ++ le 8 l.hostId ++ le 4 l.flags ++ le 4 0 ++ l.path

/-- `struct sanlk_resource` in memory from the lockspace name, and from the resource name (`src/sanlock.h:98-109`).  The
fields `data64`, `data32` and `unused` are zero. -/
def resMem (r : Res) : Bytes := r.name ++ le 8 r.lver ++ le 8 0

/-- The format "y": the bytes up to the first zero at the address. -/
def buildY (mem : Bytes) : Bytes := cstr mem

/-- Well formed UTF-8, as the decoder of Python checks it. -/
def utf8 : Bytes → Bool
  | [] => true
  | a :: rest =>
    if a < 0x80 then utf8 rest
    else
      match rest with
      | [] => false
      | b :: rest =>
        if 0xC2 ≤ a ∧ a ≤ 0xDF then (0x80 ≤ b && b ≤ 0xBF) && utf8 rest
        else
          match rest with
          | [] => false
          | c :: rest =>
            if 0xE0 ≤ a ∧ a ≤ 0xEF then
              ((if a = 0xE0 then 0xA0 else 0x80) ≤ b && b ≤ (if a = 0xED then 0x9F else 0xBF)) && (0x80 ≤ c && c ≤ 0xBF) &&
                utf8 rest
            else
              match rest with
              | [] => false
              | d :: rest =>
                if 0xF0 ≤ a ∧ a ≤ 0xF4 then
                  ((if a = 0xF0 then 0x90 else 0x80) ≤ b && b ≤ (if a = 0xF4 then 0x8F else 0xBF)) && (0x80 ≤ c && c ≤ 0xBF) &&
                    (0x80 ≤ d && d ≤ 0xBF) && utf8 rest
                else false

/-- The format "s": a `str`, represented by its encoding, or UnicodeDecodeError. -/
def buildS (mem : Bytes) : Except Exc Bytes := if utf8 (cstr mem) then .ok (cstr mem) else .error .encode

/-- The dictionary of `get_lockspaces`. -/
structure LsDict where
  lockspace : Bytes
  hostId : Nat
  path : Bytes
  offset : Nat
  flags : Nat
deriving DecidableEq, Repr

/-- `lockspaces_to_list` (`python/sanlock.c:945-979`). -/
def lockspacesToList : List Ls → Except Exc (List LsDict)
  | [] => .ok []
  | l :: ls => do
    let p ← buildS l.path
    let rest ← lockspacesToList ls
    .ok (⟨buildY (lsMem l), l.hostId, p, l.offset, l.flags⟩ :: rest)

/-- The dictionary of `read_lockspace` (`python/sanlock.c:604-617`). -/
def readLockspaceResult (rv : Int) (l : Ls) (ioTimeout : Nat) : Except Exc (Bytes × Nat) :=
  if rv ≠ 0 then .error (.sanlock (excErrno rv)) else .ok (buildY (lsMem l), ioTimeout)

/-- The dictionary of `read_resource` (`python/sanlock.c:672-688`). -/
def readResourceResult (rv : Int) (r : Res) : Except Exc (Bytes × Bytes × Nat) :=
  if rv ≠ 0 then .error (.sanlock (excErrno rv)) else .ok (buildY (r.space ++ resMem r), buildY (resMem r), r.lver)

/-- A host as the library reports it, and its dictionary. -/
structure Host where
  hostId : Nat
  generation : Nat
  timestamp : Nat
  ioTimeout : Nat
  flags : Nat
deriving DecidableEq, Repr

/-- `hosts_to_list` (`python/sanlock.c:294-324`), used by `get_hosts` and `read_resource_owners`. -/
def hostsToList : List Host → List Host
  | [] => []
  | h :: hs => ⟨h.hostId, h.generation, h.timestamp, h.ioTimeout, h.flags⟩ :: hostsToList hs

/-- Answers of `sanlock_get_event` (`src/client.c:974-1001`): an event with its sender, or a negative result.  -EAGAIN when
nothing is there, -1 when the daemon has closed the connection. -/
inductive EvAnswer where
  | event (fromId fromGen : Nat) (e : Event)
  | fail (rv : Int)
deriving DecidableEq, Repr

/-- The loop of `py_get_event` (`python/sanlock.c:1606-1637`): the result, and the answers not yet read.  The list of
answers ends with a failure, so that `[]` is not reached. -/
def getEvents : List EvAnswer → List (Nat × Nat × Event) → Except Exc (List (Nat × Nat × Event)) × List EvAnswer
  | [], acc => (.ok acc, [])
  | .event i g e :: as, acc => getEvents as (acc ++ [(i, g, e)])
  | .fail rv :: as, acc =>
    if rv = -EAGAIN then (.ok acc, as) else (.error (.sanlock (excErrno rv)), as)

/-- The dictionary of `inquire`. -/
structure ResDict where
  lockspace : Bytes
  resource : Bytes
  flags : Nat
  version : Nat
  disks : List (Bytes × Nat)
deriving DecidableEq, Repr

/-- `disks_to_list` (`python/sanlock.c:327-359`). -/
def disksToList : List Disk → Except Exc (List (Bytes × Nat))
  | [] => .ok []
  | d :: ds => do
    let p ← buildS d.path
    let rest ← disksToList ds
    .ok ((p, d.offset) :: rest)

/-- `resources_to_list` (`python/sanlock.c:363-406`).  That the flags are passed as `uint32_t` for the format "k" is taken
to give their value. -/
def resourcesToList : List Res → Except Exc (List ResDict)
  | [] => .ok []
  | r :: rs => do
    let ds ← disksToList r.disks
    let rest ← resourcesToList rs
    .ok (⟨buildY (r.space ++ resMem r), buildY (resMem r), r.flags, r.lver, ds⟩ :: rest)

/-- What `sanlock_str_to_res` puts into the structure (`src/client.c:1980-2130`), from the model of that function: the
structure is zeroed first, `SANLK_RES_LVER` is 1 and `SANLK_RES_SHARED` is 4. -/
def ofStrRes (r : Strings.Res) : Res :=
  ⟨strncpy NAME_LEN r.space, strncpy NAME_LEN r.name, r.lver,
    (if r.hasLver then 1 else 0) ||| (if r.shared then 4 else 0), r.disks.map fun d => ⟨pathField d.path, d.offset⟩⟩

/-- How a call of `inquire` ends. -/
inductive InqOut where
  | ret (r : Except Exc (List ResDict))
  /-- the process is killed: `res_arr[0]` is read although `res_arr` is NULL -/
  | crash
  /-- undefined behaviour in `sanlock_state_to_args` -/
  | undef
deriving DecidableEq, Repr

/-- `py_inquire` after the library call (`python/sanlock.c:1204-1227`): the result, and the state string with the number of
resources.  When `sanlock_state_to_args` fails, it has set the count to at least one and freed the array. -/
def inquireResult (rv : Int) (count : Nat) (state : Bytes) : InqOut :=
  if rv ≠ 0 then .ret (.error (.sanlock (excErrno rv)))
  else if count > 0 then
    match Strings.stateToArgs state with
    | Option.none => .undef
    | some Option.none => .crash
    | some (some rs) => .ret (resourcesToList (rs.map ofStrRes))
  else .ret (.ok [])

/-! ## The list of lockspaces over the socket -/

/-- Size of `struct sanlk_lockspace` and of the reply buffer (`src/sanlock_internal.h`: `LOG_DUMP_SIZE`). -/
def LS_SIZE : Nat := 1104
def LOG_DUMP_SIZE : Nat := 1048576

/-- `get_lockspaces` of the daemon (`src/lockspace.c:1376-1419`): the three lists in their order with the flag of each; the
structures that fit, the count of all, and the result. -/
def fill : List Ls → List Ls → List Ls × Int
  | [], out => (out, 0)
  | l :: ls, out =>
    if out.length * LS_SIZE + LS_SIZE > LOG_DUMP_SIZE then ((fill ls out).1, -ENOSPC) else fill ls (out ++ [l])

def flagged (spaces spacesRem spacesAdd : List Ls) : List Ls :=
  spaces.map (fun l => { l with flags := 0 }) ++ spacesRem.map (fun l => { l with flags := 2 }) ++
    spacesAdd.map (fun l => { l with flags := 1 })

/-- `cmd_get_lockspaces` (`src/cmd.c:2872-2887`) and `sanlock_get_lockspaces` (`src/client.c:214-277`) together: the result
and the list.  The client receives as many structures as the header says; the daemon closes the connection after the reply
(`src/cmd.c:3149-3150`), so that a missing structure makes the call fail with -1. -/
def getLockspaces (spaces spacesRem spacesAdd : List Ls) : Int × List Ls :=
  let all := flagged spaces spacesRem spacesAdd
  let sent := fill all []
  if all.length ≤ sent.1.length then (sent.2, sent.1.take all.length) else (-1, [])

/-- `py_get_lockspaces` (`python/sanlock.c:991-1012`). -/
def pyGetLockspaces (rv : Int) (l : List Ls) : Except Exc (List LsDict) :=
  if rv < 0 then .error (.sanlock (excErrno rv)) else lockspacesToList l

/-! ## References -/

/-- What a binding acquires and must give back: references to the converted arguments, allocated structures. -/
inductive Item where
  | lockspace | resource | path | data | res | result | hosts
deriving DecidableEq, Repr

/-- A binding as far as its references are concerned: what it acquires in this order, any of which may fail; what is freed
behind the label `finally`; what it returns when all went well, and whether the result is dropped on an error.  After all is
acquired the call of the library may fail. -/
structure Body where
  gets : List Item
  frees : List Item
  returns : List Item
  dropsResult : Bool := true
deriving Repr

/-- What is still held when the binding has returned: `k` items were acquired; `ok` if nothing failed.  What the function
returns belongs to the caller. -/
def leaked (b : Body) (k : Nat) (ok : Bool) : List Item :=
  ((b.gets.take k).filter fun i => i ∉ b.frees).filter fun i =>
    if i ∈ b.returns then !(ok || b.dropsResult) else true

/-- The bindings (`python/sanlock.c`, the labels `finally`). -/
def bodies : List (String × Body) :=
  [("get_alignment", ⟨[.path], [.path], [], true⟩),                                          -- 438-466
   ("write_lockspace", ⟨[.lockspace, .path], [.lockspace, .path], [], true⟩),                -- 514-560
   ("read_lockspace", ⟨[.path, .result], [.path], [.result], true⟩),                         -- 570-624
   ("read_resource", ⟨[.res, .path, .result], [.res, .path], [.result], true⟩),              -- 634-698
   ("write_resource", ⟨[.lockspace, .resource, .res], [.lockspace, .resource, .res], [], true⟩),  -- 712-768
   ("add_lockspace", ⟨[.lockspace, .path], [.lockspace, .path], [], true⟩),                  -- 779-823
   ("inq_lockspace", ⟨[.lockspace, .path], [.lockspace, .path], [], true⟩),                  -- 835-882
   ("rem_lockspace", ⟨[.lockspace, .path], [.lockspace, .path], [], true⟩),                  -- 895-943
   ("get_lockspaces", ⟨[.hosts, .result], [.hosts], [.result], true⟩),                       -- 991-1012
   ("get_hosts", ⟨[.lockspace, .hosts, .result], [.lockspace, .hosts], [.result], true⟩),    -- 1027-1061
   ("acquire", ⟨[.lockspace, .resource, .res], [.lockspace, .resource, .res], [], true⟩),    -- 1076-1145
   ("release", ⟨[.lockspace, .resource, .res], [.lockspace, .resource, .res], [], true⟩),    -- 1237-1280
   ("request", ⟨[.lockspace, .resource, .res], [.lockspace, .resource, .res], [], true⟩),    -- 1293-1348
   ("read_resource_owners", ⟨[.lockspace, .resource, .res, .hosts, .result], [.lockspace, .resource, .res, .hosts], [.result], true⟩),  -- 1362-1419
   ("killpath", ⟨[.path], [.path], [], true⟩),                                               -- 1475-1522
   ("reg_event", ⟨[.lockspace], [.lockspace], [], true⟩),                                    -- 1550-1573
   ("end_event", ⟨[.lockspace], [.lockspace], [], true⟩),                                    -- 1651-1675
   ("set_event", ⟨[.lockspace], [.lockspace], [], true⟩),                                    -- 1730-1760
   ("get_lvb", ⟨[.lockspace, .resource, .res, .result], [.lockspace, .resource, .res], [.result], true⟩),  -- 1839-1892
   ("set_lvb", ⟨[.lockspace, .resource, .data, .res], [.lockspace, .resource, .res], [], true⟩)]  -- 1780-1818

end Sanlock.Python
