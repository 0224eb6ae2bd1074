import Verif.Wire

/-!
# Library calls that open a connection of their own

Models the functions of `src/client.c` that connect, send one command, wait for the reply and close (`152-736`,
`795-972`, `1043-1081`, `1373-1838`), against what the daemon does with such a connection: `process_connection` (`src/main.c:1240-1357`),
`process_cmd_thread_unregistered` (`src/main.c:1056-1087`), `call_cmd_thread` (`src/cmd.c:2172-2258`), `call_cmd_daemon`
(`src/cmd.c:3037-3151`), and the part of each command function that reads the arguments and sends the reply (`src/cmd.c:984-1225`,
`1302-1970`, `2030-2170`, `2872-3022`).

Bytes are exact: headers, structures with their offsets and padding, numbers in the byte order of both sides (little endian here).
What a command does, and what it finds, is arbitrary (`Op`, `Result`); the other models are about that.

Simplifications: memory is not exhausted; the connection does not break while both sides live, an end of the stream stands for a
process that is gone; the state commands (`status`, `host_status`, `renewal`, `log_dump`) and the commands of registered processes
(`Wire`) are not modelled here (`Ev.other`).
-/

namespace Sanlock.OneShot

open OnDisk Wire

/-! ## Structures -/

/-- `struct sanlk_disk` (`src/sanlock.h:54-59`) without its padding. -/
structure Loc where
  path : List UInt8
  offset : Nat
deriving DecidableEq, Repr

/-- A `struct sanlk_disk` in memory. -/
structure DiskArg where
  loc : Loc
  pad1 : Nat
  pad2 : Nat
deriving DecidableEq, Repr

def DiskArg.bytes (d : DiskArg) : List UInt8 :=
  d.loc.path ++ (leBytes 8 d.loc.offset ++ (leBytes 4 d.pad1 ++ leBytes 4 d.pad2))

def DiskArg.ok (d : DiskArg) : Prop := d.loc.path.length = 1024 ∧ d.loc.offset < 256 ^ 8

/-- The disk in 1040 bytes.  The padding is overwritten by the daemon (`src/cmd.c:1038-1041`, or by `open_disk`). -/
def locOf (b : List UInt8) : Loc := ⟨b.take 1024, leVal ((b.drop 1024).take 8)⟩

/-- `struct sanlk_lockspace` (`src/sanlock.h:156-161`): 48 bytes of name, the host id, flags, four bytes of alignment, the disk. -/
structure Ls where
  name : List UInt8
  hostId : Nat
  flags : Nat
  loc : Loc
deriving DecidableEq, Repr

structure LsArg where
  name : List UInt8
  hostId : Nat
  flags : Nat
  gap : Nat
  disk : DiskArg
deriving DecidableEq, Repr

def LsArg.ls (a : LsArg) : Ls := ⟨a.name, a.hostId, a.flags, a.disk.loc⟩

def LsArg.bytes (a : LsArg) : List UInt8 :=
  a.name ++ (leBytes 8 a.hostId ++ (leBytes 4 a.flags ++ (leBytes 4 a.gap ++ a.disk.bytes)))

def LsArg.ok (a : LsArg) : Prop := a.name.length = 48 ∧ a.hostId < 256 ^ 8 ∧ a.flags < 256 ^ 4 ∧ a.disk.ok

def lsOf (b : List UInt8) : Ls :=
  ⟨b.take 48, leVal ((b.drop 48).take 8), leVal (((b.drop 48).drop 8).take 4), locOf ((((b.drop 48).drop 8).drop 4).drop 4)⟩

/-- `struct sanlk_resource` (`src/sanlock.h:98-109`). -/
structure Res where
  lname : List UInt8
  rname : List UInt8
  lver : Nat
  data64 : Nat
  data32 : Nat
  unused : Nat
  flags : Nat
  numDisks : Nat
deriving DecidableEq, Repr

def Res.bytes (r : Res) : List UInt8 :=
  r.lname ++ (r.rname ++ (leBytes 8 r.lver ++ (leBytes 8 r.data64 ++ (leBytes 4 r.data32 ++ (leBytes 4 r.unused ++
    (leBytes 4 r.flags ++ leBytes 4 r.numDisks))))))

def Res.ok (r : Res) : Prop :=
  r.lname.length = 48 ∧ r.rname.length = 48 ∧ r.lver < 256 ^ 8 ∧ r.data64 < 256 ^ 8 ∧ r.data32 < 256 ^ 4 ∧ r.unused < 256 ^ 4 ∧
    r.flags < 256 ^ 4 ∧ r.numDisks < 256 ^ 4

def resOf (b : List UInt8) : Res :=
  let b1 := (b.drop 48).drop 48
  let b2 := ((b1.drop 8).drop 8)
  ⟨b.take 48, (b.drop 48).take 48, leVal (b1.take 8), leVal ((b1.drop 8).take 8), leVal (b2.take 4), leVal ((b2.drop 4).take 4),
    leVal (((b2.drop 4).drop 4).take 4), leVal ((((b2.drop 4).drop 4).drop 4).take 4)⟩

/-- `struct sanlk_rindex` (`src/sanlock.h:119-125`). -/
structure Rx where
  flags : Nat
  maxRes : Nat
  lname : List UInt8
  loc : Loc
deriving DecidableEq, Repr

structure RxArg where
  flags : Nat
  maxRes : Nat
  unused : Nat
  lname : List UInt8
  disk : DiskArg
deriving DecidableEq, Repr

def RxArg.rx (a : RxArg) : Rx := ⟨a.flags, a.maxRes, a.lname, a.disk.loc⟩

def RxArg.bytes (a : RxArg) : List UInt8 :=
  leBytes 4 a.flags ++ (leBytes 4 a.maxRes ++ (leBytes 8 a.unused ++ (a.lname ++ a.disk.bytes)))

def RxArg.ok (a : RxArg) : Prop := a.flags < 256 ^ 4 ∧ a.maxRes < 256 ^ 4 ∧ a.lname.length = 48 ∧ a.disk.ok

def rxOf (b : List UInt8) : Rx :=
  ⟨leVal (b.take 4), leVal ((b.drop 4).take 4), (((b.drop 4).drop 4).drop 8).take 48, locOf ((((b.drop 4).drop 4).drop 8).drop 48)⟩

/-- `struct sanlk_rentry` (`src/sanlock.h:127-132`). -/
structure Re where
  name : List UInt8
  offset : Nat
  flags : Nat
  unused : Nat
deriving DecidableEq, Repr

def Re.bytes (r : Re) : List UInt8 := r.name ++ (leBytes 8 r.offset ++ (leBytes 4 r.flags ++ leBytes 4 r.unused))

def Re.ok (r : Re) : Prop := r.name.length = 48 ∧ r.offset < 256 ^ 8 ∧ r.flags < 256 ^ 4 ∧ r.unused < 256 ^ 4

def reOf (b : List UInt8) : Re :=
  ⟨b.take 48, leVal ((b.drop 48).take 8), leVal (((b.drop 48).drop 8).take 4), leVal ((((b.drop 48).drop 8).drop 4).take 4)⟩

/-- `struct sanlk_host_event` (`src/sanlock.h:171-176`). -/
structure He where
  hostId : Nat
  generation : Nat
  event : Nat
  data : Nat
deriving DecidableEq, Repr

def He.bytes (e : He) : List UInt8 :=
  leBytes 8 e.hostId ++ (leBytes 8 e.generation ++ (leBytes 8 e.event ++ leBytes 8 e.data))

def He.ok (e : He) : Prop := e.hostId < 256 ^ 8 ∧ e.generation < 256 ^ 8 ∧ e.event < 256 ^ 8 ∧ e.data < 256 ^ 8

def heOf (b : List UInt8) : He :=
  ⟨leVal (b.take 8), leVal ((b.drop 8).take 8), leVal (((b.drop 8).drop 8).take 8), leVal ((((b.drop 8).drop 8).drop 8).take 8)⟩

/-- `struct sanlk_host` (`src/sanlock.h:163-169`). -/
structure Host where
  hostId : Nat
  generation : Nat
  timestamp : Nat
  ioTimeout : Nat
  flags : Nat
deriving DecidableEq, Repr

def Host.bytes (h : Host) : List UInt8 :=
  leBytes 8 h.hostId ++ (leBytes 8 h.generation ++ (leBytes 8 h.timestamp ++ (leBytes 4 h.ioTimeout ++ leBytes 4 h.flags)))

def Host.ok (h : Host) : Prop :=
  h.hostId < 256 ^ 8 ∧ h.generation < 256 ^ 8 ∧ h.timestamp < 256 ^ 8 ∧ h.ioTimeout < 256 ^ 4 ∧ h.flags < 256 ^ 4

def hostOf (b : List UInt8) : Host :=
  ⟨leVal (b.take 8), leVal ((b.drop 8).take 8), leVal (((b.drop 8).drop 8).take 8), leVal ((((b.drop 8).drop 8).drop 8).take 4),
    leVal (((((b.drop 8).drop 8).drop 8).drop 4).take 4)⟩

/-- `memset` and `strncpy` of a name into a zeroed lockspace structure (`src/client.c:296-298`, `382-383`, `805-806`, `883-884`, `930-931`). -/
def named (name : List UInt8) (hostId : Nat) : LsArg :=
  ⟨name.take 48 ++ List.replicate (48 - name.length) 0, hostId, 0, 0, ⟨⟨List.replicate 1024 0, 0⟩, 0, 0⟩⟩

/-- A name field as a string. -/
def cstr (b : List UInt8) : List UInt8 := b.takeWhile (· ≠ 0)

/-! ## The library -/

/-- A call of the library.  A structure that a call takes by pointer is given as it is in the memory of the process; the disks are
those that follow the resource structure. -/
inductive Call where
  | add (a : LsArg) (flags timeout : Nat)
  | inq (a : LsArg) (flags : Nat)
  | rem (a : LsArg) (flags : Nat)
  | getLockspaces (flags : Nat)
  | getHosts (name : List UInt8) (hostId flags : Nat)
  | setConfig (name : List UInt8) (flags cmd : Nat)
  | align (d : DiskArg)
  | readLs (a : LsArg) (flags : Nat)
  | readRes (r : Res) (ds : List DiskArg) (flags : Nat)
  | writeLs (a : LsArg) (maxHosts flags timeout : Nat)
  | writeRes (r : Res) (ds : List DiskArg) (maxHosts numHosts flags : Nat)
  | owners (r : Res) (ds : List DiskArg) (flags : Nat)
  | regEvent (name : List UInt8) (e : He) (flags : Nat)
  | endEvent (name : List UInt8) (flags : Nat)
  | setEvent (name : List UInt8) (e : He) (flags : Nat)
  | version (flags : Nat)
  | request (flags force : Nat) (r : Res) (ds : List DiskArg)
  | examineLs (a : LsArg) (flags : Nat)
  | examineRes (r : Res) (flags : Nat)
  | setLvb (flags : Nat) (r : Res) (lvb : List UInt8)
  | getLvb (flags : Nat) (r : Res) (lvblen : Nat)
  | formatRx (x : RxArg) (flags : Nat)
  | rebuildRx (x : RxArg) (flags : Nat)
  | updateRx (x : RxArg) (flags : Nat) (e : Re)
  | lookupRx (x : RxArg) (flags : Nat) (e : Re)
  | createRes (x : RxArg) (flags : Nat) (e : Re) (maxHosts numHosts : Nat)
  | deleteRes (x : RxArg) (flags : Nat) (e : Re)
deriving DecidableEq, Repr

/-- The path of a disk is empty. -/
def noPath (l : Loc) : Bool := l.path.head? = some 0

/-- `!res->num_disks || res->num_disks > SANLK_MAX_DISKS || !res->disks[0].path[0]` -/
def badDisks (r : Res) (ds : List DiskArg) : Bool :=
  r.numDisks = 0 || 4 < r.numDisks || (match ds with | d :: _ => noPath d.loc | [] => false)

/-- The checks at the beginning of a call, which end it with -EINVAL (`src/client.c:449`, `510-512`, `574`, `604-606`, `644-646`,
`1454`, `1492`, `1557`, `1585`, `1617`, `1673`, `1730`, `1786`). -/
def Call.invalid : Call → Bool
  | .readLs a _ => noPath a.disk.loc
  | .writeLs a _ _ _ => noPath a.disk.loc
  | .readRes r ds _ => badDisks r ds
  | .writeRes r ds _ _ _ => badDisks r ds
  | .owners r ds _ => badDisks r ds
  | .setLvb _ _ lvb => lvb = []
  | .getLvb _ _ n => n = 0
  | .formatRx x _ => x.lname.head? = some 0 || noPath x.disk.loc
  | .rebuildRx x _ => x.lname.head? = some 0 || noPath x.disk.loc
  | .updateRx x _ _ => x.lname.head? = some 0 || noPath x.disk.loc
  | .lookupRx x _ _ => x.lname.head? = some 0 || noPath x.disk.loc
  | .createRes x _ _ _ _ => x.lname.head? = some 0 || noPath x.disk.loc
  | .deleteRes x _ _ => x.lname.head? = some 0 || noPath x.disk.loc
  | _ => false

/-- `send_header` (`src/client.c:74-105`). -/
def mk (cmd flags datalen data data2 : Nat) : Hdr := ⟨MAGIC, 1, cmd, flags, 32 + datalen, 0, data, data2⟩

def disksBytes (ds : List DiskArg) : List UInt8 := ds.flatMap DiskArg.bytes

/-- The data of a call: the `send_data` calls in their order. -/
def Call.data : Call → List UInt8
  | .add a _ _ => a.bytes
  | .inq a _ => a.bytes
  | .rem a _ => a.bytes
  | .getLockspaces _ => []
  | .getHosts name hostId _ => (named name hostId).bytes
  | .setConfig name _ _ => (named name 0).bytes
  | .align d => d.bytes
  | .readLs a _ => a.bytes
  | .readRes r ds _ => r.bytes ++ disksBytes ds
  | .writeLs a _ _ _ => a.bytes
  | .writeRes r ds _ _ _ => r.bytes ++ disksBytes ds
  | .owners r ds _ => r.bytes ++ disksBytes ds
  | .regEvent name e _ => (named name 0).bytes ++ e.bytes
  | .endEvent name _ => (named name 0).bytes
  | .setEvent name e _ => (named name 0).bytes ++ e.bytes
  | .version _ => []
  | .request _ _ r ds => r.bytes ++ disksBytes ds
  | .examineLs a _ => a.bytes
  | .examineRes r _ => r.bytes
  | .setLvb _ r lvb => r.bytes ++ lvb
  | .getLvb _ r _ => r.bytes
  | .formatRx x _ => x.bytes
  | .rebuildRx x _ => x.bytes
  | .updateRx x _ e => x.bytes ++ e.bytes
  | .lookupRx x _ e => x.bytes ++ e.bytes
  | .createRes x _ e _ _ => x.bytes ++ e.bytes
  | .deleteRes x _ e => x.bytes ++ e.bytes

/-- The header of a call (`src/client.c:178`, `194-212`, `225`, `305-307`, `389-391`, `428`, `456-458`, `518-521`, `581-583`,
`612-615`, `652-655`, `816`, `890`, `937-939`, `1052`, `1388`, `1421-1433`, `1463`, `1501`, `1564`, `1592`, `1624-1627`, `1680-1683`,
`1737-1740`, `1793-1796`).  The length in the header of a lookup is that of a resource structure instead of an index entry
(`src/client.c:1682`). -/
def Call.header : Call → Hdr
  | .add _ f t => mk 2 f 1104 t 0
  | .inq _ f => mk 16 f 1104 0 0
  | .rem _ f => mk 3 f 1104 0 0
  | .getLockspaces f => mk 22 f 0 0 0
  | .getHosts _ _ f => mk 23 f 1104 0 0
  | .setConfig _ f cmd => mk 33 f 1104 cmd 0
  | .align _ => mk 12 0 1040 0 0
  | .readLs _ f => mk 20 f 1104 0 0
  | .readRes r _ f => mk 21 f (128 + 1040 * r.numDisks) 0 0
  | .writeLs _ m f t => mk 18 f 1104 m t
  | .writeRes r _ m n f => mk 19 f (128 + 1040 * r.numDisks) m n
  | .owners r _ f => mk 24 f (128 + 1040 * r.numDisks) 0 0
  | .regEvent _ _ f => mk 30 f (1104 + 32) 0 0
  | .endEvent _ f => mk 31 f 1104 0 0
  | .setEvent _ _ f => mk 32 f (1104 + 32) 0 0
  | .version f => mk 28 f 0 0 0
  | .request f force r _ => mk 11 f (128 + 1040 * r.numDisks) force 0
  | .examineLs _ f => mk 13 f 1104 0 0
  | .examineRes _ f => mk 14 f 128 0 0
  | .setLvb f _ lvb => mk 25 f (128 + lvb.length) 0 0
  | .getLvb f _ _ => mk 26 f 128 0 0
  | .formatRx _ f => mk 35 f 1104 0 0
  | .rebuildRx _ f => mk 40 f 1104 0 0
  | .updateRx _ f _ => mk 36 f (1104 + 64) 0 0
  | .lookupRx _ f _ => mk 37 f (1104 + 128) 0 0
  | .createRes _ f _ m n => mk 38 f (1104 + 64) m n
  | .deleteRes _ f _ => mk 39 f (1104 + 64) 0 0

def Call.bytes (c : Call) : List UInt8 := c.header.bytes ++ c.data

/-! ## The daemon -/

/-- What the daemon carries out, with the arguments as it understood them.  A timeout of `none` is the daemon's default. -/
inductive Op where
  | add (ls : Ls) (timeout : Option Nat) (async : Bool)
  | inq (ls : Ls) (wait : Bool)
  | rem (ls : Ls) (unused async : Bool)
  | getLockspaces
  | getHosts (name : List UInt8) (hostId : Nat)
  | setConfig (name : List UInt8) (flags cmd : Nat)
  | align (l : Loc)
  | readLs (hostId flags : Nat) (l : Loc)
  | readRes (lname rname : List UInt8) (flags : Nat) (ls : List Loc)
  | writeLs (ls : Ls) (timeout : Option Nat)
  | writeRes (lname rname : List UInt8) (flags : Nat) (ls : List Loc) (numHosts : Int) (clear : Bool)
  | owners (lname rname : List UInt8) (flags : Nat) (ls : List Loc)
  | regEvent (name : List UInt8)
  | endEvent (name : List UInt8)
  | setEvent (name : List UInt8) (e : He) (flags : Nat)
  | version
  | request (lname rname : List UInt8) (lver : Nat) (force : Nat) (next : Bool) (ls : List Loc)
  | examineLs (name : List UInt8)
  | examineRes (lname rname : List UInt8)
  | setLvb (lname rname lvb : List UInt8)
  | getLvb (lname rname : List UInt8) (len : Int)
  | formatRx (x : Rx)
  | rebuildRx (x : Rx) (flags : Nat)
  | updateRx (x : Rx) (e : Re) (flags : Nat)
  | lookupRx (x : Rx) (e : Re) (flags : Nat)
  | createRes (x : Rx) (e : Re) (maxHosts numHosts : Nat)
  | deleteRes (x : Rx) (e : Re)
deriving DecidableEq, Repr

/-- What a command does with the connection: wait for `n` bytes and go on with them, carry out an operation and reply, or reply
with an error. -/
inductive Prog where
  | recv (n : Nat) (k : List UInt8 → Prog)
  | exec (o : Op)
  | refuse (rv : Int)

def bit (n i : Nat) : Bool := n / 2 ^ i % 2 = 1

def optN (n : Nat) : Option Nat := if n = 0 then none else some n

/-- The disks in an array of disk structures. -/
def locsOf : Nat → List UInt8 → List Loc
  | 0, _ => []
  | n + 1, b => locOf (b.take 1040) :: locsOf n (b.drop 1040)

/-- The resource and its disks, as read by `cmd_request`, `cmd_read_resource`, `cmd_read_resource_owners` and
`cmd_write_resource` (`src/cmd.c:998-1041`, `1622-1666`, `1723-1767`, `1886-1931`). -/
def withRes (k : Res → List Loc → Prog) : Prog :=
  .recv 128 fun b =>
    let r := resOf b
    if r.numDisks = 0 ∨ 4 < r.numDisks then .refuse (-34)
    else .recv (r.numDisks * 1040) fun d => k r (locsOf r.numDisks d)

/-- The lockspace structure. -/
def withLs (k : Ls → Prog) : Prog := .recv 1104 fun b => k (lsOf b)

/-- `rindex_op` (`src/cmd.c:2116-2170`). -/
def withRx (k : Rx → Re → Prog) : Prog := .recv 1104 fun b => .recv 64 fun d => k (rxOf b) (reOf d)

/-- The command functions; `none` for a command that is not modelled here.  In `cmd_set_lvb` a negative length is more than
`malloc` can give (`src/cmd.c:1159-1174`). -/
def prog (h : Hdr) : Option Prog :=
  match h.cmd with
  | 2 => some <| withLs fun l => .exec (.add l (optN h.data) (bit h.cmdFlags 0))
  | 16 => some <| withLs fun l => .exec (.inq l (bit h.cmdFlags 0))
  | 3 => some <| withLs fun l => .exec (.rem l (bit h.cmdFlags 1) (bit h.cmdFlags 0))
  | 22 => some <| .exec .getLockspaces
  | 23 => some <| withLs fun l => .exec (.getHosts (cstr l.name) l.hostId)
  | 33 => some <| withLs fun l => .exec (.setConfig (cstr l.name) h.cmdFlags h.data)
  | 12 => some <| .recv 1040 fun b => if noPath (locOf b) then .refuse (-19) else .exec (.align (locOf b))
  | 20 => some <| withLs fun l =>
      if noPath l.loc then .refuse (-19) else .exec (.readLs (if l.hostId = 0 then 1 else l.hostId) l.flags l.loc)
  | 21 => some <| withRes fun r ds => .exec (.readRes r.lname r.rname r.flags ds)
  | 18 => some <| withLs fun l => if noPath l.loc then .refuse (-19) else .exec (.writeLs l (optN h.data2))
  | 19 => some <| withRes fun r ds =>
      .exec (.writeRes r.lname r.rname r.flags ds (toInt h.data) (bit h.cmdFlags 0))
  | 24 => some <| withRes fun r ds => .exec (.owners r.lname r.rname r.flags ds)
  | 30 => some <| withLs fun l => .recv 32 fun _ => .exec (.regEvent (cstr l.name))
  | 31 => some <| withLs fun l => .exec (.endEvent (cstr l.name))
  | 32 => some <| withLs fun l => .recv 32 fun b => .exec (.setEvent (cstr l.name) (heOf b) h.cmdFlags)
  | 28 => some <| .exec .version
  | 11 => some <| withRes fun r ds => .exec (.request r.lname r.rname r.lver h.data (bit h.cmdFlags 0) ds)
  | 13 => some <| withLs fun l => .exec (.examineLs (cstr l.name))
  | 14 => some <| .recv 128 fun b => .exec (.examineRes (cstr (resOf b).lname) (cstr (resOf b).rname))
  | 25 => some <| .recv 128 fun b =>
      let n := toInt (h.length + (4294967296 - 160))
      if 4096 < n then .refuse (-7) else if n < 0 then .refuse (-12)
      else .recv n.toNat fun d => .exec (.setLvb (resOf b).lname (resOf b).rname d)
  | 26 => some <| .recv 128 fun b => .exec (.getLvb (resOf b).lname (resOf b).rname (toInt h.data2))
  | 35 => some <| .recv 1104 fun b => .exec (.formatRx (rxOf b))
  | 40 => some <| .recv 1104 fun b => .exec (.rebuildRx (rxOf b) h.cmdFlags)
  | 36 => some <| withRx fun x e => .exec (.updateRx x e h.cmdFlags)
  | 37 => some <| withRx fun x e => .exec (.lookupRx x e h.cmdFlags)
  | 38 => some <| withRx fun x e => .exec (.createRes x e h.data h.data2)
  | 39 => some <| withRx fun x e => .exec (.deleteRes x e)
  | _ => none

/-- Commands after which the daemon closes the connection: those of `call_cmd_daemon` but the registration, the restriction and the
version (`src/cmd.c:3037-3151`). -/
def closing (cmd : Nat) : Bool := cmd = 22 || cmd = 23 || cmd = 30 || cmd = 31 || cmd = 33 || cmd = 4 || cmd = 5 || cmd = 6 ||
  cmd = 15 || cmd = 34

/-- What became of the bytes that a command found. -/
inductive Fed where
  | short
  | exec (o : Op) (rest : List UInt8)
  | refuse (rv : Int) (rest : List UInt8)

def feed : Prog → List UInt8 → Fed
  | .recv n k, b => if n ≤ b.length then feed (k (b.take n)) (b.drop n) else .short
  | .exec o, b => .exec o b
  | .refuse rv, b => .refuse rv b

/-- What the daemon did on a connection: an operation it carried out, an error it replied with, or a command that is not modelled
here. -/
inductive Ev where
  | op (o : Op)
  | refused (rv : Int)
  | other (cmd : Nat)
deriving DecidableEq, Repr

/-- `process_connection` again and again, for a connection on which the given bytes arrive and then the end.  A header that is not
one is dropped (`src/main.c:1258-1277`, `1346-1347`); a command whose data do not arrive is answered with -ENOTCONN. -/
def serve : Nat → List UInt8 → List Ev
  | 0, _ => []
  | fuel + 1, b =>
    if b.length < 32 then []
    else
      let h := hdrOf (b.take 32)
      let rest := b.drop 32
      if h.magic ≠ MAGIC then serve fuel rest
      else if h.version ≠ 0 ∧ h.cmd ≠ 28 ∧ h.version / 65536 > 0 then serve fuel rest
      else if h.cmd = 0 ∨ 40 < h.cmd then serve fuel rest
      else match prog h with
        | none => [.other h.cmd]
        | some p => match feed p rest with
          | .short => [.refused (-107)]
          | .exec o r => .op o :: (if closing h.cmd then [] else serve fuel r)
          | .refuse rv r => .refused rv :: (if closing h.cmd then [] else serve fuel r)

/-- What happens on a connection on which the bytes `b` are sent. -/
def served (b : List UInt8) : List Ev := serve (b.length + 1) b

/-! ## The reply -/

/-- What the daemon found.  Lists come with the count in the header. -/
inductive Result where
  | plain (rv : Int)
  | lockspaces (rv : Int) (count : Nat) (l : List LsArg)
  | hosts (rv : Int) (count : Nat) (l : List Host)
  | ls (rv : Int) (timeout : Nat) (a : LsArg)
  | res (rv : Int) (r : Res)
  | owners (rv : Int) (r : Res) (l : List Host)
  | lvb (rv : Int) (b : List UInt8)
  | entry (rv : Int) (e : Re)
  | version (v : Nat)
deriving DecidableEq, Repr

/-- An `int` as a 32-bit number. -/
def u32 (x : Int) : Nat := (x % 4294967296).toNat

/-- The header of a reply. -/
def rh (h : Hdr) (len : Nat) (rv : Int) (d2 : Nat) : List UInt8 :=
  ({ h with version := 1, length := 32 + len, data := u32 rv, data2 := d2 } : Hdr).bytes

/-- The bytes of the reply (`send_result`, `src/main.c:457-484`; `src/cmd.c:1211-1224`, `1600-1607`, `1699-1706`, `1800-1813`,
`2160-2167`, `2880-2886`, `2912-2917`, `2931-2943`). -/
def Result.bytes (h : Hdr) : Result → List UInt8
  | .plain rv => rh h 0 rv 0
  | .lockspaces rv n l => rh h (1104 * l.length) rv n ++ l.flatMap LsArg.bytes
  | .hosts rv n l => rh h (32 * l.length) rv n ++ l.flatMap Host.bytes
  | .ls rv t a => rh h 1104 rv t ++ a.bytes
  | .res rv r => rh h 128 rv 0 ++ r.bytes
  | .owners rv r l => rh h (128 + 32 * l.length) rv l.length ++ (r.bytes ++ l.flatMap Host.bytes)
  | .lvb rv b => rh h b.length rv 0 ++ b
  | .entry rv e => rh h 64 rv 0 ++ e.bytes
  | .version v => rh { h with cmd := 28, cmdFlags := 0, seq := 0 } 0 0 v

/-- What a call gives back besides its return value. -/
inductive Out where
  | none
  | lockspaces (l : List Ls)
  | hosts (l : List Host)
  | ls (timeout : Nat) (a : Ls)
  | res (r : Res)
  | owners (r : Res) (l : List Host)
  | lvb (b : List UInt8)
  | entry (e : Re)
  | version (v proto : Nat)
  | fd
deriving DecidableEq, Repr

structure Ret where
  rv : Int
  out : Out
deriving DecidableEq, Repr

/-- `recv` with `MSG_WAITALL`: it returns when all bytes are there, or fewer at the end of the stream, which the library turns into
-1; `none` stands for waiting for ever. -/
def need (n : Nat) (b : List UInt8) (eof : Bool) (k : List UInt8 → List UInt8 → Option Ret) : Option Ret :=
  if n ≤ b.length then k (b.take n) (b.drop n) else if eof then some ⟨-1, .none⟩ else none

/-- The loop that receives a list (`src/client.c:261-276`, `346-361`, `711-726`). -/
def many {α : Type} (size : Nat) (dec : List UInt8 → α) : Nat → List α → List UInt8 → Bool → (List α → Option Ret) → Option Ret
  | 0, acc, _, _, k => k acc
  | n + 1, acc, b, eof, k => need size b eof fun x rest => many size dec n (acc ++ [dec x]) rest eof k

/-- `recv_result` (`src/client.c:152-168`) and the same lines elsewhere. -/
def recvHdr (b : List UInt8) (eof : Bool) (k : Hdr → List UInt8 → Option Ret) : Option Ret :=
  need 32 b eof fun x rest => k (hdrOf x) rest

/-- The second half of each call: what it returns when the bytes `b` have arrived, and the end of the stream if `eof`. -/
def recv (c : Call) (b : List UInt8) (eof : Bool) : Option Ret :=
  match c with
  | .getLockspaces _ => recvHdr b eof fun h rest =>
      if toInt h.data < 0 ∧ toInt h.data ≠ -28 then some ⟨toInt h.data, .none⟩
      else many 1104 lsOf (toInt h.data2).toNat [] rest eof fun l => some ⟨toInt h.data, .lockspaces l⟩
  | .getHosts .. => recvHdr b eof fun h rest =>
      if toInt h.data < 0 ∧ toInt h.data ≠ -28 then some ⟨toInt h.data, .none⟩
      else many 32 hostOf (toInt h.data2).toNat [] rest eof fun l => some ⟨toInt h.data, .hosts l⟩
  | .readLs .. => recvHdr b eof fun h rest =>
      if toInt h.data < 0 then some ⟨toInt h.data, .none⟩
      else need 1104 rest eof fun x _ => some ⟨toInt h.data, .ls h.data2 (lsOf x)⟩
  | .readRes .. => recvHdr b eof fun h rest => need 128 rest eof fun x _ => some ⟨toInt h.data, .res (resOf x)⟩
  | .owners .. => recvHdr b eof fun h rest =>
      if toInt h.data < 0 then some ⟨toInt h.data, .none⟩
      else need 128 rest eof fun x rest2 => many 32 hostOf (toInt h.data2).toNat [] rest2 eof fun l => some ⟨0, .owners (resOf x) l⟩
  | .regEvent .. => recvHdr b eof fun h _ => if toInt h.data < 0 then some ⟨toInt h.data, .none⟩ else some ⟨0, .fd⟩
  | .endEvent .. => recvHdr b eof fun h _ => if toInt h.data < 0 then some ⟨toInt h.data, .none⟩ else some ⟨0, .none⟩
  | .version _ => recvHdr b eof fun h _ =>
      if toInt h.data < 0 then some ⟨toInt h.data, .none⟩ else some ⟨0, .version h.data2 h.version⟩
  | .getLvb _ _ lvblen => recvHdr b eof fun h rest =>
      if h.length = 32 then some ⟨toInt h.data, .none⟩
      else need (h.length - 32) rest eof fun x _ => some ⟨toInt h.data, .lvb (x.take lvblen)⟩
  | .updateRx .. => recvHdr b eof fun h rest =>
      if toInt h.data < 0 then some ⟨toInt h.data, .none⟩ else need 64 rest eof fun x _ => some ⟨0, .entry (reOf x)⟩
  | .lookupRx .. => recvHdr b eof fun h rest =>
      if toInt h.data < 0 then some ⟨toInt h.data, .none⟩ else need 64 rest eof fun x _ => some ⟨0, .entry (reOf x)⟩
  | .createRes .. => recvHdr b eof fun h rest =>
      if toInt h.data < 0 then some ⟨toInt h.data, .none⟩ else need 64 rest eof fun x _ => some ⟨0, .entry (reOf x)⟩
  | .deleteRes .. => recvHdr b eof fun h rest =>
      if toInt h.data < 0 then some ⟨toInt h.data, .none⟩ else need 64 rest eof fun _ _ => some ⟨0, .none⟩
  | _ => recvHdr b eof fun h _ => some ⟨toInt h.data, .none⟩

end Sanlock.OneShot
