import Verif.OnDisk
import Verif.SizeFlags
import Verif.Verify

/-!
# Resource index (`src/rindex.c`)

The index is one area of `align_size` bytes: a header sector and 64 byte entries.  It is followed by an area with the
internal lease that protects it, and by the lease areas of the resources.  Buffers are byte lists.  Reading or writing
memory outside a buffer, signed overflow and division by zero are the outcome `none`.
-/

namespace Sanlock.Rindex

open OnDisk

/-- `rindex_info.header`, the fields used after `read_rindex_header`. -/
structure Hdr where
  sector : Nat
  align : Nat
  maxRes : Nat
deriving DecidableEq

/-- `size_to_max_resources` (`src/rindex.c:123-138`). -/
def sizeToMax (sector align : Nat) : Nat :=
  if sector = 512 ∧ align = SizeFlags.M1 then 16000
  else if sector = 4096 ∧ align = SizeFlags.M1 then 16000
  else if sector = 4096 ∧ align = SizeFlags.M2 then 32000
  else if sector = 4096 ∧ align = SizeFlags.M4 then 64000
  else if sector = 4096 ∧ align = SizeFlags.M8 then 128000
  else 16000

/-- `max_resources` as used by the search and the rebuild (`src/rindex.c:150-151`, `1025-1029`). -/
def Hdr.max (h : Hdr) : Nat := if h.maxRes = 0 then sizeToMax h.sector h.align else h.maxRes

/-- The header written by `rindex_format` for sizes and a requested maximum (`src/rindex.c:402-445`). -/
def format (sector align want : Nat) : Hdr :=
  let m := if want = 0 then 4096 else want
  ⟨sector, align, if m > sizeToMax sector align then sizeToMax sector align else m⟩

/-- `sizeof(struct rindex_entry)`. -/
def ENTRY : Nat := 64

/-- Bytes `off ..< off + n` of a buffer; `none` if not all of them are inside. -/
def slice? (buf : List UInt8) (off n : Nat) : Option (List UInt8) :=
  if off + n ≤ buf.length then some ((buf.drop off).take n) else none

/-- `memcpy` into a buffer. -/
def splice (buf : List UInt8) (off : Nat) (bs : List UInt8) : List UInt8 :=
  buf.take off ++ (bs ++ buf.drop (off + bs.length))

/-- Product of two non negative `int`s. -/
def mulInt (a b : Nat) : Option Nat := if a * b < 2 ^ 31 then some (a * b) else none

/-- `rx->disk->offset + (2 * align_size) + (i * align_size)` with `int i, align_size` (`src/rindex.c:164`, `170`). -/
def resOffset (h : Hdr) (off i : Nat) : Option Nat :=
  match mulInt 2 h.align, mulInt i h.align with
  | some a, some b => some (off + a + b)
  | _, _ => none

/-- The same expression on a machine whose `int` multiplication wraps: the product is taken modulo 2^32, sign extended
and added modulo 2^64.  Used only to show the consequences of the overflow. -/
def resOffsetWrap (h : Hdr) (off i : Nat) : Nat :=
  let m := (i * h.align) % 2 ^ 32
  let se := if m < 2 ^ 31 then m else m + (2 ^ 64 - 2 ^ 32)
  (off + 2 * h.align + se) % 2 ^ 64

/-- What is searched: a free entry, or a name (`find_free`, `find_name`). -/
inductive Find where
  | free
  | name (n : List UInt8)

/-- The test for one entry (`src/rindex.c:162`, `168`). -/
def hit (f : Find) (re : RindexEntry) : Bool :=
  match f with
  | .free => re.resOffset == 0 && re.name.bytes.headD 0 == 0
  | .name n => re.name.bytes.headD 0 != 0 && Verify.strncmpEq 48 re.name.bytes n

/-- The loop of `search_entries` (`src/rindex.c:140-177`) with `n` entries left, at entry `i`.  Result: the offset of
the entry in the index and the lease offset, or -ENOENT as `some none`. -/
def searchLoop (e : Endian) (h : Hdr) (off : Nat) (buf : List UInt8) (f : Find) : Nat → Nat → Option (Option (Nat × Nat))
  | 0, _ => some none
  | n + 1, i =>
    match slice? buf (h.sector + i * ENTRY) ENTRY with
    | none => none
    | some b =>
      if hit f (rindexEntryIn e b) then
        match resOffset h off i with
        | none => none
        | some r => some (some (h.sector + i * ENTRY, r))
      else searchLoop e h off buf f n (i + 1)

def search (e : Endian) (h : Hdr) (off : Nat) (buf : List UInt8) (f : Find) : Option (Option (Nat × Nat)) :=
  searchLoop e h off buf f h.max 0

/-- The C string in a 48 byte array, as copied by `strncpy` (`src/paxos_lease.c:2462-2463`). -/
def cstr48 (l : List UInt8) : List UInt8 := (l.take 48).takeWhile (· ≠ 0)

/-- What lies in a lease area, as seen by a reader of its first sector. -/
inductive Area where
  /-- initialised lease with this name (C string) of this lockspace (C string) -/
  | lease (space name : List UInt8)
  /-- cleared lease -/
  | cleared
  /-- anything else, for example a torn write -/
  | other
deriving DecidableEq

/-- The disk: the index area and the lease areas by offset. -/
structure Disk where
  index : List UInt8
  area : Nat → Area

/-- A disk write.  The sector writes are atomic, the writes of a whole lease area are not. -/
inductive Write where
  | area (off : Nat) (a : Area)
  | sector (off : Nat) (bs : List UInt8)

def apply (d : Disk) : Write → Disk
  | .area o a => { d with area := fun x => if x = o then a else d.area x }
  | .sector o bs => { d with index := splice d.index o bs }

/-- The states after a crash: a prefix of the writes is done and, if the next one writes a whole area, that area may be
in any state. -/
inductive Crash : Disk → List Write → Disk → Prop where
  | here {d : Disk} {ws : List Write} : Crash d ws d
  | torn {d : Disk} {o : Nat} {a : Area} {ws : List Write} (x : Area) : Crash d (.area o a :: ws) (apply d (.area o x))
  | next {d d' : Disk} {w : Write} {ws : List Write} : Crash (apply d w) ws d' → Crash d (w :: ws) d'

/-- `update_rindex` (`src/rindex.c:179-245`): the sector written, relative to the index.  `sector_offset` is a
`uint32_t`. -/
def updateIndex (e : Endian) (h : Hdr) (buf : List UInt8) (re : RindexEntry) (ent : Nat) : Option (Nat × List UInt8) :=
  if h.sector = 0 then none
  else
    let so := (ent / h.sector * h.sector) % 2 ^ 32
    match slice? buf so h.sector with
    | none => none
    | some s =>
      if ent % h.sector + ENTRY ≤ h.sector then some (so, splice s (ent % h.sector) (rindexEntryOut e re))
      else none

def zeroName : Name := ⟨List.replicate 48 0, by simp⟩

/-- The entry that is written for a name and an offset. -/
def mkEntry (n : Name) (off : Nat) : RindexEntry := ⟨UInt64.ofNat off, 0, 0, n⟩

/-- The zero entry. -/
def zeroEntry : RindexEntry := ⟨0, 0, 0, zeroName⟩

/-- `rindex_create` after the internal lease was acquired (`src/rindex.c:556-600`): the writes and the returned lease
offset.  `some (none)`: -ENOENT.  The writes to the internal lease are not included. -/
def create (e : Endian) (h : Hdr) (off : Nat) (space : List UInt8) (d : Disk) (n : Name) : Option (Option (List Write × Nat)) :=
  match search e h off d.index .free with
  | none => none
  | some none => some none
  | some (some (ent, res)) =>
    match updateIndex e h d.index (mkEntry n res) ent with
    | none => none
    | some (so, bs) => some (some ([.area res (.lease (cstr48 space) (cstr48 n.bytes)), .sector so bs], res))

/-- `rindex_delete` after the internal lease was acquired (`src/rindex.c:697-737`). -/
def delete (e : Endian) (h : Hdr) (off : Nat) (d : Disk) (n : Name) : Option (Option (List Write)) :=
  match search e h off d.index (.name n.bytes) with
  | none => none
  | some none => some none
  | some (some (ent, res)) =>
    match updateIndex e h d.index zeroEntry ent with
    | none => none
    | some (so, bs) => some (some [.sector so bs, .area res .cleared])

/-- `entry_num = (res_offset - rx.disk->offset - (2 * align_size)) / align_size` in `uint64_t`, stored in an `int`
(`src/rindex.c:817`, `929`). -/
def entryNum (h : Hdr) (off res : Nat) : Int :=
  let q : Nat := ((res + 2 ^ 65 - off - 2 * h.align) % 2 ^ 64 / h.align) % 2 ^ 32
  if q < 2 ^ 31 then (q : Int) else (q : Int) - 2 ^ 32

/-- `ent_offset = sector_size + (entry_num * sizeof(struct rindex_entry))` in `uint64_t` (`src/rindex.c:818`, `930`). -/
def entOffset (h : Hdr) (k : Int) : Nat := ((h.sector + k * 64) % 2 ^ 64).toNat

/-- `rindex_lookup` by offset (`src/rindex.c:798-826`, `842-866`): the entry read.  `some none`: refused with
SANLK_RINDEX_OFFSET.  `none`: division by zero, or a read outside the buffer. -/
def lookupOffset (e : Endian) (h : Hdr) (off : Nat) (buf : List UInt8) (res : Nat) : Option (Option RindexEntry) :=
  if h.align = 0 then none
  else if res % h.align ≠ 0 then some none
  else
    match slice? buf (entOffset h (entryNum h off res)) ENTRY with
    | none => none
    | some b => some (some (rindexEntryIn e b))

/-- `rindex_update` (`src/rindex.c:879-966`) with a non zero offset: the sector written. -/
def update (e : Endian) (h : Hdr) (off : Nat) (buf : List UInt8) (re : RindexEntry) (res : Nat) :
    Option (Option (Nat × List UInt8)) :=
  if h.align = 0 then none
  else if res % h.align ≠ 0 then some none
  else
    match updateIndex e h buf re (entOffset h (entryNum h off res)) with
    | none => none
    | some w => some (some w)

/-- What `paxos_read_resource` meets at a lease offset (`src/paxos_lease.c:1073-1144`, with T_CHECK_EXISTS): only the
magic number of the leader is looked at. -/
inductive Read where
  /-- `-EMSGSIZE` -/
  | endOfDevice
  /-- another error, or another magic number -/
  | nothing
  /-- the magic number of a lease -/
  | found (space name : Name)

/-- The loop of `rindex_rebuild` (`src/rindex.c:1087-1125`), with `n` entries left, at entry `i`; `res` is the lease
offset, advanced by addition. -/
def rebuildLoop (e : Endian) (h : Hdr) (rd : Nat → Read) : Nat → Nat → Nat → List UInt8 → Option (List UInt8)
  | 0, _, _, buf => some buf
  | n + 1, i, res, buf =>
    match rd res with
    | .endOfDevice => some buf
    | .nothing => rebuildLoop e h rd n (i + 1) (res + h.align) buf
    | .found _ nm =>
      if h.sector + i * ENTRY + ENTRY ≤ buf.length then
        rebuildLoop e h rd n (i + 1) (res + h.align)
          (splice buf (h.sector + i * ENTRY) (rindexEntryOut e (mkEntry nm res)))
      else none

/-- `rindex_rebuild` between reading and writing the index (`src/rindex.c:1062-1127`). -/
def rebuild (e : Endian) (h : Hdr) (off : Nat) (rd : Nat → Read) (buf : List UInt8) : Option (List UInt8) :=
  rebuildLoop e h rd h.max 0 (off + 2 * h.align)
    (buf.take h.sector ++ List.replicate (h.align - h.sector) 0)

end Sanlock.Rindex
