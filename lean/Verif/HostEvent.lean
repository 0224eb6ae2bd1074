import Verif.Rv

/-!
# Host event bitmap (`src/lockspace.c`)

Every host lease sector ends in a bitmap with one bit per host id.  A host sets the bit of another host in its own
sector to get its attention.
-/

namespace Sanlock.HostEvent

/-- `HOSTID_BITMAP_SIZE` (`src/leader.h`). -/
def BITMAP_SIZE : Nat := 256

/-- The byte of a host id: `bitmap + ((host_id - 1) / 8)` (`src/lockspace.c:241`). -/
def byteIdx (h : Nat) : Nat := (h - 1) / 8

/-- `mask = 1 << ((host_id - 1) % 8)` in a `char` (`src/lockspace.c:242-245`). -/
def mask (h : Nat) : UInt8 := (1 : UInt8) <<< (UInt8.ofNat ((h - 1) % 8))

/-- `set_id_bit` (`src/lockspace.c:239-252`); `none` is a store outside the bitmap. -/
def setBit (h : Nat) (bm : List UInt8) : Option (List UInt8) :=
  match bm[byteIdx h]? with
  | none => none
  | some b => some (bm.set (byteIdx h) (b ||| mask h))

/-- `test_id_bit` (`src/lockspace.c:256-266`); `none` is a load outside the bitmap. -/
def testBit (h : Nat) (bm : List UInt8) : Option Bool :=
  match bm[byteIdx h]? with
  | none => none
  | some b => some (b &&& mask h != 0)

/-- `uint64_t` subtraction. -/
def sub64 (a b : Nat) : Nat := (a + 2 ^ 64 - b) % 2 ^ 64

/-- The loop of `create_bitmap_and_extra` (`src/lockspace.c:331-360`) from index `i` on.  `times` holds the
`set_bit_time` of the remaining hosts.  Result: the new times and the bitmap. -/
def createLoop (own now secs : Nat) : Nat → List Nat → List UInt8 → Option (List Nat × List UInt8)
  | _, [], bm => some ([], bm)
  | i, t :: ts, bm =>
    if i + 1 = own ∨ t = 0 then
      match createLoop own now secs (i + 1) ts bm with
      | none => none
      | some (ts', bm') => some (t :: ts', bm')
    else if sub64 now t > secs then
      match createLoop own now secs (i + 1) ts bm with
      | none => none
      | some (ts', bm') => some (0 :: ts', bm')
    else
      match setBit (i + 1) bm with
      | none => none
      | some bm1 =>
        match createLoop own now secs (i + 1) ts bm1 with
        | none => none
        | some (ts', bm') => some (t :: ts', bm')

/-- `create_bitmap_and_extra` on the zeroed bitmap of `lockspace_thread` (`src/lockspace.c:331-360`, `935-938`). -/
def createBitmap (own now secs : Nat) (times : List Nat) : Option (List Nat × List UInt8) :=
  createLoop own now secs 0 times (List.replicate BITMAP_SIZE 0)

/-- `host_status_set_bit` (`src/lockspace.c:267-292`) on the lockspace found. -/
def setHostBit (maxHosts now : Nat) (times : List Nat) (h : Nat) : Int × List Nat :=
  if h = 0 ∨ h > 2000 then (Rv.EINVAL, times)
  else if h > maxHosts then (Rv.EINVAL, times)
  else (0, times.set (h - 1) now)

/-- What a host remembers of another host (`struct host_status`, the fields used here). -/
structure Seen where
  ownerId : Nat
  ownerGen : Nat
  timestamp : Nat
  lastReq : Nat
deriving DecidableEq

/-- What is read from the other host's sector. -/
structure Sector where
  ownerId : Nat
  ownerGen : Nat
  timestamp : Nat
  /-- `write_generation`, which carries the event -/
  event : Nat
  bitmap : List UInt8

/-- Outcome of looking at one sector. -/
structure Notice where
  event : Bool
  request : Bool
  seen : Seen
deriving DecidableEq

/-- One round of the loop in `check_other_leases` (`src/lockspace.c:378-530`) for sector `i`, with a record that has
the right magic and lockspace name; only the part from the comparison with the last record on. -/
def look (own now secs : Nat) (i : Nat) (hs : Seen) (sec : Sector) : Option Notice :=
  if hs.ownerId = sec.ownerId ∧ hs.ownerGen = sec.ownerGen ∧ hs.timestamp = sec.timestamp then
    some ⟨false, false, hs⟩
  else
    let hs1 : Seen := ⟨sec.ownerId, sec.ownerGen, sec.timestamp, hs.lastReq⟩
    if i + 1 = own then some ⟨false, false, hs1⟩
    else match testBit own sec.bitmap with
      | none => none
      | some false => some ⟨false, false, hs1⟩
      | some true =>
        if sub64 now hs.lastReq < secs then some ⟨sec.event != 0, false, hs1⟩
        else some ⟨sec.event != 0, true, { hs1 with lastReq := now }⟩

end Sanlock.HostEvent
