/-!
# Reading and writing sectors without aio

Models `do_write`, `do_read` (`src/diskio.c:375-559`) and, above them, `write_iobuf`, `write_sector`, `write_sectors`, `read_iobuf` and
`read_sectors` (`src/diskio.c:817-973`) for a task with `use_aio` 0 (`src/diskio.c:821-824`, 920-923).

The device is a function from byte addresses to bytes with a size.  The kernel is a list of answers to the `write` and `read`
calls: each is interrupted, fails, or moves some number of bytes at the file position.  The list may end while the function still
waits for an answer (`none`): this is the state a crash of the host leaves.

Not modelled: the time that is measured (`wr_ms`, `rd_ms`), what is logged, `io_count`.
-/

namespace Sanlock.SyncIo

/-- An answer of the kernel to `write` or `read`. -/
inductive Ans where
  /-- this many bytes, or fewer if there are not as many -/
  | n (k : Nat)
  /-- -1 with EINTR -/
  | eintr
  /-- -1 with another error -/
  | err
deriving DecidableEq, Repr

/-- The bytes of the device. -/
abbrev Dev := Nat → UInt8

/-- `buf` written at address `a`. -/
def put (d : Dev) (a : Nat) (buf : List UInt8) : Dev := fun i => if a ≤ i ∧ i < a + buf.length then buf.getD (i - a) 0 else d i

/-- `n` bytes at address `a`. -/
def get (d : Dev) (a n : Nat) : List UInt8 := (List.range n).map fun i => d (a + i)

/-- An open file: the device, its size and the position of the descriptor. -/
structure File where
  dev : Dev
  size : Nat
  pos : Nat

/-- `lseek(fd, offset, SEEK_SET)`: what it returns, as the unsigned number it is compared with, and the position afterwards.  An
offset of 2^63 or more is negative as `off_t` and refused; `ok` is false if the seek fails for another reason. -/
def lseek (f : File) (off : Nat) (ok : Bool) : Nat × File :=
  if ok ∧ off < 2 ^ 63 then (off, { f with pos := off }) else (2 ^ 64 - 1, f)

/-- `write(fd, buf, …)` of `k` bytes at the file position. -/
def sysWrite (f : File) (buf : List UInt8) : File :=
  { f with dev := put f.dev f.pos buf, pos := f.pos + buf.length }

/-- The loop of `do_write` (`src/diskio.c:409-432`): `pos` and `len` are its variables. -/
def writeLoop (buf : List UInt8) : List Ans → Nat → Nat → File → Option Int × File
  | [], _, _, f => (none, f)
  | .eintr :: as, pos, len, f => writeLoop buf as pos len f
  | .err :: _, _, _, f => (some (-1), f)
  | .n k :: as, pos, len, f =>
    let rv := min k len
    let f := sysWrite f ((buf.drop pos).take rv)
    if rv ≠ len then writeLoop buf as (pos + rv) (len - rv) f else (some 0, f)

/-- `do_write` (`src/diskio.c:375-463`). -/
def doWrite (f : File) (off : Nat) (buf : List UInt8) (seek : Bool) (as : List Ans) : Option Int × File :=
  let r := lseek f off seek
  if r.1 ≠ off then (some (-1), r.2) else writeLoop buf as 0 buf.length r.2

/-- `buf` with `bs` at `pos`. -/
def splice (buf : List UInt8) (pos : Nat) (bs : List UInt8) : List UInt8 := buf.take pos ++ bs ++ buf.drop (pos + bs.length)

/-- The loop of `do_read` (`src/diskio.c:498-513`); nothing is read beyond the end of the device, a result of 0 is an error. -/
def readLoop (len : Nat) : List Ans → Nat → List UInt8 → File → Option Int × List UInt8
  | as, pos, buf, f =>
    if pos < len then
      match as with
      | [] => (none, buf)
      | .eintr :: as => readLoop len as pos buf f
      | .err :: _ => (some (-1), buf)
      | .n k :: as =>
        let rv := min k (min (len - pos) (f.size - f.pos))
        if rv = 0 then (some (-1), buf)
        else readLoop len as (pos + rv) (splice buf pos (get f.dev f.pos rv)) { f with pos := f.pos + rv }
    else (some 0, buf)

/-- `do_read` (`src/diskio.c:465-559`); the second part is the buffer. -/
def doRead (f : File) (off : Nat) (buf : List UInt8) (seek : Bool) (as : List Ans) : Option Int × List UInt8 :=
  let r := lseek f off seek
  if r.1 ≠ off then (some (-1), buf) else readLoop buf.length as 0 buf r.2

/-- `disk->offset + (sector_nr * sector_size)` in 64 bits. -/
def address (diskOff nr ss : Nat) : Nat := (diskOff + nr * ss) % 2 ^ 64

/-- `_write_sectors` (`src/diskio.c:827-862`); `mem` is false if there is no memory. -/
def writeSectors' (f : File) (diskOff ss nr : Nat) (data : List UInt8) (len : Nat) (mem seek : Bool) (as : List Ans) : Option Int × File :=
  if mem then doWrite f (address diskOff nr ss) (data ++ List.replicate (len - data.length) 0) seek as else (some (-12), f)

/-- `write_sector` (`src/diskio.c:869-889`). -/
def writeSector (f : File) (diskOff : Nat) (ss : Int) (nr : Nat) (data : List UInt8) (mem seek : Bool) (as : List Ans) :
    Option Int × File :=
  if ss ≠ 4096 ∧ ss ≠ 512 then (some (-22), f)
  else if (data.length : Int) > ss then (some (-1), f)
  else writeSectors' f diskOff ss.toNat nr data ss.toNat mem seek as

/-- `write_sectors` (`src/diskio.c:893-913`): the product has 32 bits. -/
def writeSectors (f : File) (diskOff : Nat) (ss : Int) (nr count : Nat) (data : List UInt8) (mem seek : Bool) (as : List Ans) :
    Option Int × File :=
  if ss ≠ 4096 ∧ ss ≠ 512 then (some (-22), f)
  else if data.length % 2 ^ 32 ≠ count * ss.toNat % 2 ^ 32 then (some (-1), f)
  else writeSectors' f diskOff ss.toNat nr data data.length mem seek as

/-- `read_sectors` (`src/diskio.c:932-973`): the result and the first `dataLen` bytes, if they are copied to the caller.  The caller
asks for no more bytes than it reads, and for less than 2^31. -/
def readSectors (f : File) (diskOff : Nat) (ss : Int) (nr count dataLen : Nat) (mem seek : Bool) (as : List Ans) :
    Option Int × Option (List UInt8) :=
  if ss ≠ 512 ∧ ss ≠ 4096 then (some (-22), none)
  else if mem then
    match doRead f (address diskOff nr ss.toNat) (List.replicate (count * ss.toNat) 0) seek as with
    | (some 0, buf) => (some 0, some (buf.take dataLen))
    | (r, _) => (r, none)
  else (some (-12), none)

end Sanlock.SyncIo
