import Verif.Props.Config

/-!
# Options for the fencing daemon (`fence_sanlock/fence_sanlockd.c`)

`fence_sanlockd -w` is started early and waits; when the cluster is up, the fence agent runs `fence_sanlockd -s -p PATH -i ID`, which writes the
options into a FIFO.  Bytes are numbers; `%d` writes `Config.decInt`.
-/

namespace Sanlock.FenceOpts

open Config (Str str cstr isSpace atoi decInt)

/-- What `fence_sanlockd -s` does: it exits with a message, writes outside of a buffer, or writes a line. -/
inductive Sent where
  | refused
  | overrun
  | line (s : Str)
deriving DecidableEq

/-- `memset` and `snprintf` to `fifo_line` (`fence_sanlock/fence_sanlockd.c:370-374`), all of which is written. -/
def padded (s : Str) : Str := s.take 4094 ++ List.replicate (4096 - (s.take 4094).length) 0

/-- `-p` and `-i` in `main` (`fence_sanlock/fence_sanlockd.c:544-553`), the check (590-593) and `send_options` (358-383): the line is cut by
`snprintf` and written with the zeros behind it.  `path` and `id` are the arguments, without terminating zeros. -/
def send (path id : Str) : Sent :=
  if 4096 ≤ path.length then .overrun
  else if atoi id > 128 then .refused
  else if atoi id = 0 ∨ path = [] then .refused
  else .line (padded (str "-p " ++ (path ++ (str " -i " ++ decInt (atoi id)))))

/-- `sscanf` of `n` times `%s`: the words that are stored. -/
def words : Nat → Str → List Str
  | 0, _ => []
  | n + 1, s =>
    let t := s.dropWhile isSpace
    if t = [] then [] else (t.takeWhile fun c => !isSpace c) :: words n (t.dropWhile fun c => !isSpace c)

/-- What `fence_sanlockd -w` does with the options. -/
inductive Got where
  | error
  | overrun
  | start (path : Str) (id : Int)
deriving DecidableEq

/-- The checks of `wait_options` (`fence_sanlock/fence_sanlockd.c:321-347`).  The path is never empty, because `%s` does not match nothing. -/
def options : List Str → Got
  | [key1, val1, key2, val2] =>
    if key1 ≠ str "-p" ∨ key2 ≠ str "-i" then .error
    else if atoi val2 = 0 ∨ atoi val2 > 128 then .error
    else .start (val1.take 4095) (atoi val2)
  | _ => .error

/-- `wait_options` (`fence_sanlock/fence_sanlockd.c:313-350`) when `pipe` is what has been written to the FIFO.  A line has the size of
`PIPE_BUF`, so lines are not mixed. -/
def wait (pipe : Str) : Got :=
  let buf := pipe.take 4096
  if 4096 ≤ buf.length ∧ ¬ 0 ∈ buf then .overrun
  else options (words 4 (cstr buf))

/-- What the daemon joins and acquires. -/
structure Use where
  path : Str
  hostId : Nat
  offset : Nat
deriving DecidableEq

/-- `main` (`fence_sanlock/fence_sanlockd.c:659-703`): the path is copied into `struct sanlk_disk`, which has room for 1023 bytes
(`src/sanlock.h:25`), the host id is converted to 64 bits, the offset of the lease is computed as `int`.  `none`: the copy writes outside of
the structure. -/
def use (align : Nat) (path : Str) (id : Int) : Option Use :=
  if 1024 ≤ path.length then none
  else some ⟨path, (id % 2 ^ 64).toNat, (Int.bmod (id * align) 4294967296 % 2 ^ 64).toNat⟩

end Sanlock.FenceOpts
