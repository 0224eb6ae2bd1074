import Verif.Direct
import Verif.Status

/-!
# The command line of the tool

Models `read_command_line` (`src/main.c:2192-2603`) with `parse_arg_lockspace` (`1945-2000`), `parse_arg_resource` (`2005-2078`),
`parse_arg_rentry` (`1852-1884`) and `parse_arg_rindex` (`1886-1940`), the part of `do_client` (`3163-3473`) that calls the library, and
the exit status of `main` (`3892-3987`).

Simplifications: arguments are bytes without NUL; `strdup` and `malloc` succeed; the product with `1024 * 1024` is taken modulo
`2 ^ 64`; what `getpwnam` and `getgrnam` find is a parameter; a write or a read outside a buffer is one outcome, `bad`; the actions of
`direct` are modelled in `Verif.Direct` and others, here only how their options are read; messages are left out.  The two sizes of
`-A` and `-Z` reach the library as flags, see `Verif.SizeFlags`.
-/

namespace Sanlock.CmdLine

open Strings (Str Res)

/-! ## Arguments with offsets -/

/-- `strchr`: the text before the first `c` and the text behind it. -/
def chr (c : UInt8) : Str → Option (Str × Str)
  | [] => none
  | x :: xs => if x = c then some ([], xs) else (chr c xs).map fun p => (x :: p.1, p.2)

/-- `atoll` on a buffer does not find a character where it stops. -/
def endless (buf : Str) : Bool :=
  (Strings.sign (buf.dropWhile Strings.isSpace)).2.all fun c => Strings.digit c < 10

/-- The number read from `char offstr[16]` (`src/main.c:1963-1971`, `2028-2036`), which had the bytes `fill` before `d`, the text between the
third colon and the `M`, was copied there; `none` for an access outside the buffer.  The loop tests `p == m` only after it copied one
byte and moved on, so with an empty `d` it misses the `M`. -/
def offstr (fill d : Str) : Option Nat :=
  if d = [] ∨ 16 < d.length then none
  else
    let buf := d ++ (fill.take 16).drop d.length
    if endless buf then none else some (Direct.atoll buf * 1048576 % 2 ^ 64)

/-- The text given to the library: `parse_arg_resource` keeps what follows the fourth colon (`src/main.c:2024-2053`), `parse_arg_lockspace` does
not (`1959-1985`). -/
def rewrite (fill : Str) (keep : Bool) (arg : Str) : Option Str :=
  match chr 58 arg with
  | none => some arg
  | some (a, r1) =>
    match chr 58 r1 with
    | none => some arg
    | some (b, r2) =>
      match chr 58 r2 with
      | none => some arg
      | some (c, r3) =>
        match chr 77 r3 with
        | none => some arg
        | some (d, _) =>
          match offstr fill d with
          | none => none
          | some n =>
            some (a ++ 58 :: (b ++ 58 :: (c ++ 58 :: (Strings.dec n ++
              (if keep then match chr 58 r3 with | none => [] | some (_, t) => 58 :: t else [])))))

/-- `struct sanlk_lockspace` (`src/sanlock.h:156-161`) without flags. -/
structure Ls where
  name : Str
  hostId : Nat
  path : Str
  offset : Nat
deriving DecidableEq, Repr

/-- `sanlock_str_to_lockspace` (`src/client.c:2253-2301`) into a structure that may have been filled before: a part that is not given stays. -/
def intoLs (old : Ls) (s : Str) : Option Ls :=
  let a := Direct.cut s
  match a.2 with
  | none => some { old with name := a.1.take 48 }
  | some r =>
    let b := Direct.cut r
    match b.2 with
    | none => some { old with name := a.1.take 48, hostId := Direct.atoll b.1 }
    | some r =>
      let c := Direct.cut r
      match Strings.pathImport 1024 c.1 with
      | none => none
      | some p =>
        some ⟨a.1.take 48, Direct.atoll b.1, p, match c.2 with | none => old.offset | some o => Direct.atoll o⟩

/-- `parse_arg_lockspace` (`src/main.c:1945-2000`); `fill` is what is on the stack where `offstr` is, which is not initialised. -/
def parseLockspace (fill : Str) (old : Ls) (arg : Str) : Option Ls := (rewrite fill false arg).bind (intoLs old)

/-- `parse_arg_resource` (`src/main.c:2005-2078`): the inner `none` is an error. -/
def parseResource (arg : Str) : Option (Option Res) := (rewrite (List.replicate 16 0) true arg).bind Strings.strToRes

/-- The offset of an entry or an index (`src/main.c:1866-1878`, `1927-1937`). -/
def offsetOf (s : Str) : Nat := Direct.number s

/-! ## Options -/

/-- Settings that are numbers. -/
inductive Num where
  | debug | quietFail | debugRenew | historySize | logfilePriority | syslogPriority | all | aio | workers | useWatchdog | wait
  | getHosts | highPriority | mlockLevel | sortArg | ioTimeout | bitmapSeconds | numHosts | maxHosts | pid | heData | heEvent
  | hostId | graceSeconds | graceSet | generation | forceMode | uid | gid | orphanSet | orphan | persistent | usedSet | used
  | clear | align | sector | entryOffset | indexOffset
deriving DecidableEq, Repr

/-- Settings that are texts. -/
inductive Txt where
  | filePath | hostName | entryName | indexSpace | indexPath
deriving DecidableEq, Repr

/-- `struct command_line` (`src/sanlock_internal.h:339-402`). -/
structure Com where
  num : Num → Int
  txt : Txt → Str
  ls : Ls
  res : List Res

def Com.set (c : Com) (k : Num) (v : Int) : Com := { c with num := fun j => if j = k then v else c.num j }

def Com.put (c : Com) (k : Txt) (v : Str) : Com := { c with txt := fun j => if j = k then v else c.txt j }

/-- What the meaning of some options depends on: the type and the action. -/
structure Mode where
  daemon : Bool
  /-- `ACT_GETS` or `ACT_CLIENT_READ` -/
  gets : Bool
  /-- `ACT_STATUS` -/
  status : Bool
  /-- `com.rindex_op` is set -/
  rindex : Bool
deriving DecidableEq, Repr

/-- The surroundings: users, groups and the stack. -/
structure Env where
  user : Str → Int
  group : Str → Int
  fill : Str

/-- `atoi` -/
def atoi (s : Str) : Int :=
  let r := Strings.sign (s.dropWhile Strings.isSpace)
  let v := Strings.valOf 10 (Strings.digits 10 r.2)
  Int.bmod (if r.1 then -(min v (2 ^ 63) : Nat) else (min v (2 ^ 63 - 1) : Nat)) 4294967296

/-- `parse_arg_rentry` (`src/main.c:1852-1884`). -/
def parseEntry (c : Com) (s : Str) : Com :=
  let c1 := match chr 58 s with
    | none => c
    | some (_, o) => c.set .entryOffset (offsetOf o)
  match s with
  | 58 :: _ => c1
  | _ => c1.put .entryName (((chr 58 s).map (·.1)).getD s |>.take 48)

/-- `parse_arg_rindex` (`src/main.c:1886-1940`). -/
def parseIndex (c : Com) (s : Str) : Option Com :=
  let a := Direct.cut s
  let c := c.put .indexSpace (a.1.take 48)
  match a.2 with
  | none => some c
  | some r =>
    let b := Direct.cut r
    match Strings.pathImport 1024 b.1 with
    | none => none
    | some p =>
      let c := c.put .indexPath p
      match b.2 with
      | none => some c
      | some o => some (c.set .indexOffset (offsetOf o))

/-- `-A` (`src/main.c:2523-2532`): the size, if it is one of the four. -/
def alignArg (v : Str) : Option Int :=
  if v = b! "1M" then some 1048576 else if v = b! "2M" then some 2097152 else if v = b! "4M" then some 4194304
  else if v = b! "8M" then some 8388608 else none

/-- What reading options comes to. -/
inductive Out (α : Type) where
  | ok (a : α)
  /-- `exit(EXIT_FAILURE)`, or a negative return value of `read_command_line` -/
  | fail
  /-- an access outside a buffer, or a path without terminator -/
  | bad
deriving DecidableEq, Repr

/-- One option with its value (`src/main.c:2395-2541`) except `-c` and `-D`.  `-r` beyond the eighth, and one that cannot be parsed, has no
effect: the value of `parse_arg_resource` is not used. -/
def option (e : Env) (m : Mode) (c : Com) (o : UInt8) (v : Str) : Out Com :=
  let n := atoi v
  let u : Int := Strings.strtoull v
  if o = 81 then .ok (c.set .quietFail n)                                                       -- Q
  else if o = 82 then .ok (c.set .debugRenew n)                                                 -- R
  else if o = 72 then .ok (c.set .historySize n)                                                -- H
  else if o = 76 then .ok (c.set .logfilePriority n)                                            -- L
  else if o = 83 then .ok (c.set .syslogPriority n)                                             -- S
  else if o = 70 then .ok (c.put .filePath v)                                                   -- F
  else if o = 97 then .ok ((c.set .all n).set .aio (if n = 0 then 0 else 1))                    -- a
  else if o = 116 then .ok (c.set .workers (if n < 2 then 2 else n))                            -- t
  else if o = 119 then .ok ((c.set .useWatchdog n).set .wait n)                                 -- w
  else if o = 104 then .ok (if m.gets then c.set .getHosts n else c.set .highPriority n)        -- h
  else if o = 108 then .ok (c.set .mlockLevel n)                                                -- l
  else if o = 111 then                                                                          -- o
    .ok (if m.status then c.set .sortArg ((v.headD 0).toNat) else if n > 0 then c.set .ioTimeout n else c)
  else if o = 98 then .ok (c.set .bitmapSeconds n)                                              -- b
  else if o = 110 then .ok (c.set .numHosts n)                                                  -- n
  else if o = 109 then .ok (c.set .maxHosts n)                                                  -- m
  else if o = 112 then .ok (c.set .pid n)                                                       -- p
  else if o = 100 then .ok (c.set .heData u)                                                    -- d
  else if o = 101 then                                                                          -- e
    .ok (if m.rindex then parseEntry c v else (c.put .hostName (v.take 48)).set .heEvent u)
  else if o = 105 then .ok (c.set .hostId u)                                                    -- i
  else if o = 103 then                                                                          -- g
    .ok (if m.daemon then (if n ≤ 60 ∧ n ≥ 0 then (c.set .graceSeconds n).set .graceSet 1 else c) else c.set .generation u)
  else if o = 102 then .ok (c.set .forceMode (u % 4294967296))                                  -- f
  else if o = 115 then                                                                          -- s
    match parseLockspace e.fill c.ls v with
    | none => .bad
    | some l => .ok { c with ls := l }
  else if o = 114 then                                                                          -- r
    if c.res.length ≥ 8 then .ok c
    else match parseResource v with
      | none => .bad
      | some none => .ok c
      | some (some r) => .ok { c with res := c.res ++ [r] }
  else if o = 85 then .ok (c.set .uid (e.user v))                                               -- U
  else if o = 71 then .ok (c.set .gid (e.group v))                                              -- G
  else if o = 79 then .ok ((c.set .orphanSet 1).set .orphan n)                                  -- O
  else if o = 80 then .ok (c.set .persistent n)                                                 -- P
  else if o = 117 then .ok ((c.set .usedSet 1).set .used n)                                     -- u
  else if o = 120 then                                                                          -- x
    match parseIndex c v with
    | none => .bad
    | some c => .ok c
  else if o = 122 then .ok (c.set .clear 1)                                                     -- z
  else if o = 65 then .ok (match alignArg v with | none => c | some k => c.set .align k)        -- A
  else if o = 90 then .ok (c.set .sector n)                                                     -- Z
  else .fail

/-- The check of the sizes (`src/main.c:2550-2562`). -/
def sizesOk (c : Com) : Bool :=
  (c.num .sector == 0 && c.num .align == 0) || (c.num .sector != 0 && c.num .align == 0) ||
  (c.num .sector == 512 && c.num .align == 1048576) || (c.num .sector == 4096 && c.num .align == 1048576) ||
  (c.num .sector == 4096 && c.num .align == 2097152) || (c.num .sector == 4096 && c.num .align == 4194304) ||
  (c.num .sector == 4096 && c.num .align == 8388608)

/-- The end of `read_command_line` (`src/main.c:2550-2602`): the settings and the command with its arguments. -/
def finish (c : Com) (cmd : List Str) : Out (Com × List Str) := if sizesOk c then .ok (c, cmd) else .fail

/-- The loop over the options (`src/main.c:2369-2548`). -/
def loop (e : Env) (m : Mode) : Nat → Com → List Str → Out (Com × List Str)
  | 0, _, _ => .fail
  | _ + 1, c, [] => finish c []
  | n + 1, c, p :: rest =>
    match p with
    | [d, o] =>
      if d ≠ 45 then .fail
      else if o = 68 then loop e m n (c.set .debug 1) rest
      else
        match rest with
        | [] => .fail
        | v :: rest' =>
          if o = 99 then finish c (v :: rest')
          else
            match option e m c o v with
            | .ok c => loop e m n c rest'
            | .fail => .fail
            | .bad => .bad
    | _ => .fail

def options (e : Env) (m : Mode) (c : Com) (argv : List Str) : Out (Com × List Str) := loop e m (argv.length + 1) c argv

/-! ## The client -/

/-- The actions of `sanlock client` that act on lockspaces and leases. -/
inductive Action where
  | command | addLockspace | inqLockspace | remLockspace | acquire | convert | release | request | examine | init | setEvent
  | setConfig | format | rebuild | create | delete | lookup | update | shutdown
deriving DecidableEq, Repr

/-- The name of an action (`src/main.c:2248-2318`); `write` is another name of `init`. -/
def actionOf (s : Str) : Option Action :=
  if s = b! "shutdown" then some .shutdown
  else if s = b! "add_lockspace" then some .addLockspace
  else if s = b! "inq_lockspace" then some .inqLockspace
  else if s = b! "rem_lockspace" then some .remLockspace
  else if s = b! "command" then some .command
  else if s = b! "acquire" then some .acquire
  else if s = b! "convert" then some .convert
  else if s = b! "release" then some .release
  else if s = b! "request" then some .request
  else if s = b! "examine" then some .examine
  else if s = b! "init" then some .init
  else if s = b! "write" then some .init
  else if s = b! "set_event" then some .setEvent
  else if s = b! "set_config" then some .setConfig
  else if s = b! "format" then some .format
  else if s = b! "rebuild" then some .rebuild
  else if s = b! "create" then some .create
  else if s = b! "delete" then some .delete
  else if s = b! "lookup" then some .lookup
  else if s = b! "update" then some .update
  else none

/-- The mode of a client action. -/
def modeOf (a : Action) : Mode :=
  ⟨false, false, false, a = .format ∨ a = .rebuild ∨ a = .create ∨ a = .delete ∨ a = .lookup ∨ a = .update⟩

/-- A resource given to acquire: `-n` and `-P` (`src/main.c:3174-3186`). -/
structure AcqRes where
  res : Res
  numHosts : Option Int
  persistent : Bool
deriving DecidableEq, Repr

/-- A resource index and an entry. -/
structure Index where
  space : Str
  path : Str
  offset : Int
deriving DecidableEq, Repr

/-- Calls of the library. -/
inductive Call where
  | register
  /-- `sanlock_acquire`: for the process itself (`none`) or another one, with `SANLK_ACQUIRE_ORPHAN` -/
  | acquire (pid : Option Int) (orphan : Bool) (res : List AcqRes)
  /-- `io_timeout` 0: none was given -/
  | addLockspace (ls : Ls) (ioTimeout : Int)
  | inqLockspace (ls : Ls)
  | remLockspace (ls : Ls)
  | convert (pid : Int) (res : Option Res)
  /-- with `SANLK_REL_ORPHAN` and `SANLK_REL_ALL` -/
  | release (pid : Int) (orphan all : Bool) (res : List Res)
  | request (force : Int) (res : Option Res)
  | examineLs (ls : Ls)
  | examineRes (res : Option Res)
  | writeLs (ls : Ls) (maxHosts ioTimeout sector align : Int)
  | writeRes (res : Option Res) (maxHosts numHosts : Int) (clear : Bool) (sector align : Int)
  | setEvent (space : Str) (hostId generation event data : Int)
  /-- `SANLK_CONFIG_USED`, `UNUSED`, `USED_BY_ORPHANS`, `UNUSED_BY_ORPHANS`, or 0 -/
  | setConfig (space : Str) (cmd : Nat)
  | format (x : Index) (sector align : Int)
  | rebuild (x : Index)
  | create (x : Index) (name : Str) (offset : Int)
  | delete (x : Index) (name : Str) (offset : Int)
  | lookup (x : Index) (name : Str) (offset : Int)
  | update (x : Index) (remove : Bool) (name : Str) (offset : Int)
  | shutdown (force wait : Int)
  /-- `execv` -/
  | exec (argv : List Str)
deriving DecidableEq, Repr

/-- A resource made of a lockspace name only (`src/main.c:3291-3299`). -/
def spaceRes (name : Str) : Res := ⟨name, [], 0, false, false, []⟩

/-- The resources of `release` (`src/main.c:3283-3299`). -/
def releaseRes (c : Com) : List Res :=
  if c.num .orphan ≠ 0 ∧ c.res = [] ∧ c.ls.name ≠ [] then [spaceRes c.ls.name] else c.res

/-- The resources of `acquire` and `command` (`src/main.c:3174-3186`). -/
def acqRes (c : Com) : List AcqRes :=
  c.res.map fun r => ⟨r, if c.num .numHosts ≠ 0 then some (c.num .numHosts) else none, c.num .persistent ≠ 0⟩

/-- The index of the command line. -/
def indexOf (c : Com) : Index := ⟨c.txt .indexSpace, c.txt .indexPath, c.num .indexOffset⟩

/-- The single call that an action other than `command` makes (`src/main.c:3188-3470`); `none` if a null pointer is used: `init` with
`-Z` or `-A` but neither lockspace nor resource (`3374-3378`).  The numbers of `set_config`: `src/sanlock_admin.h:146-149`. -/
def callOf (c : Com) : Action → Option Call
  | .command => none
  | .shutdown => some (.shutdown (c.num .forceMode) (c.num .wait))
  | .addLockspace => some (.addLockspace c.ls (if c.num .ioTimeout ≠ 10 then c.num .ioTimeout else 0))
  | .inqLockspace => some (.inqLockspace c.ls)
  | .remLockspace => some (.remLockspace c.ls)
  | .acquire =>
    some (.acquire (some (c.num .pid)) (c.num .orphan ≠ 0) (acqRes c))
  | .convert => some (.convert (c.num .pid) c.res.head?)
  | .release => some (.release (c.num .pid) (c.num .orphan ≠ 0) (c.num .all ≠ 0) (releaseRes c))
  | .request => some (.request (c.num .forceMode) c.res.head?)
  | .examine => some (if c.ls.path ≠ [] then .examineLs c.ls else .examineRes c.res.head?)
  | .init =>
    if c.ls.path ≠ [] then some (.writeLs c.ls (c.num .maxHosts) (c.num .ioTimeout) (c.num .sector) (c.num .align))
    else if c.res = [] ∧ (c.num .sector ≠ 0 ∨ c.num .align ≠ 0) then none
    else some (.writeRes c.res.head? (c.num .maxHosts) (c.num .numHosts) (c.num .clear ≠ 0) (c.num .sector) (c.num .align))
  | .setEvent =>
    some (.setEvent c.ls.name (c.num .hostId) (c.num .generation) (c.num .heEvent) (c.num .heData))
  | .setConfig =>
    some (.setConfig c.ls.name (if c.num .orphanSet ≠ 0 then (if c.num .orphan ≠ 0 then 4 else 8)
      else if c.num .usedSet ≠ 0 then (if c.num .used ≠ 0 then 1 else 2) else 0))
  | .format => some (.format (indexOf c) (c.num .sector) (c.num .align))
  | .rebuild => some (.rebuild (indexOf c))
  | .create => some (.create (indexOf c) (c.txt .entryName) (c.num .entryOffset))
  | .delete => some (.delete (indexOf c) (c.txt .entryName) (c.num .entryOffset))
  | .lookup => some (.lookup (indexOf c) (c.txt .entryName) (c.num .entryOffset))
  | .update => some (.update (indexOf c) (c.num .clear ≠ 0) (c.txt .entryName) (c.num .entryOffset))

/-- The end of the tool. -/
inductive End where
  /-- the exit status is `EXIT_SUCCESS` -/
  | success
  | failure
  /-- the tool has become the command -/
  | replaced
  /-- no `-c`: it sleeps and keeps what it acquired -/
  | sleeps
  /-- an access outside a buffer or through a null pointer -/
  | crash
deriving DecidableEq, Repr

/-- The exit status (`src/main.c:3986`). -/
def exitOf (rv : Int) : End := if rv = 0 then .success else .failure

/-- `do_client` (`src/main.c:3163-3473`) with the results of the calls: the calls made, and the end.  When `sanlock_register` fails, `rv` is
still zero; when `execv` returns, `rv` is the result of `sanlock_acquire`. -/
def client (a : Action) (c : Com) (cmd : List Str) (ret : Call → Int) : List Call × End :=
  match a with
  | .command =>
    if ret .register < 0 then ([.register], exitOf 0)
    else
      let acq := Call.acquire none (c.num .orphan ≠ 0) (acqRes c)
      if ret acq < 0 then ([.register, acq], exitOf (ret acq))
      else if cmd.head?.getD [] = [] then ([.register, acq], .sleeps)
      else if ret (.exec cmd) < 0 then ([.register, acq, .exec cmd], exitOf (ret acq))
      else ([.register, acq, .exec cmd], .replaced)
  | a =>
    match callOf c a with
    | none => ([], .crash)
    | some k => ([k], exitOf (ret k))

/-- The tool called with an action and options.  `c0` holds the settings before: the defaults and those of the configuration file
(`src/main.c:3915-3966`). -/
def tool (e : Env) (c0 : Com) (act : Str) (argv : List Str) (ret : Call → Int) : List Call × End :=
  match actionOf act with
  | none => ([], .failure)
  | some a =>
    match options e (modeOf a) c0 argv with
    | .fail => ([], .failure)
    | .bad => ([], .crash)
    | .ok (c, cmd) => client a c cmd ret

/-- The I/O timeout with which the daemon joins (`src/cmd.c:1327-1329`): its own setting if none was given. -/
def daemonTimeout (own given : Int) : Int := if given = 0 then own else given

/-- The settings before the options are read (`src/main.c:3915-3935`), with the `io_timeout` of the configuration file. -/
def com0 (ioTimeout : Int) : Com where
  num k := match k with
    | .useWatchdog => 1 | .graceSeconds => 40 | .mlockLevel => 1 | .workers => 8 | .ioTimeout => ioTimeout | .aio => 1 | .pid => -1
    | .quietFail => 1 | .historySize => 180 | _ => 0
  txt _ := []
  ls := ⟨[], 0, [], 0⟩
  res := []

end Sanlock.CmdLine
