import Verif.OneShot
import Verif.Strings
import Verif.Direct

/-!
# The state commands of the tool: `status`, `host_status`, `renewal`, `log_dump`

Models both ends of the commands that show the state of the daemon: what `cmd_status`, `cmd_host_status`, `cmd_renewal` and
`cmd_log_dump` send (`src/cmd.c:2282-2872`, `src/resource.c:133-158`), byte by byte, and what the tool makes of the bytes it
receives and prints (`src/client_cmd.c:41-713`).

Simplifications: byte order is little endian on both ends, which are on one host; memory is not exhausted; the connection does not
break, but the stream may end anywhere, since the daemon may be gone; what is printed is a list of lines without their line ends; a
receive into a buffer that is smaller than the length asked for is the outcome `none`, whether or not so many bytes arrive, and so is
reading a text to the end of its buffer without a terminator.  Each of the three lists of the daemon (connections, lockspaces, leases)
is sent while it does not change (`spaces_mutex`, `resource_mutex`, the main thread), so a `Snap` has one value of each.
-/

namespace Sanlock.Status

open OnDisk OneShot

abbrev Str := List UInt8

open Lean in
/-- A text as the list of its bytes. -/
macro "b!" s:str : term => do
  let es := s.getString.toUTF8.toList.map fun c => Syntax.mkNumLit (toString c)
  `(([$(es.toArray),*] : List UInt8))

/-! ## Texts -/

/-- The digits of `%x`. -/
def hexDigit (n : Nat) : UInt8 := UInt8.ofNat (if n < 10 then 48 + n else 87 + n)

def hexLoop : Nat → Nat → Str
  | 0, _ => []
  | k + 1, n => if n < 16 then [hexDigit n] else hexLoop k (n / 16) ++ [hexDigit (n % 16)]

/-- A conversion of `printf`. -/
inductive Fmt where
  | d
  | u
  | x
deriving DecidableEq

/-- `%d`, `%u` or `%llu`, `%x`. -/
def fmt : Fmt → Int → Str
  | .d, v => if v < 0 then 45 :: Strings.dec v.natAbs else Strings.dec v.natAbs
  | .u, v => Strings.dec v.natAbs
  | .x, v => hexLoop 16 v.natAbs

/-- The characters ` key=value` of a list of keys; the values are numbered. -/
def pairs (vals : Nat → Int) : Nat → List (Str × Fmt) → Str
  | _, [] => []
  | i, (k, f) :: ks => 32 :: (k ++ 61 :: (fmt f (vals i) ++ pairs vals (i + 1) ks))

/-- `snprintf(str, SANLK_STATE_MAXSTR-1, ...)`. -/
def fit (s : Str) : Str := s.take 4094

/-- Keys of `print_state_client` (`src/cmd.c:2353-2384`); the first one is not preceded by a blank. -/
def clientKeys : List (Str × Fmt) :=
  [(b! "fd", .d), (b! "pid", .d), (b! "flags", .x), (b! "restricted", .x), (b! "cmd_active", .d), (b! "cmd_last", .d),
    (b! "pid_dead", .d), (b! "kill_count", .d), (b! "kill_last", .u), (b! "suspend", .d), (b! "need_free", .d)]

def clientText (ci : Nat) (vals : Nat → Int) : Str := fit (b! "ci=" ++ (Strings.dec ci ++ pairs vals 0 clientKeys))

/-- Keys of `print_state_lockspace` (`src/cmd.c:2386-2435`) after the name of the list. -/
def spaceKeys : List (Str × Fmt) :=
  [(b! "space_id", .u), (b! "io_timeout", .d), (b! "sector_size", .d), (b! "align_size", .d), (b! "host_generation", .u),
    (b! "renew_fail", .d), (b! "space_dead", .d), (b! "killing_pids", .d), (b! "used_retries", .u), (b! "external_used", .d),
    (b! "used_by_orphans", .d), (b! "renewal_read_extend_sec", .u), (b! "set_max_sectors_kb", .u), (b! "corrupt_result", .d),
    (b! "acquire_last_result", .d), (b! "renewal_last_result", .d), (b! "acquire_last_attempt", .u),
    (b! "acquire_last_success", .u), (b! "renewal_last_attempt", .u), (b! "renewal_last_success", .u)]

/-- Keys of `print_state_resource` (`src/cmd.c:2437-2461`) after the name of the list. -/
def resKeys : List (Str × Fmt) :=
  [(b! "flags", .x), (b! "sector_size", .d), (b! "align_size", .d), (b! "lver", .u), (b! "reused", .u), (b! "res_id", .u),
    (b! "token_id", .u)]

def listText (list : Str) (keys : List (Str × Fmt)) (vals : Nat → Int) : Str := fit (b! "list=" ++ (list ++ pairs vals 0 keys))

/-- Keys of `print_state_host` (`src/cmd.c:2463-2486`) between the first one and the name of the owner. -/
def hostKeys : List (Str × Fmt) :=
  [(b! "last_live", .u), (b! "last_req", .u), (b! "owner_id", .u), (b! "owner_generation", .u), (b! "timestamp", .u),
    (b! "io_timeout", .u)]

/-- Keys of `print_state_renewal` (`src/cmd.c:2488-2505`) after the first one. -/
def renewalKeys : List (Str × Fmt) :=
  [(b! "read_ms", .d), (b! "write_ms", .d), (b! "next_timeouts", .d), (b! "next_errors", .d)]

def renewalText (timestamp : Nat) (vals : Nat → Int) : Str :=
  fit (b! "timestamp=" ++ (Strings.dec timestamp ++ pairs vals 0 renewalKeys))

/-! ## What the daemon sends -/

/-- `struct sanlk_state` (`src/sanlock_sock.h:87-95`): 80 bytes, with alignment after `data32` and after `str_len`. -/
structure St where
  type : Nat
  flags : Nat
  data32 : Nat
  data64 : Nat
  name : Str
  strLen : Nat
deriving DecidableEq, Repr

def St.bytes (s : St) : Str :=
  leBytes 4 s.type ++ (leBytes 4 s.flags ++ (leBytes 4 s.data32 ++ (leBytes 4 0 ++ (leBytes 8 s.data64 ++ (s.name ++
    (leBytes 4 s.strLen ++ leBytes 4 0))))))

/-- The structure in 80 bytes. -/
def stOf (b : Str) : St :=
  let b1 := ((b.drop 4).drop 4)
  let b2 := ((b1.drop 4).drop 4)
  ⟨leVal (b.take 4), leVal ((b.drop 4).take 4), leVal (b1.take 4), leVal (b2.take 8), (b2.drop 8).take 48,
    leVal (((b2.drop 8).drop 48).take 4)⟩

/-- The C string in an array that may have no terminator. -/
def cstr (b : Str) : Str := b.takeWhile (· ≠ 0)

/-- `strncpy(dst, src, 48)` from a C string. -/
def strncpy (s : Str) : Str := s.take 48 ++ List.replicate (48 - s.length) 0

/-- A slot of the table of connections (`src/sanlock_internal.h:288-309`): the fields that are sent. -/
structure Conn where
  used : Bool
  pid : Int
  name : Str
  vals : Nat → Int

/-- A lockspace (`src/sanlock_internal.h:199-233`): the fields that are sent. -/
structure Space where
  name : Str
  hostId : Nat
  disk : DiskArg
  vals : Nat → Int

/-- A process using a lease: `pid` and `token_id` (`src/sanlock_internal.h:91-125`). -/
structure Token where
  pid : Int
  id : Nat

/-- `struct resource` (`src/sanlock_internal.h:136-155`): the fields that are sent. -/
structure Lease where
  r : Res
  disks : List DiskArg
  lver : Nat
  pid : Int
  tokens : List Token
  vals : Nat → Int

/-- The state of the daemon that is shown. -/
structure Snap where
  hostName : Str
  daemonText : Str
  conns : List Conn
  spaces : List Space
  spacesAdd : List Space
  spacesRem : List Space
  held : List Lease
  add : List Lease
  rem : List Lease
  orphan : List Lease

def u32 (x : Int) : Nat := (x % 4294967296).toNat

/-- A state and its text with terminator; the length of the text is set from it. -/
def sendState (s : St) (text : Str) : Str := { s with strLen := text.length + 1 }.bytes ++ (text ++ [0])

/-- `send_state_daemon` (`src/cmd.c:2507-2525`); the text of `print_state_daemon` (`2282-2351`) is any. -/
def sendDaemon (s : Snap) : Str := sendState ⟨1, 0, 0, 0, strncpy s.hostName, 0⟩ (fit s.daemonText)

/-- `send_state_client` (`src/cmd.c:2527-2546`). -/
def sendConn (ci : Nat) (c : Conn) : Str := sendState ⟨2, 0, u32 c.pid, 0, strncpy c.name, 0⟩ (clientText ci c.vals)

/-- The loop over the connections (`src/cmd.c:2674-2679`). -/
def sendConns : Nat → List Conn → Str
  | _, [] => []
  | i, c :: cs => (if c.used then sendConn i c else []) ++ sendConns (i + 1) cs

/-- `send_state_lockspace` (`src/cmd.c:2548-2575`). -/
def sendSpace (list : Str) (s : Space) : Str :=
  sendState ⟨3, 0, 0, s.hostId, strncpy s.name, 0⟩ (listText list spaceKeys s.vals) ++
    (⟨strncpy s.name, s.hostId, 0, 0, s.disk⟩ : LsArg).bytes

/-- `send_state_resource` (`src/cmd.c:2580-2608`). -/
def sendLease (list : Str) (l : Lease) (pid : Int) (token : Nat) : Str :=
  sendState ⟨4, 0, u32 pid, l.lver, strncpy (cstr l.r.rname), 0⟩
    (listText list resKeys fun i => if i = 6 then token else l.vals i) ++
    (l.r.bytes ++ (l.disks.take l.r.numDisks).flatMap DiskArg.bytes)

/-- `send_state_resources` (`src/resource.c:133-158`). -/
def sendLeases (s : Snap) : Str :=
  s.held.flatMap (fun l => l.tokens.flatMap fun t => sendLease (b! "held") l t.pid t.id) ++
    (s.add.flatMap (fun l => l.tokens.flatMap fun t => sendLease (b! "add") l t.pid t.id) ++
      (s.rem.flatMap (fun l => sendLease (b! "rem") l l.pid 0) ++
        s.orphan.flatMap (fun l => sendLease (b! "orphan") l l.pid 0)))

/-- `cmd_status` (`src/cmd.c:2651-2703`) after the header: `what` is `h_recv->data`. -/
def cmdStatus (what : Nat) (s : Snap) : Str :=
  sendDaemon s ++
    if what = 1 then []
    else sendConns 0 s.conns ++
      if what = 2 then []
      else s.spaces.flatMap (sendSpace (b! "spaces")) ++ (s.spacesAdd.flatMap (sendSpace (b! "add")) ++
          s.spacesRem.flatMap (sendSpace (b! "rem"))) ++
        if what = 3 then [] else sendLeases s

/-! ## What the tool receives -/

/-- A record: the state, its text, and the structure behind it.  Buffers are zero behind the bytes received. -/
structure Rec where
  st : St
  str : Str
  bin : Str
deriving DecidableEq, Repr

/-- Outcome of one round of the loop. -/
inductive Got where
  | stop
  | over
  | got (r : Rec) (rest : Str)

/-- One round of the loop that receives (`src/client_cmd.c:425-437`, `recv_bin` `357-373`); `cap` is the size of the buffer for the
structure. -/
def recvRec (cap : Nat) (s : Str) : Got :=
  if s.length < 80 then .stop
  else
    let st := stOf (s.take 80)
    let s1 := s.drop 80
    if st.strLen > 4096 then .over
    else if s1.length < st.strLen then .stop
    else
      let str := s1.take st.strLen
      let s2 := s1.drop st.strLen
      if st.type = 3 then
        if 1104 > cap then .over else .got ⟨st, str, s2.take 1104⟩ (s2.drop 1104)
      else if st.type = 4 then
        let n := 128 + Wire.numDisks s2 * 1040
        if n > cap then .over else .got ⟨st, str, s2.take n⟩ (s2.drop n)
      else .got ⟨st, str, []⟩ s2

/-- At most `fuel` records. -/
def collect (cap : Nat) : Nat → Str → Option (List Rec)
  | 0, _ => some []
  | fuel + 1, s =>
    match recvRec cap s with
    | .stop => some []
    | .over => none
    | .got r rest => (collect cap fuel rest).map (r :: ·)

/-! ## What the tool prints -/

/-- The C string in a buffer of `cap` bytes. -/
def cstrIn (cap : Nat) (b : Str) : Option Str :=
  if cap ≤ b.length ∧ 0 ∉ b.take cap then none else some (cstr (b.take cap))

/-- `strstr(hay, needle)` is not NULL. -/
def strstr : Str → Str → Bool
  | [], n => n.isPrefixOf []
  | c :: s, n => n.isPrefixOf (c :: s) || strstr s n

/-- `add_rem_str` (`src/client_cmd.c:96-109`), with the blank of the caller; `none` for a text without terminator. -/
def label (r : Rec) : Option Str :=
  if r.st.strLen = 0 then some []
  else
    (cstrIn 4096 r.str).map fun s =>
      if strstr s (b! "list=add") then b! " ADD"
      else if strstr s (b! "list=rem") then b! " REM"
      else if strstr s (b! "list=orphan") then b! " ORPHAN"
      else []

/-- Pieces between blanks. -/
def pieces : Str → Str → List Str
  | cur, [] => [cur]
  | cur, c :: s => if c = 32 then cur :: pieces [] s else pieces (cur ++ [c]) s

/-- `print_debug` (`src/client_cmd.c:41-57`): the text is taken apart at the blanks ahead of its last byte. -/
def printDebug (r : Rec) (debug : Bool) : List Str :=
  if r.st.strLen = 0 ∨ debug = false then []
  else (pieces [] (r.str.take (r.st.strLen - 1))).map fun p => b! "    " ++ cstr p

/-- `status_daemon` (`src/client_cmd.c:79-85`). -/
def printDaemon (r : Rec) (debug : Bool) : Option (List Str) :=
  some ((b! "daemon " ++ cstr r.st.name) :: printDebug r debug)

/-- A `uint32_t` printed with `%d`. -/
def asInt (n : Nat) : Int := Int.bmod n 4294967296

/-- `status_client` (`src/client_cmd.c:87-94`). -/
def printConn (r : Rec) (debug : Bool) : Option (List Str) :=
  some ((b! "p " ++ (fmt .d (asInt r.st.data32) ++ 32 :: cstr r.st.name)) :: printDebug r debug)

/-- A path and an offset (`src/client_cmd.c:121-128`, `152-159`). -/
def diskText (l : Loc) : Option Str :=
  (cstrIn 1024 l.path).map fun p => 58 :: (Strings.pathExport 1025 p ++ 58 :: Strings.dec l.offset)

/-- `status_lockspace` (`src/client_cmd.c:115-138`). -/
def printSpace (r : Rec) (debug : Bool) : Option (List Str) :=
  let ls := lsOf r.bin
  match diskText ls.loc, label r with
  | some d, some a =>
    some ((b! "s " ++ (cstr ls.name ++ (58 :: (Strings.dec ls.hostId ++ (d ++ a))))) :: printDebug r debug)
  | _, _ => none

/-- The loop over the disks (`src/client_cmd.c:152-159`). -/
def disksText : Nat → Str → Option Str
  | 0, _ => some []
  | n + 1, b =>
    match diskText (locOf (b.take 1040)), disksText n (b.drop 1040) with
    | some d, some ds => some (d ++ ds)
    | _, _ => none

/-- `SANLK_RES_SHARED` (`src/sanlock.h:88`). -/
def shared (flags : Nat) : Bool := flags / 4 % 2 = 1

/-- `status_resource` (`src/client_cmd.c:140-172`). -/
def printLease (r : Rec) (debug : Bool) : Option (List Str) :=
  let res := resOf (r.bin.take 128)
  match disksText res.numDisks (r.bin.drop 128), label r with
  | some d, some a =>
    some ((b! "r " ++ (cstr res.lname ++ 58 :: (cstr res.rname ++ (d ++ (58 :: (
      (if shared res.flags then b! "SH" else Strings.dec r.st.data64) ++ (b! " p " ++ (Strings.dec r.st.data32 ++ a)))))))) ::
      printDebug r debug)
  | _, _ => none

/-- `print_st` (`src/client_cmd.c:183-199`). -/
def printRec (debug : Bool) (r : Rec) : Option (List Str) :=
  if r.st.type = 1 then printDaemon r debug
  else if r.st.type = 2 then printConn r debug
  else if r.st.type = 3 then printSpace r debug
  else if r.st.type = 4 then printLease r debug
  else some []

def printAll (debug : Bool) : List Rec → Option (List Str)
  | [] => some []
  | r :: rs =>
    match printRec debug r, printAll debug rs with
    | some a, some b => some (a ++ b)
    | _, _ => none

/-- `sanlock_status` without sorting (`src/client_cmd.c:399-452`): the lines printed. -/
def status (debug : Bool) (stream : Str) : Option (List Str) :=
  (collect 4096 stream.length stream).bind (printAll debug)

/-- `sanlock_str_to_lockspace` (`src/client.c:2253-2301`) into a cleared structure: name, host id, path, offset; `none` if the path gets no
terminator. -/
def strToLs (s : Str) : Option (Str × Nat × Str × Nat) :=
  let a := Direct.cut s
  let b := (a.2.map Direct.cut).getD ([], none)
  let c := (b.2.map Direct.cut).getD ([], none)
  (Strings.pathImport 1024 c.1).map fun p => (a.1.take 48, Direct.atoll b.1, p, Direct.atoll (c.2.getD []))

/-! ### Sorting -/

/-- Print and free the entries that fulfil a condition: `print_type` (`src/client_cmd.c:206-227`), `print_p` (`229-253`) and
`print_r` (`275-303`). -/
def pick (f : Rec → Bool) : List (Option Rec) → List Rec × List (Option Rec)
  | [] => ([], [])
  | none :: l => ((pick f l).1, none :: (pick f l).2)
  | some r :: l => if f r then (r :: (pick f l).1, none :: (pick f l).2) else ((pick f l).1, some r :: (pick f l).2)

/-- The condition of `print_type`. -/
def ofType (t : Nat) (r : Rec) : Bool := t = 0 || r.st.type = t

/-- The condition of `print_p(-1)`. -/
def noPid (r : Rec) : Bool := r.st.type = 2 && r.st.data32 = 4294967295

/-- The condition of `print_r(p, NULL)`. -/
def ofPid (p : Nat) (r : Rec) : Bool := r.st.type = 4 && (p ≠ 0 && r.st.data32 = p)

/-- The condition of `print_r(0, s)`. -/
def ofSpace (s : Str) (r : Rec) : Bool := r.st.type = 4 && cstr s = cstr (resOf (r.bin.take 128)).lname

/-- `find_type` (`src/client_cmd.c:255-273`): the first entry of a type, and the array without it. -/
def find (t : Nat) : List (Option Rec) → Option (Rec × List (Option Rec))
  | [] => none
  | none :: l => (find t l).map fun x => (x.1, none :: x.2)
  | some r :: l => if r.st.type = t then some (r, none :: l) else (find t l).map fun x => (x.1, some r :: x.2)

/-- `print_r_by_p` (`src/client_cmd.c:305-329`) and `print_r_by_s` (`331-355`).  The entry found is freed after the leases are printed,
which do not have its type. -/
def by_ (t : Nat) (f : Rec → Rec → Bool) : Nat → List (Option Rec) → List Rec × List (Option Rec)
  | 0, a => ([], a)
  | fuel + 1, a =>
    match find t a with
    | none => ([], a)
    | some (r, a) => (r :: ((pick (f r) a).1 ++ (by_ t f fuel (pick (f r) a).2).1), (by_ t f fuel (pick (f r) a).2).2)

/-- The records in the order in which they are printed (`src/client_cmd.c:454-472`): those ahead of the line `-`, and those behind it
if there is such a line.  `sort_done < sort_count` says that some are left. -/
def order (byPid : Bool) (recs : List Rec) : List Rec × List Rec :=
  let a0 := recs.map some
  let p1 := pick (ofType 1) a0
  let p2 := pick noPid p1.2
  let p3 := pick (ofType (if byPid then 3 else 2)) p2.2
  let p4 := if byPid then by_ 2 (fun c => ofPid c.st.data32) recs.length p3.2
    else by_ 3 (fun s => ofSpace s.st.name) recs.length p3.2
  let p5 := pick (ofType 0) p4.2
  (p1.1 ++ (p2.1 ++ (p3.1 ++ p4.1)), p5.1)

/-- `sanlock_status` with sorting.  The buffer of a record has room for three times 4096 bytes behind its text. -/
def sorted (byPid debug : Bool) (stream : Str) : Option (List Str) :=
  match collect 12288 1025 stream with
  | none => none
  | some recs =>
    if recs.length > 1024 then some [b! "cannot sort over 1024"]
    else
      let o := order byPid recs
      match printAll debug o.1, printAll debug o.2 with
      | some a, some b => some (a ++ (if o.2 = [] then [] else [b! "-"]) ++ b)
      | _, _ => none

/-! ## Hosts -/

/-- `struct host_status` (`src/sanlock_internal.h:171-183`). -/
structure Host where
  lastCheck : Nat
  lastLive : Nat
  lastReq : Nat
  ownerId : Nat
  ownerGen : Nat
  timestamp : Nat
  ioTimeout : Nat
  ownerName : Str
deriving DecidableEq, Repr

def Host.vals (h : Host) : Nat → Int
  | 0 => h.lastLive
  | 1 => h.lastReq
  | 2 => h.ownerId
  | 3 => h.ownerGen
  | 4 => h.timestamp
  | _ => h.ioTimeout

def hostText (h : Host) : Str :=
  fit (b! "last_check=" ++ (Strings.dec h.lastCheck ++ (pairs h.vals 0 hostKeys ++ (b! " owner_name=" ++ cstr h.ownerName))))

/-- `send_state_host` (`src/cmd.c:2610-2629`). -/
def sendHost (id : Nat) (h : Host) : Str := sendState ⟨5, 0, id, h.timestamp, List.replicate 48 0, 0⟩ (hostText h)

/-- The loop over the hosts (`src/cmd.c:2748-2753`). -/
def sendHosts : Nat → List Host → Str
  | _, [] => []
  | i, h :: hs => (if h.lastLive = 0 ∧ h.ownerId = 0 then [] else sendHost (i + 1) h) ++ sendHosts (i + 1) hs

/-- A lockspace with its table of hosts. -/
structure SpaceH where
  name : Str
  hosts : List Host

/-- `find_lockspace` (`src/lockspace.c:156-159`). -/
def findSpace (name : Str) (l : List SpaceH) : Option SpaceH := l.find? fun s => s.name = cstr (name.take 48)

/-- `cmd_host_status` (`src/cmd.c:2705-2764`): the result in the header, and the bytes behind it.  `name` are the 48 bytes received. -/
def cmdHosts (name : Str) (l : List SpaceH) : Int × Str :=
  match findSpace name l with
  | none => (-28, [])
  | some s => (0, sendHosts 0 s.hosts)

/-- `status_host` (`src/client_cmd.c:174-181`). -/
def printHost (debug : Bool) (r : Rec) : List Str :=
  if r.st.type = 5 then (Strings.dec r.st.data32 ++ (b! " timestamp " ++ Strings.dec r.st.data64)) :: printDebug r debug else []

/-- One round of the loop of `lockspace_host_status` and `sanlock_renewal` (`src/client_cmd.c:511-521`, `640-650`), without structure. -/
def recvText (s : Str) : Got :=
  if s.length < 80 then .stop
  else
    let st := stOf (s.take 80)
    let s1 := s.drop 80
    if st.strLen > 4096 then .over
    else if s1.length < st.strLen then .stop
    else .got ⟨st, s1.take st.strLen, []⟩ (s1.drop st.strLen)

def texts : Nat → Str → Option (List Rec)
  | 0, _ => some []
  | fuel + 1, s =>
    match recvText s with
    | .stop => some []
    | .over => none
    | .got r rest => (texts fuel rest).map (r :: ·)

/-- The name put into the request (`src/client_cmd.c:494-495`): `snprintf(lockspace.name, 48, "%s", name)`. -/
def askName (name : Str) : Str := strncpy (name.take 47)

/-- `lockspace_host_status` (`src/client_cmd.c:479-535`): the lines printed and the result. -/
def hostStatusOf (debug : Bool) (name : Str) (l : List SpaceH) : Option (List Str × Int) :=
  if name = [] then some ([], -1)
  else
    let reply := cmdHosts (askName name) l
    (texts reply.2.length reply.2).map fun rs => (rs.flatMap (printHost debug), reply.1)

/-- `strdup(ls->name)` (`src/client_cmd.c:592`): the name is followed by the host id; `none` if there is no terminator in either. -/
def dupName (bin : Str) : Option Str := cstrIn 56 bin

/-- The names kept by `sanlock_host_status` (`src/client_cmd.c:567-593`); more than 1024 do not fit into `sort_bufs`. -/
def spaceNames (recs : List Rec) : Option (List Str) :=
  let l := (recs.filter fun r => r.st.type = 3).map fun r => dupName (r.bin ++ List.replicate 56 0)
  if l.length > 1024 ∨ none ∈ l then none else some (l.filterMap id)

/-- The lines for each lockspace (`src/client_cmd.c:597-601`).  The table is asked again for each of them. -/
def eachSpace (debug : Bool) (l : List SpaceH) : List Str → Option (List Str)
  | [] => some []
  | n :: ns =>
    match hostStatusOf debug n l, eachSpace debug l ns with
    | some a, some b => some ((b! "lockspace " ++ n) :: (a.1 ++ b))
    | _, _ => none

/-- `sanlock_host_status` without a name (`src/client_cmd.c:537-606`). -/
def hostStatus (debug : Bool) (stream : Str) (l : List SpaceH) : Option (List Str) :=
  ((collect 4096 stream.length stream).bind spaceNames).bind (eachSpace debug l)

/-! ## Renewals and the log -/

/-- `send_state_renewal` (`src/cmd.c:2631-2649`) of an entry with its time and numbers. -/
def sendRenewal (e : Nat × (Nat → Int)) : Str :=
  sendState ⟨6, 0, 0, e.1, List.replicate 48 0, 0⟩ (renewalText e.1 e.2)

/-- `sanlock_renewal` (`src/client_cmd.c:608-660`) on the entries sent by `cmd_renewal`: the buffer is not cleared, so a text without
terminator would be followed by an older one (`none`). -/
def renewals (stream : Str) : Option (List Str) :=
  (texts stream.length stream).bind fun rs =>
    if rs.all fun r => r.str.contains 0 then some (rs.map fun r => cstr r.str) else none

/-- `sanlock_log_dump` (`src/client_cmd.c:662-713`) of a reply with `data` in the header: the text printed.  `max` is the size of the
buffer, which is cleared first. -/
def logDump (max : Nat) (data : Int) (stream : Str) : Option Str :=
  if data ≤ 0 ∨ data > max then some []
  else
    let got := stream.take data.toNat
    if got = [] then some [] else cstrIn max got

end Sanlock.Status
