import Verif.Rv

/-!
# Programs registered for host events (`src/lockspace.c`, `src/cmd.c`, `src/client.c`)

A program asks for the events of a lockspace (`sanlock_reg_event`), gets a socket back, reads events from it
(`sanlock_get_event`) and ends it (`sanlock_end_event`).  `Verif.Event` has the way of an event from host to host; here
is the last part of the way, from the daemon into the programs: the 32 places of a lockspace, the bytes on the sockets
and the calls of the library.

The three threads of the daemon that take part run side by side: the main thread runs the commands, the resource thread
sends the events, the thread of the lockspace closes the sockets at its end.

Simplifications: names of lockspaces are numbers, 0 the empty name.  What the daemon writes on a socket is a list of
32-bit words (it only writes structures made of these, `src/sanlock_sock.h:67-76`, `:99-104`, with the low half of a
64-bit number first).  A `send` of the daemon either takes the whole structure or fails, as for a local stream socket.
Every command has its own connection; connections are numbered in their order.
-/

namespace Sanlock.Regs

/-- `ENOCSI` of Linux, negated. -/
def ENOCSI : Int := -50

/-- What `sanlock_get_event` returns: `struct sanlk_host_event`, `from_host_id`, `from_generation`
(`src/sanlock.h:171-176`, `src/sanlock_sock.h:99-104`). -/
structure Note where
  host : UInt64
  gen : UInt64
  event : UInt64
  data : UInt64
  sender : UInt64
  senderGen : UInt64
deriving DecidableEq

/-- A connection made by `sanlock_reg_event`. -/
structure Sock where
  /-- words the daemon has written and the program has not read -/
  down : List Nat
  /-- bytes the program has written after its command and the daemon has not read -/
  up : List UInt8
  /-- the program has its end open -/
  op : Bool
  /-- the daemon still has to answer the command -/
  busy : Bool
  /-- the result of the daemon -/
  rv : Int
  /-- `cmd_flags` of the command -/
  fl : Nat
  /-- what `sanlock_reg_event` has returned, 0 for the socket -/
  res : Option Int
  /-- for the statements: the events the daemon has written -/
  sent : List Note
  /-- for the statements: the events `sanlock_get_event` has returned -/
  got : List Note
  /-- for the statements: an event was written before the answer -/
  early : Bool
  /-- for the statements: a write has raised `SIGPIPE` -/
  sig : Bool
deriving DecidableEq

/-- `struct space`: its name, whether it is on the list `spaces`, and `event_fds` (`src/sanlock_internal.h:222`). -/
structure Space where
  name : Nat
  live : Bool
  slots : List (Option Nat)
deriving DecidableEq

/-- The daemon: the lockspaces by `space_id`, in the order they were added, and the connections. -/
structure State where
  spaces : List Space
  socks : List Sock
deriving DecidableEq

/-- The daemon after its start. -/
def init : State := ⟨[], []⟩

/-- A 64-bit number in memory. -/
def w64 (v : UInt64) : List Nat := [v.toNat % 4294967296, v.toNat / 4294967296]

/-- `struct event_cb` as `send_event_callbacks` fills it (`src/lockspace.c:1897-1906`): magic, `SM_CB_PROTO`,
`SM_CB_GET_EVENT`, the length 80, and the event. -/
def msg (n : Note) : List Nat :=
  [69738512, 1, 1, 0, 80, 0, 0, 0] ++ w64 n.host ++ w64 n.gen ++ w64 n.event ++ w64 n.data ++ w64 n.sender ++
    w64 n.senderGen

/-- A result in `h.data`. -/
def word (rv : Int) : Nat := (rv % 4294967296).toNat

/-- `(int)h.data` -/
def ofWord (w : Nat) : Int := if w < 2147483648 then (w : Int) else (w : Int) - 4294967296

/-- The answer of `cmd_reg_event` (`src/cmd.c:2952-2954`, `:2971-2974`): the header of the command with version, length
and result set (`SM_CMD_REG_EVENT` is 30). -/
def reply (rv : Int) (fl : Nat) : List Nat := [69738512, 1, 30, fl, 32, 0, word rv, 0]

/-- The events out of 20 words as `sanlock_get_event` takes them (`src/client.c:989-994`): the header is not looked at. -/
def decode (l : List Nat) : Note :=
  let v := fun i => UInt64.ofNat (l.getD i 0 + l.getD (i + 1) 0 * 4294967296)
  ⟨v 8, v 10, v 12, v 14, v 16, v 18⟩

/-- The daemon has a descriptor of the connection in a lockspace. -/
def held (s : State) (c : Nat) : Bool := s.spaces.any fun p => p.slots.contains (some c)

/-- The daemon has its end open: the descriptor of the command (closed by `_client_free` after the answer,
`src/main.c:221-289`) or the duplicate in a lockspace. -/
def dopen (s : State) (c : Nat) (x : Sock) : Bool := x.busy || held s c

/-- `_search_space` with a name on the list `spaces` (`src/lockspace.c:121-154`). -/
def look (s : State) (n : Nat) : Option Nat := s.spaces.findIdx? fun p => p.live && p.name == n

/-- `recv` of 4 bytes in `_clean_event_fds` finds a value other than 1 (`src/lockspace.c:1716-1719`). -/
def odd (x : Sock) : Bool := decide (4 ≤ x.up.length) && !(x.up.take 4 == [1, 0, 0, 0])

/-- `_clean_event_fds` closes the socket (`src/lockspace.c:1712-1727`): there is something to read, or the end of the
stream, and not a value other than 1. -/
def gone (x : Sock) : Bool := (!x.up.isEmpty || !x.op) && !odd x

/-- The connection in a place is closed by `_clean_event_fds`. -/
def goneAt (k : List Sock) (c : Nat) : Bool := (k[c]?).any gone

/-- The places after `_clean_event_fds` (`src/lockspace.c:1698-1733`).  Written with one look at each place instead of a
loop; the connections in the places differ (`Inv.distinct`). -/
def cleanSlots (k : List Sock) (l : List (Option Nat)) : List (Option Nat) :=
  l.map fun o => o.bind fun c => if goneAt k c then none else some c

/-- The number of places it has freed (`count`). -/
def cleaned (k : List Sock) (l : List (Option Nat)) : Nat :=
  (l.filter fun o => o.any (goneAt k)).length

/-- The bytes it has read and ignored. -/
def cleanSocks (l : List (Option Nat)) (k : List Sock) : List Sock :=
  k.mapIdx fun c x => if l.contains (some c) && odd x then { x with up := x.up.drop 4 } else x

/-- `_clean_event_fds` on a lockspace. -/
def clean (s : State) (i : Nat) (p : Space) : State :=
  ⟨s.spaces.set i { p with slots := cleanSlots s.socks p.slots }, cleanSocks p.slots s.socks⟩

/-- The first free place (`src/lockspace.c:1780-1789`). -/
def put (c : Nat) : List (Option Nat) → Option (List (Option Nat))
  | [] => none
  | none :: t => some (some c :: t)
  | some d :: t => (put c t).map (some d :: ·)

/-- One pass of `lockspace_reg_event` through the places; `dup` says whether `dup` works. -/
def attempt (s : State) (i c : Nat) (dup : Bool) : Option State :=
  match s.spaces[i]? with
  | none => none
  | some p => if dup then (put c p.slots).map fun l => { s with spaces := s.spaces.set i { p with slots := l } } else none

/-- `lockspace_reg_event` (`src/lockspace.c:1759-1803`) for connection `c`. -/
def regEvent (s : State) (n c : Nat) (d1 d2 : Bool) : State × Int :=
  if n = 0 then (s, Rv.EINVAL)
  else match look s n with
    | none => (s, Rv.ENOENT)
    | some i => match attempt s i c d1 with
      | some s' => (s', 0)
      | none => match s.spaces[i]? with
        | none => (s, Rv.ENOENT)
        | some p =>
          if cleaned s.socks p.slots = 0 then (clean s i p, ENOCSI)
          else match attempt (clean s i p) i c d2 with
            | some s' => (s', 0)
            | none => (clean s i p, ENOCSI)

/-- `lockspace_end_event` (`src/lockspace.c:1742-1757`). -/
def endEvent (s : State) (n : Nat) : State × Int :=
  if n = 0 then (s, Rv.EINVAL)
  else match look s n with
    | none => (s, Rv.ENOENT)
    | some i => match s.spaces[i]? with
      | none => (s, Rv.ENOENT)
      | some p => (clean s i p, 0)

/-- A `send` of `send_event_callbacks` works: the program has its end open and there is room. -/
def takes (full : List Nat) (k : List Sock) (c : Nat) : Bool := (k[c]?).any (·.op) && !full.contains c

/-- `send_event_callbacks` (`src/lockspace.c:1887-1938`) on a lockspace found; `full` are the connections with no room. -/
def deliver (s : State) (i : Nat) (p : Space) (n : Note) (full : List Nat) : State :=
  ⟨s.spaces.set i { p with slots := p.slots.map fun o => o.bind fun c => if takes full s.socks c then some c else none },
   s.socks.mapIdx fun c x =>
     if p.slots.contains (some c) && takes full s.socks c then
       { x with down := x.down ++ msg n, sent := x.sent ++ [n], early := x.early || x.busy }
     else x⟩

/-- The rest of `sanlock_reg_event` in the program (`src/client.c:828-848`): it waits for the 32 bytes of a header. -/
def wait (s : State) (c : Nat) (x : Sock) : Sock :=
  if 8 ≤ x.down.length then
    let r := ofWord (x.down.getD 6 0)
    if r < 0 then { x with down := x.down.drop 8, res := some r, op := false }
    else { x with down := x.down.drop 8, res := some 0 }
  else if dopen s c x then x
  else { x with down := [], res := some (-1), op := false }

/-- `sanlock_get_event` (`src/client.c:970-997`). -/
def get (s : State) (c : Nat) (x : Sock) : Sock × Int :=
  if x.down.length = 0 then (x, if dopen s c x then Rv.EAGAIN else -1)
  else if x.down.length < 20 then ({ x with down := [] }, -1)
  else ({ x with down := x.down.drop 20, got := x.got ++ [decode (x.down.take 20)] }, 0)

/-- The first half of `sanlock_end_event` (`src/client.c:861-873`): the value 1 is written and the socket closed.  The
`send` has no `MSG_NOSIGNAL`. -/
def bye (s : State) (c : Nat) (x : Sock) : Sock × Option Int :=
  if dopen s c x then ({ x with up := x.up ++ [1, 0, 0, 0], op := false }, none)
  else ({ x with op := false, sig := true }, some Rv.EALREADY)

/-- What can happen. -/
inductive Ev where
  /-- a lockspace has been joined -/
  | add (n : Nat)
  /-- the main thread moves it to `spaces_rem` -/
  | leave (i : Nat)
  /-- its thread ends -/
  | shut (i : Nat)
  /-- the main thread runs `lockspace_reg_event` for a new connection -/
  | reg (n fl : Nat) (d1 d2 : Bool)
  /-- the main thread answers it -/
  | answer (c : Nat)
  /-- the program sees the answer -/
  | wait (c : Nat)
  /-- the program calls `sanlock_get_event` -/
  | get (c : Nat)
  /-- the program writes on the socket itself -/
  | write (c : Nat) (b : List UInt8)
  /-- `sanlock_end_event`, first half -/
  | bye (c : Nat)
  /-- `sanlock_end_event`, second half: `cmd_end_event` -/
  | endCmd (n : Nat)
  /-- the program closes the socket or exits -/
  | quit (c : Nat)
  /-- the resource thread sends an event -/
  | deliver (i : Nat) (n : Note) (full : List Nat)
deriving DecidableEq

/-- A change of one connection. -/
def upd (s : State) (c : Nat) (x : Sock) : State := { s with socks := s.socks.set c x }

/-- One event, with the result of the call if it is one. -/
def step (s : State) : Ev → State × Option Int
  | .add n =>
    if n ≠ 0 ∧ look s n = none then ({ s with spaces := s.spaces ++ [⟨n, true, List.replicate 32 none⟩] }, some 0)
    else (s, none)
  | .leave i => match s.spaces[i]? with
    | some p => ({ s with spaces := s.spaces.set i { p with live := false } }, none)
    | none => (s, none)
  -- `close_event_fds` (`src/lockspace.c:608-621`, `:1037`)
  | .shut i => match s.spaces[i]? with
    | some p => if p.live then (s, none) else ({ s with spaces := s.spaces.set i { p with slots := List.replicate 32 none } }, none)
    | none => (s, none)
  | .reg n fl d1 d2 =>
    let r := regEvent s n s.socks.length d1 d2
    ({ r.1 with socks := r.1.socks ++ [⟨[], [], true, true, r.2, fl, none, [], [], false, false⟩] }, some r.2)
  | .answer c => match s.socks[c]? with
    | some x => if x.busy then
        (upd s c { x with down := if x.op then x.down ++ reply x.rv x.fl else x.down, busy := false }, none) else (s, none)
    | none => (s, none)
  | .wait c => match s.socks[c]? with
    | some x => if x.op ∧ x.res = none then (upd s c (wait s c x), (wait s c x).res) else (s, none)
    | none => (s, none)
  | .get c => match s.socks[c]? with
    | some x => if x.op ∧ x.res = some 0 then (upd s c (get s c x).1, some (get s c x).2) else (s, none)
    | none => (s, none)
  | .write c b => match s.socks[c]? with
    | some x => if x.op ∧ dopen s c x then (upd s c { x with up := x.up ++ b }, none) else (s, none)
    | none => (s, none)
  | .bye c => match s.socks[c]? with
    | some x => if x.op ∧ x.res = some 0 then (upd s c (bye s c x).1, (bye s c x).2) else (s, none)
    | none => (s, none)
  | .endCmd n => ((endEvent s n).1, some (endEvent s n).2)
  | .quit c => match s.socks[c]? with
    | some x => (upd s c { x with op := false }, none)
    | none => (s, none)
  -- `find_lockspace_id` looks on `spaces` only (`src/lockspace.c:161-170`)
  | .deliver i n full => match s.spaces[i]? with
    | some p => if p.live then (deliver s i p n full, none) else (s, some Rv.ENOSPC)
    | none => (s, some Rv.ENOSPC)

/-- Any events from the start of the daemon. -/
def run (l : List Ev) : State := l.foldl (fun s e => (step s e).1) init

end Sanlock.Regs
