import Verif.OnDisk
import Verif.Rv

/-!
# Commands and replies on the connection of a registered process

Models the bytes that the library sends for a registered process (`src/client.c:73-121`, `1031-1369`), and how the daemon reads
them: `process_connection` (`src/main.c:1240-1357`), the refusals of `process_cmd_thread_registered`
(`src/main.c:1113-1237`), `client_recv_all` (`src/main.c:420-455`) and the commands `cmd_acquire`, `cmd_release`, `cmd_inquire`,
`cmd_convert`, `cmd_killpath`, `cmd_restrict` (`src/cmd.c:191-981`, `1972-2028`, `2920-2929`).

Simplifications: what a command does, and its result, is arbitrary (`Act.finish`).  The process does not close the connection and
no `send` or `recv` fails.  A reply is its result; the text after the reply to an inquiry is left out, its length is in the
header.  Numbers are in the byte order of the machine, which both sides share; little endian here.  Other commands on this
connection are not modelled further (`D.other`): the library sends them on connections of their own.
-/

namespace Sanlock.Wire

open OnDisk

/-- `struct sm_header` (`src/sanlock_sock.h`). -/
structure Hdr where
  magic : Nat
  version : Nat
  cmd : Nat
  cmdFlags : Nat
  length : Nat
  seq : Nat
  data : Nat
  data2 : Nat
deriving DecidableEq, Repr

/-- The 32 bytes of a header. -/
def Hdr.bytes (h : Hdr) : List UInt8 :=
  leBytes 4 h.magic ++ (leBytes 4 h.version ++ (leBytes 4 h.cmd ++ (leBytes 4 h.cmdFlags ++
    (leBytes 4 h.length ++ (leBytes 4 h.seq ++ (leBytes 4 h.data ++ leBytes 4 h.data2))))))

/-- Field number `i`. -/
def field (b : List UInt8) (i : Nat) : Nat := leVal ((b.drop (4 * i)).take 4)

/-- The header in 32 bytes. -/
def hdrOf (b : List UInt8) : Hdr :=
  ⟨field b 0, field b 1, field b 2, field b 3, field b 4, field b 5, field b 6, field b 7⟩

/-- A call of the library on the connection of a registered process.  A resource is the 128 bytes of `struct sanlk_resource`; for
acquire it comes with the bytes of its disks. -/
inductive Call where
  | acquire (flags : Nat) (rs : List (List UInt8 × List UInt8)) (opt : List UInt8)
  | release (flags : Nat) (rs : List (List UInt8))
  | inquire (flags : Nat)
  | convert (flags : Nat) (r : List UInt8)
  | restrict (flags : Nat)
  | killpath (flags : Nat) (path args : List UInt8)
deriving DecidableEq, Repr

/-- `num_disks`, the last field of `struct sanlk_resource` (`src/sanlock.h:98-109`). -/
def numDisks (r : List UInt8) : Nat := leVal ((r.drop 124).take 4)

/-- What the types and the checks in the library ensure (`src/client.c:1118-1145`, `1083-1095`): sizes of structures, at most 8
resources to acquire with at most 4 disks each; the paths end with a zero byte. -/
def Call.ok : Call → Prop
  | .acquire f rs opt => f < 4294967296 ∧ rs.length ≤ 8 ∧ opt.length = 56 ∧
      ∀ x ∈ rs, x.1.length = 128 ∧ numDisks x.1 ≤ 4 ∧ x.2.length = 1040 * numDisks x.1
  | .release f rs => f < 4294967296 ∧ rs.length < 16000000 ∧ ∀ x ∈ rs, x.length = 128
  | .inquire f => f < 4294967296
  | .convert f r => f < 4294967296 ∧ r.length = 128
  | .restrict f => f < 4294967296
  | .killpath f p a => f < 4294967296 ∧ p.length = 128 ∧ a.length = 128 ∧ p.drop 127 = [0] ∧ a.drop 127 = [0]

/-- The data after the header. -/
def Call.data : Call → List UInt8
  | .acquire _ rs opt => rs.flatMap (fun x => x.1 ++ x.2) ++ opt
  | .release _ rs => rs.flatten
  | .inquire _ => []
  | .convert _ r => r
  | .restrict _ => []
  | .killpath _ p a => p ++ a

def MAGIC : Nat := 0x04282010

/-- `send_header` (`src/client.c:73-88`); `data2` is -1 for the process itself. -/
def mk (cmd flags datalen data : Nat) : Hdr := ⟨MAGIC, 1, cmd, flags, 32 + datalen, 0, data, 4294967295⟩

/-- The header of each call (`src/client.c:1035`, `1097`, `1166`, `1237`, `1309`, `1354`). -/
def Call.header (c : Call) : Hdr :=
  match c with
  | .acquire f rs _ => mk 7 f c.data.length rs.length
  | .release f rs => mk 8 f (rs.length * 128) rs.length
  | .inquire f => mk 9 f 0 0
  | .convert f _ => mk 27 f 128 0
  | .restrict f => mk 10 f 0 0
  | .killpath f _ _ => mk 17 f 256 0

/-- All bytes of a call. -/
def Call.bytes (c : Call) : List UInt8 := c.header.bytes ++ c.data

/-- What the daemon does after the header: wait for `n` bytes and go on with them, read away the rest of an aborted command and
reply, or carry out a command and reply. -/
inductive Prog where
  | recv (n : Nat) (k : List UInt8 → Prog)
  | drain (rem : Int) (total : Nat) (result : Int)
  | exec (c : Call)

/-- A 32-bit unsigned number as an `int`. -/
def toInt (x : Nat) : Int := Int.bmod (x : Int) 4294967296

/-- `int rem = h_recv->length - sizeof(struct sm_header) - pos` (`src/main.c:426`). -/
def rem (h : Hdr) (pos : Nat) : Int := Int.bmod ((h.length : Int) - 32 - pos) 4294967296

/-- The resources and options of an acquire (`src/cmd.c:279-362`). -/
def acqLoop (h : Hdr) : Nat → Nat → List (List UInt8 × List UInt8) → Prog
  | 0, _, acc => .recv 56 fun opt => .exec (.acquire h.cmdFlags acc opt)
  | n + 1, pos, acc => .recv 128 fun r =>
    if numDisks r = 0 ∨ 4 < numDisks r then .drain (rem h (pos + 128)) 0 (-34)
    else .recv (numDisks r * 1040) fun d => acqLoop h n (pos + 128 + numDisks r * 1040) (acc ++ [(r, d)])

/-- The named resources of a release (`src/cmd.c:674-681`). -/
def relLoop (h : Hdr) : Nat → List (List UInt8) → Prog
  | 0, acc => .exec (.release h.cmdFlags acc)
  | n + 1, acc => .recv 128 fun r => relLoop h n (acc ++ [r])

/-- `cmd_acquire` up to the point where the input is complete (`src/cmd.c:218-383`); `early`: the process is dead or memory is
exhausted. -/
def acqProg (h : Hdr) (early : Option Int) : Prog :=
  if 8 < toInt h.data then .drain (rem h 0) 0 (-7)
  else match early with
    | some e => .drain (rem h 0) 0 e
    | none => acqLoop h (toInt h.data).toNat 0 []

/-- `cmd_release` (`src/cmd.c:595-681`).  `SANLK_REL_ALL` is 1, `SANLK_REL_RENAME` 2, `SANLK_REL_ORPHAN` 4. -/
def relProg (h : Hdr) : Prog :=
  if h.cmdFlags % 2 = 1 then .exec (.release h.cmdFlags [])
  else if h.cmdFlags / 4 % 2 = 1 then .recv 128 fun r => .exec (.release h.cmdFlags [r])
  else if h.cmdFlags / 2 % 2 = 1 then .recv 128 fun r => .recv 128 fun new => .exec (.release h.cmdFlags [r, new])
  else relLoop h h.data []

/-- A string whose last byte is set to zero (`src/cmd.c:2004-2005`). -/
def zeroLast (b : List UInt8) : List UInt8 := b.take 127 ++ [0]

/-- A command of a registered process (`src/main.c:1317-1329`, `1113-1237`); `refuse`: it is refused before it starts. -/
def regProg (h : Hdr) (refuse early : Option Int) : Prog :=
  match refuse with
  | some e => .drain (rem h 0) 0 e
  | none =>
    if h.cmd = 7 then acqProg h early
    else if h.cmd = 8 then relProg h
    else if h.cmd = 9 then .exec (.inquire h.cmdFlags)
    else if h.cmd = 27 then .recv 128 fun r => .exec (.convert h.cmdFlags r)
    else .recv 128 fun p => .recv 128 fun a => .exec (.killpath h.cmdFlags (zeroLast p) (zeroLast a))

/-- The daemon: waiting for a header, in a command, or in a command that is not modelled. -/
inductive D where
  | idle
  | run (p : Prog)
  | other (cmd : Nat)

/-- `process_connection` with a complete header (`src/main.c:1258-1340`). -/
def onHeader (restricted : Bool) (h : Hdr) (refuse early : Option Int) : D :=
  if h.magic ≠ MAGIC then .idle
  else if restricted then .idle
  else if h.version ≠ 0 ∧ h.cmd ≠ 28 ∧ h.version / 65536 > 0 then .idle
  else if h.cmd = 10 then .run (.exec (.restrict h.cmdFlags))
  else if h.cmd = 7 ∨ h.cmd = 8 ∨ h.cmd = 9 ∨ h.cmd = 27 ∨ h.cmd = 17 then .run (regProg h refuse early)
  else if 1 ≤ h.cmd ∧ h.cmd ≤ 40 then .other h.cmd
  else .idle

/-- The process: between calls, or in a call with bytes still to send; when there are none it waits for the reply. -/
inductive Cl where
  | idle
  | busy (c : Call) (rest : List UInt8)
deriving DecidableEq, Repr

structure State where
  cl : Cl
  /-- bytes sent and not read by the daemon -/
  sock : List UInt8
  d : D
  /-- `SANLK_RESTRICT_ALL` is set -/
  restricted : Bool
  /-- replies sent and not read by the process -/
  replies : List Int
  /-- what the daemon replied to: the command it carried out, if it carried out one, and the result -/
  served : List (Option Call × Int)
  /-- what the calls of the process returned -/
  hist : List (Call × Int)

def init : State := ⟨.idle, [], .idle, false, [], [], []⟩

inductive Act where
  /-- the process calls the library -/
  | call (c : Call)
  /-- the next `k` bytes arrive -/
  | deliver (k : Nat)
  /-- the daemon reads a header -/
  | header (refuse early : Option Int)
  /-- the daemon reads the bytes it waits for -/
  | recv
  /-- `client_recv_all` reads once -/
  | drain
  /-- `client_recv_all` has found nothing to read 20 times (`src/main.c:435-441`) -/
  | giveUp
  /-- the command is carried out and the result sent -/
  | finish (result : Int)
  /-- the process reads the reply (`recv_result`) -/
  | reply

/-- `send_result` -/
def answer (s : State) (o : Option Call) (result : Int) (sock : List UInt8) : State :=
  { s with d := .idle, sock := sock, replies := s.replies ++ [result], served := s.served ++ [(o, result)] }

/-- One step. -/
def step (s : State) : Act → Option State
  | .call c => match s.cl with
    | .idle => some { s with cl := .busy c c.bytes }
    | _ => none
  | .deliver k => match s.cl with
    | .busy c rest => if 0 < k ∧ k ≤ rest.length then
        some { s with cl := .busy c (rest.drop k), sock := s.sock ++ rest.take k } else none
    | _ => none
  | .header refuse early => match s.d with
    | .idle => if 32 ≤ s.sock.length then
        some { s with d := onHeader s.restricted (hdrOf (s.sock.take 32)) refuse early, sock := s.sock.drop 32 } else none
    | _ => none
  | .recv => match s.d with
    | .run (.recv n k) => if n ≤ s.sock.length then
        some { s with d := .run (k (s.sock.take n)), sock := s.sock.drop n } else none
    | _ => none
  | .drain => match s.d with
    | .run (.drain rem total result) =>
      if rem = 0 then some (answer s none result s.sock)
      else if s.sock = [] then none
      else
        let m := min 64 s.sock.length
        if rem ≤ total + m then some (answer s none result (s.sock.drop m))
        else some { s with d := .run (.drain rem (total + m) result), sock := s.sock.drop m }
    | _ => none
  | .giveUp => match s.d with
    | .run (.drain rem _ result) => if rem ≠ 0 ∧ s.sock = [] then some (answer s none result s.sock) else none
    | _ => none
  | .finish result => match s.d with
    | .run (.exec c) =>
      let s' := answer s (some c) result s.sock
      match c with
      | .restrict f => some { s' with restricted := f % 2 = 1 }
      | _ => some s'
    | _ => none
  | .reply => match s.cl, s.replies with
    | .busy c [], r :: rs => some { s with cl := .idle, replies := rs, hist := s.hist ++ [(c, r)] }
    | _, _ => none

def run (s : State) : List Act → Option State
  | [] => some s
  | a :: rest => (step s a).bind fun s' => run s' rest

end Sanlock.Wire
