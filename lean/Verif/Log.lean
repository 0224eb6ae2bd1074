import Verif.Rv

/-!
# Logging (`src/log.c`)

Three parts: the text of one message, the circular buffer read by `sanlock client log_dump`, and the
circular array of entries between the callers of `log_level` and the thread that writes the log file
and syslog.  Bytes are numbers.
-/

namespace Sanlock.Log

abbrev Str := List Nat

/-! ## One message -/

/-- `LOG_STR_LEN` (`src/log.c:31`). -/
def strLen : Nat := 512

/-- The bytes stored by `snprintf(buf, room, ...)` without the terminating zero; the function returns the full length. -/
def stored (room : Nat) (s : Str) : Str := s.take (room - 1)

/--
The contents of `log_str` up to and without the terminating zero (`log_level`, `src/log.c:173-200`).  `date`, `pfx` and `msg` are the full
results of the three format strings.  `none`: the position passed the end of the room, the next `len - pos` is a huge unsigned number and the
write is outside `log_str`; or a byte at or after `LOG_STR_LEN` is stored.  `strftime` returns 0 when the date does not fit.
-/
def line (date pfx msg : Str) : Option Str :=
  let len := strLen - 2
  let d := if date.length < len then date else []
  let pos := d.length
  let t1 := d ++ stored (len - pos) pfx
  let pos := pos + pfx.length
  if pos > len then none
  else
    let t2 := t1 ++ stored (len - pos) msg
    let pos' := if msg.length ≥ len - pos then len - 1 else pos + msg.length
    if pos' + 2 > strLen then none
    else some (t2.take pos' ++ [10])

/-! ## The dump buffer -/

/-- `log_dump`, `log_point`, `log_wrap` (`src/log.c:39-41`); `LOG_DUMP_SIZE` is the length of `buf`. -/
structure Dump where
  buf : Str
  point : Nat
  wrap : Bool
deriving DecidableEq

def Dump.init (size : Nat) : Dump := ⟨List.replicate size 0, 0, false⟩

/-- One round of the loop of `_log_save_dump` (`src/log.c:80-87`). -/
def put (d : Dump) (b : Nat) : Dump :=
  let p := d.point + 1
  if p = d.buf.length then { buf := d.buf.set d.point b, point := 0, wrap := true }
  else { d with buf := d.buf.set d.point b, point := p }

/-- `_log_save_dump` (`src/log.c:65-88`). -/
def saveDump (d : Dump) (s : Str) : Dump :=
  if s.length < d.buf.length - d.point then
    let buf := d.buf.take d.point ++ s ++ d.buf.drop (d.point + s.length)
    let p := d.point + s.length
    if p = d.buf.length then { buf := buf, point := 0, wrap := true }
    else { d with buf := buf, point := p }
  else s.foldl put d

/-- `copy_log_dump` (`src/log.c:241-260`): the bytes copied for the caller. -/
def copyDump (d : Dump) : Str :=
  if d.wrap = false ∧ d.point = 0 then []
  else if d.wrap then d.buf.drop d.point ++ d.buf.take d.point
  else d.buf.take (d.point - 1)

/-! ## The entries -/

/-- `struct entry` (`src/log.c:43-46`). -/
structure Ent where
  level : Nat
  str : Str
deriving DecidableEq

/-- What `write_entry` gives to a log: the text of a message, or the text of `write_dropped` (`src/log.c:224-239`). -/
inductive Rec where
  | text (s : Str)
  | dropped (n : Nat)
deriving DecidableEq

/-- Where the log thread is (`log_thread_fn`, `src/log.c:262-298`). -/
inductive Thr where
  /-- at the test of `log_head_ent == log_tail_ent`, or waiting in it -/
  | idle
  /-- outside the mutex with a copied entry and the count of dropped messages -/
  | writing (e : Ent) (prevDropped : Nat)
  | exited
deriving DecidableEq

/-- The variables of `src/log.c:49-58`; `log_num_ents` is the length of `ents`. -/
structure St where
  ents : List Ent
  head : Nat
  tail : Nat
  dropped : Nat
  pending : Nat
  done : Bool
  thr : Thr
  /-- contents of the log file and of syslog -/
  file : List Rec
  syslog : List Rec
deriving DecidableEq

/-- `log_logfile_priority`, `log_syslog_priority`. -/
structure Prio where
  file : Nat
  syslog : Nat

def noEnt : Ent := ⟨0, []⟩

/-- After `setup_logging` (`src/log.c:300-328`). -/
def St.init (size : Nat) : St := ⟨List.replicate size noEnt, 0, 0, 0, 0, false, .idle, [], []⟩

/-- `_log_save_ent` (`src/log.c:90-108`). -/
def saveEnt (s : St) (e : Ent) : St :=
  if s.pending = s.ents.length then { s with dropped := s.dropped + 1 }
  else { s with
    ents := s.ents.set s.head e
    head := (s.head + 1) % s.ents.length
    pending := s.pending + 1 }

/-- `log_level` for the entries (`src/log.c:209-215`): a message is queued when one of the two logs wants it. -/
def logLevel (p : Prio) (s : St) (e : Ent) : St :=
  if e.level ≤ p.file ∨ e.level ≤ p.syslog then saveEnt s e else s

/-- `write_entry` (`src/log.c:224-232`); the log file is open. -/
def writeEntry (p : Prio) (s : St) (level : Nat) (r : Rec) : St :=
  let s := if level ≤ p.file then { s with file := s.file ++ [r] } else s
  if level ≤ p.syslog then { s with syslog := s.syslog ++ [r] } else s

inductive Act where
  /-- a call of `log_level` by any thread -/
  | log (e : Ent)
  /-- the log thread under the mutex: takes an entry, waits, or leaves -/
  | take
  /-- the log thread outside the mutex writes -/
  | write
  /-- `close_logging` sets `log_thread_done` (`src/log.c:330-335`) -/
  | close
deriving DecidableEq

/-- One step; `none` when the action is not possible.  The log thread waits when head and tail are equal. -/
def step (p : Prio) (s : St) : Act → Option St
  | .log e => some (logLevel p s e)
  | .take =>
    match s.thr with
    | .idle =>
      if s.head = s.tail then
        if s.done then some { s with thr := .exited } else none
      else
        some { s with
          thr := .writing (s.ents.getD s.tail noEnt) s.dropped
          tail := (s.tail + 1) % s.ents.length
          pending := s.pending - 1
          dropped := 0 }
    | _ => none
  | .write =>
    match s.thr with
    | .writing e n =>
      let s := if n = 0 then s else writeEntry p s e.level (.dropped n)
      some { writeEntry p s e.level (.text e.str) with thr := .idle }
    | _ => none
  | .close => some { s with done := true }

def run (p : Prio) (s : St) : List Act → Option St
  | [] => some s
  | a :: l => match step p s a with
    | some s' => run p s' l
    | none => none

end Sanlock.Log
