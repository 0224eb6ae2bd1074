import Verif.Rv

/-!
# The configuration file

Models `read_config_file` with `get_val_int` and `get_val_str` (`src/main.c:2717-2944`) on the bytes of `/etc/sanlock/sanlock.conf`.
The library functions `fgets`, `sscanf("%[^=]=%s")`, `atoi` and `isspace` are written out as the C library defines them for the C locale, with
a 64-bit `long`.

Simplifications: bytes are numbers.  The lines `debug_io` and `debug_cmd` (`src/main.c:2883-2906`), which change only what is
logged, do nothing here.  `user_to_uid` and `group_to_gid` are left out: the name is kept.
-/

namespace Sanlock.Config

abbrev Str := List Nat

/-- The characters of a literal. -/
def str (s : String) : Str := s.toList.map Char.toNat

/-- `fgets(line, room + 1, file)`: the bytes of the line and those that stay in the file. -/
def getLine : Nat → Str → Str × Str
  | 0, s => ([], s)
  | _ + 1, [] => ([], [])
  | n + 1, c :: s => if c = 10 then ([10], s) else (c :: (getLine n s).1, (getLine n s).2)

/-- `MAX_CONF_LINE - 1` (`src/main.c:2717`). -/
def room : Nat := 127

/-- The bytes up to the terminating zero. -/
def cstr (s : Str) : Str := s.takeWhile (· ≠ 0)

/-- `isspace` -/
def isSpace (c : Nat) : Bool := c = 32 || (9 ≤ c && c ≤ 13)

/-- The loop that takes the first word of a line (`src/main.c:2774-2786`). -/
def word (line : Str) : Str :=
  (cstr line).takeWhile fun c => !(c = 32 || c = 61 || c = 10 || c = 9)

/-- `sscanf(line, "%[^=]=%s", key, val)`: `val` when it returns 2 (`src/main.c:2719-2743`). -/
def scan (line : Str) : Option Str :=
  let s := cstr line
  let key := s.takeWhile (· ≠ 61)
  if key = [] then none
  else match s.dropWhile (· ≠ 61) with
    | [] => none
    | _ :: rest =>
      let v := (rest.dropWhile isSpace).takeWhile fun c => !isSpace c
      if v = [] then none else some v

/-- The digits at the beginning, as a number. -/
def digits (s : Str) : Nat := (s.takeWhile fun c => 48 ≤ c && c ≤ 57).foldl (fun a c => a * 10 + (c - 48)) 0

/-- `atoi`: `strtol`, which stops at the limits of `long`, cut to an `int`. -/
def atoi (s : Str) : Int :=
  let t := s.dropWhile isSpace
  let v : Int := match t with
    | 45 :: r => max (-(digits r : Int)) (-9223372036854775808)
    | 43 :: r => min (digits r : Int) 9223372036854775807
    | r => min (digits r : Int) 9223372036854775807
  Int.bmod v 4294967296

/-- The settings that are numbers. -/
inductive Key where
  | quietFail | debugRenew | useAio | logfilePriority | logfileUseUtc | syslogPriority | namesLogPriority | useWatchdog
  | ioTimeout | watchdogFireTimeout | killGraceSeconds | highPriority | mlockLevel | shRetries | renewalReadExtendSec
  | writeInitIoTimeout | renewalHistorySize | paxosDebugAll | debugClients | maxWorkerThreads
deriving DecidableEq, Repr

/-- In the order in which the code compares. -/
def keys : List (Key × Str) :=
  [(.quietFail, str "quiet_fail"), (.debugRenew, str "debug_renew"), (.useAio, str "use_aio"),
   (.logfilePriority, str "logfile_priority"), (.logfileUseUtc, str "logfile_use_utc"),
   (.syslogPriority, str "syslog_priority"), (.namesLogPriority, str "names_log_priority"),
   (.useWatchdog, str "use_watchdog"), (.ioTimeout, str "io_timeout"),
   (.watchdogFireTimeout, str "watchdog_fire_timeout"), (.killGraceSeconds, str "kill_grace_seconds"),
   (.highPriority, str "high_priority"), (.mlockLevel, str "mlock_level"), (.shRetries, str "sh_retries"),
   (.renewalReadExtendSec, str "renewal_read_extend_sec"), (.writeInitIoTimeout, str "write_init_io_timeout"),
   (.renewalHistorySize, str "renewal_history_size"), (.paxosDebugAll, str "paxos_debug_all"),
   (.debugClients, str "debug_clients"), (.maxWorkerThreads, str "max_worker_threads")]

/-- What happens to `max_sectors_kb` of the devices (`com.max_sectors_kb_ignore`, `_align`, `_num`). -/
inductive Sectors where
  | ignore
  | align
  | num (kb : Int)
deriving DecidableEq, Repr

/-- The part of `struct command_line` that the file sets, with the priorities of `src/log.c`. -/
structure Conf where
  int : Key → Int
  killGraceSet : Bool
  readExtendSet : Bool
  uname : Option Str
  gname : Option Str
  hostName : Str
  sectors : Sectors

/-- The local variables that live longer than one line: `val`, uninitialised at first (`src/main.c:2752`). -/
structure St where
  conf : Conf
  val : Option Int

/-- Assign the number read to a setting (`src/main.c:2788-2937`). -/
def assign (c : Conf) (k : Key) (v : Int) : Conf :=
  let put (x : Int) : Conf := { c with int := fun j => if j = k then x else c.int j }
  match k with
  | .ioTimeout | .watchdogFireTimeout | .writeInitIoTimeout => if v > 0 then put v else c
  | .killGraceSeconds => if v ≤ 60 ∧ v ≥ 0 then { put v with killGraceSet := true } else c
  | .renewalReadExtendSec => { put (v % 4294967296) with readExtendSet := true }
  | .maxWorkerThreads => put (if v < 2 then 2 else v)
  | _ => put v

/-- `strstr(s, t)` -/
def hasSub (t : Str) : Str → Bool
  | [] => t.isEmpty
  | c :: s => t.isPrefixOf (c :: s) || hasSub t s

/-- The setting of `max_sectors_kb` (`src/main.c:2908-2931`). -/
def setSectors (c : Conf) (v : Str) : Conf :=
  if hasSub (str "ignore") v then { c with sectors := .ignore }
  else if hasSub (str "align") v then { c with sectors := .align }
  else match v with
    | d :: _ => if 48 ≤ d ∧ d ≤ 57 then
        if atoi v = 0 ∨ atoi v % 2 ≠ 0 ∨ atoi v > 8192 then c else { c with sectors := .num (atoi v) }
      else c
    | [] => c

/-- One line (`src/main.c:2765-2940`); `none` when the uninitialised variable `val` is read. -/
def doLine (s : St) (line : Str) : Option St :=
  if line.head? = some 35 ∨ line.head? = some 10 then some s
  else
    let w := word line
    match keys.find? (fun p => p.2 = w) with
    | some (k, _) =>
      let val := match scan line with
        | some v => some (atoi v)
        | none => s.val
      match val with
      | none => none
      | some v => some { conf := assign s.conf k v, val := if k = .maxWorkerThreads ∧ v < 2 then some 2 else some v }
    | none =>
      let v := (scan line).getD []
      if w = str "uname" then some { s with conf := { s.conf with uname := some v } }
      else if w = str "gname" then some { s with conf := { s.conf with gname := some v } }
      else if w = str "our_host_name" then some { s with conf := { s.conf with hostName := v.take 48 } }
      else if w = str "max_sectors_kb" then some { s with conf := setSectors s.conf v }
      else some s

/-- The loop `while (fgets(...))` (`src/main.c:2764`); the number bounds the rounds. -/
def loop : Nat → St → Str → Option St
  | 0, s, _ => some s
  | _ + 1, s, [] => some s
  | n + 1, s, b :: file =>
    match doLine s (getLine room (b :: file)).1 with
    | none => none
    | some s' => loop n s' (getLine room (b :: file)).2

/-- `read_config_file`: every line has at least one byte. -/
def readConfig (c : Conf) (file : Str) : Option Conf :=
  (loop file.length ⟨c, none⟩ file).map (·.conf)

end Sanlock.Config
