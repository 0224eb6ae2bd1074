/-!
# Resource strings (`src/client.c:1834-2310`)

C strings are lists of non zero bytes.  Reading an array past its end or writing past the end of a buffer is the outcome
`none`.
-/

namespace Sanlock.Strings

abbrev Str := List UInt8

def BACKSLASH : UInt8 := 92
def COLON : UInt8 := 58
def SPACE : UInt8 := 32

/-- `SANLK_NAME_LEN`, `SANLK_PATH_LEN`, `SANLK_MAX_DISKS`, `SANLK_MAX_RES_STR` (`src/sanlock.h:20-49`). -/
def NAME_LEN : Nat := 48
def PATH_LEN : Nat := 1024
def MAX_DISKS : Nat := 4
def MAX_RES_STR : Nat := 4400

/-- `struct sanlk_disk`, the used fields (`src/sanlock.h:54-59`).  The path includes its terminator. -/
structure Disk where
  path : Str
  offset : Nat
deriving DecidableEq, Repr

/-- `struct sanlk_resource` (`src/sanlock.h:98-109`).  A name of 48 bytes has no terminator.  Of the flags only
SANLK_RES_LVER and SANLK_RES_SHARED take part in the conversion. -/
structure Res where
  space : Str
  name : Str
  lver : Nat
  hasLver : Bool
  shared : Bool
  disks : List Disk
deriving DecidableEq, Repr

/-- The loop of `sanlock_path_export` (`src/client.c:1840-1891`), with what was written so far. -/
def exportLoop (dstlen : Nat) : Str → Str → Str
  | [], acc => acc
  | [c], acc =>
    if c = BACKSLASH then
      if acc.length > dstlen - 3 then acc else acc ++ [c]
    else if c = SPACE ∨ c = COLON then
      if acc.length > dstlen - 3 then acc else acc ++ [BACKSLASH, c]
    else if acc.length > dstlen - 2 then acc else acc ++ [c]
  | c :: c' :: rest, acc =>
    if c = BACKSLASH then
      if acc.length > dstlen - 3 then acc else exportLoop dstlen rest (acc ++ [c, c'])
    else if c = SPACE ∨ c = COLON then
      if acc.length > dstlen - 3 then acc else exportLoop dstlen (c' :: rest) (acc ++ [BACKSLASH, c])
    else if acc.length > dstlen - 2 then acc
    else exportLoop dstlen (c' :: rest) (acc ++ [c])

def pathExport (dstlen : Nat) (src : Str) : Str := exportLoop dstlen src []

/-- `sanlock_path_import` (`src/client.c:1895-1915`): the string in the destination, `none` if it got no terminator. -/
def importLoop (dstlen : Nat) : Str → Str → Option Str
  | src, acc =>
    if acc.length < dstlen then
      match src with
      | [] => some acc
      | c :: rest => if c = BACKSLASH then importLoop dstlen rest acc else importLoop dstlen rest (acc ++ [c])
    else none
termination_by src => src.length

def pathImport (dstlen : Nat) (src : Str) : Option Str := importLoop dstlen src []

/-- The digits of `%llu`. -/
def dec (n : Nat) : Str :=
  if n < 10 then [UInt8.ofNat (48 + n)] else dec (n / 10) ++ [UInt8.ofNat (48 + n % 10)]
termination_by n
decreasing_by omega

/-- The text of all disks in `sanlock_res_to_str` (`src/client.c:1948-1958`), with the length checks; `pos` is the
current length.  The outer `none` does not occur here; the inner one is the failure. -/
def disksToStr : List Disk → Str → Option Str
  | [], acc => some acc
  | d :: ds, acc =>
    let s := [COLON] ++ pathExport (PATH_LEN + 1) d.path ++ [COLON] ++ dec d.offset
    if s.length ≥ MAX_RES_STR - acc.length then none else disksToStr ds (acc ++ s)

/-- `sanlock_res_to_str` (`src/client.c:1923-1978`): `none` if a name without terminator is printed with `%s`,
`some none` for -EINVAL.  Allocation failures are not modelled. -/
def resToStr (r : Res) : Option (Option Str) :=
  if r.space.length ≥ NAME_LEN ∨ r.name.length ≥ NAME_LEN then none
  else
    let s := r.space ++ [COLON] ++ r.name
    if s.length ≥ MAX_RES_STR then some none
    else
      match disksToStr r.disks s with
      | none => some none
      | some s =>
        let t := if r.shared then [COLON, 83, 72] else [COLON] ++ dec r.lver
        if t.length > MAX_RES_STR - s.length then some none
        else some (some (s ++ t))

/-- White space of the C library in the "C" locale. -/
def isSpace (c : UInt8) : Bool := c == 32 || (9 ≤ c && c ≤ 13)

/-- Value of a digit. -/
def digit (c : UInt8) : Nat :=
  if 48 ≤ c ∧ c ≤ 57 then c.toNat - 48
  else if 97 ≤ c ∧ c ≤ 122 then c.toNat - 87
  else if 65 ≤ c ∧ c ≤ 90 then c.toNat - 55
  else 255

/-- The leading digits of a string in a base. -/
def digits (base : Nat) : Str → List Nat
  | [] => []
  | c :: cs => if digit c < base then digit c :: digits base cs else []

/-- The number denoted by digits. -/
def valOf (base : Nat) (ds : List Nat) : Nat := ds.foldl (fun a d => a * base + d) 0

/-- `strtoull` saturates. -/
def clamp (n : Nat) : Nat := if n < 2 ^ 64 then n else 2 ^ 64 - 1

/-- Optional sign of `strtoull`. -/
def sign : Str → Bool × Str
  | 43 :: cs => (false, cs)
  | 45 :: cs => (true, cs)
  | cs => (false, cs)

/-- Negation in `unsigned long long`, unless saturated. -/
def negate (neg : Bool) (n : Nat) : Nat :=
  if neg ∧ n < 2 ^ 64 then (2 ^ 64 - n) % 2 ^ 64 else clamp n

/-- `sscanf(sub, "%llu")`: `none` if nothing is converted. -/
def scanDec (s : Str) : Option Nat :=
  let (neg, s) := sign (s.dropWhile isSpace)
  match digits 10 s with
  | [] => none
  | ds => some (negate neg (valOf 10 ds))

/-- The base chosen by `strtoull` with base zero, and the rest of the string. -/
def baseOf : Str → Nat × Str
  | 48 :: 120 :: c :: cs => if digit c < 16 then (16, c :: cs) else (8, 48 :: 120 :: c :: cs)
  | 48 :: 88 :: c :: cs => if digit c < 16 then (16, c :: cs) else (8, 48 :: 88 :: c :: cs)
  | 48 :: cs => (8, 48 :: cs)
  | cs => (10, cs)

/-- `strtoull(sub, NULL, 0)`. -/
def strtoull (s : Str) : Nat :=
  let (neg, s) := sign (s.dropWhile isSpace)
  let (b, s) := baseOf s
  negate neg (valOf b (digits b s))

/-- The first loop of `sanlock_str_to_res` (`src/client.c:2000-2009`). -/
def countColons : Str → Nat
  | [] => 0
  | [c] => if c = BACKSLASH then 0 else if c = COLON then 1 else 0
  | c :: c' :: rest =>
    if c = BACKSLASH then countColons rest
    else if c = COLON then countColons (c' :: rest) + 1
    else countColons (c' :: rest)

/-- The collection of substrings in the second loop (`src/client.c:2038-2051`); `none` is the failure.  In the code a
substring is used as soon as it is complete; since every failure has the same result, the model first collects and then
uses them. -/
def splitSubs : Str → Str → Option (List Str)
  | [], cur => some [cur]
  | [c], cur =>
    if c = BACKSLASH then none
    else if c ≠ COLON then (if cur.length ≥ PATH_LEN then none else some [cur ++ [c]])
    else some [cur, []]
  | c :: c' :: rest, cur =>
    if c = BACKSLASH then
      if cur.length ≥ PATH_LEN then none else splitSubs rest (cur ++ [c'])
    else if c ≠ COLON then
      if cur.length ≥ PATH_LEN then none else splitSubs (c' :: rest) (cur ++ [c])
    else (splitSubs (c' :: rest) []).map (cur :: ·)

/-- The use of the substrings (`src/client.c:2053-2085`).  Outer `none`: access to a disk behind the allocated ones;
inner `none`: failure. -/
def procSubs (numDisks haveLver : Nat) : Nat → Nat → Res → List Str → Option (Option Res)
  | _, _, r, [] => some (some r)
  | k, d, r, sub :: subs =>
    if k < 2 ∧ sub.length > NAME_LEN then some none
    else if k ≥ 2 ∧ (sub.length > PATH_LEN - 1 ∨ sub.length < 1) then some none
    else if k = 0 then procSubs numDisks haveLver (k + 1) d { r with space := sub } subs
    else if k = 1 then procSubs numDisks haveLver (k + 1) d { r with name := sub } subs
    else if k % 2 = 0 then
      if haveLver ≠ 0 ∧ d = numDisks then
        if sub.take 2 = [83, 72] then procSubs numDisks haveLver (k + 1) d { r with shared := true } subs
        else procSubs numDisks haveLver (k + 1) d { r with hasLver := true, lver := strtoull sub } subs
      else if h : d < r.disks.length then
        procSubs numDisks haveLver (k + 1) d { r with disks := r.disks.set d { r.disks[d] with path := sub } } subs
      else none
    else if h : d < r.disks.length then
      match scanDec sub with
      | none => some none
      | some o => procSubs numDisks haveLver (k + 1) (d + 1) { r with disks := r.disks.set d { r.disks[d] with offset := o } } subs
    else none

/-- `sanlock_str_to_res` (`src/client.c:1990-2098`): outer `none` for a write outside the result, inner `none` for any
negative return value. -/
def strToRes (s : Str) : Option (Option Res) :=
  if s.length < 3 then some none
  else
    let colons := countColons s
    if colons = 0 ∨ colons = 2 then some none
    else
      let numDisks := (colons - 1) / 2
      let haveLver := (colons - 1) % 2
      if numDisks > MAX_DISKS then some none
      else
        match splitSubs s [] with
        | none => some none
        | some subs => procSubs numDisks haveLver 0 0 ⟨[], [], 0, false, false, List.replicate numDisks ⟨[], 0⟩⟩ subs

/-- `sanlock_args_to_state` (`src/client.c:2105-2142`). -/
def argsToState : List Res → Option (Option Str)
  | [] => some (some [])
  | [r] =>
    match resToStr r with
    | none => none
    | some none => some none
    | some (some s) => if s.length > MAX_RES_STR - 1 then some none else some (some s)
  | r :: rs =>
    match resToStr r with
    | none => none
    | some none => some none
    | some (some s) =>
      if s.length > MAX_RES_STR - 1 then some none
      else
        match argsToState rs with
        | none => none
        | some none => some none
        | some (some t) => some (some (s ++ [SPACE] ++ t))

/-- Append a byte to the buffer `str[SANLK_MAX_RES_STR + 1]`, of which the last byte has to stay zero. -/
def push (cur : Str) (c : UInt8) : Option Str := if cur.length < MAX_RES_STR then some (cur ++ [c]) else none

/-- Loop of `sanlock_state_to_args` (`src/client.c:2180-2228`): `cur` is the buffer, then the flags `escape` and
`sep_colons`.  Outer `none`: write outside the buffer (or the string in it is not terminated); inner `none`: failure.
That the result array is large enough is not modelled. -/
def stateLoop : Str → Str → Bool → Nat → Option (Option (List Res))
  | [], cur, _, _ =>
    match strToRes cur with
    | none => none
    | some none => some none
    | some (some r) => some (some [r])
  | c :: cs, cur, escape, colons =>
    if c = BACKSLASH then
      match push cur c with
      | none => none
      | some cur => stateLoop cs cur true colons
    else if escape then
      match push cur c with
      | none => none
      | some cur => stateLoop cs cur false colons
    else if c = SPACE ∧ colons < 3 then
      match push cur BACKSLASH with
      | none => none
      | some cur =>
        match push cur c with
        | none => none
        | some cur => stateLoop cs cur false colons
    else if c ≠ SPACE then
      match push cur c with
      | none => none
      | some cur => stateLoop cs cur false (if c = COLON then colons + 1 else colons)
    else
      match strToRes cur with
      | none => none
      | some none => some none
      | some (some r) =>
        match stateLoop cs [] false 0 with
        | none => none
        | some none => some none
        | some (some rs) => some (some (r :: rs))

def stateToArgs (s : Str) : Option (Option (List Res)) := stateLoop s [] false 0

end Sanlock.Strings
