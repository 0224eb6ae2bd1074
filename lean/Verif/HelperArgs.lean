/-!
# Argument vector of a kill script (`run_path` in `src/helper.c`)
-/

namespace Sanlock.HelperArgs

/-- `isspace` in the C locale (the program never calls `setlocale`). -/
def isSpace (c : UInt8) : Bool := c == 32 || (9 ≤ c && c ≤ 13)

/-- `isalnum(c) || ispunct(c)` in the C locale.  For bytes above 127 the C code passes a negative `int`, which the C
standard leaves undefined; glibc answers 0, as here. -/
def isGraph (c : UInt8) : Bool := 33 ≤ c && c ≤ 126

def BACKSLASH : UInt8 := 92

/-- `MAX_AV_COUNT` (`src/helper.c:38`). -/
def MAX_AV : Nat := 8

/-- The scanning loop (`src/helper.c:64-98`) on the rest of the string; `av` is the vector so far, `arg` the argument
being built.  The checks for the terminating NUL and the last position are those of the list's end. -/
def scan : List UInt8 → List (List UInt8) → List UInt8 → List (List UInt8) × List UInt8
  | [], av, arg => (av, arg)
  | c :: cs, av, arg =>
    if av.length = MAX_AV then (av, arg)
    else if c = BACKSLASH then
      match cs with
      | [] => (av, arg)
      | d :: cs' =>
        if d = BACKSLASH then scan cs' av (arg ++ [d])
        else if isSpace d then scan cs' av (arg ++ [d])
        else (av, arg)
    else if isGraph c then scan cs av (arg ++ [c])
    else if isSpace c then scan cs (if arg ≠ [] then av ++ [arg] else av) []
    else (av, arg)

/-- `run_path` up to `execvp` (`src/helper.c:40-108`): the vector passed on.  `pid` is the decimal string of `hm->pid`,
`none` when it is 0. -/
def argv (path : List UInt8) (args : List UInt8) (pid : Option (List UInt8)) : List (List UInt8) :=
  let (av, arg) := scan args [path] []
  let av1 := if av.length < MAX_AV ∧ arg ≠ [] then av ++ [arg] else av
  match pid with
  | some p => if av1.length < MAX_AV then av1 ++ [p] else av1
  | none => av1

end Sanlock.HelperArgs
