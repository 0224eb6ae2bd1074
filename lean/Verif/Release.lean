/-!
# The array of tokens in `cmd_release`

Models how `cmd_release` (`src/cmd.c:574-766`) collects the tokens to release in `rem_tokens[SANLK_MAX_RESOURCES]`.
A write outside the array gives `none`.
-/

namespace Sanlock.Release

/-- A lease of the process: lockspace and resource name, compared with `memcmp` over all 48 bytes. -/
structure Tok where
  space : List UInt8
  name : List UInt8
deriving DecidableEq

/-- SANLK_MAX_RESOURCES -/
def maxRes : Nat := 8

/-- `rem_tokens[rem_tokens_count++] = token` -/
def push (rem : List Tok) (t : Tok) : Option (List Tok) := if rem.length < maxRes then some (rem ++ [t]) else none

/-- SANLK_REL_ALL (`src/cmd.c:600-611`): the rest of `cl->tokens`; gives `rem_tokens` and the new `cl->tokens`. -/
def relAll : List (Option Tok) → List Tok → Option (List Tok × List (Option Tok))
  | [], rem => some (rem, [])
  | none :: ts, rem => (relAll ts rem).map fun (r, l) => (r, none :: l)
  | some t :: ts, rem =>
    match push rem t with
    | none => none
    | some rem => (relAll ts rem).map fun (r, l) => (r, none :: l)

/-- The inner loop for one resource (`src/cmd.c:683-699`): the token found and the new `cl->tokens`. -/
def takeOne (q : Tok) : List (Option Tok) → Option Tok × List (Option Tok)
  | [] => (none, [])
  | none :: ts => ((takeOne q ts).1, none :: (takeOne q ts).2)
  | some t :: ts =>
    if t.space ≠ q.space then ((takeOne q ts).1, some t :: (takeOne q ts).2)
    else if t.name ≠ q.name then ((takeOne q ts).1, some t :: (takeOne q ts).2)
    else (some t, none :: ts)

/-- The loop over the resources in the message (`src/cmd.c:669-706`), `bad` says that some resource was not found. -/
def relNamed : List Tok → List (Option Tok) → List Tok → Bool → Option (List Tok × List (Option Tok) × Bool)
  | [], slots, rem, bad => some (rem, slots, bad)
  | q :: qs, slots, rem, bad =>
    match takeOne q slots with
    | (none, slots) => relNamed qs slots rem true
    | (some t, slots) =>
      match push rem t with
      | none => none
      | some rem => relNamed qs slots rem bad

/-- The leases in the slots. -/
def held (slots : List (Option Tok)) : List Tok := slots.filterMap id

end Sanlock.Release
