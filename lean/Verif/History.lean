import Verif.Rv

/-!
# Renewal history (`save_renewal_history` in `src/lockspace.c`, `cmd_renewal` in `src/cmd.c`)
-/

namespace Sanlock.History

/-- `struct renewal_history`. -/
structure Entry where
  timestamp : Nat
  readMs : Nat
  writeMs : Nat
  nextTimeouts : Nat
  nextErrors : Nat
deriving DecidableEq

def Entry.zero : Entry := ⟨0, 0, 0, 0, 0⟩

/-- The ring in `struct space`; `renewal_history_size` is the length of `buf`. -/
structure Ring where
  buf : List Entry
  prev : Nat
  next : Nat
deriving DecidableEq

/-- `add_lockspace_start` (`src/lockspace.c:1088-1094`). -/
def Ring.init (size : Nat) : Ring := ⟨List.replicate size .zero, 0, 0⟩

/-- The result of one renewal. -/
inductive Ev where
  | ok (timestamp readMs writeMs : Nat)
  | timeout
  | error

/-- `save_renewal_history` (`src/lockspace.c:632-659`).  On success only three fields of the entry are assigned. -/
def save (r : Ring) (e : Ev) : Ring :=
  if r.buf.length = 0 then r
  else match e with
    | .ok ts rd wr =>
      let hi := r.buf.getD r.next .zero
      let nx := r.next + 1
      { buf := r.buf.set r.next { hi with timestamp := ts, readMs := rd, writeMs := wr }
        prev := r.next
        next := if nx ≥ r.buf.length then 0 else nx }
    | .timeout =>
      let hi := r.buf.getD r.prev .zero
      { r with buf := r.buf.set r.prev { hi with nextTimeouts := hi.nextTimeouts + 1 } }
    | .error =>
      let hi := r.buf.getD r.prev .zero
      { r with buf := r.buf.set r.prev { hi with nextErrors := hi.nextErrors + 1 } }

/-- The entries sent by `cmd_renewal` (`src/cmd.c:2766-2856`). -/
def report (r : Ring) : List Entry :=
  if r.buf.length = 0 ∨ (r.prev = 0 ∧ r.next = 0) then []
  else
    (if (r.buf.getD r.next .zero).timestamp ≠ 0 then r.buf.drop r.next else []) ++ r.buf.take r.next

def run (size : Nat) (l : List Ev) : Ring := l.foldl save (Ring.init size)

end Sanlock.History
