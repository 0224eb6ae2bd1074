import Verif.Rv

/-!
# `sanlock_test_resource_owners` (`src/client.c:738-792`)
-/

namespace Sanlock.OwnerTest

/-- `struct sanlk_host`, the fields used. -/
structure Host where
  hostId : Nat
  generation : Nat
  flags : Nat
deriving DecidableEq

/-- `SANLK_HOST_*` (`src/sanlock_admin.h`). -/
def UNKNOWN : Nat := 1
def FREE : Nat := 2
def LIVE : Nat := 3
def FAIL : Nat := 4
def DEAD : Nat := 5

/-- Result of the test for one owner: stop with an error, or go on with "may be running" or not
(`src/client.c:755-782`). -/
def testOne (hosts : List Host) (owner : Host) : Except Int Bool :=
  match hosts.find? (fun h => owner.hostId == h.hostId) with
  | none => .ok false
  | some h =>
    if h.generation > owner.generation then .ok false
    else if h.generation < owner.generation then .error Rv.EINVAL
    else
      let st := h.flags &&& 0xF
      if st = FREE ∨ st = DEAD then .ok false
      else if st = LIVE ∨ st = FAIL ∨ st = UNKNOWN then .ok true
      else .error Rv.EINVAL

/-- The loop over the owners (`src/client.c:754-785`); the accumulator is the local variable `fail`. -/
def loop (hosts : List Host) : List Host → Bool → Except Int Bool
  | [], fail => .ok fail
  | o :: os, fail =>
    match testOne hosts o with
    | .error e => .error e
    | .ok b => loop hosts os (fail || b)

/-- `sanlock_test_resource_owners`: return value and `*test_flags` (`SANLK_TRF_FAIL` is 1). -/
def test (owners hosts : List Host) : Int × Nat :=
  match loop hosts owners false with
  | .error e => (e, 0)
  | .ok fail => (0, if fail then 1 else 0)

end Sanlock.OwnerTest
