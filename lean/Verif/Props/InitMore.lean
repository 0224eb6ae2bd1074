import Verif.Props.Init

/-!
# What a completed initialisation of a lease leaves on disk (C42)
-/

namespace Sanlock.Init

open OnDisk Crc Verify SizeFlags

/-- **C42, complete.**  After an initialisation that was not interrupted, every sector of the lease area is known: a request
record with its magic and version that asks for nothing, and behind it only zero blocks: no ballot values and no shared
markers of any earlier use. -/
theorem lease_area_clean (P : LeasePar) (old : Area) :
    (1 < P.n → requestIn P.e (landAll P.n (leaseBuf P) old 1) =
      { magic := 0x08292011, version := 0x00010001, lver := 0, forceMode := 0 }) ∧
    (∀ i, 2 ≤ i → i < P.n → landAll P.n (leaseBuf P) old i = List.replicate P.sector 0) ∧
    (∀ i, P.n ≤ i → landAll P.n (leaseBuf P) old i = old i) := by
  refine ⟨?_, ?_, ?_⟩
  · intro hn
    have : landAll P.n (leaseBuf P) old 1 = padTo P.sector (requestOut P.e requestRecord) := by
      simp [landAll, land, hn, leaseBuf]
    rw [this]
    unfold padTo
    rw [request_roundtrip]
    rfl
  · intro i h2 hn
    have h0 : i ≠ 0 := by omega
    have h1 : i ≠ 1 := by omega
    simp [landAll, land, hn, leaseBuf, h0, h1]
  · intro i hn
    simp [landAll, land, Nat.not_lt.mpr hn]

/-- Non-vacuity: an area of 2048 sectors. -/
example : ∃ P : LeasePar, 1 < P.n ∧ P.n = 2048 :=
  ⟨{ e := .little, space := exPar.name, name := exPar.name, sector := 512, align := M1, numHosts := 2000
     maxHosts := 2000, clear := false, now := 0 }, by decide, by decide⟩

end Sanlock.Init
