import Verif.SizeFlags

/-!
# C11: lease areas are laid out without overlap; size flags round-trip
(and the layout half of C37: the lock value block)
-/

namespace Sanlock.SizeFlags

/-- The sizes for which the documentation promises support. -/
def Supported (sector align : Nat) : Prop :=
  (sector = 512 ∧ align = 1048576) ∨
  (sector = 4096 ∧ (align = 1048576 ∨ align = 2097152 ∨ align = 4194304 ∨ align = 8388608))

/-- Byte range `[a, a + n)` contains byte `x`. -/
def InRange (a n x : Nat) : Prop := a ≤ x ∧ x < a + n

/-- Two sectors share no byte. -/
def DisjointSectors (sector i j : Nat) : Prop :=
  ∀ x, ¬ (InRange (sectorStart sector i) sector x ∧ InRange (sectorStart sector j) sector x)

/-- Sector `i` lies inside an area of `align` bytes. -/
def Inside (sector align i : Nat) : Prop :=
  ∀ x, InRange (sectorStart sector i) sector x → x < align

/-- C11: exactly the documented combinations have a nonzero maximum number of hosts. -/
theorem supported_iff (sector align : Nat) :
    sizeToMaxHosts sector align ≠ 0 ↔ Supported sector align := by
  constructor
  · intro h
    rcases sizeToMaxHosts_pos h with h | h | h | h | h <;> obtain ⟨rfl, rfl, -⟩ := h <;>
      simp [Supported, M1, M2, M4, M8]
  · rintro (⟨rfl, rfl⟩ | ⟨rfl, rfl | rfl | rfl | rfl⟩) <;> decide

theorem disjoint_of_ne {sector i j : Nat} (h : i ≠ j) : DisjointSectors sector i j := by
  rintro x ⟨⟨h1, h2⟩, ⟨h3, h4⟩⟩
  simp only [sectorStart] at *
  rcases Nat.lt_or_gt_of_ne h with h | h
  · have : (i + 1) * sector ≤ j * sector := Nat.mul_le_mul_right _ h
    rw [Nat.add_mul] at this; omega
  · have : (j + 1) * sector ≤ i * sector := Nat.mul_le_mul_right _ h
    rw [Nat.add_mul] at this; omega

/-- C11: in a resource lease, the owner record, the request record and the blocks of all allowed hosts
are in pairwise disjoint sectors, all inside the lease area. -/
theorem paxos_layout {sector align : Nat} (hs : Supported sector align) :
    let ok := fun id => 1 ≤ id ∧ id ≤ sizeToMaxHosts sector align
    Inside sector align leaderSector ∧ Inside sector align requestSector ∧
    DisjointSectors sector leaderSector requestSector ∧
    (∀ id, ok id → Inside sector align (dblockSector id) ∧
      DisjointSectors sector (dblockSector id) leaderSector ∧
      DisjointSectors sector (dblockSector id) requestSector) ∧
    (∀ id id', ok id → ok id' → id ≠ id' →
      DisjointSectors sector (dblockSector id) (dblockSector id')) := by
  refine ⟨?_, ?_, disjoint_of_ne (by decide), ?_, ?_⟩
  · rintro x ⟨-, hx⟩
    rcases hs with ⟨rfl, rfl⟩ | ⟨rfl, rfl | rfl | rfl | rfl⟩ <;>
      simp only [sectorStart, leaderSector] at hx <;> omega
  · rintro x ⟨-, hx⟩
    rcases hs with ⟨rfl, rfl⟩ | ⟨rfl, rfl | rfl | rfl | rfl⟩ <;>
      simp only [sectorStart, requestSector] at hx <;> omega
  · rintro id ⟨h1, h2⟩
    refine ⟨?_, disjoint_of_ne (by simp only [dblockSector, leaderSector]; omega),
      disjoint_of_ne (by simp only [dblockSector, requestSector]; omega)⟩
    rintro x ⟨-, hx⟩
    have hm := (supported_iff sector align).2 hs
    rcases sizeToMaxHosts_pos hm with h | h | h | h | h <;> obtain ⟨rfl, rfl, e⟩ := h <;>
      rw [e] at h2 <;> simp only [sectorStart, dblockSector, M1, M2, M4, M8] at * <;> omega
  · rintro id id' ⟨h1, -⟩ ⟨h1', -⟩ hne
    exact disjoint_of_ne (by simp only [dblockSector]; omega)

/-- C11: in a lockspace, the host leases of all allowed host ids are disjoint sectors inside the area. -/
theorem delta_layout {sector align : Nat} (hs : Supported sector align) :
    let ok := fun id => 1 ≤ id ∧ id ≤ sizeToMaxHosts sector align
    (∀ id, ok id → Inside sector align (deltaSector id)) ∧
    (∀ id id', ok id → ok id' → id ≠ id' →
      DisjointSectors sector (deltaSector id) (deltaSector id')) := by
  refine ⟨?_, ?_⟩
  · rintro id ⟨h1, h2⟩ x ⟨-, hx⟩
    have hm := (supported_iff sector align).2 hs
    rcases sizeToMaxHosts_pos hm with h | h | h | h | h <;> obtain ⟨rfl, rfl, e⟩ := h <;>
      rw [e] at h2 <;> simp only [sectorStart, deltaSector, M1, M2, M4, M8] at * <;> omega
  · rintro id id' ⟨h1, -⟩ ⟨h1', -⟩ hne
    exact disjoint_of_ne (by simp only [deltaSector]; omega)

/-- C11: a size written as a flag is read back, also in the presence of flags for other things. -/
theorem align_flag_roundtrip {a : Nat} (h : a = M1 ∨ a = M2 ∨ a = M4 ∨ a = M8) :
    alignOfFlags (flagOfAlign a) = a ∧ rhfAlignOfFlags (rhfFlagOfAlign a) = a := by
  rcases h with rfl | rfl | rfl | rfl <;> decide

theorem has_or (x y m : UInt32) : has (x ||| y) m = (has x m || has y m) := by
  simp only [has]
  rw [show (x ||| y) &&& m = (x &&& m) ||| (y &&& m) from ?_]
  · by_cases h1 : x &&& m = 0
    · by_cases h2 : y &&& m = 0
      · simp [h1, h2]
      · simp [h1]
    · have : (x &&& m) ||| (y &&& m) ≠ 0 := by
        intro h; apply h1
        exact (UInt32.or_eq_zero_iff.mp h).1
      rw [Bool.eq_iff_iff]; simp [h1, this]
  · apply UInt32.toBitVec_inj.mp
    ext i hi
    simp [Bool.and_or_distrib_right]

/-- C11: writing the sector and align flags into any flag word whose size flags have been cleared, as
`sanlock_read_resource` and `sanlock_read_lockspace` do, yields exactly these sizes when decoded. -/
theorem size_flags_in_word (w : UInt32) {s a : Nat} (hs : Supported s a) :
    let w' := alignFlagsClear (sectorFlagsClear w) ||| flagOfSector s ||| flagOfAlign a
    sectorOfFlags w' = s ∧ alignOfFlags w' = a ∧
      sizesFromFlags w' = some (s, a, sizeToMaxHosts s a) := by
  intro w'
  have hclr : ∀ m, m ∈ [(0x10 : UInt32), 0x20, 0x40, 0x80, 0x100, 0x200] →
      has (alignFlagsClear (sectorFlagsClear w)) m = false := by
    intro m hm
    have : alignFlagsClear (sectorFlagsClear w) &&& m = 0 := by
      simp only [List.mem_cons, List.not_mem_nil, or_false] at hm
      simp only [alignFlagsClear, sectorFlagsClear, UInt32.and_assoc]
      rcases hm with rfl | rfl | rfl | rfl | rfl | rfl <;> exact UInt32.and_zero
    simp [has, this]
  have hs1 : sectorOfFlags w' = s := by
    rcases hs with ⟨rfl, rfl⟩ | ⟨rfl, rfl | rfl | rfl | rfl⟩ <;>
      simp [w', sectorOfFlags, firstSize, sectorTable, has_or, hclr] <;> decide
  have hs2 : alignOfFlags w' = a := by
    rcases hs with ⟨rfl, rfl⟩ | ⟨rfl, rfl | rfl | rfl | rfl⟩ <;>
      simp [w', alignOfFlags, firstSize, alignTable, has_or, hclr] <;> decide
  refine ⟨hs1, hs2, ?_⟩
  have hm := (supported_iff s a).2 hs
  have hs0 : s ≠ 0 := by rcases hs with ⟨rfl, rfl⟩ | ⟨rfl, rfl | rfl | rfl | rfl⟩ <;> decide
  have ha0 : a ≠ 0 := by rcases hs with ⟨rfl, rfl⟩ | ⟨rfl, rfl | rfl | rfl | rfl⟩ <;> decide
  simp [sizesFromFlags, hs1, hs2, hs0, ha0, hm]

/-- C11: what each flag bit means, in bytes: the four align flags of leases and lockspaces, the four of the resource
index and the two sector size flags, in every flag word without another flag of the same kind. -/
theorem flag_meaning (w : UInt32) :
    (w &&& 0xF0 = 0x10 → alignOfFlags w = 1048576) ∧ (w &&& 0xF0 = 0x20 → alignOfFlags w = 2097152) ∧
    (w &&& 0xF0 = 0x40 → alignOfFlags w = 4194304) ∧ (w &&& 0xF0 = 0x80 → alignOfFlags w = 8388608) ∧
    (w &&& 0xF0 = 0 → alignOfFlags w = 0) ∧
    (w &&& 0xF = 1 → rhfAlignOfFlags w = 1048576) ∧ (w &&& 0xF = 2 → rhfAlignOfFlags w = 2097152) ∧
    (w &&& 0xF = 4 → rhfAlignOfFlags w = 4194304) ∧ (w &&& 0xF = 8 → rhfAlignOfFlags w = 8388608) ∧
    (w &&& 0xF = 0 → rhfAlignOfFlags w = 0) ∧
    (w &&& 0x300 = 0x100 → sectorOfFlags w = 512) ∧ (w &&& 0x300 = 0x200 → sectorOfFlags w = 4096) ∧
    (w &&& 0x300 = 0 → sectorOfFlags w = 0) := by
  have key : ∀ (m b : UInt32), m &&& b = b → w &&& b = (w &&& m) &&& b := by
    intro m b h; rw [UInt32.and_assoc, h]
  have e1 := key 0xF0 0x10 rfl
  have e2 := key 0xF0 0x20 rfl
  have e3 := key 0xF0 0x40 rfl
  have e4 := key 0xF0 0x80 rfl
  have r1 := key 0xF 1 rfl
  have r2 := key 0xF 2 rfl
  have r3 := key 0xF 4 rfl
  have r4 := key 0xF 8 rfl
  have s1 := key 0x300 0x100 rfl
  have s2 := key 0x300 0x200 rfl
  refine ⟨?_, ?_, ?_, ?_, ?_, ?_, ?_, ?_, ?_, ?_, ?_, ?_, ?_⟩ <;> intro h <;>
    simp only [alignOfFlags, rhfAlignOfFlags, sectorOfFlags, firstSize, alignTable, rhfTable, sectorTable, has,
      e1, e2, e3, e4, r1, r2, r3, r4, s1, s2, h] <;> rfl

example : (0x1234 : UInt32) &&& 0xF = 4 ∧ rhfAlignOfFlags 0x1234 = 4194304 := by decide

/-- C11: the flags decoder never accepts an unsupported combination. -/
theorem sizesFromFlags_sound {w : UInt32} {s a m : Nat} (h : sizesFromFlags w = some (s, a, m)) :
    (s = 0 ∧ a = 0 ∧ m = 0) ∨ (Supported s a ∧ m = sizeToMaxHosts s a ∧ 0 < m) := by
  unfold sizesFromFlags at h
  simp only at h
  split at h
  · cases h
  · rename_i h1
    split at h
    · rename_i h2
      simp only [Option.some.injEq, Prod.mk.injEq] at h
      obtain ⟨rfl, rfl, rfl⟩ := h
      simp only [h2, eq_self, ne_eq, eq_iff_iff, true_iff, Decidable.not_not] at h1
      left; exact ⟨h2, h1, rfl⟩
    · split at h
      · cases h
      · rename_i h3
        simp only [Option.some.injEq, Prod.mk.injEq] at h
        obtain ⟨rfl, rfl, rfl⟩ := h
        right; exact ⟨(supported_iff _ _).1 h3, rfl, Nat.pos_of_ne_zero h3⟩

/-- C37 (partial, layout): for the two size combinations of older releases the lock value block's sector
lies inside the lease area and apart from all records.  Missing: the other three combinations, for which
it is false, see `lvb_layout_violated`. -/
theorem lvb_layout_partial {sector align : Nat}
    (h : (sector = 512 ∧ align = M1) ∨ (sector = 4096 ∧ align = M8)) :
    Inside sector align lvbSector ∧
    DisjointSectors sector lvbSector leaderSector ∧ DisjointSectors sector lvbSector requestSector ∧
    ∀ id, 1 ≤ id → id ≤ sizeToMaxHosts sector align →
      DisjointSectors sector lvbSector (dblockSector id) := by
  refine ⟨?_, disjoint_of_ne (by decide), disjoint_of_ne (by decide), ?_⟩
  · rintro x ⟨-, hx⟩
    rcases h with ⟨rfl, rfl⟩ | ⟨rfl, rfl⟩ <;> simp only [sectorStart, lvbSector, M1, M8] at * <;> omega
  · intro id h1 h2
    have : sizeToMaxHosts sector align = 2000 := by
      rcases h with ⟨rfl, rfl⟩ | ⟨rfl, rfl⟩ <;> decide
    exact disjoint_of_ne (by simp only [dblockSector, lvbSector]; omega)

/-- C37 is false for the other supported sizes: the whole lock value block lies outside the lease area
(with 4096-byte sectors and 1M, 2M or 4M alignment), so writing it overwrites a neighbouring lease. -/
theorem lvb_layout_violated (align : Nat) (h : align = M1 ∨ align = M2 ∨ align = M4) :
    Supported 4096 align ∧
    ∀ x, InRange (sectorStart 4096 lvbSector) 4096 x → align ≤ x := by
  refine ⟨?_, ?_⟩
  · rcases h with rfl | rfl | rfl <;> simp [Supported, M1, M2, M4]
  · rintro x ⟨hx, -⟩
    rcases h with rfl | rfl | rfl <;> simp only [sectorStart, lvbSector, M1, M2, M4] at * <;> omega

/-- Non-vacuity. -/
example : Supported 4096 M2 ∧ sizeToMaxHosts 4096 M2 = 500 ∧ dblockSector 500 = 501 := by
  refine ⟨?_, by decide, by decide⟩
  simp [Supported, M2]
example : sizesFromFlags 0x220 = some (4096, M2, 500) := by decide
example : sizesFromFlags 0x110 = some (512, M1, 2000) := by decide
example : sizesFromFlags 0x120 = none := by decide

end Sanlock.SizeFlags
