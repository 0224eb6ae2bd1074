import Verif.Owners
import Verif.OwnerTest
import Verif.Props.Verify
import Verif.Props.Crc
import Verif.Props.Init
import Verif.Props.Lease
import Verif.Props.OwnerTest

/-!
# The list of owners of a lease: C49
-/

namespace Sanlock.Owners

open OnDisk Crc Verify SizeFlags

/-! ## The two loops -/

/-- Host index `i` gets an entry of its own. -/
def keep (e : Endian) (buf : List UInt8) (sector : Nat) (l : Leader) (i : Nat) : Bool :=
  shared (blockAt e buf sector i) && !(owned l && i + 1 == l.ownerId.toNat)

theorem fill_eq (e : Endian) (buf : List UInt8) (sector : Nat) (l : Leader) (is : List Nat) (acc : List Host) :
    is.foldl (fillStep e buf sector l) acc =
      acc ++ (is.filter (keep e buf sector l)).map fun i => ⟨i + 1, (blockAt e buf sector i).generation, 0⟩ := by
  induction is generalizing acc with
  | nil => simp
  | cons i is ih =>
    rw [List.foldl_cons, ih]
    unfold fillStep
    rw [List.filter_cons]
    by_cases h1 : shared (blockAt e buf sector i) = true
    · by_cases h2 : (owned l && i + 1 == l.ownerId.toNat) = true
      · simp [keep, h1, h2]
      · simp only [Bool.not_eq_true] at h2
        simp [keep, h1, h2]
    · simp only [Bool.not_eq_true] at h1
      simp [keep, h1]

theorem count_eq (e : Endian) (buf : List UInt8) (sector : Nat) (l : Leader) (is : List Nat) (c : Nat) (b : Bool) :
    is.foldl (countStep e buf sector l) (c, b) =
      (c + (is.filter (keep e buf sector l)).length, b || is.any fun i => shared (blockAt e buf sector i)) := by
  induction is generalizing c b with
  | nil => simp
  | cons i is ih =>
    rw [List.foldl_cons, List.filter_cons, List.any_cons]
    by_cases h1 : shared (blockAt e buf sector i) = true
    · by_cases h2 : (owned l && i + 1 == l.ownerId.toNat) = true
      · have hstep : countStep e buf sector l (c, b) i = (c, true) := by unfold countStep; simp only [h1, h2]; rfl
        rw [hstep, ih]
        simp [keep, h1, h2]
      · simp only [Bool.not_eq_true] at h2
        have hstep : countStep e buf sector l (c, b) i = (c + 1, true) := by unfold countStep; simp only [h1, h2]; rfl
        rw [hstep, ih]
        simp [keep, h1, h2]; omega
    · simp only [Bool.not_eq_true] at h1
      have hstep : countStep e buf sector l (c, b) i = (c, b) := by unfold countStep; simp only [h1]; rfl
      rw [hstep, ih]
      simp [keep, h1]

/-- The entry of the owner in the leader record. -/
def ownerEntry (l : Leader) : List Host :=
  if l.timestamp ≠ 0 ∧ l.ownerId ≠ 0 then [⟨l.ownerId.toNat, l.ownerGeneration, l.timestamp⟩] else []

theorem owned_iff (l : Leader) : owned l = true ↔ l.timestamp ≠ 0 ∧ l.ownerId ≠ 0 := by simp [owned]

theorem collect_owners {e : Endian} {buf : List UInt8} {sector : Nat} {l : Leader} {lver : UInt64} {sh : Bool} {n : Nat}
    {hs : List Host} (h : collect e buf sector l = .owners lver sh n hs) :
    lver = l.lver ∧ n = hs.length ∧ (l.numHosts.toNat = 0 ∨ (1 + l.numHosts.toNat) * sector + 144 ≤ buf.length) ∧
    (sh = true ↔ ∃ i, i < l.numHosts.toNat ∧ shared (blockAt e buf sector i) = true) ∧
    hs = ownerEntry l ++ ((List.range l.numHosts.toNat).filter (keep e buf sector l)).map
      fun i => ⟨i + 1, (blockAt e buf sector i).generation, 0⟩ := by
  unfold collect at h
  simp only [count_eq, fill_eq] at h
  split at h
  · cases h
  · rename_i hb
    have hb' : l.numHosts.toNat = 0 ∨ (1 + l.numHosts.toNat) * sector + 144 ≤ buf.length := by
      by_cases h0 : l.numHosts.toNat = 0
      · exact Or.inl h0
      · right; exact Nat.le_of_not_lt fun hh => hb ⟨h0, hh⟩
    have hent : (if owned l = true then [(⟨l.ownerId.toNat, l.ownerGeneration, l.timestamp⟩ : Host)] else []) = ownerEntry l := by
      unfold ownerEntry
      by_cases ho : owned l = true
      · rw [if_pos ho, if_pos ((owned_iff l).1 ho)]
      · rw [if_neg ho, if_neg fun hh => ho ((owned_iff l).2 hh)]
    have hlen : (ownerEntry l).length = if owned l = true then 1 else 0 := by
      rw [← hent]; split <;> rfl
    rw [← hlen, hent] at h
    split at h
    · rename_i h0
      injection h with h1 h2 h3 h4
      have hz := Nat.add_eq_zero_iff.1 h0
      have he : ownerEntry l = [] := List.length_eq_zero_iff.1 hz.1
      have hf := List.length_eq_zero_iff.1 hz.2
      refine ⟨h1.symm, by rw [← h3, ← h4]; rfl, hb', ?_, ?_⟩
      · rw [← h2]; simp
      · rw [he, hf, ← h4]; rfl
    · injection h with h1 h2 h3 h4
      refine ⟨h1.symm, ?_, hb', ?_, h4.symm⟩
      · rw [← h3, ← h4, List.length_append, List.length_map]
      · rw [← h2]; simp

/-! ## Reading an area that does not change -/

theorem drop_take_take {α : Type} (img : List α) {len off n : Nat} (h : off + n ≤ len) :
    ((img.take len).drop off).take n = (img.drop off).take n := by
  rw [List.drop_take, List.take_take, Nat.min_eq_left (by omega)]

theorem getField_take (e : Endian) (img : List UInt8) {len off n : Nat} (h : off + n ≤ len) :
    getField e off n (img.take len) = getField e off n img := by
  simp only [getField]; rw [drop_take_take img h]

theorem getName_take (img : List UInt8) {len off : Nat} (h : off + 48 ≤ len) : getName off (img.take len) = getName off img := by
  simp only [getName]
  exact Name.ext (by simp only [drop_take_take img h])

theorem leaderIn_take (e : Endian) (img : List UInt8) {len : Nat} (h : 200 ≤ len) :
    leaderIn e (img.take len) = leaderIn e img := by
  simp only [leaderIn]
  simp only [getField_take e img (show 0 + 4 ≤ len by omega), getField_take e img (show 4 + 4 ≤ len by omega),
    getField_take e img (show 8 + 4 ≤ len by omega), getField_take e img (show 12 + 4 ≤ len by omega),
    getField_take e img (show 16 + 8 ≤ len by omega), getField_take e img (show 24 + 8 ≤ len by omega),
    getField_take e img (show 32 + 8 ≤ len by omega), getField_take e img (show 40 + 8 ≤ len by omega),
    getField_take e img (show 48 + 8 ≤ len by omega), getName_take img (show 56 + 48 ≤ len by omega),
    getName_take img (show 104 + 48 ≤ len by omega), getField_take e img (show 152 + 8 ≤ len by omega),
    getField_take e img (show 160 + 8 ≤ len by omega), getField_take e img (show 168 + 4 ≤ len by omega),
    getField_take e img (show 172 + 2 ≤ len by omega), getField_take e img (show 174 + 2 ≤ len by omega),
    getField_take e img (show 176 + 8 ≤ len by omega), getField_take e img (show 184 + 8 ≤ len by omega),
    getField_take e img (show 192 + 8 ≤ len by omega)]

theorem checksum_take (img : List UInt8) {len : Nat} (h : 200 ≤ len) : leaderChecksum (img.take len) = leaderChecksum img := by
  simp only [leaderChecksum]
  rw [List.take_take, Nat.min_eq_left (by omega)]

theorem modeBlockIn_take (e : Endian) (img : List UInt8) {len off : Nat} (h : off + 16 ≤ len) :
    modeBlockIn e ((img.take len).drop off) = modeBlockIn e (img.drop off) := by
  rw [List.drop_take]
  simp only [modeBlockIn]
  rw [getField_take e _ (show 0 + 4 ≤ len - off by omega), getField_take e _ (show 8 + 8 ≤ len - off by omega)]

theorem leaderAlign_cases (l : Leader) : leaderAlign l = 1048576 ∨ leaderAlign l = 2097152 ∨ leaderAlign l = 4194304 ∨
    leaderAlign l = 8388608 ∨ leaderAlign l = -1 := by
  unfold leaderAlign alignOldInt alignOfFlags alignTable
  simp only [firstSize, M1, M2, M4, M8]
  repeat' split
  all_goals simp_all

/-- Sizes the API can express (`src/sanlock_resource.h`, SANLK_RES_ALIGN*, SANLK_RES_SECTOR*), 0 if not given. -/
def Sizes (sector align : Nat) : Prop :=
  (sector = 0 ∨ sector = 512 ∨ sector = 4096) ∧
  (align = 0 ∨ align = 1048576 ∨ align = 2097152 ∨ align = 4194304 ∨ align = 8388608)

/-- The area is `img` and stays so. -/
def Still (img : List UInt8) (read : Nat → Nat → Except Int (List UInt8)) : Prop :=
  8388608 ≤ img.length ∧ ∀ k len, read k len = .ok (img.take len)

/-- One pass over an area that does not change. -/
theorem pass_eq {e : Endian} {t : Want} {setS setA : Bool} {img : List UInt8} {s a : Int} (hs : s ≠ 0) (ha : 200 ≤ a) :
    pass e t setS setA (fun len => .ok (img.take len)) s a =
      (let l := leaderIn e img
       if setS ∧ s ≠ l.sectorSize.toNat then .fail Rv.EINVAL
       else if setA ∧ a ≠ leaderAlign l then .fail Rv.EINVAL
       else if s ≠ l.sectorSize.toNat ∨ a ≠ leaderAlign l then .again l.sectorSize.toNat (leaderAlign l)
       else if verifyLeader t l (leaderChecksum img) < 0 then .fail (verifyLeader t l (leaderChecksum img))
       else collect e (img.take a.toNat) s.toNat l) := by
  unfold pass
  rw [if_neg (by omega), if_neg (by omega)]
  simp only [leaderIn_take e img (show 200 ≤ a.toNat by omega), checksum_take img (show 200 ≤ a.toNat by omega)]

/-- What a pass with sizes 0 or negative does. -/
theorem pass_bad {e : Endian} {t : Want} {setS setA : Bool} {read : Nat → Except Int (List UInt8)} {s a : Int}
    (h : s = 0 ∨ a ≤ 0) : ∃ rv, pass e t setS setA read s a = .fail rv := by
  unfold pass
  by_cases h1 : s = 0 ∨ a = 0
  · exact ⟨_, if_pos h1⟩
  · rw [if_neg h1, if_pos (by omega)]; exact ⟨_, rfl⟩

theorem collect_again (e : Endian) (buf : List UInt8) (sector : Nat) (l : Leader) (s a : Int) :
    collect e buf sector l ≠ .again s a := by
  unfold collect
  simp only
  intro h
  by_cases h1 : l.numHosts.toNat ≠ 0 ∧ buf.length < (1 + l.numHosts.toNat) * sector + 144
  · rw [if_pos h1] at h; cases h
  · rw [if_neg h1] at h
    by_cases h2 : ((List.range l.numHosts.toNat).foldl (countStep e buf sector l) (if owned l = true then 1 else 0, false)).1 = 0
    · rw [if_pos h2] at h; cases h
    · rw [if_neg h2] at h; cases h

theorem start_sizes {sector align : Nat} (hz : Sizes sector align) :
    let s : Int := if sector = 0 then 512 else sector
    let a : Int := if align = 0 then alignOldInt s else align
    s ≠ 0 ∧ 200 ≤ a := by
  obtain ⟨h1, h2⟩ := hz
  rcases h1 with rfl | rfl | rfl <;> rcases h2 with rfl | rfl | rfl | rfl | rfl <;> simp [alignOldInt]

/-- C49: asking for the owners ends after at most two reads of the area. -/
theorem read_owners_ends {e : Endian} {t : Want} {sector align : Nat} {img : List UInt8}
    {read : Nat → Nat → Except Int (List UInt8)} (hz : Sizes sector align) (hst : Still img read) :
    ∃ o, readOwners e t sector align read 2 = some o := by
  have h0 := start_sizes hz
  unfold readOwners
  simp only at h0 ⊢
  generalize (if sector = 0 then (512 : Int) else sector) = s at h0 ⊢
  generalize (if align = 0 then alignOldInt s else (align : Int)) = a at h0 ⊢
  have hr : ∀ k, read k = fun len => .ok (img.take len) := fun k => funext fun len => hst.2 k len
  unfold loop
  rw [hr 0]
  split
  · rename_i s' a' hp
    rw [pass_eq h0.1 h0.2] at hp
    simp only at hp
    have hsa : s' = (leaderIn e img).sectorSize.toNat ∧ a' = leaderAlign (leaderIn e img) ∧
        ((sector != 0) = true → s = (leaderIn e img).sectorSize.toNat) ∧ ((align != 0) = true → a = leaderAlign (leaderIn e img)) := by
      split at hp
      · cases hp
      · rename_i h1
        split at hp
        · cases hp
        · rename_i h2
          split at hp
          · injection hp with e1 e2
            exact ⟨e1.symm, e2.symm, fun hh => Classical.byContradiction fun hn => h1 ⟨hh, hn⟩,
              fun hh => Classical.byContradiction fun hn => h2 ⟨hh, hn⟩⟩
          · split at hp
            · cases hp
            · exact absurd hp (collect_again _ _ _ _ _ _)
    obtain ⟨rfl, rfl, -, -⟩ := hsa
    unfold loop
    rw [hr 1]
    by_cases hb : ((leaderIn e img).sectorSize.toNat : Int) = 0 ∨ leaderAlign (leaderIn e img) ≤ 0
    · obtain ⟨rv, hf⟩ := pass_bad (e := e) (t := t) (setS := sector != 0) (setA := align != 0)
        (read := fun len => .ok (img.take len)) hb
      rw [hf]
      exact ⟨_, rfl⟩
    · have ha := leaderAlign_cases (leaderIn e img)
      rw [pass_eq (fun hh => hb (Or.inl hh)) (by omega)]
      simp only [ne_eq, not_true_eq_false, and_false, or_self, if_false]
      by_cases hv : verifyLeader t (leaderIn e img) (leaderChecksum img) < 0
      · rw [if_pos hv]; exact ⟨_, rfl⟩
      · rw [if_neg hv]
        split
        · rename_i hh
          exact absurd hh (collect_again _ _ _ _ _ _)
        · exact ⟨_, rfl⟩
  · exact ⟨_, rfl⟩

theorem loop_owners {e : Endian} {t : Want} {setS setA : Bool} {img : List UInt8} {read : Nat → Nat → Except Int (List UInt8)}
    (hst : Still img read) {lver : UInt64} {sh : Bool} {n : Nat} {hs : List Host} :
    ∀ {fuel k : Nat} {s a : Int}, (200 ≤ a ∨ a ≤ 0) → loop e t setS setA read fuel k s a = some (.owners lver sh n hs) →
      (0 : Int) ≤ verifyLeader t (leaderIn e img) (leaderChecksum img) ∧ 200 ≤ leaderAlign (leaderIn e img) ∧
      collect e (img.take (leaderAlign (leaderIn e img)).toNat) (leaderIn e img).sectorSize.toNat (leaderIn e img) =
        .owners lver sh n hs ∧ (leaderIn e img).sectorSize.toNat ≠ 0 := by
  intro fuel
  induction fuel with
  | zero => intro k s a _ h; cases h
  | succ f ih =>
    intro k s a ha h
    have hr : ∀ k, read k = fun len => .ok (img.take len) := fun k => funext fun len => hst.2 k len
    unfold loop at h
    rw [hr k] at h
    by_cases hb : s = 0 ∨ a ≤ 0
    · obtain ⟨rv, hf⟩ := pass_bad (e := e) (t := t) (setS := setS) (setA := setA) (read := fun len => .ok (img.take len)) hb
      rw [hf] at h
      simp at h
    · have ha' : 200 ≤ a := by omega
      rw [pass_eq (fun hh => hb (Or.inl hh)) ha'] at h
      simp only at h
      split at h
      · rename_i s' a' hp
        split at hp
        · cases hp
        · split at hp
          · cases hp
          · split at hp
            · injection hp with e1 e2
              have hc := leaderAlign_cases (leaderIn e img)
              exact ih (by omega) h
            · split at hp
              · cases hp
              · exact absurd hp (collect_again _ _ _ _ _ _)
      · injection h with h
        split at h
        · cases h
        · split at h
          · cases h
          · split at h
            · cases h
            · rename_i hne
              split at h
              · cases h
              · rename_i hv
                have e1 : s = (leaderIn e img).sectorSize.toNat := Classical.byContradiction fun hh => hne (Or.inl hh)
                have e2 : a = leaderAlign (leaderIn e img) := Classical.byContradiction fun hh => hne (Or.inr hh)
                refine ⟨by omega, by omega, ?_, by omega⟩
                rw [← h, e2, e1]
                rfl

/-- C49: the owners reported are exactly the host in the leader record, if the record is not free, and the hosts with a shared
marker; each host id is reported once; the number of hosts is the one memory was allocated for; and the area is the lease that
was asked for. -/
theorem read_owners_spec {e : Endian} {t : Want} {sector align fuel : Nat} {img : List UInt8}
    {read : Nat → Nat → Except Int (List UInt8)} (hz : Sizes sector align) (hst : Still img read)
    {lver : UInt64} {sh : Bool} {n : Nat} {hs : List Host}
    (h : readOwners e t sector align read fuel = some (.owners lver sh n hs)) :
    let l := leaderIn e img
    let mb := fun i => modeBlockIn e (img.drop ((2 + i) * l.sectorSize.toNat + 128))
    Acceptable t l (leaderChecksum img) ∧ lver = l.lver ∧ n = hs.length ∧
    (hs.map Host.hostId).Nodup ∧
    (sh = true ↔ ∃ i, i < l.numHosts.toNat ∧ (mb i).flags.toNat % 2 = 1) ∧
    ∀ x, x ∈ hs ↔
      (l.timestamp ≠ 0 ∧ l.ownerId ≠ 0 ∧ x = ⟨l.ownerId.toNat, l.ownerGeneration, l.timestamp⟩) ∨
      (∃ i, i < l.numHosts.toNat ∧ (mb i).flags.toNat % 2 = 1 ∧ ¬ (l.timestamp ≠ 0 ∧ l.ownerId.toNat = i + 1) ∧
        x = ⟨i + 1, (mb i).generation, 0⟩) := by
  intro l mb
  have h0 := start_sizes hz
  obtain ⟨hv, hal, hcol, hs0⟩ := loop_owners hst (Or.inl h0.2) h
  obtain ⟨h1, h2, h3, h4, h5⟩ := collect_owners hcol
  have hlen : (img.take (leaderAlign (leaderIn e img)).toNat).length = (leaderAlign (leaderIn e img)).toNat := by
    have hc := leaderAlign_cases (leaderIn e img)
    rw [List.length_take, Nat.min_eq_left (Nat.le_trans (by omega) hst.1)]
  rw [hlen] at h3
  have hmb : ∀ i, i < l.numHosts.toNat →
      blockAt e (img.take (leaderAlign (leaderIn e img)).toNat) (leaderIn e img).sectorSize.toNat i = mb i := by
    intro i hi
    rcases h3 with h3 | h3
    · have : l.numHosts.toNat = 0 := h3
      omega
    · refine modeBlockIn_take e img ?_
      have : (2 + i) * (leaderIn e img).sectorSize.toNat ≤ (1 + (leaderIn e img).numHosts.toNat) * (leaderIn e img).sectorSize.toNat :=
        Nat.mul_le_mul_right _ (by have : i < (leaderIn e img).numHosts.toNat := hi; omega)
      omega
  have hsh : ∀ m : ModeBlock, shared m = true ↔ m.flags.toNat % 2 = 1 := by
    intro m
    unfold shared
    rw [bne_iff_ne, ne_eq, ← UInt32.toNat_inj, UInt32.toNat_and]
    have : (1 : UInt32).toNat = 1 := rfl
    rw [this, Nat.and_one_is_mod]
    have : (0 : UInt32).toNat = 0 := rfl
    omega
  have hkeep : ∀ i, i < l.numHosts.toNat →
      (keep e (img.take (leaderAlign (leaderIn e img)).toNat) (leaderIn e img).sectorSize.toNat (leaderIn e img) i = true ↔
        (mb i).flags.toNat % 2 = 1 ∧ ¬ (l.timestamp ≠ 0 ∧ l.ownerId.toNat = i + 1)) := by
    intro i hi
    unfold keep
    rw [hmb i hi, Bool.and_eq_true, hsh, Bool.not_eq_true', Bool.and_eq_false_iff]
    have ho : owned l = false ↔ ¬ (l.timestamp ≠ 0 ∧ l.ownerId ≠ 0) := by
      rw [← Bool.not_eq_true, owned_iff]
    refine and_congr Iff.rfl ?_
    rw [show owned (leaderIn e img) = owned l from rfl, ho, beq_eq_false_iff_ne]
    constructor
    · rintro (hx | hx) ⟨g1, g2⟩
      · refine hx ⟨g1, fun hz => ?_⟩
        rw [hz] at g2
        have : (0 : UInt64).toNat = 0 := rfl
        omega
      · exact hx g2.symm
    · intro hx
      by_cases g : i + 1 = l.ownerId.toNat
      · left; intro ⟨g1, _⟩; exact hx ⟨g1, g.symm⟩
      · exact Or.inr g
  have hmem : ∀ x, x ∈ hs ↔
      (l.timestamp ≠ 0 ∧ l.ownerId ≠ 0 ∧ x = ⟨l.ownerId.toNat, l.ownerGeneration, l.timestamp⟩) ∨
      (∃ i, i < l.numHosts.toNat ∧ (mb i).flags.toNat % 2 = 1 ∧ ¬ (l.timestamp ≠ 0 ∧ l.ownerId.toNat = i + 1) ∧
        x = ⟨i + 1, (mb i).generation, 0⟩) := by
    intro x
    rw [h5, List.mem_append, List.mem_map]
    refine or_congr ?_ ?_
    · unfold ownerEntry
      split
      · rename_i hh; simp [l, hh.1, hh.2]
      · rename_i hh
        simp only [List.not_mem_nil, false_iff]
        rintro ⟨g1, g2, _⟩
        exact hh ⟨g1, g2⟩
    · constructor
      · rintro ⟨i, hi, rfl⟩
        rw [List.mem_filter, List.mem_range] at hi
        have hi1 : i < l.numHosts.toNat := hi.1
        have := (hkeep i hi1).1 hi.2
        exact ⟨i, hi1, this.1, this.2, by rw [hmb i hi1]⟩
      · rintro ⟨i, hi, g1, g2, rfl⟩
        refine ⟨i, ?_, by rw [hmb i hi]⟩
        rw [List.mem_filter, List.mem_range]
        exact ⟨hi, (hkeep i hi).2 ⟨g1, g2⟩⟩
  refine ⟨?_, h1, h2, ?_, ?_, hmem⟩
  · rcases verifyLeader_cases t l (leaderChecksum img) with
      ⟨g, _⟩ | ⟨g, _⟩ | ⟨g, _⟩ | ⟨g, _⟩ | ⟨g, _⟩ | ⟨g, _⟩ | ⟨g, ga⟩
    case inr.inr.inr.inr.inr.inr => exact ga
    all_goals
      exfalso
      have hv' : (0 : Int) ≤ verifyLeader t l (leaderChecksum img) := hv
      rw [g] at hv'
      exact absurd hv' (by decide)
  · rw [h5, List.map_append, List.nodup_append]
    refine ⟨?_, ?_, ?_⟩
    · unfold ownerEntry; split <;> simp
    · rw [List.map_map]
      refine List.pairwise_map.2 (List.Pairwise.imp ?_ (List.nodup_range.filter _))
      intro a b hab heq
      simp only [Function.comp] at heq
      omega
    · intro x hx y hy
      unfold ownerEntry at hx
      split at hx
      · rename_i hh
        simp only [List.map_cons, List.map_nil, List.mem_singleton] at hx
        rw [List.map_map, List.mem_map] at hy
        obtain ⟨i, hi, rfl⟩ := hy
        rw [List.mem_filter, List.mem_range] at hi
        have := (hkeep i hi.1).1 hi.2
        intro heq
        rw [hx] at heq
        exact this.2 ⟨hh.1, heq⟩
      · simp at hx
  · rw [h4]
    constructor
    · rintro ⟨i, hi, g⟩; exact ⟨i, hi, by rw [hmb i hi] at g; exact (hsh _).1 g⟩
    · rintro ⟨i, hi, g⟩; exact ⟨i, hi, by rw [hmb i hi]; exact (hsh _).2 g⟩

/-! ## Areas to read -/

/-- An area that begins with the record `l`. -/
def areaOf (e : Endian) (l : Leader) (tail : List UInt8) : List UInt8 := leaderWrite e l ++ tail

/-- A zeroed area that begins with the record `l`. -/
def area (e : Endian) (l : Leader) : List UInt8 := Init.padTo 8388608 (leaderWrite e l)

theorem leaderWrite_len (e : Endian) (l : Leader) : (leaderWrite e l).length = 200 := by
  unfold leaderWrite leaderOut
  rw [List.length_append, leaderHead_len]
  simp only [List.length_append, putField_eq, leBytes_length]

theorem area_still (e : Endian) (l : Leader) : Still (area e l) (fun _ len => .ok ((area e l).take len)) := by
  refine ⟨?_, fun _ _ => rfl⟩
  unfold area Init.padTo
  rw [List.length_append, List.length_replicate, leaderWrite_len]
  decide

theorem area_block (e : Endian) (l : Leader) {off : Nat} (h1 : 200 ≤ off) (h2 : off + 16 ≤ 8388608) :
    modeBlockIn e ((area e l).drop off) = ⟨0, 0⟩ := by
  unfold area Init.padTo
  rw [List.drop_append, List.drop_eq_nil_of_le (by rw [leaderWrite_len]; exact h1), List.nil_append, leaderWrite_len,
    List.drop_replicate]
  have h : ∀ k, leVal (List.replicate k (0 : UInt8)) = 0 := by
    intro k; induction k with
    | zero => rfl
    | succ k ih => simp [List.replicate_succ, leVal, ih]
  have hb4 : leBytes 4 0 = [0, 0, 0, 0] := by decide
  have hb8 : leBytes 8 0 = [0, 0, 0, 0, 0, 0, 0, 0] := by decide
  cases e <;>
    simp [modeBlockIn, getField, loadNative, leToCpu, cpuToLe, bswap, List.take_replicate, List.drop_replicate, h, hb4, hb8, leVal]

/-- A record that is accepted, with 512-byte sectors and an area of 1M. -/
structure Good (t : Want) (l : Leader) : Prop where
  magic : l.magic = 0x06152010
  version : l.version = 0x00060004
  space : cstr l.spaceName.bytes = cstr t.space
  resource : cstr l.resourceName.bytes = cstr t.resource
  hosts : t.hostId.toNat ≤ l.numHosts.toNat
  sector : l.sectorSize = 512
  flags : l.flags = 0x10

theorem areaOf_sum (e : Endian) (l : Leader) (tail : List UInt8) :
    leaderChecksum (areaOf e l tail) = leaderChecksum (leaderOut e l 0) := by
  unfold areaOf leaderWrite leaderChecksum leaderOut
  congr 2
  rw [List.append_assoc, take_head _ _ 168 (leaderHead_len e l), take_head _ _ 168 (leaderHead_len e l)]

theorem read_areaOf {e : Endian} {t : Want} {l : Leader} {tail : List UInt8} (h : Good t l) (hlen : tail.length = 8388408) :
    readOwners e t 0 0 (fun _ len => .ok ((areaOf e l tail).take len)) 1 =
      some (collect e ((areaOf e l tail).take 1048576) 512 { l with checksum := leaderChecksum (leaderOut e l 0) }) := by
  have hl : leaderIn e (areaOf e l tail) = { l with checksum := leaderChecksum (leaderOut e l 0) } := leader_roundtrip e e l _ _
  have hck : leaderChecksum (areaOf e l tail) = leaderChecksum (leaderOut e l 0) := areaOf_sum e l tail
  unfold readOwners
  simp only [if_true, alignOldInt]
  unfold loop
  have hst : 8388608 ≤ (areaOf e l tail).length := by unfold areaOf; rw [List.length_append, leaderWrite_len]; omega
  rw [pass_eq (by decide) (by decide)]
  simp only [hl, hck]
  have ha : leaderAlign { l with checksum := leaderChecksum (leaderOut e l 0) } = 1048576 := by
    unfold leaderAlign
    simp only [h.flags]
    rfl
  have hs : l.sectorSize.toNat = 512 := by rw [h.sector]; rfl
  rw [ha, hs]
  have hacc : Acceptable t { l with checksum := leaderChecksum (leaderOut e l 0) } (leaderChecksum (leaderOut e l 0)) :=
    ⟨h.magic, by rw [h.version]; decide, h.space, h.resource, h.hosts, rfl⟩
  have hv : verifyLeader t { l with checksum := leaderChecksum (leaderOut e l 0) } (leaderChecksum (leaderOut e l 0)) = Rv.OK := by
    rcases verifyLeader_cases t { l with checksum := leaderChecksum (leaderOut e l 0) } (leaderChecksum (leaderOut e l 0)) with
      ⟨g, g'⟩ | ⟨g, g'⟩ | ⟨g, g'⟩ | ⟨g, g'⟩ | ⟨g, g'⟩ | ⟨g, g'⟩ | ⟨g, _⟩
    · exact absurd hacc.magic g'
    · exact absurd hacc.major g'.2
    · exact absurd hacc.space g'.2.2
    · exact absurd hacc.resource g'.2.2.2
    · have := hacc.hosts; have := g'.2.2.2.2; omega
    · exact absurd hacc.sum g'.2.2.2.2.2
    · exact g
  rw [hv]
  simp only [Rv.OK]
  generalize hco : collect e (List.take 1048576 (areaOf e l tail)) 512 { l with checksum := leaderChecksum (leaderOut e l 0) } = o
  have hco' : collect e (List.take (1048576 : Int).toNat (areaOf e l tail)) (512 : Int).toNat
      { l with checksum := leaderChecksum (leaderOut e l 0) } = o := hco
  rw [hco']
  cases o with
  | again a b => exact absurd hco (collect_again _ _ _ _ _ _)
  | fail rv => simp
  | outside => simp
  | owners a b c d => simp

theorem read_area {e : Endian} {t : Want} {l : Leader} (h : Good t l) :
    readOwners e t 0 0 (fun _ len => .ok ((area e l).take len)) 1 =
      some (collect e ((area e l).take 1048576) 512 { l with checksum := leaderChecksum (leaderOut e l 0) }) := by
  have : area e l = areaOf e l (List.replicate 8388408 0) := by
    unfold area areaOf Init.padTo
    rw [leaderWrite_len]
  rw [this]
  exact read_areaOf h List.length_replicate

theorem area_take_len (e : Endian) (l : Leader) : ((area e l).take 1048576).length = 1048576 := by
  have := (area_still e l).1
  rw [List.length_take, Nat.min_eq_left (by omega)]

/-- The number of hosts in the record is not compared with the size of the area: a record with a valid checksum that claims more
hosts makes the daemon read outside its buffer. -/
theorem owners_outside_violated (e : Endian) (t : Want) {l : Leader} (h : Good t l) (hn : 2047 < l.numHosts.toNat) :
    readOwners e t 0 0 (fun _ len => .ok ((area e l).take len)) 1 = some .outside := by
  rw [read_area h]
  unfold collect
  simp only
  rw [if_pos]
  rw [area_take_len]
  refine ⟨by omega, ?_⟩
  have : (1 + 2048) * 512 ≤ (1 + l.numHosts.toNat) * 512 := Nat.mul_le_mul_right _ (by omega)
  omega

/-- A free record and no markers: no owners. -/
theorem read_free (e : Endian) (t : Want) {l : Leader} (h : Good t l) (hn : l.numHosts.toNat ≤ 2000) (ht : l.timestamp = 0) :
    readOwners e t 0 0 (fun _ len => .ok ((area e l).take len)) 1 = some (.owners l.lver false 0 []) := by
  rw [read_area h]
  have hb : ∀ i, i < l.numHosts.toNat → blockAt e ((area e l).take 1048576) 512 i = ⟨0, 0⟩ := by
    intro i hi
    unfold blockAt
    rw [modeBlockIn_take e _ (by omega)]
    exact area_block e l (by omega) (by omega)
  have hk : ∀ (is : List Nat) (c : Nat) (b : Bool), (∀ i ∈ is, i < l.numHosts.toNat) →
      is.foldl (countStep e ((area e l).take 1048576) 512 { l with checksum := leaderChecksum (leaderOut e l 0) }) (c, b) = (c, b) := by
    intro is
    induction is with
    | nil => intro c b _; rfl
    | cons i is ih =>
      intro c b hi
      rw [List.foldl_cons]
      have : countStep e ((area e l).take 1048576) 512 { l with checksum := leaderChecksum (leaderOut e l 0) } (c, b) i = (c, b) := by
        unfold countStep
        rw [hb i (hi i (by simp))]
        rfl
      rw [this]
      exact ih c b fun j hj => hi j (by simp [hj])
  unfold collect
  simp only
  rw [if_neg]
  · rw [hk _ _ _ (fun i hi => List.mem_range.1 hi)]
    have : owned { l with checksum := leaderChecksum (leaderOut e l 0) } = false := by simp [owned, ht]
    rw [this]
    rfl
  · rw [area_take_len]
    have : (1 + l.numHosts.toNat) * 512 ≤ 2001 * 512 := Nat.mul_le_mul_right _ (by omega)
    omega

/-! ## Owners and holders -/

/-- The leader record in `img` is that of the lease in state `s` (`Verif/Lease.lean`). -/
structure ShowsLeader (e : Endian) (img : List UInt8) (c : Ballot.Cfg) (s : Lease.State) : Prop where
  owner : (leaderIn e img).ownerId.toNat = s.ldr.owner
  gen : (leaderIn e img).ownerGeneration.toNat = s.ldr.gen
  ts : (leaderIn e img).timestamp.toNat = s.ldr.ts
  lver : (leaderIn e img).lver.toNat = s.ldr.lver
  hosts : (leaderIn e img).numHosts.toNat = c.hosts

/-- The block of host index `i` in `img` is that of the lease in state `s`. -/
def ShowsBlock (e : Endian) (img : List UInt8) (s : Lease.State) (i : Nat) : Prop :=
  let m := modeBlockIn e (img.drop ((2 + i) * (leaderIn e img).sectorSize.toNat + 128))
  (m.flags.toNat % 2 = 1 ↔ (s.mark i).isSome = true) ∧ ∀ g, s.mark i = some g → m.generation.toNat = g

theorem ne_zero_of_toNat {x : UInt64} (h : x.toNat ≠ 0) : x ≠ 0 := by
  intro hx; rw [hx] at h; exact h rfl

/-- C49: a host that holds the lease exclusively at the time the leader record is read is listed, with its generation. -/
theorem exclusive_listed {e : Endian} {t : Want} {sector align fuel : Nat} {img : List UInt8}
    {read : Nat → Nat → Except Int (List UInt8)} (hz : Sizes sector align) (hst : Still img read)
    {c : Ballot.Cfg} {s : Lease.State} {p : Nat} (hc : c.hosts ≤ c.maxHosts) (hd : c.disks = 1) (hr : Lease.Reach c s)
    (hl : ShowsLeader e img c s) (hp : Lease.HoldsX s p) {lver : UInt64} {sh : Bool} {n : Nat} {hs : List Host}
    (h : readOwners e t sector align read fuel = some (.owners lver sh n hs)) :
    ∃ x ∈ hs, x.hostId = p + 1 ∧ x.generation.toNat = (s.host p).gen := by
  have hsp := (read_owners_spec hz hst h).2.2.2.2.2
  obtain ⟨h1, h2, h3⟩ := Lease.exclusive_on_disk hc hd hr hp
  refine ⟨_, (hsp _).2 (Or.inl ⟨?_, ?_, rfl⟩), ?_, ?_⟩
  · exact ne_zero_of_toNat (by rw [hl.ts]; exact h3)
  · exact ne_zero_of_toNat (by rw [hl.owner, h1]; omega)
  · simp only [hl.owner, h1]
  · simp only [hl.gen, h2]

/-- C49: a host that shares the lease at the time its block is read is listed; with its generation, unless the leader record
names it as owner and so supplies the generation. -/
theorem shared_listed {e : Endian} {t : Want} {sector align fuel : Nat} {img : List UInt8}
    {read : Nat → Nat → Except Int (List UInt8)} (hz : Sizes sector align) (hst : Still img read)
    {c : Ballot.Cfg} {s : Lease.State} {p : Nat} (hc : c.hosts ≤ c.maxHosts) (hd : c.disks = 1) (hr : Lease.ReachX c s)
    (hn : (leaderIn e img).numHosts.toNat = c.hosts)
    (hb : ShowsBlock e img s p) (hp : Lease.Sharing s p) {lver : UInt64} {sh : Bool} {n : Nat} {hs : List Host}
    (h : readOwners e t sector align read fuel = some (.owners lver sh n hs)) :
    sh = true ∧ ∃ x ∈ hs, x.hostId = p + 1 ∧
      (x.generation.toNat = (s.host p).gen ∨
        ((leaderIn e img).ownerId.toNat = p + 1 ∧ x.generation = (leaderIn e img).ownerGeneration)) := by
  have hsp := read_owners_spec hz hst h
  obtain ⟨l, hpl⟩ := Option.ne_none_iff_exists'.1 hp
  have hi2 := Lease.inv2_reach hc hd hr
  have hm := (hi2.shr p l hpl).mark
  have hlt : p < c.hosts := by
    obtain ⟨low, hi, _⟩ := Lease.inv_reach hc hd (Lease.reach_of_reachX hr)
    refine ((hi.host p).alive ?_).2
    intro hh
    rw [hh] at hpl
    cases hpl
  have hfl : (modeBlockIn e (img.drop ((2 + p) * (leaderIn e img).sectorSize.toNat + 128))).flags.toNat % 2 = 1 :=
    hb.1.2 (by rw [hm]; rfl)
  have hg := hb.2 _ hm
  refine ⟨hsp.2.2.2.2.1.2 ⟨p, by rw [hn]; exact hlt, hfl⟩, ?_⟩
  by_cases ho : (leaderIn e img).timestamp ≠ 0 ∧ (leaderIn e img).ownerId.toNat = p + 1
  · refine ⟨_, (hsp.2.2.2.2.2 _).2 (Or.inl ⟨ho.1, ?_, rfl⟩), ho.2, Or.inr ⟨ho.2, rfl⟩⟩
    exact ne_zero_of_toNat (by rw [ho.2]; omega)
  · refine ⟨_, (hsp.2.2.2.2.2 _).2 (Or.inr ⟨p, by rw [hn]; exact hlt, hfl, ho, rfl⟩), rfl, Or.inl hg⟩

/-- C49: when the area is read at one moment, every host that holds the lease at that moment, exclusively or shared, is listed. -/
theorem holders_listed {e : Endian} {t : Want} {sector align fuel : Nat} {img : List UInt8}
    {read : Nat → Nat → Except Int (List UInt8)} (hz : Sizes sector align) (hst : Still img read)
    {c : Ballot.Cfg} {s : Lease.State} {p : Nat} (hc : c.hosts ≤ c.maxHosts) (hd : c.disks = 1) (hr : Lease.ReachX c s)
    (hl : ShowsLeader e img c s) (hb : ∀ i < c.hosts, ShowsBlock e img s i) (hp : Lease.HoldsX s p ∨ Lease.Sharing s p)
    {lver : UInt64} {sh : Bool} {n : Nat} {hs : List Host}
    (h : readOwners e t sector align read fuel = some (.owners lver sh n hs)) :
    ∃ x ∈ hs, x.hostId = p + 1 := by
  rcases hp with hp | hp
  · obtain ⟨x, h1, h2, _⟩ := exclusive_listed hz hst hc hd (Lease.reach_of_reachX hr) hl hp h
    exact ⟨x, h1, h2⟩
  · have hlt : p < c.hosts := by
      obtain ⟨l, hpl⟩ := Option.ne_none_iff_exists'.1 hp
      obtain ⟨low, hi, _⟩ := Lease.inv_reach hc hd (Lease.reach_of_reachX hr)
      refine ((hi.host p).alive ?_).2
      intro hh
      rw [hh] at hpl
      cases hpl
    obtain ⟨_, x, h1, h2, _⟩ := shared_listed hz hst hc hd hr hl.hosts (hb p hlt) hp h
    exact ⟨x, h1, h2⟩

/-- What the caller of `sanlock_test_resource_owners` passes on. -/
def Host.toTest (x : Host) : OwnerTest.Host := ⟨x.hostId, x.generation.toNat, 0⟩

/-- C49, C38: read the owners, then test them against the hosts of the lockspace: while a host holds the lease exclusively and
is listed there as alive, the test does not report that the owners are gone. -/
theorem exclusive_tested {e : Endian} {t : Want} {sector align fuel : Nat} {img : List UInt8}
    {read : Nat → Nat → Except Int (List UInt8)} (hz : Sizes sector align) (hst : Still img read)
    {c : Ballot.Cfg} {s : Lease.State} {p : Nat} (hc : c.hosts ≤ c.maxHosts) (hd : c.disks = 1) (hr : Lease.Reach c s)
    (hl : ShowsLeader e img c s) (hp : Lease.HoldsX s p) {lver : UInt64} {sh : Bool} {n : Nat} {hs : List Host}
    (h : readOwners e t sector align read fuel = some (.owners lver sh n hs))
    {hosts : List OwnerTest.Host} {y : OwnerTest.Host} (hf : hosts.find? (fun y => p + 1 == y.hostId) = some y)
    (hy : y.generation = (s.host p).gen) (hlive : y.flags % 16 = 3) :
    OwnerTest.test (hs.map Host.toTest) hosts ≠ (0, 0) := by
  obtain ⟨x, h1, h2, h3⟩ := exclusive_listed hz hst hc hd hr hl hp h
  refine OwnerTest.test_live (o := x.toTest) (List.mem_map.2 ⟨x, h1, rfl⟩) ?_ ?_ hlive
  · simp only [Host.toTest, h2]; exact hf
  · rw [hy]; simp only [Host.toTest, h3]

/-! ## Reading while a holder converts its lease -/

/-- The host owns or shares the lease. -/
def has (s : Lease.State) (p : Nat) : Bool := (s.host p).ph.own?.isSome || (s.host p).ph.shares?.isSome

/-- Steps that satisfy `AllowedX`, while the host has the lease all the time. -/
def runHas (p : Nat) (c : Ballot.Cfg) (s : Lease.State) : List Lease.Act → Option Lease.State
  | [] => if has s p then some s else none
  | a :: rest => if has s p = true ∧ Lease.AllowedX c s a then (Lease.step c s a).bind fun s' => runHas p c s' rest else none

/-- A record for the witness. -/
def witness (lver owner gen ts : UInt64) : Leader := {
  magic := 0x06152010, version := 0x00060004, flags := 0x10, sectorSize := 512, numHosts := 2,
  maxHosts := 2000, ownerId := owner, ownerGeneration := gen, lver := lver, spaceName := exName,
  resourceName := exName, timestamp := ts, unused1 := 0, checksum := 0, unused2 := 0,
  ioTimeout := 10, writeId := 1, writeGeneration := 3, writeTimestamp := 1000 }

def want : Want := ⟨exName.bytes, exName.bytes, 0⟩

theorem witness_good (lver owner gen ts : UInt64) : Good want (witness lver owner gen ts) :=
  ⟨rfl, rfl, rfl, rfl, by simp [want], rfl, rfl⟩

/-- Host index 0 is missing from the list of owners although it has the lease all the time from state `s1` to state `s2`: the
leader record is read in state `a`, the blocks in state `b`. -/
def Missed (s1 s2 a b : Lease.State) : Prop :=
  Lease.ReachX Lease.c2 s1 ∧ (∃ l, runHas 0 Lease.c2 s1 l = some s2) ∧
  ∃ img read lver, Still img read ∧ ShowsLeader .little img Lease.c2 a ∧ (∀ i < 2, ShowsBlock .little img b i) ∧
    readOwners .little want 0 0 read 1 = some (.owners lver false 0 [])

theorem missed_of {s1 s2 a b : Lease.State} {l : List Lease.Act} {x : Lease.Rec} (hr : Lease.ReachX Lease.c2 s1)
    (hl : runHas 0 Lease.c2 s1 l = some s2) (ha : a.ldr = x) (hx : x.ts = 0 ∧ x.lver < 100 ∧ x.owner < 100 ∧ x.gen < 100)
    (hb : b.mark 0 = none ∧ b.mark 1 = none) : Missed s1 s2 a b := by
  obtain ⟨h1, h2, h3, h4⟩ := hx
  have hg := witness_good (.ofNat x.lver) (.ofNat x.owner) (.ofNat x.gen) 0
  have hli : leaderIn .little (area .little (witness (.ofNat x.lver) (.ofNat x.owner) (.ofNat x.gen) 0)) =
      { witness (.ofNat x.lver) (.ofNat x.owner) (.ofNat x.gen) 0 with
        checksum := leaderChecksum (leaderOut .little (witness (.ofNat x.lver) (.ofNat x.owner) (.ofNat x.gen) 0) 0) } :=
    Init.leaderIn_pad _ _ _ _
  have hof : ∀ n, n < 100 → (UInt64.ofNat n).toNat = n := by
    intro n hn
    rw [UInt64.toNat_ofNat', Nat.mod_eq_of_lt]
    exact Nat.lt_of_lt_of_le hn (by decide)
  refine ⟨hr, ⟨l, hl⟩, _, _, _, area_still _ _, ?_, ?_, read_free _ _ hg (by show (2:Nat) ≤ 2000; decide) rfl⟩
  · constructor
    · rw [hli, ha]; exact hof _ h3
    · rw [hli, ha]; exact hof _ h4
    · rw [hli, ha]; exact h1.symm
    · rw [hli, ha]; exact hof _ h2
    · rw [hli]; rfl
  · intro i hi
    unfold ShowsBlock
    simp only [hli]
    have hm : b.mark i = none := by
      rcases (by omega : i = 0 ∨ i = 1) with rfl | rfl
      · exact hb.1
      · exact hb.2
    have h512 : (witness (.ofNat x.lver) (.ofNat x.owner) (.ofNat x.gen) 0).sectorSize.toNat = 512 := rfl
    rw [h512, area_block _ _ (by omega) (by omega), hm]
    simp

/-- The leader record is read before the blocks, while host 0 converts its shared lease to exclusive: it is not listed. -/
theorem torn_convert_up_violated : ∃ s1 s2, Lease.HoldsS s1 0 ∧ Lease.HoldsX s2 0 ∧ Missed s1 s2 s1 s2 := by
  have h : ((Lease.runX Lease.c2 Lease.init ([.join 0, .join 1] ++ Lease.sh 2 0 0 5)).any fun s1 =>
      Lease.isS (s1.host 0).ph && decide (s1.ldr = ⟨1, 1, 1, 0, 1, 1, 5⟩) &&
      (runHas 0 Lease.c2 s1 ([.convert 0, .read 0 1, .check 0] ++ Lease.full 2 0 8 ++
        [.commit 0 .ok 8, .decide 0, .mb 0 Lease.okW])).any fun s2 =>
          Lease.isX (s2.host 0).ph && decide (s2.mark 0 = none) && decide (s2.mark 1 = none)) = true := by decide +kernel
  obtain ⟨s1, e1, h⟩ := Lease.any_spec h
  simp only [Bool.and_eq_true, decide_eq_true_eq] at h
  obtain ⟨⟨h1, h2⟩, h⟩ := h
  obtain ⟨s2, e2, h⟩ := Lease.any_spec h
  simp only [Bool.and_eq_true, decide_eq_true_eq] at h
  exact ⟨s1, s2, Lease.holdsS_of h1, Lease.holdsX_of h.1.1,
    missed_of (Lease.reach_runX .init e1) e2 h2 (by decide) ⟨h.1.2, h.2⟩⟩

/-- The blocks are read before the leader record, while host 0 converts its exclusive lease to shared: it is not listed. -/
theorem torn_convert_down_violated : ∃ s1 s2, Lease.HoldsX s1 0 ∧ Lease.HoldsS s2 0 ∧ Missed s1 s2 s2 s1 := by
  have h : ((Lease.runX Lease.c2 Lease.init ([.join 0, .join 1] ++ Lease.acq 2 0 0 5)).any fun s1 =>
      Lease.isX (s1.host 0).ph && decide (s1.mark 0 = none) && decide (s1.mark 1 = none) &&
      (runHas 0 Lease.c2 s1 [.ex2sh 0 Lease.okW, .relRead 0, .relWrite 0 .ok 9]).any fun s2 =>
          Lease.isS (s2.host 0).ph && decide (s2.ldr = ⟨1, 1, 1, 0, 1, 1, 9⟩)) = true := by decide +kernel
  obtain ⟨s1, e1, h⟩ := Lease.any_spec h
  simp only [Bool.and_eq_true, decide_eq_true_eq] at h
  obtain ⟨⟨⟨h1, h2⟩, h3⟩, h⟩ := h
  obtain ⟨s2, e2, h⟩ := Lease.any_spec h
  simp only [Bool.and_eq_true, decide_eq_true_eq] at h
  exact ⟨s1, s2, Lease.holdsX_of h1, Lease.holdsS_of h.1,
    missed_of (Lease.reach_runX .init e1) e2 h.2 (by decide) ⟨h2, h3⟩⟩

/-! ## Examples -/

/-- The marker of host index 0, with generation 1. -/
def blk : List UInt8 := [1, 0, 0, 0, 0, 0, 0, 0, 1, 0, 0, 0, 0, 0, 0, 0]

/-- The bytes after the record. -/
def tail : List UInt8 := List.replicate 952 0 ++ (blk ++ List.replicate 8387440 0)

theorem tail_len : tail.length = 8388408 := by
  unfold tail
  rw [List.length_append, List.length_append, List.length_replicate, List.length_replicate]
  rfl

theorem zeros_block (n : Nat) : modeBlockIn .little (List.replicate n 0) = ⟨0, 0⟩ := by
  have h' : ∀ k, leVal (List.replicate k (0 : UInt8)) = 0 := by
    intro k; induction k with
    | zero => rfl
    | succ k ih => simp [List.replicate_succ, leVal, ih]
  simp [modeBlockIn, getField, loadNative, leToCpu, cpuToLe, List.take_replicate, List.drop_replicate, h']

theorem tail_block0 (l : Leader) : modeBlockIn .little ((areaOf .little l tail).drop 1152) = ⟨1, 1⟩ := by
  unfold areaOf tail
  rw [List.drop_append, List.drop_eq_nil_of_le (by rw [leaderWrite_len]; decide), List.nil_append, leaderWrite_len,
    List.drop_append, List.drop_eq_nil_of_le (by rw [List.length_replicate]; decide), List.nil_append, List.length_replicate]
  rfl

theorem tail_block1 (l : Leader) : modeBlockIn .little ((areaOf .little l tail).drop 1664) = ⟨0, 0⟩ := by
  unfold areaOf tail
  rw [List.drop_append, List.drop_eq_nil_of_le (by rw [leaderWrite_len]; decide), List.nil_append, leaderWrite_len,
    List.drop_append, List.drop_eq_nil_of_le (by rw [List.length_replicate]; decide), List.nil_append, List.length_replicate,
    List.drop_append, List.drop_eq_nil_of_le (by decide), List.nil_append, List.drop_replicate]
  exact zeros_block _

theorem read_tail (ts : UInt64) (h : ts = 0 ∨ ts = 5) :
    readOwners .little want 0 0 (fun _ len => .ok ((areaOf .little (witness 1 1 1 ts) tail).take len)) 1 =
      some (.owners 1 true 1 [⟨1, 1, ts⟩]) := by
  rw [read_areaOf (witness_good 1 1 1 ts) tail_len]
  have hlen : ((areaOf .little (witness 1 1 1 ts) tail).take 1048576).length = 1048576 := by
    have : (areaOf .little (witness 1 1 1 ts) tail).length = 8388608 := by
      unfold areaOf; rw [List.length_append, leaderWrite_len, tail_len]
    rw [List.length_take, this]; decide
  have h0 : blockAt .little ((areaOf .little (witness 1 1 1 ts) tail).take 1048576) 512 0 = ⟨1, 1⟩ := by
    unfold blockAt; rw [modeBlockIn_take _ _ (by decide)]; exact tail_block0 _
  have h1 : blockAt .little ((areaOf .little (witness 1 1 1 ts) tail).take 1048576) 512 1 = ⟨0, 0⟩ := by
    unfold blockAt; rw [modeBlockIn_take _ _ (by decide)]; exact tail_block1 _
  unfold collect
  simp only [hlen]
  have hr : List.range (witness 1 1 1 ts).numHosts.toNat = [0, 1] := by
    show List.range 2 = [0, 1]; decide
  rw [if_neg (by show ¬ (_ ∧ 1048576 < (1 + 2) * 512 + 144); omega), hr]
  simp only [List.foldl_cons, List.foldl_nil, countStep, fillStep, h0, h1]
  rcases h with rfl | rfl <;> rfl

/-- A host that shares the lease, alone, in an area that shows it: the hypotheses of `shared_listed` and `holders_listed`. -/
example : ∃ s img read, Still img read ∧ Lease.ReachX Lease.c2 s ∧ ShowsLeader .little img Lease.c2 s ∧
    (∀ i < 2, ShowsBlock .little img s i) ∧ Lease.Sharing s 0 ∧
    readOwners .little want 0 0 read 1 = some (.owners 1 true 1 [⟨1, 1, 0⟩]) := by
  have h : ((Lease.runX Lease.c2 Lease.init ([.join 0, .join 1] ++ Lease.sh 2 0 0 5)).any fun s =>
      Lease.isS (s.host 0).ph && decide (s.ldr = ⟨1, 1, 1, 0, 1, 1, 5⟩) && decide (s.mark 0 = some 1) &&
      decide (s.mark 1 = none)) = true := by decide +kernel
  obtain ⟨s, e1, h⟩ := Lease.any_spec h
  simp only [Bool.and_eq_true, decide_eq_true_eq] at h
  obtain ⟨⟨⟨h1, h2⟩, h3⟩, h4⟩ := h
  have hli : leaderIn .little (areaOf .little (witness 1 1 1 0) tail) = _ := leader_roundtrip .little .little _ _ _
  refine ⟨s, areaOf .little (witness 1 1 1 0) tail, _, ⟨?_, fun _ _ => rfl⟩, Lease.reach_runX .init e1, ?_, ?_, ?_,
    read_tail 0 (Or.inl rfl)⟩
  · unfold areaOf; rw [List.length_append, leaderWrite_len, tail_len]; decide
  · constructor <;> rw [hli] <;> first | (rw [h2]; rfl) | rfl
  · intro i hi
    unfold ShowsBlock
    simp only [hli]
    rcases (by omega : i = 0 ∨ i = 1) with rfl | rfl
    · have : modeBlockIn .little ((areaOf .little (witness 1 1 1 0) tail).drop ((2 + 0) * (512 : UInt32).toNat + 128)) = ⟨1, 1⟩ :=
        tail_block0 _
      simp only [witness] at this ⊢
      rw [this, h3]
      simp
    · have : modeBlockIn .little ((areaOf .little (witness 1 1 1 0) tail).drop ((2 + 1) * (512 : UInt32).toNat + 128)) = ⟨0, 0⟩ :=
        tail_block1 _
      simp only [witness] at this ⊢
      rw [this, h4]
      simp
  · intro hh
    obtain ⟨l, hl⟩ := Lease.holdsS_of h1
    rw [hl] at hh
    cases hh

/-- A host that holds the lease exclusively, in an area that shows it: the hypotheses of `exclusive_listed`. -/
example : ∃ s, Lease.Reach Lease.c2 s ∧ ShowsLeader .little (areaOf .little (witness 1 1 1 5) tail) Lease.c2 s ∧ Lease.HoldsX s 0 ∧
    ∃ o, readOwners .little want 0 0 (fun _ len => .ok ((areaOf .little (witness 1 1 1 5) tail).take len)) 1 = some o := by
  have h : ((Lease.runX Lease.c2 Lease.init ([.join 0, .join 1] ++ Lease.acq 2 0 0 5)).any fun s =>
      Lease.isX (s.host 0).ph && decide (s.ldr = ⟨1, 1, 1, 5, 1, 1, 5⟩)) = true := by decide +kernel
  obtain ⟨s, e1, h⟩ := Lease.any_spec h
  simp only [Bool.and_eq_true, decide_eq_true_eq] at h
  have hli : leaderIn .little (areaOf .little (witness 1 1 1 5) tail) = _ := leader_roundtrip .little .little _ _ _
  refine ⟨s, Lease.reach_of_reachX (Lease.reach_runX .init e1), ?_, Lease.holdsX_of h.1, _, read_tail 5 (Or.inr rfl)⟩
  constructor <;> rw [hli] <;> first | (rw [h.2]; rfl) | rfl

/-- A record that claims more hosts than the area has room for. -/
example : Good want { witness 1 1 1 5 with numHosts := 3000 } ∧ 2047 < ({ witness 1 1 1 5 with numHosts := 3000 } : Leader).numHosts.toNat :=
  ⟨⟨rfl, rfl, rfl, rfl, by simp [want], rfl, rfl⟩, by show (2047 : Nat) < 3000; decide⟩

end Sanlock.Owners
