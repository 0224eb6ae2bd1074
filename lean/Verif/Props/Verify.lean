import Verif.Verify
import Verif.Props.Crc
import Verif.Lemmas.Ballot

/-!
# Properties of reading leader records: acceptance (C10), majority reads (C09)
-/

namespace Sanlock.Verify

open OnDisk Crc

/-! ## C10 -/

/-- The C string in a character array of at most 48 bytes. -/
def cstr (l : List UInt8) : List UInt8 := (l.take 48).takeWhile (· ≠ 0)

theorem strncmpEq_iff (n : Nat) (a b : List UInt8) :
    strncmpEq n a b = true ↔ (a.take n).takeWhile (· ≠ 0) = (b.take n).takeWhile (· ≠ 0) := by
  induction n generalizing a b with
  | zero => simp [strncmpEq]
  | succ n ih =>
    unfold strncmpEq
    cases a with
    | nil =>
      cases b with
      | nil => simp
      | cons y b =>
        by_cases hy : y = 0
        · simp [hy]
        · simp [hy, Ne.symm hy]
    | cons x a =>
      cases b with
      | nil =>
        by_cases hx : x = 0
        · simp [hx]
        · simp [hx]
      | cons y b =>
        by_cases hxy : x = y
        · subst hxy
          by_cases hx : x = 0
          · simp [hx]
          · have h1 : (List.take (n + 1) (x :: a)).takeWhile (· ≠ 0) =
                x :: (a.take n).takeWhile (· ≠ 0) := by simp [hx]
            have h2 : (List.take (n + 1) (x :: b)).takeWhile (· ≠ 0) =
                x :: (b.take n).takeWhile (· ≠ 0) := by simp [hx]
            rw [h1, h2]
            simp only [List.headD_cons, ne_eq, not_true_eq_false, if_false, hx, List.tail_cons, ih,
              List.cons.injEq, true_and]
        · by_cases hx : x = 0
          · have hy : y ≠ 0 := fun h => hxy (by rw [hx, h])
            simp [hx, hy, Ne.symm hy]
          · by_cases hy : y = 0
            · simp [hx, hy]
            · simp [hx, hy, hxy]

theorem and_major (n : Nat) : n &&& 0xFFFF0000 = n / 65536 % 65536 * 65536 := by
  apply Nat.eq_of_testBit_eq
  intro i
  have h1 : (0xFFFF0000 : Nat) = (2 ^ 16 - 1) <<< 16 := by decide
  have h2 : n / 65536 % 65536 * 65536 = (n / 2 ^ 16 % 2 ^ 16) <<< 16 := by
    rw [Nat.shiftLeft_eq]
  rw [Nat.testBit_and, h1, h2, Nat.testBit_shiftLeft, Nat.testBit_shiftLeft,
    Nat.testBit_two_pow_sub_one, Nat.testBit_mod_two_pow, Nat.testBit_div_two_pow]
  by_cases hi : 16 ≤ i
  · rw [show i - 16 + 16 = i by omega]
    by_cases h : i - 16 < 16 <;> simp [hi, h]
  · simp [hi]

theorem major_iff (v : UInt32) (m : UInt32) (k : Nat) (hm : m.toNat = k * 65536) :
    v &&& 0xFFFF0000 = m ↔ v.toNat / 65536 = k := by
  rw [← UInt32.toNat_inj, UInt32.toNat_and, hm]
  have : (0xFFFF0000 : UInt32).toNat = 0xFFFF0000 := by decide
  rw [this, and_major]
  have := v.toNat_lt
  rw [Nat.mod_eq_of_lt (by omega)]
  omega

/-- The record may be used for this request: right kind and major version of the format, requested
lockspace and resource names, room for the host, matching checksum. -/
structure Acceptable (t : Want) (l : Leader) (checksum : UInt32) : Prop where
  magic : l.magic = 0x06152010
  major : l.version.toNat / 65536 = 6
  space : cstr l.spaceName.bytes = cstr t.space
  resource : cstr l.resourceName.bytes = cstr t.resource
  hosts : t.hostId.toNat ≤ l.numHosts.toNat
  sum : l.checksum = checksum

theorem clear_ne_magic : paxosClear ≠ paxosMagic := by decide

theorem verifyLeader_cases (t : Want) (l : Leader) (ck : UInt32) :
    (verifyLeader t l ck = Rv.LEADER_MAGIC ∧ l.magic ≠ 0x06152010) ∨
    (verifyLeader t l ck = Rv.LEADER_VERSION ∧ l.magic = 0x06152010 ∧ l.version.toNat / 65536 ≠ 6) ∨
    (verifyLeader t l ck = Rv.LEADER_LOCKSPACE ∧ l.magic = 0x06152010 ∧ l.version.toNat / 65536 = 6 ∧
      cstr l.spaceName.bytes ≠ cstr t.space) ∨
    (verifyLeader t l ck = Rv.LEADER_RESOURCE ∧ l.magic = 0x06152010 ∧ l.version.toNat / 65536 = 6 ∧
      cstr l.spaceName.bytes = cstr t.space ∧ cstr l.resourceName.bytes ≠ cstr t.resource) ∨
    (verifyLeader t l ck = Rv.LEADER_NUMHOSTS ∧ l.magic = 0x06152010 ∧ l.version.toNat / 65536 = 6 ∧
      cstr l.spaceName.bytes = cstr t.space ∧ cstr l.resourceName.bytes = cstr t.resource ∧
      l.numHosts.toNat < t.hostId.toNat) ∨
    (verifyLeader t l ck = Rv.LEADER_CHECKSUM ∧ l.magic = 0x06152010 ∧ l.version.toNat / 65536 = 6 ∧
      cstr l.spaceName.bytes = cstr t.space ∧ cstr l.resourceName.bytes = cstr t.resource ∧
      t.hostId.toNat ≤ l.numHosts.toNat ∧ l.checksum ≠ ck) ∨
    (verifyLeader t l ck = Rv.OK ∧ Acceptable t l ck) := by
  unfold verifyLeader
  have hmaj := major_iff l.version paxosMajor 6 (by decide)
  have hs := strncmpEq_iff 48 l.spaceName.bytes t.space
  have hr := strncmpEq_iff 48 l.resourceName.bytes t.resource
  by_cases h0 : l.magic = paxosClear
  · left; rw [if_pos h0]; exact ⟨rfl, by rw [h0]; decide⟩
  rw [if_neg h0]
  by_cases h1 : l.magic = paxosMagic
  case neg => left; rw [if_pos h1]; exact ⟨rfl, h1⟩
  rw [if_neg (by simpa using h1)]
  right
  by_cases h2 : l.version &&& 0xFFFF0000 = paxosMajor
  case neg => left; rw [if_pos h2]; exact ⟨rfl, h1, fun h => h2 (hmaj.mpr h)⟩
  rw [if_neg (by simpa using h2)]
  right
  have h2' := hmaj.mp h2
  by_cases h3 : strncmpEq 48 l.spaceName.bytes t.space = true
  case neg =>
    left
    rw [if_pos (by simpa using h3)]
    exact ⟨rfl, h1, h2', fun h => h3 (hs.mpr h)⟩
  rw [if_neg (by simp [h3])]
  right
  have h3' : cstr l.spaceName.bytes = cstr t.space := hs.mp h3
  by_cases h4 : strncmpEq 48 l.resourceName.bytes t.resource = true
  case neg =>
    left
    rw [if_pos (by simpa using h4)]
    exact ⟨rfl, h1, h2', h3', fun h => h4 (hr.mpr h)⟩
  rw [if_neg (by simp [h4])]
  right
  have h4' : cstr l.resourceName.bytes = cstr t.resource := hr.mp h4
  by_cases h5 : l.numHosts < t.hostId
  · left
    rw [if_pos h5]
    exact ⟨rfl, h1, h2', h3', h4', UInt64.lt_iff_toNat_lt.mp h5⟩
  rw [if_neg h5]
  right
  have h5' : t.hostId.toNat ≤ l.numHosts.toNat := by
    have := mt UInt64.lt_iff_toNat_lt.mpr h5
    omega
  by_cases h6 : l.checksum = ck
  · right
    rw [if_neg (by simpa using h6)]
    exact ⟨rfl, ⟨h1, h2', h3', h4', h5', h6⟩⟩
  · left
    rw [if_pos h6]
    exact ⟨rfl, h1, h2', h3', h4', h5', h6⟩

/-- **C10.** Reading a lease sector succeeds exactly if the record in it is acceptable. -/
theorem read_accepts_iff (e : Endian) (t : Want) (buf : List UInt8) (l : Leader) :
    leaderReadOne e t (.ok buf) = .ok l ↔
      l = leaderIn e buf ∧ Acceptable t (leaderIn e buf) (leaderChecksum buf) := by
  unfold leaderReadOne verifyPaxosSector
  rcases verifyLeader_cases t (leaderIn e buf) (leaderChecksum buf) with
    ⟨h, g⟩ | ⟨h, g⟩ | ⟨h, g⟩ | ⟨h, g⟩ | ⟨h, g⟩ | ⟨h, g⟩ | ⟨h, g⟩ <;> simp only [h]
  case inr.inr.inr.inr.inr.inr =>
    simp only [if_true, Except.ok.injEq, g, and_true]
    exact eq_comm
  all_goals
    rw [if_neg (by decide)]
    constructor
    · intro hh; simp at hh
    · rintro ⟨_, ⟨a1, a2, a3, a4, a5, a6⟩⟩
      exfalso
      first
      | exact g a1
      | exact g.2 a2
      | exact g.2.2 a3
      | exact g.2.2.2 a4
      | (have := g.2.2.2.2; omega)
      | exact g.2.2.2.2.2 a6

/-- **C10.** Each error code is returned exactly for the first condition that fails. -/
theorem read_error_specific (t : Want) (l : Leader) (ck : UInt32) :
    (verifyLeader t l ck = -223 ↔ l.magic ≠ 0x06152010) ∧
    (verifyLeader t l ck = -224 ↔ l.magic = 0x06152010 ∧ l.version.toNat / 65536 ≠ 6) ∧
    (verifyLeader t l ck = -226 ↔ l.magic = 0x06152010 ∧ l.version.toNat / 65536 = 6 ∧
      cstr l.spaceName.bytes ≠ cstr t.space) ∧
    (verifyLeader t l ck = -227 ↔ l.magic = 0x06152010 ∧ l.version.toNat / 65536 = 6 ∧
      cstr l.spaceName.bytes = cstr t.space ∧ cstr l.resourceName.bytes ≠ cstr t.resource) ∧
    (verifyLeader t l ck = -228 ↔ l.magic = 0x06152010 ∧ l.version.toNat / 65536 = 6 ∧
      cstr l.spaceName.bytes = cstr t.space ∧ cstr l.resourceName.bytes = cstr t.resource ∧
      l.numHosts.toNat < t.hostId.toNat) ∧
    (verifyLeader t l ck = -229 ↔ l.magic = 0x06152010 ∧ l.version.toNat / 65536 = 6 ∧
      cstr l.spaceName.bytes = cstr t.space ∧ cstr l.resourceName.bytes = cstr t.resource ∧
      t.hostId.toNat ≤ l.numHosts.toNat ∧ l.checksum ≠ ck) := by
  rcases verifyLeader_cases t l ck with
    ⟨h, g⟩ | ⟨h, g⟩ | ⟨h, g⟩ | ⟨h, g⟩ | ⟨h, g⟩ | ⟨h, g⟩ | ⟨h, ⟨a1, a2, a3, a4, a5, a6⟩⟩ <;>
    simp only [h, Rv.LEADER_MAGIC, Rv.LEADER_VERSION, Rv.LEADER_LOCKSPACE, Rv.LEADER_RESOURCE,
      Rv.LEADER_NUMHOSTS, Rv.LEADER_CHECKSUM, Rv.OK]
  · simp [g]
  · simp [g]
  · simp [g]
  · simp [g]
  · obtain ⟨g1, g2, g3, g4, g5⟩ := g
    have g6 : ¬ t.hostId.toNat ≤ l.numHosts.toNat := by omega
    simp [g1, g2, g3, g4, g5, g6]
  · obtain ⟨g1, g2, g3, g4, g5, g6⟩ := g
    have g7 : ¬ l.numHosts.toNat < t.hostId.toNat := by omega
    simp [g1, g2, g3, g4, g5, g6, g7]
  · have a7 : ¬ l.numHosts.toNat < t.hostId.toNat := by omega
    simp [a1, a2, a3, a4, a5, a6, a7]

/-- **C10** for host leases (`delta_lease_leader_read`). -/
theorem delta_read_accepts_iff (e : Endian) (space : List UInt8) (buf : List UInt8) :
    verifyDeltaSector e space buf = Rv.OK ↔
      (leaderIn e buf).magic = 0x12212010 ∧ (leaderIn e buf).version.toNat / 65536 = 3 ∧
      cstr (leaderIn e buf).spaceName.bytes = cstr space ∧
      (leaderIn e buf).checksum = leaderChecksum buf := by
  unfold verifyDeltaSector verifyDelta
  have hmaj := major_iff (leaderIn e buf).version deltaMajor 3 (by decide)
  have hs := strncmpEq_iff 48 (leaderIn e buf).spaceName.bytes space
  have hm : deltaMagic = 0x12212010 := rfl
  rw [← hmaj]
  have hs' : strncmpEq 48 (leaderIn e buf).spaceName.bytes space = true ↔
      cstr (leaderIn e buf).spaceName.bytes = cstr space := hs
  rw [← hs']
  by_cases h1 : (leaderIn e buf).magic = deltaMagic <;>
  by_cases h2 : (leaderIn e buf).version &&& 0xFFFF0000 = deltaMajor <;>
  by_cases h3 : strncmpEq 48 (leaderIn e buf).spaceName.bytes space = true <;>
  by_cases h4 : (leaderIn e buf).checksum = leaderChecksum buf <;>
  simp [h1, h2, h3, h4, Rv.OK, Rv.LEADER_MAGIC, Rv.LEADER_VERSION, Rv.LEADER_LOCKSPACE,
    Rv.LEADER_CHECKSUM, hm] <;> simp_all

/-- Non-vacuity of C10: a record written by the code is accepted by the host it was written for and
rejected for another resource. -/
def exWant : Want := { space := List.replicate 48 65, resource := List.replicate 48 65, hostId := 5 }

def exRec : Leader :=
  { exLeader with magic := 0x06152010, version := 0x00060004, numHosts := 2000 }

set_option maxRecDepth 20000 in
example : verifyPaxosSector .little exWant (leaderWrite .big exRec) = 1 ∧
    verifyPaxosSector .little { exWant with resource := [66, 0] } (leaderWrite .big exRec) = -227 := by
  decide

/-! ## C09 -/

/-- The part of a record that the majority comparison looks at. -/
def SameOwner (a b : Leader) : Prop :=
  a.ownerId = b.ownerId ∧ a.ownerGeneration = b.ownerGeneration ∧ a.lver = b.lver ∧
  a.numHosts = b.numHosts ∧ a.maxHosts = b.maxHosts ∧ a.magic = b.magic ∧ a.version = b.version ∧
  a.flags = b.flags ∧ a.sectorSize = b.sectorSize ∧ a.spaceName = b.spaceName ∧
  a.resourceName = b.resourceName

theorem leadersMatch_iff (a b : Leader) : leadersMatch a b = true ↔ SameOwner a b := by
  unfold leadersMatch SameOwner
  simp only [Bool.and_eq_true, beq_iff_eq, decide_eq_true_eq]
  constructor
  · rintro ⟨⟨⟨⟨⟨⟨⟨⟨⟨⟨h1, h2⟩, h3⟩, h4⟩, h5⟩, h6⟩, h7⟩, h8⟩, h9⟩, h10⟩, h11⟩
    exact ⟨h7, h8, h9, h5, h6, h1, h2, h3, h4, h10, h11⟩
  · rintro ⟨h7, h8, h9, h5, h6, h1, h2, h3, h4, h10, h11⟩
    exact ⟨⟨⟨⟨⟨⟨⟨⟨⟨⟨h1, h2⟩, h3⟩, h4⟩, h5⟩, h6⟩, h7⟩, h8⟩, h9⟩, h10⟩, h11⟩

theorem SameOwner.refl (a : Leader) : SameOwner a a := by simp [SameOwner]
theorem SameOwner.symm {a b : Leader} (h : SameOwner a b) : SameOwner b a := by
  unfold SameOwner at *; simp [h]
theorem SameOwner.trans {a b c : Leader} (h : SameOwner a b) (h' : SameOwner b c) : SameOwner a c := by
  unfold SameOwner at *; simp [h, h']

/-- Number of disks that were read and verified and agree with a record. -/
def votesFor (l : Leader) (disks : List DiskRead) : Nat :=
  (disks.filter fun r => r.ok && leadersMatch r.leader l).length

/-- More than half. -/
def Majority (n k : Nat) : Prop := n < 2 * k

theorem majority_iff (n k : Nat) : Ballot.majority n k = true ↔ Majority n k ∧ k ≠ 0 ∨ (n = 0 ∧ k ≠ 0) := by
  unfold Ballot.majority Majority
  split
  · rename_i h; simp [h.1, h.2]
  · split
    · simp only [decide_eq_true_eq]; omega
    · split
      · simp only [true_iff]; omega
      · split <;> simp <;> omega

/-- The counts are bounded by the votes. -/
theorem bumpFirst_map (l : Leader) (acc : List (Leader × Nat)) :
    (bumpFirst l acc).map (·.1) = acc.map (·.1) := by
  induction acc with
  | nil => rfl
  | cons a acc ih =>
    obtain ⟨m, n⟩ := a
    unfold bumpFirst
    split <;> simp [ih]

theorem reps_append (disks : List DiskRead) (r : DiskRead) :
    reps (disks ++ [r]) = addRead (reps disks) r := by
  simp [reps, List.foldl_append]

theorem bumpFirst_mem {l : Leader} {acc : List (Leader × Nat)} {x : Leader × Nat}
    (h : x ∈ bumpFirst l acc) : x ∈ acc ∨ (leadersMatch l x.1 = true ∧ ∃ n, (x.1, n) ∈ acc ∧ x.2 = n + 1) := by
  induction acc with
  | nil => simp [bumpFirst] at h
  | cons a acc ih =>
    obtain ⟨m, n⟩ := a
    unfold bumpFirst at h
    split at h
    · rename_i hm
      rcases List.mem_cons.mp h with rfl | h
      · exact Or.inr ⟨hm, n, List.mem_cons_self, rfl⟩
      · exact Or.inl (List.mem_cons_of_mem _ h)
    · rcases List.mem_cons.mp h with rfl | h
      · exact Or.inl List.mem_cons_self
      · rcases ih h with h | ⟨h1, k, h2, h3⟩
        · exact Or.inl (List.mem_cons_of_mem _ h)
        · exact Or.inr ⟨h1, k, List.mem_cons_of_mem _ h2, h3⟩

theorem votesFor_append (l : Leader) (disks : List DiskRead) (r : DiskRead) :
    votesFor l (disks ++ [r]) = votesFor l disks + if r.ok && leadersMatch r.leader l then 1 else 0 := by
  unfold votesFor
  rw [List.filter_append, List.length_append]
  split <;> simp [*]

theorem list_snoc_induction {α : Type} {P : List α → Prop} (h0 : P [])
    (h1 : ∀ l a, P l → P (l ++ [a])) (l : List α) : P l := by
  have : ∀ m : List α, P m.reverse := by
    intro m
    induction m with
    | nil => simpa
    | cons a m ih => rw [List.reverse_cons]; exact h1 _ _ ih
  simpa using this l.reverse

theorem reps_le (disks : List DiskRead) :
    ∀ x ∈ reps disks, x.2 ≤ votesFor x.1 disks ∧ ∃ r ∈ disks, r.leader = x.1 := by
  induction disks using list_snoc_induction with
  | h0 => simp [reps]
  | h1 ds r ih =>
    intro x hx
    rw [reps_append] at hx
    rw [votesFor_append]
    unfold addRead at hx
    split at hx
    · rename_i hok
      rcases List.mem_append.mp hx with hx | hx
      · rcases bumpFirst_mem hx with hx | ⟨hm, n, hn, he⟩
        · obtain ⟨h1, r', hr', h2⟩ := ih x hx
          exact ⟨by omega, r', List.mem_append_left _ hr', h2⟩
        · obtain ⟨h1, r', hr', h2⟩ := ih _ hn
          simp only at h1 h2
          refine ⟨?_, r', List.mem_append_left _ hr', h2⟩
          simp only [hok, hm, Bool.and_self, if_true]
          omega
      · simp only [List.mem_singleton] at hx
        subst hx
        refine ⟨?_, r, by simp, rfl⟩
        have : leadersMatch r.leader r.leader = true := (leadersMatch_iff _ _).mpr (SameOwner.refl _)
        simp [hok, this]
    · rcases List.mem_append.mp hx with hx | hx
      · obtain ⟨h1, r', hr', h2⟩ := ih x hx
        exact ⟨by omega, r', List.mem_append_left _ hr', h2⟩
      · simp only [List.mem_singleton] at hx
        subst hx
        exact ⟨Nat.zero_le _, r, by simp, rfl⟩

/-- The first matching entry collects all the votes. -/
theorem reps_first (disks : List DiskRead) (l : Leader) :
    votesFor l disks = 0 ∨ ∃ pre x post, reps disks = pre ++ x :: post ∧ leadersMatch l x.1 = true ∧
      (∀ y ∈ pre, leadersMatch l y.1 = false) ∧ x.2 = votesFor l disks := by
  suffices h : (∃ pre x post, reps disks = pre ++ x :: post ∧ leadersMatch l x.1 = true ∧
      (∀ y ∈ pre, leadersMatch l y.1 = false) ∧ x.2 = votesFor l disks) ∨
      ((∀ y ∈ reps disks, leadersMatch l y.1 = false) ∧ votesFor l disks = 0) by
    rcases h with h | h
    · exact Or.inr h
    · exact Or.inl h.2
  have hsymm : ∀ a b, leadersMatch a b = leadersMatch b a := by
    intro a b
    rw [Bool.eq_iff_iff, leadersMatch_iff, leadersMatch_iff]
    exact ⟨SameOwner.symm, SameOwner.symm⟩
  induction disks using list_snoc_induction with
  | h0 => right; simp [reps, votesFor]
  | h1 ds r ih =>
    have hbump_skip : ∀ (r : Leader) (pre rest : List (Leader × Nat)),
        (∀ y ∈ pre, leadersMatch r y.1 = false) → bumpFirst r (pre ++ rest) = pre ++ bumpFirst r rest := by
      intro r pre rest
      induction pre with
      | nil => intro _; rfl
      | cons a pre ih =>
        intro h
        obtain ⟨m, n⟩ := a
        have := h (m, n) List.mem_cons_self
        simp only at this
        simp only [List.cons_append, bumpFirst, this]
        rw [ih fun y hy => h y (List.mem_cons_of_mem _ hy)]
        simp
    rw [reps_append, votesFor_append]
    by_cases hm : leadersMatch r.leader l = true
    · have hlr : ∀ x, leadersMatch r.leader x = leadersMatch l x := by
        intro x
        have h1 := (leadersMatch_iff _ _).mp hm
        rw [Bool.eq_iff_iff, leadersMatch_iff, leadersMatch_iff]
        exact ⟨fun h => h1.symm.trans h, fun h => h1.trans h⟩
      rcases ih with ⟨pre, x, post, h1, h2, h3, h4⟩ | ⟨h1, h2⟩
      · left
        unfold addRead
        by_cases hok : r.ok = true
        · refine ⟨pre, (x.1, x.2 + 1), post ++ [(r.leader, 1)], ?_, h2, h3, ?_⟩
          · rw [if_pos hok, h1, hbump_skip _ _ _ (fun y hy => by rw [hlr]; exact h3 y hy)]
            obtain ⟨m, n⟩ := x
            simp only at h2
            simp [bumpFirst, hlr, h2]
          · simp [hok, hm, h4]
        · refine ⟨pre, x, post ++ [(r.leader, 0)], ?_, h2, h3, ?_⟩
          · rw [if_neg hok, h1]; simp
          · simp [hok, h4]
      · left
        unfold addRead
        by_cases hok : r.ok = true
        · refine ⟨reps ds, (r.leader, 1), [], ?_, by rw [← hlr]; exact (leadersMatch_iff _ _).mpr (SameOwner.refl _), h1, ?_⟩
          · rw [if_pos hok]
            congr 1
            have := hbump_skip r.leader (reps ds) [] (fun y hy => by rw [hlr]; exact h1 y hy)
            simpa [bumpFirst] using this
          · simp [hok, hm, h2]
        · refine ⟨reps ds, (r.leader, 0), [], ?_, by rw [← hlr]; exact (leadersMatch_iff _ _).mpr (SameOwner.refl _), h1, ?_⟩
          · rw [if_neg hok]
          · simp [hok, h2]
    · have hm' : leadersMatch r.leader l = false := by simpa using hm
      have hlr : ∀ x, leadersMatch l x = true → leadersMatch r.leader x = false := by
        intro x hx
        refine Classical.byContradiction fun hc => ?_
        have hc' : leadersMatch r.leader x = true := by simpa using hc
        exact hm ((leadersMatch_iff _ _).mpr
          (((leadersMatch_iff _ _).mp hc').trans ((leadersMatch_iff _ _).mp hx).symm))
      have hbump_keep : ∀ (acc pre post : List (Leader × Nat)) (x : Leader × Nat),
          acc = pre ++ x :: post → leadersMatch l x.1 = true →
          (∀ y ∈ pre, leadersMatch l y.1 = false) →
          ∃ pre' post', bumpFirst r.leader acc = pre' ++ x :: post' ∧
            ∀ y ∈ pre', leadersMatch l y.1 = false := by
        intro acc pre
        induction pre generalizing acc with
        | nil =>
          intro post x h1 h2 _
          obtain ⟨m, n⟩ := x
          refine ⟨[], bumpFirst r.leader post, ?_, by simp⟩
          rw [h1]
          simp only [List.nil_append, bumpFirst, hlr _ h2]
          rfl
        | cons a pre ih =>
          intro post x h1 h2 h3
          obtain ⟨m, n⟩ := a
          subst h1
          simp only [List.cons_append, bumpFirst]
          split
          · refine ⟨(m, n + 1) :: pre, post, rfl, ?_⟩
            intro y hy
            rcases List.mem_cons.mp hy with rfl | hy
            · exact h3 (m, n) List.mem_cons_self
            · exact h3 y (List.mem_cons_of_mem _ hy)
          · obtain ⟨pre', post', h4, h5⟩ := ih _ post x rfl h2 (fun y hy => h3 y (List.mem_cons_of_mem _ hy))
            refine ⟨(m, n) :: pre', post', by rw [h4]; rfl, ?_⟩
            intro y hy
            rcases List.mem_cons.mp hy with rfl | hy
            · exact h3 (m, n) List.mem_cons_self
            · exact h5 y hy
      have hv : (if (r.ok && leadersMatch r.leader l) = true then 1 else 0) = 0 := by simp [hm']
      rw [hv, Nat.add_zero]
      rcases ih with ⟨pre, x, post, h1, h2, h3, h4⟩ | ⟨h1, h2⟩
      · left
        unfold addRead
        split
        · obtain ⟨pre', post', h5, h6⟩ := hbump_keep _ pre post x h1 h2 h3
          exact ⟨pre', x, post' ++ [(r.leader, 1)], by rw [h5]; simp, h2, h6, h4⟩
        · exact ⟨pre, x, post ++ [(r.leader, 0)], by rw [h1]; simp, h2, h3, h4⟩
      · right
        refine ⟨?_, h2⟩
        have hlast : leadersMatch l r.leader = false := by rw [hsymm]; exact hm'
        unfold addRead
        split
        · intro y hy
          rcases List.mem_append.mp hy with hy | hy
          · have hy2 : y.1 ∈ (bumpFirst r.leader (reps ds)).map (·.1) := List.mem_map_of_mem hy
            rw [bumpFirst_map] at hy2
            obtain ⟨z, hz, hzy⟩ := List.mem_map.mp hy2
            rw [← hzy]; exact h1 z hz
          · simp only [List.mem_singleton] at hy
            rw [hy]; exact hlast
        · intro y hy
          rcases List.mem_append.mp hy with hy | hy
          · exact h1 y hy
          · simp only [List.mem_singleton] at hy
            rw [hy]; exact hlast

theorem pick_some {n : Nat} {acc : List (Leader × Nat)} {l : Leader} (h : pick n acc = some l) :
    ∃ k, (l, k) ∈ acc ∧ Ballot.majority n k = true := by
  induction acc with
  | nil => simp [pick] at h
  | cons a acc ih =>
    obtain ⟨m, k⟩ := a
    unfold pick at h
    split at h
    · rename_i hk
      simp only [Option.some.injEq] at h
      subst h
      exact ⟨k, List.mem_cons_self, hk⟩
    · obtain ⟨k, h1, h2⟩ := ih h
      exact ⟨k, List.mem_cons_of_mem _ h1, h2⟩

theorem pick_isSome {n : Nat} {acc : List (Leader × Nat)} {x : Leader × Nat} (hx : x ∈ acc)
    (hm : Ballot.majority n x.2 = true) : ∃ l, pick n acc = some l := by
  induction acc with
  | nil => simp at hx
  | cons a acc ih =>
    obtain ⟨m, k⟩ := a
    unfold pick
    split
    · exact ⟨m, rfl⟩
    · rename_i hk
      rcases List.mem_cons.mp hx with rfl | hx
      · exact absurd hm hk
      · exact ih hx

/-- **C09.** If a read from several disks succeeds, then more than half of the disks were read, passed
verification and agree with the returned record in everything the comparison covers. -/
theorem majority_read_sound {disks : List DiskRead} {l : Leader} (h : leaderReadNum disks = .ok l) :
    disks.length < 2 * votesFor l disks := by
  unfold leaderReadNum at h
  split at h
  · simp at h
  · split at h
    · simp at h
    · rename_i l' hp
      simp only [Except.ok.injEq] at h
      subst h
      obtain ⟨k, hk, hm⟩ := pick_some hp
      have := (reps_le disks _ hk).1
      simp only at this
      rcases (majority_iff _ _).mp hm with ⟨h1, h2⟩ | ⟨h1, h2⟩
      · unfold Majority at h1; omega
      · omega

theorem votes_disjoint {a b : Leader} (h : ¬ SameOwner a b) (disks : List DiskRead) :
    votesFor a disks + votesFor b disks ≤ disks.length := by
  induction disks with
  | nil => simp [votesFor]
  | cons r ds ih =>
    have hcons : ∀ l, votesFor l (r :: ds) =
        (if r.ok && leadersMatch r.leader l then 1 else 0) + votesFor l ds := by
      intro l
      unfold votesFor
      simp only [List.filter_cons]
      split <;> simp [Nat.add_comm]
    rw [hcons, hcons, List.length_cons]
    have : ¬ ((r.ok && leadersMatch r.leader a) = true ∧ (r.ok && leadersMatch r.leader b) = true) := by
      rintro ⟨h1, h2⟩
      simp only [Bool.and_eq_true] at h1 h2
      exact h (((leadersMatch_iff _ _).mp h1.2).symm.trans ((leadersMatch_iff _ _).mp h2.2))
    by_cases h1 : (r.ok && leadersMatch r.leader a) = true <;>
      by_cases h2 : (r.ok && leadersMatch r.leader b) = true
    · exact absurd ⟨h1, h2⟩ this
    all_goals simp only [h1, h2, if_true]; simp; omega

/-- **C09.** At most one owner/version can be returned, and if more than half of the disks hold (readable
and verified) one record, a record with that owner and version is returned. -/
theorem majority_read_unique {disks : List DiskRead} {m : Leader}
    (hm : disks.length < 2 * votesFor m disks) :
    ∃ l, leaderReadNum disks = .ok l ∧ SameOwner l m := by
  have hv0 : votesFor m disks ≠ 0 := by omega
  have hle : votesFor m disks ≤ (disks.filter (·.ok)).length := by
    unfold votesFor
    have : (disks.filter fun r => r.ok && leadersMatch r.leader m)
        = (disks.filter (·.ok)).filter fun r => leadersMatch r.leader m := by
      rw [List.filter_filter]
      congr 1
      funext r
      rw [Bool.and_comm]
    rw [this]
    exact List.length_filter_le _ _
  have hmaj : Ballot.majority disks.length (disks.filter (·.ok)).length = true := by
    rw [majority_iff]; left; unfold Majority; omega
  rcases reps_first disks m with h0 | ⟨pre, x, post, h1, h2, h3, h4⟩
  · exact absurd h0 hv0
  · have hx : x ∈ reps disks := by rw [h1]; simp
    have hxm : Ballot.majority disks.length x.2 = true := by
      rw [majority_iff, h4]; left; unfold Majority; omega
    obtain ⟨l, hl⟩ := pick_isSome hx hxm
    have hok : leaderReadNum disks = .ok l := by
      unfold leaderReadNum
      simp [hmaj, hl]
    refine ⟨l, hok, ?_⟩
    by_cases hs : SameOwner l m
    · exact hs
    · have := votes_disjoint hs disks
      have := majority_read_sound hok
      omega

/-- **C09.** Two successful reads of the same disk contents, each with its own set of unreadable disks,
return the same owner and version: `reads` pairs what the two reads saw on each disk. -/
theorem majority_reads_agree {reads : List (DiskRead × DiskRead)} {l m : Leader}
    (hsame : ∀ r ∈ reads, r.1.ok = true → r.2.ok = true → r.1.leader = r.2.leader)
    (h1 : leaderReadNum (reads.map (·.1)) = .ok l) (h2 : leaderReadNum (reads.map (·.2)) = .ok m) :
    SameOwner l m := by
  have a := majority_read_sound h1
  have b := majority_read_sound h2
  rw [List.length_map] at a b
  refine Classical.byContradiction fun hne => ?_
  have : votesFor l (reads.map (·.1)) + votesFor m (reads.map (·.2)) ≤ reads.length := by
    clear h1 h2 a b
    induction reads with
    | nil => simp [votesFor]
    | cons r ds ih =>
      have ih' := ih fun x hx => hsame x (List.mem_cons_of_mem _ hx)
      have hcons : ∀ l (x : DiskRead) ds, votesFor l (x :: ds) =
          (if x.ok && leadersMatch x.leader l then 1 else 0) + votesFor l ds := by
        intro l x ds
        unfold votesFor
        simp only [List.filter_cons]
        split <;> simp [Nat.add_comm]
      rw [List.map_cons, List.map_cons, hcons, hcons, List.length_cons]
      have : ¬ ((r.1.ok && leadersMatch r.1.leader l) = true ∧
          (r.2.ok && leadersMatch r.2.leader m) = true) := by
        rintro ⟨g1, g2⟩
        simp only [Bool.and_eq_true] at g1 g2
        have := hsame r List.mem_cons_self g1.1 g2.1
        rw [this] at g1
        exact hne (((leadersMatch_iff _ _).mp g1.2).symm.trans ((leadersMatch_iff _ _).mp g2.2))
      by_cases g1 : (r.1.ok && leadersMatch r.1.leader l) = true <;>
        by_cases g2 : (r.2.ok && leadersMatch r.2.leader m) = true
      · exact absurd ⟨g1, g2⟩ this
      all_goals simp only [g1, g2, if_true]; simp; omega
  omega

/-- **C09, returned record.** If no disk that failed verification happens to agree with a verified one in
the compared part, the returned record itself was read from a verified disk.  The hypothesis is needed,
see the next theorem; that makes this `_partial`. -/
theorem majority_read_verified_partial {disks : List DiskRead} {l : Leader}
    (hsep : ∀ a ∈ disks, ∀ b ∈ disks, a.ok = false → b.ok = true → ¬ SameOwner a.leader b.leader)
    (h : leaderReadNum disks = .ok l) : ∃ r ∈ disks, r.ok = true ∧ r.leader = l := by
  have hs := majority_read_sound h
  unfold leaderReadNum at h
  split at h
  · simp at h
  · split at h
    · simp at h
    · rename_i l' hp
      simp only [Except.ok.injEq] at h
      subst h
      obtain ⟨k, hk, hm⟩ := pick_some hp
      obtain ⟨_, r, hr, hl⟩ := reps_le disks _ hk
      simp only at hl
      by_cases hok : r.ok = true
      · exact ⟨r, hr, hok, hl⟩
      · exfalso
        have : votesFor l' disks = 0 := by
          unfold votesFor
          rw [List.length_eq_zero_iff, List.filter_eq_nil_iff]
          intro b hb hc
          simp only [Bool.and_eq_true] at hc
          apply hsep r hr b hb (by simpa using hok) hc.1
          rw [hl]
          exact ((leadersMatch_iff _ _).mp hc.2).symm
        omega

/-- **C09 is violated for the record as a whole.** With three disks, if the record on the first disk fails
verification but its first 152 bytes are intact (its timestamp is damaged to zero, say), the two good
disks are counted for it and the damaged record is returned with success; its zero timestamp means the
lease is free although both good disks name a live owner. -/
theorem majority_read_verified_violated :
    ∃ (good bad : Leader), good.timestamp ≠ 0 ∧ bad.timestamp = 0 ∧
      leaderReadNum [⟨bad, false⟩, ⟨good, true⟩, ⟨good, true⟩] = .ok bad :=
  ⟨{ exRec with timestamp := 5 }, { exRec with timestamp := 0 }, by decide, by decide, by rfl⟩

/-- `_lease_read_num`, the read that starts every acquire on several disks: when the last disk cannot be
read the acquire fails although all other disks agree. -/
theorem lease_read_last_disk_violated (zero l : Leader) (rv : Int) (hrv : rv < 0) :
    leaseReadNum zero [(l, 1), (l, 1), (l, rv)] = (rv, some l) := by
  have hm : leadersMatch l l = true := (leadersMatch_iff _ _).mpr (SameOwner.refl l)
  simp [leaseReadNum, reps, addRead, bumpFirst, hm, pick, Ballot.majority, hrv]

/-- Non-vacuity of the majority theorems: one of three disks unreadable, one stale. -/
example : leaderReadNum [⟨exRec, true⟩, ⟨{ exRec with lver := 8 }, false⟩, ⟨exRec, true⟩] = .ok exRec ∧
    leaderReadNum [⟨exRec, true⟩, ⟨{ exRec with lver := 8 }, true⟩, ⟨exRec, false⟩] =
      .error Rv.LEADER_DIFF := by
  constructor <;> rfl

end Sanlock.Verify
