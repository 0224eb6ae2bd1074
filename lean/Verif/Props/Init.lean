import Verif.Init
import Verif.Props.OnDisk
import Verif.Props.Crc
import Verif.Props.Verify

/-!
# C42: interrupted initialisation is not mistaken for a valid lockspace or lease

The two-step commit of `delta_lease_init` protects every join and every read that starts at the first
record, provided the area did not hold a lockspace before.  The remaining cases of the statement are
false, witnessed by the `_violated` theorems.
-/

namespace Sanlock.Init

open OnDisk Crc Verify SizeFlags

/-! ## Encoded records -/

theorem leaderIn_pad (e₁ e₂ : Endian) (l : Leader) (n : Nat) :
    leaderIn e₂ (padTo n (leaderWrite e₁ l)) =
      { l with checksum := leaderChecksum (leaderOut e₁ l 0) } := by
  unfold padTo leaderWrite
  exact leader_roundtrip e₁ e₂ l _ _

theorem leaderChecksum_pad (e : Endian) (l : Leader) (n : Nat) :
    leaderChecksum (padTo n (leaderWrite e l)) = leaderChecksum (leaderOut e l 0) := by
  unfold padTo leaderWrite leaderChecksum leaderOut
  congr 2
  rw [List.append_assoc, take_head _ _ 168 (leaderHead_len e l), take_head _ _ 168 (leaderHead_len e l)]

theorem zeros_magic (e : Endian) (n : Nat) : (leaderIn e (List.replicate n 0)).magic = 0 := by
  have h : ∀ k, leVal (List.replicate k (0 : UInt8)) = 0 := by
    intro k; induction k with
    | zero => rfl
    | succ k ih => simp [List.replicate_succ, leVal, ih]
  have hb : leBytes 4 0 = [0, 0, 0, 0] := by decide
  cases e <;> simp [leaderIn, getField, loadNative, leToCpu, cpuToLe, bswap, List.take_replicate, h, hb, leVal]

/-! ## Lockspace -/

/-- A configuration `sizes_from_flags` accepts. -/
def LsPar.Valid (P : LsPar) : Prop := P.maxHosts = sizeToMaxHosts P.sector P.align ∧ P.maxHosts ≠ 0

theorem LsPar.Valid.cases {P : LsPar} (h : P.Valid) :
    (P.sector = 512 ∧ P.align = M1) ∨ (P.sector = 4096 ∧ P.align = M1) ∨
    (P.sector = 4096 ∧ P.align = M2) ∨ (P.sector = 4096 ∧ P.align = M4) ∨
    (P.sector = 4096 ∧ P.align = M8) := by
  have h2 := h.2
  rw [h.1] at h2
  unfold sizeToMaxHosts at h2
  grind

theorem LsPar.Valid.lt {P : LsPar} (h : P.Valid) : P.maxHosts < P.n := by
  rw [h.1]
  unfold LsPar.n
  rcases h.cases with ⟨a, b⟩ | ⟨a, b⟩ | ⟨a, b⟩ | ⟨a, b⟩ | ⟨a, b⟩ <;> rw [a, b] <;> decide

theorem first_not_magic (P : LsPar) : (leaderIn P.e (deltaBuf1 P 0)).magic = 0 := by
  simp [deltaBuf1, leaderIn_pad]

theorem readSizes_magic {e : Endian} {D : Area} {r : Nat × Nat} (h : readSizes e D = .ok r) :
    (leaderIn e (D 0)).magic = deltaMagic := by
  unfold readSizes at h
  grind

/-- The content of the first sector decides how far the initialisation got. -/
theorem crash_first {P : LsPar} {old D : Area} (hold : (leaderIn P.e (old 0)).magic ≠ deltaMagic)
    (hc : DeltaCrash P old D) (h : (leaderIn P.e (D 0)).magic = deltaMagic) : D = deltaDone P old := by
  cases hc with
  | first S =>
    exfalso
    unfold land at h
    split at h
    · rw [first_not_magic] at h; exact absurd h (by decide)
    · exact hold h
  | second S =>
    by_cases h0 : S 0 = true
    · funext i
      unfold deltaDone landAll land
      by_cases hi : i = 0
      · subst hi; simp [h0]
      · have : ¬ i < 1 := by omega
        simp [this]
    · exfalso
      unfold landAll land at h
      simp only [h0] at h
      simp only [Nat.lt_one_iff, and_false, ↓reduceIte, and_true, Bool.false_eq_true] at h
      split at h
      · rw [first_not_magic] at h; exact absurd h (by decide)
      · exact hold h

/-- **C42, lockspace.**  Whatever the point at which initialising a lockspace was interrupted, and whatever
the area contained before as long as its first record was not that of a lockspace: if a host, with any id,
gets past the reads with which it joins, or if a read of the lockspace that does not specify its sizes
succeeds, then the initialisation had completed, and every sector is as it should be.
Missing (and false, see below): re-initialising over a lockspace; reads that specify the sizes. -/
theorem lockspace_init_partial {P : LsPar} {old D : Area}
    (hold : (leaderIn P.e (old 0)).magic ≠ deltaMagic) (hc : DeltaCrash P old D)
    {name : List UInt8} {hostId : Nat} {l : Leader}
    (h : joinRead P.e name hostId D = .ok l ∨ cmdReadLockspace P.e false name hostId D = .ok l) :
    D = deltaDone P old := by
  apply crash_first hold hc
  rcases h with h | h
  · unfold joinRead at h
    split at h
    · cases h
    · next heq => exact readSizes_magic heq
  · unfold cmdReadLockspace at h
    simp only [Bool.false_eq_true, ↓reduceIte] at h
    split at h
    · cases h
    · next heq => exact readSizes_magic heq

/-- A read of the first record is protected in the same way also if the caller specifies the sizes. -/
theorem lockspace_first_record_partial {P : LsPar} {old D : Area}
    (hold : (leaderIn P.e (old 0)).magic ≠ deltaMagic) (hc : DeltaCrash P old D)
    {name : List UInt8} {l : Leader} (h : cmdReadLockspace P.e true name 1 D = .ok l) :
    D = deltaDone P old := by
  apply crash_first hold hc
  simp only [cmdReadLockspace, ↓reduceIte, readLockspace, Nat.sub_self, verifyDelta] at h
  by_cases hm : (leaderIn P.e (D 0)).magic = deltaMagic
  · exact hm
  · simp only [ne_eq, hm, not_false_eq_true, ↓reduceIte] at h
    exact absurd h (by simp [Rv.LEADER_MAGIC, Rv.OK])

theorem done_sector {P : LsPar} (hv : P.Valid) (old : Area) {i : Nat} (hi : i < P.maxHosts) :
    deltaDone P old i = padTo P.sector (leaderWrite P.e (deltaRecord P)) := by
  have hn := hv.lt
  unfold deltaDone landAll land deltaBuf1 deltaBuf2
  by_cases h0 : i = 0
  · subst h0; simp
  · have : ¬ i < 1 := by omega
    have h2 : i < P.n := by omega
    simp [this, h2, h0, hi]

theorem strncmpEq_refl (n : Nat) (a : List UInt8) : strncmpEq n a a = true := by
  induction n generalizing a with
  | zero => rfl
  | succ n ih => simp [strncmpEq, ih]

theorem record_verifies (P : LsPar) (n : Nat) :
    verifyDeltaSector P.e P.name.bytes (padTo n (leaderWrite P.e (deltaRecord P))) = Rv.OK := by
  have hv : (0x00030004 : UInt32) &&& 0xFFFF0000 = deltaMajor := by decide
  unfold verifyDeltaSector
  rw [leaderIn_pad, leaderChecksum_pad]
  simp [verifyDelta, deltaRecord, strncmpEq_refl, hv]

theorem record_sizes {P : LsPar} (hv : P.Valid) (D : Area)
    (h0 : D 0 = padTo P.sector (leaderWrite P.e (deltaRecord P))) :
    readSizes P.e D = .ok (P.sector, P.align) := by
  have hm : (0x00030004 : UInt32) &&& 0xFFFF0000 = deltaMajor := by decide
  unfold readSizes
  rw [h0, leaderIn_pad]
  have h1 : (UInt32.ofNat P.sector).toNat = P.sector := by
    rcases hv.cases with ⟨a, b⟩ | ⟨a, b⟩ | ⟨a, b⟩ | ⟨a, b⟩ | ⟨a, b⟩ <;> rw [a] <;> decide
  have h2 : alignOfFlags (flagOfAlign P.align) = P.align ∧ P.align ≠ 0 := by
    rcases hv.cases with ⟨a, b⟩ | ⟨a, b⟩ | ⟨a, b⟩ | ⟨a, b⟩ | ⟨a, b⟩ <;> rw [b] <;> decide
  simp [deltaRecord, recordAlign, hm, h1, h2.1, h2.2]

/-- Reading an area whose first record and the record of the host are those of the initialisation. -/
theorem join_of_records {P : LsPar} (hv : P.Valid) {D : Area} {hostId : Nat} (h1 : 1 ≤ hostId)
    (hh : hostId ≤ P.maxHosts) (h0 : D 0 = padTo P.sector (leaderWrite P.e (deltaRecord P)))
    (hd : D (hostId - 1) = padTo P.sector (leaderWrite P.e (deltaRecord P))) :
    joinRead P.e P.name.bytes hostId D =
      .ok { deltaRecord P with checksum := leaderChecksum (leaderOut P.e (deltaRecord P) 0) } := by
  unfold joinRead
  rw [record_sizes hv D h0]
  have hs : P.sector = 512 ∨ P.sector = 4096 := by
    rcases hv.cases with h | h | h | h | h <;> simp [h.1]
  have hs' : ¬ (P.sector ≠ 512 ∧ P.sector ≠ 4096) := by omega
  have hm : sizeToMaxHosts P.sector P.align ≠ 0 := by rw [← hv.1]; exact hv.2
  have hl : ¬ sizeToMaxHosts P.sector P.align < hostId := by rw [← hv.1]; omega
  simp only [hs', ↓reduceIte, hm, hl]
  rw [hd, record_verifies, leaderIn_pad]
  rfl

/-- The other direction: after an initialisation that completed, every host id of the lockspace can be
read, and its record is free. -/
theorem lockspace_initialised {P : LsPar} (hv : P.Valid) (old : Area) (hostId : Nat) (h1 : 1 ≤ hostId)
    (hh : hostId ≤ P.maxHosts) :
    ∃ l, joinRead P.e P.name.bytes hostId (deltaDone P old) = .ok l ∧
      l.timestamp = 0 ∧ l.spaceName = P.name ∧ l.ioTimeout = P.ioTimeout := by
  have hp : 0 < P.maxHosts := by have := hv.2; omega
  exact ⟨_, join_of_records hv h1 hh (done_sector hv old hp) (done_sector hv old (by omega)), rfl, rfl, rfl⟩

/-- Non-vacuity: an area of zeros meets the hypothesis on the prior contents, and there are crash states
in which a join fails. -/
def exPar : LsPar :=
  { e := .little, name := ⟨List.replicate 48 65, by simp⟩, sector := 512, align := M1, maxHosts := 2000
    ioTimeout := 10 }

def zeros (n : Nat) : Area := fun _ => List.replicate n 0

theorem exValid : exPar.Valid := by unfold LsPar.Valid exPar; decide

example : (leaderIn exPar.e (zeros 512 0)).magic ≠ deltaMagic := by
  rw [zeros, zeros_magic]; decide

example : ∃ l, joinRead exPar.e exPar.name.bytes 2000 (deltaDone exPar (zeros 512)) = .ok l :=
  (lockspace_initialised exValid _ 2000 (by decide) (by decide)).imp fun _ h => h.1

/-- **C42 is violated** by reads that specify the sizes of the lockspace: with any parameters, if
initialising an empty area is interrupted when only the record of host 2 has landed, the lockspace can be
read through host id 2, although it cannot be joined. -/
theorem lockspace_read_given_sizes_violated {P : LsPar} (hv : P.Valid) :
    ∃ D l, DeltaCrash P (zeros P.sector) D ∧
      cmdReadLockspace P.e true P.name.bytes 2 D = .ok l ∧
      (∀ i, 2 ≤ i → D i = zeros P.sector i) ∧
      joinRead P.e P.name.bytes 2 D = .error Rv.LEADER_MAGIC := by
  have hn := hv.lt
  have hm2 : 2 ≤ P.maxHosts := by
    rw [hv.1]
    rcases hv.cases with ⟨a, b⟩ | ⟨a, b⟩ | ⟨a, b⟩ | ⟨a, b⟩ | ⟨a, b⟩ <;> rw [a, b] <;> decide
  have hd1 : land P.n (fun i => i == 1) (deltaBuf1 P) (zeros P.sector) 1 =
      padTo P.sector (leaderWrite P.e (deltaRecord P)) := by
    have h2 : 1 < P.n := by omega
    have h3 : 1 < P.maxHosts := by omega
    simp [land, deltaBuf1, h2, h3]
  refine ⟨_, { deltaRecord P with checksum := leaderChecksum (leaderOut P.e (deltaRecord P) 0) },
    .first (fun i => i == 1), ?_, ?_, ?_⟩
  · simp only [cmdReadLockspace, ↓reduceIte, readLockspace, Nat.add_one_sub_one, hd1]
    have hr := record_verifies P P.sector
    unfold verifyDeltaSector at hr
    rw [leaderIn_pad] at hr ⊢
    simp only [deltaRecord] at hr ⊢
    simp only [ite_self, hr, ↓reduceIte]
  · intro i hi
    have h1 : i ≠ 1 := by omega
    simp [land, h1]
  · unfold joinRead readSizes
    have h0 : land P.n (fun i => i == 1) (deltaBuf1 P) (zeros P.sector) 0 = List.replicate P.sector 0 := by
      simp [land, zeros]
    have hz := zeros_magic P.e P.sector
    have hm0 : (0 : UInt32) ≠ deltaMagic := by decide
    simp only [h0, hz, hm0, ↓reduceIte, ne_eq, not_false_eq_true]

/-- A lockspace with the parameters `P` in use, in which host 2 has the record `r`. -/
def inUse (P : LsPar) (r : Leader) : Area := fun i =>
  if i = 1 then padTo P.sector (leaderWrite P.e r)
  else if i < P.maxHosts then padTo P.sector (leaderWrite P.e (deltaRecord P))
  else List.replicate P.sector 0

/-- **C42 is violated** when a lockspace is initialised again: if the initialisation is interrupted when
only the record of host 2 has landed, both that host id and the first one can still be joined, whatever
the other records hold; the area is neither the old lockspace nor the new one.  In the old one the record
of host 2 can be that of a member. -/
theorem lockspace_reinit_violated {P : LsPar} (hv : P.Valid) (r : Leader) (hr : r.timestamp ≠ 0) :
    ∃ D l l', DeltaCrash P (inUse P r) D ∧ D 1 ≠ inUse P r 1 ∧ (∀ i, i ≠ 1 → D i = inUse P r i) ∧
      joinRead P.e P.name.bytes 1 D = .ok l ∧ joinRead P.e P.name.bytes 2 D = .ok l' ∧
      l'.timestamp = 0 := by
  have hn := hv.lt
  have hm2 : 2 ≤ P.maxHosts := by
    rw [hv.1]
    rcases hv.cases with ⟨a, b⟩ | ⟨a, b⟩ | ⟨a, b⟩ | ⟨a, b⟩ | ⟨a, b⟩ <;> rw [a, b] <;> decide
  have hd1 : land P.n (fun i => i == 1) (deltaBuf1 P) (inUse P r) 1 =
      padTo P.sector (leaderWrite P.e (deltaRecord P)) := by
    have h2 : 1 < P.n := by omega
    have h3 : 1 < P.maxHosts := by omega
    simp [land, deltaBuf1, h2, h3]
  have hd0 : land P.n (fun i => i == 1) (deltaBuf1 P) (inUse P r) 0 =
      padTo P.sector (leaderWrite P.e (deltaRecord P)) := by
    have h3 : 0 < P.maxHosts := by omega
    simp [land, inUse, h3]
  refine ⟨_, _, _, .first (fun i => i == 1), ?_, ?_, join_of_records hv (by decide) (by omega) hd0 hd0,
    join_of_records hv (by decide) hm2 hd0 hd1, rfl⟩
  · rw [hd1]
    intro h
    have h2 := congrArg (fun b => (leaderIn P.e b).timestamp) h
    simp only [inUse, ↓reduceIte, leaderIn_pad, deltaRecord] at h2
    exact hr h2.symm
  · intro i hi
    simp [land, hi]

/-! ## Resource -/

theorem leaseRecord_verifies (P : LeasePar) (hcl : P.clear = false) (n : Nat) :
    verifyLeader ⟨P.space.bytes, P.name.bytes, 0⟩ (leaderIn P.e (padTo n (leaderWrite P.e (leaseRecord P))))
      (leaderChecksum (padTo n (leaderWrite P.e (leaseRecord P)))) = Rv.OK := by
  have hv : (0x00060004 : UInt32) &&& 0xFFFF0000 = paxosMajor := by decide
  have hc : ¬ (paxosMagic = paxosClear) := by decide
  rw [leaderIn_pad, leaderChecksum_pad]
  simp [verifyLeader, leaseRecord, hcl, strncmpEq_refl, hv, hc]

/-- Reading a resource succeeds only if the first sector holds a leader record with the right magic. -/
theorem readResource_magic {e : Endian} {ce : Bool} {space name : List UInt8} {D : Area} {l : Leader}
    (h : readResource e ce space name D = .ok l) : (leaderIn e (D 0)).magic = paxosMagic := by
  unfold readResource at h
  simp only at h
  by_cases hm : (leaderIn e (D 0)).magic = paxosMagic
  · exact hm
  · exfalso
    have : ∀ t ck, verifyLeader t (leaderIn e (D 0)) ck ≠ Rv.OK := by
      intro t ck
      unfold verifyLeader
      simp [hm, Rv.LEADER_MAGIC, Rv.OK]
    simp only [ne_eq, hm, not_false_eq_true, ↓reduceIte] at h
    cases ce
    · simp only [Bool.false_eq_true, ↓reduceIte, this] at h
      cases h
    · simp [Rv.LEADER_MAGIC, Rv.OK] at h

/-- **C42, resource.**  If the area held no lease before and the sectors of the ballot blocks were zeros,
then whatever the point of interruption, a read succeeds only if what it returns is the new record, and
every sector the ballots use is as an uninterrupted initialisation leaves it.
Missing (and false, see below): other prior contents; the request sector. -/
theorem lease_init_partial {P : LeasePar} {old D : Area}
    (hold : (leaderIn P.e (old 0)).magic ≠ paxosMagic) (hzero : ∀ i, 2 ≤ i → old i = List.replicate P.sector 0)
    (hc : LeaseCrash P old D) {ce : Bool} {space name : List UInt8} {l : Leader}
    (h : readResource P.e ce space name D = .ok l) :
    P.clear = false ∧ (∀ i, i ≠ 1 → D i = landAll P.n (leaseBuf P) old i) ∧
      l.timestamp = 0 ∧ l.lver = 0 ∧ l.spaceName = P.space ∧ l.resourceName = P.name := by
  have hm := readResource_magic h
  have hl : l = leaderIn P.e (D 0) := by
    unfold readResource at h
    simp only at h
    generalize (if ce = true then _ else _ : Int) = rv at h
    split at h
    · cases h; rfl
    · cases h
  cases hc with
  | write S =>
    have h0 : (0 < P.n ∧ S 0 = true) := by
      apply Classical.byContradiction
      intro hn
      simp only [land, hn, ↓reduceIte] at hm
      exact hold hm
    have hd0 : land P.n S (leaseBuf P) old 0 = padTo P.sector (leaderWrite P.e (leaseRecord P)) := by
      simp [land, h0, leaseBuf]
    rw [hd0, leaderIn_pad] at hm hl
    refine ⟨?_, ?_, ?_⟩
    · cases hcl : P.clear with
      | false => rfl
      | true => simp [leaseRecord, hcl, clear_ne_magic] at hm
    · intro i hi
      unfold landAll land
      by_cases hi0 : i = 0
      · subst hi0; simp [h0]
      · have h2 : 2 ≤ i := by omega
        by_cases hS : S i = true
        · simp [hS]
        · simp only [hS, and_false, Bool.false_eq_true, ↓reduceIte, and_true]
          split
          · simp only [leaseBuf, hi0, hi, ↓reduceIte]
            exact hzero i h2
          · rfl
    · subst hl
      simp [leaseRecord]

/-- Non-vacuity: a new lease reads back. -/
theorem lease_initialised (P : LeasePar) (hcl : P.clear = false) (hn : 0 < P.n) (old : Area) :
    ∃ l, readResource P.e false P.space.bytes P.name.bytes (landAll P.n (leaseBuf P) old) = .ok l ∧
      l.lver = 0 ∧ l.timestamp = 0 := by
  have hd0 : landAll P.n (leaseBuf P) old 0 = padTo P.sector (leaderWrite P.e (leaseRecord P)) := by
    simp [landAll, land, hn, leaseBuf]
  refine ⟨leaderIn P.e (landAll P.n (leaseBuf P) old 0), ?_, ?_, ?_⟩
  · have hv := leaseRecord_verifies P hcl P.sector
    unfold readResource
    rw [hd0]
    simp only [Bool.false_eq_true, ↓reduceIte]
    have e1 : (leaderIn P.e (padTo P.sector (leaderWrite P.e (leaseRecord P)))).spaceName = P.space := by
      rw [leaderIn_pad]; rfl
    have e2 : (leaderIn P.e (padTo P.sector (leaderWrite P.e (leaseRecord P)))).resourceName = P.name := by
      rw [leaderIn_pad]; rfl
    rw [e1, e2, ite_self, ite_self, hv]
    rfl
  · rw [hd0, leaderIn_pad]; simp [leaseRecord]
  · rw [hd0, leaderIn_pad]; simp [leaseRecord]

example : ∃ P : LeasePar, P.clear = false ∧ 0 < P.n ∧
    (leaderIn P.e (zeros 512 0)).magic ≠ paxosMagic ∧ ∀ i, 2 ≤ i → zeros 512 i = List.replicate P.sector 0 :=
  ⟨{ e := .little, space := exPar.name, name := exPar.name, sector := 512, align := M1, numHosts := 2000
     maxHosts := 2000, clear := false, now := 0 }, rfl, by decide, by rw [zeros, zeros_magic]; decide,
   fun _ _ => rfl⟩

/-- **C42 is violated** for a resource: whatever was on the disk, an initialisation interrupted when only
the first sector has landed leaves a lease that reads as valid, with all its ballot blocks, shared marks
and requests those of the previous contents. -/
theorem lease_init_violated (P : LeasePar) (hcl : P.clear = false) (hn : 0 < P.n) (old : Area) :
    ∃ D l, LeaseCrash P old D ∧ readResource P.e false P.space.bytes P.name.bytes D = .ok l ∧
      l.lver = 0 ∧ ∀ i, 1 ≤ i → D i = old i := by
  obtain ⟨l, hr, hl, -⟩ := lease_initialised P hcl hn old
  refine ⟨land P.n (fun i => i == 0) (leaseBuf P) old, l, .write _, ?_, hl, ?_⟩
  · have : land P.n (fun i => i == 0) (leaseBuf P) old 0 = landAll P.n (leaseBuf P) old 0 := by
      simp [land, landAll]
    unfold readResource at hr ⊢
    rw [this]; exact hr
  · intro i hi
    have : i ≠ 0 := by omega
    simp [land, this]

/-- Clearing a resource, interrupted when any sectors but the first have landed: the lease still reads as
it did before, although the ballot block of any host may be gone. -/
theorem lease_clear_violated (P : LeasePar) (old : Area) (S : Nat → Bool) (h0 : S 0 = false)
    (ce : Bool) (space name : List UInt8) :
    ∃ D, LeaseCrash P old D ∧ readResource P.e ce space name D = readResource P.e ce space name old ∧
      ∀ i, 2 ≤ i → i < P.n → S i = true → D i = List.replicate P.sector 0 := by
  refine ⟨_, .write S, ?_, ?_⟩
  · unfold readResource land
    simp [h0]
  · intro i h2 hn hS
    have h1 : i ≠ 0 := by omega
    have h3 : i ≠ 1 := by omega
    simp [land, hn, hS, leaseBuf, h1, h3]

/-- A clear that completed is seen by every read. -/
theorem lease_cleared (P : LeasePar) (hcl : P.clear = true) (hn : 0 < P.n) (old : Area) (ce : Bool)
    (space name : List UInt8) :
    readResource P.e ce space name (landAll P.n (leaseBuf P) old) = .error Rv.LEADER_MAGIC := by
  have hd0 : landAll P.n (leaseBuf P) old 0 = padTo P.sector (leaderWrite P.e (leaseRecord P)) := by
    simp [landAll, land, hn, leaseBuf]
  unfold readResource
  rw [hd0, leaderIn_pad]
  cases ce <;> simp [verifyLeader, leaseRecord, hcl, clear_ne_magic, Rv.LEADER_MAGIC, Rv.OK]

end Sanlock.Init
