import Verif.Ballot
import Verif.Lemmas.Ballot

/-!
# Properties of the ballot: agreement (C01), validity (C01), ballot numbers (C08)
-/

namespace Sanlock.Ballot

/-! ## C01: agreement -/

/-- **C01.** Any number of hosts, any number of disks, any interleaving of sector reads and writes, any
failed operations and crashes: two hosts that finished the ballot for the same lease version and wrote
the leader record wrote the same owner, generation and timestamp. -/
theorem ballot_agreement {c : Cfg} {s : State} (hc : c.hosts ≤ c.maxHosts) (h : Reach c s) :
    ∀ e ∈ s.log, ∀ e' ∈ s.log, e.blk.lver = e'.blk.lver →
      e.blk.inp = e'.blk.inp ∧ e.blk.inp2 = e'.blk.inp2 ∧ e.blk.inp3 = e'.blk.inp3 := by
  have hI := inv_reach hc h
  intro e he e' he' hl
  have key : ∀ a ∈ s.log, ∀ b ∈ s.log, a.blk.lver = b.blk.lver → a.blk.bal ≤ b.blk.bal →
      a.blk.val = b.blk.val := by
    intro a ha b hb hab hle
    obtain ⟨u, hu, u1, u2, u3⟩ := hI.logVote a ha
    obtain ⟨v, hv, v1, v2, v3⟩ := hI.logVote b hb
    have := hI.logBal a ha
    by_cases heq : a.blk.bal = b.blk.bal
    · have := hI.voteUniq u hu v hv (by omega) (by omega)
      rw [← u3, ← v3, this]
    · have := hI.k1log a ha v hv (by omega) (by omega)
      rw [← v3, this]
  have hv : e.blk.val = e'.blk.val := by
    by_cases hle : e.blk.bal ≤ e'.blk.bal
    · exact key e he e' he' hl hle
    · exact (key e' he' e he hl.symm (by omega)).symm
  simpa [Blk.val] using hv

/-- **C01.** The same for hosts that have completed the ballot (`run_ballot` returned success) but have
not written the leader record yet, against each other and against those that have. -/
theorem ballot_agreement_won {c : Cfg} {s : State} (hc : c.hosts ≤ c.maxHosts) (h : Reach c s)
    {p : Nat} {w1 w : List Nat} (hp : (s.proc p).pc = .won w1 w) :
    (∀ e ∈ s.log, e.blk.lver = (s.proc p).dblock.lver → e.blk.val = (s.proc p).dblock.val) ∧
    (∀ q w1' w', (s.proc q).pc = .won w1' w' →
      (s.proc q).dblock.lver = (s.proc p).dblock.lver → (s.proc q).dblock.val = (s.proc p).dblock.val) := by
  have hI := inv_reach hc h
  obtain ⟨_, l1, _⟩ := hI.won p w1 w hp
  obtain ⟨u, hu, _, u1, u2, u3, _⟩ := l1.vote
  have hb := l1.bal
  constructor
  · intro e he hl
    obtain ⟨v, hv, v1, v2, v3⟩ := hI.logVote e he
    have hb' := hI.logBal e he
    rcases Nat.lt_trichotomy e.blk.bal (s.proc p).dblock.bal with hlt | heq | hgt
    · rw [← hI.k1log e he u hu (by omega) (by omega), u3]
    · rw [← v3, ← u3]; exact hI.voteUniq v hv u hu (by omega) (by omega)
    · rw [← v3]; exact hI.k1won p w1 w hp v hv (by omega) (by omega)
  · intro q w1' w' hq hl
    obtain ⟨_, l2, _⟩ := hI.won q w1' w' hq
    obtain ⟨v, hv, _, v1, v2, v3, _⟩ := l2.vote
    have hb' := l2.bal
    rcases Nat.lt_trichotomy (s.proc q).dblock.bal (s.proc p).dblock.bal with hlt | heq | hgt
    · rw [← hI.k1won q w1' w' hq u hu (by omega) (by omega), u3]
    · rw [← v3, ← u3]; exact hI.voteUniq v hv u hu (by omega) (by omega)
    · rw [← v3]; exact hI.k1won p w1 w hp v hv (by omega) (by omega)

/-- Every vote carries a value which some host proposed for itself for that version. -/
def Proposed (votes : List Vote) : Prop :=
  ∀ v ∈ votes, ∃ u ∈ votes, u.lver = v.lver ∧ u.val = v.val ∧ u.val.1 = u.host + 1

theorem proposed_reach {c : Cfg} {s : State} (hc : c.hosts ≤ c.maxHosts) (h : Reach c s) :
    Proposed s.votes := by
  induction h with
  | init => simp [Proposed, init]
  | @step s s' a hr ha hs ih =>
    have hI := inv_reach hc hr
    cases a with
    | readsDone p now =>
      simp only [step] at hs
      split at hs
      · rename_i d w1 r buf mx hpc
        obtain ⟨_, _, _, _, _, _, h7, _⟩ := hI.read1 p d w1 r buf mx hpc
        split at hs
        · simp at hs
        · split at hs
          · simp only [Option.some.injEq] at hs
            subst hs
            simp only
            intro v hv
            rcases List.mem_cons.mp hv with rfl | hv
            · by_cases hi : mx.inp = 0
              · refine ⟨_, List.mem_cons_self, rfl, rfl, ?_⟩
                simp [choose, hi, Blk.val]
              · obtain ⟨u, hu, g1, g2, g3⟩ := h7 hi
                obtain ⟨u', hu', k1, k2, k3⟩ := ih u hu
                refine ⟨u', List.mem_cons_of_mem _ hu', ?_, ?_, k3⟩
                · simp only [choose_lver]; omega
                · rw [choose_val _ _ _ _ _ hi, k2, g3]
            · obtain ⟨u, hu, g⟩ := ih v hv
              exact ⟨u, List.mem_cons_of_mem _ hu, g⟩
          · simp only [Option.some.injEq] at hs
            subst hs
            exact ih
      · split at hs
        · simp at hs
        · split at hs <;>
            (simp only [Option.some.injEq] at hs; subst hs; exact ih)
      · simp at hs
    | start p lver mbal gen =>
      simp only [step] at hs
      repeat' split at hs
      all_goals first
        | (simp at hs; done)
        | (simp only [Option.some.injEq] at hs; subst hs; exact ih)
    | write p res =>
      simp only [step] at hs
      repeat' split at hs
      all_goals first
        | (simp at hs; done)
        | (simp only [Option.some.injEq] at hs; subst hs; exact ih)
    | writesDone p =>
      simp only [step] at hs
      repeat' split at hs
      all_goals first
        | (simp at hs; done)
        | (simp only [Option.some.injEq] at hs; subst hs; exact ih)
    | readSector p q =>
      simp only [step] at hs
      repeat' split at hs
      all_goals first
        | (simp at hs; done)
        | (simp only [Option.some.injEq] at hs; subst hs; exact ih)
    | readFail p =>
      simp only [step] at hs
      repeat' split at hs
      all_goals first
        | (simp at hs; done)
        | (simp only [Option.some.injEq] at hs; subst hs; exact ih)
    | readDone p =>
      simp only [step] at hs
      repeat' split at hs
      all_goals first
        | (simp at hs; done)
        | (simp only [Option.some.injEq] at hs; subst hs; exact ih)
    | leaderWritten p =>
      simp only [step] at hs
      repeat' split at hs
      all_goals first
        | (simp at hs; done)
        | (simp only [Option.some.injEq] at hs; subst hs; exact ih)
    | quit p =>
      simp only [step, Option.some.injEq] at hs
      subst hs
      exact ih

/-- **C01.** The owner committed for a version is a host of the lease that itself ran a ballot for that
version and put its own id forward. -/
theorem ballot_owner_proposed {c : Cfg} {s : State} (hc : c.hosts ≤ c.maxHosts) (h : Reach c s) :
    ∀ e ∈ s.log, ∃ u ∈ s.votes, u.host < c.hosts ∧ e.blk.inp = u.host + 1 ∧ u.lver = e.blk.lver ∧
      u.val = (e.blk.inp, e.blk.inp2, e.blk.inp3) := by
  have hI := inv_reach hc h
  intro e he
  obtain ⟨v, hv, v1, v2, v3⟩ := hI.logVote e he
  obtain ⟨u, hu, u1, u2, u3⟩ := proposed_reach hc h v hv
  have hval : u.val = e.blk.val := by rw [u2, v3]
  refine ⟨u, hu, hI.voteHost u hu, ?_, by omega, hval⟩
  rw [hval] at u3
  exact u3

theorem reach_runAllowed {c : Cfg} {s s' : State} (acts : List Act) (h : Reach c s)
    (hr : runAllowed c s acts = some s') : Reach c s' := by
  induction acts generalizing s with
  | nil => simp only [runAllowed, Option.some.injEq] at hr; exact hr ▸ h
  | cons a rest ih =>
    simp only [runAllowed] at hr
    split at hr
    · rename_i ha
      cases hs : step c s a with
      | none => simp [hs] at hr
      | some s1 =>
        simp only [hs, Option.bind_some] at hr
        exact ih (Reach.step h ha hs) hr
    · simp at hr

/-- The steps of a whole phase read of one disk with two hosts. -/
def readAll (p : Nat) : List Act := [.readSector p 0, .readSector p 1, .readDone p]

/-- Host 0 (id 1) writes its phase 2 block; host 1 (id 2) then starts, aborts host 0, adopts host 0's
value, completes; host 0 retries with a larger number and completes too. -/
def exampleRun : List Act :=
  [.start 0 1 1 1, .write 0 .ok, .writesDone 0] ++ readAll 0 ++ [.readsDone 0 77, .write 0 .ok,
    .start 1 1 2002 1, .write 1 .ok, .writesDone 1, .writesDone 0] ++ readAll 0 ++
  readAll 1 ++ [.readsDone 1 99, .write 1 .ok, .writesDone 1] ++ readAll 1 ++ [.readsDone 1 0,
    .leaderWritten 1] ++
  [.start 0 1 4001 1, .write 0 .ok, .writesDone 0] ++ readAll 0 ++ [.readsDone 0 100, .write 0 .ok,
    .writesDone 0] ++ readAll 0 ++ [.readsDone 0 0, .leaderWritten 0]

/-- Non-vacuity: both hosts commit, and both commit host id 1 with timestamp 77. -/
example : ((runAllowed ⟨1, 2, 2000⟩ init exampleRun).map fun s =>
    s.log.map fun e => (e.host, e.blk.lver, e.blk.val)) =
    some [(0, 1, (1, 1, 77)), (1, 1, (1, 1, 77))] := by decide

/-- Without the callers' guarantee agreement fails: host 0 commits version 1 for itself, starts a ballot
for version 1 again (it wrote phase 1, erasing its vote) and crashes; host 1 then commits version 1 for
itself.  `Verif/Lease.lean` shows how stale leader writes make `paxos_lease_acquire` do this. -/
theorem ballot_agreement_needs_fresh_version_violated :
    ∃ (acts : List Act) (s : State), run ⟨1, 2, 2000⟩ init acts = some s ∧
      ∃ e ∈ s.log, ∃ e' ∈ s.log, e.blk.lver = e'.blk.lver ∧ e.blk.inp ≠ e'.blk.inp := by
  let acts : List Act :=
    [.start 0 1 1 1, .write 0 .ok, .writesDone 0] ++ readAll 0 ++ [.readsDone 0 77, .write 0 .ok,
      .writesDone 0] ++ readAll 0 ++ [.readsDone 0 0, .leaderWritten 0,
      .start 0 1 2001 1, .write 0 .ok, .quit 0,
      .start 1 1 2002 1, .write 1 .ok, .writesDone 1] ++ readAll 1 ++ [.readsDone 1 99, .write 1 .ok,
      .writesDone 1] ++ readAll 1 ++ [.readsDone 1 0, .leaderWritten 1]
  have h : ((run ⟨1, 2, 2000⟩ init acts).map fun s =>
    s.log.map fun e => (e.blk.lver, e.blk.inp)) = some [(1, 2), (1, 1)] := by decide
  cases hr : run ⟨1, 2, 2000⟩ init acts with
  | none => rw [hr] at h; simp at h
  | some s =>
    rw [hr] at h
    simp only [Option.map_some, Option.some.injEq] at h
    refine ⟨acts, s, hr, ?_⟩
    obtain ⟨e, l, hl, he, hm⟩ := List.map_eq_cons_iff.mp h
    obtain ⟨e', l', hl', he', _⟩ := List.map_eq_cons_iff.mp hm
    simp only [Prod.mk.injEq] at he he'
    exact ⟨e, by simp [hl], e', by simp [hl, hl'], by omega, by omega⟩

/-! ## C08: ballot numbers -/

/-- **C08.** The first ballot number is larger than every number read. -/
theorem ourMbal_gt {maxMbal maxHosts hostId : Nat} (h0 : 0 < hostId) (hM : 0 < maxHosts) :
    maxMbal < ourMbal maxMbal maxHosts hostId := by
  unfold ourMbal
  split
  · omega
  · have := Nat.mod_lt maxMbal hM
    have := Nat.mod_le maxMbal maxHosts
    omega

theorem ourMbal_mod {maxMbal maxHosts hostId : Nat} :
    ourMbal maxMbal maxHosts hostId % maxHosts = hostId % maxHosts := by
  unfold ourMbal
  split
  · rfl
  · have h : maxMbal - maxMbal % maxHosts = maxHosts * (maxMbal / maxHosts) := by
      have := Nat.mod_add_div maxMbal maxHosts
      omega
    rw [h]
    rw [Nat.add_assoc, Nat.mul_add_mod, Nat.add_mod_left]

/-- The number used in the `k`-th retry. -/
def mbalAfter (maxMbal maxHosts hostId : Nat) : Nat → Nat
  | 0 => ourMbal maxMbal maxHosts hostId
  | k + 1 => retryMbal (mbalAfter maxMbal maxHosts hostId k) maxHosts

theorem mbalAfter_mod (maxMbal maxHosts hostId k : Nat) :
    mbalAfter maxMbal maxHosts hostId k % maxHosts = hostId % maxHosts := by
  induction k with
  | zero => exact ourMbal_mod
  | succ k ih => simp only [mbalAfter, retryMbal, Nat.add_mod_right, ih]

/-- **C08.** Every retry uses a larger number, hence all are larger than every number read. -/
theorem mbal_increases {maxMbal maxHosts hostId : Nat} (h0 : 0 < hostId) (hM : 0 < maxHosts) (k : Nat) :
    maxMbal < mbalAfter maxMbal maxHosts hostId k ∧
    mbalAfter maxMbal maxHosts hostId k < mbalAfter maxMbal maxHosts hostId (k + 1) := by
  have hstep : ∀ k, mbalAfter maxMbal maxHosts hostId k < mbalAfter maxMbal maxHosts hostId (k + 1) := by
    intro k
    simp only [mbalAfter, retryMbal]
    omega
  refine ⟨?_, hstep k⟩
  induction k with
  | zero => exact ourMbal_gt h0 hM
  | succ k ih => have := hstep k; omega

/-- **C08.** Two different hosts never use the same ballot number, whatever they read and however often
they retried. -/
theorem mbal_distinct {maxHosts i j : Nat} (hi : 0 < i) (hj : 0 < j) (hi' : i ≤ maxHosts)
    (hj' : j ≤ maxHosts) (hij : i ≠ j) (m m' k k' : Nat) :
    mbalAfter m maxHosts i k ≠ mbalAfter m' maxHosts j k' := by
  intro h
  have h1 := mbalAfter_mod m maxHosts i k
  have h2 := mbalAfter_mod m' maxHosts j k'
  rw [h, h2] at h1
  have h3 : (i - 1 + 1) % maxHosts = (j - 1 + 1) % maxHosts := by
    rw [Nat.sub_add_cancel hi, Nat.sub_add_cancel hj]; exact h1.symm
  have := res_inj (by omega) (by omega) h3
  omega

example : mbalAfter 0 2000 7 3 = 6007 ∧ mbalAfter 6007 2000 2000 0 = 10000 := by decide

/-- **C08.** In the 64-bit arithmetic of the code the number is the same as long as it does not exceed
the range. -/
theorem ourMbal64_eq {maxMbal maxHosts hostId : UInt64}
    (h : maxMbal.toNat + maxHosts.toNat + hostId.toNat < 2 ^ 64) :
    (ourMbal64 maxMbal maxHosts hostId).toNat = ourMbal maxMbal.toNat maxHosts.toNat hostId.toNat := by
  unfold ourMbal64 ourMbal
  have h0 : maxMbal = 0 ↔ maxMbal.toNat = 0 := by
    rw [← UInt64.toNat_inj]; simp
  by_cases hz : maxMbal = 0
  · simp [hz]
  · have hz' : ¬ maxMbal.toNat = 0 := fun hh => hz (h0.mpr hh)
    simp only [hz, hz', if_false]
    have hle := Nat.mod_le maxMbal.toNat maxHosts.toNat
    have h1 : (maxMbal - maxMbal % maxHosts).toNat =
        maxMbal.toNat - maxMbal.toNat % maxHosts.toNat := by
      rw [UInt64.toNat_sub_of_le]
      · rw [UInt64.toNat_mod]
      · rw [UInt64.le_iff_toNat_le, UInt64.toNat_mod]; exact hle
    rw [UInt64.toNat_add, UInt64.toNat_add, h1]
    rw [Nat.mod_eq_of_lt (a := _ + maxHosts.toNat) (by omega)]
    exact Nat.mod_eq_of_lt (by omega)

/-- The bound on host ids matters: `num_hosts` may be raised beyond `max_hosts` (`new_num_hosts`,
`src/paxos_lease.c:2129-2130`, is not checked), and then hosts 1 and 2001 of a lease with 2000 slots pick
the same ballot number. -/
theorem mbal_distinct_beyond_max_hosts_violated :
    ∃ i j m, i ≠ j ∧ 0 < i ∧ 0 < j ∧ mbalAfter m 2000 i 1 = mbalAfter m 2000 j 0 :=
  ⟨1, 2001, 0, by decide⟩

end Sanlock.Ballot
