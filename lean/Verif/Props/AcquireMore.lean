import Verif.Props.Acquire

/-!
# Ballot numbers and retraction in one acquire; return codes of release (C05, C08, C04)
-/

namespace Sanlock.Acquire

open OnDisk Liveness SizeFlags

/-- Number of ballots run since the lease was last read. -/
def ballots : List In → Nat
  | [] => 0
  | .lease _ :: _ => 0
  | .ballot .. :: rest => ballots rest + 1
  | _ :: rest => ballots rest

/-- What the program point knows of the largest number read. -/
def NInv (P : Par) (ins : List In) (s : St) : Prop :=
  match s.pc with
  | .lockspace cur m | .hostInfo cur m => lastLease ins = some (cur, m) ∧ ballots ins = 0
  | .delta w | .ownerBlk w | .clock w | .sleep w | .reread w => lastLease ins = some (w.cur, w.maxMbal) ∧ ballots ins = 0
  | .retry cur mbal _ | .ballot cur mbal =>
    ∃ m, lastLease ins = some (cur, m) ∧ mbal = ourMbal P cur m + UInt64.ofNat (ballots ins) * cur.maxHosts
  | _ => True

theorem ninv_settle {P : Par} {ins : List In} {s : St} (h : NInv P ins s) : NInv P ins (settle P s) := by
  unfold settle
  split
  · rename_i cur mbal hpc
    simp only [NInv, hpc] at h
    unfold beforeBallot
    repeat' split
    all_goals simp only [NInv]
    exact h
  · exact h

theorem mul_succ (n : Nat) (a b : UInt64) : a + UInt64.ofNat n * b + b = a + UInt64.ofNat (n + 1) * b := by
  rw [UInt64.ofNat_add, UInt64.add_mul, UInt64.add_assoc]
  congr 2
  show b = 1 * b
  rw [UInt64.one_mul]

theorem zero_mul' (a b : UInt64) : a = a + UInt64.ofNat 0 * b := by
  show a = a + 0 * b
  rw [UInt64.zero_mul, UInt64.add_zero]

theorem ninv_toRun {P : Par} {ins : List In} {s : St} {cur : Leader} {m : UInt64} {c : Bool}
    (h1 : lastLease ins = some (cur, m)) (h2 : ballots ins = 0) : NInv P ins (toRun P s cur m c) := by
  simp only [NInv, toRun]
  exact ⟨m, h1, by rw [h2]; exact zero_mul' _ _⟩

theorem ninv_step {P : Par} {sum : Leader → UInt32} {ins : List In} {s s' : St} {i : In} (h : NInv P ins s)
    (hs : step P sum s i = some s') : NInv P (i :: ins) s' := by
  cases i with
  | lease r =>
    simp only [step] at hs
    split at hs
    · split at hs
      · simp only [Option.some.injEq] at hs; subst hs; trivial
      · rename_i cur m
        simp only [Option.some.injEq] at hs; subst hs
        unfold afterRead
        repeat' split
        all_goals first
          | trivial
          | exact ninv_toRun rfl rfl
          | exact ⟨rfl, rfl⟩
    · simp at hs
  | lockspace r =>
    simp only [step] at hs
    split at hs
    · rename_i hpc
      simp only [NInv, hpc] at h
      split at hs
      · simp only [Option.some.injEq] at hs; subst hs; trivial
      · simp only [Option.some.injEq] at hs; subst hs; exact h
    · simp at hs
  | hostInfo t e g =>
    simp only [step] at hs
    split at hs
    · rename_i hpc
      simp only [NInv, hpc] at h
      simp only [Option.some.injEq] at hs; subst hs
      unfold afterHostInfo
      repeat' split
      all_goals exact h
    · simp at hs
  | delta t r =>
    simp only [step] at hs
    split at hs
    · rename_i hpc
      simp only [NInv, hpc] at h
      split at hs
      · simp only [Option.some.injEq] at hs; subst hs; trivial
      · simp only [Option.some.injEq] at hs; subst hs
        unfold afterDelta
        repeat' split
        all_goals first
          | trivial
          | exact ninv_toRun h.1 h.2
          | exact h
    · simp at hs
  | ownerBlk r =>
    simp only [step] at hs
    split at hs
    · rename_i hpc
      simp only [NInv, hpc] at h
      split at hs
      · simp only [Option.some.injEq] at hs; subst hs; exact ninv_toRun h.1 h.2
      · simp only [Option.some.injEq] at hs; subst hs; trivial
    · simp at hs
  | clock now =>
    simp only [step] at hs
    split at hs
    · rename_i hpc
      simp only [NInv, hpc] at h
      simp only [Option.some.injEq] at hs; subst hs
      unfold afterClock
      repeat' split
      all_goals first
        | trivial
        | exact ninv_toRun h.1 h.2
        | exact h
    · simp at hs
  | slept b =>
    simp only [step] at hs
    split at hs
    · rename_i hpc
      simp only [NInv, hpc] at h
      split at hs
      · simp only [Option.some.injEq] at hs; subst hs; trivial
      · simp only [Option.some.injEq] at hs; subst hs; exact h
    · simp at hs
  | leader r =>
    simp only [step] at hs
    split at hs
    · rename_i hpc
      simp only [NInv, hpc] at h
      split at hs
      · simp only [Option.some.injEq] at hs; subst hs; trivial
      · split at hs
        · simp only [Option.some.injEq] at hs; subst hs; trivial
        · simp only [Option.some.injEq] at hs; subst hs; exact h
    · rename_i hpc
      simp only [NInv, hpc] at h
      split at hs
      · simp only [Option.some.injEq] at hs; subst hs; trivial
      · simp only [Option.some.injEq] at hs; subst hs
        unfold beforeBallot
        repeat' split
        all_goals first
          | trivial
          | exact h
    · simp at hs
  | ballot rv db rt =>
    simp only [step] at hs
    split at hs
    · rename_i hpc
      simp only [NInv, hpc] at h
      obtain ⟨m, h1, h2⟩ := h
      split at hs
      · simp only [Option.some.injEq] at hs; subst hs
        exact ⟨m, h1, by rw [h2]; exact mul_succ _ _ _⟩
      · split at hs
        · simp only [Option.some.injEq] at hs; subst hs; trivial
        · simp only [Option.some.injEq] at hs; subst hs; trivial
    · simp at hs
  | written now rv =>
    simp only [step] at hs
    split at hs
    · split at hs
      · simp only [Option.some.injEq] at hs; subst hs; trivial
      · split at hs
        · simp only [Option.some.injEq] at hs; subst hs; trivial
        · simp only [Option.some.injEq] at hs; subst hs; trivial
    · simp at hs

theorem ninv_exec {P : Par} {sum : Leader → UInt32} {sec al : Nat} {ins : List In} {s : St}
    (h : Exec P sum (St.init sec al) ins s) : NInv P ins s := by
  induction h with
  | nil => trivial
  | step _ hs ih => exact ninv_settle (ninv_step ih hs)

/-- **C08, as used by acquire.**  Whenever acquire calls `run_ballot`, the ballot number is larger than the largest number found
when the lease was read, and leaves the same remainder as the host id when divided by `max_hosts`, so that no other host id up to
`max_hosts` uses it; as long as the numbers stay below 2^64.  With every further ballot since that read it is larger by
`max_hosts`. -/
theorem ballot_number {P : Par} {sum : Leader → UInt32} {sec al : Nat} {ins : List In} {s : St} {cur : Leader} {mbal : UInt64}
    (h : Exec P sum (St.init sec al) ins s) (hpc : s.pc = .ballot cur mbal) (hid : P.hostId ≠ 0) (hm : cur.maxHosts ≠ 0) :
    ∃ m, lastLease ins = some (cur, m) ∧
      (m.toNat + (ballots ins + 1) * cur.maxHosts.toNat + P.hostId.toNat < 2 ^ 64 →
        m.toNat + ballots ins * cur.maxHosts.toNat < mbal.toNat ∧
        mbal.toNat % cur.maxHosts.toNat = P.hostId.toNat % cur.maxHosts.toNat) := by
  have hn := ninv_exec h
  simp only [NInv, hpc] at hn
  obtain ⟨m, h1, h2⟩ := hn
  refine ⟨m, h1, fun hb => ?_⟩
  have hm0 : 0 < cur.maxHosts.toNat := Nat.pos_of_ne_zero fun h => hm (UInt64.toNat_inj.mp h)
  have hid0 : 0 < P.hostId.toNat := Nat.pos_of_ne_zero fun h => hid (UInt64.toNat_inj.mp h)
  generalize ballots ins = k at *
  generalize hM : cur.maxHosts.toNat = M at *
  have hkM : k * M + M = (k + 1) * M := by rw [Nat.add_mul]; omega
  have hkk : k < 2 ^ 64 := by
    have : k * 1 ≤ k * M := Nat.mul_le_mul_left k hm0
    omega
  have hprod : (UInt64.ofNat k * cur.maxHosts).toNat = k * M := by
    rw [UInt64.toNat_mul, UInt64.toNat_ofNat', hM, Nat.mod_eq_of_lt hkk]
    exact Nat.mod_eq_of_lt (by omega)
  have hmod := Nat.mod_lt m.toNat hm0
  have hdm := Nat.div_add_mod m.toNat M
  have hour : (ourMbal P cur m).toNat = (if m.toNat = 0 then P.hostId.toNat else m.toNat - m.toNat % M + M + P.hostId.toNat) := by
    unfold ourMbal
    by_cases h0 : m = 0
    · subst h0; simp
    · have h0' : m.toNat ≠ 0 := fun h => h0 (UInt64.toNat_inj.mp h)
      rw [if_neg h0, if_neg h0']
      have hle : m % cur.maxHosts ≤ m := by
        rw [UInt64.le_iff_toNat_le, UInt64.toNat_mod]; exact Nat.mod_le _ _
      rw [UInt64.toNat_add, UInt64.toNat_add, UInt64.toNat_sub_of_le _ _ hle, UInt64.toNat_mod, hM]
      have : m.toNat - m.toNat % M + M < 2 ^ 64 := by omega
      rw [Nat.mod_eq_of_lt this]
      exact Nat.mod_eq_of_lt (by omega)
  have htot : mbal.toNat = (ourMbal P cur m).toNat + k * M := by
    rw [h2, UInt64.toNat_add, hprod]
    apply Nat.mod_eq_of_lt
    rw [hour]
    split <;> omega
  rw [htot, hour]
  split
  · rename_i h0
    refine ⟨by omega, ?_⟩
    rw [Nat.add_mul_mod_self_right]
  · refine ⟨by omega, ?_⟩
    have e : m.toNat - m.toNat % M + M + P.hostId.toNat + k * M = P.hostId.toNat + M * (m.toNat / M + 1 + k) := by
      rw [Nat.mul_add, Nat.mul_add, Nat.mul_one, Nat.mul_comm M k]
      omega
    rw [e, Nat.add_mul_mod_self_left]

/-- **Retraction.**  Acquire asks its caller to retract the proposal (`T_RETRACT_PAXOS`) exactly if a ballot asked for it, or
writing the leader record after a ballot failed. -/
theorem retract_iff {P : Par} {sum : Leader → UInt32} {sec al : Nat} {ins : List In} {s : St}
    (h : Exec P sum (St.init sec al) ins s) :
    s.retract = true ↔ (∃ rv db, In.ballot rv db true ∈ ins) ∨ (∃ now rv, In.written now rv ∈ ins ∧ rv < 0) := by
  have hsettle : ∀ s : St, (settle P s).retract = s.retract := by
    intro s
    unfold settle beforeBallot
    repeat' split
    all_goals rfl
  induction h with
  | nil => simp [St.init]
  | @step ins s s' i _ hs ih =>
    rw [hsettle]
    have other : (∀ rv db, i ≠ .ballot rv db true) → (∀ now rv, i = .written now rv → ¬ rv < 0) → s'.retract = s.retract →
        (s'.retract = true ↔ (∃ rv db, In.ballot rv db true ∈ i :: ins) ∨ (∃ now rv, In.written now rv ∈ i :: ins ∧ rv < 0)) := by
      intro h1 h2 h3
      rw [h3]
      refine Iff.trans ih ?_
      constructor
      · rintro (⟨rv, db, h⟩ | ⟨now, rv, h, hr⟩)
        · exact .inl ⟨rv, db, List.mem_cons_of_mem _ h⟩
        · exact .inr ⟨now, rv, List.mem_cons_of_mem _ h, hr⟩
      · rintro (⟨rv, db, h⟩ | ⟨now, rv, h, hr⟩)
        · rcases List.mem_cons.mp h with h | h
          · exact absurd h.symm (h1 rv db)
          · exact .inl ⟨rv, db, h⟩
        · rcases List.mem_cons.mp h with h | h
          · exact absurd hr (h2 now rv h.symm)
          · exact .inr ⟨now, rv, h, hr⟩
    cases i with
    | ballot rv db rt =>
      have hr : s'.retract = (s.retract || rt) := by
        simp only [step] at hs
        repeat' split at hs
        all_goals first
          | (simp at hs; done)
          | (simp only [Option.some.injEq] at hs; subst hs; rfl)
      cases rt
      · exact other (by simp) (by simp) (by rw [hr, Bool.or_false])
      · rw [hr, Bool.or_true]
        exact ⟨fun _ => .inl ⟨rv, db, List.mem_cons_self⟩, fun _ => rfl⟩
    | written now rv =>
      by_cases hn : rv < 0
      · have hr : s'.retract = true := by
          simp only [step] at hs
          split at hs
          · rw [if_pos hn] at hs
            simp only [Option.some.injEq] at hs; subst hs; rfl
          · simp at hs
        rw [hr]
        exact ⟨fun _ => .inr ⟨now, rv, List.mem_cons_self, hn⟩, fun _ => rfl⟩
      · refine other (by simp) (by simp; omega) ?_
        simp only [step] at hs
        split at hs
        · rw [if_neg hn] at hs
          split at hs <;> (simp only [Option.some.injEq] at hs; subst hs; rfl)
        · simp at hs
    | _ =>
      refine other (by simp) (by simp) ?_
      simp only [step, afterRead, toRun, afterHostInfo, afterDelta, afterClock, beforeBallot] at hs
      repeat' split at hs
      all_goals first
        | (simp at hs; done)
        | (simp only [Option.some.injEq] at hs; subst hs; first | rfl | (repeat' split) <;> rfl)

/-- **C05.**  When a release of a lease whose record was last seen as `last` writes nothing, the return value tells why: success
if another host wrote the record (then that host has the lease or has freed it), a version error if the version differs,
an owner error otherwise. -/
theorem release_refused {hostId hostGen : UInt64} {sum : Leader → UInt32} {l last : Leader} {rename : Option Name}
    {now : UInt64} {e : Int} :
    release hostId hostGen sum (.ok l) (some last) rename now = .error e ↔
      (l.writeId ≠ hostId ∧ e = 0) ∨
      (l.writeId = hostId ∧ l.lver ≠ last.lver ∧ e = Rv.RELEASE_LVER) ∨
      (l.writeId = hostId ∧ l.lver = last.lver ∧
        (l.timestamp = 0 ∨ l.ownerId ≠ hostId ∨ l.ownerGeneration ≠ hostGen ∨ l ≠ last) ∧ e = Rv.RELEASE_OWNER) := by
  unfold release
  simp only [Option.getD_some]
  by_cases h1 : l.writeId = hostId
  · by_cases h2 : l.lver = last.lver
    · by_cases h3 : l.timestamp = 0
      · simp [h1, h2, h3, eq_comm]
      · by_cases h4 : l.ownerId ≠ hostId ∨ l.ownerGeneration ≠ hostGen
        · rw [if_neg (by simp [h1]), if_neg (by simp [h2]), if_neg h3, if_pos h4]
          rcases h4 with h4 | h4 <;> simp [h1, h2, h4, eq_comm]
        · by_cases h5 : l = last
          · rw [if_neg (by simp [h1]), if_neg (by simp [h2]), if_neg h3, if_neg h4, if_neg (by simp [h5])]
            simp only [not_or, Decidable.not_not] at h4
            simp [h1, h2, h3, h4.1, h4.2]
            intro hh; exact absurd h5 hh
          · rw [if_neg (by simp [h1]), if_neg (by simp [h2]), if_neg h3, if_neg h4, if_pos h5]
            simp [h1, h2, h5, eq_comm]
    · simp [h1, h2, eq_comm]
  · simp [h1, eq_comm]

/-- Non-vacuity: a lease at version 5 that was last seen at version 4. -/
example : release 2 3 (fun _ => 0) (.ok exCur) (some { exCur with lver := 4 }) none 9 = .error Rv.RELEASE_LVER :=
  release_refused.mpr (.inr (.inl (by decide)))

/-- Non-vacuity: a free lease, a ballot that loses to a larger number, and the next ballot. -/
example : ((run exPar (fun _ => 0) (St.init 512 1048576)
    [.lease (.ok (exFree, 4001)), .ballot Rv.DBLOCK_MBAL none false, .leader (.ok exFree)]).any fun s =>
      match s.pc with
      | .ballot _ m => m == 4001 - 4001 % exFree.maxHosts + 2 * exFree.maxHosts + exPar.hostId
      | _ => false) = true := by decide

end Sanlock.Acquire
