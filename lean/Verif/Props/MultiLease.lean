import Verif.Lemmas.MultiLeaseInv2
import Verif.Lemmas.MultiLeaseRun

/-!
# An exclusive lease on several disks (C02, C58)

`Holds s p`: host index `p` was told by acquire that it has the lease and has not released it or stopped since.
-/

namespace Sanlock.MultiLease

open Sanlock.Ballot (Blk Cfg WriteRes Pc majority)
open Sanlock.Lease (Rec newLeader lands upd balHost)

/-- Host `p` holds the lease. -/
def Holds (s : State) (p : Nat) : Prop := ∃ l, (s.host p).ph = .held l

/-! ## C02 -/

/-- **C02** for a lease on any number of disks, under the assumptions of `Allowed`: two hosts that hold the lease are one host.
For any number of hosts, any interleaving of their sector reads and writes, disks that fail for some of the hosts some of the
time, crashes in the middle of writing the leader record, and rejoining.

Partial: the assumptions `Allowed`; `stale_flag_violated` shows that one of them, which a lease on one disk does not need, is not
always met. -/
theorem exclusive_disks_partial {c : Cfg} {s : State} {p q : Nat} (hc : c.hosts ≤ c.maxHosts) (hd : 0 < c.disks)
    (h : Reach c s) (hp : Holds s p) (hq : Holds s q) : p = q := by
  obtain ⟨l, hl⟩ := hp
  obtain ⟨l', hl'⟩ := hq
  exact exclusive_of_inv hc (inv_reach hc hd h) hl hl'

/-- A host that holds the lease is running and has joined. -/
theorem holder_alive_disks {c : Cfg} {s : State} {p : Nat} (hc : c.hosts ≤ c.maxHosts) (hd : 0 < c.disks)
    (h : Reach c s) (hp : Holds s p) : (s.host p).alive = true ∧ p < c.hosts := by
  obtain ⟨l, hl⟩ := hp
  exact ((inv_reach hc hd h).host p).alive (by rw [hl]; simp)

/-- What somebody reads who can read the disks `ds` and no others. -/
def readAll (s : State) (ds : List Nat) : List Got := ds.map fun d => ⟨d, s.ldr d, 0⟩

/-- While a host holds the lease, whoever reads the disks, or some of them, and finds a record that is the same on a majority,
finds the holder, its current generation, and not a free lease. -/
theorem reader_sees_holder {c : Cfg} {s : State} {p : Nat} {ds : List Nat} {r : Rec} (hc : c.hosts ≤ c.maxHosts)
    (hd : 0 < c.disks) (h : Reach c s) (hp : Holds s p) (hn : ds.Nodup) (hds : ∀ d ∈ ds, d < c.disks)
    (hr : pick c.disks (readAll s ds) = some r) : r.owner = p + 1 ∧ r.gen = (s.host p).gen ∧ r.ts ≠ 0 := by
  have I := inv_reach hc hd h
  have G := I.glob
  obtain ⟨l, hl⟩ := hp
  have H := (I.host p).ph
  rw [hl] at H
  have hseen : Seen s c.disks (readAll s ds) := by
    refine ⟨?_, ?_, ?_, ?_⟩
    · simp only [readAll, List.map_map]
      have : ((fun x : Got => x.disk) ∘ fun d => (⟨d, s.ldr d, 0⟩ : Got)) = id := rfl
      rw [this, List.map_id]
      exact hn
    · intro g hg
      obtain ⟨d, h1, rfl⟩ := List.mem_map.mp hg
      exact hds d h1
    · intro g hg
      obtain ⟨d, h1, rfl⟩ := List.mem_map.mp hg
      exact G.onDisk d (hds d h1)
    · intro g hg
      obtain ⟨d, h1, rfl⟩ := List.mem_map.mp hg
      exact G.free d
  obtain ⟨k1, k2, _⟩ := pick_logged G hseen (Nat.le_refl _) hr
  obtain ⟨e, he, e1, e2, e3⟩ := H.2
  have hfull := G.logFull e he
  rw [e1] at hfull
  have k3 : l.lver ≤ r.lver := by
    obtain ⟨S, hS, hm, hSd⟩ := hfull
    refine pick_based hseen (Nat.le_refl _) ⟨S, hS, hm, hSd, ?_⟩ hr
    intro g hg hgS
    obtain ⟨d, h1, rfl⟩ := List.mem_map.mp hg
    exact hSd d hgS
  have hpos := H.1
  have hlog : Logged s r.lver r.owner r.gen := by
    rcases k1 with h1 | h1
    · omega
    · exact h1
  have heq : r.lver = l.lver := by
    apply Classical.byContradiction
    intro hne
    obtain ⟨v, hv, h1⟩ := logged_vote hc G hlog
    obtain ⟨f, hf, f1, f2⟩ := chain hc G hv h1 (n := l.lver) (by omega) (by omega)
    obtain ⟨j1, j2⟩ := logged_unique hc G H.2 ⟨f, hf, f1, rfl, rfl⟩
    rw [f1, ← j1, ← j2] at f2
    exact held_not_gone (I.host p) hl f2
  rw [heq] at hlog
  obtain ⟨j1, j2⟩ := logged_unique hc G hlog H.2
  refine ⟨j1, j2, ?_⟩
  intro hts
  rcases k2 hts with h0 | h0
  · omega
  · rw [heq, j1, j2] at h0
    exact held_not_gone (I.host p) hl h0

/-- The host that takes a step. -/
def Act.host : Act → Nat
  | .begin p | .readDisk p _ | .readEnd p _ | .ownerGone p | .ownerReleased p | .ownerLive p | .restart p | .check p
  | .againEnd p | .bal p _ | .retry p | .abort p | .retract p | .commitStart p _ | .commitWrite p _ | .commitEnd p
  | .release p _ | .dropX p | .relEnd p | .relErr p | .relWrite p _ _ | .relWEnd p | .die p | .join p => p

theorem setHost_ph (s : State) (a p : Nat) (h : Host) : ((s.setHost a h).host p).ph = if p = a then h.ph else (s.host p).ph := by
  by_cases h : p = a <;> simp [setHost_host, h]

theorem setPh_ph (s : State) (a p : Nat) (ph : Ph) : ((s.setPh a ph).host p).ph = if p = a then ph else (s.host p).ph := by
  simp [State.setPh, setHost_ph]

theorem log_host (c : Cfg) (s : State) (p : Nat) : (s.log c p).host = s.host := by
  unfold State.log; split <;> rfl

/-- A step of one host does not change what another host is doing. -/
theorem phase_other_disks {c : Cfg} {s s' : State} {a : Act} {p : Nat} (hs : step c s a = some s') (ha : a.host ≠ p) :
    (s'.host p).ph = (s.host p).ph := by
  have ha' : p ≠ a.host := fun h => ha h.symm
  cases a <;> simp only [Act.host] at ha' <;> simp only [step, decideRun] at hs <;> repeat' split at hs
  all_goals first
    | (simp at hs; done)
    | (simp only [Option.some.injEq] at hs; subst hs
       first
         | (simp [setPh_ph, setHost_ph, State.putLdr, log_host, ha']; done)
         | (split <;> simp [setPh_ph, setHost_ph, State.putLdr, log_host, ha']))

/-- The lease ends only by a step of its holder: a release, dropping it, or stopping. -/
theorem ends_disks {c : Cfg} {s s' : State} {a : Act} {p : Nat} (hs : step c s a = some s') (h : Holds s p)
    (h' : ¬ Holds s' p) : (∃ w, a = .release p w) ∨ a = .dropX p ∨ a = .die p := by
  by_cases ha : a.host = p
  · obtain ⟨l, hl⟩ := h
    cases a <;> simp only [Act.host] at ha <;> subst ha <;> simp only [step, hl] at hs <;> try simp at hs
    all_goals first
      | (simp; done)
      | (exfalso; apply h'; rename_i x; obtain ⟨_, hs⟩ := hs; subst hs
         exact ⟨l, by simp [setHost_self, hl]⟩)
  · exact absurd ⟨h.choose, by rw [phase_other_disks hs ha]; exact h.choose_spec⟩ h'

/-! ## Executions -/

def three : Cfg := ⟨3, 3, 2000⟩
def two : Cfg := ⟨2, 3, 2000⟩

def allGood : Bad := fun _ => false
def fails (d : Nat) : Bad := fun x => x == d

def holders (s : State) (n : Nat) : List Nat :=
  (List.range n).filter fun p => match (s.host p).ph with | .held _ => true | _ => false

theorem holds_of_holders {s : State} {n p : Nat} (h : p ∈ holders s n) : Holds s p := by
  have h := (List.mem_filter.mp h).2
  split at h
  · rename_i l hl; exact ⟨l, hl⟩
  · simp at h

theorem reach_of_runAllowed {c : Cfg} {as : List Act} {s s' : State} (h : Reach c s) (hr : runAllowed c s as = some s') :
    Reach c s' := by
  induction as generalizing s with
  | nil => simp only [runAllowed, Option.some.injEq] at hr; exact hr ▸ h
  | cons a rest ih =>
    simp only [runAllowed] at hr
    split at hr
    · rename_i ha
      cases hs : step c s a with
      | none => simp [hs] at hr
      | some t => simp only [hs, Option.bind_some] at hr; exact ih (.step h ha hs) hr
    · simp at hr

/-- Host 0 acquires, writing the middle disk fails; it releases, host 1 acquires though the first write of disk 2 fails; host 1
crashes and host 2 takes the lease over. -/
def handover : List Act :=
  [.join 0, .join 1, .join 2] ++ acquire three (fails 1) 0 0 10 ++ releaseActs three allGood 0 20 ++
  acquire three allGood 1 1 30 ++ [.die 1] ++ takeOver three (fails 1) 2 2002 40

/-- The hypotheses of the theorems above are met, with a holder that took the lease over. -/
example : ∃ s, Reach three s ∧ holders s 3 = [2] ∧ pick 3 (readAll s [0, 2]) = pick 3 (readAll s [0, 1, 2]) ∧
    (pick 3 (readAll s [0, 2])).map (·.owner) = some 3 := by
  refine ⟨(runAllowed three init handover).get (by decide +kernel), reach_of_runAllowed .init (Option.some_get _).symm, ?_, ?_, ?_⟩ <;>
    decide +kernel

/-- One disk alone: nothing is found on a majority. -/
example : ∃ s, Reach three s ∧ holders s 3 = [2] ∧ pick 3 (readAll s [1]) = none := by
  refine ⟨(runAllowed three init handover).get (by decide +kernel), reach_of_runAllowed .init (Option.some_get _).symm, ?_, ?_⟩ <;>
    decide +kernel

/-! ### The first disk decides who has released -/

/-- `Allowed`, but any block may fail to reach any disk. -/
def AllowedBut (c : Cfg) (s : State) : Act → Prop
  | .bal _ (.write _ _) => True
  | a => Allowed c s a

instance (c : Cfg) (s : State) (a : Act) : Decidable (AllowedBut c s a) := by
  unfold AllowedBut; split <;> infer_instance

/-- Run a list of steps, all allowed by `AllowedBut`. -/
def runBut (c : Cfg) (s : State) : List Act → Option State
  | [] => some s
  | a :: rest => if AllowedBut c s a then (step c s a).bind (runBut c · rest) else none

/-- Host 0 has acquired and released the lease; its block on the first disk says so.  Then it cannot reach the first disk any more.
It acquires again with the two other disks; while it is in the ballot, host 1 completes it for host 0 and writes the leader record.
Host 0 finds the record and has the lease.  Host 2 reads the old block of host 0 on the first disk, takes the lease for released
and gets it too. -/
def stale : List Act :=
  [.join 0, .join 1, .join 2] ++ acquire three allGood 0 0 10 ++ releaseActs three allGood 0 20 ++
  ([.begin 0] ++ reads three (fails 0) 0 ++ [.readEnd 0 1, .check 0] ++ phase1 three (fails 0) 0 30 ++
    ballotWrites three (fails 0) 0) ++
  acquire three allGood 1 2001 40 ++
  ([.bal 0 (.writesDone 0), .bal 0 (.readFail 0)] ++ ballotRead three (fails 0) 0 1 ++
    [.retry 0, .check 0] ++ reads three (fails 0) 0 ++ [.againEnd 0]) ++
  ([.begin 2] ++ reads three allGood 2 ++ [.readEnd 2 4002, .ownerReleased 2, .check 2] ++ reads three allGood 2 ++
    [.againEnd 2] ++ ballotAndCommit three allGood 2 50)

/-- **C02 is false without the assumption about the first disk**: one host cannot write the first of three disks, no other disk and
no other host has a fault, nobody crashes or is late, and two hosts hold the lease. -/
theorem stale_flag_violated : ∃ as s p q, runBut three init as = some s ∧ Holds s p ∧ Holds s q ∧ p ≠ q := by
  have h : ∃ s, runBut three init stale = some s ∧ holders s 3 = [0, 2] :=
    ⟨(runBut three init stale).get (by decide +kernel), (Option.some_get _).symm, by decide +kernel⟩
  obtain ⟨s, hr, hh⟩ := h
  exact ⟨stale, s, 0, 2, hr, holds_of_holders (n := 3) (by rw [hh]; decide), holds_of_holders (n := 3) (by rw [hh]; decide), by decide⟩

/-! ## C58 -/

/-- **C58**: a lease that is free on a majority of the disks, the last disk among them, is acquired by a host that can use those
disks, though it cannot read or write the others at all, if nobody else is acquiring it and no block is ahead of the leader record.
For any number of disks and hosts and any contents of the blocks.  The new record is on every disk the host can use.

Partial: the last disk is needed (`last_disk_violated`), a lease whose last write of the leader record was cut off may be lost
(`torn_leader_violated`), and a lease whose blocks are ahead of the leader record is not covered. -/
theorem majority_enough_partial {c : Cfg} {bad : Bad} {p max now : Nat} {s : State} {r : Rec} (hd : 0 < c.disks)
    (hidle : (s.host p).ph = .idle) (hpc : (s.B.proc p).pc = .idle) (halive : (s.host p).alive = true) (hp : p < c.hosts)
    (hm : c.disks < 2 * (List.range c.disks).countP fun d => !bad d) (hlast : bad (c.disks - 1) = false)
    (hr : pick c.disks (readAll s ((List.range c.disks).filter fun d => !bad d)) = some r) (hfree : r.ts = 0)
    (hblocks : ∀ d < c.disks, ∀ q < c.hosts, (s.B.disk d q).lver ≤ r.lver) (hmax : ∀ d < c.disks, (s.B.disk d p).mbal ≤ max) :
    ∃ s' l, run c s (acquire c bad p max now) = some s' ∧ (s'.host p).ph = .held l ∧ l.lver = r.lver + 1 ∧ l.owner = p + 1 ∧
      l.gen = (s.host p).gen ∧ ∀ d < c.disks, bad d = false → s'.ldr d = l := by
  rw [List.range_eq_range'] at hm hr
  refine run_acquire hd hidle halive hp hpc (majority_iff.mpr ?_) hlast hr hfree hblocks hmax
  simpa [good] using hm

/-- Met by a new lease of which the first disk is out of order. -/
example : ∃ s, Reach three s ∧ (s.host 1).ph = .idle ∧ (s.host 1).alive = true ∧
    pick 3 (readAll s ((List.range 3).filter fun d => !fails 0 d)) = some ⟨0, 0, 0, 0, 0, 0, 0⟩ ∧
    holders ((run three s (acquire three (fails 0) 1 0 10)).getD init) 3 = [1] := by
  refine ⟨(runAllowed three init [.join 1]).get (by decide +kernel), reach_of_runAllowed .init (Option.some_get _).symm, ?_, ?_, ?_, ?_⟩ <;>
    decide +kernel

/-- **C58**: the same for a lease whose owner is gone. -/
theorem majority_takes_over_partial {c : Cfg} {bad : Bad} {p max now : Nat} {s : State} {r : Rec} (hd : 0 < c.disks)
    (hidle : (s.host p).ph = .idle) (hpc : (s.B.proc p).pc = .idle) (halive : (s.host p).alive = true) (hp : p < c.hosts)
    (hm : c.disks < 2 * (List.range c.disks).countP fun d => !bad d) (hlast : bad (c.disks - 1) = false)
    (hr : pick c.disks (readAll s ((List.range c.disks).filter fun d => !bad d)) = some r) (howned : r.ts ≠ 0)
    (hother : r.owner ≠ p + 1) (hgone : Expired s (r.owner - 1) r.gen)
    (hblocks : ∀ d < c.disks, ∀ q < c.hosts, (s.B.disk d q).lver ≤ r.lver) (hmax : ∀ d < c.disks, (s.B.disk d p).mbal ≤ max) :
    ∃ s' l, run c s (takeOver c bad p max now) = some s' ∧ (s'.host p).ph = .held l ∧ l.lver = r.lver + 1 ∧ l.owner = p + 1 ∧
      l.gen = (s.host p).gen ∧ ∀ d < c.disks, bad d = false → s'.ldr d = l := by
  rw [List.range_eq_range'] at hm hr
  refine run_takeOver hd hidle halive hp hpc (majority_iff.mpr ?_) hlast hr howned hother hblocks hmax
  simpa [good] using hm

/-- Met in the execution `handover` before its last part. -/
example : ∃ s r, Reach three s ∧ (s.host 2).ph = .idle ∧ (match (s.B.proc 2).pc with | .idle => true | _ => false) = true ∧
    (s.host 2).alive = true ∧
    pick 3 (readAll s ((List.range 3).filter fun d => !fails 1 d)) = some r ∧ r.ts ≠ 0 ∧ r.owner ≠ 3 ∧
    Expired s (r.owner - 1) r.gen ∧ (∀ d < 3, ∀ q < 3, (s.B.disk d q).lver ≤ r.lver) ∧ (∀ d < 3, (s.B.disk d 2).mbal ≤ 2002) := by
  refine ⟨(runAllowed three init (handover.take (handover.length - (takeOver three (fails 1) 2 2002 40).length))).get (by decide +kernel),
    ⟨2, 2, 1, 30, 2, 1, 30⟩, reach_of_runAllowed .init (Option.some_get _).symm, ?_, ?_, ?_, ?_, ?_, ?_, ?_, ?_, ?_⟩ <;> decide +kernel

/-- **C58**: a holder whose record is on every disk it can use, a majority, releases; then the record is free on those disks.  The
last disk is not needed for that. -/
theorem majority_releases {c : Cfg} {bad : Bad} {p now : Nat} {s : State} {l : Rec} (hheld : (s.host p).ph = .held l)
    (hm : c.disks < 2 * (List.range c.disks).countP fun d => !bad d) (hl : ∀ d < c.disks, bad d = false → s.ldr d = l)
    (hts : l.ts ≠ 0) (hw : l.wid = p + 1) (ho : l.owner = p + 1) (hg : l.gen = (s.host p).gen) :
    ∃ s', run c s (releaseActs c bad p now) = some s' ∧ (s'.host p).ph = .idle ∧
      ∀ d < c.disks, bad d = false → (s'.ldr d).ts = 0 ∧ (s'.ldr d).lver = l.lver := by
  rw [List.range_eq_range'] at hm
  refine run_release hheld (majority_iff.mpr ?_) hl hts hw ho hg
  simpa [good] using hm

/-- Met when a host has acquired without the first disk. -/
example : ∃ (s : State) (l : Rec), (s.host 1).ph = .held l ∧ (∀ d < 3, fails 0 d = false → s.ldr d = l) ∧ l.ts ≠ 0 ∧ l.wid = 2 ∧ l.owner = 2 ∧
    l.gen = (s.host 1).gen := by
  refine ⟨(run three init ([.join 1] ++ acquire three (fails 0) 1 0 10)).get (by decide +kernel), ⟨1, 2, 1, 10, 2, 1, 10⟩, ?_, ?_, ?_, ?_, ?_, ?_⟩ <;>
    decide +kernel

/-- A host that cannot read the last disk does not acquire, whatever is on the others. -/
theorem last_disk_needed {c : Cfg} {s s' : State} {p d max : Nat} {got : List Got} (hph : (s.host p).ph = .call d got)
    (hlast : ∀ g ∈ got, g.disk ≠ c.disks - 1) (hs : step c s (.readEnd p max) = some s') : (s'.host p).ph = .idle := by
  have : lastOk c.disks got = false := by
    simp only [lastOk]
    cases h : got.getLast? with
    | none => rfl
    | some g =>
      have := hlast g (List.mem_of_getLast? h)
      simp [this]
  simp only [step, hph] at hs
  split at hs
  · simp at hs
  · simp only [Option.some.injEq] at hs
    rw [← hs, setPh_ph, if_pos rfl]

/-- **C58 is false for the last disk**: a new lease on three disks, two of which work and agree, nobody else is there; the host
fails to acquire, each time. -/
theorem last_disk_violated : ∃ s, Reach three s ∧ (s.host 0).alive = true ∧
    pick 3 (readAll s [0, 1]) = some ⟨0, 0, 0, 0, 0, 0, 0⟩ ∧
    ∃ s', run three s ([.begin 0] ++ reads three (fails 2) 0 ++ [.readEnd 0 0]) = some s' ∧ (s'.host 0).ph = .idle := by
  refine ⟨(runAllowed three init [.join 0]).get (by decide +kernel), reach_of_runAllowed .init (Option.some_get _).symm, ?_, ?_,
    ((run three ((runAllowed three init [.join 0]).get (by decide +kernel))
      ([.begin 0] ++ reads three (fails 2) 0 ++ [.readEnd 0 0])).get (by decide +kernel)), (Option.some_get _).symm, ?_⟩ <;>
    decide +kernel

/-- If no record is the same on a majority of the disks and nobody is in the middle of acquiring or releasing, nobody ever holds the
lease again and nothing is written to the disks again, whatever the hosts do and however well the disks work. -/
theorem no_majority_stuck {c : Cfg} {s s' : State} {as : List Act} (hidle : ∀ p, (s.host p).ph = .idle)
    (hno : ∀ d < c.disks, 2 * ((List.range c.disks).countP fun e => same (s.ldr e) (s.ldr d)) ≤ c.disks)
    (h : run c s as = some s') : (∀ p, ¬ Holds s' p) ∧ s'.ldr = s.ldr := by
  have hno' : NoMajority c s.ldr := by
    intro d hd
    cases hm : majority c.disks ((List.range c.disks).countP fun e => same (s.ldr e) (s.ldr d)) with
    | false => rfl
    | true => have h1 := majority_iff.mp hm; have h2 := hno d hd; omega
  have H := still_run hno' ⟨rfl, fun p => .inl (hidle p)⟩ h
  refine ⟨fun p ⟨l, hl⟩ => ?_, H.disks⟩
  rcases H.ph p with h1 | ⟨d, got, h1, _⟩ <;> rw [hl] at h1 <;> simp at h1

/-- Host 0 acquires a lease on two disks and crashes between the two writes of the leader record. -/
def torn2 : List Act :=
  [.join 0, .join 1] ++ ([.begin 0] ++ reads two allGood 0 ++ [.readEnd 0 0, .check 0] ++ phase1 two allGood 0 30 ++
    phase1 two allGood 0 30 ++ [.commitStart 0 10, .commitWrite 0 .ok, .die 0])

/-- Host 0 acquires and releases a lease on three disks, of which it cannot use the middle one; then host 1, that can use all,
crashes when it has written the leader record to the first disk. -/
def torn3 : List Act :=
  [.join 0, .join 1] ++ acquire three (fails 1) 0 0 10 ++ releaseActs three (fails 1) 0 20 ++
  ([.begin 1] ++ reads three allGood 1 ++ [.readEnd 1 1, .check 1] ++ phase1 three allGood 1 30 ++ phase1 three allGood 1 30 ++
    [.commitStart 1 30, .commitWrite 1 .ok, .die 1])

/-- Nobody is acquiring, and no record is on a majority of the disks. -/
def lost (c : Cfg) (s : State) : Bool :=
  (List.range c.hosts).all (fun p => match (s.host p).ph with | .idle => true | _ => false) &&
  (List.range c.disks).all fun d => 2 * ((List.range c.disks).countP fun e => same (s.ldr e) (s.ldr d)) ≤ c.disks

theorem no_majority_of_lost {c : Cfg} {s : State} (h : lost c s = true) :
    ∀ d < c.disks, 2 * ((List.range c.disks).countP fun e => same (s.ldr e) (s.ldr d)) ≤ c.disks := by
  intro d hd
  simp only [lost, Bool.and_eq_true, List.all_eq_true, List.mem_range, decide_eq_true_eq] at h
  exact h.2 d hd

/-- **C58 is false after a crash**: with two disks that both work, one crash of one host is enough to make the lease unusable for
all hosts for ever; with three disks, one crash and an earlier fault of one disk for one host. -/
theorem torn_leader_violated :
    (∃ s, Reach two s ∧ (∀ p, (s.host p).ph = .idle) ∧
      ∀ as s', run two s as = some s' → (∀ p, ¬ Holds s' p) ∧ s'.ldr = s.ldr) ∧
    (∃ s, Reach three s ∧ (∀ p, (s.host p).ph = .idle) ∧
      ∀ as s', run three s as = some s' → (∀ p, ¬ Holds s' p) ∧ s'.ldr = s.ldr) := by
  have idle : ∀ c s as, runAllowed c init as = some s → (∀ a ∈ as, a.host < 3) → lost c s = true → 3 ≤ c.hosts →
      ∀ p, (s.host p).ph = .idle := by
    intro c s as hr ha hl hc p
    by_cases hp : p < 3
    · simp only [lost, Bool.and_eq_true, List.all_eq_true, List.mem_range] at hl
      have := hl.1 p (by omega)
      split at this
      · assumption
      · simp at this
    · have gen : ∀ as s0 s, runAllowed c s0 as = some s → (∀ a ∈ as, a.host < 3) → (s0.host p).ph = .idle →
          (s.host p).ph = .idle := by
        intro as
        induction as with
        | nil => intro s0 s hr _ h0; simp only [runAllowed, Option.some.injEq] at hr; rw [← hr]; exact h0
        | cons a rest ih =>
          intro s0 s hr ha h0
          simp only [runAllowed] at hr
          split at hr
          · cases hs : step c s0 a with
            | none => simp [hs] at hr
            | some t =>
              simp only [hs, Option.bind_some] at hr
              refine ih t s hr (fun b hb => ha b (List.mem_cons_of_mem _ hb)) ?_
              have h1 := ha a (List.mem_cons_self ..)
              rw [phase_other_disks hs (by omega)]
              exact h0
          · simp at hr
      exact gen as init s hr ha rfl
  have h2 : ∃ s, runAllowed two init torn2 = some s ∧ lost two s = true :=
    ⟨(runAllowed two init torn2).get (by decide +kernel), (Option.some_get _).symm, by decide +kernel⟩
  have h3 : ∃ s, runAllowed three init torn3 = some s ∧ lost three s = true :=
    ⟨(runAllowed three init torn3).get (by decide +kernel), (Option.some_get _).symm, by decide +kernel⟩
  obtain ⟨s2, r2, l2⟩ := h2
  obtain ⟨s3, r3, l3⟩ := h3
  have i2 := idle two s2 torn2 r2 (by decide +kernel) l2 (by decide)
  have i3 := idle three s3 torn3 r3 (by decide +kernel) l3 (by decide)
  exact ⟨⟨s2, reach_of_runAllowed .init r2, i2, fun as s' h => no_majority_stuck i2 (no_majority_of_lost l2) h⟩,
    ⟨s3, reach_of_runAllowed .init r3, i3, fun as s' h => no_majority_stuck i3 (no_majority_of_lost l3) h⟩⟩

end Sanlock.MultiLease
