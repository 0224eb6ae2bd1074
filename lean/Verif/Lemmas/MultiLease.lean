import Verif.MultiLease
import Verif.Props.Ballot

/-!
# Invariant of the exclusive lease on several disks
-/

namespace Sanlock.MultiLease

open Sanlock.Ballot (Blk Cfg WriteRes Pc majority Sub Vote Done majority_inter majority_gt)
open Sanlock.Lease (Rec newLeader lands upd balHost)

/-! ## Majorities -/

theorem majority_iff {n m : Nat} : majority n m = true ↔ n < 2 * m := by
  refine ⟨majority_gt, fun h => ?_⟩
  unfold majority
  split
  · omega
  · split
    · simp; omega
    · split
      · rfl
      · omega

/-- A duplicate-free list inside another one is not longer. -/
theorem length_le_of_mem {l m : List Nat} (hl : l.Nodup) (h : ∀ x ∈ l, x ∈ m) : l.length ≤ m.length := by
  induction l generalizing m with
  | nil => simp
  | cons a l ih =>
    have ha := h a (by simp)
    have h1 := ih (m := m.erase a) (List.nodup_cons.mp hl).2 (by
      intro x hx
      refine (List.mem_erase_of_ne ?_).mpr (h x (by simp [hx]))
      rintro rfl
      exact (List.nodup_cons.mp hl).1 hx)
    rw [List.length_erase_of_mem ha] at h1
    have := List.length_pos_of_mem ha
    simp only [List.length_cons]
    omega

/-- Version `n` or a later one is on a majority of the disks. -/
def Full (c : Cfg) (s : State) (n : Nat) : Prop :=
  ∃ S, Sub S c.disks ∧ majority c.disks S.length = true ∧ ∀ d ∈ S, n ≤ (s.ldr d).lver

theorem full_iff {c : Cfg} {s : State} {n : Nat} : full c s n = true ↔ Full c s n := by
  unfold full Full
  constructor
  · intro h
    refine ⟨(List.range c.disks).filter fun d => n ≤ (s.ldr d).lver, ⟨List.Nodup.sublist List.filter_sublist List.nodup_range, ?_⟩, ?_, ?_⟩
    · intro x hx; exact List.mem_range.mp (List.mem_filter.mp hx).1
    · rw [← List.countP_eq_length_filter]; exact h
    · intro d hd; simpa using (List.mem_filter.mp hd).2
  · rintro ⟨S, hS, hm, hd⟩
    rw [majority_iff] at hm ⊢
    have : S.length ≤ ((List.range c.disks).filter fun d => n ≤ (s.ldr d).lver).length :=
      length_le_of_mem hS.1 fun x hx => List.mem_filter.mpr ⟨List.mem_range.mpr (hS.2 x hx), by simpa using hd x hx⟩
    rw [← List.countP_eq_length_filter] at this
    omega

/-! ## What one step of a host inside `run_ballot` changes -/

structure BStep (c : Cfg) (B B' : Ballot.State) (p : Nat) (a : Ballot.Act) : Prop where
  active : (B.proc p).pc ≠ .idle
  proc : ∀ q, q ≠ p → B'.proc q = B.proc q
  log : B'.log = B.log
  disk : ∀ d q, q ≠ p → B'.disk d q = B.disk d q
  own : ∀ d, B'.disk d p = B.disk d p ∨ B'.disk d p = (B.proc p).dblock
  lver : (B'.proc p).dblock.lver = (B.proc p).dblock.lver
  mbal : (B'.proc p).dblock.mbal = (B.proc p).dblock.mbal
  gen : (B'.proc p).gen = (B.proc p).gen
  votes : B'.votes = B.votes ∨ ∃ v, B'.votes = v :: B.votes ∧ v.host = p ∧ v.lver = (B.proc p).dblock.lver ∧
    v.bal = (B.proc p).dblock.mbal ∧
    (∃ d w1 r buf mx now, a = .readsDone p now ∧ (B.proc p).pc = .read1 d w1 r buf mx ∧
      v.val = if mx.inp ≠ 0 then mx.val else (p + 1, (B.proc p).gen, now))

theorem setDisk_disk (B : Ballot.State) (d p x q : Nat) (k : Blk) :
    (B.setDisk d p k).disk x q = if x = d ∧ q = p then k else B.disk x q := rfl

theorem bstep_of_step {c : Cfg} {B B' : Ballot.State} {p : Nat} {a : Ballot.Act}
    (ha : balHost a = some p) (hs : Ballot.step c B a = some B') : BStep c B B' p a := by
  cases a with
  | start => simp [balHost] at ha
  | leaderWritten => simp [balHost] at ha
  | quit => simp [balHost] at ha
  | write q res =>
    simp only [balHost, Option.some.injEq] at ha
    subst ha
    simp only [Ballot.step] at hs
    split at hs
    · rename_i d w hpc
      split at hs
      · cases res <;> simp only [Option.some.injEq] at hs <;> subst hs <;> constructor
        all_goals first
          | (intro d' q' hq; simp [setDisk_disk, hq]; done)
          | (intro d'; simp only [Ballot.setPc_disk, setDisk_disk]; split <;> simp; done)
          | (simp_all [Ballot.State.setPc, Ballot.State.setProc, Ballot.State.setDisk]; done)
      · simp at hs
    · rename_i d w1 w hpc
      split at hs
      · cases res <;> simp only [Option.some.injEq] at hs <;> subst hs <;> constructor
        all_goals first
          | (intro d' q' hq; simp [setDisk_disk, hq]; done)
          | (intro d'; simp only [Ballot.setPc_disk, setDisk_disk]; split <;> simp; done)
          | (simp_all [Ballot.State.setPc, Ballot.State.setProc, Ballot.State.setDisk]; done)
      · simp at hs
    · simp at hs
  | writesDone q =>
    simp only [balHost, Option.some.injEq] at ha
    subst ha
    simp only [Ballot.step] at hs
    repeat' split at hs
    all_goals first | contradiction | skip
    all_goals (simp only [Option.some.injEq] at hs; subst hs; constructor) <;>
      simp_all [Ballot.State.setPc, Ballot.State.setProc]
  | readSector q x =>
    simp only [balHost, Option.some.injEq] at ha
    subst ha
    simp only [Ballot.step] at hs
    repeat' split at hs
    all_goals first | contradiction | skip
    all_goals (simp only [Option.some.injEq] at hs; subst hs; constructor) <;>
      simp_all [Ballot.State.setPc, Ballot.State.setProc]
  | readFail q =>
    simp only [balHost, Option.some.injEq] at ha
    subst ha
    simp only [Ballot.step] at hs
    repeat' split at hs
    all_goals first | contradiction | skip
    all_goals (simp only [Option.some.injEq] at hs; subst hs; constructor) <;>
      simp_all [Ballot.State.setPc, Ballot.State.setProc]
  | readDone q =>
    simp only [balHost, Option.some.injEq] at ha
    subst ha
    simp only [Ballot.step] at hs
    repeat' split at hs
    all_goals first | contradiction | skip
    all_goals (simp only [Option.some.injEq] at hs; subst hs; constructor) <;>
      simp_all [Ballot.State.setPc, Ballot.State.setProc]
  | readsDone q now =>
    simp only [balHost, Option.some.injEq] at ha
    subst ha
    simp only [Ballot.step] at hs
    split at hs
    · rename_i d w1 r buf mx hpc
      split at hs
      · simp at hs
      split at hs
      · simp only [Option.some.injEq] at hs
        subst hs
        constructor
        · simp [hpc]
        · intro x hx; simp [Ballot.State.setProc, hx]
        · rfl
        · intro d x hx; rfl
        · intro d; exact .inl rfl
        · simp [Ballot.State.setProc, Ballot.choose_lver]
        · simp [Ballot.State.setProc, Ballot.choose_mbal]
        · simp [Ballot.State.setProc]
        · refine .inr ⟨_, rfl, rfl, by simp [Ballot.choose_lver], by simp [Ballot.choose_bal], d, w1, r, buf, mx, now, rfl, hpc, ?_⟩
          simp only [Ballot.choose, Blk.val]
          split <;> rfl
      · simp only [Option.some.injEq] at hs
        subst hs
        constructor <;> simp_all [Ballot.State.setPc, Ballot.State.setProc]
    · repeat' split at hs
      all_goals first | contradiction | skip
      all_goals (simp only [Option.some.injEq] at hs; subst hs; constructor) <;>
        simp_all [Ballot.State.setPc, Ballot.State.setProc]
    · simp at hs

/-! ## The invariant -/

/-- Host id `o` does not come to own version `n` with generation `g` any more. -/
def Gone (s : State) (n o g : Nat) : Prop :=
  Expired s (o - 1) g ∨ (g = (s.host (o - 1)).gen ∧ n ≤ (s.host (o - 1)).relv)

/-- The ballot for version `n` was completed with this owner. -/
def Logged (s : State) (n o g : Nat) : Prop :=
  ∃ e ∈ s.B.log, e.blk.lver = n ∧ e.blk.inp = o ∧ e.blk.inp2 = g

/-- What a host has read so far, disks below `d`. -/
structure Seen (s : State) (d : Nat) (got : List Got) : Prop where
  nodup : (got.map (·.disk)).Nodup
  lt : ∀ g ∈ got, g.disk < d
  copy : ∀ g ∈ got, (g.ldr.lver = 0 ∧ g.ldr.ts = 0) ∨ ⟨g.disk, g.ldr.lver, g.ldr.owner, g.ldr.gen⟩ ∈ s.wrote
  free : ∀ g ∈ got, g.ldr.ts = 0 → g.ldr.lver = 0 ∨ Gone s g.ldr.lver g.ldr.owner g.ldr.gen

/-- Version `k` was on a majority of the disks before the host began to read. -/
def Based (c : Cfg) (s : State) (k : Nat) (got : List Got) : Prop :=
  ∃ S, Sub S c.disks ∧ majority c.disks S.length = true ∧ (∀ d ∈ S, k ≤ (s.ldr d).lver) ∧
    ∀ g ∈ got, g.disk ∈ S → k ≤ g.ldr.lver

/-- The record an acquire is based on. -/
structure Cur (s : State) (p : Nat) (cur : Rec) : Prop where
  relv : (s.host p).relv = cur.lver
  log : cur.lver = 0 ∨ Logged s cur.lver cur.owner cur.gen

/-- Nobody owns the lease with that record any more. -/
def Over (s : State) (cur : Rec) : Prop := cur.lver = 0 ∨ Gone s cur.lver cur.owner cur.gen

/-- The ballots of host `p` for version `n` that got to phase 2 have numbers up to `m`. -/
def Below (s : State) (p n m : Nat) : Prop := ∀ v ∈ s.B.votes, v.host = p → v.lver = n → v.bal ≤ m

structure MbalOk (c : Cfg) (p mbal : Nat) : Prop where
  pos : 0 < mbal
  res : mbal % c.maxHosts = (p + 1) % c.maxHosts

/-- A record that host `p` commits. -/
def Wins (s : State) (p : Nat) (l : Rec) : Prop :=
  ∃ w1 w, (s.B.proc p).pc = .won w1 w ∧ (s.B.proc p).dblock.lver = l.lver ∧ (s.B.proc p).dblock.inp = l.owner ∧
    (s.B.proc p).dblock.inp2 = l.gen

/-- What holds of a host in phase `ph`. -/
def PhOk (c : Cfg) (s : State) (p : Nat) : Ph → Prop
  | .idle => True
  | .call d got => Seen s d got ∧ Based c s (s.host p).relv got ∧ d ≤ c.disks ∧
      ∀ g ∈ got, g.mbal = (s.B.disk g.disk p).mbal
  | .wait cur max => Cur s p cur ∧ Below s p (cur.lver + 1) max
  | .run cur mbal _ => Cur s p cur ∧ Over s cur ∧ MbalOk c p mbal ∧
      ∀ v ∈ s.B.votes, v.host = p → v.lver = cur.lver + 1 → v.bal < mbal
  | .again cur mbal d got => Cur s p cur ∧ Over s cur ∧ MbalOk c p mbal ∧
      (∀ v ∈ s.B.votes, v.host = p → v.lver = cur.lver + 1 → v.bal < mbal) ∧ Seen s d got ∧ d ≤ c.disks
  | .ballot cur mbal => Cur s p cur ∧ Over s cur ∧ MbalOk c p mbal ∧ Below s p (cur.lver + 1) mbal ∧
      ((s.B.proc p).pc ≠ .idle → (s.B.proc p).dblock.lver = cur.lver + 1 ∧ (s.B.proc p).dblock.mbal = mbal ∧
        (s.B.proc p).gen = (s.host p).gen)
  | .commit l d w lg => (s.host p).relv + 1 = l.lver ∧ Sub w d ∧ d ≤ c.disks ∧ (∀ x ∈ w, l.lver ≤ (s.ldr x).lver) ∧
      l.ts ≠ 0 ∧ (l.owner = p + 1 → l.gen = (s.host p).gen) ∧
      (if lg then Logged s l.lver l.owner l.gen else Wins s p l)
  | .held l => (s.host p).relv + 1 = l.lver ∧ Logged s l.lver (p + 1) (s.host p).gen
  | .rel _ d got => Seen s d got ∧ d ≤ c.disks
  | .relW l d _ => l.lver ≤ (s.host p).relv ∧ l.owner = p + 1 ∧ l.gen = (s.host p).gen ∧
      Logged s l.lver l.owner l.gen ∧ d ≤ c.disks

/-- In the ballot, or writing the leader record before the ballot counts as completed. -/
def Ph.inBallot : Ph → Prop
  | .ballot _ _ => True
  | .commit _ _ _ false => True
  | _ => False

structure HostOk (c : Cfg) (s : State) (p : Nat) : Prop where
  ph : PhOk c s p (s.host p).ph
  alive : (s.host p).ph ≠ .idle → (s.host p).alive = true ∧ p < c.hosts
  pc : ¬ (s.host p).ph.inBallot → (s.B.proc p).pc = .idle
  votes : ∀ v ∈ s.B.votes, v.host = p → v.lver ≤ (s.host p).relv + 1
  disk : ∀ d, (s.B.disk d p).lver ≤ (s.host p).relv + 1
  full : Full c s (s.host p).relv
  log : ∀ e ∈ s.B.log, e.host = p →
    e.blk.lver ≤ (s.host p).relv ∨ (e.blk.lver = (s.host p).relv + 1 ∧ (s.host p).ph.own = e.blk.lver)
  flag : s.flag p = true → ∀ v ∈ s.B.votes, v.host = p → v.lver ≤ (s.host p).relv
  flag1 : ∀ d w, (s.B.proc p).pc = .write1 d w → 0 < d → s.flag p = false
  flag2 : ∀ d w1 r buf mx, (s.B.proc p).pc = .read1 d w1 r buf mx → s.flag p = false

structure Glob (c : Cfg) (s : State) : Prop where
  reach : Ballot.Reach c s.B
  vote : ∀ v ∈ s.B.votes, 1 ≤ v.lver ∧ (v.lver = 1 ∨ ∃ e ∈ s.B.log, e.blk.lver + 1 = v.lver ∧
    Gone s e.blk.lver e.blk.inp e.blk.inp2)
  voteTs : ∀ v ∈ s.B.votes, v.val.2.2 ≠ 0
  voteGen : ∀ v ∈ s.B.votes, 1 ≤ v.val.1 ∧ v.val.2.1 ≤ (s.host (v.val.1 - 1)).gen
  wrote : ∀ x ∈ s.wrote, x.disk < c.disks ∧ x.lver ≤ (s.ldr x.disk).lver ∧ ∃ v ∈ s.B.votes, v.lver = x.lver
  onDisk : ∀ d < c.disks, ((s.ldr d).lver = 0 ∧ (s.ldr d).ts = 0) ∨ ⟨d, (s.ldr d).lver, (s.ldr d).owner, (s.ldr d).gen⟩ ∈ s.wrote
  free : ∀ d, (s.ldr d).ts = 0 → (s.ldr d).lver = 0 ∨ Gone s (s.ldr d).lver (s.ldr d).owner (s.ldr d).gen
  fullLog : ∀ n, 0 < n → Full c s n → ∃ e ∈ s.B.log, e.blk.lver = n
  logFull : ∀ e ∈ s.B.log, Full c s e.blk.lver
  bad : ∀ e ∈ s.B.log, ∀ S, Sub S c.disks →
    (∀ d ∈ S, ∃ x ∈ s.wrote, x.disk = d ∧ x.lver = e.blk.lver ∧ ¬ (x.owner = e.blk.inp ∧ x.gen = e.blk.inp2)) →
    majority c.disks S.length = false

structure Inv (c : Cfg) (s : State) : Prop where
  glob : Glob c s
  host : ∀ p, HostOk c s p

theorem full_zero {c : Cfg} (hd : 0 < c.disks) (s : State) : Full c s 0 :=
  ⟨List.range c.disks, ⟨List.nodup_range, fun _ h => List.mem_range.mp h⟩, by rw [majority_iff]; simp; omega, by simp⟩

theorem inv_init {c : Cfg} (hd : 0 < c.disks) : Inv c init := by
  refine ⟨⟨.init, ?_, ?_, ?_, ?_, ?_, ?_, ?_, ?_, ?_⟩, fun p => ⟨trivial, ?_, ?_, ?_, ?_, ?_, ?_, ?_, ?_, ?_⟩⟩ <;>
    try simp [init, Ballot.init, Blk.zero]
  · rintro n hn ⟨S, hS, hm, hd⟩
    rw [majority_iff] at hm
    cases S with
    | nil => simp at hm
    | cons a S => have := hd a (by simp); simp at this; omega
  · exact full_zero hd _

/-! ## Consequences -/

/-- Every version before one that a host voted for was decided, and its owner has given it up. -/
theorem chain {c : Cfg} {s : State} (hc : c.hosts ≤ c.maxHosts) (G : Glob c s) {n m : Nat} {v : Vote} (hv : v ∈ s.B.votes)
    (hm : v.lver = m) (h0 : 0 < n) (hn : n < m) :
    ∃ e ∈ s.B.log, e.blk.lver = n ∧ Gone s e.blk.lver e.blk.inp e.blk.inp2 := by
  induction m generalizing v with
  | zero => omega
  | succ m ih =>
    rcases (G.vote v hv).2 with h | ⟨e, he, h1, h2⟩
    · omega
    · by_cases hnm : n = m
      · exact ⟨e, he, by omega, h2⟩
      · obtain ⟨u, hu, u1, _, _⟩ := (Ballot.inv_reach hc G.reach).logVote e he
        exact ih hu (by omega) (by omega)

/-- What a host finds on a majority of the disks was decided. -/
theorem pick_logged {c : Cfg} {s : State} (G : Glob c s) {d : Nat} {got : List Got} (h : Seen s d got) (hd : d ≤ c.disks)
    {l : Rec} (hp : pick c.disks got = some l) :
    ((l.lver = 0 ∧ l.ts = 0) ∨ Logged s l.lver l.owner l.gen) ∧ (l.ts = 0 → Over s l) ∧ Full c s l.lver := by
  unfold pick at hp
  rw [Option.map_eq_some_iff] at hp
  obtain ⟨g0, hf, rfl⟩ := hp
  have hmem := List.mem_of_find?_eq_some hf
  have hmaj := List.find?_some hf
  let T := got.filter fun h => same h.ldr g0.ldr
  have hT : Sub (T.map (·.disk)) c.disks := by
    refine ⟨List.Nodup.sublist (List.Sublist.map _ List.filter_sublist) h.nodup, ?_⟩
    intro x hx
    obtain ⟨g, hg, rfl⟩ := List.mem_map.mp hx
    have := h.lt g (List.mem_filter.mp hg).1
    omega
  have hTm : majority c.disks (T.map (·.disk)).length = true := by
    rw [List.length_map, ← List.countP_eq_length_filter]; exact hmaj
  have hTe : ∀ x ∈ T.map (·.disk), ∃ g ∈ got, g.disk = x ∧ g.ldr.lver = g0.ldr.lver ∧ g.ldr.owner = g0.ldr.owner ∧
      g.ldr.gen = g0.ldr.gen := by
    intro x hx
    obtain ⟨g, hg, rfl⟩ := List.mem_map.mp hx
    have h2 := (List.mem_filter.mp hg).2
    simp only [same, Bool.and_eq_true, beq_iff_eq] at h2
    exact ⟨g, (List.mem_filter.mp hg).1, rfl, h2.1.1, h2.1.2, h2.2⟩
  have hfull : Full c s g0.ldr.lver := by
    refine ⟨_, hT, hTm, ?_⟩
    intro x hx
    obtain ⟨g, hg, rfl, e1, _, _⟩ := hTe x hx
    rcases h.copy g hg with h1 | h1
    · omega
    · have := (G.wrote _ h1).2.1
      simp only at this
      omega
  refine ⟨?_, fun hts => h.free g0 hmem hts, hfull⟩
  by_cases h0 : g0.ldr.lver = 0
  · rcases h.copy g0 hmem with h1 | h1
    · exact .inl h1
    · obtain ⟨v, hv, h2⟩ := (G.wrote _ h1).2.2
      have := (G.vote v hv).1
      simp only at h2
      omega
  · right
    obtain ⟨e, he, hl⟩ := G.fullLog _ (by omega) hfull
    refine ⟨e, he, hl, ?_⟩
    apply Classical.byContradiction
    intro hne
    have := G.bad e he _ hT (by
      intro x hx
      obtain ⟨g, hg, rfl, e1, e2, e3⟩ := hTe x hx
      rcases h.copy g hg with h1 | h1
      · omega
      · refine ⟨_, h1, rfl, by simp only; omega, ?_⟩
        simp only [e2, e3]
        intro hh
        exact hne ⟨hh.1.symm, hh.2.symm⟩)
    rw [hTm] at this
    exact absurd this (by decide)

/-- It is not older than what was on a majority of the disks before. -/
theorem pick_based {c : Cfg} {s : State} {d k : Nat} {got : List Got} (h : Seen s d got) (hd : d ≤ c.disks)
    (hb : Based c s k got) {l : Rec} (hp : pick c.disks got = some l) : k ≤ l.lver := by
  unfold pick at hp
  rw [Option.map_eq_some_iff] at hp
  obtain ⟨g0, hf, rfl⟩ := hp
  have hmaj := List.find?_some hf
  obtain ⟨S, hS, hm, _, h2⟩ := hb
  have hT : Sub ((got.filter fun h => same h.ldr g0.ldr).map (·.disk)) c.disks := by
    refine ⟨List.Nodup.sublist (List.Sublist.map _ List.filter_sublist) h.nodup, ?_⟩
    intro x hx
    obtain ⟨g, hg, rfl⟩ := List.mem_map.mp hx
    have := h.lt g (List.mem_filter.mp hg).1
    omega
  obtain ⟨x, hx, hxS⟩ := majority_inter hT hS (by rw [List.length_map, ← List.countP_eq_length_filter]; exact hmaj) hm
  obtain ⟨g, hg, rfl⟩ := List.mem_map.mp hx
  have h3 := (List.mem_filter.mp hg).2
  simp only [same, Bool.and_eq_true, beq_iff_eq] at h3
  have := h2 g (List.mem_filter.mp hg).1 hxS
  omega

/-- Its own ballot numbers are among those read. -/
theorem pick_mbal {c : Cfg} {s : State} (hc : c.hosts ≤ c.maxHosts) (G : Glob c s) {p d max : Nat} {got : List Got}
    (H : HostOk c s p) (h : Seen s d got) (hd : d ≤ c.disks) (hm : ∀ g ∈ got, g.mbal = (s.B.disk g.disk p).mbal)
    {l : Rec} (hp : pick c.disks got = some l) (hl : (s.host p).relv ≤ l.lver) (ha : ∀ g ∈ got, g.mbal ≤ max) :
    Below s p (l.lver + 1) max := by
  intro v hv hvp hvl
  have I := Ballot.inv_reach hc G.reach
  unfold pick at hp
  rw [Option.map_eq_some_iff] at hp
  obtain ⟨g0, hf, rfl⟩ := hp
  have hmaj := List.find?_some hf
  have hT : Sub ((got.filter fun h => same h.ldr g0.ldr).map (·.disk)) c.disks := by
    refine ⟨List.Nodup.sublist (List.Sublist.map _ List.filter_sublist) h.nodup, ?_⟩
    intro x hx
    obtain ⟨g, hg, rfl⟩ := List.mem_map.mp hx
    have := h.lt g (List.mem_filter.mp hg).1
    omega
  obtain ⟨x, hx, hxS⟩ := majority_inter hT (I.voteSub v hv)
    (by rw [List.length_map, ← List.countP_eq_length_filter]; exact hmaj) (I.voteMaj v hv)
  obtain ⟨g, hg, rfl⟩ := List.mem_map.mp hx
  have hg := (List.mem_filter.mp hg).1
  have h1 := I.voteDisk v hv _ hxS
  have h2 := H.disk g.disk
  have h3 := ha g hg
  rw [hm g hg] at h3
  rw [hvp] at h1
  omega

/-- The values of a completed ballot are unique. -/
theorem logged_unique {c : Cfg} {s : State} (hc : c.hosts ≤ c.maxHosts) (G : Glob c s) {n o g o' g' : Nat}
    (h : Logged s n o g) (h' : Logged s n o' g') : o = o' ∧ g = g' := by
  obtain ⟨e, he, h1, h2, h3⟩ := h
  obtain ⟨e', he', h1', h2', h3'⟩ := h'
  have := Ballot.ballot_agreement hc G.reach e he e' he' (by omega)
  omega

theorem wins_unique {c : Cfg} {s : State} (hc : c.hosts ≤ c.maxHosts) (G : Glob c s) {p : Nat} {l : Rec} (h : Wins s p l)
    {e : Done} (he : e ∈ s.B.log) (hl : e.blk.lver = l.lver) : e.blk.inp = l.owner ∧ e.blk.inp2 = l.gen := by
  obtain ⟨w1, w, hpc, h1, h2, h3⟩ := h
  have := (Ballot.ballot_agreement_won hc G.reach hpc).1 e he (by omega)
  simp only [Blk.val, Prod.mk.injEq] at this
  omega

/-- A host that holds the lease has not given it up. -/
theorem held_not_gone {c : Cfg} {s : State} {p : Nat} {l : Rec} (H : HostOk c s p) (hph : (s.host p).ph = .held l) :
    ¬ Gone s l.lver (p + 1) (s.host p).gen := by
  have h := H.ph
  rw [hph] at h
  have ha := (H.alive (by simp [hph])).1
  rintro (h1 | h1)
  · rcases h1 with h1 | h1
    · simp at h1
    · simp [ha] at h1
  · simp only [Nat.add_sub_cancel] at h1
    have := h.1
    omega

theorem exclusive_of_inv {c : Cfg} {s : State} (hc : c.hosts ≤ c.maxHosts) (h : Inv c s) {p q : Nat} {l l' : Rec}
    (hp : (s.host p).ph = .held l) (hq : (s.host q).ph = .held l') : p = q := by
  have G := h.glob
  have key : ∀ p q l l', (s.host p).ph = .held l → (s.host q).ph = .held l' → l.lver < l'.lver → False := by
    intro p q l l' hp hq hlt
    have Hp := (h.host p).ph
    have Hq := (h.host q).ph
    rw [hp] at Hp
    rw [hq] at Hq
    obtain ⟨e, he, e1, _, _⟩ := Hq.2
    obtain ⟨v, hv, v1, _, _⟩ := (Ballot.inv_reach hc G.reach).logVote e he
    obtain ⟨f, hf, f1, f2⟩ := chain hc G hv (by rw [v1, e1]) (n := l.lver) (by have := Hp.1; omega) hlt
    obtain ⟨k1, k2⟩ := logged_unique hc G Hp.2 ⟨f, hf, f1, rfl, rfl⟩
    rw [f1, ← k1, ← k2] at f2
    exact held_not_gone (h.host p) hp f2
  rcases Nat.lt_trichotomy l.lver l'.lver with hlt | heq | hgt
  · exact (key p q l l' hp hq hlt).elim
  · have Hp := (h.host p).ph
    have Hq := (h.host q).ph
    rw [hp] at Hp
    rw [hq] at Hq
    have := (logged_unique hc G Hp.2 (heq ▸ Hq.2)).1
    omega
  · exact (key q p l' l hq hp hgt).elim

end Sanlock.MultiLease
