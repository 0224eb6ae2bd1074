import Verif.Lemmas.LeaseSim

/-!
# Invariant: at most one host owns the lease
-/

namespace Sanlock.Lease

open Sanlock.Ballot (Blk Cfg WriteRes Pc Vote Done)

/-! ## What the ballot provides -/

/-- Facts about the blocks, votes and committed records. -/
structure BF (c : Cfg) (B : Ballot.State) : Prop where
  logAgree : ∀ e ∈ B.log, ∀ e' ∈ B.log, e.blk.lver = e'.blk.lver →
    e.blk.inp = e'.blk.inp ∧ e.blk.inp2 = e'.blk.inp2 ∧ e.blk.inp3 = e'.blk.inp3
  wonAgree : ∀ p w1 w, (B.proc p).pc = .won w1 w → ∀ e ∈ B.log, e.blk.lver = (B.proc p).dblock.lver →
    e.blk.inp = (B.proc p).dblock.inp ∧ e.blk.inp2 = (B.proc p).dblock.inp2 ∧ e.blk.inp3 = (B.proc p).dblock.inp3
  proposed : ∀ e ∈ B.log, ∃ u ∈ B.votes, u.lver = e.blk.lver ∧ e.blk.inp = u.host + 1
  wonVote : ∀ p w1 w, (B.proc p).pc = .won w1 w → (B.proc p).dblock.inp ≠ 0 ∧
    ∃ u ∈ B.votes, u.host = p ∧ u.lver = (B.proc p).dblock.lver ∧ u.val.2.2 = (B.proc p).dblock.inp3
  fresh1 : ∀ p d w, (B.proc p).pc = .write1 d w → ∀ v ∈ B.votes, v.host = p →
    v.lver < (B.proc p).dblock.lver ∨ (v.lver = (B.proc p).dblock.lver ∧ v.bal < (B.proc p).dblock.mbal)
  latest : ∀ p d w1 w, (B.proc p).pc = .write2 d w1 w → ∀ v ∈ B.votes, v.host = p →
    v.lver < (B.proc p).dblock.lver ∨ (v.lver = (B.proc p).dblock.lver ∧ v.bal ≤ (B.proc p).dblock.mbal)
  mx : ∀ p d w1 r buf mx, (B.proc p).pc = .read1 d w1 r buf mx → mx.inp ≠ 0 →
    ∃ v ∈ B.votes, v.val.2.2 = mx.inp3
  onDisk : ∀ p d w1 r buf mx, (B.proc p).pc = .read1 d w1 r buf mx → B.disk 0 p = (B.proc p).dblock
  onDisk2 : ∀ p w1 w, (B.proc p).pc = .won w1 w → B.disk 0 p = (B.proc p).dblock

theorem majority_mem {c : Cfg} (hd : c.disks = 1) {w : List Nat} (hs : Ballot.Sub w c.disks)
    (hm : Ballot.majority c.disks w.length = true) : 0 ∈ w := by
  have h1 := Ballot.majority_gt hm
  cases w with
  | nil => simp [hd] at h1
  | cons x xs =>
    have := hs.2 x (by simp)
    have : x = 0 := by omega
    simp [this]

theorem bf_of_sim {c : Cfg} {B g : Ballot.State} {low : Nat} (hc : c.hosts ≤ c.maxHosts) (hd : c.disks = 1)
    (hg : Ballot.Reach c g) (h : Sim low B g) : BF c B := by
  have hI := Ballot.inv_reach hc hg
  have hw : ∀ p w1 w, (B.proc p).pc = .won w1 w → (g.proc p).pc = .won w1 w := by
    intro p w1 w hp
    have := h.pc p
    rw [hp] at this
    generalize hx : (g.proc p).pc = x at this
    cases this; rfl
  have hdisk : ∀ p, (B.proc p).pc ≠ .idle → g.disk 0 p = (g.proc p).dblock → B.disk 0 p = (B.proc p).dblock := by
    intro p hp he
    have h1 := h.above p hp
    rcases h.disk p with h2 | h2
    · rw [h2, he, h.dblock]
    · rw [he, ← h.dblock] at h2; omega
  constructor
  · rw [h.log]; exact Ballot.ballot_agreement hc hg
  · intro p w1 w hp e he hl
    rw [h.log] at he
    have := (Ballot.ballot_agreement_won hc hg (hw p w1 w hp)).1 e he (by rw [hl, h.dblock])
    rw [h.dblock]
    simpa [Blk.val] using this
  · intro e he
    rw [h.log] at he
    obtain ⟨v, hv, v1, v2, v3⟩ := hI.logVote e he
    obtain ⟨u, hu, u1, u2, u3⟩ := Ballot.proposed_reach hc hg v hv
    refine ⟨u, by rw [h.votes]; exact hu, by omega, ?_⟩
    rw [← u3, u2, v3]; rfl
  · intro p w1 w hp
    obtain ⟨_, l, _⟩ := hI.won p w1 w (hw p w1 w hp)
    obtain ⟨u, hu, u1, u2, u3, u4, _⟩ := l.vote
    rw [h.votes, h.dblock]
    refine ⟨l.inp, u, hu, u1, u2, ?_⟩
    rw [u4]; rfl
  · intro p d w hp v hv hvp
    have := h.pc p
    rw [hp] at this
    generalize hx : (g.proc p).pc = x at this
    cases this
    obtain ⟨_, f, _⟩ := hI.write1 p d w hx
    rw [h.votes] at hv
    rw [h.dblock]
    exact f.lt v hv hvp
  · intro p d w1 w hp v hv hvp
    have := h.pc p
    rw [hp] at this
    generalize hx : (g.proc p).pc = x at this
    cases this
    obtain ⟨_, f, _⟩ := hI.write2 p d w1 w hx
    rw [h.votes] at hv
    rw [h.dblock]
    have := f.le v hv hvp
    have := f.bal
    omega
  · intro p d w1 r buf mx hp hm
    have := h.pc p
    rw [hp] at this
    generalize hx : (g.proc p).pc = x at this
    cases this
    obtain ⟨_, _, _, _, _, _, hmx, _⟩ := hI.read1 _ _ _ _ _ _ hx
    obtain ⟨v, hv, _, _, v3⟩ := hmx hm
    rw [h.votes]
    exact ⟨v, hv, by rw [v3]; rfl⟩
  · intro p d w1 r buf mx hp
    refine hdisk p (by simp [hp]) ?_
    have := h.pc p
    rw [hp] at this
    generalize hx : (g.proc p).pc = x at this
    cases this
    obtain ⟨_, _, on, _⟩ := hI.read1 _ _ _ _ _ _ hx
    exact on.eq 0 (majority_mem hd on.sub on.maj)
  · intro p w1 w hp
    refine hdisk p (by simp [hp]) ?_
    obtain ⟨_, _, on⟩ := hI.won _ _ _ (hw p w1 w hp)
    exact on.eq 0 (majority_mem hd on.sub on.maj)

/-- What one step of a host inside `run_ballot` changes. -/
structure BStep (c : Cfg) (B B' : Ballot.State) (p : Nat) (a : Ballot.Act) : Prop where
  active : (B.proc p).pc ≠ .idle
  proc : ∀ q, q ≠ p → B'.proc q = B.proc q
  log : B'.log = B.log
  disk : ∀ q, q ≠ p → B'.disk 0 q = B.disk 0 q
  own : B'.disk 0 p = B.disk 0 p ∨ B'.disk 0 p = (B.proc p).dblock
  lver : (B'.proc p).dblock.lver = (B.proc p).dblock.lver
  mbal : (B'.proc p).dblock.mbal = (B.proc p).dblock.mbal
  votes : B'.votes = B.votes ∨ ∃ v, B'.votes = v :: B.votes ∧ v.host = p ∧ v.lver = (B.proc p).dblock.lver ∧
    v.bal = (B.proc p).dblock.mbal ∧
    (∃ d w1 r buf mx now, a = .readsDone p now ∧ (B.proc p).pc = .read1 d w1 r buf mx ∧ v.val.2.2 = if mx.inp ≠ 0 then mx.inp3 else now)

theorem setDisk_disk0 {c : Cfg} (hd : c.disks = 1) (B : Ballot.State) (d p q : Nat) (k : Blk) (h : d < c.disks) :
    (B.setDisk d p k).disk 0 q = if q = p then k else B.disk 0 q := by
  obtain rfl : d = 0 := by omega
  simp [Ballot.State.setDisk]

theorem bstep_of_step {c : Cfg} {B B' : Ballot.State} {p : Nat} {a : Ballot.Act} (hd : c.disks = 1)
    (ha : balHost a = some p) (hs : Ballot.step c B a = some B') : BStep c B B' p a := by
  cases a with
  | start => simp [balHost] at ha
  | leaderWritten => simp [balHost] at ha
  | quit => simp [balHost] at ha
  | write q res =>
    simp only [balHost, Option.some.injEq] at ha
    subst ha
    simp only [Ballot.step] at hs
    split at hs
    · rename_i d w hpc
      split at hs
      · rename_i hlt
        have := fun x => setDisk_disk0 hd B d q x (B.proc q).dblock hlt
        cases res <;> simp only [Option.some.injEq] at hs <;> subst hs <;> constructor <;>
          simp_all [Ballot.State.setPc, Ballot.State.setProc, Ballot.State.setDisk]
      · simp at hs
    · rename_i d w1 w hpc
      split at hs
      · rename_i hlt
        have := fun x => setDisk_disk0 hd B d q x (B.proc q).dblock hlt
        cases res <;> simp only [Option.some.injEq] at hs <;> subst hs <;> constructor <;>
          simp_all [Ballot.State.setPc, Ballot.State.setProc, Ballot.State.setDisk]
      · simp at hs
    · simp at hs
  | writesDone q =>
    simp only [balHost, Option.some.injEq] at ha
    subst ha
    simp only [Ballot.step] at hs
    repeat' split at hs
    all_goals first | contradiction | skip
    all_goals (simp only [Option.some.injEq] at hs; subst hs; constructor) <;>
      simp_all [Ballot.State.setPc, Ballot.State.setProc]
  | readSector q x =>
    simp only [balHost, Option.some.injEq] at ha
    subst ha
    simp only [Ballot.step] at hs
    repeat' split at hs
    all_goals first | contradiction | skip
    all_goals (simp only [Option.some.injEq] at hs; subst hs; constructor) <;>
      simp_all [Ballot.State.setPc, Ballot.State.setProc]
  | readFail q =>
    simp only [balHost, Option.some.injEq] at ha
    subst ha
    simp only [Ballot.step] at hs
    repeat' split at hs
    all_goals first | contradiction | skip
    all_goals (simp only [Option.some.injEq] at hs; subst hs; constructor) <;>
      simp_all [Ballot.State.setPc, Ballot.State.setProc]
  | readDone q =>
    simp only [balHost, Option.some.injEq] at ha
    subst ha
    simp only [Ballot.step] at hs
    repeat' split at hs
    all_goals first | contradiction | skip
    all_goals (simp only [Option.some.injEq] at hs; subst hs; constructor) <;>
      simp_all [Ballot.State.setPc, Ballot.State.setProc]
  | readsDone q now =>
    simp only [balHost, Option.some.injEq] at ha
    subst ha
    simp only [Ballot.step] at hs
    split at hs
    · rename_i d w1 r buf mx hpc
      split at hs
      · simp at hs
      split at hs
      · simp only [Option.some.injEq] at hs
        subst hs
        constructor
        · simp [hpc]
        · intro x hx; simp [Ballot.State.setProc, hx]
        · rfl
        · intro x hx; rfl
        · exact .inl rfl
        · simp [Ballot.State.setProc, Ballot.choose_lver]
        · simp [Ballot.State.setProc, Ballot.choose_mbal]
        · refine .inr ⟨_, rfl, rfl, by simp [Ballot.choose_lver], by simp [Ballot.choose_bal], d, w1, r, buf, mx, now, rfl, hpc, ?_⟩
          simp only [Ballot.choose, Blk.val]
          split <;> rfl
      · simp only [Option.some.injEq] at hs
        subst hs
        constructor <;> simp_all [Ballot.State.setPc, Ballot.State.setProc]
    · repeat' split at hs
      all_goals first | contradiction | skip
      all_goals (simp only [Option.some.injEq] at hs; subst hs; constructor) <;>
        simp_all [Ballot.State.setPc, Ballot.State.setProc]
    · simp at hs

/-! ## The invariant -/

/-- The record is the initial one, or agrees with what some host committed. -/
def RecOk (log : List Done) (r : Rec) : Prop :=
  (r.lver = 0 ∧ r.ts = 0) ∨ ∃ e ∈ log, e.blk.lver = r.lver ∧ e.blk.inp = r.owner ∧ e.blk.inp2 = r.gen

/-- A free record belongs to a host that has given it up. -/
def FreeOk (s : State) (r : Rec) : Prop := r.ts = 0 → 0 < r.lver → r.lver ≤ (s.host (r.owner - 1)).relv

structure CurOk (s : State) (low p : Nat) (cur : Rec) : Prop where
  ok : RecOk s.B.log cur
  le : cur.lver ≤ s.ldr.lver
  low : low ≤ cur.lver
  free : FreeOk s cur
  votes : ∀ v ∈ s.B.votes, v.host = p → v.lver ≤ cur.lver + 1
  log : ∀ e ∈ s.B.log, e.host = p → e.blk.lver ≤ cur.lver
  relv : (s.host p).relv ≤ cur.lver
  disk : (s.B.disk 0 p).lver ≤ cur.lver + 1

/-- Why a host may run a ballot for the version after `cur`. -/
def Cert (s : State) (p : Nat) (cur : Rec) : Prop :=
  cur.lver = 0 ∨ cur.owner = p + 1 ∨ Expired s (cur.owner - 1) cur.gen ∨ cur.lver ≤ (s.host (cur.owner - 1)).relv

structure MbalOk (c : Cfg) (p mbal : Nat) : Prop where
  pos : 0 < mbal
  res : mbal % c.maxHosts = (p + 1) % c.maxHosts

structure OwnOk (s : State) (p : Nat) (l : Rec) : Prop where
  lver : s.ldr.lver = l.lver
  owner : s.ldr.owner = p + 1
  gen : s.ldr.gen = (s.host p).gen
  ts : s.ldr.ts ≠ 0
  relv : (s.host p).relv < l.lver
  same : s.ldr = l ∨ s.ldr.wid ≠ p + 1

/-- The record is still the one the host owns the lease with, or another host has written it. -/
def DownOk (s : State) (p : Nat) (l : Rec) : Prop :=
  s.ldr.wid ≠ p + 1 ∨ (s.ldr = l ∧ l.ts ≠ 0 ∧ l.owner = p + 1 ∧ l.gen = (s.host p).gen)

/-- What is known of a host in phase `ph`. -/
def PhOk (c : Cfg) (s : State) (low p : Nat) : Ph → Prop
  | .wait _ cur max => CurOk s low p cur ∧ (s.B.disk 0 p).mbal ≤ max
  | .run _ cur mbal _ => CurOk s low p cur ∧ Cert s p cur ∧ MbalOk c p mbal ∧ (s.B.disk 0 p).mbal < mbal
  | .ballot _ cur mbal => CurOk s low p cur ∧ Cert s p cur ∧ MbalOk c p mbal ∧ (s.B.disk 0 p).mbal ≤ mbal ∧
      ((s.B.proc p).pc ≠ .idle → (s.B.proc p).dblock.lver = cur.lver + 1 ∧ (s.B.proc p).dblock.mbal = mbal)
  | .granted _ l => OwnOk s p l
  | .clear _ l _ _ => OwnOk s p l
  | .clearW _ l i _ => OwnOk s p l ∧ i ≠ p
  | .doMb l => OwnOk s p l
  | .giveBack l => OwnOk s p l
  | .heldX l => OwnOk s p l
  | .rel last (.down l) => last = some l ∧ DownOk s p l
  | .relW l k => l.lver ≤ (s.host p).relv ∧ l.owner = p + 1 ∧ RecOk s.B.log l ∧ (∀ l', k = .down l' → l = l' ∧ DownOk s p l)
  | _ => True

structure HostOk (c : Cfg) (s : State) (low p : Nat) : Prop where
  ph : PhOk c s low p (s.host p).ph
  alive : (s.host p).ph ≠ .idle → (s.host p).alive = true ∧ p < c.hosts
  pc : (s.B.proc p).pc ≠ .idle → ∃ m cur mbal, (s.host p).ph = .ballot m cur mbal

structure Glob (c : Cfg) (s : State) (low : Nat) : Prop where
  sim : ∃ g, Ballot.Reach c g ∧ Sim low s.B g
  low : low ≤ s.ldr.lver
  ldrOk : RecOk s.B.log s.ldr
  free : FreeOk s s.ldr
  votesLe : ∀ v ∈ s.B.votes, v.lver ≤ s.ldr.lver + 1
  votesTs : ∀ v ∈ s.B.votes, v.val.2.2 ≠ 0
  logLe : ∀ e ∈ s.B.log, e.blk.lver ≤ s.ldr.lver
  logPos : ∀ e ∈ s.B.log, 0 < e.blk.lver
  balLe : ∀ v ∈ s.B.votes, v.lver ≤ (s.host v.host).relv ∨ v.lver < (s.B.disk 0 v.host).lver ∨
    (v.lver = (s.B.disk 0 v.host).lver ∧ v.bal ≤ (s.B.disk 0 v.host).mbal)
  diskLe : ∀ q, (s.B.disk 0 q).lver ≤ s.ldr.lver + 1
  relLe : ∀ q, (s.host q).relv ≤ s.ldr.lver
  flagVotes : ∀ v ∈ s.B.votes, s.flag v.host = true → v.lver ≤ (s.host v.host).relv
  flag1 : ∀ p d w, (s.B.proc p).pc = .write1 d w → w ≠ [] → s.flag p = false
  flag2 : ∀ p d w1 r buf mx, (s.B.proc p).pc = .read1 d w1 r buf mx → s.flag p = false

structure Inv (c : Cfg) (s : State) (low : Nat) : Prop where
  glob : Glob c s low
  host : ∀ p, HostOk c s low p

theorem inv_init (c : Cfg) : Inv c init 0 := by
  refine ⟨⟨⟨_, .init, sim_init⟩, ?_, ?_, ?_, ?_, ?_, ?_, ?_, ?_, ?_, ?_, ?_, ?_, ?_⟩, fun p => ⟨?_, ?_, ?_⟩⟩ <;>
    simp [init, RecOk, FreeOk, Ballot.init, Blk.zero, PhOk]

/-- Two hosts never both own the lease. -/
theorem own_unique {s : State} {p q : Nat} {l l' : Rec} (h : OwnOk s p l) (h' : OwnOk s q l') : p = q := by
  have h1 := h.owner
  have h2 := h'.owner
  omega

theorem ownOk_of_inv {c : Cfg} {s : State} {low p : Nat} {l : Rec} (h : Inv c s low)
    (ho : (s.host p).ph.own? = some l) : OwnOk s p l ∧ (s.host p).alive = true := by
  have h1 := (h.host p).ph
  have h2 := (h.host p).alive
  generalize (s.host p).ph = ph at h1 h2 ho
  cases ph <;> simp_all [Ph.own?, PhOk]

theorem curOk_of_inv {c : Cfg} {s : State} {low p : Nat} {cur : Rec} (h : Inv c s low)
    (ho : (s.host p).ph.cur? = some cur) : CurOk s low p cur := by
  have h1 := (h.host p).ph
  generalize (s.host p).ph = ph at h1 ho
  cases ph <;> simp_all [Ph.cur?, PhOk]

/-! ## A host not taking part in the step -/

structure Mono (s s' : State) (low low' q : Nat) : Prop where
  lver : s.ldr.lver ≤ s'.ldr.lver
  ldr : s'.ldr = s.ldr ∨ (s'.ldr.wid ≠ q + 1 ∧ ∀ l, (s.host q).ph.own? = some l →
    s'.ldr.lver = l.lver ∧ s'.ldr.owner = q + 1 ∧ s'.ldr.gen = (s.host q).gen ∧ s'.ldr.ts ≠ 0)
  log : ∀ e ∈ s.B.log, e ∈ s'.B.log
  logq : ∀ e ∈ s'.B.log, e.host = q → e ∈ s.B.log
  votes : ∀ v ∈ s'.B.votes, v.host = q → v ∈ s.B.votes
  relv : ∀ o, (s.host o).relv ≤ (s'.host o).relv
  relvq : (s'.host q).relv = (s.host q).relv ∨ ((∀ cur, (s.host q).ph.cur? = some cur → (s'.host q).relv ≤ cur.lver) ∧
    (s.host q).ph.own? = none)
  exp : ∀ o g, Expired s o g → Expired s' o g
  ph : (s'.host q).ph = (s.host q).ph
  gen : (s'.host q).gen = (s.host q).gen
  alive : (s'.host q).alive = (s.host q).alive
  diskL : (s'.B.disk 0 q).lver ≤ (s.B.disk 0 q).lver
  diskM : (s'.B.disk 0 q).mbal ≤ (s.B.disk 0 q).mbal
  proc : s'.B.proc q = s.B.proc q
  low : ∀ cur, (s.host q).ph.cur? = some cur → low' ≤ low ∨ low' ≤ cur.lver

theorem recOk_mono {log log' : List Done} (h : ∀ e ∈ log, e ∈ log') {r : Rec} (hr : RecOk log r) : RecOk log' r := by
  rcases hr with hr | ⟨e, he, h1⟩
  · exact .inl hr
  · exact .inr ⟨e, h e he, h1⟩

theorem curOk_mono {s s' : State} {low low' q : Nat} (m : Mono s s' low low' q) {cur : Rec}
    (hq : (s.host q).ph.cur? = some cur) (h : CurOk s low q cur) : CurOk s' low' q cur := by
  constructor
  · exact recOk_mono m.log h.ok
  · exact Nat.le_trans h.le m.lver
  · have := m.low cur hq; have := h.low; omega
  · intro h1 h2; exact Nat.le_trans (h.free h1 h2) (m.relv _)
  · intro v hv hvq; exact h.votes v (m.votes v hv hvq) hvq
  · intro e he heq; exact h.log e (m.logq e he heq) heq
  · rcases m.relvq with h1 | ⟨h1, _⟩
    · rw [h1]; exact h.relv
    · exact h1 cur hq
  · exact Nat.le_trans m.diskL h.disk

theorem cert_mono {s s' : State} {low low' q : Nat} (m : Mono s s' low low' q) {cur : Rec} (h : Cert s q cur) :
    Cert s' q cur := by
  rcases h with h | h | h | h
  · exact .inl h
  · exact .inr (.inl h)
  · exact .inr (.inr (.inl (m.exp _ _ h)))
  · exact .inr (.inr (.inr (Nat.le_trans h (m.relv _))))

theorem ownOk_mono {s s' : State} {low low' q : Nat} (m : Mono s s' low low' q) {l : Rec}
    (hq : (s.host q).ph.own? = some l) (h : OwnOk s q l) : OwnOk s' q l := by
  have hrel : (s'.host q).relv = (s.host q).relv := by
    rcases m.relvq with h1 | ⟨_, h1⟩
    · exact h1
    · rw [hq] at h1; simp at h1
  rcases m.ldr with h1 | ⟨h1, h2⟩
  · constructor <;> simp only [h1, m.gen, hrel]
    · exact h.lver
    · exact h.owner
    · exact h.gen
    · exact h.ts
    · exact h.relv
    · exact h.same
  · obtain ⟨a, b, d, e⟩ := h2 l hq
    constructor
    · exact a
    · exact b
    · rw [d, m.gen]
    · exact e
    · rw [hrel]; exact h.relv
    · exact .inr h1

theorem downOk_mono {s s' : State} {low low' q : Nat} (m : Mono s s' low low' q) {l : Rec} (h : DownOk s q l) :
    DownOk s' q l := by
  rcases m.ldr with h1 | ⟨h1, _⟩
  · simp only [DownOk, h1, m.gen]; exact h
  · exact .inl h1

theorem hostOk_mono {c : Cfg} {s s' : State} {low low' q : Nat} (m : Mono s s' low low' q) (h : HostOk c s low q) :
    HostOk c s' low' q := by
  refine ⟨?_, by rw [m.ph, m.alive]; exact h.alive, by rw [m.ph, m.proc]; exact h.pc⟩
  rw [m.ph]
  have hp := h.ph
  have hcur := fun cur hc => curOk_mono m (cur := cur) hc
  have hown := fun l hl => ownOk_mono m (l := l) hl
  have hdm := m.diskM
  have hrv := m.relv q
  generalize hph : (s.host q).ph = ph at hp hcur hown
  cases ph with
  | wait _ cur max => exact ⟨hcur cur rfl hp.1, by have := hp.2; omega⟩
  | run _ cur mbal copy => exact ⟨hcur cur rfl hp.1, cert_mono m hp.2.1, hp.2.2.1, by have := hp.2.2.2; omega⟩
  | ballot _ cur mbal =>
    exact ⟨hcur cur rfl hp.1, cert_mono m hp.2.1, hp.2.2.1, by have := hp.2.2.2.1; omega, by rw [m.proc]; exact hp.2.2.2.2⟩
  | granted _ l => exact hown l rfl hp
  | clear _ l => exact hown l rfl hp
  | clearW _ l i => exact ⟨hown l rfl hp.1, hp.2⟩
  | doMb l => exact hown l rfl hp
  | giveBack l => exact hown l rfl hp
  | heldX l => exact hown l rfl hp
  | rel last k =>
    cases k with
    | down l => exact ⟨hp.1, downOk_mono m hp.2⟩
    | _ => trivial
  | relW l k =>
    exact ⟨by have := hp.1; omega, hp.2.1, recOk_mono m.log hp.2.2.1, fun l' hk => ⟨(hp.2.2.2 l' hk).1, downOk_mono m (hp.2.2.2 l' hk).2⟩⟩
  | _ => trivial

/-! ## Steps that change the program point of one host -/

theorem setHost_host (s : State) (p : Nat) (h : Host) (q : Nat) : (s.setHost p h).host q = if q = p then h else s.host q := rfl

theorem expired_setHost {s : State} {p : Nat} {h : Host} (hg : h.gen = (s.host p).gen) (ha : h.alive = (s.host p).alive)
    (o g : Nat) : Expired (s.setHost p h) o g ↔ Expired s o g := by
  simp only [Expired, setHost_host]
  by_cases ho : o = p
  · subst ho; simp [hg, ha]
  · simp [ho]

theorem curOk_setHost {s : State} {p : Nat} {h : Host} (hr : h.relv = (s.host p).relv) {low q : Nat} {cur : Rec}
    (hq : CurOk s low q cur) : CurOk (s.setHost p h) low q cur := by
  have e : ∀ o, ((s.setHost p h).host o).relv = (s.host o).relv := by
    intro o; simp only [setHost_host]; split
    · subst o; exact hr
    · rfl
  refine ⟨hq.ok, hq.le, hq.low, ?_, hq.votes, hq.log, ?_, hq.disk⟩
  · intro h1 h2; rw [e]; exact hq.free h1 h2
  · rw [e]; exact hq.relv

theorem phOk_setHost {c : Cfg} {s : State} {p : Nat} {h : Host} (hg : h.gen = (s.host p).gen)
    (ha : h.alive = (s.host p).alive) (hr : h.relv = (s.host p).relv) {low q : Nat} {ph : Ph} (hq : PhOk c s low q ph) :
    PhOk c (s.setHost p h) low q ph := by
  have e : ∀ o, ((s.setHost p h).host o).relv = (s.host o).relv := by
    intro o; simp only [setHost_host]; split
    · subst o; exact hr
    · rfl
  have e2 : ∀ o, ((s.setHost p h).host o).gen = (s.host o).gen := by
    intro o; simp only [setHost_host]; split
    · subst o; exact hg
    · rfl
  have hc : ∀ {cur}, CurOk s low q cur → CurOk (s.setHost p h) low q cur := curOk_setHost hr
  have hce : ∀ {cur}, Cert s q cur → Cert (s.setHost p h) q cur := by
    intro cur h1
    simp only [Cert, e, expired_setHost hg ha]
    exact h1
  have ho : ∀ {l}, OwnOk s q l → OwnOk (s.setHost p h) q l := by
    intro l h1
    exact ⟨h1.lver, h1.owner, by rw [e2]; exact h1.gen, h1.ts, by rw [e]; exact h1.relv, h1.same⟩
  have hd : ∀ {l}, DownOk s q l → DownOk (s.setHost p h) q l := by
    intro l h1
    simp only [DownOk, e2]
    exact h1
  cases ph with
  | wait _ cur max => exact ⟨hc hq.1, hq.2⟩
  | run _ cur mbal copy => exact ⟨hc hq.1, hce hq.2.1, hq.2.2⟩
  | ballot _ cur mbal => exact ⟨hc hq.1, hce hq.2.1, hq.2.2⟩
  | granted _ l => exact ho hq
  | clear _ l => exact ho hq
  | clearW _ l i => exact ⟨ho hq.1, hq.2⟩
  | doMb l => exact ho hq
  | giveBack l => exact ho hq
  | heldX l => exact ho hq
  | rel last k =>
    cases k with
    | down l => exact ⟨hq.1, hd hq.2⟩
    | _ => trivial
  | relW l k => exact ⟨by rw [e]; exact hq.1, hq.2.1, hq.2.2.1, fun l' hk => ⟨(hq.2.2.2 l' hk).1, hd (hq.2.2.2 l' hk).2⟩⟩
  | _ => trivial

theorem inv_setHost {c : Cfg} {s : State} {low p : Nat} (h : Inv c s low) {h' : Host} (hg : h'.gen = (s.host p).gen)
    (ha : h'.alive = (s.host p).alive) (hr : h'.relv = (s.host p).relv) (hp : PhOk c s low p h'.ph)
    (hal : h'.ph ≠ .idle → (s.host p).alive = true ∧ p < c.hosts)
    (hpc : (s.B.proc p).pc ≠ .idle → ∃ m cur mbal, h'.ph = .ballot m cur mbal) : Inv c (s.setHost p h') low := by
  have e : ∀ o, ((s.setHost p h').host o).relv = (s.host o).relv := by
    intro o; simp only [setHost_host]; split
    · subst o; exact hr
    · rfl
  have G := h.glob
  refine ⟨⟨G.sim, G.low, G.ldrOk, ?_, G.votesLe, G.votesTs, G.logLe, G.logPos, ?_, G.diskLe, ?_, ?_, G.flag1, G.flag2⟩, ?_⟩
  · intro h1 h2; rw [e]; exact G.free h1 h2
  · intro v hv; rw [e]; exact G.balLe v hv
  · intro q; rw [e]; exact G.relLe q
  · intro v hv; rw [e]; exact G.flagVotes v hv
  · intro q
    by_cases hq : q = p
    · subst hq
      refine ⟨?_, ?_, ?_⟩
      · simp only [setHost_host, if_true]; exact phOk_setHost hg ha hr hp
      · simp only [setHost_host, if_true]; rw [ha]; exact hal
      · simp only [setHost_host, if_true]; exact hpc
    · refine ⟨?_, ?_, ?_⟩
      · simp only [setHost_host, hq, if_false]; exact phOk_setHost hg ha hr (h.host q).ph
      · simp only [setHost_host, hq, if_false]; exact (h.host q).alive
      · simp only [setHost_host, hq, if_false]; exact (h.host q).pc

/-- The host, which is not in a ballot, moves on. -/
theorem inv_setPh {c : Cfg} {s : State} {low p : Nat} (h : Inv c s low) {ph : Ph} (hp : PhOk c s low p ph)
    (hal : ph ≠ .idle → (s.host p).ph ≠ .idle) (hpc : (s.B.proc p).pc = .idle) : Inv c (s.setPh p ph) low :=
  inv_setHost h rfl rfl rfl hp (fun h1 => (h.host p).alive (hal h1)) (fun h1 => absurd hpc h1)

theorem pcIdle_of_ph {c : Cfg} {s : State} {low p : Nat} (h : Inv c s low) (hp : ∀ m cur mbal, (s.host p).ph ≠ .ballot m cur mbal) :
    (s.B.proc p).pc = .idle := by
  refine Classical.byContradiction fun hn => ?_
  obtain ⟨m, cur, mbal, h1⟩ := (h.host p).pc hn
  exact hp m cur mbal h1

/-- A ballot is given up. -/
theorem inv_setPc {c : Cfg} {s : State} {low : Nat} (h : Inv c s low) (p : Nat) :
    Inv c { s with B := s.B.setPc p .idle } low := by
  have G := h.glob
  obtain ⟨g, hg, hsim⟩ := G.sim
  have hpr : ∀ q, q ≠ p → (s.B.setPc p .idle).proc q = s.B.proc q := by
    intro q hq; simp [Ballot.State.setPc, Ballot.State.setProc, hq]
  refine ⟨⟨⟨_, .step (a := .quit p) hg trivial rfl, sim_idle hsim p⟩, G.low, G.ldrOk, G.free, G.votesLe, G.votesTs, G.logLe,
    G.logPos, G.balLe, G.diskLe, G.relLe, G.flagVotes, ?_, ?_⟩, ?_⟩
  · intro q d w hq
    by_cases hqp : q = p
    · simp [hqp] at hq
    · rw [hpr q hqp] at hq; exact G.flag1 q d w hq
  · intro q d w1 r buf mx hq
    by_cases hqp : q = p
    · simp [hqp] at hq
    · rw [hpr q hqp] at hq; exact G.flag2 q d w1 r buf mx hq
  · intro q
    by_cases hqp : q = p
    · subst hqp
      have hh := h.host q
      refine ⟨?_, hh.alive, by simp⟩
      have hp := hh.ph
      show PhOk c _ low q (s.host q).ph
      generalize (s.host q).ph = ph at hp
      cases ph with
      | ballot _ cur mbal => exact ⟨⟨hp.1.ok, hp.1.le, hp.1.low, hp.1.free, hp.1.votes, hp.1.log, hp.1.relv, hp.1.disk⟩,
          hp.2.1, hp.2.2.1, hp.2.2.2.1, by simp⟩
      | wait _ cur max => exact ⟨⟨hp.1.ok, hp.1.le, hp.1.low, hp.1.free, hp.1.votes, hp.1.log, hp.1.relv, hp.1.disk⟩, hp.2⟩
      | run _ cur mbal copy => exact ⟨⟨hp.1.ok, hp.1.le, hp.1.low, hp.1.free, hp.1.votes, hp.1.log, hp.1.relv, hp.1.disk⟩, hp.2⟩
      | granted _ l => exact ⟨hp.lver, hp.owner, hp.gen, hp.ts, hp.relv, hp.same⟩
      | clear _ l => exact ⟨hp.lver, hp.owner, hp.gen, hp.ts, hp.relv, hp.same⟩
      | clearW _ l i => exact ⟨⟨hp.1.lver, hp.1.owner, hp.1.gen, hp.1.ts, hp.1.relv, hp.1.same⟩, hp.2⟩
      | doMb l => exact ⟨hp.lver, hp.owner, hp.gen, hp.ts, hp.relv, hp.same⟩
      | giveBack l => exact ⟨hp.lver, hp.owner, hp.gen, hp.ts, hp.relv, hp.same⟩
      | heldX l => exact ⟨hp.lver, hp.owner, hp.gen, hp.ts, hp.relv, hp.same⟩
      | rel last k => cases k <;> exact hp
      | relW l k => exact hp
      | _ => trivial
    · refine hostOk_mono ?_ (h.host q)
      exact ⟨Nat.le_refl _, .inl rfl, fun _ h => h, fun _ h _ => h, fun _ h _ => h, fun _ => Nat.le_refl _, .inl rfl,
        fun _ _ h => h, rfl, rfl, rfl, Nat.le_refl _, Nat.le_refl _, hpr q hqp, fun _ _ => .inl (Nat.le_refl _)⟩

/-! ## Writing a host block outside of a ballot -/

structure Put (s s' : State) (x : Nat) (k : Blk) : Prop where
  ldr : s'.ldr = s.ldr
  log : s'.B.log = s.B.log
  votes : s'.B.votes = s.B.votes
  proc : s'.B.proc = s.B.proc
  disk : ∀ q, q ≠ x → s'.B.disk 0 q = s.B.disk 0 q
  blk : s'.B.disk 0 x = k
  flag : ∀ q, q ≠ x → s'.flag q = s.flag q
  gen : ∀ q, (s'.host q).gen = (s.host q).gen
  alive : ∀ q, (s'.host q).alive = (s.host q).alive
  relv : ∀ q, q ≠ x → (s'.host q).relv = (s.host q).relv
  relvx : (s.host x).relv ≤ (s'.host x).relv

theorem quiet_active {c : Cfg} {s : State} {low v : Nat} (h : Inv c s low) (hq : Quiet c s v) (p : Nat)
    (hp : (s.B.proc p).pc ≠ .idle) : v < (s.B.proc p).dblock.lver := by
  obtain ⟨m, cur, mbal, h1⟩ := (h.host p).pc hp
  have h2 := (h.host p).ph
  have h3 := (h.host p).alive
  rw [h1] at h2 h3
  have h4 := hq.2 p (h3 (by simp)).2 cur (by simp [h1, Ph.cur?])
  have h5 := (h2.2.2.2.2 hp).1
  omega

theorem inv_put {c : Cfg} {s s' : State} {low x : Nat} {k : Blk} (h : Inv c s low) (hp : Put s s' x k)
    (hk : k = s.B.disk 0 x ∨ (Quiet c s (max k.lver (s.B.disk 0 x).lver) ∧ (s.B.disk 0 x).lver ≤ (s'.host x).relv))
    (hrel : (s'.host x).relv ≤ s.ldr.lver)
    (hfl : s'.flag x = true → s.flag x = true ∨ ((s.B.disk 0 x).lver ≤ (s'.host x).relv ∧ (s.B.proc x).pc = .idle))
    (hph : ∀ q, q ≠ x → (s'.host q).ph = (s.host q).ph)
    (hx : ∀ low', (∀ q cur, (s.host q).ph.cur? = some cur → low' ≤ cur.lver) → HostOk c s' low' x) :
    ∃ low', Inv c s' low' := by
  have G := h.glob
  obtain ⟨g, hg, hsim⟩ := G.sim
  have key : ∃ low', Sim low' s'.B g ∧ low' ≤ s.ldr.lver ∧ (∀ q cur, (s.host q).ph.cur? = some cur → low' ≤ cur.lver) ∧
      k.lver ≤ s.ldr.lver + 1 := by
    rcases hk with hk | ⟨hk, _⟩
    · refine ⟨low, ⟨by rw [hp.votes, hsim.votes], by rw [hp.log, hsim.log], by rw [hp.proc]; exact hsim.dblock,
        by rw [hp.proc]; exact hsim.gen, by rw [hp.proc]; exact hsim.pc, ?_, by rw [hp.proc]; exact hsim.above⟩, G.low, ?_, ?_⟩
      · intro q
        by_cases hq : q = x
        · subst hq; rw [hp.blk, hk]; exact hsim.disk q
        · rw [hp.disk q hq]; exact hsim.disk q
      · intro q cur hq; exact (curOk_of_inv h hq).low
      · rw [hk]; exact G.diskLe x
    · have hS := sim_erase hsim x k (fun p hpp => quiet_active h hk p hpp)
      refine ⟨_, ⟨by rw [hp.votes, hsim.votes], by rw [hp.log, hsim.log], by rw [hp.proc]; exact hS.dblock,
        by rw [hp.proc]; exact hS.gen, by rw [hp.proc]; exact hS.pc, ?_, by rw [hp.proc]; exact hS.above⟩, ?_, ?_, ?_⟩
      · intro q
        have := hS.disk q
        by_cases hq : q = x
        · subst hq; rw [hp.blk]; simpa [Ballot.State.setDisk] using this
        · rw [hp.disk q hq]; simpa [Ballot.State.setDisk, hq] using this
      · have := hk.1; have := G.low; omega
      · intro q cur hq
        have h1 := (curOk_of_inv h hq).low
        have h2 := (h.host q).alive (by intro hi; rw [hi] at hq; simp [Ph.cur?] at hq)
        have h3 := hk.2 q h2.2 cur (by simpa using hq)
        omega
      · have := hk.1; omega
  obtain ⟨low', hS, hlow, hcur, hkl⟩ := key
  have hrelo : ∀ o, (s.host o).relv ≤ (s'.host o).relv := by
    intro o
    by_cases ho : o = x
    · rw [ho]; exact hp.relvx
    · rw [hp.relv o ho]; exact Nat.le_refl _
  refine ⟨low', ⟨⟨_, hg, hS⟩, by rw [hp.ldr]; exact hlow, by rw [hp.ldr, hp.log]; exact G.ldrOk, ?_, by rw [hp.votes, hp.ldr]; exact G.votesLe,
    by rw [hp.votes]; exact G.votesTs, by rw [hp.log, hp.ldr]; exact G.logLe, by rw [hp.log]; exact G.logPos, ?_, ?_, ?_, ?_, ?_, ?_⟩, ?_⟩
  · rw [hp.ldr]; intro h1 h2; exact Nat.le_trans (G.free h1 h2) (hrelo _)
  · rw [hp.votes]
    intro v hv
    have h1 := G.balLe v hv
    by_cases hvx : v.host = x
    · rw [hvx] at h1 ⊢
      have h2 := hp.relvx
      rcases hk with hk | ⟨_, hk⟩
      · rw [hp.blk, hk]; omega
      · omega
    · rw [hp.relv _ hvx, hp.disk _ hvx]; exact h1
  · intro q
    rw [hp.ldr]
    by_cases hq : q = x
    · rw [hq, hp.blk]; exact hkl
    · rw [hp.disk q hq]; exact G.diskLe q
  · intro q
    rw [hp.ldr]
    by_cases hq : q = x
    · rw [hq]; exact hrel
    · rw [hp.relv q hq]; exact G.relLe q
  · rw [hp.votes]
    intro v hv hf
    by_cases hvx : v.host = x
    · rw [hvx] at hf ⊢
      rcases hfl hf with h1 | ⟨h1, _⟩
      · have := G.flagVotes v hv (by rw [hvx]; exact h1)
        rw [hvx] at this
        have := hp.relvx
        omega
      · have h2 := G.balLe v hv
        rw [hvx] at h2
        have := hp.relvx
        omega
    · rw [hp.flag _ hvx] at hf
      rw [hp.relv _ hvx]
      exact G.flagVotes v hv hf
  · rw [hp.proc]
    intro q d w hq hw
    have h1 := G.flag1 q d w hq hw
    by_cases hqx : q = x
    · subst hqx
      refine Classical.byContradiction fun hn => ?_
      rcases hfl (by simpa using hn) with h2 | ⟨_, h2⟩
      · rw [h1] at h2; simp at h2
      · rw [hq] at h2; simp at h2
    · rw [hp.flag q hqx]; exact h1
  · rw [hp.proc]
    intro q d w1 r buf mx hq
    have h1 := G.flag2 q d w1 r buf mx hq
    by_cases hqx : q = x
    · subst hqx
      refine Classical.byContradiction fun hn => ?_
      rcases hfl (by simpa using hn) with h2 | ⟨_, h2⟩
      · rw [h1] at h2; simp at h2
      · rw [hq] at h2; simp at h2
    · rw [hp.flag q hqx]; exact h1
  · intro q
    by_cases hqx : q = x
    · rw [hqx]; exact hx low' hcur
    · refine hostOk_mono ?_ (h.host q)
      refine ⟨by rw [hp.ldr]; exact Nat.le_refl _, .inl hp.ldr, by rw [hp.log]; exact fun _ h => h, by rw [hp.log]; exact fun _ h _ => h,
        by rw [hp.votes]; exact fun _ h _ => h, hrelo, .inl (hp.relv q hqx), ?_, hph q hqx, hp.gen q, hp.alive q,
        by rw [hp.disk q hqx]; exact Nat.le_refl _, by rw [hp.disk q hqx]; exact Nat.le_refl _, by rw [hp.proc],
        fun cur hq => .inr (hcur q cur hq)⟩
      intro o g' he
      simpa [Expired, hp.gen, hp.alive] using he

/-! ## Steps of a ballot -/

structure BChange (c : Cfg) (s s' : State) (low p : Nat) (m : Mode) (cur : Rec) (mbal : Nat) : Prop where
  ldr : s'.ldr = s.ldr
  sim : ∃ g, Ballot.Reach c g ∧ Sim low s'.B g
  log : s'.B.log = s.B.log
  host : ∀ q, q ≠ p → s'.host q = s.host q
  gen : (s'.host p).gen = (s.host p).gen
  alive : (s'.host p).alive = (s.host p).alive
  relv : (s'.host p).relv = (s.host p).relv
  ph : (s'.host p).ph = .ballot m cur mbal
  proc : ∀ q, q ≠ p → s'.B.proc q = s.B.proc q
  pc : (s'.B.proc p).pc ≠ .idle → (s'.B.proc p).dblock.lver = cur.lver + 1 ∧ (s'.B.proc p).dblock.mbal = mbal
  disk : ∀ q, q ≠ p → s'.B.disk 0 q = s.B.disk 0 q
  own : s'.B.disk 0 p = s.B.disk 0 p ∨ ((s'.B.disk 0 p).lver = cur.lver + 1 ∧ (s'.B.disk 0 p).mbal = mbal ∧
    ∀ v ∈ s.B.votes, v.host = p → v.lver < cur.lver + 1 ∨ (v.lver = cur.lver + 1 ∧ v.bal ≤ mbal))
  votes : s'.B.votes = s.B.votes ∨ ∃ v, s'.B.votes = v :: s.B.votes ∧ v.host = p ∧ v.lver = cur.lver + 1 ∧ v.bal = mbal ∧
    v.val.2.2 ≠ 0 ∧ s'.flag p = false ∧ (s'.B.disk 0 p).lver = cur.lver + 1 ∧ (s'.B.disk 0 p).mbal = mbal
  flag : ∀ q, q ≠ p → s'.flag q = s.flag q
  flagp : s'.flag p = true → s.flag p = true
  flag1 : ∀ d w, (s'.B.proc p).pc = .write1 d w → w ≠ [] → s'.flag p = false
  flag2 : ∀ d w1 r buf mx, (s'.B.proc p).pc = .read1 d w1 r buf mx → s'.flag p = false

theorem inv_ballot {c : Cfg} {s s' : State} {low p : Nat} {m : Mode} {cur : Rec} {mbal : Nat} (h : Inv c s low)
    (b : BChange c s s' low p m cur mbal) (hcur : CurOk s low p cur) (hcert : Cert s p cur) (hmb : MbalOk c p mbal)
    (hdm : (s.B.disk 0 p).mbal ≤ mbal) (hal : (s.host p).alive = true ∧ p < c.hosts) : Inv c s' low := by
  have G := h.glob
  have e : ∀ o, (s'.host o).relv = (s.host o).relv := by
    intro o; by_cases ho : o = p
    · rw [ho]; exact b.relv
    · rw [b.host o ho]
  have eg : ∀ o, (s'.host o).gen = (s.host o).gen := by
    intro o; by_cases ho : o = p
    · rw [ho]; exact b.gen
    · rw [b.host o ho]
  have ea : ∀ o, (s'.host o).alive = (s.host o).alive := by
    intro o; by_cases ho : o = p
    · rw [ho]; exact b.alive
    · rw [b.host o ho]
  have eexp : ∀ o g, Expired s o g → Expired s' o g := by
    intro o g h1; simpa [Expired, eg, ea] using h1
  have hle := hcur.le
  have hmem : ∀ v ∈ s'.B.votes, v ∈ s.B.votes ∨ (v.host = p ∧ v.lver = cur.lver + 1 ∧ v.bal = mbal ∧
    v.val.2.2 ≠ 0 ∧ s'.flag p = false ∧ (s'.B.disk 0 p).lver = cur.lver + 1 ∧ (s'.B.disk 0 p).mbal = mbal) := by
    intro v hv
    rcases b.votes with h1 | ⟨u, h1, h2⟩
    · rw [h1] at hv; exact .inl hv
    · rw [h1] at hv
      rcases List.mem_cons.mp hv with h3 | h3
      · subst h3; exact .inr h2
      · exact .inl h3
  refine ⟨⟨b.sim, by rw [b.ldr]; exact G.low, by rw [b.ldr, b.log]; exact G.ldrOk, ?_, ?_, ?_, by rw [b.log, b.ldr]; exact G.logLe,
    by rw [b.log]; exact G.logPos, ?_, ?_, ?_, ?_, ?_, ?_⟩, ?_⟩
  · rw [b.ldr]; intro h1 h2; rw [e]; exact G.free h1 h2
  · rw [b.ldr]
    intro v hv
    rcases hmem v hv with h1 | h1
    · exact G.votesLe v h1
    · omega
  · intro v hv
    rcases hmem v hv with h1 | h1
    · exact G.votesTs v h1
    · exact h1.2.2.2.1
  · intro v hv
    rw [e]
    rcases hmem v hv with h1 | ⟨h1, h2, h3, _, _, h4, h5⟩
    · have h2 := G.balLe v h1
      by_cases hvp : v.host = p
      · rw [hvp] at h2 ⊢
        rcases b.own with h3 | ⟨h3, h4, h5⟩
        · rw [h3]; exact h2
        · have := h5 v h1 hvp; omega
      · rw [b.disk _ hvp]; exact h2
    · rw [h1]; omega
  · intro q
    rw [b.ldr]
    by_cases hq : q = p
    · rw [hq]
      rcases b.own with h3 | ⟨h3, _⟩
      · rw [h3]; exact G.diskLe p
      · omega
    · rw [b.disk q hq]; exact G.diskLe q
  · intro q; rw [e, b.ldr]; exact G.relLe q
  · intro v hv hf
    rw [e]
    rcases hmem v hv with h1 | ⟨h1, _, _, _, h4, _⟩
    · refine G.flagVotes v h1 ?_
      by_cases hvp : v.host = p
      · rw [hvp] at hf ⊢; exact b.flagp hf
      · rw [b.flag _ hvp] at hf; exact hf
    · rw [h1, h4] at hf; simp at hf
  · intro q d w hq hw
    by_cases hqp : q = p
    · subst hqp; exact b.flag1 d w hq hw
    · rw [b.proc q hqp] at hq; rw [b.flag q hqp]; exact G.flag1 q d w hq hw
  · intro q d w1 r buf mx hq
    by_cases hqp : q = p
    · subst hqp; exact b.flag2 d w1 r buf mx hq
    · rw [b.proc q hqp] at hq; rw [b.flag q hqp]; exact G.flag2 q d w1 r buf mx hq
  · intro q
    by_cases hqp : q = p
    · subst hqp
      refine ⟨?_, fun _ => by rw [b.alive]; exact hal, fun _ => ⟨m, cur, mbal, b.ph⟩⟩
      rw [b.ph]
      refine ⟨⟨by rw [b.log]; exact hcur.ok, by rw [b.ldr]; exact hcur.le, hcur.low, ?_, ?_, by rw [b.log]; exact hcur.log,
        by rw [e]; exact hcur.relv, ?_⟩, ?_, hmb, ?_, b.pc⟩
      · intro h1 h2; rw [e]; exact hcur.free h1 h2
      · intro v hv hvp
        rcases hmem v hv with h1 | h1
        · exact hcur.votes v h1 hvp
        · omega
      · rcases b.own with h3 | ⟨h3, _⟩
        · rw [h3]; exact hcur.disk
        · omega
      · rcases hcert with h1 | h1 | h1 | h1
        · exact .inl h1
        · exact .inr (.inl h1)
        · exact .inr (.inr (.inl (eexp _ _ h1)))
        · exact .inr (.inr (.inr (by rw [e]; exact h1)))
      · rcases b.own with h3 | ⟨_, h3, _⟩
        · rw [h3]; exact hdm
        · omega
    · refine hostOk_mono ?_ (h.host q)
      refine ⟨by rw [b.ldr]; exact Nat.le_refl _, .inl b.ldr, by rw [b.log]; exact fun _ h => h, by rw [b.log]; exact fun _ h _ => h,
        ?_, fun o => by rw [e]; exact Nat.le_refl _, .inl (e q), eexp, by rw [b.host q hqp], eg q, ea q,
        by rw [b.disk q hqp]; exact Nat.le_refl _, by rw [b.disk q hqp]; exact Nat.le_refl _, b.proc q hqp,
        fun _ _ => .inl (Nat.le_refl _)⟩
      intro v hv hvq
      rcases hmem v hv with h1 | h1
      · exact h1
      · omega

/-- A ballot starts. -/
theorem inv_start {c : Cfg} {s : State} {low p : Nat} {m : Mode} {cur : Rec} {mbal : Nat} {copy : Bool} {B' : Ballot.State}
    (hd : c.disks = 1) (h : Inv c s low) (hph : (s.host p).ph = .run m cur mbal copy)
    (hs : Ballot.step c s.B (.start p (cur.lver + 1) mbal (s.host p).gen) = some B') :
    Inv c ({ s with B := B' }.setHost p { s.host p with ph := .ballot m cur mbal, balloted := true }) low := by
  have G := h.glob
  have hp := (h.host p).ph
  rw [hph] at hp
  obtain ⟨hcur, hcert, hmb, hdm⟩ := hp
  obtain ⟨g, hg, hsim⟩ := G.sim
  obtain ⟨g', hg', hsim'⟩ := sim_step hd hsim hs (by
    intro p' lver' mbal' gen' he
    have := hcur.low
    cases he; omega)
  have hal : Ballot.Allowed c g (.start p (cur.lver + 1) mbal (s.host p).gen) := by
    refine ⟨hmb.pos, hmb.res, ?_, ?_⟩
    · rw [← hsim.votes]
      intro v hv hvp
      have h1 := hcur.votes v hv hvp
      have h2 := G.balLe v hv
      rw [hvp] at h2
      have h3 := hcur.relv
      have h4 := hcur.disk
      simp only [Ballot.lexLt]
      omega
    · rw [← hsim.log]
      intro e he hep
      have := hcur.log e he hep
      omega
  have hpc : B' = s.B.setProc p ⟨.write1 0 [], { Blk.zero with lver := cur.lver + 1, mbal := mbal }, (s.host p).gen⟩ := by
    simp only [Ballot.step] at hs
    split at hs
    · split at hs
      · simpa using hs.symm
      · simp at hs
    · simp at hs
  refine inv_ballot (m := m) h ?_ hcur hcert hmb (by omega) ((h.host p).alive (by simp [hph]))
  subst hpc
  refine ⟨rfl, ⟨g', .step hg hal hg', hsim'⟩, rfl, ?_, ?_, ?_, ?_, ?_, ?_, ?_, ?_, .inl rfl, .inl rfl, ?_, ?_, ?_, ?_⟩ <;>
    simp +contextual [State.setHost, upd_apply, Ballot.State.setProc]

@[simp] theorem effects_B (c : Cfg) (s : State) (m : Mode) (p : Nat) (a : Ballot.Act) (B' : Ballot.State) :
    (effects c s m p a B').B = B' := by
  unfold effects
  (repeat' split) <;> rfl

@[simp] theorem effects_ldr (c : Cfg) (s : State) (m : Mode) (p : Nat) (a : Ballot.Act) (B' : Ballot.State) :
    (effects c s m p a B').ldr = s.ldr := by
  unfold effects
  (repeat' split) <;> rfl

theorem effects_other (c : Cfg) (s : State) (m : Mode) (p : Nat) (a : Ballot.Act) (B' : Ballot.State) (q : Nat) (hq : q ≠ p) :
    (effects c s m p a B').host q = s.host q ∧ (effects c s m p a B').flag q = s.flag q ∧
    (effects c s m p a B').mark q = s.mark q := by
  unfold effects
  (repeat' split) <;> simp [setHost_host, hq, State.setHost, upd_apply]

theorem effects_self (c : Cfg) (s : State) (m : Mode) (p : Nat) (a : Ballot.Act) (B' : Ballot.State) :
    ((effects c s m p a B').host p).ph = (s.host p).ph ∧ ((effects c s m p a B').host p).gen = (s.host p).gen ∧
    ((effects c s m p a B').host p).alive = (s.host p).alive ∧ ((effects c s m p a B').host p).relv = (s.host p).relv ∧
    ((effects c s m p a B').host p).db = (s.host p).db ∧ ((effects c s m p a B').host p).balloted = (s.host p).balloted := by
  unfold effects
  (repeat' split) <;> simp [setHost_host]

theorem effects_flag (c : Cfg) (s : State) (m : Mode) (p : Nat) (a : Ballot.Act) (B' : Ballot.State) :
    (effects c s m p a B').flag p = (match a with
      | .write _ res => if lands res then false else s.flag p
      | _ => s.flag p) := by
  unfold effects
  (repeat' split) <;> simp_all [State.setHost, upd_apply]

/-- A step of a ballot. -/
theorem inv_bal {c : Cfg} {s : State} {low p : Nat} {m : Mode} {cur : Rec} {mbal : Nat} {a : Ballot.Act} {B' : Ballot.State}
    (hc : c.hosts ≤ c.maxHosts) (hd : c.disks = 1) (h : Inv c s low) (hph : (s.host p).ph = .ballot m cur mbal)
    (ha : balHost a = some p) (hnow : ∀ now, a = .readsDone p now → 0 < now)
    (hs : Ballot.step c s.B a = some B') : Inv c (effects c s m p a B') low := by
  have G := h.glob
  have hp := (h.host p).ph
  rw [hph] at hp
  obtain ⟨hcur, hcert, hmb, hdm, hpc⟩ := hp
  obtain ⟨g, hg, hsim⟩ := G.sim
  have F := bf_of_sim hc hd hg hsim
  have S := bstep_of_step hd ha hs
  obtain ⟨hl, hm⟩ := hpc S.active
  obtain ⟨g', hg', hsim'⟩ := sim_step hd hsim hs (by
    intro p' lver' mbal' gen' he
    subst he
    simp [balHost] at ha)
  have hal : Ballot.Allowed c g a := by
    cases a <;> first | trivial | simp [balHost] at ha
  have E := effects_self c s m p a B'
  refine inv_ballot (m := m) h ?_ hcur hcert hmb hdm ((h.host p).alive (by simp [hph]))
  refine ⟨effects_ldr .., ⟨g', .step hg hal hg', by rw [effects_B]; exact hsim'⟩, by rw [effects_B]; exact S.log,
    fun q hq => (effects_other c s m p a B' q hq).1, E.2.1, E.2.2.1, E.2.2.2.1, by rw [E.1, hph], by rw [effects_B]; exact S.proc,
    ?_, by rw [effects_B]; exact S.disk, ?_, ?_, fun q hq => (effects_other c s m p a B' q hq).2.1, ?_, ?_, ?_⟩
  · rw [effects_B]
    intro _
    exact ⟨by rw [S.lver, hl], by rw [S.mbal, hm]⟩
  · rw [effects_B]
    cases a with
    | write p' res =>
      simp only [balHost, Option.some.injEq] at ha
      subst ha
      rcases S.own with h1 | h1
      · exact .inl h1
      · refine .inr ⟨by rw [h1, hl], by rw [h1, hm], ?_⟩
        intro v hv hvp
        rw [← hl, ← hm]
        simp only [Ballot.step] at hs
        split at hs
        · rename_i d w hw
          have := F.fresh1 p' d w hw v hv hvp
          omega
        · rename_i d w1 w hw
          exact F.latest p' d w1 w hw v hv hvp
        · simp at hs
    | start => simp [balHost] at ha
    | leaderWritten => simp [balHost] at ha
    | quit => simp [balHost] at ha
    | _ =>
      left
      simp only [balHost, Option.some.injEq] at ha
      subst ha
      simp only [Ballot.step] at hs
      repeat' split at hs
      all_goals first | contradiction | (simp only [Option.some.injEq] at hs; subst hs; rfl)
  · rw [effects_B]
    rcases S.votes with h1 | ⟨v, h1, h2, h3, h4, d, w1, r, buf, mx, now, h5, h6, h7⟩
    · exact .inl h1
    · refine .inr ⟨v, h1, h2, by rw [h3, hl], by rw [h4, hm], ?_, ?_, ?_⟩
      · rw [h7]
        split
        · rename_i hmx
          obtain ⟨u, hu, hu1⟩ := F.mx p d w1 r buf mx h6 hmx
          rw [← hu1]; exact G.votesTs u hu
        · have := hnow now h5; omega
      · rw [effects_flag, h5]; exact G.flag2 p d w1 r buf mx h6
      · have h8 := F.onDisk p d w1 r buf mx h6
        have h9 : B'.disk 0 p = s.B.disk 0 p := by
          rcases S.own with h9 | h9
          · exact h9
          · rw [h9, h8]
        rw [h9, h8]
        exact ⟨hl, hm⟩
  · rw [effects_flag]
    split
    · split <;> simp
    · exact fun h => h
  · rw [effects_B, effects_flag]
    intro d w hw hne
    cases a with
    | write p' res =>
      simp only [balHost, Option.some.injEq] at ha
      subst ha
      simp only [Ballot.step] at hs
      split at hs
      · rename_i d0 w0 hpc0
        split at hs
        · cases res <;> simp only [Option.some.injEq] at hs <;> subst hs <;> simp [lands]
          simp at hw
          obtain ⟨_, hw2⟩ := hw
          subst hw2
          exact G.flag1 p' d0 w0 hpc0 hne
        · simp at hs
      · split at hs
        · cases res <;> simp only [Option.some.injEq] at hs <;> subst hs <;> simp at hw
        · simp at hs
      · simp at hs
    | start => simp [balHost] at ha
    | leaderWritten => simp [balHost] at ha
    | quit => simp [balHost] at ha
    | _ =>
      simp only [balHost, Option.some.injEq] at ha
      subst ha
      simp only [Ballot.step] at hs
      repeat' split at hs
      all_goals first | contradiction | (simp only [Option.some.injEq] at hs; subst hs; simp [setProc_proc] at hw)
  · rw [effects_B, effects_flag]
    intro d w1 r buf mx hw
    cases a with
    | writesDone p' =>
      simp only [balHost, Option.some.injEq] at ha
      subst ha
      simp only [Ballot.step] at hs
      split at hs
      · rename_i d0 w0 hpc0
        split at hs
        · simp at hs
        split at hs
        · rename_i hmaj
          refine G.flag1 p' d0 w0 hpc0 ?_
          intro hw0
          have := Ballot.majority_gt hmaj
          simp [hw0] at this
        · simp only [Option.some.injEq] at hs; subst hs; simp at hw
      · repeat' split at hs
        all_goals first | contradiction | (simp only [Option.some.injEq] at hs; subst hs; simp at hw)
      · simp at hs
    | write p' res =>
      simp only [balHost, Option.some.injEq] at ha
      subst ha
      simp only [Ballot.step] at hs
      repeat' split at hs
      all_goals first | contradiction | (simp only [Option.some.injEq] at hs; subst hs; simp at hw)
    | start => simp [balHost] at ha
    | leaderWritten => simp [balHost] at ha
    | quit => simp [balHost] at ha
    | _ =>
      simp only [balHost, Option.some.injEq] at ha
      subst ha
      simp only [Ballot.step] at hs
      split at hs
      · rename_i hpc0
        exact G.flag2 _ _ _ _ _ _ hpc0
      · repeat' split at hs
        all_goals first | contradiction | (simp only [Option.some.injEq] at hs; subst hs; simp [setProc_proc] at hw)
      · simp at hs

/-! ## Writing the leader record -/

theorem inv_commit {c : Cfg} {s : State} {low p : Nat} {m : Mode} {cur : Rec} {mbal now : Nat} {w1 w : List Nat} {h' : Host}
    (hc : c.hosts ≤ c.maxHosts) (hd : c.disks = 1) (h : Inv c s low) (hph : (s.host p).ph = .ballot m cur mbal)
    (hpc : (s.B.proc p).pc = .won w1 w) (hst : s.ldr.lver ≤ (s.B.proc p).dblock.lver)
    (hg : h'.gen = (s.host p).gen) (ha : h'.alive = (s.host p).alive) (hr : h'.relv = (s.host p).relv)
    (hp' : h'.ph = .lost m ∨ (∃ last, h'.ph = .retract last) ∨ (∃ last l0, h'.ph = .rel last (.back l0)) ∨
      ((s.B.proc p).dblock.inp = p + 1 ∧ (s.B.proc p).dblock.inp2 = (s.host p).gen ∧
        h'.ph = .granted m (newLeader (s.B.proc p).dblock p (s.host p).gen now))) :
    Inv c ({ s with ldr := newLeader (s.B.proc p).dblock p (s.host p).gen now,
                    B := { s.B.setPc p .idle with log := ⟨p, (s.B.proc p).dblock, w⟩ :: s.B.log } }.setHost p h') low := by
  have G := h.glob
  have hp := (h.host p).ph
  rw [hph] at hp
  obtain ⟨hcur, hcert, hmb, hdm, hpc'⟩ := hp
  obtain ⟨hl, hm⟩ := hpc' (by simp [hpc])
  obtain ⟨g, hg0, hsim⟩ := G.sim
  have F := bf_of_sim hc hd hg0 hsim
  obtain ⟨hinp, u, hu, hu1, hu2, hu3⟩ := F.wonVote p w1 w hpc
  have hts : (s.B.proc p).dblock.inp3 ≠ 0 := by rw [← hu3]; exact G.votesTs u hu
  have hle := hcur.le
  have hs : Ballot.step c s.B (.leaderWritten p) =
      some { s.B.setPc p .idle with log := ⟨p, (s.B.proc p).dblock, w⟩ :: s.B.log } := by
    simp only [Ballot.step, hpc]
  obtain ⟨g', hg', hsim'⟩ := sim_step hd hsim hs (by simp)
  have e : ∀ o, (upd s.host p h' o).relv = (s.host o).relv := by
    intro o; simp only [upd_apply]; split
    · subst o; exact hr
    · rfl
  have hpr : ∀ q, q ≠ p → (s.B.setPc p .idle).proc q = s.B.proc q := by
    intro q hq; simp [Ballot.State.setPc, Ballot.State.setProc, hq]
  refine ⟨⟨⟨g', .step hg0 (a := .leaderWritten p) trivial hg', hsim'⟩, ?_, ?_, ?_, ?_, G.votesTs, ?_, ?_, ?_, ?_, ?_, ?_, ?_, ?_⟩, ?_⟩
  · exact Nat.le_trans G.low hst
  · exact .inr ⟨_, List.mem_cons_self, rfl, rfl, rfl⟩
  · intro h1; exact absurd h1 hts
  · intro v hv
    have := G.votesLe v hv
    show v.lver ≤ (s.B.proc p).dblock.lver + 1
    omega
  · intro e' he'
    show e'.blk.lver ≤ (s.B.proc p).dblock.lver
    rcases List.mem_cons.mp he' with h1 | h1
    · rw [h1]; exact Nat.le_refl _
    · exact Nat.le_trans (G.logLe e' h1) hst
  · intro e' he'
    rcases List.mem_cons.mp he' with h1 | h1
    · rw [h1]; show 0 < (s.B.proc p).dblock.lver; omega
    · exact G.logPos e' h1
  · intro v hv; simp only [State.setHost]; rw [e]; exact G.balLe v hv
  · intro q
    have := G.diskLe q
    show (s.B.disk 0 q).lver ≤ (s.B.proc p).dblock.lver + 1
    omega
  · intro q; simp only [State.setHost]; rw [e]
    exact Nat.le_trans (G.relLe q) hst
  · intro v hv hf; simp only [State.setHost]; rw [e]; exact G.flagVotes v hv hf
  · intro q d w' hq hw
    by_cases hqp : q = p
    · subst hqp; simp [State.setHost] at hq
    · simp only [State.setHost] at hq; rw [hpr q hqp] at hq; exact G.flag1 q d w' hq hw
  · intro q d w1' r buf mx hq
    by_cases hqp : q = p
    · subst hqp; simp [State.setHost] at hq
    · simp only [State.setHost] at hq; rw [hpr q hqp] at hq; exact G.flag2 q d w1' r buf mx hq
  · intro q
    by_cases hqp : q = p
    · subst hqp
      refine ⟨?_, ?_, ?_⟩
      · simp only [setHost_host, if_true]
        rcases hp' with h1 | ⟨last, h1⟩ | ⟨last, l0, h1⟩ | ⟨h1, h2, h3⟩
        · rw [h1]; trivial
        · rw [h1]; trivial
        · rw [h1]; trivial
        · rw [h3]
          refine ⟨rfl, h1, ?_, hts, ?_, .inl rfl⟩
          · simp only [setHost_host, if_true, hg]; exact h2
          · simp only [State.setHost]; rw [e]; have := hcur.relv; show _ < (s.B.proc q).dblock.lver; omega
      · intro _
        simp only [setHost_host, if_true, ha]
        exact (h.host q).alive (by simp [hph])
      · intro h1; simp [State.setHost] at h1
    · refine hostOk_mono ?_ (h.host q)
      refine ⟨hst, .inr ⟨by show p + 1 ≠ q + 1; omega, ?_⟩, fun _ h => List.mem_cons_of_mem _ h, ?_, fun _ h _ => h,
        fun o => by simp only [State.setHost]; rw [e]; exact Nat.le_refl _, .inl (e _), ?_, by simp [setHost_host, hqp], by simp [setHost_host, hqp],
        by simp [setHost_host, hqp], Nat.le_refl _, Nat.le_refl _, hpr q hqp, fun _ _ => .inl (Nat.le_refl _)⟩
      · intro l ho
        obtain ⟨O, hal⟩ := ownOk_of_inv h ho
        have hlog : ∃ e ∈ s.B.log, e.blk.lver = s.ldr.lver ∧ e.blk.inp = s.ldr.owner ∧ e.blk.inp2 = s.ldr.gen := by
          rcases G.ldrOk with h1 | h1
          · exact absurd h1.2 O.ts
          · exact h1
        obtain ⟨e1, he1, a1, a2, a3⟩ := hlog
        have hO1 := O.lver
        have hO2 := O.owner
        have hO3 := O.gen
        by_cases hv : s.ldr.lver = cur.lver + 1
        · have := F.wonAgree p w1 w hpc e1 he1 (by omega)
          refine ⟨?_, ?_, ?_, hts⟩
          · show (s.B.proc p).dblock.lver = _; omega
          · show (s.B.proc p).dblock.inp = _; omega
          · show (s.B.proc p).dblock.inp2 = _; omega
        · exfalso
          have hv' : s.ldr.lver = cur.lver := by omega
          have hr1 := O.relv
          have hpos : 0 < cur.lver := by omega
          have hsame : cur.owner = s.ldr.owner ∧ cur.gen = s.ldr.gen := by
            rcases hcur.ok with h1 | ⟨e2, he2, b1, b2, b3⟩
            · omega
            · have := F.logAgree e1 he1 e2 he2 (by omega)
              omega
          have hco : cur.owner - 1 = q := by omega
          rcases hcert with h1 | h1 | h1 | h1
          · omega
          · omega
          · rw [hco] at h1
            rcases h1 with h1 | ⟨_, h1⟩
            · omega
            · rw [hal] at h1; simp at h1
          · rw [hco] at h1; omega
      · intro e' he' heq
        rcases List.mem_cons.mp he' with h1 | h1
        · rw [h1] at heq; exact absurd heq.symm hqp
        · exact h1
      · intro o g0 h1
        exact (expired_setHost (s := { s with
          ldr := newLeader (s.B.proc p).dblock p (s.host p).gen now
          B := { s.B.setPc p .idle with log := ⟨p, (s.B.proc p).dblock, w⟩ :: s.B.log } }) hg ha o g0).mpr h1

theorem inv_relWrite {c : Cfg} {s : State} {low p : Nat} {l : Rec} {k : Next} {now : Nat} {ph : Ph}
    (hc : c.hosts ≤ c.maxHosts) (hd : c.disks = 1) (h : Inv c s low) (hph : (s.host p).ph = .relW l k)
    (hst : s.ldr.lver ≤ l.lver)
    (hp' : (∃ l', ph = .heldS l') ∨ ph = .idle ∨ (∃ l', ph = .undo l') ∨ (∃ last, ph = .rel last .gone) ∨ (∃ last l0, ph = .rel last (.back l0))) :
    Inv c ({ s with ldr := { l with ts := 0, wid := p + 1, wgen := (s.host p).gen, wts := now } }.setPh p ph) low := by
  have G := h.glob
  have hp := (h.host p).ph
  rw [hph] at hp
  obtain ⟨hrl, how, hok, _⟩ := hp
  obtain ⟨g, hg0, hsim⟩ := G.sim
  have F := bf_of_sim hc hd hg0 hsim
  have hrp := G.relLe p
  have hle : l.lver = s.ldr.lver := by omega
  have e : ∀ o, (upd s.host p { s.host p with ph := ph } o).relv = (s.host o).relv := by
    intro o; simp only [upd_apply]; split
    · subst o; rfl
    · rfl
  refine ⟨⟨G.sim, ?_, ?_, ?_, ?_, G.votesTs, ?_, G.logPos, ?_, ?_, ?_, ?_, G.flag1, G.flag2⟩, ?_⟩
  · show low ≤ l.lver; rw [hle]; exact G.low
  · rcases hok with h1 | h1
    · exact .inl ⟨h1.1, rfl⟩
    · exact .inr h1
  · intro _ _
    simp only [State.setPh, State.setHost]; rw [e]
    show l.lver ≤ (s.host (l.owner - 1)).relv
    rw [how]; exact hrl
  · intro v hv; show v.lver ≤ l.lver + 1; rw [hle]; exact G.votesLe v hv
  · intro v hv; show v.blk.lver ≤ l.lver; rw [hle]; exact G.logLe v hv
  · intro v hv; simp only [State.setPh, State.setHost]; rw [e]; exact G.balLe v hv
  · intro q; show _ ≤ l.lver + 1; rw [hle]; exact G.diskLe q
  · intro q; simp only [State.setPh, State.setHost]; rw [e]; show _ ≤ l.lver; rw [hle]; exact G.relLe q
  · intro v hv hf; simp only [State.setPh, State.setHost]; rw [e]; exact G.flagVotes v hv hf
  · intro q
    by_cases hqp : q = p
    · subst hqp
      refine ⟨?_, ?_, ?_⟩
      · simp only [State.setPh, setHost_host, if_true]
        rcases hp' with ⟨l', h1⟩ | h1 | ⟨l', h1⟩ | ⟨last, h1⟩ | ⟨last, l0, h1⟩ <;> rw [h1] <;> trivial
      · intro _
        simp only [State.setPh, setHost_host, if_true]
        exact (h.host q).alive (by simp [hph])
      · intro h1
        obtain ⟨_, _, _, h2⟩ := (h.host q).pc h1
        rw [hph] at h2; simp at h2
    · refine hostOk_mono ?_ (h.host q)
      refine ⟨hst, .inr ⟨by show p + 1 ≠ q + 1; omega, ?_⟩, fun _ h => h, fun _ h _ => h, fun _ h _ => h,
        fun o => by simp only [State.setPh, State.setHost]; rw [e]; exact Nat.le_refl _, .inl (e _), ?_, by simp [State.setPh, setHost_host, hqp],
        by simp [State.setPh, setHost_host, hqp],
        by simp [State.setPh, setHost_host, hqp], Nat.le_refl _, Nat.le_refl _, rfl, fun _ _ => .inl (Nat.le_refl _)⟩
      · intro l' ho
        exfalso
        obtain ⟨O, _⟩ := ownOk_of_inv h ho
        have hO1 := O.lver
        have hO2 := O.owner
        have hr1 := O.relv
        rcases G.ldrOk with h1 | ⟨e1, he1, a1, a2, a3⟩
        · exact O.ts h1.2
        · rcases hok with h1 | ⟨e2, he2, b1, b2, b3⟩
          · omega
          · have := F.logAgree e1 he1 e2 he2 (by omega)
            omega
      · intro o g0 h1
        exact (expired_setHost (s := { s with ldr := { l with ts := 0, wid := p + 1, wgen := (s.host p).gen, wts := now } })
          (h := { s.host p with ph := ph }) rfl rfl o g0).mpr h1

/-! ## Hosts leave and join -/

theorem inv_life {c : Cfg} {s : State} {low p : Nat} {h' : Host} (h : Inv c s low) (hpc : (s.B.proc p).pc = .idle)
    (hph : h'.ph = .idle) (hr : h'.relv = (s.host p).relv)
    (hg : (s.host p).gen < h'.gen ∨ ((s.host p).gen = h'.gen ∧ h'.alive = false)) : Inv c (s.setHost p h') low := by
  have G := h.glob
  have e : ∀ o, ((s.setHost p h').host o).relv = (s.host o).relv := by
    intro o; simp only [setHost_host]; split
    · subst o; exact hr
    · rfl
  refine ⟨⟨G.sim, G.low, G.ldrOk, ?_, G.votesLe, G.votesTs, G.logLe, G.logPos, ?_, G.diskLe, ?_, ?_, G.flag1, G.flag2⟩, ?_⟩
  · intro h1 h2; rw [e]; exact G.free h1 h2
  · intro v hv; rw [e]; exact G.balLe v hv
  · intro q; rw [e]; exact G.relLe q
  · intro v hv; rw [e]; exact G.flagVotes v hv
  · intro q
    by_cases hqp : q = p
    · subst hqp
      refine ⟨?_, ?_, ?_⟩
      · simp only [setHost_host, if_true, hph]; trivial
      · simp [setHost_host, hph]
      · intro h1; exact absurd hpc h1
    · refine hostOk_mono ?_ (h.host q)
      refine ⟨Nat.le_refl _, .inl rfl, fun _ h => h, fun _ h _ => h, fun _ h _ => h, fun o => by rw [e]; exact Nat.le_refl _, .inl (e _), ?_,
        by simp [setHost_host, hqp], by simp [setHost_host, hqp], by simp [setHost_host, hqp], Nat.le_refl _, Nat.le_refl _, rfl,
        fun _ _ => .inl (Nat.le_refl _)⟩
      intro o g0 h1
      simp only [Expired, setHost_host] at h1 ⊢
      by_cases ho : o = p
      · subst ho
        simp only [if_true]
        rcases hg with hg | ⟨hg, ha⟩
        · omega
        · rcases h1 with h1 | h1
          · omega
          · exact .inr ⟨by omega, ha⟩
      · simp only [ho, if_false]; exact h1

/-! ## Writing one's own block -/

/-- The state after a host has written its own block and moved on. -/
def ownWrite (s : State) (p v : Nat) (fl : Bool) (mk : Option Nat) (w : Wr) (ph : Ph) : State :=
  ((s.raise p v).putOwn p fl mk w).setPh p ph

theorem own_put {s : State} {p v : Nat} {fl : Bool} {mk : Option Nat} {w : Wr} {ph : Ph}
    (hi : (s.host p).db.inp = 0 ∨ (s.host p).db.inp = p + 1) :
    Put s (ownWrite s p v fl mk w ph) p (if lands w.res then (s.host p).db else s.B.disk 0 p) ∧
    ((ownWrite s p v fl mk w ph).host p).relv = max (s.host p).relv v ∧
    ((ownWrite s p v fl mk w ph).host p).ph = ph ∧
    (∀ q, q ≠ p → (ownWrite s p v fl mk w ph).host q = s.host q) ∧
    (ownWrite s p v fl mk w ph).flag p = (if lands w.res then fl else s.flag p) ∧
    (ownWrite s p v fl mk w ph).mark p = (if lands w.res then mk else s.mark p) ∧
    (∀ q, q ≠ p → (ownWrite s p v fl mk w ph).mark q = s.mark q) := by
  have hn : ¬ ((s.host p).db.inp ≠ 0 ∧ (s.host p).db.inp ≠ p + 1) := by omega
  simp only [ownWrite, State.putOwn, State.raise, setHost_host, if_true, hn, if_false]
  cases hl : lands w.res
  · refine ⟨⟨rfl, rfl, rfl, rfl, ?_, ?_, ?_, ?_, ?_, ?_, ?_⟩, ?_, ?_, ?_, ?_, ?_, ?_⟩ <;>
      simp +contextual [State.setPh, State.setHost, upd_apply] <;> (try intro q) <;> (try split) <;> (try simp_all) <;> omega
  · refine ⟨⟨rfl, rfl, rfl, rfl, ?_, ?_, ?_, ?_, ?_, ?_, ?_⟩, ?_, ?_, ?_, ?_, ?_, ?_⟩ <;>
      simp +contextual [State.setPh, State.setHost, State.putBlk, upd_apply, Ballot.State.setDisk] <;> (try intro q) <;> (try split) <;>
        (try simp_all) <;> omega

/-- A host writes its own block and gives up everything up to the version in it. -/
theorem inv_ownWrite {c : Cfg} {s : State} {low p v : Nat} {fl : Bool} {mk : Option Nat} {w : Wr} {ph : Ph}
    (h : Inv c s low) (hgood : GoodRel c s p) (hv : (s.B.disk 0 p).lver ≤ v) (hv' : v ≤ s.ldr.lver)
    (hpc : (s.B.proc p).pc = .idle) (hne : (s.host p).ph ≠ .idle)
    (hp : ∀ low', PhOk c (ownWrite s p v fl mk w ph) low' p ph) : ∃ low', Inv c (ownWrite s p v fl mk w ph) low' := by
  obtain ⟨P, h1, h2, h3, h4, _⟩ := own_put (s := s) (p := p) (v := v) (fl := fl) (mk := mk) (w := w) (ph := ph) hgood.1.1
  have hr := h.glob.relLe p
  refine inv_put h P ?_ (by rw [h1]; omega) ?_ (fun q hq => by rw [h3 q hq]) ?_
  · split
    · rcases hgood.1.2 with h5 | h5
      · exact .inl h5
      · exact .inr ⟨h5, by rw [h1]; omega⟩
    · exact .inl rfl
  · intro _; right; exact ⟨by rw [h1]; omega, hpc⟩
  · intro low' _
    refine ⟨by rw [h2]; exact hp low', fun _ => ?_, ?_⟩
    · rw [P.alive]; exact (h.host p).alive hne
    · rw [P.proc]; intro h6; exact absurd hpc h6

end Sanlock.Lease
