import Verif.Lease
import Verif.Lemmas.Ballot
import Verif.Props.Ballot

/-!
# Ballots on blocks that are erased when nobody needs them

`write_host_block` overwrites a host's block outside of a ballot.  As long as the versions concerned are finished, an execution
with such writes looks the same to every host as one of `Verif/Ballot.lean` without them.
-/

namespace Sanlock.Lease

open Sanlock.Ballot (Blk Cfg WriteRes Pc Vote Done)

/-- Two blocks that look the same to hosts working on versions above `low`. -/
def BlkSim (low : Nat) (k k' : Blk) : Prop := k = k' ∨ (k.lver ≤ low ∧ k'.lver ≤ low)

def OptSim (low : Nat) : Option Blk → Option Blk → Prop
  | none, none => True
  | some k, some k' => BlkSim low k k'
  | _, _ => False

/-- Lists of blocks, one by one. -/
inductive BlksSim (low : Nat) : List Blk → List Blk → Prop where
  | nil : BlksSim low [] []
  | cons {k k' : Blk} {l l' : List Blk} : BlkSim low k k' → BlksSim low l l' → BlksSim low (k :: l) (k' :: l')

def BufSim (low : Nat) (b b' : Nat → Option Blk) : Prop := ∀ q, OptSim low (b q) (b' q)

/-- The same program point up to the contents of the buffer. -/
inductive PcSim (low : Nat) : Pc → Pc → Prop where
  | idle : PcSim low .idle .idle
  | write1 (d w) : PcSim low (.write1 d w) (.write1 d w)
  | read1 (d w1 r b b' mx) : BufSim low b b' → PcSim low (.read1 d w1 r b mx) (.read1 d w1 r b' mx)
  | write2 (d w1 w) : PcSim low (.write2 d w1 w) (.write2 d w1 w)
  | read2 (d w1 w r b b') : BufSim low b b' → PcSim low (.read2 d w1 w r b) (.read2 d w1 w r b')
  | won (w1 w) : PcSim low (.won w1 w) (.won w1 w)

structure Sim (low : Nat) (s g : Ballot.State) : Prop where
  votes : s.votes = g.votes
  log : s.log = g.log
  dblock : ∀ p, (s.proc p).dblock = (g.proc p).dblock
  gen : ∀ p, (s.proc p).gen = (g.proc p).gen
  pc : ∀ p, PcSim low (s.proc p).pc (g.proc p).pc
  disk : ∀ q, BlkSim low (s.disk 0 q) (g.disk 0 q)
  above : ∀ p, (s.proc p).pc ≠ .idle → low < (s.proc p).dblock.lver

theorem BlkSim.mono {low low' : Nat} {k k' : Blk} (h : BlkSim low k k') (hl : low ≤ low') : BlkSim low' k k' := by
  rcases h with h | ⟨h1, h2⟩
  · exact .inl h
  · exact .inr ⟨by omega, by omega⟩

theorem OptSim.mono {low low' : Nat} {k k' : Option Blk} (h : OptSim low k k') (hl : low ≤ low') : OptSim low' k k' := by
  cases k <;> cases k' <;> simp_all [OptSim]
  exact h.mono hl

theorem BufSim.mono {low low' : Nat} {b b' : Nat → Option Blk} (h : BufSim low b b') (hl : low ≤ low') : BufSim low' b b' :=
  fun q => (h q).mono hl

theorem BufSim.empty (low : Nat) : BufSim low Ballot.emptyBuf Ballot.emptyBuf := fun _ => trivial

theorem PcSim.mono {low low' : Nat} {a b : Pc} (h : PcSim low a b) (hl : low ≤ low') : PcSim low' a b := by
  cases h with
  | idle => exact .idle
  | write1 => exact .write1 ..
  | read1 _ _ _ _ _ _ hb => exact .read1 _ _ _ _ _ _ (hb.mono hl)
  | write2 => exact .write2 ..
  | read2 _ _ _ _ _ _ hb => exact .read2 _ _ _ _ _ _ (hb.mono hl)
  | won => exact .won ..

theorem Sim.mono {low low' : Nat} {s g : Ballot.State} (h : Sim low s g) (hl : low ≤ low')
    (ha : ∀ p, (s.proc p).pc ≠ .idle → low' < (s.proc p).dblock.lver) : Sim low' s g :=
  ⟨h.votes, h.log, h.dblock, h.gen, fun p => (h.pc p).mono hl, fun q => (h.disk q).mono hl, ha⟩

theorem sim_init : Sim 0 Ballot.init Ballot.init :=
  ⟨rfl, rfl, fun _ => rfl, fun _ => rfl, fun _ => .idle, fun _ => .inl rfl, fun p h => absurd rfl h⟩

theorem phase1Blk_sim {low : Nat} {d mx k k' : Blk} (h : BlkSim low k k') (hd : low < d.lver) :
    Ballot.phase1Blk d mx k = Ballot.phase1Blk d mx k' := by
  rcases h with rfl | ⟨h1, h2⟩
  · rfl
  · simp only [Ballot.phase1Blk]
    rw [if_pos (by omega), if_pos (by omega)]

theorem phase2Blk_sim {low : Nat} {d k k' : Blk} (h : BlkSim low k k') (hd : low < d.lver) :
    Ballot.phase2Blk d k = Ballot.phase2Blk d k' := by
  rcases h with rfl | ⟨h1, h2⟩
  · rfl
  · simp only [Ballot.phase2Blk]
    rw [if_pos (by omega), if_pos (by omega)]

theorem phase1Disk_sim {low : Nat} {d : Blk} (hd : low < d.lver) {l l' : List Blk}
    (h : BlksSim low l l') : ∀ mx, Ballot.phase1Disk d mx l = Ballot.phase1Disk d mx l' := by
  induction h with
  | nil => intro mx; rfl
  | cons hk _ ih =>
    intro mx
    simp only [Ballot.phase1Disk, phase1Blk_sim hk hd, ih]

theorem phase2Disk_sim {low : Nat} {d : Blk} (hd : low < d.lver) {l l' : List Blk}
    (h : BlksSim low l l') : Ballot.phase2Disk d l = Ballot.phase2Disk d l' := by
  induction h with
  | nil => rfl
  | cons hk _ ih => simp only [Ballot.phase2Disk, phase2Blk_sim hk hd, ih]

theorem mapM_sim {low : Nat} {b b' : Nat → Option Blk} (h : BufSim low b b') (xs : List Nat) :
    (xs.mapM b = none ∧ xs.mapM b' = none) ∨
    ∃ l l', xs.mapM b = some l ∧ xs.mapM b' = some l' ∧ BlksSim low l l' := by
  induction xs with
  | nil => exact .inr ⟨[], [], rfl, rfl, .nil⟩
  | cons x xs ih =>
    have hx := h x
    simp only [List.mapM_cons]
    cases hb : b x <;> cases hb' : b' x <;> simp only [hb, hb', OptSim] at hx
    · exact .inl ⟨rfl, rfl⟩
    · rename_i k k'
      rcases ih with ⟨h1, h2⟩ | ⟨l, l', h1, h2, h3⟩
      · exact .inl ⟨by simp [h1], by simp [h2]⟩
      · exact .inr ⟨k :: l, k' :: l', by simp [h1], by simp [h2], .cons hx h3⟩

theorem collect_sim {low : Nat} {b b' : Nat → Option Blk} (h : BufSim low b b') (n : Nat) :
    (Ballot.collect n b = none ∧ Ballot.collect n b' = none) ∨
    ∃ l l', Ballot.collect n b = some l ∧ Ballot.collect n b' = some l' ∧ BlksSim low l l' :=
  mapM_sim h _

/-! ## Steps -/

theorem setProc_proc (s : Ballot.State) (p : Nat) (pr : Ballot.Proc) (x : Nat) :
    (s.setProc p pr).proc x = if x = p then pr else s.proc x := rfl

theorem sim_setProc {low : Nat} {s g : Ballot.State} (h : Sim low s g) (p : Nat) {pr pr' : Ballot.Proc}
    (hd : pr.dblock = pr'.dblock) (hg : pr.gen = pr'.gen) (hp : PcSim low pr.pc pr'.pc)
    (ha : pr.pc ≠ .idle → low < pr.dblock.lver) : Sim low (s.setProc p pr) (g.setProc p pr') := by
  refine ⟨h.votes, h.log, ?_, ?_, ?_, h.disk, ?_⟩ <;> intro x <;> simp only [setProc_proc]
  · split
    · exact hd
    · exact h.dblock x
  · split
    · exact hg
    · exact h.gen x
  · split
    · exact hp
    · exact h.pc x
  · split
    · exact ha
    · exact h.above x

theorem sim_setPc {low : Nat} {s g : Ballot.State} (h : Sim low s g) (p : Nat) {pc pc' : Pc}
    (hp : PcSim low pc pc') (ha : pc ≠ .idle → low < (s.proc p).dblock.lver) :
    Sim low (s.setPc p pc) (g.setPc p pc') :=
  sim_setProc h p (h.dblock p) (h.gen p) hp ha

theorem sim_idle {low : Nat} {s g : Ballot.State} (h : Sim low s g) (p : Nat) :
    Sim low (s.setPc p .idle) (g.setPc p .idle) :=
  sim_setPc h p .idle (by simp)

theorem sim_setDisk {low : Nat} {s g : Ballot.State} (h : Sim low s g) (d q : Nat) {k k' : Blk} (hk : BlkSim low k k') :
    Sim low (s.setDisk d q k) (g.setDisk d q k') := by
  refine ⟨h.votes, h.log, h.dblock, h.gen, h.pc, ?_, h.above⟩
  intro x
  simp only [Ballot.State.setDisk]
  split
  · exact hk
  · exact h.disk x

theorem sim_vote {low : Nat} {s g : Ballot.State} (h : Sim low s g) (p : Nat) (w1 : List Nat) (k : Blk) (v : Vote)
    (hk : low < k.lver) :
    Sim low { s.setProc p ⟨.write2 0 w1 [], k, (s.proc p).gen⟩ with votes := v :: s.votes }
      { g.setProc p ⟨.write2 0 w1 [], k, (s.proc p).gen⟩ with votes := v :: g.votes } := by
  have h' := sim_setProc h p (pr := ⟨.write2 0 w1 [], k, (s.proc p).gen⟩) (pr' := ⟨.write2 0 w1 [], k, (s.proc p).gen⟩)
    rfl rfl (.write2 _ _ _) (fun _ => hk)
  exact ⟨by simp only [h.votes], h'.log, h'.dblock, h'.gen, h'.pc, h'.disk, h'.above⟩

/-- The block of host `q` is overwritten, when the versions in it are finished. -/
theorem sim_erase {low : Nat} {s g : Ballot.State} (h : Sim low s g) (q : Nat) (k : Blk)
    (ha : ∀ p, (s.proc p).pc ≠ .idle → max k.lver (s.disk 0 q).lver < (s.proc p).dblock.lver) :
    Sim (max low (max k.lver (s.disk 0 q).lver)) (s.setDisk 0 q k) g := by
  refine ⟨h.votes, h.log, h.dblock, h.gen, fun p => (h.pc p).mono (by omega), ?_, ?_⟩
  · intro x
    have hx := h.disk x
    simp only [Ballot.State.setDisk]
    by_cases hxq : x = q
    · subst hxq
      simp only [and_self, if_true]
      right
      rcases hx with hx | hx
      · rw [← hx]; constructor <;> omega
      · constructor <;> omega
    · simp only [hxq, and_false, if_false]
      exact hx.mono (by omega)
  · intro p hp
    have h1 := h.above p hp
    have h2 := ha p hp
    simp only [Ballot.State.setDisk]
    omega

theorem ne_idle_sim {low : Nat} {a b : Pc} (h : PcSim low a b) : a ≠ .idle ↔ b ≠ .idle := by
  cases h <;> simp

/-- A host's own ballot step has the same effect in both, up to buffers and finished blocks. -/
theorem sim_step {c : Cfg} {low : Nat} {s g s' : Ballot.State} {a : Ballot.Act} (hc : c.disks = 1) (h : Sim low s g)
    (hs : Ballot.step c s a = some s')
    (hstart : ∀ p lver mbal gen, a = .start p lver mbal gen → low < lver) :
    ∃ g', Ballot.step c g a = some g' ∧ Sim low s' g' := by
  cases a with
  | start p lver mbal gen =>
    have hl := hstart p lver mbal gen rfl
    have hp := h.pc p
    simp only [Ballot.step] at hs ⊢
    split at hs
    · rename_i hpc
      rw [hpc] at hp
      generalize hp' : (g.proc p).pc = pb at hp ⊢
      cases hp
      split at hs
      · rename_i hlt
        simp only [Option.some.injEq] at hs
        subst hs
        refine ⟨_, by simp [hlt], sim_setProc h p rfl rfl (.write1 _ _) (fun _ => hl)⟩
      · exact absurd hs (by simp)
    · exact absurd hs (by simp)
  | write p res =>
    have hp := h.pc p
    have hab0 := h.above p
    simp only [Ballot.step, ← h.dblock p] at hs ⊢
    generalize hpc : (s.proc p).pc = pa at hp hs hab0
    generalize hp' : (g.proc p).pc = pb at hp ⊢
    cases hp <;> simp only at hs ⊢ <;> try contradiction
    all_goals (
      have hab := hab0 (by simp)
      split at hs
      · rename_i hlt
        cases res <;> simp only [Option.some.injEq] at hs <;> subst hs
        all_goals
          first
          | exact ⟨_, by rw [if_pos hlt], sim_setPc (sim_setDisk h _ _ (.inl rfl)) p (.write1 _ _) (fun _ => hab)⟩
          | exact ⟨_, by rw [if_pos hlt], sim_setPc h p (.write1 _ _) (fun _ => hab)⟩
          | exact ⟨_, by rw [if_pos hlt], sim_setPc (sim_setDisk h _ _ (.inl rfl)) p (.write2 _ _ _) (fun _ => hab)⟩
          | exact ⟨_, by rw [if_pos hlt], sim_setPc h p (.write2 _ _ _) (fun _ => hab)⟩
      · exact absurd hs (by simp))
  | writesDone p =>
    have hp := h.pc p
    have hab0 := h.above p
    simp only [Ballot.step] at hs ⊢
    generalize hpc : (s.proc p).pc = pa at hp hs hab0
    generalize hp' : (g.proc p).pc = pb at hp ⊢
    cases hp <;> simp only at hs ⊢ <;> try contradiction
    all_goals (
      have hab := hab0 (by simp)
      split at hs
      · exact absurd hs (by simp)
      rename_i hlt
      rw [if_neg hlt]
      split at hs <;> rename_i hm <;> simp only [Option.some.injEq] at hs <;> subst hs
      · rw [if_pos hm]
        first
        | exact ⟨_, rfl, sim_setPc h p (.read1 _ _ _ _ _ _ (BufSim.empty _)) (fun _ => hab)⟩
        | exact ⟨_, rfl, sim_setPc h p (.read2 _ _ _ _ _ _ (BufSim.empty _)) (fun _ => hab)⟩
      · rw [if_neg hm]
        exact ⟨_, rfl, sim_idle h p⟩)
  | readSector p q =>
    have hp := h.pc p
    have hab0 := h.above p
    simp only [Ballot.step] at hs ⊢
    generalize hpc : (s.proc p).pc = pa at hp hs hab0
    generalize hp' : (g.proc p).pc = pb at hp ⊢
    cases hp <;> simp only at hs ⊢ <;> try contradiction
    all_goals (
      rename_i hb
      have hab := hab0 (by simp)
      split at hs
      · rename_i hlt
        simp only [Option.some.injEq] at hs
        subst hs
        rw [if_pos hlt]
        obtain rfl : _ = 0 := Nat.lt_one_iff.mp (hc ▸ hlt)
        have hb' : BufSim low (fun x => if x = q then some (s.disk 0 q) else _)
          (fun x => if x = q then some (g.disk 0 q) else _) := fun x => by
            show OptSim low _ _
            by_cases hx : x = q
            · simp only [hx, if_true]; exact h.disk q
            · simp only [hx, if_false]; exact hb x
        first
        | exact ⟨_, rfl, sim_setPc h p (.read1 _ _ _ _ _ _ hb') (fun _ => hab)⟩
        | exact ⟨_, rfl, sim_setPc h p (.read2 _ _ _ _ _ _ hb') (fun _ => hab)⟩
      · exact absurd hs (by simp))
  | readFail p =>
    have hp := h.pc p
    have hab0 := h.above p
    simp only [Ballot.step] at hs ⊢
    generalize hpc : (s.proc p).pc = pa at hp hs hab0
    generalize hp' : (g.proc p).pc = pb at hp ⊢
    cases hp <;> simp only at hs ⊢ <;> try contradiction
    all_goals (
      rename_i hb
      have hab := hab0 (by simp)
      split at hs
      · rename_i hlt
        simp only [Option.some.injEq] at hs
        subst hs
        rw [if_pos hlt]
        first
        | exact ⟨_, rfl, sim_setPc h p (.read1 _ _ _ _ _ _ (BufSim.empty _)) (fun _ => hab)⟩
        | exact ⟨_, rfl, sim_setPc h p (.read2 _ _ _ _ _ _ (BufSim.empty _)) (fun _ => hab)⟩
      · exact absurd hs (by simp))
  | readDone p =>
    have hp := h.pc p
    have hab0 := h.above p
    simp only [Ballot.step, ← h.dblock p] at hs ⊢
    generalize hpc : (s.proc p).pc = pa at hp hs hab0
    generalize hp' : (g.proc p).pc = pb at hp ⊢
    cases hp <;> simp only at hs ⊢ <;> try contradiction
    all_goals (
      rename_i hb
      have hab := hab0 (by simp)
      split at hs
      rotate_left
      · exact absurd hs (by simp)
      rename_i hlt
      rw [if_pos hlt]
      rcases collect_sim hb c.hosts with ⟨h1, h2⟩ | ⟨l, l', h1, h2, h3⟩
      · rw [h1] at hs; exact absurd hs (by simp)
      · rw [h1] at hs
        rw [h2]
        simp only at hs ⊢
        first
        | rw [← phase1Disk_sim hab h3]
        | rw [← phase2Disk_sim hab h3]
        split at hs
        · rename_i e he
          simp only [Option.some.injEq] at hs
          subst hs
          try rw [he]
          exact ⟨_, rfl, sim_idle h p⟩
        · rename_i e he
          simp only [Option.some.injEq] at hs
          subst hs
          try rw [he]
          first
          | exact ⟨_, rfl, sim_setPc h p (.read1 _ _ _ _ _ _ (BufSim.empty _)) (fun _ => hab)⟩
          | exact ⟨_, rfl, sim_setPc h p (.read2 _ _ _ _ _ _ (BufSim.empty _)) (fun _ => hab)⟩)
  | readsDone p now =>
    have hp := h.pc p
    have hab0 := h.above p
    simp only [Ballot.step, ← h.dblock p, ← h.gen p] at hs ⊢
    generalize hpc : (s.proc p).pc = pa at hp hs hab0
    generalize hp' : (g.proc p).pc = pb at hp ⊢
    cases hp <;> simp only at hs ⊢ <;> try contradiction
    all_goals (
      have hab := hab0 (by simp)
      split at hs
      · exact absurd hs (by simp)
      rename_i hlt
      rw [if_neg hlt]
      split at hs <;> rename_i hm <;> simp only [Option.some.injEq] at hs <;> subst hs
      · rw [if_pos hm]
        first
        | exact ⟨_, rfl, sim_setPc h p (.won _ _) (fun _ => hab)⟩
        | exact ⟨_, rfl, sim_vote h p _ _ _ (by simpa only [Ballot.choose_lver] using hab)⟩
      · rw [if_neg hm]
        exact ⟨_, rfl, sim_idle h p⟩)
  | leaderWritten p =>
    have hp := h.pc p
    simp only [Ballot.step, ← h.dblock p] at hs ⊢
    generalize hpc : (s.proc p).pc = pa at hp hs
    generalize hp' : (g.proc p).pc = pb at hp ⊢
    cases hp <;> simp only at hs ⊢ <;> try contradiction
    simp only [Option.some.injEq] at hs
    subst hs
    have h' := sim_idle h p
    exact ⟨_, rfl, ⟨h'.votes, by simp only [h.log], h'.dblock, h'.gen, h'.pc, h'.disk, h'.above⟩⟩
  | quit p =>
    simp only [Ballot.step, Option.some.injEq] at hs ⊢
    subst hs
    exact ⟨_, rfl, sim_idle h p⟩

end Sanlock.Lease
