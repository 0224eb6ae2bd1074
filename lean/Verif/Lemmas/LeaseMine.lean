import Verif.Lemmas.LeaseInv

/-!
# What the hosts guarantee about their blocks and the leader record

A host whose own ballot succeeded has in memory the block that is on disk, and a host that has finished its ballot had not been
overtaken when it began the second read.  With this the assumptions `Allowed` imply those of `Lemmas/LeaseInv.lean`.
-/

namespace Sanlock.Lease

open Sanlock.Ballot (Blk Cfg WriteRes Pc Vote Done)

/-- In the second read of a ballot: the host had not been overtaken when it began to read, or there is a block that tells, and
which has not been read yet or has told. -/
def PcW (c : Cfg) (s : State) (p : Nat) : Pc → Prop
  | .read2 _ _ _ r buf => (s.host p).seen ≤ (s.B.proc p).dblock.lver ∨
      (r = [] ∧ ∃ q, q < c.hosts ∧ (s.B.proc p).dblock.lver < (s.B.disk 0 q).lver ∧
        ∀ k, buf q = some k → (s.B.proc p).dblock.lver < k.lver)
  | .won .. => (s.host p).seen ≤ (s.B.proc p).dblock.lver
  | _ => True

structure W (c : Cfg) (s : State) : Prop where
  log : ∀ e ∈ s.B.log, e.host < c.hosts ∧ (e.blk.lver ≤ (s.B.disk 0 e.host).lver ∨ Quiet c s e.blk.lver)
  pc : ∀ p, PcW c s p (s.B.proc p).pc
  mine : ∀ p, (s.host p).mine = true → (s.host p).db.inp = p + 1 ∧ (∃ e ∈ s.B.log, e.host = p ∧ e.blk = (s.host p).db) ∧
    ((s.B.disk 0 p).lver = (s.host p).db.lver → s.B.disk 0 p = (s.host p).db)
  own : ∀ p, (s.host p).ph.own? ≠ none → (s.host p).mine = true → s.B.disk 0 p = (s.host p).db
  bal : ∀ p m cur mbal, (s.host p).ph = .ballot m cur mbal → (s.host p).balloted = true

theorem w_init (c : Cfg) : W c init := by
  constructor <;> simp [init, Ballot.init, PcW]

/-- One step, as far as `W` is concerned. -/
structure WStep (c : Cfg) (s s' : State) : Prop where
  quiet : ∀ v, Quiet c s v → Quiet c s' v
  logm : ∀ e ∈ s.B.log, e ∈ s'.B.log
  log : ∀ e ∈ s'.B.log, e ∈ s.B.log ∨ (e.host < c.hosts ∧ e.blk.lver ≤ (s'.B.disk 0 e.host).lver)
  disk : ∀ q, (s.B.disk 0 q).lver ≤ (s'.B.disk 0 q).lver ∨ Quiet c s (s.B.disk 0 q).lver
  pc : ∀ p, (s'.B.proc p = s.B.proc p ∧ (s'.host p).seen = (s.host p).seen) ∨ PcW c s' p (s'.B.proc p).pc
  mine : ∀ p, (s'.host p).mine = true →
    ((s.host p).mine = true ∧ (s'.host p).db = (s.host p).db ∧
      (s'.B.disk 0 p = s.B.disk 0 p ∨ s'.B.disk 0 p = (s.host p).db ∨ (s'.B.disk 0 p).lver ≠ (s.host p).db.lver)) ∨
    ((s'.host p).db.inp = p + 1 ∧ (∃ e ∈ s'.B.log, e.host = p ∧ e.blk = (s'.host p).db) ∧ s'.B.disk 0 p = (s'.host p).db)
  own : ∀ p, (s'.host p).ph.own? ≠ none → (s'.host p).mine = true →
    ((s.host p).ph.own? ≠ none ∧ (s.host p).mine = true ∧ (s'.host p).db = (s.host p).db ∧
      (s'.B.disk 0 p = s.B.disk 0 p ∨ s'.B.disk 0 p = (s.host p).db)) ∨ s'.B.disk 0 p = (s'.host p).db
  bal : ∀ p m cur mbal, (s'.host p).ph = .ballot m cur mbal → (s'.host p).balloted = true

theorem w_of_step {c : Cfg} {s s' : State} {low : Nat} (h : Inv c s low) (w : W c s) (t : WStep c s s') : W c s' := by
  refine ⟨?_, ?_, ?_, ?_, t.bal⟩
  · intro e he
    rcases t.log e he with h1 | h1
    · obtain ⟨h2, h3⟩ := w.log e h1
      refine ⟨h2, ?_⟩
      rcases h3 with h3 | h3
      · rcases t.disk e.host with h4 | h4
        · left; omega
        · right
          refine t.quiet _ ⟨by have := h4.1; omega, fun x hx cur hcur => ?_⟩
          have := h4.2 x hx cur hcur; omega
      · exact .inr (t.quiet _ h3)
    · exact ⟨h1.1, .inl h1.2⟩
  · intro p
    rcases t.pc p with ⟨h1, h2⟩ | h1
    · have hp := w.pc p
      rw [h1]
      have hact := fun v hq => quiet_active h (v := v) hq p
      generalize hx : (s.B.proc p).pc = pc at hp hact ⊢
      cases pc with
      | read2 d w1 w r buf =>
        simp only [PcW, h1, h2] at hp ⊢
        rcases hp with hp | ⟨hr, q, hq, h3, h4⟩
        · exact .inl hp
        · right
          refine ⟨hr, q, hq, ?_, h4⟩
          rcases t.disk q with h5 | h5
          · omega
          · have := hact _ h5 (by simp); omega
      | won w1 w =>
        simp only [PcW, h1, h2] at hp ⊢
        exact hp
      | _ => trivial
    · exact h1
  · intro p hm
    rcases t.mine p hm with ⟨h1, h2, h3⟩ | h1
    · obtain ⟨w1, ⟨e, he, w2⟩, w3⟩ := w.mine p h1
      rw [h2]
      refine ⟨w1, ⟨e, t.logm e he, w2⟩, ?_⟩
      rcases h3 with h3 | h3 | h3
      · rw [h3]; exact w3
      · intro _; exact h3
      · intro h4; exact absurd h4 h3
    · exact ⟨h1.1, h1.2.1, fun _ => h1.2.2⟩
  · intro p ho hm
    rcases t.own p ho hm with ⟨h1, h2, h3, h4⟩ | h1
    · rw [h3]
      rcases h4 with h4 | h4
      · rw [h4]; exact w.own p h1 h2
      · exact h4
    · exact h1

/-- Records that acquires in progress are based on stay, go, or are read from disk; the version on disk does not go back. -/
theorem quiet_of {c : Cfg} {s s' : State} (hl : s.ldr.lver ≤ s'.ldr.lver)
    (hcur : ∀ x cur, (s'.host x).ph.cur? = some cur → (s.host x).ph.cur? = some cur ∨ cur = s.ldr) (v : Nat) (h : Quiet c s v) :
    Quiet c s' v := by
  refine ⟨Nat.le_trans h.1 hl, fun x hx cur hc => ?_⟩
  rcases hcur x cur hc with h1 | h1
  · exact h.2 x hx cur h1
  · rw [h1]; exact h.1

/-- A step that only concerns what host `p` does. -/
theorem ws_setHost {c : Cfg} {s : State} {p : Nat} {h' : Host} (w : W c s)
    (hcur : ∀ cur, h'.ph.cur? = some cur → (s.host p).ph.cur? = some cur ∨ cur = s.ldr)
    (hseen : h'.seen = (s.host p).seen)
    (hmine : h'.mine = true → (s.host p).mine = true ∧ h'.db = (s.host p).db ∧ (h'.ph.own? ≠ none → (s.host p).ph.own? ≠ none))
    (hbal : ∀ m cur mbal, h'.ph = .ballot m cur mbal → h'.balloted = true) : WStep c s (s.setHost p h') := by
  have e : ∀ q, (s.setHost p h').host q = if q = p then h' else s.host q := fun q => rfl
  constructor
  · refine quiet_of (Nat.le_refl _) ?_
    intro x cur hx
    rw [e] at hx
    split at hx
    · rename_i hxp; subst hxp; exact hcur cur hx
    · exact .inl hx
  · exact fun _ h => h
  · exact fun _ h => .inl h
  · exact fun _ => .inl (Nat.le_refl _)
  · intro q
    left
    refine ⟨rfl, ?_⟩
    rw [e]; split
    · rename_i hq; subst hq; exact hseen
    · rfl
  · intro q hm
    left
    rw [e] at hm ⊢
    split at hm
    · rename_i hq
      subst hq
      obtain ⟨h1, h2, _⟩ := hmine hm
      simp only [if_true]
      exact ⟨h1, h2, .inl rfl⟩
    · rename_i hq
      simp only [hq, if_false]
      exact ⟨hm, trivial, .inl rfl⟩
  · intro q ho hm
    left
    rw [e] at hm ho ⊢
    split at hm
    · rename_i hq
      subst hq
      simp only [if_true] at ho ⊢
      obtain ⟨h1, h2, h3⟩ := hmine hm
      exact ⟨h3 ho, h1, h2, .inl rfl⟩
    · rename_i hq
      simp only [hq, if_false] at ho ⊢
      exact ⟨ho, hm, trivial, .inl rfl⟩
  · intro q m cur mbal hq
    rw [e] at hq ⊢
    by_cases hqp : q = p
    · simp only [hqp, if_true] at hq ⊢; exact hbal m cur mbal hq
    · simp only [hqp, if_false] at hq ⊢; exact w.bal q m cur mbal hq

theorem ws_setPh {c : Cfg} {s : State} {p : Nat} {ph : Ph} (w : W c s)
    (hcur : ∀ cur, ph.cur? = some cur → (s.host p).ph.cur? = some cur ∨ cur = s.ldr)
    (hown : ph.own? ≠ none → (s.host p).ph.own? ≠ none)
    (hbal : ∀ m cur mbal, ph ≠ .ballot m cur mbal) : WStep c s (s.setPh p ph) :=
  ws_setHost w hcur rfl (fun h => ⟨h, rfl, hown⟩) (fun m cur mbal h => absurd h (hbal m cur mbal))

/-- The ballot of host `p` ends. -/
theorem ws_setPc {c : Cfg} {s : State} {p : Nat} (w : W c s) : WStep c s { s with B := s.B.setPc p .idle } := by
  refine ⟨fun _ h => h, fun _ h => h, fun _ h => .inl h, fun _ => .inl (Nat.le_refl _), ?_, fun q h => .inl ⟨h, rfl, .inl rfl⟩,
    fun q h1 h2 => .inl ⟨h1, h2, rfl, .inl rfl⟩, w.bal⟩
  intro q
  by_cases hq : q = p
  · right; subst hq; simp [PcW]
  · left; simp [Ballot.State.setPc, Ballot.State.setProc, hq]

/-- A host writes its own block. -/
theorem ws_ownWrite {c : Cfg} {s : State} {p v : Nat} {fl : Bool} {mk : Option Nat} {w : Wr} {ph : Ph} (hw : W c s)
    (hgood : GoodBlk c s p) (hcur : ph.cur? = none) (hown : ph.own? ≠ none → (s.host p).ph.own? ≠ none)
    (hbal : ∀ m cur mbal, ph ≠ .ballot m cur mbal) :
    WStep c s (ownWrite s p v fl mk w ph) := by
  obtain ⟨P, h1, h2, h3, h4, _⟩ := own_put (s := s) (p := p) (v := v) (fl := fl) (mk := mk) (w := w) (ph := ph) hgood.1
  have eh : ∀ q, ((ownWrite s p v fl mk w ph).host q).seen = (s.host q).seen ∧
      ((ownWrite s p v fl mk w ph).host q).mine = (s.host q).mine ∧ ((ownWrite s p v fl mk w ph).host q).db = (s.host q).db ∧
      ((ownWrite s p v fl mk w ph).host q).balloted = (s.host q).balloted := by
    intro q
    by_cases hq : q = p
    · subst hq
      simp only [ownWrite, State.putOwn, State.raise, setHost_host, if_true]
      cases lands w.res <;> (repeat' split) <;> simp [State.setPh, State.setHost, State.putBlk]
    · rw [h3 q hq]; simp
  have hd : ∀ q, (ownWrite s p v fl mk w ph).B.disk 0 q = s.B.disk 0 q ∨
      (q = p ∧ (ownWrite s p v fl mk w ph).B.disk 0 q = (s.host q).db) := by
    intro q
    by_cases hq : q = p
    · subst hq
      rw [P.blk]
      cases lands w.res
      · exact .inl rfl
      · exact .inr ⟨rfl, rfl⟩
    · exact .inl (P.disk q hq)
  constructor
  · refine quiet_of (by rw [P.ldr]; exact Nat.le_refl _) ?_
    intro x cur hx
    by_cases hxp : x = p
    · subst hxp; rw [h2, hcur] at hx; simp at hx
    · rw [h3 x hxp] at hx; exact .inl hx
  · rw [P.log]; exact fun _ h => h
  · rw [P.log]; exact fun _ h => .inl h
  · intro q
    rcases hd q with h5 | ⟨h5, h6⟩
    · rw [h5]; exact .inl (Nat.le_refl _)
    · subst h5
      rw [h6]
      rcases hgood.2 with h7 | h7
      · left; rw [h7]; exact Nat.le_refl _
      · right
        exact ⟨by have := h7.1; omega, fun x hx cur hc => by have := h7.2 x hx cur hc; omega⟩
  · intro q; left; exact ⟨by rw [P.proc], (eh q).1⟩
  · intro q hm
    left
    rw [(eh q).2.1] at hm
    refine ⟨hm, (eh q).2.2.1, ?_⟩
    rcases hd q with h5 | ⟨_, h5⟩
    · exact .inl h5
    · exact .inr (.inl h5)
  · intro q ho hm
    left
    rw [(eh q).2.1] at hm
    refine ⟨?_, hm, (eh q).2.2.1, ?_⟩
    · by_cases hq : q = p
      · subst hq; rw [h2] at ho; exact hown ho
      · rw [h3 q hq] at ho; exact ho
    · rcases hd q with h5 | ⟨_, h5⟩
      · exact .inl h5
      · exact .inr h5
  · intro q m cur mbal hq
    by_cases hqp : q = p
    · subst hqp; rw [h2] at hq; exact absurd hq (hbal m cur mbal)
    · rw [h3 q hqp] at hq ⊢; exact hw.bal q m cur mbal hq

theorem effects_mine (c : Cfg) (s : State) (m : Mode) (p : Nat) (a : Ballot.Act) (B' : Ballot.State) (q : Nat) :
    ((effects c s m p a B').host q).mine = (s.host q).mine ∧ ((effects c s m p a B').host q).db = (s.host q).db ∧
    ((effects c s m p a B').host q).balloted = (s.host q).balloted ∧ ((effects c s m p a B').host q).ph = (s.host q).ph := by
  by_cases hq : q = p
  · subst hq
    unfold effects
    (repeat' split) <;> simp [setHost_host]
  · rw [(effects_other c s m p a B' q hq).1]; simp

theorem collect_mem {n q : Nat} {buf : Nat → Option Blk} {l : List Blk} (h : Ballot.collect n buf = some l) (hq : q < n) :
    ∃ k, buf q = some k ∧ k ∈ l := by
  unfold Ballot.collect at h
  have : ∀ (r : List Nat) (l : List Blk), r.mapM buf = some l → q ∈ r → ∃ k, buf q = some k ∧ k ∈ l := by
    intro r
    induction r with
    | nil => simp
    | cons x xs ih =>
      intro l hl hm
      rw [List.mapM_cons] at hl
      simp only [Option.bind_eq_bind, Option.bind_eq_some_iff, Option.pure_def, Option.some.injEq] at hl
      obtain ⟨k, hk, l', hl', rfl⟩ := hl
      rcases List.mem_cons.1 hm with rfl | hm
      · exact ⟨k, hk, by simp⟩
      · obtain ⟨k', h1, h2⟩ := ih l' hl' hm
        exact ⟨k', h1, by simp [h2]⟩
  exact this _ l h (by simpa using hq)

/-- A block of a later version stops the second phase. -/
theorem phase2Disk_lver {d : Blk} {l : List Blk} (h : Ballot.phase2Disk d l = .ok ()) : ∀ k ∈ l, k.lver ≤ d.lver := by
  induction l with
  | nil => simp
  | cons x xs ih =>
    simp only [Ballot.phase2Disk] at h
    split at h
    · simp at h
    · rename_i h1
      intro k hk
      rcases List.mem_cons.1 hk with rfl | hk
      · simp only [Ballot.phase2Blk] at h1
        (repeat' split at h1) <;> first | omega | simp at h1
      · exact ih h k hk

/-- A ballot step of host `p`. -/
theorem pcW_bal {c : Cfg} {s : State} {low p : Nat} {m : Mode} {cur : Rec} {mbal : Nat} {a : Ballot.Act} {B' : Ballot.State}
    (hd : c.disks = 1) (h : Inv c s low) (w : W c s) (hph : (s.host p).ph = .ballot m cur mbal) (ha : balHost a = some p)
    (hs : Ballot.step c s.B a = some B') :
    PcW c (effects c s m p a B') p ((effects c s m p a B').B.proc p).pc := by
  have hp := w.pc p
  have hB := effects_B c s m p a B'
  have hm1 : Ballot.majority c.disks ([] : List Nat).length = true → False := by
    intro h1; have := Ballot.majority_gt h1; simp at this
  have hpr : ∀ (B : Ballot.State) pc, ((B.setPc p pc).proc p) = { B.proc p with pc := pc } := by
    intro B pc; simp [Ballot.State.setPc, Ballot.State.setProc]
  cases a with
  | start => simp [balHost] at ha
  | leaderWritten => simp [balHost] at ha
  | quit => simp [balHost] at ha
  | write p' res =>
    simp only [balHost, Option.some.injEq] at ha
    subst ha
    rw [hB]
    simp only [Ballot.step] at hs
    repeat' split at hs
    all_goals first
      | (simp at hs; done)
      | (simp only [Option.some.injEq] at hs; subst hs; rw [hpr]; trivial)
  | writesDone p' =>
    simp only [balHost, Option.some.injEq] at ha
    subst ha
    simp only [Ballot.step] at hs
    split at hs
    · split at hs
      · simp at hs
      · split at hs <;> simp only [Option.some.injEq] at hs <;> subst hs <;> rw [hB, hpr] <;> trivial
    · rename_i d w1 ws hpc
      split at hs
      · simp at hs
      · split at hs
        · simp only [Option.some.injEq] at hs
          subst hs
          rw [hB, hpr]
          have e1 : ((effects c s m p' (.writesDone p') (s.B.setPc p' (.read2 0 w1 ws [] Ballot.emptyBuf))).host p').seen = s.ldr.lver := by
            simp [effects, setHost_host]
          simp only [PcW, e1, hB, hpr]
          by_cases hle : s.ldr.lver ≤ (s.B.proc p').dblock.lver
          · exact .inl hle
          · right
            refine ⟨trivial, ?_⟩
            rcases h.glob.ldrOk with h1 | ⟨e, he, h1, _⟩
            · omega
            · obtain ⟨h2, h3⟩ := w.log e he
              rcases h3 with h3 | h3
              · refine ⟨e.host, h2, ?_, by simp [Ballot.emptyBuf]⟩
                show _ < (s.B.disk 0 e.host).lver
                omega
              · have := quiet_active h h3 p' (by simp [hpc])
                omega
        · simp only [Option.some.injEq] at hs
          subst hs; rw [hB, hpr]; trivial
    · simp at hs
  | readSector p' q =>
    simp only [balHost, Option.some.injEq] at ha
    subst ha
    simp only [Ballot.step] at hs
    split at hs
    · split at hs <;> simp at hs; subst hs; rw [hB, hpr]; trivial
    · rename_i d w1 ws r buf hpc
      rw [hpc] at hp
      split at hs
      · rename_i hdd
        simp only [Option.some.injEq] at hs
        subst hs
        rw [hB, hpr]
        have e1 : ∀ B', ((effects c s m p' (.readSector p' q) B').host p').seen = (s.host p').seen := by
          intro B'; simp [effects, setHost_host]
        simp only [PcW, e1, hB, hpr] at hp ⊢
        rcases hp with hp | ⟨h1, x, h2, h3, h4⟩
        · exact .inl hp
        · refine .inr ⟨h1, x, h2, h3, ?_⟩
          intro k hk
          split at hk
          · rename_i hx
            obtain rfl : d = 0 := by omega
            simp only [Option.some.injEq] at hk
            subst hx; rw [← hk]; exact h3
          · exact h4 k hk
      · simp at hs
    · simp at hs
  | readFail p' =>
    simp only [balHost, Option.some.injEq] at ha
    subst ha
    simp only [Ballot.step] at hs
    split at hs
    · split at hs <;> simp at hs; subst hs; rw [hB, hpr]; trivial
    · rename_i d w1 ws r buf hpc
      rw [hpc] at hp
      split at hs
      · simp only [Option.some.injEq] at hs
        subst hs
        rw [hB, hpr]
        simp only [PcW, hB, hpr, effects] at hp ⊢
        rcases hp with hp | ⟨h1, x, h2, h3, h4⟩
        · exact .inl hp
        · exact .inr ⟨h1, x, h2, h3, by simp [Ballot.emptyBuf]⟩
      · simp at hs
    · simp at hs
  | readDone p' =>
    simp only [balHost, Option.some.injEq] at ha
    subst ha
    simp only [Ballot.step] at hs
    split at hs
    · repeat' split at hs
      all_goals first
        | (simp at hs; done)
        | (simp only [Option.some.injEq] at hs; subst hs; rw [hB, hpr]; trivial)
    · rename_i d w1 ws r buf hpc
      rw [hpc] at hp
      split at hs
      · split at hs
        · simp at hs
        · rename_i l hl
          split at hs
          · simp only [Option.some.injEq] at hs
            subst hs; rw [hB, hpr]; trivial
          · rename_i hok
            simp only [Option.some.injEq] at hs
            subst hs
            rw [hB, hpr]
            have e1 : ∀ B', ((effects c s m p' (.readDone p') B').host p').seen = (s.host p').seen := by
              intro B'; simp [effects, hpc]
            simp only [PcW, e1, hB, hpr] at hp ⊢
            rcases hp with hp | ⟨h1, x, h2, h3, h4⟩
            · exact .inl hp
            · obtain ⟨k, hk, hkl⟩ := collect_mem hl h2
              have h5 := phase2Disk_lver hok k hkl
              have h6 := h4 k hk
              omega
      · simp at hs
    · simp at hs
  | readsDone p' now =>
    simp only [balHost, Option.some.injEq] at ha
    subst ha
    simp only [Ballot.step] at hs
    split at hs
    · split at hs
      · simp at hs
      · split at hs
        · simp only [Option.some.injEq] at hs
          subst hs; rw [hB]; simp [Ballot.State.setProc, PcW]
        · simp only [Option.some.injEq] at hs
          subst hs; rw [hB, hpr]; trivial
    · rename_i d w1 ws r buf hpc
      rw [hpc] at hp
      split at hs
      · simp at hs
      · split at hs
        · rename_i hmaj
          simp only [Option.some.injEq] at hs
          subst hs
          rw [hB, hpr]
          simp only [PcW, hB, hpr, effects] at hp ⊢
          rcases hp with hp | ⟨h1, _⟩
          · exact hp
          · subst h1; exact absurd hmaj hm1
        · simp only [Option.some.injEq] at hs
          subst hs; rw [hB, hpr]; trivial
    · simp at hs

theorem ws_bal {c : Cfg} {s : State} {low p : Nat} {m : Mode} {cur : Rec} {mbal : Nat} {a : Ballot.Act} {B' : Ballot.State}
    (hd : c.disks = 1) (h : Inv c s low) (w : W c s) (hph : (s.host p).ph = .ballot m cur mbal) (ha : balHost a = some p)
    (hs : Ballot.step c s.B a = some B') : WStep c s (effects c s m p a B') := by
  have S := bstep_of_step hd ha hs
  have hB := effects_B c s m p a B'
  have M := effects_mine c s m p a B'
  have hp := (h.host p).ph
  rw [hph] at hp
  obtain ⟨hcur, _, _, _, hpc⟩ := hp
  obtain ⟨hl, _⟩ := hpc S.active
  constructor
  · refine quiet_of (by rw [effects_ldr]; exact Nat.le_refl _) ?_
    intro x cur' hx
    rw [(M x).2.2.2] at hx
    exact .inl hx
  · rw [hB, S.log]; exact fun _ h => h
  · rw [hB, S.log]; exact fun _ h => .inl h
  · intro q
    left
    rw [hB]
    by_cases hq : q = p
    · subst hq
      rcases S.own with h1 | h1
      · rw [h1]; exact Nat.le_refl _
      · rw [h1, hl]; exact hcur.disk
    · rw [S.disk q hq]; exact Nat.le_refl _
  · intro q
    by_cases hq : q = p
    · subst hq
      exact .inr (pcW_bal hd h w hph ha hs)
    · left
      rw [hB, S.proc q hq, (effects_other c s m p a B' q hq).1]
      exact ⟨rfl, rfl⟩
  · intro q hm
    left
    rw [(M q).1] at hm
    refine ⟨hm, (M q).2.1, ?_⟩
    rw [hB]
    by_cases hq : q = p
    · subst hq
      rcases S.own with h1 | h1
      · exact .inl h1
      · right; right
        obtain ⟨_, ⟨e, he, he1, he2⟩, _⟩ := w.mine q hm
        have := hcur.log e he he1
        rw [h1, hl, ← he2]; omega
    · exact .inl (S.disk q hq)
  · intro q ho hm
    rw [(M q).1] at hm
    rw [(M q).2.2.2] at ho
    left
    refine ⟨ho, hm, (M q).2.1, .inl ?_⟩
    rw [hB]
    by_cases hq : q = p
    · subst hq; rw [hph] at ho; simp [Ph.own?] at ho
    · exact S.disk q hq
  · intro q m' cur' mbal' hq
    rw [(M q).2.2.2] at hq
    rw [(M q).2.2.1]; exact w.bal q m' cur' mbal' hq

theorem w_setHost {c : Cfg} {s : State} {low p : Nat} {h' : Host} (h : Inv c s low) (w : W c s)
    (hcur : ∀ cur, h'.ph.cur? = some cur → (s.host p).ph.cur? = some cur ∨ cur = s.ldr)
    (hseen : h'.seen = (s.host p).seen)
    (hmine : h'.mine = true → (s.host p).mine = true ∧ h'.db = (s.host p).db ∧ (h'.ph.own? ≠ none → (s.host p).ph.own? ≠ none))
    (hbal : ∀ m cur mbal, h'.ph = .ballot m cur mbal → h'.balloted = true) : W c (s.setHost p h') :=
  w_of_step h w (ws_setHost w hcur hseen hmine hbal)

theorem w_setPh {c : Cfg} {s : State} {low p : Nat} {ph : Ph} (h : Inv c s low) (w : W c s)
    (hcur : ∀ cur, ph.cur? = some cur → (s.host p).ph.cur? = some cur ∨ cur = s.ldr)
    (hown : ph.own? ≠ none → (s.host p).ph.own? ≠ none)
    (hbal : ∀ m cur mbal, ph ≠ .ballot m cur mbal) : W c (s.setPh p ph) :=
  w_of_step h w (ws_setPh w hcur hown hbal)

/-- To a phase in which the host neither acquires nor owns. -/
theorem w_quiet {c : Cfg} {s : State} {low p : Nat} {ph : Ph} (h : Inv c s low) (w : W c s) (hcur : ph.cur? = none)
    (hown : ph.own? = none) : W c (s.setPh p ph) :=
  w_setPh h w (by simp [hcur]) (by simp [hown]) (by intro m cur mbal he; subst he; simp [Ph.cur?] at hcur)

theorem w_setPc {c : Cfg} {s : State} {low : Nat} (h : Inv c s low) (w : W c s) (p : Nat) : W c { s with B := s.B.setPc p .idle } :=
  w_of_step h w (ws_setPc w)

theorem raise_setPh (s : State) (p v : Nat) (ph : Ph) :
    (s.raise p v).setPh p ph = s.setHost p { s.host p with relv := max (s.host p).relv v, ph := ph } := by
  simp only [State.raise, State.setPh, State.setHost]
  have : upd (upd s.host p { s.host p with relv := max (s.host p).relv v }) p
      { upd s.host p { s.host p with relv := max (s.host p).relv v } p with ph := ph } =
      upd s.host p { s.host p with relv := max (s.host p).relv v, ph := ph } := by
    funext q
    simp only [upd_apply]
    split <;> simp
  rw [this]

theorem w_start {c : Cfg} {s : State} {low p : Nat} {m : Mode} {cur : Rec} {mbal lver gen : Nat} {copy : Bool} {B' : Ballot.State}
    (h : Inv c s low) (w : W c s) (hph : (s.host p).ph = .run m cur mbal copy)
    (hs : Ballot.step c s.B (.start p lver mbal gen) = some B') :
    W c ({ s with B := B' }.setHost p { s.host p with ph := .ballot m cur mbal, balloted := true }) := by
  simp only [Ballot.step] at hs
  split at hs
  · split at hs
    · simp only [Option.some.injEq] at hs
      subst hs
      refine w_of_step h w ?_
      constructor
      · refine quiet_of (Nat.le_refl _) ?_
        intro x cur' hx
        simp only [setHost_host] at hx
        split at hx
        · rename_i hxp; subst hxp; rw [hph]; exact .inl hx
        · exact .inl hx
      · exact fun _ h => h
      · exact fun _ h => .inl h
      · exact fun _ => .inl (Nat.le_refl _)
      · intro q
        by_cases hq : q = p
        · subst hq; right
          simp [State.setHost, Ballot.State.setProc, PcW]
        · left; simp [State.setHost, Ballot.State.setProc, upd_apply, hq]
      · intro q hm
        left
        by_cases hq : q = p
        · subst hq
          simp only [setHost_host, if_true] at hm ⊢
          exact ⟨hm, trivial, .inl rfl⟩
        · simp only [setHost_host, hq, if_false] at hm ⊢
          exact ⟨hm, trivial, .inl rfl⟩
      · intro q ho hm
        left
        by_cases hq : q = p
        · subst hq
          simp [setHost_host, Ph.own?] at ho
        · simp only [setHost_host, hq, if_false] at hm ho ⊢
          exact ⟨ho, hm, trivial, .inl rfl⟩
      · intro q m' cur' mbal' hq
        by_cases hqp : q = p
        · subst hqp; simp [setHost_host]
        · simp only [setHost_host, hqp, if_false] at hq ⊢
          exact w.bal q m' cur' mbal' hq
    · simp at hs
  · simp at hs

/-- The leader record reaches the disk. -/
theorem w_commit {c : Cfg} {s : State} {low p : Nat} {m : Mode} {cur l : Rec} {mbal : Nat} {w1 w : List Nat} {h' : Host}
    (hc : c.hosts ≤ c.maxHosts) (hd : c.disks = 1) (h : Inv c s low) (hw : W c s) (hph : (s.host p).ph = .ballot m cur mbal)
    (hpc : (s.B.proc p).pc = .won w1 w) (hle : s.ldr.lver ≤ (s.B.proc p).dblock.lver) (hl : l.lver = (s.B.proc p).dblock.lver)
    (hcur : h'.ph.cur? = none)
    (hown : h'.ph.own? ≠ none → h'.mine = true → h'.db = (s.B.proc p).dblock)
    (hmine : h'.mine = true → ((s.host p).mine = true ∧ h'.db = (s.host p).db) ∨
      (h'.db = (s.B.proc p).dblock ∧ h'.db.inp = p + 1)) :
    W c ({ s with ldr := l, B := { s.B.setPc p .idle with log := ⟨p, (s.B.proc p).dblock, w⟩ :: s.B.log } }.setHost p h') := by
  obtain ⟨g, hg, hsim⟩ := h.glob.sim
  have hdisk := (bf_of_sim hc hd hg hsim).onDisk2 p w1 w hpc
  have hal := (h.host p).alive (by simp [hph])
  refine w_of_step h hw ?_
  constructor
  · refine quiet_of (by show _ ≤ l.lver; omega) ?_
    intro x cur' hx
    simp only [setHost_host] at hx
    split at hx
    · rw [hcur] at hx; simp at hx
    · exact .inl hx
  · intro e he; exact List.mem_cons_of_mem _ he
  · intro e he
    rcases List.mem_cons.1 he with rfl | he
    · right
      refine ⟨hal.2, ?_⟩
      show _ ≤ (s.B.disk 0 p).lver
      rw [hdisk]; exact Nat.le_refl _
    · exact .inl he
  · exact fun _ => .inl (Nat.le_refl _)
  · intro q
    by_cases hq : q = p
    · subst hq; right
      simp [State.setHost, Ballot.State.setPc, Ballot.State.setProc, PcW]
    · left; simp [State.setHost, Ballot.State.setPc, Ballot.State.setProc, upd_apply, hq]
  · intro q hm
    by_cases hq : q = p
    · subst hq
      simp only [setHost_host, if_true] at hm ⊢
      rcases hmine hm with h1 | h1
      · exact .inl ⟨h1.1, h1.2, .inl rfl⟩
      · refine .inr ⟨h1.2, ⟨_, List.mem_cons_self, rfl, h1.1.symm⟩, ?_⟩
        rw [h1.1]; exact hdisk
    · left
      simp only [setHost_host, hq, if_false] at hm ⊢
      exact ⟨hm, trivial, .inl rfl⟩
  · intro q ho hm
    by_cases hq : q = p
    · subst hq
      simp only [setHost_host, if_true] at ho hm ⊢
      right; rw [hown ho hm]; exact hdisk
    · left
      simp only [setHost_host, hq, if_false] at hm ho ⊢
      exact ⟨ho, hm, trivial, .inl rfl⟩
  · intro q m' cur' mbal' hq
    by_cases hqp : q = p
    · subst hqp
      simp only [setHost_host, if_true] at hq
      rw [hq] at hcur; simp [Ph.cur?] at hcur
    · simp only [setHost_host, hqp, if_false] at hq ⊢
      exact hw.bal q m' cur' mbal' hq

theorem w_commitStep {c : Cfg} {s s' : State} {low p : Nat} {res : WriteRes} {now : Nat} (hc : c.hosts ≤ c.maxHosts)
    (hd : c.disks = 1) (h : Inv c s low) (w : W c s) (ha : Allowed0 c s (.commit p res now))
    (hs : step c s (.commit p res now) = some s') : W c s' := by
  simp only [step] at hs
  split at hs
  · rename_i m cur mbal w1 ws hph hpc
    obtain ⟨ha1, ha2⟩ := ha
    have hb := w.bal p m cur mbal hph
    split at hs
    · rename_i hres
      have hl : lands res = true := by rw [hres]; rfl
      simp only [hl, if_true] at hs
      split at hs
      · simp only [Option.some.injEq] at hs
        subst hs
        exact w_commit hc hd h w hph hpc (ha1 hl) rfl rfl (by simp [Ph.own?]) (fun hm => .inl ⟨hm, rfl⟩)
      · rename_i ho
        simp only [newLeader, ne_eq, Decidable.not_not] at ho
        simp only [Option.some.injEq] at hs
        subst hs
        refine w_commit hc hd h w hph hpc (ha1 hl) rfl rfl (fun _ _ => ?_) (fun _ => .inr ⟨?_, ?_⟩)
        · simp [localBlk, hb, Ballot.State.setPc, Ballot.State.setProc]
        · simp [localBlk, hb, Ballot.State.setPc, Ballot.State.setProc]
        · simpa [localBlk, hb, Ballot.State.setPc, Ballot.State.setProc] using ho
    · simp only [Option.some.injEq] at hs
      subst hs
      cases hl : lands res
      · simp only [Bool.false_eq_true, if_false]
        refine w_quiet (inv_setPc h p) (w_setPc h w p) ?_ ?_ <;> cases m <;> rfl
      · simp only [if_true]
        refine w_commit hc hd h w hph hpc (ha1 hl) rfl ?_ ?_ (fun hm => .inl ⟨hm, rfl⟩)
        · cases m <;> rfl
        · cases m <;> simp [Ph.own?]
  · simp at hs

theorem w_relWrite {c : Cfg} {s s' : State} {low p : Nat} {res : WriteRes} {now : Nat} (h : Inv c s low) (w : W c s)
    (ha : Allowed0 c s (.relWrite p res now)) (hs : step c s (.relWrite p res now) = some s') : W c s' := by
  simp only [step] at hs
  split at hs
  · rename_i l k hph
    simp only [Option.some.injEq] at hs
    subst hs
    have hst : lands res = true → s.ldr.lver ≤ l.lver := by
      intro hl
      cases k <;> simp only [Allowed0, hph] at ha <;> first | exact ha hl | exact ha.1
    have hq : ∀ ph : Ph, ph = (if res = .ok then relDone k else relRetry l k) → ph.cur? = none ∧ ph.own? = none := by
      intro ph he
      subst he
      split <;> cases k <;> simp [relDone, relRetry, Ph.cur?, Ph.own?]
    obtain ⟨h1, h2⟩ := hq _ rfl
    cases hl : lands res
    · simp only [Bool.false_eq_true, if_false]
      exact w_quiet h w h1 h2
    · simp only [if_true]
      have hle := hst hl
      generalize (if res = .ok then relDone k else relRetry l k) = ph at h1 h2
      refine w_of_step h w ?_
      constructor
      · refine quiet_of hle ?_
        intro x cur' hx
        simp only [State.setPh, setHost_host] at hx
        split at hx
        · simp only [h1] at hx; simp at hx
        · exact .inl hx
      · exact fun _ h => h
      · exact fun _ h => .inl h
      · exact fun _ => .inl (Nat.le_refl _)
      · intro q
        left
        by_cases hq : q = p
        · subst hq; simp [State.setPh, State.setHost]
        · simp [State.setPh, State.setHost, upd_apply, hq]
      · intro q hm
        left
        by_cases hq : q = p
        · subst hq; simp only [State.setPh, setHost_host, if_true] at hm ⊢; exact ⟨hm, trivial, .inl rfl⟩
        · simp only [State.setPh, setHost_host, hq, if_false] at hm ⊢; exact ⟨hm, trivial, .inl rfl⟩
      · intro q ho hm
        left
        by_cases hq : q = p
        · subst hq; simp only [State.setPh, setHost_host, if_true] at ho; exact absurd h2 ho
        · simp only [State.setPh, setHost_host, hq, if_false] at ho hm ⊢; exact ⟨ho, hm, trivial, .inl rfl⟩
      · intro q m' cur' mbal' hq
        by_cases hqp : q = p
        · subst hqp
          simp only [State.setPh, setHost_host, if_true] at hq
          rw [hq] at h1; simp [Ph.cur?] at h1
        · simp only [State.setPh, setHost_host, hqp, if_false] at hq ⊢
          exact w.bal q m' cur' mbal' hq
  · simp at hs

theorem w_clearWrite {c : Cfg} {s s' : State} {low p : Nat} {res : WriteRes} (h : Inv c s low) (w : W c s)
    (ha : Allowed0 c s (.clearWrite p res)) (hs : step c s (.clearWrite p res) = some s') : W c s' := by
  simp only [step] at hs
  split at hs
  · rename_i m l i live hph
    have hp := (h.host p).ph
    rw [hph] at hp
    obtain ⟨hown, hip⟩ := hp
    simp only [Allowed0, hph] at ha
    simp only [Option.some.injEq] at hs
    subst hs
    have hq : ∀ ph : Ph, ph = (if res = .ok then .clear m l (i + 1) live else clearFail m l) → ph.cur? = none := by
      intro ph he
      subst he
      split <;> cases m <;> simp [clearFail, Ph.cur?]
    have h1 := hq _ rfl
    have hno : (s.host i).ph.own? = none := by
      cases ho : (s.host i).ph.own? with
      | none => rfl
      | some l' => exact absurd (own_unique (ownOk_of_inv h ho).1 hown) hip
    generalize (if res = .ok then Ph.clear m l (i + 1) live else clearFail m l) = ph at h1
    cases hl : lands res
    · simp only [Bool.false_eq_true, if_false]
      refine w_setPh h w (by simp [h1]) (fun _ => by simp [hph, Ph.own?]) ?_
      intro m cur mbal he; subst he; simp [Ph.cur?] at h1
    · simp only [if_true]
      have hQ := ha hl
      have hf : ∀ q, ((((s.raise i (s.B.disk 0 i).lver).putBlk i Blk.zero false none).setPh p ph).host q).mine = (s.host q).mine ∧
          ((((s.raise i (s.B.disk 0 i).lver).putBlk i Blk.zero false none).setPh p ph).host q).db = (s.host q).db ∧
          ((((s.raise i (s.B.disk 0 i).lver).putBlk i Blk.zero false none).setPh p ph).host q).seen = (s.host q).seen ∧
          ((((s.raise i (s.B.disk 0 i).lver).putBlk i Blk.zero false none).setPh p ph).host q).balloted = (s.host q).balloted ∧
          ((((s.raise i (s.B.disk 0 i).lver).putBlk i Blk.zero false none).setPh p ph).host q).ph =
            if q = p then ph else (s.host q).ph := by
        intro q
        simp only [State.setPh, State.raise, State.putBlk, State.setHost, upd_apply]
        by_cases hqp : q = p
        · by_cases hpi : p = i
          · exact absurd hpi.symm hip
          · subst hqp; simp [hpi]
        · by_cases hqi : q = i
          · subst hqi; simp [hqp]
          · simp [hqp, hqi]
      have hdi : ∀ q, (((s.raise i (s.B.disk 0 i).lver).putBlk i Blk.zero false none).setPh p ph).B.disk 0 q =
          if q = i then Blk.zero else s.B.disk 0 q := by
        intro q
        simp [State.setPh, State.raise, State.putBlk, State.setHost, Ballot.State.setDisk]
      refine w_of_step h w ?_
      constructor
      · refine quiet_of (Nat.le_refl _) ?_
        intro x cur' hx
        rw [(hf x).2.2.2.2] at hx
        split at hx
        · rw [h1] at hx; simp at hx
        · exact .inl hx
      · exact fun _ h => h
      · exact fun _ h => .inl h
      · intro q
        rw [hdi]
        split
        · rename_i hqi; subst hqi; exact .inr hQ
        · exact .inl (Nat.le_refl _)
      · intro q; left; exact ⟨rfl, (hf q).2.2.1⟩
      · intro q hm
        left
        rw [(hf q).1] at hm
        refine ⟨hm, (hf q).2.1, ?_⟩
        rw [hdi]
        split
        · right; right
          obtain ⟨_, ⟨e, he, _, he2⟩, _⟩ := w.mine q hm
          have := h.glob.logPos e he
          rw [← he2]; simp only [Blk.zero]; omega
        · exact .inl rfl
      · intro q ho hm
        left
        rw [(hf q).1] at hm
        rw [(hf q).2.2.2.2] at ho
        rw [hdi]
        by_cases hqp : q = p
        · subst hqp
          have hpi : ¬ q = i := fun h => hip h.symm
          refine ⟨by simp [hph, Ph.own?], hm, (hf q).2.1, ?_⟩
          simp [hpi]
        · simp only [hqp, if_false] at ho
          by_cases hqi : q = i
          · subst hqi; exact absurd hno ho
          · refine ⟨ho, hm, (hf q).2.1, ?_⟩
            simp [hqi]
      · intro q m' cur' mbal' hq
        rw [(hf q).2.2.2.2] at hq
        rw [(hf q).2.2.2.1]
        split at hq
        · rw [hq] at h1; simp [Ph.cur?] at h1
        · exact w.bal q m' cur' mbal' hq
  · simp at hs

theorem w_ownWrite {c : Cfg} {s : State} {low p v : Nat} {fl : Bool} {mk : Option Nat} {w : Wr} {ph : Ph} (h : Inv c s low)
    (hw : W c s) (hgood : GoodBlk c s p) (hcur : ph.cur? = none) (hown : ph.own? ≠ none → (s.host p).ph.own? ≠ none) :
    W c (ownWrite s p v fl mk w ph) :=
  w_of_step h hw (ws_ownWrite hw hgood hcur hown (by intro m cur mbal he; subst he; simp [Ph.cur?] at hcur))

theorem w_step {c : Cfg} {s s' : State} {low : Nat} {a : Act} (hc : c.hosts ≤ c.maxHosts) (hd : c.disks = 1) (h : Inv c s low)
    (w : W c s) (ha : Allowed0 c s a) (hs : step c s a = some s') : W c s' := by
  cases a with
  | begin p shared =>
    simp only [step] at hs
    repeat' split at hs
    all_goals first
      | (simp at hs; done)
      | (simp only [Option.some.injEq] at hs; subst hs; exact w_setHost h w (by simp [Ph.cur?]) rfl (by simp) (by simp))
  | convert p =>
    simp only [step] at hs
    split at hs
    · simp only [Option.some.injEq] at hs
      subst hs
      exact w_setHost h w (by simp [Ph.cur?]) rfl (fun hm => ⟨hm, rfl, by simp [Ph.own?]⟩) (by simp)
    · simp at hs
  | read p max =>
    simp only [step] at hs
    repeat' split at hs
    all_goals first
      | (simp at hs; done)
      | (simp only [Option.some.injEq] at hs; subst hs
         exact w_setHost h w (by simp [Ph.cur?]) rfl (fun hm => ⟨hm, rfl, by simp [Ph.own?]⟩) (by simp))
  | ownerGone p =>
    simp only [step] at hs
    split at hs
    · rename_i hph
      simp only [Option.some.injEq] at hs
      subst hs
      exact w_setPh h w (by simp [hph, Ph.cur?]) (by simp [Ph.own?]) (by simp)
    · simp at hs
  | ownerReleased p =>
    simp only [step] at hs
    split at hs
    · rename_i hph
      split at hs
      · simp only [Option.some.injEq] at hs
        subst hs
        exact w_setPh h w (by simp [hph, Ph.cur?]) (by simp [Ph.own?]) (by simp)
      · simp at hs
    · simp at hs
  | ownerLive p =>
    simp only [step] at hs
    split at hs
    · simp only [Option.some.injEq] at hs
      subst hs; exact w_quiet h w rfl rfl
    · simp at hs
  | restart p =>
    simp only [step] at hs
    split at hs
    · simp only [Option.some.injEq] at hs
      subst hs; exact w_quiet h w rfl rfl
    · simp at hs
  | check p =>
    simp only [step] at hs
    split at hs
    · rename_i m cur mbal copy hph
      generalize (if copy = true then cur else s.ldr) = tmp at hs
      split at hs
      · split at hs
        · simp only [Option.some.injEq] at hs
          subst hs
          exact w_setHost h w (by simp [Ph.cur?]) rfl (by simp) (by simp)
        · simp only [Option.some.injEq] at hs
          subst hs; exact w_quiet h w rfl rfl
      · split at hs
        · simp only [Option.some.injEq] at hs
          subst hs; exact w_quiet h w rfl rfl
        · split at hs
          · simp at hs
          · rename_i B' hB
            simp only [Option.some.injEq] at hs
            subst hs
            exact w_start h w hph hB
    · simp at hs
  | bal p a =>
    simp only [step] at hs
    split at hs
    · rename_i m cur mbal hph
      split at hs
      · rename_i hb
        split at hs
        · simp at hs
        · rename_i B' hB
          simp only [Option.some.injEq] at hs
          subst hs
          exact w_of_step h w (ws_bal hd h w hph hb hB)
      · simp at hs
    · simp at hs
  | retry p =>
    simp only [step] at hs
    split at hs
    · rename_i hph _
      simp only [Option.some.injEq] at hs
      subst hs
      exact w_setPh h w (by simp [hph, Ph.cur?]) (by simp [Ph.own?]) (by simp)
    · simp at hs
  | abort p =>
    simp only [step] at hs
    split at hs
    · rename_i m _
      simp only [Option.some.injEq] at hs
      subst hs; exact w_quiet h w (by cases m <;> rfl) (by cases m <;> rfl)
    · rename_i m _ _ _
      simp only [Option.some.injEq] at hs
      subst hs; exact w_quiet h w (by cases m <;> rfl) (by cases m <;> rfl)
    · rename_i m _ _ _ _
      simp only [Option.some.injEq] at hs
      subst hs; exact w_quiet h w (by cases m <;> rfl) (by cases m <;> rfl)
    · rename_i m _ _ _
      simp only [Option.some.injEq] at hs
      subst hs; exact w_quiet (inv_setPc h p) (w_setPc h w p) (by cases m <;> rfl) (by cases m <;> rfl)
    · simp at hs
  | retract p =>
    simp only [step] at hs
    split at hs
    · rename_i m _ _ _
      simp only [Option.some.injEq] at hs
      subst hs; exact w_quiet (inv_setPc h p) (w_setPc h w p) (by cases m <;> rfl) (by cases m <;> rfl)
    · simp at hs
  | commit p res now => exact w_commitStep hc hd h w ha hs
  | lostDone p w' =>
    simp only [step] at hs
    split at hs
    · simp only [Option.some.injEq] at hs
      subst hs; exact w_quiet h w rfl rfl
    · simp only [Option.some.injEq] at hs
      subst hs; exact w_quiet h w rfl rfl
    · rename_i hph
      simp only [Option.some.injEq] at hs
      subst hs; exact w_ownWrite h w (ha hph).1 rfl (by simp [Ph.own?])
    · simp at hs
  | lostRetry p =>
    simp only [step] at hs
    split at hs
    · simp only [Option.some.injEq] at hs
      subst hs; exact w_quiet h w rfl rfl
    · simp at hs
  | eraseSelf p w' =>
    simp only [step] at hs
    split at hs
    · simp only [Option.some.injEq] at hs
      subst hs; exact w_ownWrite h w ha.1 rfl (by simp [Ph.own?])
    · simp at hs
  | decide p =>
    simp only [step] at hs
    split at hs
    · rename_i hph
      simp only [Option.some.injEq] at hs
      subst hs
      refine w_setPh h w ?_ (fun _ => by simp [hph, Ph.own?]) ?_ <;> split <;> simp [Ph.cur?]
    · rename_i hph
      simp only [Option.some.injEq] at hs
      subst hs
      refine w_setPh h w ?_ (fun _ => by simp [hph, Ph.own?]) ?_ <;> split <;> simp [Ph.cur?]
    · simp at hs
  | share p w' =>
    simp only [step] at hs
    split at hs
    · simp only [Option.some.injEq] at hs
      subst hs
      refine w_ownWrite h w ha.1 ?_ ?_ <;> split <;> simp [Ph.cur?, Ph.own?]
    · simp at hs
  | clearStep p dead =>
    simp only [step] at hs
    split at hs
    · rename_i m l i live hph
      have hmv : ∀ ph, ph.cur? = none → W c (s.setPh p ph) := by
        intro ph h1
        refine w_setPh h w (by simp [h1]) (fun _ => by simp [hph, Ph.own?]) ?_
        intro m cur mbal he; subst he; simp [Ph.cur?] at h1
      repeat' split at hs
      all_goals simp only [Option.some.injEq] at hs; subst hs; refine hmv _ ?_
      all_goals first | rfl | (cases m <;> cases live <;> rfl)
    · simp at hs
  | clearErr p =>
    simp only [step] at hs
    split at hs
    · rename_i m l i live hph
      simp only [Option.some.injEq] at hs
      subst hs
      refine w_setPh h w ?_ (fun _ => by simp [hph, Ph.own?]) ?_ <;> cases m <;> simp [Ph.cur?, clearFail]
    · simp at hs
  | clearWrite p res => exact w_clearWrite h w ha hs
  | mb p w' =>
    simp only [step] at hs
    split at hs
    · rename_i l hph
      simp only [Option.some.injEq] at hs
      subst hs
      have := w_ownWrite (v := 0) (fl := false) (mk := none) (w := w') (ph := .heldX l) h w ⟨ha.2, .inl ha.1⟩ rfl
        (fun _ => by simp [hph, Ph.own?])
      simpa only [ownWrite, raise_zero] using this
    · simp at hs
  | undoWrite p w' =>
    simp only [step] at hs
    split at hs
    · simp only [Option.some.injEq] at hs
      subst hs; exact w_ownWrite h w ha.1 rfl (by simp [Ph.own?])
    · simp at hs
  | releaseX p w' =>
    simp only [step] at hs
    split at hs
    · simp only [Option.some.injEq] at hs
      subst hs; exact w_ownWrite h w ha.1 rfl (by simp [Ph.own?])
    · simp only [Option.some.injEq] at hs
      subst hs; exact w_ownWrite h w ha.1 rfl (by simp [Ph.own?])
    · simp at hs
  | ex2sh p w' =>
    simp only [step] at hs
    obtain ⟨ha, hlw⟩ := ha
    split at hs
    · split at hs
      · simp only [Option.some.injEq] at hs
        subst hs; exact w_ownWrite h w ha.1 rfl (by simp [Ph.own?])
      · rename_i hres
        simp only [hres, decide_false] at hlw
        simp only [State.putOwn, hlw, Bool.false_eq_true, if_false, Option.some.injEq] at hs
        subst hs
        exact w
    · simp at hs
  | dropX p =>
    simp only [step] at hs
    split at hs
    · simp only [Option.some.injEq] at hs
      subst hs; exact w_quiet h w rfl rfl
    · simp only [Option.some.injEq] at hs
      subst hs; exact w_quiet h w rfl rfl
    · simp at hs
  | relRead p =>
    simp only [step] at hs
    split at hs
    · rename_i last k hph
      have hp := (h.host p).ph
      rw [hph] at hp
      have hdn : ∀ l, k = .down l → s.ldr.wid = p + 1 →
          s.ldr = l ∧ last = some l ∧ l.ts ≠ 0 ∧ l.owner = p + 1 ∧ l.gen = (s.host p).gen := by
        intro l hk hw
        subst hk
        obtain ⟨h1, h2⟩ := hp
        rcases h2 with h2 | ⟨h2, h3, h4, h5⟩
        · exact absurd hw h2
        · exact ⟨h2, h1, h3, h4, h5⟩
      have hfail : (∀ l, k ≠ .down l) → W c (s.setPh p (relFailed k)) := by
        intro hk
        cases k with
        | down l => exact absurd rfl (hk l)
        | _ => exact w_quiet h w rfl rfl
      split at hs
      · simp only [Option.some.injEq] at hs
        subst hs; exact w_quiet h w (by cases k <;> rfl) (by cases k <;> rfl)
      · rename_i hw
        have hw : s.ldr.wid = p + 1 := by omega
        repeat' split at hs
        all_goals simp only [Option.some.injEq] at hs; subst hs
        · rename_i hv
          refine hfail fun l hk => ?_
          obtain ⟨h1, h2, _⟩ := hdn l hk hw
          rw [h2, h1] at hv; simp at hv
        · rename_i hv
          refine hfail fun l hk => ?_
          obtain ⟨h1, _, h3, _⟩ := hdn l hk hw
          rw [h1] at hv; exact h3 hv
        · rename_i hv
          refine hfail fun l hk => ?_
          obtain ⟨h1, _, _, h3⟩ := hdn l hk hw
          rw [h1] at hv; omega
        · rename_i hv
          refine hfail fun l hk => ?_
          obtain ⟨h1, h2, _⟩ := hdn l hk hw
          rw [h2, h1] at hv; simp at hv
        · rw [raise_setPh]
          exact w_setHost h w (by simp [Ph.cur?]) rfl (fun hm => ⟨hm, rfl, by simp [Ph.own?]⟩) (by simp)
    · simp at hs
  | relErr p =>
    simp only [step] at hs
    split at hs
    · rename_i last k hph
      simp only [Option.some.injEq] at hs
      subst hs
      cases k with
      | down l => simp [Allowed0, hph] at ha
      | _ => exact w_quiet h w rfl rfl
    · simp at hs
  | relAgain p =>
    simp only [step] at hs
    split at hs
    · simp only [Option.some.injEq] at hs
      subst hs; exact w_quiet h w rfl rfl
    · simp only [Option.some.injEq] at hs
      subst hs; exact w_quiet h w rfl rfl
    · simp at hs
  | relWrite p res now => exact w_relWrite h w ha hs
  | releaseS p w' erase =>
    simp only [step] at hs
    split at hs
    · simp only [Option.some.injEq] at hs
      subst hs
      refine w_ownWrite h w ha.1 ?_ ?_ <;> cases erase <;> simp [Ph.cur?, Ph.own?]
    · simp at hs
  | dropS p =>
    simp only [step] at hs
    split at hs
    · simp only [Option.some.injEq] at hs
      subst hs; exact w_quiet h w rfl rfl
    · simp at hs
  | die p =>
    simp only [step, Option.some.injEq] at hs
    subst hs
    exact w_setHost (inv_setPc h p) (w_setPc h w p) (by simp [Ph.cur?]) rfl (fun hm => ⟨hm, rfl, by simp [Ph.own?]⟩) (by simp)
  | join p =>
    simp only [step] at hs
    split at hs
    · simp at hs
    · simp only [Option.some.injEq] at hs
      subst hs
      exact w_setHost h w (fun _ h => .inl h) rfl (fun hm => ⟨hm, rfl, id⟩) (fun m cur mbal hx => w.bal p m cur mbal hx)

/-! ## The assumptions -/

theorem good_of_mine {c : Cfg} {s : State} {low p : Nat} (h : Inv c s low) (w : W c s) (hm : (s.host p).mine = true)
    (hd : s.B.disk 0 p = (s.host p).db) : GoodRel c s p := by
  obtain ⟨h1, ⟨e, he, _, h3⟩, _⟩ := w.mine p hm
  refine ⟨⟨.inr h1, .inl hd.symm⟩, ?_⟩
  rw [hd, ← h3]; exact h.glob.logLe e he

theorem good_of_old {c : Cfg} {s : State} {low p : Nat} (h : Inv c s low) (w : W c s) (ho : OldBlk s p) : GoodRel c s p :=
  good_of_mine h w ho.1 ((w.mine p ho.1).2.2 ho.2)

theorem allowed0_of {c : Cfg} {s s' : State} {low : Nat} {a : Act} (h : Inv c s low) (w : W c s) (ha : Allowed c s a)
    (hs : step c s a = some s') : Allowed0 c s a := by
  cases a with
  | commit p res now =>
    obtain ⟨h1, h2⟩ := ha
    refine ⟨fun hl => ?_, h2⟩
    rcases h1 hl with h1 | h1
    · have hp := w.pc p
      simp only [step] at hs
      split at hs
      · rename_i hpc
        rw [hpc] at hp
        simp only [PcW] at hp
        omega
      · simp at hs
    · exact h1
  | share p w' =>
    simp only [step] at hs
    split at hs
    · rename_i hph
      rcases ha with ha | ha
      · exact good_of_mine h w ha (w.own p (by simp [hph, Ph.own?]) ha)
      · exact ha
    · simp at hs
  | undoWrite p w' => exact ha.elim (good_of_old h w) id
  | releaseX p w' =>
    simp only [step] at hs
    rcases ha with ha | ha
    · split at hs
      · rename_i hph
        exact good_of_mine h w ha (w.own p (by simp [hph, Ph.own?]) ha)
      · rename_i hph
        exact good_of_mine h w ha (w.own p (by simp [hph, Ph.own?]) ha)
      · simp at hs
    · exact ha
  | releaseS p w' erase => exact ha.elim (good_of_old h w) id
  | ex2sh p w' =>
    obtain ⟨ha, hlw⟩ := ha
    refine ⟨?_, hlw⟩
    simp only [step] at hs
    split at hs
    · rename_i hph
      rcases ha with ha | ha
      · exact good_of_mine h w ha (w.own p (by simp [hph, Ph.own?]) ha)
      · exact ha
    · simp at hs
  | mb p w' =>
    simp only [step] at hs
    split at hs
    · rename_i hph
      rcases ha with ha | ha
      · exact ⟨(w.own p (by simp [hph, Ph.own?]) ha).symm, .inr (w.mine p ha).1⟩
      · exact ha
    · simp at hs
  | bal p a => cases a <;> exact ha
  | _ => exact ha

theorem inv_reach {c : Cfg} {s : State} (hc : c.hosts ≤ c.maxHosts) (hd : c.disks = 1) (h : Reach c s) :
    ∃ low, Inv c s low ∧ W c s := by
  induction h with
  | init => exact ⟨0, inv_init c, w_init c⟩
  | step _ ha hs ih =>
    obtain ⟨low, hi, w⟩ := ih
    have ha0 := allowed0_of hi w ha hs
    obtain ⟨low', hi'⟩ := inv_step hc hd hi ha0 hs
    exact ⟨low', hi', w_step hc hd hi w ha0 hs⟩

end Sanlock.Lease
