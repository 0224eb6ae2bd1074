import Verif.Lemmas.Lease

/-!
# Every step keeps the invariant
-/

namespace Sanlock.Lease

open Sanlock.Ballot (Blk Cfg WriteRes Pc Vote Done)

/-- What a step needs for the invariant; `Lemmas/LeaseMine.lean` derives it from `Allowed`. -/
def Allowed0 (c : Cfg) (s : State) : Act → Prop
  | .ownerGone p =>
    match (s.host p).ph with
    | .wait _ cur _ => Expired s (cur.owner - 1) cur.gen
    | _ => True
  | .commit p res _ =>
    (lands res = true → s.ldr.lver ≤ (s.B.proc p).dblock.lver) ∧
    ((s.B.proc p).dblock.inp = p + 1 → (s.B.proc p).dblock.inp2 = (s.host p).gen)
  | .relWrite p res _ =>
    match (s.host p).ph with
    | .relW l (.down _) => s.ldr.lver ≤ l.lver ∧ res = .ok
    | .relW l _ => lands res = true → s.ldr.lver ≤ l.lver
    | _ => True
  | .bal _ (.readsDone _ now) => 0 < now
  | .lostDone p _ => (s.host p).ph = .lost .sh → GoodRel c s p
  | .eraseSelf p _ => GoodRel c s p
  | .share p _ => GoodRel c s p
  | .undoWrite p _ => GoodRel c s p
  | .releaseX p _ => GoodRel c s p
  | .releaseS p _ _ => GoodRel c s p
  | .ex2sh p w => GoodRel c s p ∧ lands w.res = decide (w.res = .ok)
  | .mb p _ => (s.host p).db = s.B.disk 0 p ∧ ((s.host p).db.inp = 0 ∨ (s.host p).db.inp = p + 1)
  | .clearWrite p res =>
    match (s.host p).ph with
    | .clearW _ _ i _ => lands res = true → Quiet c s (s.B.disk 0 i).lver
    | _ => True
  | .relErr p =>
    match (s.host p).ph with
    | .rel _ (.down _) => False
    | _ => True
  | _ => True

theorem curOk_ldr {c : Cfg} {s : State} {low : Nat} (h : Inv c s low) (p : Nat) : CurOk s low p s.ldr := by
  have G := h.glob
  exact ⟨G.ldrOk, Nat.le_refl _, G.low, G.free, fun v hv _ => G.votesLe v hv, fun e he _ => G.logLe e he, G.relLe p, G.diskLe p⟩

theorem mbal_ok {c : Cfg} {p max : Nat} (hc : 0 < c.maxHosts) :
    MbalOk c p (Ballot.ourMbal max c.maxHosts (p + 1)) ∧ max < Ballot.ourMbal max c.maxHosts (p + 1) := by
  have h1 : max < Ballot.ourMbal max c.maxHosts (p + 1) := Ballot.ourMbal_gt (Nat.succ_pos _) hc
  exact ⟨⟨by omega, Ballot.ourMbal_mod⟩, h1⟩

theorem pos_hosts {c : Cfg} {s : State} {low p : Nat} (hc : c.hosts ≤ c.maxHosts) (h : Inv c s low) (hp : (s.host p).ph ≠ .idle) :
    0 < c.maxHosts := by
  have := ((h.host p).alive hp).2
  omega

theorem inv_move {c : Cfg} {s : State} {low p : Nat} (h : Inv c s low) {ph : Ph} (hp : PhOk c s low p ph)
    (hi : (s.host p).ph ≠ .idle) (hb : ∀ m cur mbal, (s.host p).ph ≠ .ballot m cur mbal) : ∃ low', Inv c (s.setPh p ph) low' :=
  ⟨low, inv_setPh h hp (fun _ => hi) (pcIdle_of_ph h hb)⟩

/-- Leaving a ballot. -/
theorem inv_leave {c : Cfg} {s : State} {low p : Nat} (h : Inv c s low) {ph : Ph}
    (hp : PhOk c { s with B := s.B.setPc p .idle } low p ph)
    (hi : (s.host p).ph ≠ .idle) : ∃ low', Inv c ({ s with B := s.B.setPc p .idle }.setPh p ph) low' := by
  refine ⟨low, inv_setPh (inv_setPc h p) hp (fun _ => hi) ?_⟩
  simp

theorem raise_zero (s : State) (p : Nat) : s.raise p 0 = s := by
  simp only [State.raise, State.setHost]
  have : upd s.host p { s.host p with relv := max (s.host p).relv 0 } = s.host := by
    funext q
    simp only [upd_apply]
    split
    · rename_i h; rw [h]; simp
    · rfl
  rw [this]

theorem inv_read {c : Cfg} {s s' : State} {low p max : Nat} (hc : c.hosts ≤ c.maxHosts) (h : Inv c s low)
    (hs : step c s (.read p max) = some s') : ∃ low', Inv c s' low' := by
  simp only [step] at hs
  split at hs
  · rename_i m hph
    have hpc : (s.B.proc p).pc = .idle := pcIdle_of_ph h (by simp [hph])
    have hm := mbal_ok (p := p) (max := max) (pos_hosts hc h (p := p) (by simp [hph]))
    split at hs
    · split at hs
      · rename_i h1 h2
        simp only [Option.some.injEq] at hs
        subst hs
        refine ⟨low, inv_setHost h rfl rfl rfl ⟨curOk_ldr h p, ?_, hm.1, by omega⟩ (fun _ => (h.host p).alive (by simp [hph]))
          (fun h3 => absurd hpc h3)⟩
        rcases h2 with h2 | h2
        · by_cases h3 : s.ldr.lver = 0
          · exact .inl h3
          · exact .inr (.inr (.inr (h.glob.free h2 (by omega))))
        · exact .inr (.inl h2.1)
      · simp only [Option.some.injEq] at hs
        subst hs
        refine ⟨low, inv_setHost h rfl rfl rfl ⟨curOk_ldr h p, by assumption⟩ (fun _ => (h.host p).alive (by simp [hph]))
          (fun h3 => absurd hpc h3)⟩
    · simp at hs
  · simp at hs

theorem inv_ownerGone {c : Cfg} {s s' : State} {low p : Nat} (hc : c.hosts ≤ c.maxHosts) (h : Inv c s low)
    (ha : Allowed0 c s (.ownerGone p)) (hs : step c s (.ownerGone p) = some s') : ∃ low', Inv c s' low' := by
  simp only [step] at hs
  split at hs
  · rename_i m cur max hph
    simp only [Allowed0, hph] at ha
    have hm := mbal_ok (p := p) (max := max) (pos_hosts hc h (p := p) (by simp [hph]))
    have hp := (h.host p).ph
    rw [hph] at hp
    simp only [Option.some.injEq] at hs
    subst hs
    exact inv_move h ⟨hp.1, .inr (.inr (.inl ha)), hm.1, by have := hp.2; omega⟩ (by simp [hph]) (by simp [hph])
  · simp at hs

theorem inv_ownerReleased {c : Cfg} {s s' : State} {low p : Nat} (hc : c.hosts ≤ c.maxHosts) (hd : c.disks = 1) (h : Inv c s low)
    (hs : step c s (.ownerReleased p) = some s') : ∃ low', Inv c s' low' := by
  simp only [step] at hs
  split at hs
  · rename_i m cur max hph
    have hm := mbal_ok (p := p) (max := max) (pos_hosts hc h (p := p) (by simp [hph]))
    have hp := (h.host p).ph
    rw [hph] at hp
    split at hs
    · rename_i hcond
      simp only [Option.some.injEq] at hs
      subst hs
      refine inv_move h ⟨hp.1, ?_, hm.1, by have := hp.2; omega⟩ (by simp [hph]) (by simp [hph])
      rcases hp.1.ok with h1 | ⟨e, he, h1, h2, _⟩
      · exact .inl h1.1
      · obtain ⟨g, hg, hsim⟩ := h.glob.sim
        obtain ⟨u, hu, hu1, hu2⟩ := (bf_of_sim hc hd hg hsim).proposed e he
        have hho : cur.owner - 1 = u.host := by omega
        have := h.glob.flagVotes u hu (by rw [← hho]; exact hcond.2.2)
        exact .inr (.inr (.inr (by rw [hho]; omega)))
    · simp at hs
  · simp at hs

theorem inv_check {c : Cfg} {s s' : State} {low p : Nat} (hd : c.disks = 1) (h : Inv c s low)
    (hs : step c s (.check p) = some s') : ∃ low', Inv c s' low' := by
  simp only [step] at hs
  split at hs
  · rename_i m cur mbal copy hph
    have hpc : (s.B.proc p).pc = .idle := pcIdle_of_ph h (by simp [hph])
    have hp := (h.host p).ph
    rw [hph] at hp
    generalize htmp : (if copy = true then cur else s.ldr) = tmp at hs
    split at hs
    · rename_i hl
      have hcopy : tmp = s.ldr := by
        rw [← htmp] at hl ⊢
        cases copy
        · simp
        · simp only [if_true] at hl; omega
      rw [hcopy] at hl hs
      split at hs
      · rename_i ho
        simp only [Option.some.injEq] at hs
        subst hs
        have hr := hp.1.relv
        refine ⟨low, inv_setHost h rfl rfl rfl ⟨rfl, ho.1, ho.2, ?_, by omega, .inl rfl⟩ (fun _ => (h.host p).alive (by simp [hph]))
          (fun h3 => absurd hpc h3)⟩
        intro ht
        have := h.glob.free ht (by omega)
        have hho : s.ldr.owner - 1 = p := by omega
        rw [hho] at this
        omega
      · simp only [Option.some.injEq] at hs
        subst hs
        exact inv_move h trivial (by simp [hph]) (by simp [hph])
    · split at hs
      · simp only [Option.some.injEq] at hs
        subst hs
        exact inv_move h trivial (by simp [hph]) (by simp [hph])
      · split at hs
        · simp at hs
        · rename_i B' hB
          simp only [Option.some.injEq] at hs
          subst hs
          exact ⟨low, inv_start hd h hph hB⟩
  · simp at hs

theorem inv_commitStep {c : Cfg} {s s' : State} {low p : Nat} {res : WriteRes} {now : Nat} (hc : c.hosts ≤ c.maxHosts)
    (hd : c.disks = 1) (h : Inv c s low) (ha : Allowed0 c s (.commit p res now))
    (hs : step c s (.commit p res now) = some s') : ∃ low', Inv c s' low' := by
  simp only [step] at hs
  split at hs
  · rename_i m cur mbal w1 w hph hpc
    obtain ⟨ha1, ha2⟩ := ha
    have hi : (s.host p).ph ≠ .idle := by simp [hph]
    split at hs
    · rename_i hres
      have hl : lands res = true := by rw [hres]; rfl
      simp only [hl, if_true] at hs
      split at hs
      · simp only [Option.some.injEq] at hs
        subst hs
        exact ⟨low, inv_commit hc hd h hph hpc (ha1 hl) rfl rfl rfl (.inl rfl)⟩
      · rename_i ho
        simp only [newLeader, ne_eq, Decidable.not_not] at ho
        simp only [Option.some.injEq] at hs
        subst hs
        exact ⟨low, inv_commit hc hd h hph hpc (ha1 hl) rfl rfl rfl (.inr (.inr (.inr ⟨ho, ha2 ho, rfl⟩)))⟩
    · simp only [Option.some.injEq] at hs
      subst hs
      cases hl : lands res
      · simp only [Bool.false_eq_true, if_false]
        refine inv_leave h ?_ hi
        cases m <;> trivial
      · simp only [if_true]
        refine ⟨low, inv_commit hc hd h hph hpc (ha1 hl) rfl rfl rfl ?_⟩
        cases m
        · exact .inr (.inl ⟨_, rfl⟩)
        · exact .inr (.inl ⟨_, rfl⟩)
        · exact .inr (.inr (.inl ⟨_, _, rfl⟩))
  · simp at hs

theorem inv_clearWrite {c : Cfg} {s s' : State} {low p : Nat} {res : WriteRes} (h : Inv c s low)
    (ha : Allowed0 c s (.clearWrite p res))
    (hs : step c s (.clearWrite p res) = some s') : ∃ low', Inv c s' low' := by
  simp only [step] at hs
  split at hs
  · rename_i m l i live hph
    have hp := (h.host p).ph
    rw [hph] at hp
    obtain ⟨hown, hip⟩ := hp
    simp only [Allowed0, hph] at ha
    have hend : ∀ (s1 : State) low1, Inv c s1 low1 → (s1.host p).ph = .clearW m l i live →
        ∃ low', Inv c (s1.setPh p (if res = .ok then .clear m l (i + 1) live else clearFail m l)) low' := by
      intro s1 low1 h1 hph1
      have hp1 := (h1.host p).ph
      rw [hph1] at hp1
      refine inv_move h1 ?_ (by simp [hph1]) (by simp [hph1])
      split
      · exact hp1.1
      · cases m with
        | conv l0 => trivial
        | ex => exact hp1.1
        | sh => exact hp1.1
    simp only [Option.some.injEq] at hs
    subst hs
    cases hl : lands res
    · simp only [Bool.false_eq_true, if_false]
      exact hend s low h hph
    · simp only [if_true]
      have hq := ha hl
      have hphq : ∀ q, (((s.raise i (s.B.disk 0 i).lver).putBlk i Blk.zero false none).host q).ph = (s.host q).ph := by
        intro q
        simp only [State.raise, State.putBlk, State.setHost, upd_apply]
        split
        · rename_i h1; rw [h1]
        · rfl
      have P : Put s ((s.raise i (s.B.disk 0 i).lver).putBlk i Blk.zero false none) i Blk.zero := by
        refine ⟨rfl, rfl, rfl, rfl, ?_, ?_, ?_, ?_, ?_, ?_, ?_⟩ <;>
          simp +contextual [State.raise, State.putBlk, State.setHost, upd_apply, Ballot.State.setDisk] <;>
          (try intro q) <;> (try split) <;> (try simp_all) <;> omega
      have hrv : (((s.raise i (s.B.disk 0 i).lver).putBlk i Blk.zero false none).host i).relv =
          max (s.host i).relv (s.B.disk 0 i).lver := by
        simp [State.raise, State.putBlk, State.setHost, upd_apply]
      have hq1 := hq.1
      obtain ⟨low1, h1⟩ := inv_put h P (by
          right
          refine ⟨?_, by rw [hrv]; omega⟩
          have : max Blk.zero.lver (s.B.disk 0 i).lver = (s.B.disk 0 i).lver := by simp [Blk.zero]
          rw [this]; exact hq)
        (by rw [hrv]; have := h.glob.relLe i; omega) (by
          intro h2; simp [State.raise, State.putBlk, State.setHost] at h2) (fun q _ => hphq q) (by
          intro low' hlow'
          have hno : (s.host i).ph.own? = none := by
            cases ho : (s.host i).ph.own? with
            | none => rfl
            | some l' => exact absurd (own_unique (ownOk_of_inv h ho).1 hown) hip
          refine hostOk_mono ?_ (h.host i)
          refine ⟨Nat.le_refl _, .inl rfl, fun _ h => h, fun _ h _ => h, fun _ h _ => h, ?_, .inr ⟨?_, hno⟩, ?_, hphq i, P.gen i, P.alive i,
            ?_, ?_, ?_, fun cur hcur => .inr (hlow' i cur hcur)⟩
          · intro o
            by_cases ho : o = i
            · rw [ho]; exact P.relvx
            · rw [P.relv o ho]; exact Nat.le_refl _
          · intro cur hcur
            rw [hrv]
            have h2 := (curOk_of_inv h hcur).relv
            have h3 : i < c.hosts := ((h.host i).alive (by intro h4; rw [h4] at hcur; simp [Ph.cur?] at hcur)).2
            have h4 := hq.2 i h3 cur hcur
            omega
          · intro o g; simp only [Expired, P.gen, P.alive]; exact id
          · rw [P.blk]; simp [Blk.zero]
          · rw [P.blk]; simp [Blk.zero]
          · rw [P.proc])
      exact hend _ low1 h1 (by rw [hphq]; exact hph)
  · simp at hs

theorem inv_mb {c : Cfg} {s s' : State} {low p : Nat} {w : Wr} (h : Inv c s low) (ha : Allowed0 c s (.mb p w))
    (hs : step c s (.mb p w) = some s') : ∃ low', Inv c s' low' := by
  simp only [step] at hs
  split at hs
  · rename_i l hph
    have hp := (h.host p).ph
    rw [hph] at hp
    simp only [Option.some.injEq] at hs
    subst hs
    obtain ⟨P, h1, h2, h3, h4, _⟩ := own_put (s := s) (p := p) (v := 0) (fl := false) (mk := none) (w := w) (ph := .heldX l) ha.2
    simp only [ownWrite, raise_zero] at P h1 h2 h3 h4
    have hpc : (s.B.proc p).pc = .idle := pcIdle_of_ph h (by simp [hph])
    have hr := h.glob.relLe p
    have hr2 : (((s.putOwn p false none w).setPh p (.heldX l)).host p).relv = (s.host p).relv := by rw [h1]; omega
    refine inv_put h P ?_ (by rw [hr2]; exact hr) ?_ (fun q hq => by rw [h3 q hq]) ?_
    · left; split
      · exact ha.1
      · rfl
    · rw [h4]; intro h5; left
      split at h5
      · simp at h5
      · exact h5
    · intro low' _
      refine ⟨?_, fun _ => ?_, ?_⟩
      · rw [h2]
        obtain ⟨O1, O2, O3, O4, O5, O6⟩ := hp
        refine ⟨?_, ?_, ?_, ?_, ?_, ?_⟩
        · rw [P.ldr]; exact O1
        · rw [P.ldr]; exact O2
        · rw [P.ldr, P.gen]; exact O3
        · rw [P.ldr]; exact O4
        · rw [hr2]; exact O5
        · rw [P.ldr]; exact O6
      · rw [P.alive]; exact (h.host p).alive (by simp [hph])
      · rw [P.proc]; intro h6; exact absurd hpc h6
  · simp at hs

theorem raise_put (s : State) (p v : Nat) (ph : Ph) : Put s ((s.raise p v).setPh p ph) p (s.B.disk 0 p) := by
  refine ⟨rfl, rfl, rfl, rfl, ?_, ?_, ?_, ?_, ?_, ?_, ?_⟩ <;>
    simp +contextual [State.raise, State.setPh, State.setHost, upd_apply] <;>
    (try intro q) <;> (try split) <;> (try simp_all) <;> omega

theorem inv_relRead {c : Cfg} {s s' : State} {low p : Nat} (h : Inv c s low)
    (hs : step c s (.relRead p) = some s') : ∃ low', Inv c s' low' := by
  simp only [step] at hs
  split at hs
  · rename_i last k hph
    have hp := (h.host p).ph
    rw [hph] at hp
    have hdown : ∀ l, k = .down l → last = some l ∧ DownOk s p l := by
      intro l hk; subst hk; exact hp
    have hmv : ∀ ph, PhOk c s low p ph → ∃ low', Inv c (s.setPh p ph) low' :=
      fun ph hph' => inv_move h hph' (by simp [hph]) (by simp [hph])
    have hfail : s.ldr.wid = p + 1 → (∀ l, k = .down l → s.ldr = l → False) → ∃ low', Inv c (s.setPh p (relFailed k)) low' := by
      intro hw hno
      refine hmv _ ?_
      cases k with
      | down l =>
        obtain ⟨_, h2⟩ := hdown l rfl
        rcases h2 with h2 | h2
        · exact absurd hw h2
        · exact absurd (hno l rfl h2.1) id
      | _ => trivial
    split at hs
    · simp only [Option.some.injEq] at hs
      subst hs
      refine hmv _ ?_
      cases k <;> trivial
    · rename_i hw
      have hw : s.ldr.wid = p + 1 := by omega
      have hdn : ∀ l, k = .down l → s.ldr = l ∧ last = some l ∧ l.ts ≠ 0 ∧ l.owner = p + 1 ∧ l.gen = (s.host p).gen := by
        intro l hk
        obtain ⟨h1, h2⟩ := hdown l hk
        rcases h2 with h2 | ⟨h2, h3, h4, h5⟩
        · exact absurd hw h2
        · exact ⟨h2, h1, h3, h4, h5⟩
      split at hs
      · rename_i hv
        simp only [Option.some.injEq] at hs
        subst hs
        refine hfail hw fun l hk hl => hv ?_
        rw [(hdn l hk).2.1, hl]; rfl
      · split at hs
        · rename_i hv
          simp only [Option.some.injEq] at hs
          subst hs
          refine hfail hw fun l hk hl => (hdn l hk).2.2.1 ?_
          rw [← hl]; exact hv
        · split at hs
          · rename_i hv
            simp only [Option.some.injEq] at hs
            subst hs
            refine hfail hw fun l hk hl => ?_
            have := hdn l hk
            rw [hl] at hv
            omega
          · split at hs
            · rename_i hv
              simp only [Option.some.injEq] at hs
              subst hs
              refine hfail hw fun l hk hl => hv ?_
              rw [(hdn l hk).2.1, hl]; rfl
            · rename_i h1 h2 h3 h4
              simp only [Option.some.injEq] at hs
              subst hs
              have P : Put s ((s.raise p s.ldr.lver).setPh p (.relW s.ldr k)) p (s.B.disk 0 p) := raise_put _ _ _ _
              have hrv : (((s.raise p s.ldr.lver).setPh p (.relW s.ldr k)).host p).relv = max (s.host p).relv s.ldr.lver := by
                simp [State.raise, State.setPh, State.setHost, upd_apply]
              have hpp : (((s.raise p s.ldr.lver).setPh p (.relW s.ldr k)).host p).ph = .relW s.ldr k := by
                simp [State.raise, State.setPh, State.setHost, upd_apply]
              refine inv_put h P (.inl rfl) (by rw [hrv]; have := h.glob.relLe p; omega) (fun h5 => .inl h5) ?_ ?_
              · intro q hq; simp [State.raise, State.setPh, State.setHost, upd_apply, hq]
              · intro low' _
                refine ⟨?_, fun _ => ?_, ?_⟩
                · rw [hpp]
                  refine ⟨by rw [hrv]; omega, by omega, h.glob.ldrOk, ?_⟩
                  intro l' hk
                  obtain ⟨a1, a2, a3, a4, a5⟩ := hdn l' hk
                  refine ⟨a1, .inr ⟨rfl, ?_, ?_, ?_⟩⟩
                  · rw [a1]; exact a3
                  · rw [a1]; exact a4
                  · rw [P.gen, a1]; exact a5
                · rw [P.alive]; exact (h.host p).alive (by simp [hph])
                · rw [P.proc]; intro h6; exact absurd (pcIdle_of_ph h (by simp [hph])) h6
  · simp at hs

theorem inv_relWriteStep {c : Cfg} {s s' : State} {low p : Nat} {res : WriteRes} {now : Nat} (hc : c.hosts ≤ c.maxHosts)
    (hd : c.disks = 1) (h : Inv c s low) (ha : Allowed0 c s (.relWrite p res now))
    (hs : step c s (.relWrite p res now) = some s') : ∃ low', Inv c s' low' := by
  simp only [step] at hs
  split at hs
  · rename_i l k hph
    simp only [Option.some.injEq] at hs
    subst hs
    have hst : lands res = true → s.ldr.lver ≤ l.lver := by
      intro hl
      cases k <;> simp only [Allowed0, hph] at ha <;> first | exact ha hl | exact ha.1
    have hdn : ∀ l', k = .down l' → res = .ok := by
      intro l' hk; subst hk; simp only [Allowed0, hph] at ha; exact ha.2
    cases hl : lands res
    · simp only [Bool.false_eq_true, if_false]
      refine inv_move h ?_ (by simp [hph]) (by simp [hph])
      have hres : res ≠ .ok := by intro h1; rw [h1] at hl; simp [lands] at hl
      simp only [hres, if_false]
      cases k with
      | down l' => exact absurd (hdn l' rfl) hres
      | _ => trivial
    · simp only [if_true]
      refine ⟨low, inv_relWrite hc hd h hph (hst hl) ?_⟩
      by_cases hres : res = .ok
      · simp only [hres, if_true]
        cases k with
        | gone => exact .inr (.inl rfl)
        | _ => exact .inl ⟨_, rfl⟩
      · simp only [hres, if_false]
        cases k with
        | gone => exact .inr (.inr (.inr (.inl ⟨_, rfl⟩)))
        | shared l' => exact .inr (.inr (.inl ⟨_, rfl⟩))
        | back l' => exact .inr (.inr (.inr (.inr ⟨_, _, rfl⟩)))
        | down l' => exact absurd (hdn l' rfl) hres
  · simp at hs

theorem inv_step {c : Cfg} {s s' : State} {low : Nat} {a : Act} (hc : c.hosts ≤ c.maxHosts) (hd : c.disks = 1) (h : Inv c s low)
    (ha : Allowed0 c s a) (hs : step c s a = some s') : ∃ low', Inv c s' low' := by
  cases a with
  | begin p shared =>
    simp only [step] at hs
    split at hs
    · rename_i hph
      split at hs
      · rename_i hal
        simp only [Option.some.injEq] at hs
        subst hs
        exact ⟨low, inv_setHost h rfl rfl rfl trivial (fun _ => hal) (fun h3 => absurd (pcIdle_of_ph h (by simp [hph])) h3)⟩
      · simp at hs
    · simp at hs
  | convert p =>
    simp only [step] at hs
    split at hs
    · rename_i l hph
      simp only [Option.some.injEq] at hs
      subst hs
      exact ⟨low, inv_setHost h rfl rfl rfl trivial (fun _ => (h.host p).alive (by simp [hph]))
        (fun h3 => absurd (pcIdle_of_ph h (by simp [hph])) h3)⟩
    · simp at hs
  | read p max => exact inv_read hc h hs
  | ownerGone p => exact inv_ownerGone hc h ha hs
  | ownerReleased p => exact inv_ownerReleased hc hd h hs
  | ownerLive p =>
    simp only [step] at hs
    split at hs
    · rename_i hph
      simp only [Option.some.injEq] at hs
      subst hs
      exact inv_move h trivial (by simp [hph]) (by simp [hph])
    · simp at hs
  | restart p =>
    simp only [step] at hs
    split at hs
    · rename_i hph
      simp only [Option.some.injEq] at hs
      subst hs
      exact inv_move h trivial (by simp [hph]) (by simp [hph])
    · simp at hs
  | check p => exact inv_check hd h hs
  | bal p a =>
    simp only [step] at hs
    split at hs
    · rename_i m cur mbal hph
      split at hs
      · rename_i hb
        split at hs
        · simp at hs
        · rename_i B' hB
          simp only [Option.some.injEq] at hs
          subst hs
          refine ⟨low, inv_bal hc hd h hph hb ?_ hB⟩
          intro now hn; subst hn; exact ha
      · simp at hs
    · simp at hs
  | retry p =>
    simp only [step] at hs
    split at hs
    · rename_i m cur mbal hph hpc
      have hp := (h.host p).ph
      rw [hph] at hp
      obtain ⟨h1, h2, h3, h4, _⟩ := hp
      have hM := pos_hosts hc h (p := p) (by simp [hph])
      simp only [Option.some.injEq] at hs
      subst hs
      refine ⟨low, inv_setPh h ⟨h1, h2, ⟨?_, ?_⟩, ?_⟩ (fun _ => by simp [hph]) hpc⟩
      · have := h3.pos; simp only [Ballot.retryMbal]; omega
      · have := h3.res; simp only [Ballot.retryMbal, Nat.add_mod_right]; exact this
      · simp only [Ballot.retryMbal]; omega
    · simp at hs
  | abort p =>
    simp only [step] at hs
    split at hs
    · rename_i m hph
      simp only [Option.some.injEq] at hs
      subst hs
      exact inv_move h (by cases m <;> trivial) (by simp [hph]) (by simp [hph])
    · rename_i m _ _ hph
      simp only [Option.some.injEq] at hs
      subst hs
      exact inv_move h (by cases m <;> trivial) (by simp [hph]) (by simp [hph])
    · rename_i m _ _ _ hph
      simp only [Option.some.injEq] at hs
      subst hs
      exact inv_move h (by cases m <;> trivial) (by simp [hph]) (by simp [hph])
    · rename_i m _ _ hph
      simp only [Option.some.injEq] at hs
      subst hs
      exact inv_leave h (by cases m <;> trivial) (by simp [hph])
    · simp at hs
  | retract p =>
    simp only [step] at hs
    split at hs
    · rename_i m _ _ hph
      simp only [Option.some.injEq] at hs
      subst hs
      exact inv_leave h (by cases m <;> trivial) (by simp [hph])
    · simp at hs
  | commit p res now => exact inv_commitStep hc hd h ha hs
  | lostDone p w =>
    simp only [step] at hs
    split at hs
    · rename_i hph
      simp only [Option.some.injEq] at hs
      subst hs
      exact inv_move h trivial (by simp [hph]) (by simp [hph])
    · rename_i hph
      simp only [Option.some.injEq] at hs
      subst hs
      exact inv_move h trivial (by simp [hph]) (by simp [hph])
    · rename_i hph
      simp only [Option.some.injEq] at hs
      subst hs
      have hg := ha hph
      exact inv_ownWrite h hg (Nat.le_refl _) hg.2 (pcIdle_of_ph h (by simp [hph])) (by simp [hph]) (fun _ => trivial)
    · simp at hs
  | lostRetry p =>
    simp only [step] at hs
    split at hs
    · rename_i hph
      simp only [Option.some.injEq] at hs
      subst hs
      exact inv_move h trivial (by simp [hph]) (by simp [hph])
    · simp at hs
  | eraseSelf p w =>
    simp only [step] at hs
    split at hs
    · rename_i hph
      simp only [Option.some.injEq] at hs
      subst hs
      exact inv_ownWrite h ha (Nat.le_refl _) ha.2 (pcIdle_of_ph h (by simp [hph])) (by simp [hph]) (fun _ => trivial)
    · simp at hs
  | decide p =>
    simp only [step] at hs
    split at hs
    · rename_i hph
      have hp := (h.host p).ph
      rw [hph] at hp
      simp only [Option.some.injEq] at hs
      subst hs
      refine inv_move h ?_ (by simp [hph]) (by simp [hph])
      split <;> exact hp
    · rename_i hph
      have hp := (h.host p).ph
      rw [hph] at hp
      simp only [Option.some.injEq] at hs
      subst hs
      refine inv_move h ?_ (by simp [hph]) (by simp [hph])
      split <;> exact hp
    · simp at hs
  | share p w =>
    simp only [step] at hs
    split at hs
    · rename_i l hph
      have hp := (h.host p).ph
      rw [hph] at hp
      simp only [Option.some.injEq] at hs
      subst hs
      have h1 := hp.lver
      have h2 := ha.2
      refine inv_ownWrite h ha (by omega) (by omega) (pcIdle_of_ph h (by simp [hph])) (by simp [hph]) (fun _ => ?_)
      split <;> trivial
    · simp at hs
  | clearStep p dead =>
    simp only [step] at hs
    split at hs
    · rename_i m l i live hph
      have hp := (h.host p).ph
      rw [hph] at hp
      have hp : OwnOk s p l := hp
      have hmv : ∀ ph, PhOk c s low p ph → ∃ low', Inv c (s.setPh p ph) low' :=
        fun ph hph' => inv_move h hph' (by simp [hph]) (by simp [hph])
      split at hs
      · split at hs
        · simp only [Option.some.injEq] at hs
          subst hs; exact hmv _ hp
        · rename_i hi
          split at hs
          · simp only [Option.some.injEq] at hs
            subst hs; exact hmv _ hp
          · split at hs
            · simp only [Option.some.injEq] at hs
              subst hs; exact hmv _ hp
            · split at hs
              · simp only [Option.some.injEq] at hs
                subst hs; exact hmv _ ⟨hp, fun h1 => hi (.inl h1)⟩
              · simp only [Option.some.injEq] at hs
                subst hs; exact hmv _ hp
      · simp only [Option.some.injEq] at hs
        subst hs
        refine hmv _ ?_
        cases m <;> cases live <;> first | exact hp | trivial
    · simp at hs
  | clearErr p =>
    simp only [step] at hs
    split at hs
    · rename_i m l i live hph
      have hp := (h.host p).ph
      rw [hph] at hp
      have hp : OwnOk s p l := hp
      simp only [Option.some.injEq] at hs
      subst hs
      refine inv_move h ?_ (by simp [hph]) (by simp [hph])
      cases m <;> first | exact hp | trivial
    · simp at hs
  | clearWrite p res => exact inv_clearWrite h ha hs
  | mb p w => exact inv_mb h ha hs
  | undoWrite p w =>
    simp only [step] at hs
    split at hs
    · rename_i hph
      simp only [Option.some.injEq] at hs
      subst hs
      exact inv_ownWrite h ha (Nat.le_refl _) ha.2 (pcIdle_of_ph h (by simp [hph])) (by simp [hph]) (fun _ => trivial)
    · simp at hs
  | releaseX p w =>
    simp only [step] at hs
    split at hs
    · rename_i l hph
      have hp := (h.host p).ph
      rw [hph] at hp
      simp only [Option.some.injEq] at hs
      subst hs
      have h1 := hp.lver
      have h2 := ha.2
      exact inv_ownWrite h ha (by omega) (by omega) (pcIdle_of_ph h (by simp [hph])) (by simp [hph]) (fun _ => trivial)
    · rename_i l hph
      have hp := (h.host p).ph
      rw [hph] at hp
      simp only [Option.some.injEq] at hs
      subst hs
      have h1 := hp.lver
      have h2 := ha.2
      exact inv_ownWrite h ha (by omega) (by omega) (pcIdle_of_ph h (by simp [hph])) (by simp [hph]) (fun _ => trivial)
    · simp at hs
  | ex2sh p w =>
    simp only [step] at hs
    obtain ⟨ha, hlw⟩ := ha
    split at hs
    · rename_i l hph
      have hp := (h.host p).ph
      rw [hph] at hp
      have hp : OwnOk s p l := hp
      split at hs
      · simp only [Option.some.injEq] at hs
        subst hs
        have h1 := hp.lver
        have h2 := ha.2
        refine inv_ownWrite h ha (by omega) (by omega) (pcIdle_of_ph h (by simp [hph])) (by simp [hph]) (fun _ => ⟨rfl, ?_⟩)
        obtain ⟨P, _⟩ := own_put (s := s) (p := p) (v := max l.lver (s.B.disk 0 p).lver) (fl := true) (mk := some (s.host p).gen)
          (w := w) (ph := .rel (some l) (.down l)) ha.1.1
        simp only [DownOk, P.ldr, P.gen]
        rcases hp.same with h3 | h3
        · right
          refine ⟨h3, ?_, ?_, ?_⟩
          · rw [← h3]; exact hp.ts
          · rw [← h3]; exact hp.owner
          · rw [← h3]; exact hp.gen
        · exact .inl h3
      · rename_i hres
        simp only [hres, decide_false] at hlw
        simp only [State.putOwn, hlw, Bool.false_eq_true, if_false, Option.some.injEq] at hs
        subst hs
        exact ⟨low, h⟩
    · simp at hs
  | dropX p =>
    simp only [step] at hs
    split at hs
    · rename_i hph
      simp only [Option.some.injEq] at hs
      subst hs
      exact inv_move h trivial (by simp [hph]) (by simp [hph])
    · rename_i hph
      simp only [Option.some.injEq] at hs
      subst hs
      exact inv_move h trivial (by simp [hph]) (by simp [hph])
    · simp at hs
  | relRead p => exact inv_relRead h hs
  | relErr p =>
    simp only [step] at hs
    split at hs
    · rename_i last k hph
      simp only [Option.some.injEq] at hs
      subst hs
      refine inv_move h ?_ (by simp [hph]) (by simp [hph])
      cases k with
      | down l => simp [Allowed0, hph] at ha
      | _ => trivial
    · simp at hs
  | relAgain p =>
    simp only [step] at hs
    split at hs
    · rename_i hph
      simp only [Option.some.injEq] at hs
      subst hs
      exact inv_move h trivial (by simp [hph]) (by simp [hph])
    · rename_i hph
      simp only [Option.some.injEq] at hs
      subst hs
      exact inv_move h trivial (by simp [hph]) (by simp [hph])
    · simp at hs
  | relWrite p res now => exact inv_relWriteStep hc hd h ha hs
  | releaseS p w erase =>
    simp only [step] at hs
    split at hs
    · rename_i hph
      simp only [Option.some.injEq] at hs
      subst hs
      refine inv_ownWrite h ha (Nat.le_refl _) ha.2 (pcIdle_of_ph h (by simp [hph])) (by simp [hph]) (fun _ => ?_)
      cases erase <;> trivial
    · simp at hs
  | dropS p =>
    simp only [step] at hs
    split at hs
    · rename_i hph
      simp only [Option.some.injEq] at hs
      subst hs
      exact inv_move h trivial (by simp [hph]) (by simp [hph])
    · simp at hs
  | die p =>
    simp only [step, Option.some.injEq] at hs
    subst hs
    exact ⟨low, inv_life (inv_setPc h p) (by simp) rfl rfl (.inr ⟨rfl, rfl⟩)⟩
  | join p =>
    simp only [step] at hs
    split at hs
    · simp at hs
    · rename_i hal
      simp only [Option.some.injEq] at hs
      subst hs
      have hid : (s.host p).ph = .idle := by
        refine Classical.byContradiction fun hn => ?_
        exact hal ((h.host p).alive hn).1
      exact ⟨low, inv_life h (pcIdle_of_ph h (by simp [hid])) hid rfl (.inl (Nat.lt_succ_self _))⟩

end Sanlock.Lease
