import Verif.Lemmas.MultiLeaseInv

/-!
# The other steps of the exclusive lease on several disks
-/

namespace Sanlock.MultiLease

open Sanlock.Ballot (Blk Cfg WriteRes Pc majority Sub Vote Done majority_inter majority_gt)
open Sanlock.Lease (Rec newLeader lands upd balHost)

/-! ## Steps that change only the phase -/

theorem inv_begin {c : Cfg} {s s' : State} {p : Nat} (h : Inv c s) (hs : step c s (.begin p) = some s') : Inv c s' := by
  simp only [step] at hs
  split at hs
  · rename_i hph
    split at hs
    · rename_i hcond
      simp only [Option.some.injEq] at hs
      subst hs
      exact inv_call h ((h.host p).pc (by simp [hph, Ph.inBallot])) hcond
    · simp at hs
  · simp at hs

theorem inv_ownerLive {c : Cfg} {s s' : State} {p : Nat} (h : Inv c s) (hs : step c s (.ownerLive p) = some s') : Inv c s' := by
  simp only [step] at hs
  split at hs
  · rename_i hph
    simp only [Option.some.injEq] at hs
    subst hs
    exact inv_idle h ((h.host p).pc (by simp [hph, Ph.inBallot]))
  · simp at hs

theorem inv_restart {c : Cfg} {s s' : State} {p : Nat} (h : Inv c s) (hs : step c s (.restart p) = some s') : Inv c s' := by
  simp only [step] at hs
  split at hs
  · rename_i hph
    simp only [Option.some.injEq] at hs
    subst hs
    exact inv_call h ((h.host p).pc (by simp [hph, Ph.inBallot])) ((h.host p).alive (by simp [hph]))
  · simp at hs

theorem inv_retry {c : Cfg} {s s' : State} {p : Nat} (hm : 0 < c.maxHosts) (h : Inv c s) (hs : step c s (.retry p) = some s') :
    Inv c s' := by
  have H := h.host p
  have hp := H.ph
  simp only [step] at hs
  split at hs
  · rename_i cur mbal hph hpc
    rw [hph] at hp
    simp only [Option.some.injEq] at hs
    subst hs
    refine inv_setPh h (phOk_setPh (by simp [hph, Ph.own]) ?_) (fun _ => H.alive (by simp [hph])) (fun _ => hpc)
    obtain ⟨h1, h2, h3, h4, _⟩ := hp
    refine ⟨h1, h2, ⟨by have := h3.pos; unfold Ballot.retryMbal; omega, ?_⟩, ?_⟩
    · unfold Ballot.retryMbal; rw [Nat.add_mod_right]; exact h3.res
    · intro v hv hvp hvl
      have := h4 v hv hvp hvl
      unfold Ballot.retryMbal
      omega
  · simp at hs

theorem inv_abort {c : Cfg} {s s' : State} {p : Nat} (h : Inv c s) (hs : step c s (.abort p) = some s') : Inv c s' := by
  simp only [step] at hs
  split at hs
  case h_5 =>
    simp only [Option.some.injEq] at hs
    subst hs
    exact inv_leave h p (fun h => h) (.inl rfl) (by simp)
  case h_6 => simp at hs
  all_goals
    rename_i hph
    simp only [Option.some.injEq] at hs
    subst hs
    exact inv_idle h ((h.host p).pc (by simp [hph, Ph.inBallot]))

theorem inv_retract {c : Cfg} {s s' : State} {p : Nat} (h : Inv c s) (hs : step c s (.retract p) = some s') : Inv c s' := by
  simp only [step] at hs
  split at hs
  · rename_i hph
    simp only [Option.some.injEq] at hs
    subst hs
    exact inv_leave h p (fun h => h) (.inr ⟨_, rfl⟩) (fun _ => (h.host p).alive (by simp [hph]))
  · simp at hs

theorem inv_dropX {c : Cfg} {s s' : State} {p : Nat} (h : Inv c s) (hs : step c s (.dropX p) = some s') : Inv c s' := by
  simp only [step] at hs
  split at hs
  · rename_i hph
    simp only [Option.some.injEq] at hs
    subst hs
    exact inv_idle h ((h.host p).pc (by simp [hph, Ph.inBallot]))
  · simp at hs

theorem inv_relErr {c : Cfg} {s s' : State} {p : Nat} (h : Inv c s) (hs : step c s (.relErr p) = some s') : Inv c s' := by
  simp only [step] at hs
  split at hs
  · rename_i hph
    simp only [Option.some.injEq] at hs
    subst hs
    exact inv_idle h ((h.host p).pc (by simp [hph, Ph.inBallot]))
  · simp at hs

theorem inv_relWEnd {c : Cfg} {s s' : State} {p : Nat} (h : Inv c s) (hs : step c s (.relWEnd p) = some s') : Inv c s' := by
  simp only [step] at hs
  split at hs
  · rename_i hph
    have hpc := (h.host p).pc (by simp [hph, Ph.inBallot])
    have hal := (h.host p).alive (by simp [hph])
    split at hs
    · simp at hs
    · split at hs
      · simp only [Option.some.injEq] at hs
        subst hs
        exact inv_idle h hpc
      · simp only [Option.some.injEq] at hs
        subst hs
        exact inv_rel h hpc hal _
  · simp at hs

theorem inv_die {c : Cfg} {s s' : State} {p : Nat} (h : Inv c s) (hs : step c s (.die p) = some s') : Inv c s' := by
  simp only [step, Option.some.injEq] at hs
  subst hs
  exact inv_leave h p (by simp) (.inl rfl) (by simp)

theorem inv_join {c : Cfg} {s s' : State} {p : Nat} (h : Inv c s) (hs : step c s (.join p) = some s') : Inv c s' := by
  have H := h.host p
  simp only [step] at hs
  split at hs
  · simp at hs
  · rename_i hal
    simp only [Option.some.injEq] at hs
    subst hs
    have hph : (s.host p).ph = .idle := Classical.byContradiction fun hn => hal (H.alive hn).1
    refine inv_setHost h ⟨by simp, fun hg => by simp at hg, Nat.le_refl _⟩ ?_ ?_ ?_ H.full ?_
    · simp only [hph]; trivial
    · simp [hph]
    · intro _; exact H.pc (by simp [hph, Ph.inBallot])
    · exact H.log

theorem inv_release {c : Cfg} {s s' : State} {p : Nat} {res : WriteRes} (h : Inv c s)
    (hs : step c s (.release p res) = some s') : Inv c s' := by
  have G := h.glob
  have H := h.host p
  have hp := H.ph
  simp only [step] at hs
  split at hs
  · rename_i l hph
    rw [hph] at hp
    have hpc := H.pc (by simp [hph, Ph.inBallot])
    have hal := H.alive (by simp [hph])
    simp only [Option.some.injEq] at hs
    subst hs
    have hlat := fun q => later_setHost (s := { s with flag := if lands res then upd s.flag p true else s.flag }) (p := p)
      (later_max (h := s.host p) (n := (s.host p).ph.own) (ph := .rel (some l) 0 [])) q
    have hown : (s.host p).ph.own = l.lver := by rw [hph]; rfl
    have hrel := hp.1
    refine inv_of_only (p := p) h ⟨?_, fun _ _ => rfl, fun _ _ _ => rfl, ?_, fun _ h => h, fun _ h => .inl h, fun _ h => h,
      fun _ h => .inl h, fun _ h => h, fun _ => Nat.le_refl _, fun _ _ _ => gone_mono hlat⟩
      (glob_hosts G rfl rfl rfl hlat) ⟨?_, ?_, ?_, ?_, ?_, ?_, ?_, ?_, ?_, ?_⟩
    · intro q hq; simp [State.setPh, setHost_host, hq]
    · intro q hq
      simp only [State.setPh, State.setHost]
      split
      · rw [Sanlock.Lease.upd_apply, if_neg hq]
      · rfl
    · simp only [State.setPh, setHost_self]; exact ⟨seen_nil _ _, Nat.zero_le _⟩
    · simp only [State.setPh, setHost_self]; intro _; exact hal
    · simp only [State.setPh, setHost_self]; intro _; exact hpc
    · intro v hv hvp; simp only [State.setPh, setHost_self]; have := H.votes v hv hvp; omega
    · intro d; simp only [State.setPh, setHost_self]; have := H.disk d; exact Nat.le_trans this (by omega)
    · simp only [State.setPh, setHost_self]; exact full_own h
    · intro e he hep; simp only [State.setPh, setHost_self]; exact .inl (log_own h e he hep)
    · intro _ v hv hvp
      simp only [State.setPh, setHost_self]
      have := H.votes v hv hvp
      omega
    · intro d w hw; simp only [State.setPh, State.setHost] at hw; rw [hpc] at hw; cases hw
    · intro d w1 r buf mx hw; simp only [State.setPh, State.setHost] at hw; rw [hpc] at hw; cases hw
  · simp at hs

theorem inv_relEnd {c : Cfg} {s s' : State} {p : Nat} (h : Inv c s) (hs : step c s (.relEnd p) = some s') : Inv c s' := by
  have G := h.glob
  have H := h.host p
  have hp := H.ph
  simp only [step] at hs
  split at hs
  · rename_i last d got hph
    rw [hph] at hp
    have hpc := H.pc (by simp [hph, Ph.inBallot])
    have hal := H.alive (by simp [hph])
    split at hs
    · simp at hs
    split at hs
    · simp only [Option.some.injEq] at hs; subst hs; exact inv_idle h hpc
    · rename_i l hl
      split at hs
      · simp only [Option.some.injEq] at hs; subst hs; exact inv_idle h hpc
      split at hs
      · simp only [Option.some.injEq] at hs; subst hs; exact inv_idle h hpc
      split at hs
      · simp only [Option.some.injEq] at hs; subst hs; exact inv_idle h hpc
      split at hs
      · simp only [Option.some.injEq] at hs; subst hs; exact inv_idle h hpc
      split at hs
      · simp only [Option.some.injEq] at hs; subst hs; exact inv_idle h hpc
      · rename_i hts hown _
        simp only [Option.some.injEq] at hs
        subst hs
        obtain ⟨k1, _, k3⟩ := pick_logged G hp.1 hp.2 hl
        have ho : l.owner = p + 1 := Classical.byContradiction fun hn => hown (.inl hn)
        have hg : l.gen = (s.host p).gen := Classical.byContradiction fun hn => hown (.inr hn)
        have hlog : Logged s l.lver l.owner l.gen := by
          rcases k1 with h1 | h1
          · exact absurd h1.2 hts
          · exact h1
        refine inv_setHost h later_max ?_ (fun _ => hal) (fun _ => hpc) ?_ ?_
        · refine ⟨?_, ho, ?_, hlog, Nat.zero_le _⟩
          · rw [setHost_self]; simp only; omega
          · rw [setHost_self]; exact hg
        · simp only
          by_cases hm : (s.host p).relv ≤ l.lver
          · rw [Nat.max_eq_right hm]; exact k3
          · rw [Nat.max_eq_left (by omega)]; exact H.full
        · intro e he hep
          have := log_own h e he hep
          rw [hph] at this
          simp only [Ph.own] at this
          left; simp only; omega
  · simp at hs

theorem inv_commitStart {c : Cfg} {s s' : State} {p now : Nat} (hc : c.hosts ≤ c.maxHosts) (h : Inv c s)
    (hal : Allowed c s (.commitStart p now)) (hs : step c s (.commitStart p now) = some s') : Inv c s' := by
  have G := h.glob
  have H := h.host p
  have hp := H.ph
  simp only [step] at hs
  split at hs
  · rename_i cur mbal w1 w hph hpc
    rw [hph] at hp
    simp only [Option.some.injEq] at hs
    subst hs
    obtain ⟨h1, h2, h3, h4, h5⟩ := hp
    obtain ⟨k1, _, _⟩ := h5 (by simp [hpc])
    refine inv_setPh h (phOk_setPh (by simp [hph, Ph.own]) ?_) (fun _ => H.alive (by simp [hph])) (fun hn => absurd trivial hn)
    refine ⟨?_, Ballot.Sub.nil _, Nat.zero_le _, by simp, ?_, ?_, ?_⟩
    · rw [h1.relv]; exact k1.symm
    · obtain ⟨_, hlat, _⟩ := (Ballot.inv_reach hc G.reach).won p w1 w hpc
      obtain ⟨v, hv, _, _, _, hval, _⟩ := hlat.vote
      have := G.voteTs v hv
      rw [hval] at this
      exact this
    · exact hal
    · exact ⟨w1, w, hpc, rfl, rfl, rfl⟩
  · simp at hs

/-! ## Writing the leader record -/

/-- A copy of the record `l` reaches disk `d`, or the ballot with the value of `l` counts as completed, or both. -/
theorem glob_leader {c : Cfg} {s s' : State} {l : Rec} {d : Nat} (hc : c.hosts ≤ c.maxHosts) (G : Glob c s)
    (hr : Ballot.Reach c s'.B) (hv : s'.B.votes = s.B.votes) (hvote : ∃ v ∈ s.B.votes, v.lver = l.lver)
    (hlog : s'.B.log = s.B.log ∨ ∃ e, s'.B.log = e :: s.B.log ∧ e.blk.lver = l.lver ∧ e.blk.inp = l.owner ∧ e.blk.inp2 = l.gen)
    (hval : ∀ e ∈ s.B.log, e.blk.lver = l.lver → e.blk.inp = l.owner ∧ e.blk.inp2 = l.gen)
    (hw : s'.wrote = s.wrote ∨ (s'.wrote = ⟨d, l.lver, l.owner, l.gen⟩ :: s.wrote ∧ d < c.disks ∧ l.lver ≤ (s'.ldr d).lver))
    (hld : ∀ x, s'.ldr x = s.ldr x ∨ (x = d ∧ (s'.ldr x).lver = l.lver ∧ (s'.ldr x).owner = l.owner ∧ (s'.ldr x).gen = l.gen ∧
      ⟨x, l.lver, l.owner, l.gen⟩ ∈ s'.wrote ∧ (s.ldr x).lver ≤ l.lver ∧
      ((s'.ldr x).ts = 0 → Gone s' l.lver l.owner l.gen)))
    (hfull : Full c s' l.lver → ∃ e ∈ s'.B.log, e.blk.lver = l.lver)
    (hlfull : ∀ e ∈ s'.B.log, e.blk.lver = l.lver → Full c s' l.lver)
    (hh : ∀ q, Later (s.host q) (s'.host q)) : Glob c s' := by
  have hg : ∀ n o g, Gone s n o g → Gone s' n o g := fun _ _ _ => gone_mono hh
  have hsub : ∀ e ∈ s.B.log, e ∈ s'.B.log := by
    intro e he
    rcases hlog with h1 | ⟨_, h1, _⟩
    · rw [h1]; exact he
    · rw [h1]; exact List.mem_cons_of_mem _ he
  have hnew : ∀ e ∈ s'.B.log, e ∈ s.B.log ∨ (e.blk.lver = l.lver ∧ e.blk.inp = l.owner ∧ e.blk.inp2 = l.gen) := by
    intro e he
    rcases hlog with h1 | ⟨_, h1, h2⟩
    · rw [h1] at he; exact .inl he
    · rw [h1] at he
      rcases List.mem_cons.mp he with rfl | h3
      · exact .inr h2
      · exact .inl h3
  have hwsub : ∀ x ∈ s.wrote, x ∈ s'.wrote := by
    intro x hx
    rcases hw with h1 | ⟨h1, _⟩
    · rw [h1]; exact hx
    · rw [h1]; exact List.mem_cons_of_mem _ hx
  have hwnew : ∀ x ∈ s'.wrote, x ∈ s.wrote ∨ (x = ⟨d, l.lver, l.owner, l.gen⟩ ∧ d < c.disks ∧ l.lver ≤ (s'.ldr d).lver) := by
    intro x hx
    rcases hw with h1 | ⟨h1, h2⟩
    · rw [h1] at hx; exact .inl hx
    · rw [h1] at hx; exact (List.mem_cons.mp hx).symm.imp id (fun h => ⟨h, h2⟩)
  have hmono : ∀ x, (s.ldr x).lver ≤ (s'.ldr x).lver := by
    intro x
    rcases hld x with h1 | ⟨_, h1, _, _, _, h2, _⟩
    · rw [h1]; exact Nat.le_refl _
    · omega
  have hbad : ∀ o g, (o = l.owner ∧ g = l.gen) → ∀ S : List Nat,
      (∀ x ∈ S, ∃ y ∈ s'.wrote, y.disk = x ∧ y.lver = l.lver ∧ ¬ (y.owner = o ∧ y.gen = g)) →
      ∀ x ∈ S, ∃ y ∈ s.wrote, y.disk = x ∧ y.lver = l.lver ∧ ¬ (y.owner = o ∧ y.gen = g) := by
    rintro o g ⟨rfl, rfl⟩ S hS x hx
    obtain ⟨y, hy, h1, h2, h3⟩ := hS x hx
    rcases hwnew y hy with h4 | h4
    · exact ⟨y, h4, h1, h2, h3⟩
    · rw [h4.1] at h3; exact absurd ⟨rfl, rfl⟩ h3
  refine ⟨hr, ?_, by rw [hv]; exact G.voteTs, ?_, ?_, ?_, ?_, ?_, ?_, ?_⟩
  · rw [hv]
    intro v hv'
    refine ⟨(G.vote v hv').1, (G.vote v hv').2.imp id ?_⟩
    rintro ⟨e, he, h1, h2⟩
    exact ⟨e, hsub e he, h1, hg _ _ _ h2⟩
  · rw [hv]
    intro v hv'
    have := G.voteGen v hv'
    exact ⟨this.1, Nat.le_trans this.2 (hh _).gen⟩
  · intro x hx
    rw [hv]
    rcases hwnew x hx with h1 | h1
    · obtain ⟨k1, k2, k3⟩ := G.wrote x h1
      exact ⟨k1, Nat.le_trans k2 (hmono _), k3⟩
    · rw [h1.1]; exact ⟨h1.2.1, h1.2.2, hvote⟩
  · intro x hx
    rcases hld x with h1 | ⟨_, h1, h2, h3, h4, _⟩
    · rw [h1]; exact (G.onDisk x hx).imp id (hwsub _)
    · right; rw [h1, h2, h3]; exact h4
  · intro x hts
    rcases hld x with h1 | ⟨_, h1, h2, h3, _, _, h5⟩
    · rw [h1] at hts ⊢; exact (G.free x hts).imp id (hg _ _ _)
    · right; rw [h1, h2, h3]; exact h5 hts
  · intro n hn hf
    rcases Nat.lt_trichotomy n l.lver with h1 | h1 | h1
    · obtain ⟨v, hv', h2⟩ := hvote
      obtain ⟨e, he, h3, _⟩ := chain hc G hv' h2 hn h1
      exact ⟨e, hsub e he, h3⟩
    · rw [h1] at hf ⊢; exact hfull hf
    · obtain ⟨S, hS, hm, hSd⟩ := hf
      have : Full c s n := by
        refine ⟨S, hS, hm, fun x hx => ?_⟩
        have h2 := hSd x hx
        rcases hld x with h3 | ⟨_, h3, _⟩
        · rw [h3] at h2; exact h2
        · omega
      obtain ⟨e, he, h3⟩ := G.fullLog n hn this
      exact ⟨e, hsub e he, h3⟩
  · intro e he
    by_cases h1 : e.blk.lver = l.lver
    · rw [h1]; exact hlfull e he h1
    · rcases hnew e he with h2 | h2
      · exact (G.logFull e h2).mono hmono
      · exact absurd h2.1 h1
  · intro e he S hS hx
    by_cases h1 : e.blk.lver = l.lver
    · have hev : e.blk.inp = l.owner ∧ e.blk.inp2 = l.gen := by
        rcases hnew e he with h2 | h2
        · exact hval e h2 h1
        · exact h2.2
      rw [h1] at hx
      have hx' := hbad _ _ hev S hx
      by_cases hex : ∃ e' ∈ s.B.log, e'.blk.lver = l.lver
      · obtain ⟨e', he', h2⟩ := hex
        have hev' := hval e' he' h2
        refine G.bad e' he' S hS ?_
        rw [h2, hev'.1, hev'.2, ← hev.1, ← hev.2]
        exact hx'
      · cases hm : majority c.disks S.length with
        | false => rfl
        | true =>
          obtain ⟨v, hv', h4⟩ := hvote
          have h5 := (G.vote v hv').1
          exact absurd (G.fullLog l.lver (by omega) ⟨S, hS, hm, fun x hxS => by
            obtain ⟨y, hy, h6, h7, _⟩ := hx' x hxS
            have := (G.wrote y hy).2.1
            rw [h6] at this
            omega⟩) hex
    · have heo : e ∈ s.B.log := by
        rcases hnew e he with h2 | h2
        · exact h2
        · exact absurd h2.1 h1
      refine G.bad e heo S hS ?_
      intro x hxS
      obtain ⟨y, hy, h2, h3, h4⟩ := hx x hxS
      rcases hwnew y hy with h5 | h5
      · exact ⟨y, h5, h2, h3, h4⟩
      · rw [h5.1] at h3; exact absurd h3.symm h1

/-- The part of the invariant about the hosts, when host `p` writes the leader record. -/
theorem inv_leader {c : Cfg} {s s' : State} {p : Nat} {h' : Host} (h : Inv c s) (G' : Glob c s')
    (hhost : s'.host = upd s.host p h') (hlat : Later (s.host p) h') (hflag : s'.flag = s.flag)
    (hproc : ∀ q, q ≠ p → s'.B.proc q = s.B.proc q) (hdisk : s'.B.disk = s.B.disk) (hv : s'.B.votes = s.B.votes)
    (hlog : ∀ e ∈ s.B.log, e ∈ s'.B.log) (hlog' : ∀ e ∈ s'.B.log, e ∈ s.B.log ∨ e.host = p)
    (hw : ∀ x ∈ s.wrote, x ∈ s'.wrote) (hld : ∀ d, (s.ldr d).lver ≤ (s'.ldr d).lver) (hph : PhOk c s' p h'.ph)
    (hal : h'.ph ≠ .idle → h'.alive = true ∧ p < c.hosts) (hpc : ¬ h'.ph.inBallot → (s'.B.proc p).pc = .idle)
    (hpc' : (s'.B.proc p).pc = (s.B.proc p).pc ∨ (s'.B.proc p).pc = .idle) (hfull : Full c s' h'.relv)
    (hlogp : ∀ e ∈ s'.B.log, e.host = p → e.blk.lver ≤ h'.relv ∨ (e.blk.lver = h'.relv + 1 ∧ h'.ph.own = e.blk.lver)) :
    Inv c s' := by
  have H := h.host p
  have hr := hlat.relv
  have hself : s'.host p = h' := by rw [hhost]; simp [upd]
  have hlat' : ∀ q, Later (s.host q) (s'.host q) := by
    intro q
    rw [hhost, Sanlock.Lease.upd_apply]
    split
    · rename_i hq; rw [hq]; exact hlat
    · exact .rfl'
  refine inv_of_only (p := p) h ⟨?_, hproc, fun _ _ _ => by rw [hdisk], fun _ _ => by rw [hflag], by rw [hv]; exact fun _ h => h,
    by rw [hv]; exact fun _ h => .inl h, hlog, hlog', hw, hld, fun _ _ _ => gone_mono hlat'⟩ G' ⟨?_, ?_, ?_, ?_, ?_, ?_, ?_, ?_, ?_, ?_⟩
  · intro q hq; rw [hhost, Sanlock.Lease.upd_apply, if_neg hq]
  · rw [hself]; exact hph
  · rw [hself]; exact hal
  · rw [hself]; exact hpc
  · rw [hself, hv]; intro v hv' hvp; have := H.votes v hv' hvp; omega
  · rw [hself, hdisk]; intro d; have := H.disk d; omega
  · rw [hself]; exact hfull
  · rw [hself]; exact hlogp
  · rw [hself, hv, hflag]; intro hf v hv' hvp; have := H.flag hf v hv' hvp; omega
  · rw [hflag]
    intro d w hw
    rcases hpc' with h1 | h1
    · rw [h1] at hw; exact H.flag1 d w hw
    · rw [h1] at hw; cases hw
  · rw [hflag]
    intro d w1 r buf mx hw
    rcases hpc' with h1 | h1
    · rw [h1] at hw; exact H.flag2 d w1 r buf mx hw
    · rw [h1] at hw; cases hw

theorem wins_vote {c : Cfg} {s : State} (hc : c.hosts ≤ c.maxHosts) (G : Glob c s) {p : Nat} {l : Rec} (h : Wins s p l) :
    ∃ v ∈ s.B.votes, v.lver = l.lver := by
  obtain ⟨w1, w, hpc, h1, _⟩ := h
  obtain ⟨_, hlat, _⟩ := (Ballot.inv_reach hc G.reach).won p w1 w hpc
  obtain ⟨v, hv, _, h2, _⟩ := hlat.vote
  exact ⟨v, hv, by omega⟩

theorem logged_vote {c : Cfg} {s : State} (hc : c.hosts ≤ c.maxHosts) (G : Glob c s) {n o g : Nat} (h : Logged s n o g) :
    ∃ v ∈ s.B.votes, v.lver = n := by
  obtain ⟨e, he, h1, _⟩ := h
  obtain ⟨v, hv, h2, _⟩ := (Ballot.inv_reach hc G.reach).logVote e he
  exact ⟨v, hv, by omega⟩

/-- What `State.log` does for a host that has won. -/
theorem log_eq {c : Cfg} {s : State} {p : Nat} {w1 w : List Nat} (h : (s.B.proc p).pc = .won w1 w) :
    s.log c p = { s with B := { s.B.setPc p .idle with log := ⟨p, (s.B.proc p).dblock, w⟩ :: s.B.log } } := by
  simp only [State.log, Ballot.step, h]

theorem lands_of_ok {res : WriteRes} (h : res = .ok) : lands res = true := by rw [h]; rfl

theorem putLdr_ldr (s : State) (d : Nat) (l : Rec) (x : Nat) : (s.putLdr d l).ldr x = if x = d then l else s.ldr x := rfl

theorem setPh_same {s : State} {p : Nat} {ph : Ph} (h0 : (s.host p).ph.own = 0) :
    s.setPh p ph = s.setHost p { s.host p with ph := ph } := by
  simp [State.setPh, h0]

theorem inBallot_commit {l : Rec} {d d' : Nat} {w w' : List Nat} {lg : Bool} (h : ¬ (Ph.commit l d w lg).inBallot) :
    ¬ (Ph.commit l d' w' lg).inBallot := by
  cases lg <;> exact h

theorem own_commit (l : Rec) (d d' : Nat) (w w' : List Nat) (lg : Bool) : (Ph.commit l d w lg).own = (Ph.commit l d' w' lg).own := by
  cases lg <;> rfl

theorem inv_commitWrite {c : Cfg} {s s' : State} {p : Nat} {res : WriteRes} (hc : c.hosts ≤ c.maxHosts) (h : Inv c s)
    (hal : Allowed c s (.commitWrite p res)) (hs : step c s (.commitWrite p res) = some s') : Inv c s' := by
  have G := h.glob
  have H := h.host p
  have hp := H.ph
  simp only [step] at hs
  split at hs
  · rename_i l d w lg hph
    rw [hph] at hp
    simp only [Allowed, hph] at hal
    have halv := H.alive (by simp [hph])
    obtain ⟨hrel, hsub, hdd, hwd, hts, hown, hlg⟩ := hp
    have hsub' : Sub (if res = .ok then d :: w else w) (d + 1) := by
      split
      · exact hsub.cons
      · exact hsub.mono (by omega)
    split at hs
    · rename_i hd
      by_cases hla : lands res = true
      · rw [if_pos hla] at hs
        have hle := hal hla
        have hmono : ∀ x, (s.ldr x).lver ≤ ((s.putLdr d l).ldr x).lver := by
          intro x
          rw [putLdr_ldr]
          split
          · rename_i hx; rw [hx]; exact hle
          · exact Nat.le_refl _
        have hwd' : ∀ x ∈ (if res = .ok then d :: w else w), l.lver ≤ ((s.putLdr d l).ldr x).lver := by
          intro x hx
          rw [putLdr_ldr]
          split
          · exact Nat.le_refl _
          · rename_i hxd
            split at hx
            · rcases List.mem_cons.mp hx with h1 | h1
              · exact absurd h1 hxd
              · exact hwd x h1
            · exact hwd x hx
        have hldr : ∀ s1 : State, s1.ldr = (s.putLdr d l).ldr → s1.wrote = (s.putLdr d l).wrote → ∀ x, s1.ldr x = s.ldr x ∨
            (x = d ∧ (s1.ldr x).lver = l.lver ∧ (s1.ldr x).owner = l.owner ∧ (s1.ldr x).gen = l.gen ∧
            ⟨x, l.lver, l.owner, l.gen⟩ ∈ s1.wrote ∧ (s.ldr x).lver ≤ l.lver ∧ ((s1.ldr x).ts = 0 → Gone s1 l.lver l.owner l.gen)) := by
          intro s1 e1 e2 x
          rw [e1, e2, putLdr_ldr]
          split
          · rename_i hx
            right
            rw [hx]
            exact ⟨rfl, rfl, rfl, rfl, List.mem_cons_self, hle, fun h0 => absurd h0 hts⟩
          · exact .inl rfl
        split at hs
        · -- the record is now on a majority of the disks: the ballot counts as completed
          rename_i hcond
          obtain ⟨hlf, hfu⟩ := hcond
          subst hlf
          simp only [Bool.false_eq_true, if_false] at hlg
          have hvote := wins_vote hc G hlg
          obtain ⟨w1, w2, hpc, k1, k2, k3⟩ := id hlg
          have hpc1 : ((s.putLdr d l).B.proc p).pc = .won w1 w2 := hpc
          rw [log_eq hpc1] at hs
          simp only [Option.some.injEq] at hs
          subst hs
          have hfu' : Full c (s.putLdr d l) l.lver := full_iff.mp hfu
          have hr : Ballot.Reach c { s.B.setPc p .idle with log := ⟨p, (s.B.proc p).dblock, w2⟩ :: s.B.log } :=
            .step (a := .leaderWritten p) G.reach trivial (by simp only [Ballot.step, hpc])
          rw [setPh_same (by show (s.host p).ph.own = 0; rw [hph]; rfl)]
          have hlat : Later (s.host p) { s.host p with ph := .commit l (d + 1) (if res = .ok then d :: w else w) true } :=
            ⟨Nat.le_refl _, fun _ h => h, Nat.le_refl _⟩
          refine inv_leader (p := p) (h' := { s.host p with ph := .commit l (d + 1) (if res = .ok then d :: w else w) true }) h (glob_leader (l := l) (d := d) hc G hr rfl hvote (.inr ⟨_, rfl, k1, k2, k3⟩)
              (fun e he hl => wins_unique hc G hlg he hl) (.inr ⟨rfl, hd, ?_⟩) (hldr _ rfl rfl) ?_ ?_ ?_)
            rfl hlat rfl ?_ rfl rfl ?_ ?_ ?_ hmono ?_ (fun _ => halv) ?_ ?_ ?_ ?_
          · show l.lver ≤ ((s.putLdr d l).ldr d).lver
            rw [putLdr_ldr, if_pos rfl]; exact Nat.le_refl _
          · intro _; exact ⟨_, List.mem_cons_self, k1⟩
          · intro e _ _; exact hfu'
          · intro q; exact later_setHost (s := { s with B := _, ldr := _, wrote := _ }) hlat q
          · intro q hq; simp [State.setPh, State.setHost, State.putLdr, Ballot.State.setPc, Ballot.State.setProc, hq]
          · intro e he; exact List.mem_cons_of_mem _ he
          · intro e he
            rcases List.mem_cons.mp he with rfl | h1
            · exact .inr rfl
            · exact .inl h1
          · intro x hx; exact List.mem_cons_of_mem _ hx
          · refine ⟨?_, hsub', hd, hwd', hts, ?_, ?_⟩
            · simp only [setHost_self]; exact hrel
            · simp only [setHost_self]; exact hown
            · simp only [if_true]; exact ⟨_, List.mem_cons_self, k1, k2, k3⟩
          · intro _; simp [State.setHost, State.putLdr]
          · right; simp [State.setHost, State.putLdr]
          · exact H.full.mono hmono
          · intro e he hep
            simp only [Ph.own]
            rcases List.mem_cons.mp he with rfl | h1
            · right; exact ⟨k1.trans hrel.symm, k1.symm⟩
            · rcases H.log e h1 hep with h2 | h2
              · exact .inl h2
              · rw [hph] at h2; simp only [Ph.own] at h2; omega
        · rename_i hcond
          simp only [Option.some.injEq] at hs
          subst hs
          have hvote : ∃ v ∈ s.B.votes, v.lver = l.lver := by
            cases lg with
            | false => exact wins_vote hc G hlg
            | true => exact logged_vote hc G hlg
          have hval : ∀ e ∈ s.B.log, e.blk.lver = l.lver → e.blk.inp = l.owner ∧ e.blk.inp2 = l.gen := by
            cases lg with
            | false => exact fun e he hl => wins_unique hc G hlg he hl
            | true =>
              intro e he hl
              exact logged_unique hc G ⟨e, he, hl, rfl, rfl⟩ hlg
          have hlat : Later (s.host p) { s.host p with ph := .commit l (d + 1) (if res = .ok then d :: w else w) lg } :=
            ⟨Nat.le_refl _, fun _ h => h, Nat.le_refl _⟩
          refine inv_leader (p := p) h (glob_leader (l := l) (d := d) hc G G.reach rfl hvote (.inl rfl) hval (.inr ⟨rfl, hd, ?_⟩)
              (hldr _ rfl rfl) ?_ ?_ ?_)
            rfl hlat rfl (fun _ _ => rfl) rfl rfl (fun _ h => h) (fun _ h => .inl h) ?_ hmono ?_ (fun _ => halv) ?_ (.inl rfl) ?_ ?_
          · show l.lver ≤ ((s.putLdr d l).ldr d).lver
            rw [putLdr_ldr, if_pos rfl]; exact Nat.le_refl _
          · intro hf
            cases lg with
            | false => exact absurd ⟨rfl, full_iff.mpr hf⟩ hcond
            | true => obtain ⟨e, he, h1, _⟩ := hlg; exact ⟨e, he, h1⟩
          · intro e he hl
            rw [← hl]
            exact (G.logFull e he).mono hmono
          · intro q; exact later_setHost (s := s.putLdr d l) hlat q
          · intro x hx; exact List.mem_cons_of_mem _ hx
          · refine ⟨?_, hsub', hd, hwd', hts, ?_, hlg⟩
            · simp only [setHost_self]; exact hrel
            · simp only [setHost_self]; exact hown
          · intro hn
            refine H.pc ?_
            rw [hph]
            exact inBallot_commit hn
          · exact H.full.mono hmono
          · intro e he hep
            have := H.log e he hep
            rw [hph, own_commit l d (d + 1) w (if res = .ok then d :: w else w) lg] at this
            exact this
      · rw [if_neg hla] at hs
        simp only [Option.some.injEq] at hs
        subst hs
        have hres : ¬ res = .ok := fun hr => hla (lands_of_ok hr)
        rw [if_neg hres]
        refine inv_setHost h ⟨Nat.le_refl _, fun _ h => h, Nat.le_refl _⟩ ?_ (fun _ => halv) ?_ H.full ?_
        · refine ⟨?_, hsub.mono (by omega), hd, hwd, hts, ?_, hlg⟩
          · rw [setHost_self]; exact hrel
          · rw [setHost_self]; exact hown
        · intro hn
          refine H.pc ?_
          rw [hph]
          exact inBallot_commit hn
        · intro e he hep
          have := H.log e he hep
          rw [hph, own_commit l d (d + 1) w w lg] at this
          exact this
    · simp at hs
  · simp at hs

/-- The end of the acquire: the record is on a majority of the disks, and so the ballot counts as completed. -/
theorem inv_log {c : Cfg} {s : State} {p : Nat} {l : Rec} {d : Nat} {w : List Nat} (hc : c.hosts ≤ c.maxHosts) (h : Inv c s)
    (hph : (s.host p).ph = .commit l d w false) (hm : majority c.disks w.length = true) :
    Inv c ((s.log c p).setHost p { s.host p with ph := .commit l d w true }) := by
  have G := h.glob
  have H := h.host p
  have hp := H.ph
  rw [hph] at hp
  have halv := H.alive (by simp [hph])
  obtain ⟨hrel, hsub, hdd, hwd, hts, hown, hlg⟩ := hp
  simp only [Bool.false_eq_true, if_false] at hlg
  have hvote := wins_vote hc G hlg
  obtain ⟨w1, w2, hpc, k1, k2, k3⟩ := id hlg
  have hfu : Full c s l.lver := ⟨w, hsub.mono hdd, hm, hwd⟩
  rw [log_eq hpc]
  have hr : Ballot.Reach c { s.B.setPc p .idle with log := ⟨p, (s.B.proc p).dblock, w2⟩ :: s.B.log } :=
    .step (a := .leaderWritten p) G.reach trivial (by simp only [Ballot.step, hpc])
  have hlat : Later (s.host p) { s.host p with ph := .commit l d w true } := ⟨Nat.le_refl _, fun _ h => h, Nat.le_refl _⟩
  refine inv_leader (p := p) h (glob_leader (l := l) (d := 0) hc G hr rfl hvote (.inr ⟨_, rfl, k1, k2, k3⟩)
      (fun e he hl => wins_unique hc G hlg he hl) (.inl rfl) (fun _ => .inl rfl) ?_ ?_ ?_)
    rfl hlat rfl ?_ rfl rfl ?_ ?_ (fun _ h => h) (fun _ => Nat.le_refl _) ?_ (fun _ => halv) ?_ ?_ H.full ?_
  · intro _; exact ⟨_, List.mem_cons_self, k1⟩
  · intro e _ _; exact hfu
  · intro q; exact later_setHost (s := { s with B := _ }) hlat q
  · intro q hq; simp [State.setHost, Ballot.State.setPc, Ballot.State.setProc, hq]
  · intro e he; exact List.mem_cons_of_mem _ he
  · intro e he
    rcases List.mem_cons.mp he with rfl | h1
    · exact .inr rfl
    · exact .inl h1
  · refine ⟨?_, hsub, hdd, hwd, hts, ?_, ?_⟩
    · simp only [setHost_self]; exact hrel
    · simp only [setHost_self]; exact hown
    · simp only [if_true]; exact ⟨_, List.mem_cons_self, k1, k2, k3⟩
  · intro _; simp [State.setHost]
  · right; simp [State.setHost]
  · intro e he hep
    simp only [Ph.own]
    rcases List.mem_cons.mp he with rfl | h1
    · right; simp only; omega
    · rcases H.log e h1 hep with h2 | h2
      · exact .inl h2
      · rw [hph] at h2; simp only [Ph.own] at h2; omega

/-- The end of the acquire, when the ballot counts as completed already. -/
theorem inv_granted {c : Cfg} {s : State} {p : Nat} {l : Rec} {d : Nat} {w : List Nat} (h : Inv c s)
    (hph : (s.host p).ph = .commit l d w true) :
    Inv c (if l.owner = p + 1 then s.setHost p { s.host p with ph := .held l }
      else s.setHost p { s.host p with ph := .idle, relv := max (s.host p).relv l.lver }) := by
  have H := h.host p
  have hp := H.ph
  rw [hph] at hp
  have halv := H.alive (by simp [hph])
  have hpc := H.pc (by simp [hph, Ph.inBallot])
  obtain ⟨hrel, hsub, hdd, hwd, hts, hown, hlg⟩ := hp
  simp only [if_true] at hlg
  split
  · rename_i ho
    refine inv_setHost h ⟨Nat.le_refl _, fun _ h => h, Nat.le_refl _⟩ ?_ (fun _ => halv) (fun _ => hpc) H.full ?_
    · refine ⟨?_, ?_⟩
      · rw [setHost_self]; exact hrel
      · rw [setHost_self, ← ho]; simp only; rw [← hown ho]; exact hlg
    · intro e he hep
      have := H.log e he hep
      rw [hph] at this
      exact this
  · have : Inv c (s.setPh p .idle) := inv_idle h hpc
    simp only [State.setPh, hph, Ph.own] at this
    exact this

theorem upd_upd {α : Type} (f : Nat → α) (p : Nat) (a b : α) : upd (upd f p a) p b = upd f p b := by
  funext x
  simp only [Sanlock.Lease.upd_apply]
  split <;> rfl

theorem inv_commitEnd {c : Cfg} {s s' : State} {p : Nat} (hc : c.hosts ≤ c.maxHosts) (h : Inv c s)
    (hs : step c s (.commitEnd p) = some s') : Inv c s' := by
  simp only [step] at hs
  split at hs
  · rename_i l d w lg hph
    split at hs
    · simp at hs
    split at hs
    · rename_i hm
      cases lg with
      | true =>
        have := inv_granted h hph
        simp only [if_true] at hs
        split at hs <;> rename_i ho
        · rw [if_pos ho] at this
          simp only [Option.some.injEq] at hs; subst hs; exact this
        · rw [if_neg ho] at this
          simp only [Option.some.injEq] at hs; subst hs; exact this
      | false =>
        have h1 := inv_log hc h hph hm
        have := inv_granted (p := p) (l := l) (d := d) (w := w) h1 (by rw [setHost_self])
        simp only [setHost_self] at this
        simp only [State.setHost, upd_upd] at this
        simp only [Bool.false_eq_true, if_false] at hs
        split at hs <;> rename_i ho
        · rw [if_pos ho] at this
          simp only [Option.some.injEq] at hs; subst hs; exact this
        · rw [if_neg ho] at this
          simp only [Option.some.injEq] at hs; subst hs; exact this
    · simp only [Option.some.injEq] at hs
      subst hs
      exact inv_leave h p (fun h => h) (.inr ⟨_, rfl⟩) (fun _ => (h.host p).alive (by simp [hph]))
  · simp at hs

theorem inv_relWrite {c : Cfg} {s s' : State} {p now : Nat} {res : WriteRes} (hc : c.hosts ≤ c.maxHosts) (h : Inv c s)
    (hal : Allowed c s (.relWrite p res now)) (hs : step c s (.relWrite p res now) = some s') : Inv c s' := by
  have G := h.glob
  have H := h.host p
  have hp := H.ph
  simp only [step] at hs
  split at hs
  · rename_i l d w hph
    rw [hph] at hp
    simp only [Allowed, hph] at hal
    have halv := H.alive (by simp [hph])
    have hpc := H.pc (by simp [hph, Ph.inBallot])
    obtain ⟨hrel, ho, hg, hlg, hdd⟩ := hp
    split at hs
    · rename_i hd
      simp only [Option.some.injEq] at hs
      subst hs
      by_cases hla : lands res = true
      · rw [if_pos hla]
        have hle := hal hla
        let l0 : Rec := { l with ts := 0, wid := p + 1, wgen := (s.host p).gen, wts := now }
        have hmono : ∀ x, (s.ldr x).lver ≤ ((s.putLdr d l0).ldr x).lver := by
          intro x
          rw [putLdr_ldr]
          split
          · rename_i hx; rw [hx]; exact hle
          · exact Nat.le_refl _
        rw [setPh_same (by show (s.host p).ph.own = 0; rw [hph]; rfl)]
        have hlat : Later (s.host p) { s.host p with ph := .relW l (d + 1) (if res = .ok then d :: w else w) } :=
          ⟨Nat.le_refl _, fun _ h => h, Nat.le_refl _⟩
        refine inv_leader (p := p) (h' := { s.host p with ph := .relW l (d + 1) (if res = .ok then d :: w else w) }) h (glob_leader (l := l) (d := d) hc G G.reach rfl (logged_vote hc G hlg) (.inl rfl)
            (fun e he hl => logged_unique hc G ⟨e, he, hl, rfl, rfl⟩ hlg) (.inr ⟨rfl, hd, ?_⟩) ?_ ?_ ?_ ?_)
          rfl hlat rfl (fun _ _ => rfl) rfl rfl (fun _ h => h) (fun _ h => .inl h) ?_ hmono ?_ (fun _ => halv) (fun _ => hpc) (.inl rfl) ?_ ?_
        · show l.lver ≤ ((s.putLdr d l0).ldr d).lver
          rw [putLdr_ldr, if_pos rfl]; exact Nat.le_refl _
        · intro x
          show ((s.putLdr d l0).ldr x) = s.ldr x ∨ _
          by_cases hx : x = d
          · right
            have he : ((s.putLdr d l0).setHost p { s.host p with ph := .relW l (d + 1) (if res = .ok then d :: w else w) }).ldr x = l0 := by
              show ((s.putLdr d l0).ldr x) = l0
              rw [putLdr_ldr, if_pos hx]
            refine ⟨hx, ?_⟩
            rw [show ((s.putLdr d l0).host p) = s.host p from rfl] at *
            rw [he, hx]
            refine ⟨rfl, rfl, rfl, List.mem_cons_self, hle, fun _ => ?_⟩
            unfold Gone
            right
            rw [ho]
            simp only [Nat.add_sub_cancel, setHost_self]
            exact ⟨hg, hrel⟩
          · left; rw [putLdr_ldr, if_neg hx]
        · intro _; obtain ⟨e, he, h1, _⟩ := hlg; exact ⟨e, he, h1⟩
        · intro e he hl
          have := (G.logFull e he).mono hmono
          rw [hl] at this
          exact this
        · intro q; exact later_setHost (s := s.putLdr d l0) hlat q
        · intro x hx; exact List.mem_cons_of_mem _ hx
        · refine ⟨?_, ho, ?_, hlg, hd⟩
          · simp only [setHost_self]; exact hrel
          · simp only [setHost_self]; exact hg
        · exact H.full.mono hmono
        · intro e he hep
          have := H.log e he hep
          rw [hph] at this
          simp only [Ph.own] at this
          left; show e.blk.lver ≤ (s.host p).relv; omega
      · rw [if_neg hla]
        refine inv_setPh h (phOk_setPh (by simp [hph, Ph.own]) ?_) (fun _ => halv) (fun _ => hpc)
        exact ⟨hrel, ho, hg, hlg, hd⟩
    · simp at hs
  · simp at hs

/-! ## All steps -/

theorem inv_step {c : Cfg} {s s' : State} {a : Act} (hc : c.hosts ≤ c.maxHosts) (h : Inv c s) (hal : Allowed c s a)
    (hs : step c s a = some s') : Inv c s' := by
  have hm : ∀ p, (s.host p).ph ≠ .idle → 0 < c.maxHosts := fun p hp => by have := ((h.host p).alive hp).2; omega
  cases a with
  | begin p => exact inv_begin h hs
  | readDisk p ok => exact inv_readDisk h hs
  | readEnd p max => exact inv_readEnd hc h hs
  | ownerGone p =>
    refine inv_ownerGone (hm p ?_) h hal hs
    intro hn; simp [step, hn] at hs
  | ownerReleased p =>
    refine inv_ownerReleased hc (hm p ?_) h hs
    intro hn; simp [step, hn] at hs
  | ownerLive p => exact inv_ownerLive h hs
  | restart p => exact inv_restart h hs
  | check p => exact inv_check h hs
  | againEnd p => exact inv_againEnd h hs
  | bal p a => exact inv_bal hc h hal hs
  | retry p =>
    refine inv_retry (hm p ?_) h hs
    intro hn; simp [step, hn] at hs
  | abort p => exact inv_abort h hs
  | retract p => exact inv_retract h hs
  | commitStart p now => exact inv_commitStart hc h hal hs
  | commitWrite p res => exact inv_commitWrite hc h hal hs
  | commitEnd p => exact inv_commitEnd hc h hs
  | release p res => exact inv_release h hs
  | dropX p => exact inv_dropX h hs
  | relEnd p => exact inv_relEnd h hs
  | relErr p => exact inv_relErr h hs
  | relWrite p res now => exact inv_relWrite hc h hal hs
  | relWEnd p => exact inv_relWEnd h hs
  | die p => exact inv_die h hs
  | join p => exact inv_join h hs

theorem inv_reach {c : Cfg} {s : State} (hc : c.hosts ≤ c.maxHosts) (hd : 0 < c.disks) (h : Reach c s) : Inv c s := by
  induction h with
  | init => exact inv_init hd
  | step _ hal hs ih => exact inv_step hc ih hal hs

end Sanlock.MultiLease
