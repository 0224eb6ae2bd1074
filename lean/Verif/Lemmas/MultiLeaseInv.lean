import Verif.Lemmas.MultiLease

/-!
# The steps of the exclusive lease on several disks keep the invariant
-/

namespace Sanlock.MultiLease

open Sanlock.Ballot (Blk Cfg WriteRes Pc majority Sub Vote Done majority_inter majority_gt)
open Sanlock.Lease (Rec newLeader lands upd balHost)

/-! ## Monotonicity -/

/-- A step of host `p`, seen by the others. -/
structure Only (s s' : State) (p : Nat) : Prop where
  host : ∀ q, q ≠ p → s'.host q = s.host q
  proc : ∀ q, q ≠ p → s'.B.proc q = s.B.proc q
  disk : ∀ d q, q ≠ p → s'.B.disk d q = s.B.disk d q
  flag : ∀ q, q ≠ p → s'.flag q = s.flag q
  votes : ∀ v ∈ s.B.votes, v ∈ s'.B.votes
  votes' : ∀ v ∈ s'.B.votes, v ∈ s.B.votes ∨ v.host = p
  log : ∀ e ∈ s.B.log, e ∈ s'.B.log
  log' : ∀ e ∈ s'.B.log, e ∈ s.B.log ∨ e.host = p
  wrote : ∀ x ∈ s.wrote, x ∈ s'.wrote
  ldr : ∀ d, (s.ldr d).lver ≤ (s'.ldr d).lver
  gone : ∀ n o g, Gone s n o g → Gone s' n o g

/-- How one host changes. -/
structure Later (h h' : Host) : Prop where
  gen : h.gen ≤ h'.gen
  alive : h'.gen = h.gen → h.alive = false → h'.alive = false
  relv : h.relv ≤ h'.relv

theorem Later.rfl' {h : Host} : Later h h := ⟨Nat.le_refl _, fun _ h => h, Nat.le_refl _⟩

theorem gone_mono {s s' : State} (hl : ∀ q, Later (s.host q) (s'.host q)) {n o g : Nat} (h : Gone s n o g) :
    Gone s' n o g := by
  have L := hl (o - 1)
  have h1 := L.gen
  have h2 := L.alive
  have h3 := L.relv
  unfold Gone Expired at *
  by_cases hg : (s'.host (o - 1)).gen = (s.host (o - 1)).gen
  · rcases h with (h | h) | h
    · left; left; omega
    · left; right; exact ⟨by omega, h2 hg h.2⟩
    · right; omega
  · left; left; omega

theorem Logged.mono {s s' : State} (h : ∀ e ∈ s.B.log, e ∈ s'.B.log) {n o g : Nat} (hl : Logged s n o g) : Logged s' n o g := by
  obtain ⟨e, he, h1⟩ := hl
  exact ⟨e, h e he, h1⟩

theorem Seen.mono {s s' : State} (hw : ∀ x ∈ s.wrote, x ∈ s'.wrote) (hg : ∀ n o g, Gone s n o g → Gone s' n o g)
    {d : Nat} {got : List Got} (h : Seen s d got) : Seen s' d got :=
  ⟨h.nodup, h.lt, fun g hg' => (h.copy g hg').imp id (hw _), fun g hg' ht => (h.free g hg' ht).imp id (hg _ _ _)⟩

theorem Over.mono {s s' : State} (hg : ∀ n o g, Gone s n o g → Gone s' n o g) {l : Rec} (h : Over s l) : Over s' l :=
  h.imp id (hg _ _ _)

theorem Full.mono {c : Cfg} {s s' : State} (h : ∀ d, (s.ldr d).lver ≤ (s'.ldr d).lver) {n : Nat} (hf : Full c s n) :
    Full c s' n := by
  obtain ⟨S, hS, hm, hd⟩ := hf
  exact ⟨S, hS, hm, fun d hd' => Nat.le_trans (hd d hd') (h d)⟩

theorem Based.mono {c : Cfg} {s s' : State} (h : ∀ d, (s.ldr d).lver ≤ (s'.ldr d).lver) {k : Nat} {got : List Got}
    (hb : Based c s k got) : Based c s' k got := by
  obtain ⟨S, hS, hm, hd, hg⟩ := hb
  exact ⟨S, hS, hm, fun d hd' => Nat.le_trans (hd d hd') (h d), hg⟩

/-- The phase of a host survives what the others do. -/
theorem phOk_mono {c : Cfg} {s s' : State} {q : Nat} (hh : s'.host q = s.host q)
    (hp : s'.B.proc q = s.B.proc q) (hdk : ∀ d, s'.B.disk d q = s.B.disk d q)
    (hv : ∀ v ∈ s'.B.votes, v.host = q → v ∈ s.B.votes) (hl : ∀ e ∈ s.B.log, e ∈ s'.B.log)
    (hw : ∀ x ∈ s.wrote, x ∈ s'.wrote) (hld : ∀ d, (s.ldr d).lver ≤ (s'.ldr d).lver)
    (hg : ∀ n o g, Gone s n o g → Gone s' n o g) {ph : Ph} (h : PhOk c s q ph) : PhOk c s' q ph := by
  have hcur : ∀ cur, Cur s q cur → Cur s' q cur := fun cur h => ⟨by rw [hh]; exact h.relv, h.log.imp id (Logged.mono hl)⟩
  cases ph with
  | idle => trivial
  | call d got => exact ⟨h.1.mono hw hg, by rw [hh]; exact h.2.1.mono hld, h.2.2.1, fun g hg' => by rw [hdk]; exact h.2.2.2 g hg'⟩
  | wait cur max => exact ⟨hcur _ h.1, fun v hv' hq => h.2 v (hv v hv' hq) hq⟩
  | run cur mbal copy => exact ⟨hcur _ h.1, h.2.1.mono hg, h.2.2.1, fun v hv' hq => h.2.2.2 v (hv v hv' hq) hq⟩
  | again cur mbal d got =>
    exact ⟨hcur _ h.1, h.2.1.mono hg, h.2.2.1, fun v hv' hq => h.2.2.2.1 v (hv v hv' hq) hq, h.2.2.2.2.1.mono hw hg, h.2.2.2.2.2⟩
  | ballot cur mbal =>
    exact ⟨hcur _ h.1, h.2.1.mono hg, h.2.2.1, fun v hv' hq => h.2.2.2.1 v (hv v hv' hq) hq, by rw [hp, hh]; exact h.2.2.2.2⟩
  | commit l d w lg =>
    refine ⟨by rw [hh]; exact h.1, h.2.1, h.2.2.1, fun x hx => Nat.le_trans (h.2.2.2.1 x hx) (hld x), h.2.2.2.2.1,
      by rw [hh]; exact h.2.2.2.2.2.1, ?_⟩
    have := h.2.2.2.2.2.2
    cases lg with
    | true => exact Logged.mono hl this
    | false => simp only [Wins, hp]; exact this
  | held l => exact ⟨by rw [hh]; exact h.1, by rw [hh]; exact h.2.mono hl⟩
  | rel last d got => exact ⟨h.1.mono hw hg, h.2⟩
  | relW l d w => exact ⟨by rw [hh]; exact h.1, h.2.1, by rw [hh]; exact h.2.2.1, h.2.2.2.1.mono hl, h.2.2.2.2⟩

theorem hostOk_only {c : Cfg} {s s' : State} {p q : Nat} (m : Only s s' p) (hq : q ≠ p) (H : HostOk c s q) : HostOk c s' q := by
  have hv : ∀ v ∈ s'.B.votes, v.host = q → v ∈ s.B.votes := by
    intro v hv hvq
    rcases m.votes' v hv with h | h
    · exact h
    · exact absurd (hvq.symm.trans h) hq
  refine ⟨?_, ?_, ?_, ?_, ?_, ?_, ?_, ?_, ?_, ?_⟩
  · rw [m.host q hq]
    exact phOk_mono (m.host q hq) (m.proc q hq) (fun d => m.disk d q hq) hv m.log m.wrote m.ldr m.gone H.ph
  · rw [m.host q hq]; exact H.alive
  · rw [m.host q hq, m.proc q hq]; exact H.pc
  · intro v hv' hvq; rw [m.host q hq]; exact H.votes v (hv v hv' hvq) hvq
  · intro d; rw [m.host q hq, m.disk d q hq]; exact H.disk d
  · rw [m.host q hq]; exact H.full.mono m.ldr
  · intro e he heq
    rw [m.host q hq]
    rcases m.log' e he with h | h
    · exact H.log e h heq
    · exact absurd (heq.symm.trans h) hq
  · rw [m.flag q hq, m.host q hq]
    intro hf v hv' hvq
    exact H.flag hf v (hv v hv' hvq) hvq
  · rw [m.proc q hq, m.flag q hq]; exact H.flag1
  · rw [m.proc q hq, m.flag q hq]; exact H.flag2

theorem inv_of_only {c : Cfg} {s s' : State} {p : Nat} (h : Inv c s) (m : Only s s' p) (G : Glob c s') (H : HostOk c s' p) :
    Inv c s' := by
  refine ⟨G, fun q => ?_⟩
  by_cases hq : q = p
  · rw [hq]; exact H
  · exact hostOk_only m hq (h.host q)

/-! ## Steps that only change one host -/

theorem setHost_host (s : State) (p : Nat) (h : Host) (q : Nat) : (s.setHost p h).host q = if q = p then h else s.host q := rfl

theorem setHost_self (s : State) (p : Nat) (h : Host) : (s.setHost p h).host p = h := by simp [setHost_host]

theorem later_setHost {s : State} {p : Nat} {h : Host} (hl : Later (s.host p) h) (q : Nat) :
    Later (s.host q) ((s.setHost p h).host q) := by
  rw [setHost_host]
  split
  · rename_i hq; rw [hq]; exact hl
  · exact .rfl'

theorem only_setHost {s : State} {p : Nat} {h : Host} (hl : Later (s.host p) h) : Only s (s.setHost p h) p where
  host q hq := by simp [setHost_host, hq]
  proc _ _ := rfl
  disk _ _ _ := rfl
  flag _ _ := rfl
  votes _ h := h
  votes' _ h := .inl h
  log _ h := h
  log' _ h := .inl h
  wrote _ h := h
  ldr _ := Nat.le_refl _
  gone _ _ _ := gone_mono (later_setHost hl)

/-- The global part only looks at the hosts through `Gone` and their generations. -/
theorem glob_hosts {c : Cfg} {s s' : State} (G : Glob c s) (hB : s'.B = s.B) (hl : s'.ldr = s.ldr) (hw : s'.wrote = s.wrote)
    (hh : ∀ q, Later (s.host q) (s'.host q)) : Glob c s' := by
  have hg : ∀ n o g, Gone s n o g → Gone s' n o g := fun _ _ _ => gone_mono hh
  have hf : ∀ n, Full c s' n ↔ Full c s n := fun n => by simp only [Full, hl]
  refine ⟨by rw [hB]; exact G.reach, ?_, by rw [hB]; exact G.voteTs, ?_, ?_, ?_, ?_, ?_, ?_, ?_⟩
  · rw [hB]
    intro v hv
    refine ⟨(G.vote v hv).1, (G.vote v hv).2.imp id ?_⟩
    rintro ⟨e, he, h1, h2⟩
    exact ⟨e, he, h1, hg _ _ _ h2⟩
  · rw [hB]
    intro v hv
    have := G.voteGen v hv
    exact ⟨this.1, Nat.le_trans this.2 (hh _).gen⟩
  · rw [hB, hl, hw]; exact G.wrote
  · rw [hl, hw]; exact G.onDisk
  · rw [hl]; intro d hd; exact (G.free d hd).imp id (hg _ _ _)
  · intro n hn hf'; rw [hB]; exact G.fullLog n hn ((hf n).mp hf')
  · rw [hB]; intro e he; exact (hf _).mpr (G.logFull e he)
  · rw [hB, hw]; exact G.bad

/-- Host `p` goes to another phase. -/
theorem inv_setHost {c : Cfg} {s : State} {p : Nat} (h : Inv c s) {h' : Host} (hl : Later (s.host p) h')
    (hph : PhOk c (s.setHost p h') p h'.ph) (hal : h'.ph ≠ .idle → h'.alive = true ∧ p < c.hosts)
    (hpc : ¬ h'.ph.inBallot → (s.B.proc p).pc = .idle) (hfull : Full c s h'.relv)
    (hlog : ∀ e ∈ s.B.log, e.host = p → e.blk.lver ≤ h'.relv ∨ (e.blk.lver = h'.relv + 1 ∧ h'.ph.own = e.blk.lver)) :
    Inv c (s.setHost p h') := by
  have H := h.host p
  have hr := hl.relv
  refine inv_of_only h (only_setHost hl) (glob_hosts h.glob rfl rfl rfl (later_setHost hl)) ?_
  refine ⟨?_, ?_, ?_, ?_, ?_, ?_, ?_, ?_, H.flag1, H.flag2⟩
  · rw [setHost_self]; exact hph
  · rw [setHost_self]; exact hal
  · rw [setHost_self]; exact hpc
  · intro v hv hvp; rw [setHost_self]; have := H.votes v hv hvp; omega
  · intro d; rw [setHost_self]; have := H.disk d; exact Nat.le_trans this (by omega)
  · rw [setHost_self]; exact hfull
  · rw [setHost_self]; exact hlog
  · intro hf v hv hvp; rw [setHost_self]; have := H.flag hf v hv hvp; omega

/-- Where the host stands after a phase change that gives up what it owned. -/
theorem full_own {c : Cfg} {s : State} {p : Nat} (h : Inv c s) : Full c s (max (s.host p).relv (s.host p).ph.own) := by
  have H := h.host p
  have key : Full c s (s.host p).ph.own ∨ (s.host p).ph.own = 0 := by
    have h1 := H.ph
    generalize (s.host p).ph = ph at h1
    cases ph with
    | held l =>
      obtain ⟨e, he, e1, _⟩ := h1.2
      left; simp only [Ph.own]; rw [← e1]; exact h.glob.logFull e he
    | commit l d w lg =>
      cases lg with
      | false => exact .inr rfl
      | true =>
        obtain ⟨e, he, e1, _⟩ := h1.2.2.2.2.2.2
        left; simp only [Ph.own]; rw [← e1]; exact h.glob.logFull e he
    | _ => exact .inr rfl
  rcases key with hk | hk
  · by_cases hm : (s.host p).relv ≤ (s.host p).ph.own
    · rw [Nat.max_eq_right hm]; exact hk
    · rw [Nat.max_eq_left (by omega)]; exact H.full
  · rw [hk, Nat.max_eq_left (Nat.zero_le _)]; exact H.full

theorem log_own {c : Cfg} {s : State} {p : Nat} (h : Inv c s) : ∀ e ∈ s.B.log, e.host = p →
    e.blk.lver ≤ max (s.host p).relv (s.host p).ph.own := by
  intro e he hep
  rcases (h.host p).log e he hep with h1 | ⟨h1, h2⟩ <;> omega

theorem later_max {h : Host} {n : Nat} {ph : Ph} : Later h { h with ph := ph, relv := max h.relv n } :=
  ⟨Nat.le_refl _, fun _ h => h, by simp only; omega⟩

theorem inv_setPh {c : Cfg} {s : State} {p : Nat} (h : Inv c s) {ph : Ph}
    (hph : PhOk c (s.setPh p ph) p ph) (hal : ph ≠ .idle → (s.host p).alive = true ∧ p < c.hosts)
    (hpc : ¬ ph.inBallot → (s.B.proc p).pc = .idle) : Inv c (s.setPh p ph) := by
  refine inv_setHost h later_max hph hal hpc (full_own h) ?_
  intro e he hep
  exact .inl (log_own h e he hep)

theorem pc_of_ph {c : Cfg} {s : State} {p : Nat} (h : Inv c s) (hp : ¬ (s.host p).ph.inBallot) : (s.B.proc p).pc = .idle :=
  (h.host p).pc hp

/-- Host `p` goes to another phase without giving anything up. -/
theorem phOk_setPh {c : Cfg} {s : State} {p : Nat} (h0 : (s.host p).ph.own = 0) {ph ph' : Ph} (h : PhOk c s p ph) :
    PhOk c (s.setPh p ph') p ph := by
  have hr : ((s.setPh p ph').host p).relv = (s.host p).relv := by simp [State.setPh, setHost_self, h0]
  have hge : ((s.setPh p ph').host p).gen = (s.host p).gen := by simp [State.setPh, setHost_self]
  have hg : ∀ n o g, Gone s n o g → Gone (s.setPh p ph') n o g := fun _ _ _ => gone_mono (later_setHost later_max)
  have hcur : ∀ cur, Cur s p cur → Cur (s.setPh p ph') p cur := fun cur h => ⟨by rw [hr]; exact h.relv, h.log⟩
  have hld : ∀ d, (s.ldr d).lver ≤ ((s.setPh p ph').ldr d).lver := fun d => Nat.le_refl _
  have hw : ∀ x ∈ s.wrote, x ∈ (s.setPh p ph').wrote := fun x h => h
  cases ph with
  | idle => trivial
  | call d got => exact ⟨h.1.mono hw hg, by rw [hr]; exact h.2.1.mono hld, h.2.2.1, h.2.2.2⟩
  | wait cur max => exact ⟨hcur _ h.1, h.2⟩
  | run cur mbal copy => exact ⟨hcur _ h.1, h.2.1.mono hg, h.2.2.1, h.2.2.2⟩
  | again cur mbal d got => exact ⟨hcur _ h.1, h.2.1.mono hg, h.2.2.1, h.2.2.2.1, h.2.2.2.2.1.mono hw hg, h.2.2.2.2.2⟩
  | ballot cur mbal => exact ⟨hcur _ h.1, h.2.1.mono hg, h.2.2.1, h.2.2.2.1, by rw [hge]; exact h.2.2.2.2⟩
  | commit l d w lg =>
    refine ⟨by rw [hr]; exact h.1, h.2.1, h.2.2.1, h.2.2.2.1, h.2.2.2.2.1, by rw [hge]; exact h.2.2.2.2.2.1, h.2.2.2.2.2.2⟩
  | held l => exact ⟨by rw [hr]; exact h.1, by rw [hge]; exact h.2⟩
  | rel last d got => exact ⟨h.1.mono hw hg, h.2⟩
  | relW l d w => exact ⟨by rw [hr]; exact h.1, h.2.1, by rw [hge]; exact h.2.2.1, h.2.2.2.1, h.2.2.2.2⟩

theorem seen_nil (s : State) (d : Nat) : Seen s d [] := ⟨by simp, by simp, by simp, by simp⟩

theorem phOk_call {c : Cfg} {s : State} {p : Nat} (hf : Full c s (s.host p).relv) : PhOk c s p (.call 0 []) := by
  obtain ⟨S, hS, hm, hd⟩ := hf
  exact ⟨seen_nil s 0, ⟨S, hS, hm, hd, by simp⟩, Nat.zero_le _, by simp⟩

theorem inv_idle {c : Cfg} {s : State} {p : Nat} (h : Inv c s) (hpc : (s.B.proc p).pc = .idle) : Inv c (s.setPh p .idle) :=
  inv_setPh h trivial (by simp) (fun _ => hpc)

theorem inv_call {c : Cfg} {s : State} {p : Nat} (h : Inv c s) (hpc : (s.B.proc p).pc = .idle)
    (hal : (s.host p).alive = true ∧ p < c.hosts) : Inv c (s.setPh p (.call 0 [])) := by
  refine inv_setPh h ?_ (fun _ => hal) (fun _ => hpc)
  have := full_own (p := p) h
  refine phOk_call ?_
  simp only [State.setPh, setHost_self]
  exact this

theorem inv_rel {c : Cfg} {s : State} {p : Nat} (h : Inv c s) (hpc : (s.B.proc p).pc = .idle)
    (hal : (s.host p).alive = true ∧ p < c.hosts) (last : Option Rec) : Inv c (s.setPh p (.rel last 0 [])) :=
  inv_setPh h ⟨seen_nil _ 0, Nat.zero_le _⟩ (fun _ => hal) (fun _ => hpc)

/-- One more disk read. -/
theorem seen_snoc {c : Cfg} {s : State} (G : Glob c s) {d m : Nat} {got : List Got} (h : Seen s d got) (hd : d < c.disks) :
    Seen s (d + 1) (got ++ [⟨d, s.ldr d, m⟩]) := by
  refine ⟨?_, ?_, ?_, ?_⟩
  · rw [List.map_append, List.nodup_append]
    refine ⟨h.nodup, by simp, ?_⟩
    intro a ha b hb
    obtain ⟨g, hg, rfl⟩ := List.mem_map.mp ha
    have := h.lt g hg
    simp at hb
    omega
  · intro g hg
    rcases List.mem_append.mp hg with hg | hg
    · have := h.lt g hg; omega
    · simp at hg; rw [hg]; simp only; omega
  · intro g hg
    rcases List.mem_append.mp hg with hg | hg
    · exact h.copy g hg
    · simp at hg; rw [hg]; exact G.onDisk d hd
  · intro g hg
    rcases List.mem_append.mp hg with hg | hg
    · exact h.free g hg
    · simp at hg; rw [hg]; exact G.free d

theorem seen_succ {s : State} {d : Nat} {got : List Got} (h : Seen s d got) : Seen s (d + 1) got :=
  ⟨h.nodup, fun g hg => Nat.lt_succ_of_lt (h.lt g hg), h.copy, h.free⟩

theorem based_snoc {c : Cfg} {s : State} {k d m : Nat} {got : List Got} (h : Based c s k got) :
    Based c s k (got ++ [⟨d, s.ldr d, m⟩]) := by
  obtain ⟨S, hS, hm, hd, hg⟩ := h
  refine ⟨S, hS, hm, hd, ?_⟩
  intro g hg' hgS
  rcases List.mem_append.mp hg' with h1 | h1
  · exact hg g h1 hgS
  · simp at h1; rw [h1] at hgS ⊢; exact hd _ hgS

theorem inv_readDisk {c : Cfg} {s s' : State} {p : Nat} {ok : Bool} (h : Inv c s) (hs : step c s (.readDisk p ok) = some s') :
    Inv c s' := by
  have G := h.glob
  have H := h.host p
  have hp := H.ph
  simp only [step] at hs
  split at hs
  · rename_i d got hph
    rw [hph] at hp
    split at hs
    · rename_i hd
      simp only [Option.some.injEq] at hs
      subst hs
      refine inv_setPh h (phOk_setPh (by simp [hph, Ph.own]) ?_) (fun _ => H.alive (by simp [hph])) (fun _ => H.pc (by simp [hph, Ph.inBallot]))
      cases ok with
      | false => exact ⟨seen_succ hp.1, hp.2.1, hd, hp.2.2.2⟩
      | true =>
        refine ⟨seen_snoc G hp.1 hd, based_snoc hp.2.1, hd, ?_⟩
        intro g hg
        simp only [if_true] at hg
        rcases List.mem_append.mp hg with h1 | h1
        · exact hp.2.2.2 g h1
        · simp at h1; rw [h1]
    · simp at hs
  · rename_i cur mbal d got hph
    rw [hph] at hp
    split at hs
    · rename_i hd
      simp only [Option.some.injEq] at hs
      subst hs
      refine inv_setPh h (phOk_setPh (by simp [hph, Ph.own]) ?_) (fun _ => H.alive (by simp [hph])) (fun _ => H.pc (by simp [hph, Ph.inBallot]))
      obtain ⟨h1, h2, h3, h4, h5, h6⟩ := hp
      cases ok with
      | false => exact ⟨h1, h2, h3, h4, seen_succ h5, hd⟩
      | true => exact ⟨h1, h2, h3, h4, seen_snoc G h5 hd, hd⟩
    · simp at hs
  · rename_i last d got hph
    rw [hph] at hp
    split at hs
    · rename_i hd
      simp only [Option.some.injEq] at hs
      subst hs
      refine inv_setPh h (phOk_setPh (by simp [hph, Ph.own]) ?_) (fun _ => H.alive (by simp [hph])) (fun _ => H.pc (by simp [hph, Ph.inBallot]))
      cases ok with
      | false => exact ⟨seen_succ hp.1, hd⟩
      | true => exact ⟨seen_snoc G hp.1 hd, hd⟩
    · simp at hs
  · simp at hs

theorem ourMbal_ok {c : Cfg} {p max : Nat} (hm : 0 < c.maxHosts) : MbalOk c p (Ballot.ourMbal max c.maxHosts (p + 1)) ∧
    max < Ballot.ourMbal max c.maxHosts (p + 1) := by
  unfold Ballot.ourMbal
  split
  · rename_i h0
    exact ⟨⟨by omega, rfl⟩, by omega⟩
  · have h1 := Nat.mod_lt max hm
    have h2 : (max - max % c.maxHosts + c.maxHosts + (p + 1)) % c.maxHosts = (p + 1) % c.maxHosts := by
      have h3 : max - max % c.maxHosts = c.maxHosts * (max / c.maxHosts) := by
        have := Nat.div_add_mod max c.maxHosts; omega
      rw [h3, Nat.add_assoc, Nat.mul_add_mod, Nat.add_mod_left]
    exact ⟨⟨by omega, h2⟩, by omega⟩

theorem inv_readEnd {c : Cfg} {s s' : State} {p max : Nat} (hc : c.hosts ≤ c.maxHosts) (h : Inv c s)
    (hs : step c s (.readEnd p max) = some s') : Inv c s' := by
  have G := h.glob
  have H := h.host p
  have hp := H.ph
  simp only [step] at hs
  split at hs
  · rename_i d got hph
    rw [hph] at hp
    have hpc : (s.B.proc p).pc = .idle := H.pc (by simp [hph, Ph.inBallot])
    have hal := H.alive (by simp [hph])
    split at hs
    · simp at hs
    split at hs
    · simp only [Option.some.injEq] at hs; subst hs; exact inv_idle h hpc
    split at hs
    · simp only [Option.some.injEq] at hs; subst hs; exact inv_idle h hpc
    · rename_i l hl
      split at hs
      · rename_i hall
        simp only [Option.some.injEq] at hs
        subst hs
        obtain ⟨h1, h2, h3, h4⟩ := hp
        obtain ⟨k1, k2, k3⟩ := pick_logged G h1 h3 hl
        have k4 := pick_based h1 h3 h2 hl
        have k5 := pick_mbal hc G H h1 h3 h4 hl k4 (by simpa using hall)
        have hmx : Max.max (s.host p).relv l.lver = l.lver := Nat.max_eq_right k4
        have hmh : 0 < c.maxHosts := by omega
        obtain ⟨m1, m2⟩ := ourMbal_ok (c := c) (p := p) (max := max) hmh
        rw [hmx]
        have hlat : ∀ ph, Later (s.host p) { s.host p with ph := ph, relv := l.lver } :=
          fun ph => ⟨Nat.le_refl _, fun _ h => h, k4⟩
        have hg : ∀ ph n o g, Gone s n o g → Gone (s.setHost p { s.host p with ph := ph, relv := l.lver }) n o g :=
          fun ph n o g => gone_mono (later_setHost (hlat ph))
        have hcur : ∀ ph, Cur (s.setHost p { s.host p with ph := ph, relv := l.lver }) p l :=
          fun ph => ⟨by rw [setHost_self], k1.imp (·.1) id⟩
        refine inv_setHost h (hlat _) ?_ (fun _ => hal) (fun _ => hpc) k3 ?_
        · simp only
          split
          · rename_i hcond
            refine ⟨hcur _, ?_, m1, ?_⟩
            · rcases hcond with hts | ⟨ho, hgn⟩
              · exact (k2 hts).mono (hg _)
              · right
                rw [ho]
                unfold Gone Expired
                simp only [Nat.add_sub_cancel, setHost_self]
                by_cases he : l.gen = (s.host p).gen
                · exact .inr ⟨he, Nat.le_refl _⟩
                · exact .inl (.inl (by omega))
            · intro v hv hvp hvl
              have := k5 v hv hvp hvl
              omega
          · exact ⟨hcur _, k5⟩
        · intro e he hep
          have := log_own h e he hep
          rw [hph] at this
          simp only [Ph.own] at this
          left; simp only; omega
      · simp at hs
  · simp at hs

/-! ## The owner is gone -/

theorem inv_ownerGone {c : Cfg} {s s' : State} {p : Nat} (hm : 0 < c.maxHosts) (h : Inv c s)
    (hal : Allowed c s (.ownerGone p)) (hs : step c s (.ownerGone p) = some s') : Inv c s' := by
  have H := h.host p
  have hp := H.ph
  simp only [step] at hs
  split at hs
  · rename_i cur max hph
    rw [hph] at hp
    simp only [Allowed, hph] at hal
    simp only [Option.some.injEq] at hs
    subst hs
    obtain ⟨m1, m2⟩ := ourMbal_ok (c := c) (p := p) (max := max) hm
    refine inv_setPh h (phOk_setPh (by simp [hph, Ph.own]) ?_) (fun _ => H.alive (by simp [hph])) (fun _ => H.pc (by simp [hph, Ph.inBallot]))
    refine ⟨hp.1, .inr (.inl hal), m1, ?_⟩
    intro v hv hvp hvl
    have := hp.2 v hv hvp hvl
    omega
  · simp at hs

/-- The released flag of the owner's block on the first disk tells the truth. -/
theorem gone_of_flag {c : Cfg} {s : State} (hc : c.hosts ≤ c.maxHosts) (h : Inv c s) {n o g : Nat} (hl : Logged s n o g)
    (hf : s.flag (o - 1) = true) : Gone s n o g := by
  have G := h.glob
  obtain ⟨e, he, e1, e2, e3⟩ := hl
  obtain ⟨v, hv, v1, v2, v3⟩ := (Ballot.inv_reach hc G.reach).logVote e he
  obtain ⟨u, hu, u1, u2, u3⟩ := Ballot.proposed_reach hc G.reach v hv
  have hg := (G.voteGen v hv).2
  have hval : v.val = (o, g, e.blk.inp3) := by rw [v3]; simp [Blk.val, e2, e3]
  have hu4 : u.host + 1 = o := by rw [← u3, u2, hval]
  have h1 := (h.host (o - 1)).flag hf u hu (by omega)
  rw [hval] at hg
  simp only at hg
  unfold Gone Expired
  by_cases hge : g = (s.host (o - 1)).gen
  · right; exact ⟨hge, by omega⟩
  · left; left; omega

theorem inv_ownerReleased {c : Cfg} {s s' : State} {p : Nat} (hc : c.hosts ≤ c.maxHosts) (hm : 0 < c.maxHosts) (h : Inv c s)
    (hs : step c s (.ownerReleased p) = some s') : Inv c s' := by
  have H := h.host p
  have hp := H.ph
  simp only [step] at hs
  split at hs
  · rename_i cur max hph
    rw [hph] at hp
    split at hs
    · rename_i hcond
      simp only [Option.some.injEq] at hs
      subst hs
      obtain ⟨m1, m2⟩ := ourMbal_ok (c := c) (p := p) (max := max) hm
      refine inv_setPh h (phOk_setPh (by simp [hph, Ph.own]) ?_) (fun _ => H.alive (by simp [hph])) (fun _ => H.pc (by simp [hph, Ph.inBallot]))
      refine ⟨hp.1, hp.1.log.imp id (fun hl => gone_of_flag hc h hl hcond.2.2), m1, ?_⟩
      intro v hv hvp hvl
      have := hp.2 v hv hvp hvl
      omega
    · simp at hs
  · simp at hs

/-! ## Ballot steps -/

theorem glob_bal {c : Cfg} {s s' : State} {p : Nat} {cur : Rec} (G : Glob c s) (hr : Ballot.Reach c s'.B)
    (hl : s'.ldr = s.ldr) (hw : s'.wrote = s.wrote) (hlog : s'.B.log = s.B.log)
    (hh : ∀ q, Later (s.host q) (s'.host q)) (hcur : Cur s p cur) (hov : Over s cur)
    (hv : s'.B.votes = s.B.votes ∨ ∃ v, s'.B.votes = v :: s.B.votes ∧ v.lver = cur.lver + 1 ∧ v.val.2.2 ≠ 0 ∧
      1 ≤ v.val.1 ∧ v.val.2.1 ≤ (s.host (v.val.1 - 1)).gen) : Glob c s' := by
  have hg : ∀ n o g, Gone s n o g → Gone s' n o g := fun _ _ _ => gone_mono hh
  have hf : ∀ n, Full c s' n ↔ Full c s n := fun n => by simp only [Full, hl]
  have hsub : ∀ v ∈ s.B.votes, v ∈ s'.B.votes := by
    intro v hv'
    rcases hv with h | ⟨u, h, _⟩
    · rw [h]; exact hv'
    · rw [h]; exact List.mem_cons_of_mem _ hv'
  have hnew : ∀ v ∈ s'.B.votes, v ∈ s.B.votes ∨ (v.lver = cur.lver + 1 ∧ v.val.2.2 ≠ 0 ∧ 1 ≤ v.val.1 ∧
      v.val.2.1 ≤ (s.host (v.val.1 - 1)).gen) := by
    intro v hv'
    rcases hv with h | ⟨u, h, h1⟩
    · rw [h] at hv'; exact .inl hv'
    · rw [h] at hv'
      rcases List.mem_cons.mp hv' with rfl | h2
      · exact .inr h1
      · exact .inl h2
  refine ⟨hr, ?_, ?_, ?_, ?_, ?_, ?_, ?_, ?_, ?_⟩
  · rw [hlog]
    intro v hv'
    rcases hnew v hv' with h | h
    · refine ⟨(G.vote v h).1, (G.vote v h).2.imp id ?_⟩
      rintro ⟨e, he, h1, h2⟩
      exact ⟨e, he, h1, hg _ _ _ h2⟩
    · refine ⟨by omega, ?_⟩
      rcases hcur.log with h0 | ⟨e, he, e1, e2, e3⟩
      · left; omega
      · rcases hov with h0 | h0
        · left; omega
        · right; exact ⟨e, he, by omega, hg _ _ _ (by rw [e1, e2, e3]; exact h0)⟩
  · intro v hv'
    rcases hnew v hv' with h | h
    · exact G.voteTs v h
    · exact h.2.1
  · intro v hv'
    rcases hnew v hv' with h | h
    · have := G.voteGen v h
      exact ⟨this.1, Nat.le_trans this.2 (hh _).gen⟩
    · exact ⟨h.2.2.1, Nat.le_trans h.2.2.2 (hh _).gen⟩
  · rw [hl, hw]
    intro x hx
    obtain ⟨h1, h2, v, hv', h3⟩ := G.wrote x hx
    exact ⟨h1, h2, v, hsub v hv', h3⟩
  · rw [hl, hw]; exact G.onDisk
  · rw [hl]; intro d hd; exact (G.free d hd).imp id (hg _ _ _)
  · intro n hn hf'; rw [hlog]; exact G.fullLog n hn ((hf n).mp hf')
  · rw [hlog]; intro e he; exact (hf _).mpr (G.logFull e he)
  · rw [hlog, hw]; exact G.bad

theorem inv_start {c : Cfg} {s : State} {p : Nat} {cur : Rec} {mbal : Nat} {B' : Ballot.State} (h : Inv c s)
    (h0 : (s.host p).ph.own = 0) (hb : ¬ (s.host p).ph.inBallot) (hal : (s.host p).alive = true ∧ p < c.hosts)
    (hcur : Cur s p cur) (hov : Over s cur) (hmb : MbalOk c p mbal)
    (hv : ∀ v ∈ s.B.votes, v.host = p → v.lver = cur.lver + 1 → v.bal < mbal)
    (hs : Ballot.step c s.B (.start p (cur.lver + 1) mbal (s.host p).gen) = some B') :
    Inv c ({ s with B := B' }.setPh p (.ballot cur mbal)) := by
  have G := h.glob
  have H := h.host p
  have hr : Ballot.Reach c B' := by
    refine .step (a := .start p (cur.lver + 1) mbal (s.host p).gen) G.reach ⟨hmb.pos, hmb.res, ?_, ?_⟩ hs
    · intro v hv' hvp
      have := H.votes v hv' hvp
      rw [hcur.relv] at this
      by_cases hvl : v.lver = cur.lver + 1
      · exact .inr ⟨hvl, hv v hv' hvp hvl⟩
      · exact .inl (by omega)
    · intro e he hep
      have := H.log e he hep
      rw [h0, hcur.relv] at this
      omega
  simp only [Ballot.step] at hs
  split at hs
  · split at hs
    · simp only [Option.some.injEq] at hs
      subst hs
      have hlat : ∀ q, Later (s.host q) (({ s with B := s.B.setProc p ⟨.write1 0 [], { Blk.zero with lver := cur.lver + 1, mbal := mbal }, (s.host p).gen⟩ } : State).setPh p (.ballot cur mbal) |>.host q) := by
        intro q
        exact later_setHost (s := { s with B := _ }) later_max q
      have hrel : max (s.host p).relv (s.host p).ph.own = (s.host p).relv := by omega
      refine inv_of_only (p := p) h ⟨?_, ?_, ?_, ?_, ?_, ?_, ?_, ?_, ?_, ?_, ?_⟩
        (glob_bal (p := p) (cur := cur) G hr rfl rfl rfl hlat hcur hov (.inl rfl)) ⟨?_, ?_, ?_, ?_, ?_, ?_, ?_, ?_, ?_, ?_⟩
      · intro q hq; simp [State.setPh, setHost_host, hq]
      · intro q hq; simp [State.setPh, State.setHost, Ballot.State.setProc, hq]
      · intros; rfl
      · intros; rfl
      · intro v h; exact h
      · intro v h; exact .inl h
      · intro v h; exact h
      · intro v h; exact .inl h
      · intro v h; exact h
      · intro d; exact Nat.le_refl _
      · intro n o g; exact gone_mono hlat
      · simp only [State.setPh, setHost_self]
        refine ⟨⟨?_, hcur.log⟩, hov.mono (fun _ _ _ => gone_mono hlat), hmb, ?_, ?_⟩
        · rw [setHost_self]; simp only [hrel]; exact hcur.relv
        · intro v hv' hvp hvl; exact Nat.le_of_lt (hv v hv' hvp hvl)
        · intro _
          simp [State.setHost, Ballot.State.setProc, upd]
      · simp only [State.setPh, setHost_self]; intro _; exact hal
      · simp only [State.setPh, setHost_self]; intro hn; exact absurd trivial hn
      · simp only [State.setPh, setHost_self, hrel]; exact H.votes
      · simp only [State.setPh, setHost_self, hrel]; exact H.disk
      · simp only [State.setPh, setHost_self, hrel]; exact H.full
      · simp only [State.setPh, setHost_self, hrel]
        intro e he hep
        have := H.log e he hep
        rw [h0] at this
        left; omega
      · simp only [State.setPh, setHost_self, hrel]; exact H.flag
      · intro d w hw hd
        simp [State.setPh, State.setHost, Ballot.State.setProc] at hw
        omega
      · intro d w1 r buf mx hw
        simp [State.setPh, State.setHost, Ballot.State.setProc] at hw
    · simp at hs
  · simp at hs

theorem inv_decideRun {c : Cfg} {s s' : State} {p : Nat} {cur tmp : Rec} {mbal : Nat} (h : Inv c s)
    (h0 : (s.host p).ph.own = 0) (hb : ¬ (s.host p).ph.inBallot) (hal : (s.host p).alive = true ∧ p < c.hosts)
    (hcur : Cur s p cur) (hov : Over s cur) (hmb : MbalOk c p mbal)
    (hv : ∀ v ∈ s.B.votes, v.host = p → v.lver = cur.lver + 1 → v.bal < mbal)
    (htmp : tmp = cur ∨ tmp.lver = 0 ∨ Logged s tmp.lver tmp.owner tmp.gen)
    (hs : decideRun c s p cur mbal tmp = some s') : Inv c s' := by
  have H := h.host p
  unfold decideRun at hs
  split at hs
  · rename_i hl
    split at hs
    · rename_i ho
      simp only [Option.some.injEq] at hs
      subst hs
      refine inv_setPh h (phOk_setPh h0 ?_) (fun _ => hal) (fun _ => H.pc hb)
      refine ⟨by rw [hcur.relv, hl], ?_⟩
      rcases htmp with h1 | h1 | h1
      · rw [h1] at hl; omega
      · omega
      · rw [← ho.1, ← ho.2]; exact h1
    · simp only [Option.some.injEq] at hs; subst hs; exact inv_idle h (H.pc hb)
  · split at hs
    · simp only [Option.some.injEq] at hs; subst hs; exact inv_call h (H.pc hb) hal
    · split at hs
      · simp at hs
      · rename_i B' hB
        simp only [Option.some.injEq] at hs
        subst hs
        exact inv_start h h0 hb hal hcur hov hmb hv hB

theorem inv_check {c : Cfg} {s s' : State} {p : Nat} (h : Inv c s) (hs : step c s (.check p) = some s') : Inv c s' := by
  have H := h.host p
  have hp := H.ph
  simp only [step] at hs
  split at hs
  · rename_i cur mbal hph
    rw [hph] at hp
    exact inv_decideRun h (by simp [hph, Ph.own]) (by simp [hph, Ph.inBallot]) (H.alive (by simp [hph])) hp.1 hp.2.1 hp.2.2.1 hp.2.2.2
      (.inl rfl) hs
  · rename_i cur mbal hph
    rw [hph] at hp
    simp only [Option.some.injEq] at hs
    subst hs
    refine inv_setPh h (phOk_setPh (by simp [hph, Ph.own]) ?_) (fun _ => H.alive (by simp [hph])) (fun _ => H.pc (by simp [hph, Ph.inBallot]))
    exact ⟨hp.1, hp.2.1, hp.2.2.1, hp.2.2.2, seen_nil _ _, Nat.zero_le _⟩
  · simp at hs

theorem inv_againEnd {c : Cfg} {s s' : State} {p : Nat} (h : Inv c s) (hs : step c s (.againEnd p) = some s') : Inv c s' := by
  have G := h.glob
  have H := h.host p
  have hp := H.ph
  simp only [step] at hs
  split at hs
  · rename_i cur mbal d got hph
    rw [hph] at hp
    obtain ⟨h1, h2, h3, h4, h5, h6⟩ := hp
    split at hs
    · simp at hs
    split at hs
    · simp only [Option.some.injEq] at hs; subst hs; exact inv_idle h (H.pc (by simp [hph, Ph.inBallot]))
    · rename_i tmp htmp
      exact inv_decideRun h (by simp [hph, Ph.own]) (by simp [hph, Ph.inBallot]) (H.alive (by simp [hph])) h1 h2 h3 h4
        (.inr ((pick_logged G h5 h6 htmp).1.imp (·.1) id)) hs
  · simp at hs

theorem inv_bal {c : Cfg} {s s' : State} {p : Nat} {a : Ballot.Act} (hc : c.hosts ≤ c.maxHosts) (h : Inv c s)
    (hal : Allowed c s (.bal p a)) (hs : step c s (.bal p a) = some s') : Inv c s' := by
  have G := h.glob
  have H := h.host p
  have hp := H.ph
  simp only [step] at hs
  split at hs
  · rename_i cur mbal hph
    rw [hph] at hp
    obtain ⟨hcur, hov, hmb, hbel, hpc⟩ := hp
    split at hs
    · rename_i ha
      split at hs
      · simp at hs
      · rename_i B' hB
        simp only [Option.some.injEq] at hs
        subst hs
        have S := bstep_of_step ha hB
        obtain ⟨hl, hm, hgn⟩ := hpc S.active
        have I := Ballot.inv_reach hc G.reach
        have hballow : Ballot.Allowed c s.B a := by
          cases a <;> first | trivial | simp [balHost] at ha
        have hr : Ballot.Reach c B' := .step G.reach hballow hB
        have hvn : B'.votes = s.B.votes ∨ ∃ v, B'.votes = v :: s.B.votes ∧ v.host = p ∧ v.lver = cur.lver + 1 ∧ v.bal = mbal ∧
            v.val.2.2 ≠ 0 ∧ 1 ≤ v.val.1 ∧ v.val.2.1 ≤ (s.host (v.val.1 - 1)).gen ∧ s.flag p = false := by
          rcases S.votes with h1 | ⟨v, h1, h2, h3, h4, d, w1, r, buf, mx, now, h5, h6, h7⟩
          · exact .inl h1
          · refine .inr ⟨v, h1, h2, by rw [h3, hl], by rw [h4, hm], ?_, ?_, ?_, H.flag2 _ _ _ _ _ h6⟩ <;> rw [h7] <;> split
            · rename_i hmx
              obtain ⟨_, _, _, _, _, _, hx, _⟩ := I.read1 _ _ _ _ _ _ h6
              obtain ⟨u, hu, _, _, u3⟩ := hx hmx
              rw [← u3]; exact G.voteTs u hu
            · subst h5
              simp only [Allowed] at hal
              simp only
              omega
            · rename_i hmx
              obtain ⟨_, _, _, _, _, _, hx, _⟩ := I.read1 _ _ _ _ _ _ h6
              obtain ⟨u, hu, _, _, u3⟩ := hx hmx
              rw [← u3]; exact (G.voteGen u hu).1
            · simp
            · rename_i hmx
              obtain ⟨_, _, _, _, _, _, hx, _⟩ := I.read1 _ _ _ _ _ _ h6
              obtain ⟨u, hu, _, _, u3⟩ := hx hmx
              rw [← u3]; exact (G.voteGen u hu).2
            · simp [hgn]
        have hmem : ∀ v ∈ B'.votes, v ∈ s.B.votes ∨ (v.host = p ∧ v.lver = cur.lver + 1 ∧ v.bal = mbal ∧ s.flag p = false) := by
          intro v hv
          rcases hvn with h1 | ⟨u, h1, h2⟩
          · rw [h1] at hv; exact .inl hv
          · rw [h1] at hv
            rcases List.mem_cons.mp hv with rfl | h3
            · exact .inr ⟨h2.1, h2.2.1, h2.2.2.1, h2.2.2.2.2.2.2⟩
            · exact .inl h3
        have hsub : ∀ v ∈ s.B.votes, v ∈ B'.votes := by
          intro v hv
          rcases hvn with h1 | ⟨u, h1, _⟩
          · rw [h1]; exact hv
          · rw [h1]; exact List.mem_cons_of_mem _ hv
        have hfl : ∀ q, (if writesFirst (s.B.proc p).pc a then upd s.flag p false else s.flag) q = true → s.flag q = true := by
          intro q
          split
          · rw [Sanlock.Lease.upd_apply]; split <;> simp
          · exact fun h => h
        refine inv_of_only (p := p) h ⟨fun _ _ => rfl, S.proc, S.disk, ?_, hsub, ?_, ?_, ?_, fun _ h => h, fun _ => Nat.le_refl _, fun _ _ _ h => h⟩
          (glob_bal (p := p) (cur := cur) G hr rfl rfl S.log (fun _ => .rfl') hcur hov ?_) ⟨?_, ?_, ?_, ?_, ?_, ?_, ?_, ?_, ?_, ?_⟩
        · intro q hq
          simp only
          split
          · rw [Sanlock.Lease.upd_apply, if_neg hq]
          · rfl
        · intro v hv
          exact (hmem v hv).imp id (·.1)
        · intro e he; simp only; rw [S.log]; exact he
        · intro e he; simp only at he; rw [S.log] at he; exact .inl he
        · rcases hvn with h1 | ⟨v, h1, h2, h3, h4, h5, h6, h7, _⟩
          · exact .inl h1
          · exact .inr ⟨v, h1, h3, h5, h6, h7⟩
        · simp only [hph]
          refine ⟨⟨hcur.relv, ?_⟩, hov, hmb, ?_, ?_⟩
          · refine hcur.log.imp id ?_
            rintro ⟨e, he, h1⟩
            exact ⟨e, by simp only; rw [S.log]; exact he, h1⟩
          · intro v hv hvp hvl
            rcases hmem v hv with h1 | h1
            · exact hbel v h1 hvp hvl
            · omega
          · intro _
            exact ⟨by simp only; rw [S.lver, hl], by simp only; rw [S.mbal, hm], by simp only; rw [S.gen, hgn]⟩
        · exact H.alive
        · intro hn; simp only [hph] at hn; exact absurd trivial hn
        · intro v hv hvp
          simp only
          rcases hmem v hv with h1 | h1
          · exact H.votes v h1 hvp
          · rw [hcur.relv]; omega
        · intro d
          simp only
          rcases S.own d with h1 | h1
          · rw [h1]; exact H.disk d
          · rw [h1, hl, hcur.relv]; exact Nat.le_refl _
        · exact H.full
        · simp only; rw [S.log]; exact H.log
        · simp only
          intro hf v hv hvp
          have hf := hfl p hf
          rcases hmem v hv with h1 | h1
          · exact H.flag hf v h1 hvp
          · rw [h1.2.2.2] at hf; exact absurd hf (by decide)
        · simp only
          intro d w hw hd
          cases a with
          | write q res =>
            simp only [balHost, Option.some.injEq] at ha
            subst ha
            simp only [Ballot.step] at hB
            split at hB
            · rename_i d0 w0 hpc0
              simp only [Allowed, hpc0] at hal
              rw [hpc0]
              by_cases hd0 : d0 = 0
              · subst hd0
                simp only at hal
                have : writesFirst (.write1 0 w0) (.write q res) = lands res := rfl
                rw [this, hal]
                simp [upd]
              · have hff := H.flag1 d0 w0 hpc0 (by omega)
                have : writesFirst (.write1 d0 w0) (.write q res) = false := by
                  cases d0 with
                  | zero => omega
                  | succ n => rfl
                rw [this]
                exact hff
            · rename_i d0 w1 w0 hpc0
              split at hB
              · cases res <;> simp only [Option.some.injEq] at hB <;> subst hB <;> simp at hw
              · simp at hB
            · simp at hB
          | start => simp [balHost] at ha
          | leaderWritten => simp [balHost] at ha
          | quit => simp [balHost] at ha
          | _ =>
            simp only [balHost, Option.some.injEq] at ha
            subst ha
            simp only [Ballot.step] at hB
            repeat' split at hB
            all_goals first | contradiction | (simp only [Option.some.injEq] at hB; subst hB; simp [Ballot.State.setProc] at hw)
        · simp only
          intro d w1 r buf mx hw
          have hnf : s.flag p = false → (if writesFirst (s.B.proc p).pc a then upd s.flag p false else s.flag) p = false := by
            intro h1
            cases h2 : (if writesFirst (s.B.proc p).pc a then upd s.flag p false else s.flag) p with
            | false => rfl
            | true => rw [hfl p h2] at h1; exact absurd h1 (by decide)
          apply hnf
          cases a with
          | writesDone q =>
            simp only [balHost, Option.some.injEq] at ha
            subst ha
            simp only [Ballot.step] at hB
            split at hB
            · rename_i d0 w0 hpc0
              split at hB
              · simp at hB
              split at hB
              · rename_i hmaj
                refine H.flag1 d0 w0 hpc0 ?_
                have hsub0 := (I.write1 _ _ _ hpc0).2.2.1
                have := Ballot.nodup_length_le hsub0
                have := majority_gt hmaj
                omega
              · simp only [Option.some.injEq] at hB; subst hB; simp at hw
            · repeat' split at hB
              all_goals first | contradiction | (simp only [Option.some.injEq] at hB; subst hB; simp at hw)
            · simp at hB
          | write q res =>
            simp only [balHost, Option.some.injEq] at ha
            subst ha
            simp only [Ballot.step] at hB
            repeat' split at hB
            all_goals first | contradiction | (simp only [Option.some.injEq] at hB; subst hB; simp at hw)
          | start => simp [balHost] at ha
          | leaderWritten => simp [balHost] at ha
          | quit => simp [balHost] at ha
          | _ =>
            simp only [balHost, Option.some.injEq] at ha
            subst ha
            simp only [Ballot.step] at hB
            split at hB
            · rename_i hpc0
              exact H.flag2 _ _ _ _ _ hpc0
            · repeat' split at hB
              all_goals first | contradiction | (simp only [Option.some.injEq] at hB; subst hB; simp [Ballot.State.setProc] at hw)
            · simp at hB
    · simp at hs
  · simp at hs

/-- Host `p` leaves the ballot, and whatever else it was doing. -/
theorem inv_leave {c : Cfg} {s : State} (h : Inv c s) (p : Nat) {al : Bool} {ph : Ph} (hal : al = true → (s.host p).alive = true)
    (hph : ph = .idle ∨ ∃ last, ph = .rel last 0 []) (hal' : ph ≠ .idle → al = true ∧ p < c.hosts) :
    Inv c (({ s with B := s.B.setPc p .idle } : State).setHost p
      { s.host p with alive := al, ph := ph, relv := max (s.host p).relv (s.host p).ph.own }) := by
  have G := h.glob
  have H := h.host p
  have hr : Ballot.Reach c (s.B.setPc p .idle) := .step (a := .quit p) G.reach trivial rfl
  have G1 : Glob c { s with B := s.B.setPc p .idle } :=
    ⟨hr, G.vote, G.voteTs, G.voteGen, G.wrote, G.onDisk, G.free, G.fullLog, G.logFull, G.bad⟩
  have hlat : Later (s.host p) { s.host p with alive := al, ph := ph, relv := max (s.host p).relv (s.host p).ph.own } := by
    refine ⟨Nat.le_refl _, ?_, by simp only; omega⟩
    intro _ ha
    cases al with
    | false => rfl
    | true => rw [hal rfl] at ha; exact absurd ha (by decide)
  have hlat' := fun q => later_setHost (s := { s with B := s.B.setPc p .idle }) hlat q
  refine inv_of_only (p := p) h ⟨?_, ?_, fun _ _ _ => rfl, fun _ _ => rfl, fun _ h => h, fun _ h => .inl h, fun _ h => h,
    fun _ h => .inl h, fun _ h => h, fun _ => Nat.le_refl _, fun _ _ _ => gone_mono hlat'⟩
    (glob_hosts G1 rfl rfl rfl hlat') ⟨?_, ?_, ?_, ?_, ?_, ?_, ?_, ?_, ?_, ?_⟩
  · intro q hq; simp [setHost_host, hq]
  · intro q hq; simp [State.setHost, Ballot.State.setPc, Ballot.State.setProc, hq]
  · rw [setHost_self]
    rcases hph with rfl | ⟨last, rfl⟩
    · trivial
    · exact ⟨seen_nil _ _, Nat.zero_le _⟩
  · rw [setHost_self]; exact hal'
  · intro _; simp [State.setHost]
  · intro v hv hvp; rw [setHost_self]; have := H.votes v hv hvp; simp only; omega
  · intro d; rw [setHost_self]; have := H.disk d; simp only [State.setHost, Ballot.setPc_disk]; omega
  · rw [setHost_self]; exact full_own h
  · intro e he hep; rw [setHost_self]; exact .inl (log_own h e he hep)
  · intro hf v hv hvp; rw [setHost_self]; have := H.flag hf v hv hvp; simp only; omega
  · intro d w hw; simp [State.setHost] at hw
  · intro d w1 r buf mx hw; simp [State.setHost] at hw

end Sanlock.MultiLease
