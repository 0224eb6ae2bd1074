import Verif.Fence
import Verif.Props.ResetHost

/-!
# Fencing (C56)

A host whose fencing is reported as done has been reset, or has given up its fencing lease on its own; a host that is
asked is reset; and of two hosts that fence each other the one with the lower number goes on.
-/

namespace Sanlock.Fence

/-! ### The report of the agent -/

theorem run_cons {w u : World} {a : Act} {as : List Act} (h : run w (a :: as) = some u) :
    ∃ v, step w a = some v ∧ run v as = some u := by
  simp only [run, Option.bind_eq_some_iff] at h
  exact h

theorem run_ind {P : World → Prop} {w u : World} {as : List Act} (h : P w) (e : run w as = some u)
    (st : ∀ w v a, a ∈ as → P w → step w a = some v → P v) : P u := by
  induction as generalizing w with
  | nil => obtain rfl := Option.some.inj e; exact h
  | cons a as ih =>
    obtain ⟨t, e1, e2⟩ := run_cons e
    exact ih (st _ _ a (List.mem_cons_self ..) h e1) e2
      fun s t b hb => st s t b (List.mem_cons_of_mem _ hb)

/-- The lease and the membership of the victim. -/
structure Inv (w : World) : Prop where
  /-- the host lease on disk belongs to the membership -/
  member : ∀ g, w.joined = some g → w.dgen = g ∧ w.dfree = false
  /-- who holds the fencing lease is a member and named in the record -/
  holder : w.holds = true → ∃ g, w.joined = some g ∧ w.lease = ⟨w.vid, g, true⟩
  /-- an old record of the victim has an old generation -/
  old : w.lease.held = true → w.lease.owner = w.vid → w.holds = false → w.joined.isSome → w.lease.gen < w.dgen
  le : w.lease.owner = w.vid → w.lease.gen ≤ w.dgen
  agents : ∀ i g, w.agent i = .trying g ∨ w.agent i = .waiting g → g ≤ w.dgen ∧ i ≠ w.vid ∧
    (w.lease.owner = w.vid → g ≤ w.lease.gen)
  rel : ∀ i, w.agent i = .releasing → i ≠ w.vid

theorem setAg_agent (w : World) (i j : Nat) (a : Ag) : (w.setAg i a).agent j = if j = i then a else w.agent j := rfl

/-- Changing an agent to a state in which it remembers nothing. -/
theorem Inv.setAg {w : World} (h : Inv w) (i : Nat) {a : Ag} (ha : ∀ g, a ≠ .trying g ∧ a ≠ .waiting g)
    (hr : a = .releasing → i ≠ w.vid) : Inv (w.setAg i a) where
  member := h.member
  holder := h.holder
  old := h.old
  le := h.le
  agents := by
    intro j g hj
    rw [setAg_agent] at hj
    split at hj
    · rcases hj with hj | hj
      · exact absurd hj (ha g).1
      · exact absurd hj (ha g).2
    · exact h.agents j g hj
  rel := by
    intro j hj
    rw [setAg_agent] at hj
    split at hj
    · rename_i hji; subst hji; exact hr hj
    · exact h.rel j hj

theorem Inv.setTrying {w : World} (h : Inv w) (i g : Nat) {a : Ag} (ha : a = .trying g ∨ a = .waiting g)
    (hg : g ≤ w.dgen) (hi : i ≠ w.vid) (hl : w.lease.owner = w.vid → g ≤ w.lease.gen) : Inv (w.setAg i a) where
  member := h.member
  holder := h.holder
  old := h.old
  le := h.le
  agents := by
    intro j g' hj
    rw [setAg_agent] at hj
    split at hj
    · rename_i hji
      subst hji
      have : g' = g := by rcases ha with rfl | rfl <;> rcases hj with hj | hj <;> cases hj <;> rfl
      subst this
      exact ⟨hg, hi, hl⟩
    · exact h.agents j g' hj
  rel := by
    intro j hj
    rw [setAg_agent] at hj
    split at hj
    · rcases ha with rfl | rfl <;> cases hj
    · exact h.rel j hj

theorem step_inv {w v : World} {a : Act} (h : Inv w) (e : step w a = some v) : Inv v ∧ v.vid = w.vid := by
  cases a with
  | join =>
    simp only [step] at e
    split at e
    · rename_i hj
      obtain rfl := Option.some.inj e
      have hn : w.joined = none := by simpa using hj
      refine ⟨⟨?_, ?_, ?_, ?_, ?_, h.rel⟩, rfl⟩
      · intro g hg; cases hg; exact ⟨rfl, rfl⟩
      · intro hh
        obtain ⟨g, hg, _⟩ := h.holder hh
        rw [hn] at hg; cases hg
      · intro _ ho _ _
        have := h.le ho
        show w.lease.gen < w.dgen + 1
        omega
      · intro ho
        have := h.le ho
        show w.lease.gen ≤ w.dgen + 1
        omega
      · intro i g hi
        obtain ⟨h1, h2, h3⟩ := h.agents i g hi
        exact ⟨Nat.le_succ_of_le h1, h2, h3⟩
    · cases e
  | on gone =>
    simp only [step] at e
    split at e
    · rename_i g hj
      split at e
      · obtain rfl := Option.some.inj e
        obtain ⟨hd, hf⟩ := h.member g hj
        refine ⟨⟨h.member, ?_, ?_, ?_, ?_, h.rel⟩, rfl⟩
        · intro _; exact ⟨g, hj, rfl⟩
        · intro _ _ hh _; cases hh
        · intro _; show g ≤ w.dgen; omega
        · intro i g' hi
          obtain ⟨h1, h2, _⟩ := h.agents i g' hi
          exact ⟨h1, h2, fun _ => (by show g' ≤ g; omega)⟩
      · cases e
    · cases e
  | off =>
    simp only [step] at e
    split at e
    · obtain rfl := Option.some.inj e
      exact ⟨⟨h.member, fun hh => (by cases hh), fun hh => (by cases hh), h.le, h.agents, h.rel⟩, rfl⟩
    · cases e
  | leave =>
    simp only [step] at e
    split at e
    · rename_i hj
      obtain rfl := Option.some.inj e
      refine ⟨⟨fun _ hg => (by cases hg), ?_, fun _ _ _ hg => (by cases hg), h.le, h.agents, h.rel⟩, rfl⟩
      intro hh
      have : w.holds = true := hh
      simp [this] at hj
    · cases e
  | crash =>
    simp only [step] at e
    split at e
    · obtain rfl := Option.some.inj e
      exact ⟨⟨fun _ hg => (by cases hg), fun hh => (by cases hh), fun _ _ _ hg => (by cases hg), h.le, h.agents, h.rel⟩,
        rfl⟩
    · cases e
  | reset =>
    simp only [step] at e
    obtain rfl := Option.some.inj e
    exact ⟨⟨fun _ hg => (by cases hg), fun hh => (by cases hh), fun _ _ _ hg => (by cases hg), h.le, h.agents, h.rel⟩,
      rfl⟩
  | start i =>
    simp only [step] at e
    split at e
    · split at e
      · cases e
      · rename_i hi
        split at e
        · obtain rfl := Option.some.inj e
          exact ⟨h.setAg i (fun g => ⟨by simp, by simp⟩) (by simp), rfl⟩
        · split at e
          · obtain rfl := Option.some.inj e
            exact ⟨h.setAg i (fun g => ⟨by simp, by simp⟩) (by simp), rfl⟩
          · rename_i ho
            obtain rfl := Option.some.inj e
            have ho : w.lease.owner = w.vid := by simpa using ho
            exact ⟨h.setTrying i _ (.inl rfl) (h.le ho) hi fun _ => Nat.le_refl _, rfl⟩
    · cases e
  | giveUp i =>
    simp only [step] at e
    split at e
    · obtain rfl := Option.some.inj e; exact ⟨h.setAg i (fun g => ⟨by simp, by simp⟩) (by simp), rfl⟩
    · obtain rfl := Option.some.inj e; exact ⟨h.setAg i (fun g => ⟨by simp, by simp⟩) (by simp), rfl⟩
    · cases e
  | win i gone =>
    simp only [step] at e
    split at e
    · rename_i g hg
      split at e
      · rename_i hw
        obtain rfl := Option.some.inj e
        have hi := (h.agents i g (.inl hg)).2.1
        have H := h.setAg i (a := .releasing) (fun g => ⟨by simp, by simp⟩) (fun _ => hi)
        refine ⟨⟨H.member, ?_, ?_, ?_, ?_, H.rel⟩, rfl⟩
        · intro hh
          obtain ⟨g', hj, hl⟩ := h.holder hh
          obtain ⟨hd, hf⟩ := h.member g' hj
          exfalso
          simp [ownerGone, hl, hj, hd, hf] at hw
        · intro _ ho; exact absurd ho hi
        · intro ho; exact absurd ho hi
        · intro j g' hj
          obtain ⟨h1, h2, _⟩ := H.agents j g' hj
          exact ⟨h1, h2, fun ho => absurd ho hi⟩
      · cases e
    · cases e
  | lose i =>
    simp only [step] at e
    split at e
    · rename_i g hg
      obtain rfl := Option.some.inj e
      obtain ⟨h1, h2, h3⟩ := h.agents i g (.inl hg)
      exact ⟨h.setTrying i g (.inr rfl) h1 h2 h3, rfl⟩
    · cases e
  | release i ok =>
    simp only [step] at e
    split at e
    · rename_i hr
      have hi := h.rel i hr
      have H := h.setAg i (a := .ok) (fun g => ⟨by simp, by simp⟩) (by simp)
      split at e
      · rename_i hw
        obtain rfl := Option.some.inj e
        have ho : w.lease.owner = i := by
          cases ok <;> simp at hw
          exact hw
        have hnv : w.lease.owner ≠ w.vid := by rw [ho]; exact hi
        refine ⟨⟨H.member, ?_, ?_, H.le, H.agents, H.rel⟩, rfl⟩
        · intro hh
          obtain ⟨g', hj, hl⟩ := h.holder hh
          exact absurd (by rw [hl]) hnv
        · intro hh; cases hh
      · obtain rfl := Option.some.inj e
        exact ⟨H, rfl⟩
    · cases e
  | reread i =>
    simp only [step] at e
    split at e
    · rename_i g hg
      obtain ⟨h1, h2, h3⟩ := h.agents i g (.inr hg)
      split at e
      · obtain rfl := Option.some.inj e; exact ⟨h.setAg i (fun g => ⟨by simp, by simp⟩) (by simp), rfl⟩
      · split at e
        · obtain rfl := Option.some.inj e; exact ⟨h.setAg i (fun g => ⟨by simp, by simp⟩) (by simp), rfl⟩
        · obtain rfl := Option.some.inj e; exact ⟨h.setTrying i g (.inl rfl) h1 h2 h3, rfl⟩
    · cases e
  | die i =>
    simp only [step] at e
    obtain rfl := Option.some.inj e
    exact ⟨h.setAg i (fun g => ⟨by simp, by simp⟩) (by simp), rfl⟩

theorem init_inv (vid : Nat) (hv : 0 < vid) : Inv (init vid) where
  member := fun _ h => by cases h
  holder := fun h => by cases h
  old := fun h => by cases h
  le := fun _ => Nat.le_refl _
  agents := fun _ _ h => by rcases h with h | h <;> cases h
  rel := fun _ h => by cases h

theorem reach_inv {vid : Nat} {w : World} {as : List Act} (hv : 0 < vid) (e : run (init vid) as = some w) :
    Inv w ∧ w.vid = vid :=
  run_ind (P := fun w => Inv w ∧ w.vid = vid) ⟨init_inv vid hv, rfl⟩ e fun w v a _ ⟨h, hv⟩ e =>
    ⟨(step_inv h e).1, (step_inv h e).2.trans hv⟩

/-- A step that neither resets the victim, nor makes it release its lease, nor kills its daemon, leaves it with its
lease, and no agent reports success. -/
theorem step_kept {w v : World} {a : Act} (h : Inv w) (hh : w.holds = true) (e : step w a = some v)
    (h1 : a ≠ .reset) (h2 : a ≠ .off) (h3 : a ≠ .crash) :
    v.holds = true ∧ v.lease = w.lease ∧ ∀ i, (w.agent i = .idle ∨ w.agent i = .failed ∨ w.agent i = .trying w.lease.gen ∨
      w.agent i = .waiting w.lease.gen) → (v.agent i = .idle ∨ v.agent i = .failed ∨ v.agent i = .trying w.lease.gen ∨
      v.agent i = .waiting w.lease.gen) := by
  obtain ⟨g, hj, hl⟩ := h.holder hh
  obtain ⟨hd, hf⟩ := h.member g hj
  have keep : ∀ i a, (a = .idle ∨ a = .failed ∨ a = .trying w.lease.gen ∨ a = .waiting w.lease.gen) → ∀ j,
      (w.agent j = .idle ∨ w.agent j = .failed ∨ w.agent j = .trying w.lease.gen ∨
      w.agent j = .waiting w.lease.gen) → ((w.setAg i a).agent j = .idle ∨ (w.setAg i a).agent j = .failed ∨
      (w.setAg i a).agent j = .trying w.lease.gen ∨ (w.setAg i a).agent j = .waiting w.lease.gen) := by
    intro i a ha j hj
    rw [setAg_agent]
    split
    · exact ha
    · exact hj
  cases a with
  | reset => exact absurd rfl h1
  | off => exact absurd rfl h2
  | crash => exact absurd rfl h3
  | join => simp [step, hj] at e
  | on gone => simp [step, hj, hh] at e
  | leave => simp [step, hh] at e
  | start i =>
    simp only [step, hl] at e
    split at e
    · split at e
      · cases e
      · simp only [Bool.not_true, Bool.false_eq_true, if_false, ne_eq, not_true_eq_false] at e
        obtain rfl := Option.some.inj e
        exact ⟨hh, rfl, keep i _ (.inr (.inr (.inl (by rw [hl]))))⟩
    · cases e
  | giveUp i =>
    simp only [step] at e
    split at e
    · obtain rfl := Option.some.inj e; exact ⟨hh, rfl, keep i _ (.inr (.inl rfl))⟩
    · obtain rfl := Option.some.inj e; exact ⟨hh, rfl, keep i _ (.inr (.inl rfl))⟩
    · cases e
  | win i gone =>
    simp only [step] at e
    split at e
    · simp [ownerGone, hl, hj, hd, hf] at e
    · cases e
  | lose i =>
    simp only [step] at e
    split at e
    · rename_i g' hg
      obtain rfl := Option.some.inj e
      refine ⟨hh, rfl, fun j hj' => ?_⟩
      rw [setAg_agent]
      split
      · rename_i hji
        subst hji
        rw [hg] at hj'
        rcases hj' with h | h | h | h <;> cases h
        exact .inr (.inr (.inr rfl))
      · exact hj'
    · cases e
  | release i ok =>
    simp only [step] at e
    split at e
    · rename_i hr
      have hi := h.rel i hr
      have hne : (w.lease.owner == i) = false := by
        rw [hl]; simp only [beq_eq_false_iff_ne]; exact fun h => hi h.symm
      simp only [hne, Bool.and_false, Bool.false_eq_true, if_false] at e
      obtain rfl := Option.some.inj e
      refine ⟨hh, rfl, fun j hj' => ?_⟩
      rw [setAg_agent]
      split
      · rename_i hji
        subst hji
        rw [hr] at hj'
        rcases hj' with h | h | h | h <;> cases h
      · exact hj'
    · cases e
  | reread i =>
    simp only [step] at e
    split at e
    · rename_i g' hg
      have ho : w.lease.owner = w.vid := by rw [hl]
      have hgl : w.lease.gen = g := by rw [hl]
      rw [if_neg (by simp [ho])] at e
      split at e
      · rename_i hlt
        obtain rfl := Option.some.inj e
        refine ⟨hh, rfl, fun j hj' => ?_⟩
        rw [setAg_agent]
        split
        · rename_i hji
          subst hji
          rw [hg] at hj'
          rcases hj' with h | h | h | h <;> cases h
          exact absurd hlt (Nat.lt_irrefl _)
        · exact hj'
      · obtain rfl := Option.some.inj e
        refine ⟨hh, rfl, fun j hj' => ?_⟩
        rw [setAg_agent]
        split
        · rename_i hji
          subst hji
          rw [hg] at hj'
          rcases hj' with h | h | h | h <;> cases h
          exact .inr (.inr (.inl rfl))
        · exact hj'
    · cases e
  | die i =>
    simp only [step] at e
    obtain rfl := Option.some.inj e
    exact ⟨hh, rfl, keep i _ (.inl rfl)⟩

/-- **C56.** An agent that starts while the victim holds its fencing lease and that reports success does so after the
victim was reset, or released its lease on its own.  For any number of agents on other hosts, in any order of steps, agents
that die and hosts that do.

Missing: a victim whose sanlock daemon is killed and started again, see `crashed_victim_violated`. -/
theorem off_success_partial {vid : Nat} {w u : World} {as bs : List Act} {i : Nat} (hv : 0 < vid)
    (e : run (init vid) as = some w) (hh : w.holds = true) (hi : w.agent i = .idle)
    (eu : run w bs = some u) (hok : u.agent i = .ok) (hc : .crash ∉ bs) : .reset ∈ bs ∨ .off ∈ bs := by
  refine Classical.byContradiction fun hn => ?_
  have hn1 : .reset ∉ bs := fun h => hn (.inl h)
  have hn2 : .off ∉ bs := fun h => hn (.inr h)
  have := run_ind (P := fun v => Inv v ∧ v.holds = true ∧ (v.agent i = .idle ∨ v.agent i = .failed ∨
      v.agent i = .trying v.lease.gen ∨ v.agent i = .waiting v.lease.gen))
    ⟨(reach_inv hv e).1, hh, .inl hi⟩ eu (by
      intro x y a ha ⟨h1, h2, h3⟩ e
      obtain ⟨k1, k2, k3⟩ := step_kept h1 h2 e (fun h => hn1 (h ▸ ha)) (fun h => hn2 (h ▸ ha)) (fun h => hc (h ▸ ha))
      refine ⟨(step_inv h1 e).1, k1, ?_⟩
      rw [k2]
      exact k3 i h3)
  rcases this.2.2 with h | h | h | h <;> rw [hok] at h <;> cases h

/-- As long as the victim holds its lease no other host gets it. -/
theorem not_taken {vid : Nat} {w v : World} {as : List Act} {i : Nat} {gone : Bool} (hv : 0 < vid)
    (e : run (init vid) as = some w) (hh : w.holds = true) : step w (.win i gone) ≠ some v := by
  intro es
  have hI := (reach_inv hv e).1
  obtain ⟨g, hj, hl⟩ := hI.holder hh
  obtain ⟨hd, hf⟩ := hI.member g hj
  simp only [step] at es
  split at es
  · simp [ownerGone, hl, hj, hd, hf] at es
  · cases es

/-- Once the victim does not hold the lease with the generation the agent has read any more, and was reset if its
daemon was killed, the agent can finish on its own with success, unless another host has taken the lease. -/
theorem can_finish {vid : Nat} {w : World} {as : List Act} {i g : Nat} (hv : 0 < vid)
    (e : run (init vid) as = some w) (hi : w.agent i = .trying g) (ho : w.lease.owner = w.vid)
    (hp : w.pending = false) (hg : ¬ (w.holds = true ∧ w.lease.gen = g)) :
    ∃ bs u, (∀ b ∈ bs, b = .win i false ∨ b = .release i true ∨ b = .lose i ∨ b = .reread i) ∧ run w bs = some u ∧
      u.agent i = .ok := by
  have hI := (reach_inv hv e).1
  obtain ⟨h1, h2, h3⟩ := hI.agents i g (.inl hi)
  by_cases hh : w.holds = true
  · have hlt : g < w.lease.gen := by
      have := h3 ho
      have : w.lease.gen ≠ g := fun h => hg ⟨hh, h⟩
      omega
    refine ⟨[.lose i, .reread i], (w.setAg i (.waiting g)).setAg i .ok, by simp, ?_, by simp [setAg_agent]⟩
    have e1 : step w (.lose i) = some (w.setAg i (.waiting g)) := by simp [step, hi]
    have e2 : step (w.setAg i (.waiting g)) (.reread i) = some ((w.setAg i (.waiting g)).setAg i .ok) := by
      have hw : (w.setAg i (.waiting g)).agent i = .waiting g := by simp [setAg_agent]
      have hl' : (w.setAg i (.waiting g)).lease = w.lease := rfl
      have hv' : (w.setAg i (.waiting g)).vid = w.vid := rfl
      simp [step, hw, hl', hv', ho, hlt]
    simp [run, e1, e2]
  · have hh' : w.holds = false := by simpa using hh
    have hw : (!w.lease.held || ownerGone w false) = true := by
      cases hH : w.lease.held
      · rfl
      · simp only [Bool.not_true, Bool.false_or, ownerGone, ho, if_true, hp, Bool.not_false, Bool.and_true]
        cases hj : w.joined with
        | none => simp
        | some g' =>
          have := hI.old hH ho hh' (by rw [hj]; rfl)
          simp [this]
    have e1 : step w (.win i false) = some { w.setAg i .releasing with lease := ⟨i, 1, true⟩ } := by
      simp only [step, hi]
      rw [if_pos hw]
    have e2 : ∃ u, step { w.setAg i .releasing with lease := ⟨i, 1, true⟩ } (.release i true) = some u ∧
        u.agent i = .ok := by
      simp [step, setAg_agent]
    obtain ⟨u, e2, hu⟩ := e2
    exact ⟨[.win i false, .release i true], u, by simp, by simp [run, e1, e2], hu⟩

/-! ### The daemon on the victim -/

/-- A victim that is not fencing a host with a higher number stops renewing its connection to wdmd for good. -/
theorem victim_silent {d : D} {es : List Ev} (h : d.victim = true)
    (hf : ∀ now files, .pass now files ∈ es → ∀ v, checkAgent files = some v → v ≤ d.id) :
    (d.run es).lives = d.lives ∧ (d.run es).victim = true := by
  suffices (d.run es).lives = d.lives ∧ (d.run es).victim = true ∧ (d.run es).id = d.id from ⟨this.1, this.2.1⟩
  induction es generalizing d with
  | nil => exact ⟨rfl, h, rfl⟩
  | cons e es ih =>
    have key : (d.step e).lives = d.lives ∧ (d.step e).victim = true ∧ (d.step e).id = d.id := by
      cases e with
      | signal s => cases s <;> exact ⟨rfl, by first | exact h | rfl, rfl⟩
      | pass now files =>
        have hf' := hf now files (List.mem_cons_self ..)
        simp only [D.step, D.pass]
        split
        · exact ⟨rfl, h, rfl⟩
        · split
          · exact ⟨rfl, h, rfl⟩
          · have hd : (duel d files).lives = d.lives ∧ (duel d files).victim = true ∧ (duel d files).id = d.id := by
              unfold duel
              split
              · split
                · rename_i v hv
                  rw [if_neg (by have := hf' v hv; omega)]
                  exact ⟨rfl, h, rfl⟩
                · exact ⟨rfl, h, rfl⟩
              · exact ⟨rfl, h, rfl⟩
            have hs : still (duel d files) files = duel d files := by simp [still, hd.2.1]
            have hk : keepLive (duel d files) now = duel d files := by simp [keepLive, hd.2.1]
            rw [hs, hk]
            exact hd
    have := ih (d := d.step e) key.2.1 (by
      intro now files hm
      rw [key.2.2]
      exact hf now files (List.mem_cons_of_mem _ hm))
    exact ⟨this.1.trans key.1, this.2.1, this.2.2.trans key.2.2⟩

/-- A host that has lost its lockspace (SIGTERM) stops renewing for good, fenced or not, fencing or not. -/
theorem lost_silent {d : D} {es : List Ev} (h : d.recovery = true) : (d.run es).lives = d.lives := by
  induction es generalizing d with
  | nil => rfl
  | cons e es ih =>
    have key : (d.step e).lives = d.lives ∧ (d.step e).recovery = true := by
      cases e with
      | signal s => cases s <;> exact ⟨rfl, by first | exact h | rfl⟩
      | pass now files =>
        have h1 : (duel d files).lives = d.lives ∧ (duel d files).recovery = true := by
          unfold duel
          repeat' split
          all_goals exact ⟨rfl, h⟩
        have h2 : (still (duel d files) files).lives = d.lives ∧ (still (duel d files) files).recovery = true := by
          unfold still
          repeat' split
          all_goals exact h1
        simp only [D.step, D.pass]
        split
        · exact ⟨rfl, h⟩
        · split
          · exact ⟨rfl, h⟩
          · simpa [keepLive, h2.2] using h2
    exact (ih key.2).trans key.1

/-- The signals of sanlock and of the service have their effect: a lost lockspace, and a request for the lease. -/
theorem signalled {d : D} {es : List Ev} :
    ((d.signal .term).run es).lives = d.lives ∧ (d.signal .usr1).victim = true ∧ (d.signal .usr1).lives = d.lives :=
  ⟨lost_silent rfl, rfl, rfl⟩

/-- A daemon that is told to stop (SIGHUP) leaves its loop in the next pass, renews no more and does nothing after
that; without this signal it never does. -/
theorem stops_iff {d : D} {es : List Ev} (h : d.stopped = false) (hs : d.shutdown = false) :
    (d.run es).stopped = true ↔ ∃ bs cs now files, es = bs ++ .pass now files :: cs ∧ .signal .hup ∈ bs := by
  have shut : ∀ (d : D) e, (d.step e).shutdown = true ↔ d.shutdown = true ∨ e = .signal .hup := by
    intro d e
    cases e with
    | signal s => cases s <;> simp [D.step, D.signal]
    | pass now files =>
      simp only [D.step, D.pass, keepLive, still, duel]
      repeat' split
      all_goals simp_all
  have stop : ∀ (d : D) e, (d.step e).stopped = true ↔
      d.stopped = true ∨ (d.shutdown = true ∧ ∃ now files, e = .pass now files) := by
    intro d e
    cases e with
    | signal s => cases s <;> simp [D.step, D.signal]
    | pass now files =>
      simp only [D.step, D.pass, keepLive, still, duel]
      repeat' split
      all_goals simp_all
  have key : ∀ (es : List Ev) (d : D), (d.run es).stopped = true ↔ d.stopped = true ∨
      (d.shutdown = true ∧ ∃ now files, .pass now files ∈ es) ∨
      ∃ bs cs now files, es = bs ++ .pass now files :: cs ∧ .signal .hup ∈ bs := by
    intro es
    induction es with
    | nil => intro d; simp [D.run]
    | cons e es ih =>
      intro d
      show ((d.step e).run es).stopped = true ↔ _
      rw [ih, stop, shut]
      constructor
      · rintro ((h | ⟨h, n, f, rfl⟩) | ⟨h | rfl, n, f, hm⟩ | ⟨bs, cs, n, f, rfl, hm⟩)
        · exact .inl h
        · exact .inr (.inl ⟨h, n, f, List.mem_cons_self⟩)
        · exact .inr (.inl ⟨h, n, f, List.mem_cons_of_mem _ hm⟩)
        · obtain ⟨bs, cs, rfl⟩ := List.append_of_mem hm
          exact .inr (.inr ⟨.signal .hup :: bs, cs, n, f, rfl, List.mem_cons_self⟩)
        · exact .inr (.inr ⟨e :: bs, cs, n, f, rfl, List.mem_cons_of_mem _ hm⟩)
      · rintro (h | ⟨h, n, f, hm⟩ | ⟨bs, cs, n, f, he, hm⟩)
        · exact .inl (.inl h)
        · rcases List.mem_cons.mp hm with rfl | hm
          · exact .inl (.inr ⟨h, n, f, rfl⟩)
          · exact .inr (.inl ⟨.inl h, n, f, hm⟩)
        · cases bs with
          | nil => cases hm
          | cons b bs =>
            simp only [List.cons_append, List.cons.injEq] at he
            obtain ⟨rfl, rfl⟩ := he
            rcases List.mem_cons.mp hm with rfl | hm
            · exact .inr (.inl ⟨.inr rfl, n, f, by simp⟩)
            · exact .inr (.inr ⟨bs, cs, n, f, rfl, hm⟩)
  rw [key]
  simp [h, hs]

/-- The passes come when `poll` returns: not later than its timeout after the previous one. -/
def Timely (d : D) (t : Nat) : List Ev → Prop
  | [] => True
  | .signal s :: es => Timely (d.signal s) t es
  | .pass now files :: es => t ≤ now ∧ now ≤ t + d.timeout t ∧ Timely (d.pass now files) now es

/-- Consecutive times, newest first, are at most `k` apart. -/
def Gaps (k : Nat) : List Nat → Prop
  | a :: b :: l => b ≤ a ∧ a ≤ b + k ∧ Gaps k (b :: l)
  | _ => True

/-- A host that is not fenced and does not lose its lockspace renews its connection to wdmd every 14 seconds at the
latest, also while it fences others; the connection expires after 20. -/
theorem stays_live {id t : Nat} {es : List Ev} (ht : Timely (D.init id t) t es)
    (hs : ∀ s, .signal s ∈ es → s = .usr2) : Gaps 14 ((D.init id t).run es).lives := by
  suffices key : ∀ (d : D) t, d.victim = false → d.recovery = false → d.shutdown = false → d.stopped = false →
      (∃ l, d.lives = d.live :: l) → d.live ≤ t → t < d.live + 5 → Gaps 14 d.lives → Timely d t es →
      Gaps 14 (d.run es).lives from
    key (D.init id t) t rfl rfl rfl rfl ⟨[], rfl⟩ (Nat.le_refl _) (by simp [D.init]) trivial ht
  clear ht
  induction es with
  | nil => intro d t _ _ _ _ _ _ _ h _; exact h
  | cons e es ih =>
    have hs' : ∀ s, .signal s ∈ es → s = .usr2 := fun s h => hs s (List.mem_cons_of_mem _ h)
    intro d t hv hr hsh hst hl h1 h2 hg ht
    cases e with
    | signal s =>
      obtain rfl := hs s (List.mem_cons_self ..)
      exact ih hs' (d.signal .usr2) t hv hr hsh hst hl h1 h2 hg ht
    | pass now files =>
      obtain ⟨t1, t2, t3⟩ := ht
      have hto : d.timeout t ≤ 10 := by
        have h5 : liveInterval = 5 := rfl
        unfold D.timeout
        split
        · exact Nat.le_refl _
        · split <;> omega
      have hd : duel d files = d := by simp [duel, hv]
      obtain ⟨d', hd', e1, e2, e3, e4, e5, e6⟩ : ∃ d', still d files = d' ∧ d'.victim = false ∧ d'.recovery = false ∧
          d'.shutdown = false ∧ d'.stopped = false ∧ d'.live = d.live ∧ d'.lives = d.lives := by
        refine ⟨still d files, rfl, ?_⟩
        unfold still
        split
        · split <;> exact ⟨hv, hr, hsh, hst, rfl, rfl⟩
        · exact ⟨hv, hr, hsh, hst, rfl, rfl⟩
      have hp : d.pass now files = keepLive d' now := by
        simp only [D.pass, hst, hsh, Bool.false_eq_true, if_false, hd, hd']
      show Gaps 14 ((d.pass now files).run es).lives
      rw [hp] at t3 ⊢
      by_cases hc : now - d'.live ≥ liveInterval
      · have hk : keepLive d' now = { d' with live := now, lives := now :: d'.lives } := by
          simp [keepLive, e1, e2, hc]
        rw [hk] at t3 ⊢
        refine ih hs' _ now e1 e2 e3 e4 ⟨_, rfl⟩ (Nat.le_refl _) (Nat.lt_add_of_pos_right (by decide)) ?_ t3
        obtain ⟨l, hl⟩ := hl
        show Gaps 14 (now :: d'.lives)
        rw [e6, hl]
        rw [hl] at hg
        exact ⟨by omega, by omega, hg⟩
      · have hk : keepLive d' now = d' := by simp [keepLive, hc]
        rw [hk] at t3 ⊢
        refine ih hs' _ now e1 e2 e3 e4 (by rw [e6, e5]; exact hl) (by rw [e5]; omega) ?_ (by rw [e6]; exact hg) t3
        have : d.live ≤ now := by omega
        simp only [liveInterval, e5] at hc ⊢
        omega

/-! ### The watchdog of the victim -/

open Wdmd in
/-- Tests fail from time `L` on because of connection `ci`; the device is armed and was last pinged at `L`, or at most
`d` seconds later when it was closed for good. -/
structure Expiring (s : St) (ci L d : Nat) : Prop where
  entry : ∃ c, s.clients[ci]? = some c ∧ c.used = true ∧ c.internal = false ∧ c.expire ≠ 0 ∧ c.refcount = true ∧
    ∀ n, L ≤ n → clientFails s.stdInterval n c = true
  running : s.exited = false
  enabled : s.enabled = true
  armed : s.dev.armed = true
  last : s.dev.lastPing ≤ L + d
  isOpen : s.devOpen = true → s.dev.lastPing ≤ L

open Wdmd ResetHost in
theorem expiring_step {s : St} {ci L d : Nat} (h : Expiring s ci L d) (e : Wdmd.Ev)
    (hq : Kept ci false e) (ht : Within d s e) :
    Expiring (Wdmd.step s e) ci L d ∧ (Wdmd.step s e).fire = s.fire := by
  obtain ⟨⟨c, hc, hu, hi, hne, href, hfail⟩, hrun, hen, harm, hlast, hopen⟩ := h
  have hcl : ∀ ci' f, (∀ c, ci' ≠ ci ∨ ((f c).used = c.used ∧ (f c).internal = c.internal ∧
        (f c).expire = c.expire ∧ (c.refcount = true → (f c).refcount = true)) ∨ (f = clientPidDead)) →
      ∃ c, (onClient s ci' f).clients[ci]? = some c ∧ c.used = true ∧ c.internal = false ∧ c.expire ≠ 0 ∧
        c.refcount = true ∧ ∀ n, L ≤ n → clientFails s.stdInterval n c = true := by
    intro ci' f hf
    simp only [onClient, List.getElem?_modify, hc, Option.map_eq_map, Option.map_some]
    by_cases hcc : ci' = ci
    · simp only [hcc, if_true, Option.some.injEq]
      refine ⟨_, rfl, ?_⟩
      by_cases ho : c.isOpen = true
      · simp only [ho, if_true]
        rcases hf c with h | ⟨h1, h2, h3, h4⟩ | h
        · exact absurd hcc h
        · refine ⟨h1.trans hu, h2.trans hi, by rw [h3]; exact hne, h4 href, fun n hn => ?_⟩
          have := hfail n hn
          simp only [clientFails, h1, h3] at this ⊢
          exact this
        · rw [h]
          simp only [clientPidDead, hne, if_false]
          exact ⟨hu, hi, hne, href, hfail⟩
      · simp only [ho]; exact ⟨hu, hi, hne, href, hfail⟩
    · simp only [hcc, if_false]; exact ⟨c, rfl, hu, hi, hne, href, hfail⟩
  cases e
  case wait n => exact ⟨⟨⟨c, hc, hu, hi, hne, href, hfail⟩, hrun, hen, harm, hlast, hopen⟩, rfl⟩
  case openWatchdog ci' f o a =>
    have : Wdmd.step s (.openWatchdog ci' f o a) = s := by simp [Wdmd.step, hrun, openWatchdog, hen]
    rw [this]
    exact ⟨⟨⟨c, hc, hu, hi, hne, href, hfail⟩, hrun, hen, harm, hlast, hopen⟩, rfl⟩
  case connect =>
    simp only [Wdmd.step, hrun, Bool.false_eq_true, if_false]
    exact ⟨⟨⟨c, clientAdd_keeps _ _ _ hc hu, hu, hi, hne, href, hfail⟩, rfl, hen, harm, hlast, hopen⟩, trivial⟩
  case sigterm =>
    simp only [Wdmd.step, hrun, Bool.false_eq_true, if_false]
    exact ⟨⟨⟨c, hc, hu, hi, hne, href, hfail⟩, rfl, hen, harm, hlast, hopen⟩, trivial⟩
  case refSet ci' =>
    simp only [Wdmd.step, hrun, Bool.false_eq_true, if_false]
    exact ⟨⟨hcl _ _ (fun c => Or.inr (Or.inl ⟨rfl, rfl, rfl, fun _ => rfl⟩)), hrun, hen, harm, hlast, hopen⟩, rfl⟩
  case refClear ci' =>
    simp only [Wdmd.step, hrun, Bool.false_eq_true, if_false]
    exact ⟨⟨hcl _ _ (fun c => Or.inl (hq rfl)), hrun, hen, harm, hlast, hopen⟩, rfl⟩
  case testLive ci' x =>
    simp only [Wdmd.step, hrun, Bool.false_eq_true, if_false]
    exact ⟨⟨hcl _ _ (fun c => Or.inl hq), hrun, hen, harm, hlast, hopen⟩, rfl⟩
  case hup ci' =>
    simp only [Wdmd.step, hrun, Bool.false_eq_true, if_false]
    exact ⟨⟨hcl _ _ (fun c => Or.inr (Or.inr rfl)), hrun, hen, harm, hlast, hopen⟩, rfl⟩
  case round n f ok =>
    have hact : active s.clients = true := (active_iff s).mpr ⟨c, List.mem_of_getElem? hc, hu, href⟩
    have hround : Wdmd.step s (.round n f ok) =
        if s.now - s.testTime ≥ s.testInterval then runTests s n f ok else s := by
      simp only [Wdmd.step, hrun, Bool.false_eq_true, if_false, round, hact, hen, Bool.not_true, Bool.and_false,
        Bool.false_and]
    rw [hround]
    split
    · rename_i hdue
      simp only [Within] at ht
      unfold runTests
      simp only
      by_cases hz : f + testClients s.stdInterval (s.now + n) s.clients = 0
      · rw [if_pos hz]
        have hlt : s.now + n < L := by
          refine Classical.byContradiction fun hge => ?_
          have := testClients_pos (std := s.stdInterval) (now := s.now + n) (List.mem_of_getElem? hc)
            (hfail _ (by omega))
          omega
        cases hd : s.devOpen
        · cases ok
          · simp only [openDev, petWatchdog, hd, Bool.false_eq_true, if_false]
            exact ⟨⟨⟨c, hc, hu, hi, hne, href, hfail⟩, hrun, hen, harm, hlast, by simp⟩, trivial⟩
          · simp only [openDev, petWatchdog, hd, Bool.false_eq_true, if_false, if_true, St.emit, Dev.op]
            exact ⟨⟨⟨c, hc, hu, hi, hne, href, hfail⟩, hrun, hen, rfl, by show s.now + n ≤ L + d; omega,
              fun _ => Nat.le_of_lt hlt⟩, trivial⟩
        · simp only [petWatchdog, hd, if_true, St.emit, Dev.op]
          exact ⟨⟨⟨c, hc, hu, hi, hne, href, hfail⟩, hrun, hen, harm, by show s.now + n ≤ L + d; omega,
            fun _ => Nat.le_of_lt hlt⟩, trivial⟩
      · rw [if_neg hz]
        cases hd : s.devOpen
        · simp only [closeWatchdogUnclean, hd, Bool.false_eq_true, if_false]
          exact ⟨⟨⟨c, hc, hu, hi, hne, href, hfail⟩, hrun, hen, harm, hlast, by simp⟩, trivial⟩
        · have ht' := ht hd hdue
          have ho' := hopen hd
          simp only [closeWatchdogUnclean, hd, if_true, St.emit, Dev.op]
          exact ⟨⟨⟨c, hc, hu, hi, hne, href, hfail⟩, hrun, hen, harm, by show s.now + n ≤ L + d; omega, by simp⟩,
            trivial⟩
    · exact ⟨⟨⟨c, hc, hu, hi, hne, href, hfail⟩, hrun, hen, harm, hlast, hopen⟩, rfl⟩

open Wdmd ResetHost in
/-- The victim is reset: after the last renewal, at time `t`, of a connection that is not closed by its owner, the
watchdog fires at most `10 + d + fire` seconds later, whatever other clients of wdmd do, if the tests of wdmd end at most
`d` seconds after the previous keep-alive. -/
theorem victim_reset {s : St} {ci d : Nat} {c : Client} (hc : s.clients[ci]? = some c) (hu : c.used = true)
    (ho : c.isOpen = true) (hi : c.internal = false) (href : c.refcount = true) (hrun : s.exited = false)
    (hen : s.enabled = true) (harm : s.dev.armed = true) (hl : s.dev.lastPing ≤ s.now) (hstd : s.stdInterval = 10)
    (hnow : s.now + expireInterval < 2 ^ 64) (es : List Wdmd.Ev) (hq : ∀ e ∈ es, Kept ci false e)
    (ht : WithinRun d (Wdmd.step s (.testLive ci (UInt64.ofNat (s.now + expireInterval)))) es) :
    let u := Wdmd.run (Wdmd.step s (.testLive ci (UInt64.ofNat (s.now + expireInterval)))) es
    u.dev.armed = true ∧ u.exited = false ∧ u.dev.lastPing + u.fire ≤ s.now + 10 + d + s.fire := by
  have hx : (UInt64.ofNat (s.now + expireInterval)).toNat = s.now + expireInterval := by
    simp only [UInt64.toNat_ofNat']
    exact Nat.mod_eq_of_lt hnow
  have hsub : (UInt64.ofNat (s.now + expireInterval) - UInt64.ofNat 10).toNat = s.now + 10 := by
    rw [UInt64.toNat_sub_of_le]
    · rw [hx]; rfl
    · rw [UInt64.le_iff_toNat_le, hx]; show 10 ≤ s.now + 20; omega
  have h0 : Expiring (Wdmd.step s (.testLive ci (UInt64.ofNat (s.now + expireInterval)))) ci (s.now + 10) d := by
    simp only [Wdmd.step, hrun, Bool.false_eq_true, if_false]
    refine ⟨⟨{ c with expire := UInt64.ofNat (s.now + expireInterval) }, ?_, hu, hi, ?_, href, ?_⟩, hrun, hen, harm,
      by show s.dev.lastPing ≤ s.now + 10 + d; omega, fun _ => (by show s.dev.lastPing ≤ s.now + 10; omega)⟩
    · simp only [onClient, List.getElem?_modify, hc, Option.map_eq_map, Option.map_some, if_true, ho]
    · intro h
      have := congrArg UInt64.toNat h
      rw [hx] at this
      simp only [expireInterval] at this
      have h2 : s.now + 20 = 0 := this
      omega
    · intro n hn
      have hne : UInt64.ofNat (s.now + expireInterval) ≠ 0 := by
        intro h
        have := congrArg UInt64.toNat h
        rw [hx] at this
        have h2 : s.now + 20 = 0 := this
        omega
      show clientFails s.stdInterval n _ = true
      simp only [clientFails, hu, hstd, hsub, Bool.true_and, Bool.and_eq_true, bne_iff_ne, ne_eq, hne,
        not_false_eq_true, true_and, Bool.or_eq_true, decide_eq_true_eq]
      right; exact hn
  have main : ∀ (es : List Wdmd.Ev) (v : St) L, Expiring v ci L d → (∀ e ∈ es, Kept ci false e) → WithinRun d v es →
      Expiring (Wdmd.run v es) ci L d ∧ (Wdmd.run v es).fire = v.fire := by
    intro es
    induction es with
    | nil => intro v L h _ _; exact ⟨h, rfl⟩
    | cons e es ih =>
      intro v L h hq ht
      rw [Wdmd.run_cons]
      obtain ⟨h1, h2⟩ := expiring_step h e (hq e List.mem_cons_self) ht.1
      obtain ⟨h3, h4⟩ := ih _ L h1 (fun x hx => hq x (List.mem_cons_of_mem _ hx)) ht.2
      exact ⟨h3, by rw [h4, h2]⟩
  obtain ⟨h1, h2⟩ := main es _ _ h0 hq ht
  refine ⟨h1.armed, h1.running, ?_⟩
  have h3 : (Wdmd.step s (.testLive ci (UInt64.ofNat (s.now + expireInterval)))).fire = s.fire := by
    simp only [Wdmd.step, hrun, Bool.false_eq_true, if_false, onClient]
  rw [h2, h3]
  have := h1.last
  omega

/-! ### Two hosts that fence each other -/

/-- When both hosts have both signals and their agents run, the one with the lower number goes on and the other stops
renewing its connection, whatever comes afterwards, as long as it fences only hosts with lower numbers.

Missing: what a further request for the lease of the winner does, see `winner_dies_violated`. -/
theorem duel_partial {a b : D} {now now' : Nat} {es : List Ev} (hab : a.id < b.id) (ha : a.victim = true ∧ a.fencing = true)
    (hb : b.victim = true ∧ b.fencing = true) (has : a.stopped = false ∧ a.shutdown = false ∧ a.recovery = false)
    (hlive : a.live + liveInterval ≤ now)
    (he : ∀ n files, .pass n files ∈ es → ∀ v, checkAgent files = some v → v ≤ b.id) :
    (a.pass now [some b.id]).victim = false ∧ (a.pass now [some b.id]).lives = now :: a.lives ∧
    ((b.pass now' [some a.id]).run es).victim = true ∧ ((b.pass now' [some a.id]).run es).lives = b.lives := by
  have h1 : a.pass now [some b.id] = { a with victim := false, fencing := false, live := now, lives := now :: a.lives } := by
    have hc : now - a.live ≥ liveInterval := by omega
    simp [D.pass, has.1, has.2.1, duel, ha.1, ha.2, checkAgent, hab, still, keepLive, has.2.2, hc]
  have h2 := victim_silent (d := b) (es := .pass now' [some a.id] :: es) hb.1 (by
    intro n files hm v hv
    simp only [List.mem_cons, Ev.pass.injEq] at hm
    rcases hm with ⟨rfl, rfl⟩ | hm
    · simp only [checkAgent, List.findSome?_cons, id_eq, Option.some.injEq] at hv
      omega
    · exact he n files hm v hv)
  rw [h1]
  exact ⟨rfl, rfl, h2.2, h2.1⟩

/-! ### What the code does otherwise -/

/-- The victim's sanlock daemon is killed and started again, and fence_sanlockd too: the agent sees the new generation
and reports success, although the victim was never reset and never gave up its lease. -/
theorem crashed_victim_violated :
    ∃ w u, run (init 2) [.join, .on false] = some w ∧ w.holds = true ∧
      run w [.start 1, .lose 1, .crash, .join, .on false, .reread 1] = some u ∧ u.agent 1 = .ok ∧ u.boots = 0 :=
  ⟨_, _, rfl, rfl, rfl, rfl, rfl⟩

/-- Two agents fence the same host: the victim is reset, one agent reports success and the other a failure. -/
theorem second_agent_violated :
    ∃ u, run (init 2) [.join, .on false, .start 1, .start 3, .lose 1, .lose 3, .reread 1, .reset, .win 1 false,
      .release 1 true, .reread 3] = some u ∧ u.agent 1 = .ok ∧ u.agent 3 = .failed ∧ u.boots = 1 :=
  ⟨_, rfl, rfl, rfl, rfl⟩

/-- The lease is in the hands of a host that is no longer fencing. -/
structure Stuck (w : World) (j : Nat) : Prop where
  lease : w.lease = ⟨j, 1, true⟩
  other : j ≠ w.vid
  holds : w.holds = false
  agents : ∀ i, w.agent i = .idle ∨ w.agent i = .failed

theorem stuck_step {w v : World} {a : Act} {j : Nat} (h : Stuck w j) (e : step w a = some v) (h1 : a ≠ .on true) :
    Stuck v j := by
  have keep : ∀ i a, (a = Ag.idle ∨ a = .failed) → Stuck (w.setAg i a) j := by
    intro i a ha
    refine ⟨h.lease, h.other, h.holds, fun x => ?_⟩
    rw [setAg_agent]
    split
    · exact ha
    · exact h.agents x
  have na : ∀ i b, w.agent i = b → b ≠ .idle → b ≠ .failed → False := by
    intro i b hb h1 h2
    rcases h.agents i with h | h
    · exact h1 (hb ▸ h)
    · exact h2 (hb ▸ h)
  cases a with
  | join =>
    simp only [step] at e
    split at e
    · obtain rfl := Option.some.inj e; exact ⟨h.lease, h.other, h.holds, h.agents⟩
    · cases e
  | on gone =>
    cases gone with
    | true => exact absurd rfl h1
    | false =>
      simp only [step] at e
      split at e
      · rw [h.lease] at e
        simp [h.holds, h.other] at e
      · cases e
  | off => simp [step, h.holds] at e
  | leave =>
    simp only [step] at e
    split at e
    · obtain rfl := Option.some.inj e; exact ⟨h.lease, h.other, h.holds, h.agents⟩
    · cases e
  | crash =>
    simp only [step] at e
    split at e
    · obtain rfl := Option.some.inj e; exact ⟨h.lease, h.other, rfl, h.agents⟩
    · cases e
  | reset =>
    simp only [step] at e
    obtain rfl := Option.some.inj e; exact ⟨h.lease, h.other, rfl, h.agents⟩
  | start i =>
    simp only [step] at e
    split at e
    · split at e
      · cases e
      · rw [h.lease] at e
        simp only [Bool.not_true, Bool.false_eq_true, if_false, ne_eq, h.other, not_false_eq_true, if_true] at e
        obtain rfl := Option.some.inj e
        exact keep i _ (.inr rfl)
    · cases e
  | giveUp i =>
    simp only [step] at e
    split at e
    · obtain rfl := Option.some.inj e; exact keep i _ (.inr rfl)
    · obtain rfl := Option.some.inj e; exact keep i _ (.inr rfl)
    · cases e
  | win i gone =>
    simp only [step] at e
    split at e
    · rename_i g hg; exact (na i _ hg (by simp) (by simp)).elim
    · cases e
  | lose i =>
    simp only [step] at e
    split at e
    · rename_i g hg; exact (na i _ hg (by simp) (by simp)).elim
    · cases e
  | release i ok =>
    simp only [step] at e
    split at e
    · rename_i hg; exact (na i _ hg (by simp) (by simp)).elim
    · cases e
  | reread i =>
    simp only [step] at e
    split at e
    · rename_i g hg; exact (na i _ hg (by simp) (by simp)).elim
    · cases e
  | die i =>
    simp only [step] at e
    obtain rfl := Option.some.inj e
    exact keep i _ (.inl rfl)

/-- An agent that is killed after it got the victim's lease leaves it in the hands of its host: as long as that host
lives, every later attempt to fence the victim fails, although it has been reset, and the victim cannot get its own
lease any more. -/
theorem killed_agent_violated :
    ∃ w, run (init 2) [.join, .on false, .start 1, .lose 1, .reread 1, .reset, .win 1 false, .die 1] = some w ∧
      ∀ as u, .on true ∉ as → run w as = some u → u.holds = false ∧ ∀ i, u.agent i ≠ .ok := by
  refine ⟨_, rfl, fun as u hn e => ?_⟩
  have := run_ind (P := fun w => Stuck w 1) ⟨rfl, by decide, rfl, by
    intro i
    simp only [setAg_agent, init]
    repeat' split
    all_goals simp⟩ e fun w v a ha h e => stuck_step h e (fun h => hn (h ▸ ha))
  refine ⟨this.holds, fun i hi => ?_⟩
  rcases this.agents i with h | h <;> rw [hi] at h <;> cases h

/-- Of two hosts that fence each other also the one with the lower number is reset when its sanlock daemon passes on
the request for its lease a second time: it sends a signal for each look at the request (`Props/Request`), but the
daemon forgets that it is fencing with the first one. -/
theorem winner_dies_violated :
    ∀ es, (∀ s, .signal s ∈ es → s ≠ .usr2) →
      ((D.init 1 100).run ([.signal .usr2, .pass 101 [some 2], .signal .usr1, .pass 102 [some 2], .signal .usr1] ++ es)).lives =
        [100] ∧
      ((D.init 1 100).run [.signal .usr2, .pass 101 [some 2], .signal .usr1, .pass 102 [some 2]]).victim = false := by
  intro es h
  refine ⟨?_, rfl⟩
  have : (D.init 1 100).run ([.signal .usr2, .pass 101 [some 2], .signal .usr1, .pass 102 [some 2], .signal .usr1] ++ es) =
      D.run ⟨1, true, false, false, false, 100, false, [100]⟩ es := by
    simp only [D.run, List.foldl_append]; rfl
  rw [this]
  suffices key : ∀ d : D, d.victim = true → d.fencing = false → (d.run es).lives = d.lives from key _ rfl rfl
  clear this
  induction es with
  | nil => intro d _ _; rfl
  | cons e es ih =>
    intro d hv hf
    have hs : ∀ s, .signal s ∈ es → s ≠ .usr2 := fun s hm => h s (List.mem_cons_of_mem _ hm)
    have key : (d.step e).victim = true ∧ (d.step e).fencing = false ∧ (d.step e).lives = d.lives := by
      cases e with
      | signal s =>
        have := h s (List.mem_cons_self ..)
        cases s with
        | usr2 => exact absurd rfl this
        | hup => exact ⟨hv, hf, rfl⟩
        | term => exact ⟨hv, hf, rfl⟩
        | usr1 => exact ⟨rfl, hf, rfl⟩
      | pass now files =>
        simp only [D.step, D.pass]
        split
        · exact ⟨hv, hf, rfl⟩
        · split
          · exact ⟨hv, hf, rfl⟩
          · simp [duel, still, keepLive, hv, hf]
    exact (ih hs (d.step e) key.1 key.2.1).trans key.2.2

/-- With three hosts, host 1 that fences host 3 takes a request of host 2 for a duel and ignores it: it goes on
renewing, and the agent on host 2, which asks only once, never ends (`not_taken`). -/
theorem three_hosts_violated :
    ((D.init 1 100).run [.signal .usr2, .pass 101 [some 3], .signal .usr1, .pass 102 [some 3], .pass 105 [],
      .pass 110 []]).lives = [110, 105, 100] := rfl

/-! ### The hypotheses can be met -/

/-- Fencing a live host: asked, reset, taken and released. -/
example : ∃ w u, run (init 2) [.join, .on false] = some w ∧ w.holds = true ∧ w.agent 1 = .idle ∧
    run w [.start 1, .lose 1, .reread 1, .lose 1, .reset, .reread 1, .win 1 false, .release 1 true] = some u ∧
    u.agent 1 = .ok ∧ u.boots = 1 ∧ u.lease.held = false := ⟨_, _, rfl, rfl, rfl, rfl, rfl, rfl, rfl⟩

/-- `can_finish`: the victim has been reset, joined and got its lease again. -/
example : ∃ w, run (init 2) [.join, .on false, .start 1, .lose 1, .reread 1, .reset, .join, .on false] = some w ∧
    w.agent 1 = .trying 1 ∧ w.lease.owner = 2 ∧ w.pending = false ∧ w.lease.gen = 2 ∧ w.holds = true :=
  ⟨_, rfl, rfl, rfl, rfl, rfl, rfl⟩

/-- `stays_live`: a host that fences another one for a while. -/
example : Timely (D.init 1 100) 100 [.pass 105 [], .signal .usr2, .pass 106 [some 2], .pass 116 [some 2], .pass 126 [],
    .pass 131 []] ∧ ((D.init 1 100).run [.pass 105 [], .signal .usr2, .pass 106 [some 2], .pass 116 [some 2], .pass 126 [],
    .pass 131 []]).lives = [131, 126, 116, 105, 100] := by
  refine ⟨?_, rfl⟩
  simp only [Timely]
  decide

/-- `lost_silent`, `stops_iff`. -/
example : ((D.init 1 100).run [.pass 105 [], .signal .term]).recovery = true ∧
    ((D.init 1 100).run [.pass 105 [], .signal .hup, .signal .usr1, .pass 106 []]).stopped = true := by decide

/-- `duel_partial`. -/
example : ((D.init 1 100).run [.signal .usr1, .signal .usr2]).victim = true ∧
    ((D.init 1 100).run [.signal .usr1, .signal .usr2]).fencing = true ∧
    ((D.init 2 100).run [.signal .usr2, .signal .usr1]).victim = true := by decide

/-- `victim_reset`: fence_sanlockd is client 2 of wdmd and renews at 104 for the last time; the watchdog was opened by
sanlock.  wdmd finds it expired at the test at 120 and closes
the device. -/
def wdmdBefore : Wdmd.St := Wdmd.run (Wdmd.init 100) [.connect, .refSet 2, .connect, .openWatchdog 3 60 true true, .refSet 3,
  .round 0 0 true, .wait 4]

example : wdmdBefore.clients[2]? = some { Wdmd.Client.empty with used := true, isOpen := true, refcount := true } ∧
    wdmdBefore.exited = false ∧ wdmdBefore.enabled = true ∧ wdmdBefore.dev.armed = true ∧
    wdmdBefore.dev.lastPing ≤ wdmdBefore.now ∧ wdmdBefore.stdInterval = 10 := by decide

example : (Wdmd.run (Wdmd.step wdmdBefore (.testLive 2 124)) [.wait 6, .testLive 3 190, .round 0 0 true, .wait 10,
    .round 0 0 true]).dev = { armed := true, lastPing := 120 } := by decide

end Sanlock.Fence
