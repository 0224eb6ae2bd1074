import Verif.Single

/-!
# One daemon per host (C57)
-/

namespace Sanlock.Single

theorem run_cons {c : Cfg} {s u : State} {a : Act} {as : List Act} (h : run c s (a :: as) = some u) :
    ∃ t, step c s a = some t ∧ run c t as = some u := by
  simp only [run, Option.bind_eq_some_iff] at h
  exact h

theorem run_ind {c : Cfg} {P : State → Prop} {s u : State} {as : List Act} (h : P s) (e : run c s as = some u)
    (st : ∀ s t a, a ∈ as → P s → step c s a = some t → P t) : P u := by
  induction as generalizing s with
  | nil => obtain rfl := Option.some.inj e; exact h
  | cons a as ih =>
    obtain ⟨t, e1, e2⟩ := run_cons e
    exact ih (st _ _ a (List.mem_cons_self ..) h e1) e2
      fun s t b hb => st s t b (List.mem_cons_of_mem _ hb)

/-- The inode a process holds the lock of. -/
def Ph.held : Ph → Option Nat
  | .locked i | .up i | .down i => some i
  | _ => none

/-- The inode a process has open. -/
def Ph.ino : Ph → Option Nat
  | .opened i | .locked i | .up i | .down i => some i
  | _ => none

/-- The process may use the watchdog. -/
def Ph.user : Ph → Bool
  | .up _ | .probing => true
  | _ => false

theorem setPh_ph (s : State) (p q : Nat) (x : Ph) : (s.setPh p x).ph q = if q = p then x else s.ph q := rfl

theorem ends_ph (s : State) (p q : Nat) : (s.ends p).ph q = if q = p then .dead else s.ph q := rfl

/-- What a step does to the phases, the locks and the file. -/
inductive Step (c : Cfg) (s t : State) (a : Act) (p : Nat) : Prop
  | openOld (i : Nat) (h : s.ph p = .new) (hp : s.path = some i) (e : t = s.setPh p (.opened i))
  | openNew (h : s.ph p = .new) (hp : s.path = none)
      (e : t = { s.setPh p (.opened s.next) with path := some s.next, next := s.next + 1 })
  | locks (i : Nat) (h : s.ph p = .opened i) (hl : s.lock i = none)
      (e : t = { s.setPh p (.locked i) with
                  lock := fun j => if j = i then some p else s.lock j
                  names := fun j => if j = i then some p else s.names j })
  | ends (h : a = .kill p ∨ (s.ph p).user = false) (e : t = s.ends p)
  | refused (i : Nat) (h : s.ph p = .locked i) (hs : c.shm = true ∧ s.shm = true) (e : t = s.setPh p (.down i))
  | up (i : Nat) (h : s.ph p = .locked i) (hs : c.shm = true → s.shm = false)
      (e : t = { s.setPh p (.up i) with shm := c.shm, sock := some p })
  | dev (x : Bool) (h : (s.ph p).user = true) (hs : c.shm = true) (e : t = { s with armed := x, used := s.used + 1 })
  | stop (i : Nat) (h : s.ph p = .up i) (e : t = { s.setPh p (.down i) with shm := false })
  | exit (i : Nat) (h : s.ph p = .down i) (e : t = { s.ends p with path := if c.unlinks then none else s.path })
  | noProbe (h : s.ph p = .new) (e : t = s.setPh p .dead)
  | probe (h : s.ph p = .new) (hs : c.shm = true ∧ s.shm = false) (e : t = { s.setPh p .probing with shm := true })
  | probed (h : s.ph p = .probing) (e : t = { s.setPh p .dead with shm := false })

theorem step_cases {c : Cfg} {s t : State} {a : Act} (e : step c s a = some t) : ∃ p, Step c s t a p := by
  cases a with
  | «open» p =>
    simp only [step] at e
    split at e
    · exact ⟨p, .openOld _ (by assumption) (by assumption) (Option.some.inj e).symm⟩
    · exact ⟨p, .openNew (by assumption) (by assumption) (Option.some.inj e).symm⟩
    · cases e
  | lock p =>
    simp only [step] at e
    split at e
    · split at e
      · exact ⟨p, .locks _ (by assumption) (by assumption) (Option.some.inj e).symm⟩
      · exact ⟨p, .ends (.inr (by simp_all [Ph.user])) (Option.some.inj e).symm⟩
    · cases e
  | guard p =>
    simp only [step] at e
    split at e
    · split at e
      · rename_i h; exact ⟨p, .refused _ (by assumption) (by simpa using h) (Option.some.inj e).symm⟩
      · rename_i h; exact ⟨p, .up _ (by assumption) (by simpa using h) (Option.some.inj e).symm⟩
    · cases e
  | dev p a =>
    simp only [step] at e
    split at e
    · rename_i h; split at e
      · exact ⟨p, .dev a (by rw [h]; rfl) (by assumption) (Option.some.inj e).symm⟩
      · cases e
    · rename_i h; split at e
      · exact ⟨p, .dev a (by rw [h]; rfl) (by assumption) (Option.some.inj e).symm⟩
      · cases e
    · cases e
  | stop p =>
    simp only [step] at e
    split at e
    · exact ⟨p, .stop _ (by assumption) (Option.some.inj e).symm⟩
    · cases e
  | exit p =>
    simp only [step] at e
    split at e
    · exact ⟨p, .exit _ (by assumption) (Option.some.inj e).symm⟩
    · cases e
  | kill p => exact ⟨p, .ends (.inl rfl) (Option.some.inj e).symm⟩
  | probe p =>
    simp only [step] at e
    split at e
    · split at e
      · cases e
      · rename_i hc
        split at e
        · exact ⟨p, .noProbe (by assumption) (Option.some.inj e).symm⟩
        · rename_i h1
          exact ⟨p, .probe (by assumption) ⟨by simpa using hc, by simpa using h1⟩ (Option.some.inj e).symm⟩
    · cases e
  | probed p =>
    simp only [step] at e
    split at e
    · exact ⟨p, .probed (by assumption) (Option.some.inj e).symm⟩
    · cases e

/-- The lock of a file belongs to the process that thinks so, and the file names it. -/
structure Locks (s : State) : Prop where
  held : ∀ p i, (s.ph p).held = some i → s.lock i = some p
  names : ∀ p i, (s.ph p).held = some i → s.names i = some p
  only : ∀ p i, s.lock i = some p → (s.ph p).held = some i

theorem locks_setPh {s : State} (h : Locks s) (p : Nat) (x : Ph) (hx : x.held = (s.ph p).held) : Locks (s.setPh p x) where
  held := by
    intro q i hq
    rw [setPh_ph] at hq
    split at hq
    · rename_i hqp; subst hqp; exact h.held _ i (hx ▸ hq)
    · exact h.held q i hq
  names := by
    intro q i hq
    rw [setPh_ph] at hq
    split at hq
    · rename_i hqp; subst hqp; exact h.names _ i (hx ▸ hq)
    · exact h.names q i hq
  only := by
    intro q i hq
    rw [setPh_ph]
    split
    · rename_i hqp; subst hqp; rw [hx]; exact h.only _ i hq
    · exact h.only q i hq

theorem locks_ends {s : State} (h : Locks s) (p : Nat) : Locks (s.ends p) where
  held := by
    intro q i hq
    rw [ends_ph] at hq
    split at hq
    · cases hq
    · rename_i hqp
      have := h.held q i hq
      show (if s.lock i = some p then none else s.lock i) = some q
      rw [this, if_neg (by simpa using hqp)]
  names := by
    intro q i hq
    rw [ends_ph] at hq
    split at hq
    · cases hq
    · exact h.names q i hq
  only := by
    intro q i hq
    have hq' : (if s.lock i = some p then none else s.lock i) = some q := hq
    split at hq'
    · cases hq'
    · rename_i hne
      rw [ends_ph, if_neg (by rintro rfl; exact hne hq')]
      exact h.only q i hq'

theorem step_locks {c : Cfg} {s t : State} {p : Nat} (h : Locks s) {a : Act} (e : Step c s t a p) : Locks t := by
  cases e with
  | openOld i hp _ e => subst e; exact locks_setPh h p _ (by rw [hp]; rfl)
  | openNew hp _ e =>
    subst e
    have := locks_setPh h p (.opened s.next) (by rw [hp]; rfl)
    exact ⟨this.held, this.names, this.only⟩
  | locks i hp hl e =>
    subst e
    refine ⟨?_, ?_, ?_⟩
    · intro q j hq
      have hq' : (if q = p then Ph.locked i else s.ph q).held = some j := hq
      show (if j = i then some p else s.lock j) = some q
      split at hq'
      · cases hq'; rw [if_pos rfl]; subst q; rfl
      · have := h.held q j hq'
        rw [if_neg (by rintro rfl; rw [hl] at this; cases this)]
        exact this
    · intro q j hq
      have hq' : (if q = p then Ph.locked i else s.ph q).held = some j := hq
      show (if j = i then some p else s.names j) = some q
      split at hq'
      · cases hq'; rw [if_pos rfl]; subst q; rfl
      · have := h.held q j hq'
        rw [if_neg (by rintro rfl; rw [hl] at this; cases this)]
        exact h.names q j hq'
    · intro q j hq
      have hq' : (if j = i then some p else s.lock j) = some q := hq
      show (if q = p then Ph.locked i else s.ph q).held = some j
      split at hq'
      · rename_i hji; cases hq'; rw [if_pos rfl, hji]; rfl
      · rename_i hji
        have := h.only q j hq'
        rw [if_neg ?_]
        · exact this
        · rintro rfl; rw [hp] at this; cases this
  | ends _ e => subst e; exact locks_ends h p
  | refused i hp _ e => subst e; exact locks_setPh h p _ (by rw [hp]; rfl)
  | up i hp _ e =>
    subst e
    have := locks_setPh h p (.up i) (by rw [hp]; rfl)
    exact ⟨this.held, this.names, this.only⟩
  | dev a _ _ e => subst e; exact ⟨h.held, h.names, h.only⟩
  | stop i hp e =>
    subst e
    have := locks_setPh h p (.down i) (by rw [hp]; rfl)
    exact ⟨this.held, this.names, this.only⟩
  | exit i hp e =>
    subst e
    have := locks_ends h p
    exact ⟨this.held, this.names, this.only⟩
  | noProbe hp e => subst e; exact locks_setPh h p _ (by rw [hp]; rfl)
  | probe hp _ e =>
    subst e
    have := locks_setPh h p .probing (by rw [hp]; rfl)
    exact ⟨this.held, this.names, this.only⟩
  | probed hp e =>
    subst e
    have := locks_setPh h p .dead (by rw [hp]; rfl)
    exact ⟨this.held, this.names, this.only⟩

theorem reach_locks {c : Cfg} {s : State} {as : List Act} (e : run c init as = some s) : Locks s :=
  run_ind (P := Locks) ⟨fun _ _ h => (by cases h), fun _ _ h => (by cases h), fun _ _ h => (by cases h)⟩ e
    fun _ _ _ _ h e => (step_cases e).elim fun _ e => step_locks h e

/-! ### sanlock: the file stays -/

/-- All processes have the file open that the name leads to. -/
theorem step_path {c : Cfg} (hc : c.unlinks = false) {s t : State} {p : Nat}
    (h : ∀ q i, (s.ph q).ino = some i → s.path = some i) {a : Act} (e : Step c s t a p) :
    ∀ q i, (t.ph q).ino = some i → t.path = some i := by
  have set : ∀ x : Ph, (∀ i, x.ino = some i → s.path = some i) → ∀ q i, ((s.setPh p x).ph q).ino = some i →
      s.path = some i := by
    intro x hx q i hq
    rw [setPh_ph] at hq
    split at hq
    · exact hx i hq
    · exact h q i hq
  have dead : ∀ q i, ((s.ends p).ph q).ino = some i → s.path = some i := by
    intro q i hq
    rw [ends_ph] at hq
    split at hq
    · cases hq
    · exact h q i hq
  cases e with
  | openOld i _ hp e => subst e; exact set _ (by intro j hj; cases hj; exact hp)
  | openNew _ hp e =>
    subst e
    intro q i hq
    have hq' : (if q = p then Ph.opened s.next else s.ph q).ino = some i := hq
    split at hq'
    · cases hq'; rfl
    · have := h q i hq'; rw [hp] at this; cases this
  | locks i hp _ e => subst e; exact set _ (by intro j hj; cases hj; exact h p i (by rw [hp]; rfl))
  | ends _ e => subst e; exact dead
  | refused i hp _ e => subst e; exact set _ (by intro j hj; cases hj; exact h p i (by rw [hp]; rfl))
  | up i hp _ e => subst e; exact set _ (by intro j hj; cases hj; exact h p i (by rw [hp]; rfl))
  | dev a _ _ e => subst e; exact h
  | stop i hp e => subst e; exact set _ (by intro j hj; cases hj; exact h p i (by rw [hp]; rfl))
  | exit i hp e => subst e; rw [hc]; exact dead
  | noProbe hp e => subst e; exact set _ (by intro j hj; cases hj)
  | probe hp _ e => subst e; exact set _ (by intro j hj; cases hj)
  | probed hp e => subst e; exact set _ (by intro j hj; cases hj)

theorem reach_path {c : Cfg} (hc : c.unlinks = false) {s : State} {as : List Act} (e : run c init as = some s) :
    ∀ q i, (s.ph q).ino = some i → s.path = some i :=
  run_ind (P := fun s => ∀ q i, (s.ph q).ino = some i → s.path = some i) (fun _ _ h => by cases h) e
    fun _ _ _ _ h e => (step_cases e).elim fun _ e => step_path hc h e

/-- **C57.** At most one sanlock daemon runs on a host, whatever the order in which daemons are started, stopped and
killed; and the lock file names it. -/
theorem one_sanlock {s : State} {as : List Act} (e : run sanlock init as = some s) {p i : Nat} (hp : s.ph p = .up i) :
    (∀ q j, s.ph q = .up j → q = p) ∧ s.path = some i ∧ s.names i = some p := by
  have hl := reach_locks e
  have hh := reach_path rfl e
  refine ⟨fun q j hq => ?_, hh p i (by rw [hp]; rfl), hl.names p i (by rw [hp]; rfl)⟩
  have h1 := hh p i (by rw [hp]; rfl)
  have h2 := hh q j (by rw [hq]; rfl)
  have hij : i = j := by rw [h1] at h2; cases h2; rfl
  subst hij
  have h3 := hl.held p i (by rw [hp]; rfl)
  have h4 := hl.held q i (by rw [hq]; rfl)
  rw [h3] at h4
  cases h4
  rfl

/-! ### wdmd: the shared memory object -/

/-- The object is there while somebody may use the watchdog, and this is one process. -/
structure Shm (s : State) : Prop where
  there : ∀ p, (s.ph p).user = true → s.shm = true
  one : ∀ p q, (s.ph p).user = true → (s.ph q).user = true → p = q

theorem shm_keep {s : State} (h : Shm s) (p : Nat) (x : Ph) (hx : x.user = false) : Shm (s.setPh p x) where
  there := by
    intro q hq
    rw [setPh_ph] at hq
    split at hq
    · rw [hx] at hq; cases hq
    · exact h.there q hq
  one := by
    intro q r hq hr
    rw [setPh_ph] at hq hr
    split at hq
    · rw [hx] at hq; cases hq
    · split at hr
      · rw [hx] at hr; cases hr
      · exact h.one q r hq hr

theorem none_user {s : State} (h : Shm s) (hs : s.shm = false) (q : Nat) : (s.ph q).user = false := by
  cases hu : (s.ph q).user
  · rfl
  · rw [h.there q hu] at hs; cases hs

theorem shm_take {s : State} (h : Shm s) (hs : s.shm = false) (p : Nat) (x : Ph) :
    Shm { s.setPh p x with shm := true } where
  there := fun _ _ => rfl
  one := by
    have : ∀ q, ((s.setPh p x).ph q).user = true → q = p := by
      intro q hq
      rw [setPh_ph] at hq
      split at hq
      · assumption
      · rw [none_user h hs q] at hq; cases hq
    intro q r hq hr
    rw [this q hq, this r hr]

theorem shm_give {s : State} (h : Shm s) (p : Nat) (hp : (s.ph p).user = true) (x : Ph) (hx : x.user = false) :
    Shm { s.setPh p x with shm := false } := by
  have : ∀ q, ((s.setPh p x).ph q).user = false := by
    intro q
    rw [setPh_ph]
    split
    · exact hx
    · rename_i hqp
      cases hu : (s.ph q).user
      · rfl
      · exact absurd (h.one q p hu hp) hqp
  refine ⟨fun q hq => ?_, fun q r hq _ => ?_⟩ <;> exact absurd ((this q).symm.trans hq) (by decide)

theorem shm_same {s t : State} (h : Shm s) (hp : t.ph = s.ph) (hs : t.shm = s.shm) : Shm t :=
  ⟨fun p hq => by rw [hs]; exact h.there p (hp ▸ hq), fun p q h1 h2 => h.one p q (hp ▸ h1) (hp ▸ h2)⟩

theorem step_shm {c : Cfg} (hc : c.shm = true) {s t : State} {p : Nat} (h : Shm s) {a : Act} (e : Step c s t a p) : Shm t := by
  cases e with
  | openOld i _ _ e => subst e; exact shm_keep h p _ rfl
  | openNew _ _ e => subst e; exact shm_same (shm_keep h p (.opened s.next) rfl) rfl rfl
  | locks i _ _ e => subst e; exact shm_same (shm_keep h p (.locked i) rfl) rfl rfl
  | ends _ e => subst e; exact shm_same (shm_keep h p .dead rfl) rfl rfl
  | refused i _ _ e => subst e; exact shm_keep h p _ rfl
  | up i _ hs e =>
    subst e
    rw [hc]
    exact shm_same (shm_take h (hs hc) p (.up i)) rfl rfl
  | dev a _ _ e => subst e; exact shm_same h rfl rfl
  | stop i hp e => subst e; exact shm_give h p (by rw [hp]; rfl) _ rfl
  | exit i _ e => subst e; exact shm_same (shm_keep h p .dead rfl) rfl rfl
  | noProbe _ e => subst e; exact shm_keep h p _ rfl
  | probe _ hs e => subst e; exact shm_take h hs.2 p _
  | probed hp e => subst e; exact shm_give h p (by rw [hp]; rfl) _ rfl

theorem reach_shm {c : Cfg} (hc : c.shm = true) {s : State} {as : List Act} (e : run c init as = some s) : Shm s :=
  run_ind (P := Shm) ⟨fun _ h => (by cases h), fun _ _ h => (by cases h)⟩ e
    fun _ _ _ _ h e => (step_cases e).elim fun _ e => step_shm hc h e

/-- At most one process at a time, daemon or probe, may use the watchdog. -/
theorem one_wdmd {s : State} {as : List Act} (e : run wdmd init as = some s) {p q : Nat}
    (hp : (∃ i, s.ph p = .up i) ∨ s.ph p = .probing) (hq : (∃ i, s.ph q = .up i) ∨ s.ph q = .probing) : p = q := by
  have h := reach_shm rfl e
  have us : ∀ p, ((∃ i, s.ph p = .up i) ∨ s.ph p = .probing) → (s.ph p).user = true := by
    rintro p (⟨i, h⟩ | h) <;> rw [h] <;> rfl
  exact h.one p q (us p hp) (us q hq)

/-- After a wdmd that runs was killed, no other one comes up and nobody touches the watchdog, until the host is reset:
an armed watchdog stays armed and is not pinged. -/
theorem killed_wdmd {s t u : State} {as bs : List Act} {p i : Nat} (e : run wdmd init as = some s) (hp : s.ph p = .up i)
    (ek : step wdmd s (.kill p) = some t) (eu : run wdmd t bs = some u) :
    (∀ q j, u.ph q ≠ .up j) ∧ (∀ q, u.ph q ≠ .probing) ∧ u.used = s.used ∧ u.armed = s.armed := by
  have h := reach_shm rfl e
  obtain rfl := Option.some.inj ek
  have hu : (s.ph p).user = true := by rw [hp]; rfl
  have := run_ind (c := wdmd) (P := fun t => t.shm = true ∧ (∀ q, (t.ph q).user = false) ∧ t.used = s.used ∧ t.armed = s.armed)
    (s := s.ends p) ⟨h.there p hu, by
      intro q
      rw [ends_ph]
      split
      · rfl
      · rename_i hq
        cases hq' : (s.ph q).user
        · rfl
        · exact absurd (h.one q p hq' hu) hq, rfl, rfl⟩ eu (by
    intro x y a _ ⟨h1, h2, h3, h4⟩ e
    obtain ⟨q, e⟩ := step_cases e
    have keep : ∀ z : Ph, z.user = false → ∀ r, ((x.setPh q z).ph r).user = false := by
      intro z hz r
      rw [setPh_ph]
      split
      · exact hz
      · exact h2 r
    cases e with
    | openOld i _ _ e => subst e; exact ⟨h1, keep _ rfl, h3, h4⟩
    | openNew _ _ e => subst e; exact ⟨h1, keep _ rfl, h3, h4⟩
    | locks i _ _ e => subst e; exact ⟨h1, keep _ rfl, h3, h4⟩
    | ends _ e => subst e; exact ⟨h1, keep _ rfl, h3, h4⟩
    | refused i _ _ e => subst e; exact ⟨h1, keep _ rfl, h3, h4⟩
    | up i _ hs e => have := hs rfl; rw [h1] at this; cases this
    | dev a hu' _ e => rw [h2 q] at hu'; cases hu'
    | stop i hp e => have := h2 q; rw [hp] at this; cases this
    | exit i _ e => subst e; exact ⟨h1, keep _ rfl, h3, h4⟩
    | noProbe _ e => subst e; exact ⟨h1, keep _ rfl, h3, h4⟩
    | probe _ hs e => have := hs.2; rw [h1] at this; cases this
    | probed hp e => have := h2 q; rw [hp] at this; cases this)
  refine ⟨fun q j hq => ?_, fun q hq => ?_, this.2.2.1, this.2.2.2⟩
  · have := this.2.1 q; rw [hq] at this; cases this
  · have := this.2.1 q; rw [hq] at this; cases this

/-- The watchdog is only touched by a process that runs. -/
theorem only_users {s t : State} {a : Act} (e : step wdmd s a = some t) (h : t.used ≠ s.used ∨ t.armed ≠ s.armed) :
    ∃ p x, a = .dev p x ∧ ((∃ i, s.ph p = .up i) ∨ s.ph p = .probing) := by
  have same : t.used = s.used → t.armed = s.armed → False := fun h1 h2 => h.elim (· h1) (· h2)
  cases a with
  | dev p x =>
    refine ⟨p, x, rfl, ?_⟩
    simp only [step] at e
    split at e
    · rename_i h; exact .inl ⟨_, h⟩
    · rename_i h; exact .inr h
    · cases e
  | «open» p =>
    simp only [step] at e
    split at e
    · obtain rfl := Option.some.inj e; exact (same rfl rfl).elim
    · obtain rfl := Option.some.inj e; exact (same rfl rfl).elim
    · cases e
  | lock p =>
    simp only [step] at e
    split at e
    · split at e <;> obtain rfl := Option.some.inj e <;> exact (same rfl rfl).elim
    · cases e
  | guard p =>
    simp only [step] at e
    split at e
    · split at e <;> obtain rfl := Option.some.inj e <;> exact (same rfl rfl).elim
    · cases e
  | stop p =>
    simp only [step] at e
    split at e
    · obtain rfl := Option.some.inj e; exact (same rfl rfl).elim
    · cases e
  | exit p =>
    simp only [step] at e
    split at e
    · obtain rfl := Option.some.inj e; exact (same rfl rfl).elim
    · cases e
  | kill p => obtain rfl := Option.some.inj e; exact (same rfl rfl).elim
  | probe p =>
    simp only [step] at e
    split at e
    · split at e
      · cases e
      · split at e <;> obtain rfl := Option.some.inj e <;> exact (same rfl rfl).elim
    · cases e
  | probed p =>
    simp only [step] at e
    split at e
    · obtain rfl := Option.some.inj e; exact (same rfl rfl).elim
    · cases e

/-! ### The socket -/

/-- Clients that connect find the daemon that runs. -/
theorem step_sock {c : Cfg} {s t : State} {p : Nat} (hone : ∀ q r i j, t.ph q = .up i → t.ph r = .up j → q = r)
    (h : ∀ q i, s.ph q = .up i → s.sock = some q) {a : Act} (e : Step c s t a p) : ∀ q i, t.ph q = .up i → t.sock = some q := by
  have keep : ∀ x : Ph, (∀ i, x ≠ .up i) → ∀ q i, (s.setPh p x).ph q = .up i → s.sock = some q := by
    intro x hx q i hq
    rw [setPh_ph] at hq
    split at hq
    · exact absurd hq (hx i)
    · exact h q i hq
  cases e with
  | openOld i _ _ e => subst e; exact keep _ (by simp)
  | openNew _ _ e => subst e; exact keep _ (by simp)
  | locks i _ _ e => subst e; exact keep _ (by simp)
  | ends _ e => subst e; exact keep _ (by simp)
  | refused i _ _ e => subst e; exact keep _ (by simp)
  | up i _ hs e =>
    subst e
    intro q j hq
    have := hone q p j i hq (by show (if p = p then _ else _) = _; rw [if_pos rfl])
    rw [this]
  | dev a _ _ e => subst e; exact h
  | stop i hp e => subst e; exact keep _ (by simp)
  | exit i _ e => subst e; exact keep _ (by simp)
  | noProbe _ e => subst e; exact keep _ (by simp)
  | probe _ hs e => subst e; exact keep _ (by simp)
  | probed hp e => subst e; exact keep _ (by simp)

theorem step_one_path {s t : State} {a : Act} {c : Cfg} (hc : c.unlinks = false) (h1 : Locks s)
    (h2 : ∀ q i, (s.ph q).ino = some i → s.path = some i) (e : step c s a = some t) :
    ∀ q r i j, t.ph q = .up i → t.ph r = .up j → q = r := by
  obtain ⟨p, e⟩ := step_cases e
  have l := step_locks h1 e
  have k := step_path hc h2 e
  intro q r i j hq hr
  have h1 := k q i (by rw [hq]; rfl)
  have h2 := k r j (by rw [hr]; rfl)
  rw [h1] at h2
  cases h2
  have h3 := l.held q i (by rw [hq]; rfl)
  have h4 := l.held r i (by rw [hr]; rfl)
  rw [h3] at h4
  cases h4
  rfl

/-- The socket that clients of sanlock find belongs to the daemon that runs. -/
theorem sanlock_socket {s : State} {as : List Act} (e : run sanlock init as = some s) {p i : Nat} (hp : s.ph p = .up i) :
    s.sock = some p := by
  have := run_ind (c := sanlock) (P := fun s => Locks s ∧ (∀ q i, (s.ph q).ino = some i → s.path = some i) ∧
      ∀ q i, s.ph q = .up i → s.sock = some q)
    ⟨⟨fun _ _ h => (by cases h), fun _ _ h => (by cases h), fun _ _ h => (by cases h)⟩, fun _ _ h => (by cases h),
      fun _ _ h => (by cases h)⟩ e (by
    intro x y a _ ⟨h1, h2, h3⟩ e
    have ho := step_one_path (c := sanlock) rfl h1 h2 e
    obtain ⟨q, e⟩ := step_cases e
    exact ⟨step_locks h1 e, step_path rfl h2 e, step_sock ho h3 e⟩)
  exact this.2.2 p i hp

/-- And the one of wdmd too. -/
theorem wdmd_socket {s : State} {as : List Act} (e : run wdmd init as = some s) {p i : Nat} (hp : s.ph p = .up i) :
    s.sock = some p := by
  have := run_ind (c := wdmd) (P := fun s => Shm s ∧ ∀ q i, s.ph q = .up i → s.sock = some q)
    ⟨⟨fun _ h => (by cases h), fun _ _ h => (by cases h)⟩, fun _ _ h => (by cases h)⟩ e (by
    intro x y a _ ⟨h1, h2⟩ e
    obtain ⟨q, e⟩ := step_cases e
    have h' := step_shm rfl h1 e
    exact ⟨h', step_sock (fun q r i j hq hr => h'.one q r (by rw [hq]; rfl) (by rw [hr]; rfl)) h2 e⟩)
  exact this.2 p i hp

/-! ### A daemon can be started again -/

/-- When no other process of the program is alive, a new one gets up, unless the shared memory object is left. -/
theorem can_start {c : Cfg} {s : State} {as : List Act} {p : Nat} (e : run c init as = some s) (hp : s.ph p = .new)
    (hd : ∀ q, s.ph q = .new ∨ s.ph q = .dead) (hs : c.shm = true → s.shm = false) :
    ∃ t i, run c s [.open p, .lock p, .guard p] = some t ∧ t.ph p = .up i := by
  have hl := reach_locks e
  have free : ∀ i, s.lock i = none := by
    intro i
    cases h : s.lock i with
    | none => rfl
    | some q =>
      have := hl.only q i h
      rcases hd q with h | h <;> rw [h] at this <;> cases this
  have hb : (c.shm && s.shm) = false := by
    cases hc : c.shm
    · rfl
    · rw [hs hc]; rfl
  have fin : ∀ (t : State) i, t.ph p = .opened i → t.lock i = none → (c.shm && t.shm) = false →
      ∃ u, run c t [.lock p, .guard p] = some u ∧ u.ph p = .up i := by
    intro t i h1 h2 h3
    refine ⟨{ ({ t.setPh p (.locked i) with
                  lock := fun j => if j = i then some p else t.lock j
                  names := fun j => if j = i then some p else t.names j } : State).setPh p (.up i) with
                shm := c.shm, sock := some p }, ?_, ?_⟩
    · have e1 : step c t (.lock p) = some { t.setPh p (.locked i) with
                  lock := fun j => if j = i then some p else t.lock j
                  names := fun j => if j = i then some p else t.names j } := by
        simp only [step, h1, h2]
      have e2 : step c { t.setPh p (.locked i) with
                  lock := fun j => if j = i then some p else t.lock j
                  names := fun j => if j = i then some p else t.names j } (.guard p) =
          some { ({ t.setPh p (.locked i) with
                  lock := fun j => if j = i then some p else t.lock j
                  names := fun j => if j = i then some p else t.names j } : State).setPh p (.up i) with
                shm := c.shm, sock := some p } := by
        have : (State.setPh t p (.locked i)).ph p = .locked i := by rw [setPh_ph, if_pos rfl]
        simp only [step, this]
        rw [if_neg (by simpa [State.setPh] using h3)]
      simp only [run, e1, e2, Option.bind_some]
    · show (if p = p then _ else _) = _
      rw [if_pos rfl]
  cases hpath : s.path with
  | none =>
    have e1 : step c s (.open p) = some { s.setPh p (.opened s.next) with path := some s.next, next := s.next + 1 } := by
      simp only [step, hp, hpath]
    obtain ⟨u, e2, hu⟩ := fin { s.setPh p (.opened s.next) with path := some s.next, next := s.next + 1 } s.next
      (by show (if p = p then _ else _) = _; rw [if_pos rfl]) (free _) hb
    exact ⟨u, _, by rw [run, e1]; exact e2, hu⟩
  | some i =>
    have e1 : step c s (.open p) = some (s.setPh p (.opened i)) := by
      simp only [step, hp, hpath]
    obtain ⟨u, e2, hu⟩ := fin (s.setPh p (.opened i)) i (by rw [setPh_ph, if_pos rfl]) (free _) hb
    exact ⟨u, _, by rw [run, e1]; exact e2, hu⟩

/-- The shared memory object is there only if somebody uses the watchdog or a user was killed. -/
theorem shm_left {s : State} {as : List Act} (e : run wdmd init as = some s) (hs : s.shm = true) :
    (∃ p, (s.ph p).user = true) ∨ ∃ bs cs t p, as = bs ++ .kill p :: cs ∧ run wdmd init bs = some t ∧ (t.ph p).user = true := by
  suffices ∀ (as : List Act) s u, Shm s → (s.shm = true → ∃ p, (s.ph p).user = true) → run wdmd s as = some u →
      u.shm = true → (∃ p, (u.ph p).user = true) ∨
      ∃ bs cs t p, as = bs ++ .kill p :: cs ∧ run wdmd s bs = some t ∧ (t.ph p).user = true from
    this as init s ⟨fun _ h => (by cases h), fun _ _ h => (by cases h)⟩ (fun h => by cases h) e hs
  clear e hs
  intro as
  induction as with
  | nil => intro s u _ h e hs; obtain rfl := Option.some.inj e; exact .inl (h hs)
  | cons a as ih =>
    intro s u hI h e hs
    obtain ⟨t, e1, e2⟩ := run_cons e
    obtain ⟨p, st⟩ := step_cases e1
    by_cases hk : a = .kill p ∧ (s.ph p).user = true
    · exact .inr ⟨[], as, s, p, by rw [hk.1]; rfl, rfl, hk.2⟩
    · have keep : ∀ x : Ph, (s.ph p).user = false → s.shm = true → ∃ q, ((s.setPh p x).ph q).user = true := by
        intro x hx h'
        obtain ⟨q, hq⟩ := h h'
        refine ⟨q, ?_⟩
        rw [setPh_ph, if_neg (by rintro rfl; rw [hx] at hq; cases hq)]
        exact hq
      have ht : t.shm = true → ∃ p, (t.ph p).user = true := by
        cases st with
        | openOld i hp _ e => subst e; exact keep _ (by rw [hp]; rfl)
        | openNew hp _ e => subst e; exact keep _ (by rw [hp]; rfl)
        | locks i hp _ e => subst e; exact keep _ (by rw [hp]; rfl)
        | ends h' e =>
          subst e
          refine keep .dead ?_
          rcases h' with h' | h'
          · cases hu : (s.ph p).user
            · rfl
            · exact absurd ⟨h', hu⟩ hk
          · exact h'
        | refused i hp _ e => subst e; exact keep _ (by rw [hp]; rfl)
        | up i _ _ e =>
          subst e
          intro _
          refine ⟨p, ?_⟩
          show (if p = p then Ph.up i else _).user = true
          rw [if_pos rfl]; rfl
        | dev a _ _ e => subst e; exact h
        | stop i hp e => subst e; intro h; cases h
        | exit i hp e => subst e; exact keep .dead (by rw [hp]; rfl)
        | noProbe hp e => subst e; exact keep _ (by rw [hp]; rfl)
        | probe _ _ e =>
          subst e
          intro _
          refine ⟨p, ?_⟩
          show (if p = p then Ph.probing else _).user = true
          rw [if_pos rfl]; rfl
        | probed hp e => subst e; intro h; cases h
      rcases ih t u (step_shm rfl hI st) ht e2 hs with h | ⟨bs, cs, w, q, rfl, h1, h2⟩
      · exact .inl h
      · exact .inr ⟨a :: bs, cs, w, q, rfl, by rw [run, e1]; exact h1, h2⟩

/-! ### What the code does otherwise -/

/-- Two fence_sanlockd run: one got the lock on a file that was removed meanwhile, the other on a new one. -/
theorem two_fenced_violated :
    ∃ s, run fenced init [.open 1, .lock 1, .guard 1, .open 2, .stop 1, .exit 1, .lock 2, .guard 2, .open 3, .lock 3,
      .guard 3] = some s ∧ s.ph 2 = .up 0 ∧ s.ph 3 = .up 1 := ⟨_, rfl, rfl, rfl⟩

/-- One that was started while another one ended runs without a lock file: `fence_sanlockd -1`, with which sanlock tells it
that it is a victim, does not find it. -/
theorem no_lockfile_violated :
    ∃ s, run fenced init [.open 1, .lock 1, .guard 1, .open 2, .stop 1, .exit 1, .lock 2, .guard 2] = some s ∧
      s.ph 2 = .up 0 ∧ s.path = none := ⟨_, rfl, rfl, rfl⟩

/-- A probe of the watchdog devices that is killed prevents wdmd from starting until the next boot, although the watchdog
does not run. -/
theorem killed_probe_violated :
    ∃ s, run wdmd init [.probe 1, .kill 1] = some s ∧ s.armed = false ∧
      ∀ as u, run wdmd s as = some u → ∀ p i, u.ph p ≠ .up i := by
  refine ⟨_, rfl, rfl, fun as u e => ?_⟩
  have := run_ind (c := wdmd) (P := fun t => t.shm = true ∧ ∀ q, (t.ph q).user = false) ⟨rfl, by
    intro q
    simp only [ends_ph, setPh_ph, init]
    repeat' split
    all_goals rfl⟩ e (by
    intro x y a _ ⟨h1, h2⟩ e
    obtain ⟨q, e⟩ := step_cases e
    have keep : ∀ z : Ph, z.user = false → ∀ r, ((x.setPh q z).ph r).user = false := by
      intro z hz r
      rw [setPh_ph]
      split
      · exact hz
      · exact h2 r
    cases e with
    | openOld i _ _ e => subst e; exact ⟨h1, keep _ rfl⟩
    | openNew _ _ e => subst e; exact ⟨h1, keep _ rfl⟩
    | locks i _ _ e => subst e; exact ⟨h1, keep _ rfl⟩
    | ends _ e => subst e; exact ⟨h1, keep _ rfl⟩
    | refused i _ _ e => subst e; exact ⟨h1, keep _ rfl⟩
    | up i _ hs e => have := hs rfl; rw [h1] at this; cases this
    | dev a hu' _ e => rw [h2 q] at hu'; cases hu'
    | stop i hp e => have := h2 q; rw [hp] at this; cases this
    | exit i _ e => subst e; exact ⟨h1, keep _ rfl⟩
    | noProbe _ e => subst e; exact ⟨h1, keep _ rfl⟩
    | probe _ hs e => have := hs.2; rw [h1] at this; cases this
    | probed hp e => have := h2 q; rw [hp] at this; cases this)
  intro p i hp
  have := this.2 p
  rw [hp] at this
  cases this

/-! ### The hypotheses can be met -/

/-- A daemon is killed, a second one starts, a third one fails. -/
example : ∃ s, run sanlock init [.open 1, .lock 1, .guard 1, .open 3, .kill 1, .open 2, .lock 2, .guard 2, .lock 3] = some s ∧
    s.ph 2 = .up 0 ∧ s.ph 3 = .dead ∧ s.sock = some 2 := ⟨_, rfl, rfl, rfl, rfl⟩

/-- A wdmd is killed with the watchdog running; a second one gets the lock on the file but not further. -/
example : ∃ s t u, run wdmd init [.open 1, .lock 1, .guard 1, .dev 1 true] = some s ∧ s.ph 1 = .up 0 ∧
    step wdmd s (.kill 1) = some t ∧ run wdmd t [.open 2, .lock 2, .guard 2, .exit 2, .probe 3] = some u ∧ u.armed = true :=
  ⟨_, _, _, rfl, rfl, rfl, rfl, rfl⟩

/-- A wdmd ends, a second one starts. -/
example : ∃ s, run wdmd init [.open 1, .lock 1, .guard 1, .dev 1 true, .dev 1 false, .stop 1, .exit 1, .probe 4, .probed 4,
    .open 2, .lock 2, .guard 2] = some s ∧ s.ph 2 = .up 1 ∧ s.path = some 1 := ⟨_, rfl, rfl, rfl⟩

end Sanlock.Single
