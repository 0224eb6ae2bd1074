import Verif.Lemmas.Resource

/-!
# C21 (one holder per host), C22 (orphans), C24 (conversion)
-/

namespace Sanlock.Resource

open Rv (EAGAIN EBUSY EEXIST EUCLEAN ENOENT EALREADY EINVAL)

/-- The process using token `t` has been told that it holds the resource, and has not released it. -/
def Holds (s : State) (t : Nat) : Prop := (s.tok t).phase = .held ∨ ∃ b, (s.tok t).phase = .conv b

/-- A resource of that name is on one of the lists. -/
def Listed (s : State) (loc : Loc) (name : Nat) (shared : Bool) : Prop :=
  ∃ r x, s.res r = some x ∧ x.loc = loc ∧ x.name = name ∧ x.shared = shared

/-! ## C21 -/

/-- **C21.**  Two tokens that hold the same resource both hold it shared, in all states reached by any sequence of
acquires, releases, conversions, deaths and background releases in which no conversion to exclusive succeeds while
another process of the host shares the resource.  (Missing: the code does not ensure the latter, see the next two
theorems.) -/
theorem exclusive_local_partial {s : State} (h : ReachA s) {t t' : Nat} (hne : t ≠ t') (ht : Holds s t)
    (ht' : Holds s t') (hn : (s.tok t).name = (s.tok t').name) :
    (s.tok t).shared = true ∧ (s.tok t').shared = true := by
  have hi := inv_reach h.reach
  have hm := mode_reach h
  have on_of : ∀ u, Holds s u → (s.tok u).phase.on = true := by
    rintro u (hu | ⟨b, hu⟩) <;> rw [hu] <;> rfl
  have h1 := on_of t ht
  have h2 := on_of t' ht'
  cases hx : s.res (s.tok t).res with
  | none => exact absurd hx (hi.some' t h1)
  | some x =>
    cases hx' : s.res (s.tok t').res with
    | none => exact absurd hx' (hi.some' t' h2)
    | some x' =>
      have m1 := hi.on t x h1 hx
      have m2 := hi.on t' x' h2 hx'
      have e := hi.uniq _ _ _ _ hx hx' (by rw [← (hi.mem _ _ _ hx m1).2.2, ← (hi.mem _ _ _ hx' m2).2.2, hn])
      rw [e, hx'] at hx
      cases hx
      have hs : x.shared = true := by
        cases hsh : x.shared with
        | true => rfl
        | false =>
          have hl := hm.excl _ _ hx' hsh
          have h1 : x.toks.length = 1 := by have := List.length_pos_of_mem m1; omega
          obtain ⟨v, hv⟩ := List.length_eq_one_iff.mp h1
          rw [hv] at m1 m2
          simp only [List.mem_singleton] at m1 m2
          exact absurd (m1.trans m2.symm) hne
      exact ⟨by rw [hm.mode _ _ _ hx' m1, hs], by rw [hm.mode _ _ _ hx' m2, hs]⟩

def sh (name : Nat) : Args := ⟨name, true, false, false, false, false⟩
def ex (name : Nat) : Args := ⟨name, false, false, false, false, false⟩

/-- Two processes acquire resource 7 shared, a third fails to get it exclusive. -/
def exShared : List Act :=
  [.acquire 1 (sh 7), .acquired 1 true 1 true, .acquire 2 (sh 7), .acquire 3 (ex 7)]

/-- Non-vacuity: a reachable state with two holders. -/
example : (run init exShared).map (fun s => ((s.tok 1).phase, (s.tok 2).phase, (s.tok 3).phase)) =
    some (.held, .held, .none) := by decide

/-- **C21 and C24 are violated by conversion**: of two processes sharing a resource one converts it to exclusive and
succeeds, while the other still holds it shared.  `convert_token` counts the local sharers but does not use the count,
and the paxos layer sees only one shared marker per host. -/
theorem convert_shared_violated :
    ∃ s, Reach s ∧ Holds s 1 ∧ Holds s 2 ∧ (s.tok 1).name = (s.tok 2).name ∧
      (s.tok 1).shared = false ∧ (s.tok 2).shared = true := by
  have hr : ((run init (exShared ++ [.convert 1 false, .converted 1 true 1])).any fun s =>
    (s.tok 1).phase == .held && (s.tok 2).phase == .held && (s.tok 1).name == (s.tok 2).name &&
    !(s.tok 1).shared && (s.tok 2).shared) = true := by decide
  cases h : run init (exShared ++ [.convert 1 false, .converted 1 true 1]) with
  | none => rw [h] at hr; simp at hr
  | some s =>
    rw [h] at hr
    simp only [Option.any_some, Bool.and_eq_true, beq_iff_eq, Bool.not_eq_true'] at hr
    exact ⟨s, reach_run .init h, Or.inl hr.1.1.1.1, Or.inl hr.1.1.1.2, hr.1.1.2, hr.1.2, hr.2⟩

/-- **C21 is violated by two conversions at once**: both processes sharing a resource convert it to exclusive, both
succeed, and both hold it exclusively. -/
theorem two_exclusive_violated :
    ∃ s, Reach s ∧ Holds s 1 ∧ Holds s 2 ∧ (s.tok 1).name = (s.tok 2).name ∧
      (s.tok 1).shared = false ∧ (s.tok 2).shared = false := by
  have hr : ((run init (exShared ++ [.convert 1 false, .convert 2 false, .converted 1 true 1, .converted 2 true 1])).any
    fun s => (s.tok 1).phase == .held && (s.tok 2).phase == .held && (s.tok 1).name == (s.tok 2).name &&
    !(s.tok 1).shared && !(s.tok 2).shared) = true := by decide
  cases h : run init (exShared ++ [.convert 1 false, .convert 2 false, .converted 1 true 1, .converted 2 true 1]) with
  | none => rw [h] at hr; simp at hr
  | some s =>
    rw [h] at hr
    simp only [Option.any_some, Bool.and_eq_true, beq_iff_eq, Bool.not_eq_true'] at hr
    exact ⟨s, reach_run .init h, Or.inl hr.1.1.1.1, Or.inl hr.1.1.1.2, hr.1.1.2, hr.1.2, hr.2⟩

/-- **C21.**  An acquire of a resource in use ends at once with the documented error and changes nothing: being
released -EAGAIN, being acquired -EBUSY, held (not shared by both) -EEXIST. -/
theorem acquire_in_use {s : State} (h : Reach s) {t : Nat} (ht : (s.tok t).phase = .none) (a : Args) {sh : Bool} :
    (Listed s .rem a.name sh → step s (.acquire t a) = some (s, some EAGAIN)) ∧
    (Listed s .add a.name sh → step s (.acquire t a) = some (s, some EBUSY)) ∧
    (Listed s .held a.name sh → ¬ (a.shared = true ∧ sh = true) → step s (.acquire t a) = some (s, some EEXIST)) := by
  have hi := inv_reach h
  have hnone : ∀ loc loc' r x, s.res r = some x → x.loc = loc → x.name = a.name → loc' ≠ loc →
      find s loc' a.name = none := by
    intro loc loc' r x hx hl hn hd
    cases hf : find s loc' a.name with
    | none => rfl
    | some r' =>
      obtain ⟨x', hx', hl', hn'⟩ := find_some hf
      have := hi.uniq _ _ _ _ hx hx' (by rw [hn, hn'])
      subst this
      rw [hx] at hx'
      cases hx'
      exact absurd (hl'.symm.trans hl) hd
  refine ⟨?_, ?_, ?_⟩
  · rintro ⟨r, x, hx, hl, hn, hs⟩
    simp [step, ht, lookup, find_eq hi hx hl hn]
  · rintro ⟨r, x, hx, hl, hn, hs⟩
    simp [step, ht, lookup, find_eq hi hx hl hn, hnone .add .rem r x hx hl hn (by decide)]
  · rintro ⟨r, x, hx, hl, hn, hs⟩ hc
    have : ¬ (a.shared && x.shared) = true := by
      simp only [Bool.and_eq_true]; rw [hs]; exact hc
    simp [step, ht, lookup, find_eq hi hx hl hn, hnone .held .rem r x hx hl hn (by decide),
      hnone .held .add r x hx hl hn (by decide), hx, this]

/-- Non-vacuity: in the state above the third acquire is refused with -EEXIST. -/
example : ((run init exShared).bind fun s => (step s (.acquire 3 (ex 7))).map (·.2)) = some (some EEXIST) := by decide

/-- **C21.**  At most one structure per resource name exists, whatever the sequence of actions: a resource is not
acquired on disk twice by one host, nor acquired while it is being released. -/
theorem one_per_name {s : State} (h : Reach s) {r r' : Nat} {x x' : Res} (hx : s.res r = some x)
    (hx' : s.res r' = some x') (hn : x.name = x'.name) : r = r' :=
  (inv_reach h).uniq _ _ _ _ hx hx' hn

/-- **C21.**  A command never works with a freed resource structure. -/
theorem no_use_after_free {s : State} (h : Reach s) {t : Nat} (ht : (s.tok t).phase ≠ .none) :
    s.res (s.tok t).res ≠ none := by
  have hi := inv_reach h
  cases hp : (s.tok t).phase with
  | none => exact absurd hp ht
  | reling => exact hi.relg0 t hp
  | adding => exact hi.some' t (by rw [hp]; rfl)
  | adopting => exact hi.some' t (by rw [hp]; rfl)
  | held => exact hi.some' t (by rw [hp]; rfl)
  | conv b => exact hi.some' t (by rw [hp]; rfl)

/-- **C21.**  The release of a resource on disk is done by one thread at a time: by one command or by the resource
thread. -/
theorem one_releaser {s : State} (h : Reach s) {t : Nat} (ht : (s.tok t).phase = .reling) :
    s.thread ≠ some (s.tok t).res ∧
    (∀ t', (s.tok t').phase = .reling → (s.tok t').res = (s.tok t).res → t' = t) ∧
    (∀ x, s.res (s.tok t).res = some x → x.toks = [] ∧ x.loc = .rem ∧ x.threadRel = false) := by
  have hi := inv_reach h
  cases hx : s.res (s.tok t).res with
  | none => exact absurd hx (hi.relg0 t ht)
  | some x =>
    obtain ⟨h1, h2, h3⟩ := hi.relg t x ht hx
    refine ⟨h3, fun t' ht' he => hi.relu t' t ht' ht he, ?_⟩
    intro y hy
    cases hy
    exact ⟨hi.rem _ _ hx h1, h1, h2⟩

/-- Non-vacuity: a release in progress. -/
example : ((run init [.acquire 1 (ex 7), .acquired 1 true 1 true, .release 1]).map fun s => (s.tok 1).phase) =
    some .reling := by decide

/-! ## C22 -/

/-- **C22.**  When the process holding a persistent resource exits while no command is active, the resource becomes an
orphan, unless the lockspace is dead. -/
theorem persistent_orphaned_partial {s s' : State} {o : Option Int} {t : Nat} {x : Res}
    (hx : s.res (s.tok t).res = some x) (hl : x.lver = true) (ho : x.toks = [t]) (hp : (s.tok t).persistent = true)
    (hs : step s (.dies t false) = some (s', o)) :
    s'.res (s.tok t).res = some { x with loc := .orphan, toks := [] } := by
  simp only [step, hx, ho, hl, hp] at hs
  split at hs
  · simp at hs
  · simp only [List.erase_cons_head] at hs
    simp at hs
    rw [← hs.1]
    simp [set, hl]

/-- **C22.**  An orphan stays as it is until it is adopted by an acquire with an orphan flag and the same mode, or is
released or purged as an orphan. -/
theorem orphan_stays {s s' : State} (h : Reach s) {o : Option Int} {r : Nat} {x : Res} {a : Act}
    (hx : s.res r = some x) (hl : x.loc = .orphan) (hs : step s a = some (s', o)) :
    s'.res r = some x ∨ a = .releaseOrphan r ∨ a = .purge r ∨
    ∃ t args, a = .acquire t args ∧ args.name = x.name ∧ args.shared = x.shared ∧
      (args.orphan = true ∨ args.orphanOnly = true) ∧ s'.res r = some { x with loc := .held, toks := [t] } := by
  have hi := inv_reach h
  have htk := hi.orphan _ _ hx hl
  have hno : ∀ t, (s.tok t).phase.on = true → (s.tok t).res ≠ r := by
    intro t ht he
    have := hi.on t x ht (by rw [he]; exact hx)
    rw [htk] at this
    simp at this
  have hrel : ∀ t y l, (s.tok t).phase.on = true → (relSection s t y l).1.res r = some x := by
    intro t y l ht
    have := hno t ht
    unfold relSection
    dsimp only
    split <;> simp [set, Ne.symm this, hx]
  have hne : s.res s.nres = none := by
    cases hr : s.res s.nres with
    | none => rfl
    | some y => exact absurd (hi.lt _ _ hr) (Nat.lt_irrefl _)
  have hthr : s.thread ≠ some r := fun he => by
    have := (hi.thr r x he hx).1; rw [hl] at this; simp at this
  cases a with
  | acquire t a =>
    simp only [step] at hs
    split at hs
    · simp at hs
    split at hs
    · simp only [Option.some.injEq, Prod.mk.injEq] at hs
      rw [← hs.1]; exact Or.inl hx
    · rename_i r' hlk
      obtain ⟨y, hy, hyl, -⟩ := lookup_addShared hlk
      have hrr : r ≠ r' := by
        intro he; subst he; rw [hx] at hy; cases hy; rw [hl] at hyl; simp at hyl
      simp only [hy, Option.some.injEq, Prod.mk.injEq] at hs
      rw [← hs.1]
      exact Or.inl (by simp [set, hrr, hx])
    · rename_i r' hlk
      obtain ⟨y, hy, hyl, hyn, hys, hya⟩ := lookup_adopt hlk
      simp only [hy, Option.some.injEq, Prod.mk.injEq] at hs
      rw [← hs.1]
      by_cases hrr : r = r'
      · subst hrr
        rw [hx] at hy
        cases hy
        exact Or.inr (Or.inr (Or.inr ⟨t, a, rfl, hyn.symm, hys.symm, hya, by simp [set, htk]⟩))
      · exact Or.inl (by simp [set, hrr, hx])
    · simp only [Option.some.injEq, Prod.mk.injEq] at hs
      rw [← hs.1]
      have hrr : r ≠ s.nres := by intro he; rw [he, hne] at hx; simp at hx
      exact Or.inl (by simp [set, hrr, hx])
  | releaseOrphan r' =>
    by_cases hrr : r' = r
    · exact Or.inr (Or.inl (by rw [hrr]))
    · simp only [step] at hs
      repeat' split at hs
      all_goals first
        | (simp at hs; done)
        | skip
      simp only [Option.some.injEq, Prod.mk.injEq] at hs
      rw [← hs.1]
      exact Or.inl (by simp [set, Ne.symm hrr, hx])
  | purge r' =>
    by_cases hrr : r' = r
    · exact Or.inr (Or.inr (Or.inl (by rw [hrr])))
    · simp only [step] at hs
      repeat' split at hs
      all_goals first
        | (simp at hs; done)
        | skip
      simp only [Option.some.injEq, Prod.mk.injEq] at hs
      rw [← hs.1]
      exact Or.inl (by simp [set, Ne.symm hrr, hx])
  | threadTake r' =>
    simp only [step] at hs
    split at hs
    · simp at hs
    split at hs
    · simp at hs
    rename_i y hy
    split at hs
    · rename_i hc
      have hrr : r ≠ r' := by
        intro he; subst he; rw [hx] at hy; cases hy; rw [hl] at hc; simp at hc
      simp only [Option.some.injEq, Prod.mk.injEq] at hs
      rw [← hs.1]
      exact Or.inl (by simp [set, hrr, hx])
    · simp at hs
  | threadDone b =>
    simp only [step] at hs
    split at hs
    · simp at hs
    rename_i r' hr'
    have hrr : r ≠ r' := by intro he; subst he; exact hthr hr'
    split at hs
    · simp at hs
    split at hs <;>
    · simp only [Option.some.injEq, Prod.mk.injEq] at hs
      rw [← hs.1]
      exact Or.inl (by simp [set, hrr, hx])
  | released t b rv =>
    simp only [step] at hs
    split at hs
    · simp at hs
    rename_i hph
    have hph' : (s.tok t).phase = .reling := Classical.byContradiction hph
    split at hs
    · simp at hs
    rename_i y hy
    have hrr : r ≠ (s.tok t).res := by
      intro he
      have := (hi.relg t y hph' hy).1
      rw [← he, hx] at hy
      cases hy
      rw [hl] at this; simp at this
    split at hs <;>
    · simp only [Option.some.injEq, Prod.mk.injEq] at hs
      rw [← hs.1]
      exact Or.inl (by simp [set, hrr, hx])
  | release t =>
    simp only [step] at hs
    repeat' split at hs
    all_goals first
      | (simp at hs; done)
      | skip
    rename_i hph _ y hy
    have hon : (s.tok t).phase.on = true := by simp_all [Phase.on]
    have hr := hrel t y y.lver hon
    simp only [Option.some.injEq] at hs
    rw [hs] at hr
    exact Or.inl hr
  | acquired t ok rv lver | adopted t ok rv | diesInCmd t | dies t sd | convert t b | converted t ok rv =>
    simp only [step] at hs
    repeat' split at hs
    all_goals first
      | (simp at hs; done)
      | skip
    all_goals
      left
      have hon : (s.tok t).phase.on = true := by simp_all [Phase.on]
      have := hno t hon
      have hr := hrel t
      simp only [Option.some.injEq, Prod.mk.injEq] at hs
      first
        | (rw [← hs.1]; exact hr _ _ hon)
        | (rw [← hs.1]; simp [set, Ne.symm this, hx]; done)
        | (rw [← hs.1]; exact hx)

/-- **C22.**  With an orphan of that name, acquire without an orphan flag is refused and changes nothing; with a flag and
the same mode it takes over the orphan; with a flag and the other mode it is refused. -/
theorem acquire_orphan {s : State} (h : Reach s) {t r : Nat} (ht : (s.tok t).phase = .none) {a : Args} {x : Res}
    (hx : s.res r = some x) (hl : x.loc = .orphan) (hn : x.name = a.name) :
    ((a.orphan = false ∧ a.orphanOnly = false) ∨ a.shared ≠ x.shared →
      step s (.acquire t a) = some (s, some EUCLEAN)) ∧
    ((a.orphan = true ∨ a.orphanOnly = true) ∧ a.shared = x.shared → ∃ s', step s (.acquire t a) = some (s', none) ∧
      (s'.tok t).res = r ∧ (s'.tok t).phase = .adopting ∧ s'.nres = s.nres ∧ ∀ r', r' ≠ r → s'.res r' = s.res r') := by
  have hi := inv_reach h
  have hnone : ∀ loc, loc ≠ .orphan → find s loc a.name = none := by
    intro loc hd
    cases hf : find s loc a.name with
    | none => rfl
    | some r' =>
      obtain ⟨x', hx', hl', hn'⟩ := find_some hf
      have := hi.uniq _ _ _ _ hx hx' (by rw [hn, hn'])
      subst this
      rw [hx] at hx'
      cases hx'
      exact absurd (hl'.symm.trans hl) hd
  have hlk : lookup s a = lookupOrphan s a := by
    simp [lookup, hnone .rem (by decide), hnone .add (by decide), hnone .held (by decide)]
  have hf := find_eq hi hx hl hn
  constructor
  · intro hc
    have : lookupOrphan s a = .err EUCLEAN := by
      simp only [lookupOrphan, hf, hx]
      rcases hc with ⟨h1, h2⟩ | h1
      · simp [h1, h2]
      · split
        · rfl
        · rw [if_pos (Ne.symm h1)]
    simp [step, ht, hlk, this]
  · rintro ⟨hc, hsh⟩
    have : lookupOrphan s a = .adopt r := by
      simp only [lookupOrphan, hf, hx]
      rw [if_neg, if_neg]
      · simp [hsh]
      · rcases hc with h1 | h1 <;> simp [h1]
    simp only [step, ht, hlk, this, hx]
    refine ⟨_, rfl, ?_, ?_, rfl, ?_⟩
    · simp [set]
    · simp [set]
    · intro r' hr'; simp [set, hr']

/-- An orphan: a process acquires resource 7 persistently and exits. -/
def exOrphan : List Act :=
  [.acquire 1 ⟨7, false, true, false, false, false⟩, .acquired 1 true 1 true, .dies 1 false]

/-- Non-vacuity. -/
example : (run init exOrphan).map (fun s => (s.res 0).map (·.loc)) = some (some .orphan) := by decide
example : ((run init exOrphan).bind fun s => (step s (.acquire 3 (ex 7))).map (·.2)) = some (some EUCLEAN) := by decide
example : ((run init exOrphan).bind fun s => (step s (.acquire 3 ⟨7, false, false, false, true, false⟩)).map
    fun p => (p.1.tok 3).phase) = some .adopting := by decide

/-- **C22, orphan-only, with the lock value block flag**: without a resource of that name acquire returns -ENOENT and
acquires nothing. -/
theorem orphan_only_enoent_partial {s : State} {t : Nat} (ht : (s.tok t).phase = .none) {a : Args}
    (hn : ∀ r x, s.res r = some x → x.name ≠ a.name) (ho : a.orphanOnly = true) (hlvb : a.lvb = true) :
    step s (.acquire t a) = some (s, some ENOENT) := by
  have hnone : ∀ loc, find s loc a.name = none := by
    intro loc
    cases hf : find s loc a.name with
    | none => rfl
    | some r' =>
      obtain ⟨x', hx', hl', hn'⟩ := find_some hf
      exact absurd hn' (hn _ _ hx')
  simp [step, ht, lookup, lookupOrphan, hnone, ho, hlvb]

/-- **C22 is violated for orphan-only** (without the lock value block flag): with no orphan, a new lease is acquired.
`acquire_token` tests `cmd_flags & only_orphan`, where `only_orphan` is 0 or 1. -/
theorem orphan_only_violated :
    ∃ s s', Reach s ∧ (∀ r, s.res r = none) ∧
      step s (.acquire 1 ⟨7, false, false, false, false, true⟩) = some (s', none) ∧ (s'.tok 1).phase = .adding := by
  refine ⟨init, _, .init, fun _ => rfl, rfl, by decide⟩

/-- **C22 is violated when the process dies while one of its commands is active**: its persistent resource is released
like any other. -/
theorem persistent_in_command_violated :
    ∃ s, Reach s ∧ (s.tok 1).persistent = true ∧ ∃ s' o s'' o', step s (.diesInCmd 1) = some (s', o) ∧
      step s' (.released 1 false 1) = some (s'', o') ∧ ∀ r, s''.res r = none := by
  have hr : ((run init (exOrphan.take 2)).any fun s =>
    (s.tok 1).persistent && ((step s (.diesInCmd 1)).isSome)) = true := by decide
  cases h : run init (exOrphan.take 2) with
  | none => rw [h] at hr; simp at hr
  | some s =>
    rw [h] at hr
    simp only [Option.any_some, Bool.and_eq_true] at hr
    refine ⟨s, reach_run .init h, hr.1, ?_⟩
    have hs : s = _ := (Option.some.inj h).symm
    subst hs
    refine ⟨_, _, _, _, rfl, rfl, ?_⟩
    intro r
    match r with
    | 0 => rfl
    | n + 1 => rfl

/-! ## C24 -/

/-- **C24.**  Conversion to the mode held already is reported as such and changes nothing. -/
theorem convert_same {s : State} (h : ReachA s) {t : Nat} (ht : (s.tok t).phase = .held) :
    step s (.convert t (s.tok t).shared) = some (s, some EALREADY) := by
  have hi := inv_reach h.reach
  have hm := mode_reach h
  have hon : (s.tok t).phase.on = true := by rw [ht]; rfl
  cases hx : s.res (s.tok t).res with
  | none => exact absurd hx (hi.some' t hon)
  | some x =>
    have hmem := hi.on t x hon hx
    have hnm := (hi.mem _ _ _ hx hmem).2.2
    have hloc : x.loc = .held := by
      rcases loc_cases x.loc with hl | hl | hl | hl
      · have := (hi.addp _ _ _ hx hmem).mpr hl; rw [ht] at this; simp at this
      · exact hl
      · rw [hi.rem _ _ hx hl] at hmem; simp at hmem
      · rw [hi.orphan _ _ hx hl] at hmem; simp at hmem
    have hf := find_eq hi hx hloc hnm.symm
    have hmode := hm.mode _ _ _ hx hmem
    have hany : (x.toks.any fun u => (s.tok u).shared) = x.shared := by
      cases hsx : x.shared with
      | true =>
        rw [List.any_eq_true]
        exact ⟨t, hmem, by rw [hmode, hsx]⟩
      | false =>
        rw [List.any_eq_false]
        intro u hu
        rw [hm.mode _ _ _ hx hu, hsx]; simp
    simp [step, ht, hf, hx, hmem, hany, hmode]

/-- **C24.**  The outcome of a conversion: success sets the mode asked for, failure leaves the mode as it was. -/
theorem convert_mode {s s' : State} {t : Nat} {b ok : Bool} {rv : Int} {o : Option Int}
    (hp : (s.tok t).phase = .conv b) (hs : step s (.converted t ok rv) = some (s', o)) :
    (s'.tok t).phase = .held ∧ (s'.tok t).shared = (if ok then b else (s.tok t).shared) := by
  simp only [step, hp] at hs
  split at hs
  · simp at hs
  · split at hs
    · simp only [Option.some.injEq, Prod.mk.injEq] at hs
      rw [← hs.1]; simp_all [set]
    · simp only [Option.some.injEq, Prod.mk.injEq] at hs
      rw [← hs.1]; simp_all [set]

/-- **C24, on disk.**  Shared to exclusive succeeds only if the lease was acquired and no other shared marker was seen or
all those seen were cleared and none belongs to a live host; then the host owns the record and the mode is exclusive. -/
theorem sh2ex_success {acq : Int} {retract : Bool} {n : Nat} {clear : Int} {live : Nat} {rel wr : Int}
    {undoRvs : List Int} {dead : Bool} {c : Conv}
    (h : sh2ex acq retract n clear live rel wr undoRvs dead = some c) (hrv : 0 ≤ c.rv) :
    0 ≤ acq ∧ (n ≤ 1 ∨ (0 ≤ clear ∧ live = 0)) ∧ c.shared = false ∧ c.owner = true ∧ c.rv = Rv.OK := by
  have hag : ¬ (0 : Int) ≤ EAGAIN := by decide
  have fin : ∀ {e : Int}, e < 0 → ∀ {p : Option Bool}, (p.map fun d => (⟨e, true, !d, !d, true⟩ : Conv)) = some c → False := by
    intro e he p hp
    cases p with
    | none => simp at hp
    | some d => simp at hp; rw [← hp] at hrv; simp at hrv; omega
  unfold sh2ex at h
  dsimp only at h
  repeat' split at h
  all_goals first
    | (simp only [Option.some.injEq] at h; subst h; simp at hrv; omega)
    | (simp only [Option.some.injEq] at h; subst h; simp at hrv; exact absurd hrv (by decide))
    | (exfalso; exact fin (by assumption) h)
    | (simp only [Option.some.injEq] at h; subst h
       refine ⟨by omega, ?_, rfl, rfl, rfl⟩
       first
         | (left; assumption)
         | (right; exact ⟨by omega, by omega⟩))

/-- **C24, on disk.**  When it fails, the mode stays shared, our shared marker stays on disk, and either the ownership of
the record was given up or never taken, or the release of the lease will erase it (`R_ERASE_ALL`), or the lockspace is
dead. -/
theorem sh2ex_failure {acq : Int} {retract : Bool} {n : Nat} {clear : Int} {live : Nat} {rel wr : Int}
    {undoRvs : List Int} {dead : Bool} {c : Conv}
    (h : sh2ex acq retract n clear live rel wr undoRvs dead = some c) (hrv : c.rv < 0) :
    c.shared = true ∧ c.marker = true ∧ (c.owner = false ∨ c.eraseAll = true ∨ dead = true) := by
  have fin : ∀ {e : Int}, ∀ {p : Option Bool}, (p.map fun d => (⟨e, true, !d, !d, true⟩ : Conv)) = some c →
      c.shared = true ∧ c.marker = true ∧ (c.owner = false ∨ c.eraseAll = true ∨ dead = true) := by
    intro e p hp
    cases p with
    | none => simp at hp
    | some d => simp at hp; rw [← hp]; cases d <;> simp
  have hok : ¬ Rv.OK < 0 := by decide
  unfold sh2ex at h
  dsimp only at h
  repeat' split at h
  all_goals first
    | exact fin h
    | (simp only [Option.some.injEq] at h; subst h; simp_all; done)
    | (simp only [Option.some.injEq] at h; subst h; exact absurd hrv hok)

/-- Non-vacuity: other live sharers make it fail with -EAGAIN; none makes it succeed. -/
example : sh2ex 1 false 3 1 2 1 0 [] false = some ⟨EAGAIN, true, false, false, true⟩ := by decide
example : sh2ex 1 false 1 0 0 1 0 [] false = some ⟨Rv.OK, false, false, true, false⟩ := by decide
example : sh2ex 1 false 2 (-5) 0 1 0 [-202, -202, 1] false = some ⟨-5, true, false, false, true⟩ := by decide

/-- **C24, on disk.**  Exclusive to shared: success means our shared marker is on disk and the record was freed. -/
theorem ex2sh_success {wr : Int} {l : Bool} {io : Nat} {dead : Bool} {rels : List (Int × Bool)} {c : Conv}
    (h : ex2sh wr l io dead rels = some c) (hrv : 0 ≤ c.rv) :
    c.shared = true ∧ c.marker = true ∧ c.owner = false := by
  have hloop : ∀ rels n f rv freed, ex2shLoop io dead n f rels = some (rv, freed) → 0 ≤ rv → freed = true := by
    intro rels
    induction rels with
    | nil => intro n f rv freed h; simp [ex2shLoop] at h
    | cons p rest ih =>
      obtain ⟨r, ld⟩ := p
      intro n f rv freed h h0
      simp only [ex2shLoop] at h
      split at h
      · rename_i hc
        split at h
        · simp only [Option.some.injEq, Prod.mk.injEq] at h
          rw [← h.1, hc.1] at h0
          exact absurd h0 (by decide)
        · exact ih _ _ _ _ h h0
      · simp only [Option.some.injEq, Prod.mk.injEq] at h
        rw [← h.2, h.1]
        simp [h0]
  unfold ex2sh at h
  split at h
  · simp only [Option.some.injEq] at h; subst h; simp at hrv; omega
  · cases hl : ex2shLoop io dead 0 false rels with
    | none => rw [hl] at h; simp at h
    | some p =>
      obtain ⟨rv, freed⟩ := p
      rw [hl] at h
      simp only [Option.map_some, Option.some.injEq] at h
      split at h
      · subst h; simp at hrv; omega
      · subst h
        have := hloop _ _ _ _ _ hl (by omega)
        simp [this]

/-- **C24 is violated when freeing the record times out but the write lands**: the caller is told that the conversion
failed and still has the lease as exclusive, while on disk the record is free and only the shared marker is left, so
that another host can get the lease shared. -/
theorem ex2sh_failure_violated :
    ∃ wr l io rels c, ex2sh wr l io false rels = some c ∧ c.rv < 0 ∧ c.shared = false ∧ c.owner = false := by
  refine ⟨0, false, 1, [(Rv.AIO_TIMEOUT, true), (Rv.RELEASE_OWNER, false)], _, rfl, by decide, by decide, by decide⟩

end Sanlock.Resource
