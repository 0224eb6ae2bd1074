import Verif.IndexOps

/-!
# Invariant of the index operations
-/

namespace Sanlock.IndexOps

/-- The index after the changes, newest first. -/
def replay : List (Nat × Change) → Nat → Option Nat
  | [], _ => none
  | (_, .added k n) :: l, i => if i = k then some n else replay l i
  | (_, .removed k _) :: l, i => if i = k then none else replay l i

/-- Every change was possible when it was made: a name goes into a free entry, and is removed from the entry that has it. -/
def Legal : List (Nat × Change) → Prop
  | [] => True
  | (_, .added k _) :: l => replay l k = none ∧ Legal l
  | (_, .removed k n) :: l => replay l k = some n ∧ Legal l

/-- The call is between acquiring and releasing the index lease. -/
def Op.inCS (x : Op) : Bool := locks x.kind && (match x.pc with | .reading _ | .init _ | .write _ | .release _ => true | _ => false)

/-- The sizes fit: every entry is in a sector that is read. -/
structure Cfg.Ok (c : Cfg) : Prop where
  per : 0 < c.per
  fit : c.max ≤ c.per * c.secs

theorem Cfg.Ok.sec {c : Cfg} (h : c.Ok) {i : Nat} (hi : i < c.max) : i / c.per < c.secs :=
  (Nat.div_lt_iff_lt_mul h.per).mpr (by rw [Nat.mul_comm]; exact Nat.lt_of_lt_of_le hi h.fit)

/-- What a call that holds the index lease knows of the disk. -/
def DiskOk (c : Cfg) (s : State) (o : Nat) (x : Op) : Prop :=
  match x.pc, x.kind with
  | .reading j, _ => (∀ i, i / c.per < j → x.buf i = s.idx i) ∧ ∀ d, (o, d) ∉ s.log
  | .init k, .create _ => (∀ i, i / c.per < c.secs → x.buf i = s.idx i) ∧ k < c.max ∧ s.idx k = none ∧ ∀ d, (o, d) ∉ s.log
  | .write k, .create n =>
    (∀ i, i / c.per < c.secs → x.buf i = s.idx i) ∧ k < c.max ∧ s.idx k = none ∧ s.area k = some n ∧ ∀ d, (o, d) ∉ s.log
  | .write k, .delete n => (∀ i, i / c.per < c.secs → x.buf i = s.idx i) ∧ k < c.max ∧ s.idx k = some n ∧ ∀ d, (o, d) ∉ s.log
  | .init k, .delete n => k < c.max ∧ s.idx k = none ∧ (o, .removed k n) ∈ s.log
  | _, _ => True

/-- A call that reports success has made its change. -/
def ResOk (s : State) (o : Nat) (x : Op) : Prop :=
  ∀ k, (x.pc = .release (.ok k) ∨ x.pc = .clear (.ok k) ∨ x.pc = .done (.ok k)) →
    match x.kind with
    | .create n => (o, .added k n) ∈ s.log
    | .delete n => (o, .removed k n) ∈ s.log
    | _ => True

structure OpOk (c : Cfg) (s : State) (o : Nat) (x : Op) : Prop where
  act : x.active = true → (s.hosts x.host).joined = true ∧ (s.hosts x.host).gen = x.gen ∧ (s.hosts x.host).busy = true
  kind : (∀ k n, x.kind ≠ .add k n) ∧ ∀ k, x.kind ≠ .rem k
  cs : x.inCS = true → s.owner = some (x.host, x.gen) ∧ s.lver = x.lver ∧ DiskOk c s o x
  look : locks x.kind = false → ∀ k, x.pc ≠ .init k ∧ x.pc ≠ .write k
  fresh : x.pc = .begun → ∀ d, (o, d) ∉ s.log
  res : ResOk s o x

structure Inv (c : Cfg) (s : State) : Prop where
  op : ∀ o x, s.ops o = some x → OpOk c s o x
  uniq : ∀ o o' x x', s.ops o = some x → s.ops o' = some x' → x.active = true → x'.active = true → x.host = x'.host → o = o'
  area : ∀ i n, s.idx i = some n → s.area i = some n ∧ i < c.max
  idx : ∀ i, s.idx i = replay s.log i
  legal : Legal s.log
  logged : ∀ o d, (o, d) ∈ s.log → ∃ x, s.ops o = some x ∧
    match d with
    | .added _ n => x.kind = .create n
    | .removed _ n => x.kind = .delete n
  once : (s.log.map (·.1)).Nodup

theorem inCS_active {x : Op} (h : x.inCS = true) : x.active = true := by
  unfold Op.inCS at h
  unfold Op.active
  split <;> simp_all

/-- At most one call holds the index lease. -/
theorem cs_one {c : Cfg} {s : State} (H : Inv c s) {o o' : Nat} {x x' : Op} (h : s.ops o = some x) (h' : s.ops o' = some x')
    (hc : x.inCS = true) (hc' : x'.inCS = true) : o = o' := by
  have h1 := ((H.op o x h).cs hc).1
  have h2 := ((H.op o' x' h').cs hc').1
  rw [h1] at h2
  simp only [Option.some.injEq, Prod.mk.injEq] at h2
  exact H.uniq o o' x x' h h' (inCS_active hc) (inCS_active hc') h2.1

theorem setOp_get (s : State) (o : Nat) (x : Op) (i : Nat) : (setOp s o x).ops i = if i = o then some x else s.ops i := rfl

/-- A call moves on, and nothing else changes. -/
theorem inv_set {c : Cfg} {s : State} (H : Inv c s) {o : Nat} {x x' : Op} (h : s.ops o = some x) (hh : x'.host = x.host)
    (hk : x'.kind = x.kind) (ha : x'.active = true → x.active = true) (hok : OpOk c s o x') : Inv c (setOp s o x') := by
  refine ⟨?_, ?_, H.area, H.idx, H.legal, ?_, H.once⟩
  · intro i y hi
    rw [setOp_get] at hi
    split at hi
    · rename_i heq
      simp only [Option.some.injEq] at hi
      subst hi; subst heq
      exact ⟨hok.act, hok.kind, hok.cs, hok.look, hok.fresh, hok.res⟩
    · have := H.op i y hi
      exact ⟨this.act, this.kind, this.cs, this.look, this.fresh, this.res⟩
  · intro i j y z hi hj hy hz hyz
    rw [setOp_get] at hi hj
    split at hi <;> split at hj
    · rename_i h1 h2; rw [h1, h2]
    · rename_i h1 h2
      simp only [Option.some.injEq] at hi
      subst hi
      rw [h1]
      exact H.uniq o j x z h hj (ha hy) hz (by rw [← hh, hyz])
    · rename_i h1 h2
      simp only [Option.some.injEq] at hj
      subst hj
      rw [h2]
      exact H.uniq i o y x hi h hy (ha hz) (by rw [hyz, hh])
    · exact H.uniq i j y z hi hj hy hz hyz
  · intro i d hd
    obtain ⟨y, hy, hy2⟩ := H.logged i d hd
    by_cases hio : i = o
    · subst hio
      rw [h] at hy
      simp only [Option.some.injEq] at hy
      subst hy
      refine ⟨x', by simp [setOp_get], ?_⟩
      cases d <;> simpa [hk] using hy2
    · exact ⟨y, by rw [setOp_get, if_neg hio]; exact hy, hy2⟩

/-- The holder of the index lease moves on and changes the disk. -/
theorem inv_change {c : Cfg} {s s' : State} (H : Inv c s) {o : Nat} {x x' : Op} (h : s.ops o = some x) (hcs : x.inCS = true)
    (hops : s'.ops = (setOp s o x').ops) (hh : x'.host = x.host) (hk : x'.kind = x.kind)
    (hhosts : s'.hosts = s.hosts) (hown : s'.owner = s.owner) (hlv : s'.lver = s.lver)
    (hlog : s'.log = s.log ∨ ∃ d, s'.log = (o, d) :: s.log ∧ (∀ d', (o, d') ∉ s.log) ∧
      (match d with | .added _ n => x.kind = .create n | .removed _ n => x.kind = .delete n))
    (hok : OpOk c s' o x') (harea : ∀ i n, s'.idx i = some n → s'.area i = some n ∧ i < c.max)
    (hidx : ∀ i, s'.idx i = replay s'.log i) (hleg : Legal s'.log) : Inv c s' := by
  have hmono : ∀ i d, (i, d) ∈ s.log → (i, d) ∈ s'.log := by
    intro i d hd
    rcases hlog with hl | ⟨e, hl, _⟩ <;> rw [hl]
    · exact hd
    · exact List.mem_cons_of_mem _ hd
  have hback : ∀ i d, i ≠ o → (i, d) ∈ s'.log → (i, d) ∈ s.log := by
    intro i d hne hd
    rcases hlog with hl | ⟨e, hl, _⟩ <;> rw [hl] at hd
    · exact hd
    · rcases List.mem_cons.mp hd with hd | hd
      · exact absurd (congrArg Prod.fst hd) hne
      · exact hd
  refine ⟨?_, ?_, harea, hidx, hleg, ?_, ?_⟩
  · intro i y hi
    rw [hops, setOp_get] at hi
    split at hi
    · rename_i heq
      simp only [Option.some.injEq] at hi
      subst hi; subst heq
      exact hok
    · rename_i hne
      have hy := H.op i y hi
      refine ⟨by rw [hhosts]; exact hy.act, hy.kind, ?_, hy.look, ?_, ?_⟩
      · intro hycs
        exact absurd (cs_one H hi h hycs hcs) hne
      · intro hb d hd
        exact hy.fresh hb d (hback i d hne hd)
      · intro k hp
        have := hy.res k hp
        split at this <;> first | exact hmono _ _ this | trivial
  · intro i j y z hi hj hy hz hyz
    rw [hops, setOp_get] at hi hj
    have hxa := inCS_active hcs
    split at hi <;> split at hj
    · rename_i h1 h2; rw [h1, h2]
    · rename_i h1 h2
      simp only [Option.some.injEq] at hi
      subst hi
      rw [h1]
      exact H.uniq o j x z h hj hxa hz (by rw [← hh, hyz])
    · rename_i h1 h2
      simp only [Option.some.injEq] at hj
      subst hj
      rw [h2]
      exact H.uniq i o y x hi h hy hxa (by rw [hyz, hh])
    · exact H.uniq i j y z hi hj hy hz hyz
  · intro i d hd
    by_cases hio : i = o
    · subst hio
      refine ⟨x', by rw [hops, setOp_get, if_pos rfl], ?_⟩
      rcases hlog with hl | ⟨e, hl, _, he⟩ <;> rw [hl] at hd
      · obtain ⟨y, hy, hy2⟩ := H.logged i d hd
        rw [h] at hy
        simp only [Option.some.injEq] at hy
        subst hy
        cases d <;> simpa [hk] using hy2
      · rcases List.mem_cons.mp hd with hd | hd
        · simp only [Prod.mk.injEq, true_and] at hd
          subst hd
          cases d <;> simpa [hk] using he
        · obtain ⟨y, hy, hy2⟩ := H.logged i d hd
          rw [h] at hy
          simp only [Option.some.injEq] at hy
          subst hy
          cases d <;> simpa [hk] using hy2
    · obtain ⟨y, hy, hy2⟩ := H.logged i d (hback i d hio hd)
      exact ⟨y, by rw [hops, setOp_get, if_neg hio]; exact hy, hy2⟩
  · rcases hlog with hl | ⟨e, hl, hn, _⟩ <;> rw [hl]
    · exact H.once
    · rw [List.map_cons, List.nodup_cons]
      refine ⟨?_, H.once⟩
      intro hm
      obtain ⟨⟨i, d⟩, hd, rfl⟩ := List.mem_map.mp hm
      exact hn d hd

theorem search_some {c : Cfg} {buf : Nat → Option Nat} {p : Option Nat → Bool} {k : Nat} (h : search c buf p = some k) :
    k < c.max ∧ p (buf k) = true := by
  have h1 := List.mem_of_find?_eq_some h
  have h2 := List.find?_some h
  exact ⟨List.mem_range.mp h1, h2⟩

theorem writeSector_eq {c : Cfg} {x : Op} {idx : Nat → Option Nat} {k : Nat} (h : ∀ i, i / c.per < c.secs → x.buf i = idx i)
    (hk : k / c.per < c.secs) (i : Nat) :
    writeSector c idx (k / c.per) (newBuf x k) i = if i = k then newEntry x.kind else idx i := by
  simp only [writeSector, newBuf]
  by_cases hi : i = k
  · subst hi; simp
  · simp only [hi, if_false]
    split
    · rename_i hs
      exact h i (by rw [hs]; exact hk)
    · rfl

/-- What an execution must not do. -/
def Allowed (s : State) : Act → Prop
  /- no `sanlock_update_rindex` -/
  | .begin _ _ kind => (∀ k n, kind ≠ .add k n) ∧ ∀ k, kind ≠ .rem k
  /- a lockspace is not left while a call of the host runs -/
  | .leave h => ∀ o x, s.ops o = some x → x.host = h → x.active = false
  /- a write that was given up does not reach the disk later -/
  | .land => False
  | _ => True

theorem inv_initial (c : Cfg) : Inv c initial := by
  refine ⟨?_, ?_, ?_, fun _ => rfl, trivial, ?_, ?_⟩ <;> simp [initial]

theorem inv_host {c : Cfg} {s : State} (H : Inv c s) (h : Nat) (y : Host)
    (hy : ∀ o x, s.ops o = some x → x.active = true → x.host = h → y.joined = true ∧ y.gen = x.gen ∧ y.busy = true) :
    Inv c (setHost s h y) := by
  refine ⟨?_, H.uniq, H.area, H.idx, H.legal, H.logged, H.once⟩
  intro o x hx
  have := H.op o x hx
  refine ⟨?_, this.kind, this.cs, this.look, this.fresh, this.res⟩
  intro ha
  show ((if x.host = h then y else s.hosts x.host).joined = true ∧ (if x.host = h then y else s.hosts x.host).gen = x.gen ∧
    (if x.host = h then y else s.hosts x.host).busy = true)
  split
  · rename_i heq; exact hy o x hx ha heq
  · exact this.act ha

theorem lost_props (x : Op) : x.lost.active = false ∧ x.lost.host = x.host ∧ x.lost.kind = x.kind ∧
    (∀ k, x.lost.pc = .release (.ok k) ∨ x.lost.pc = .clear (.ok k) ∨ x.lost.pc = .done (.ok k) → x.pc = .done (.ok k)) := by
  unfold Op.lost
  cases h : x.active
  · simp only [Bool.false_eq_true, if_false]
    refine ⟨h, by trivial, by trivial, ?_⟩
    intro k hk
    unfold Op.active at h
    split at h
    · rename_i r hr
      rw [hr] at hk ⊢
      simpa using hk
    · simp at h
  · simp [Op.active]

theorem inv_crash {c : Cfg} {s : State} (H : Inv c s) (h : Nat) (y : Host) :
    Inv c { setHost s h y with ops := fun i => (s.ops i).map fun x => if x.host = h then x.lost else x } := by
  have get : ∀ o x', ((s.ops o).map fun x => if x.host = h then x.lost else x) = some x' →
      ∃ x, s.ops o = some x ∧ ((x.host = h ∧ x' = x.lost) ∨ (x.host ≠ h ∧ x' = x)) := by
    intro o x' hx
    cases hs : s.ops o with
    | none => simp [hs] at hx
    | some x =>
      refine ⟨x, rfl, ?_⟩
      simp only [hs, Option.map_some, Option.some.injEq] at hx
      split at hx
      · rename_i heq; exact .inl ⟨heq, hx.symm⟩
      · rename_i heq; exact .inr ⟨heq, hx.symm⟩
  refine ⟨?_, ?_, H.area, H.idx, H.legal, ?_, H.once⟩
  · intro o x' hx'
    obtain ⟨x, hx, hc | hc⟩ := get o x' hx'
    · obtain ⟨_, rfl⟩ := hc
      have P := lost_props x
      have := H.op o x hx
      have hna : x.lost.inCS = true → False := fun hcs => by
        have := inCS_active hcs
        rw [P.1] at this; simp at this
      refine ⟨fun ha => ?_, by rw [P.2.2.1]; exact this.kind, fun hcs => (hna hcs).elim, ?_, ?_, ?_⟩
      · rw [P.1] at ha; simp at ha
      · intro _ k
        have hd : ∃ r, x.lost.pc = .done r := by
          have := P.1
          unfold Op.active at this
          split at this
          · rename_i r hr; exact ⟨r, hr⟩
          · simp at this
        obtain ⟨r, hr⟩ := hd
        rw [hr]; simp
      · intro hb
        have := P.1
        simp [Op.active, hb] at this
      · intro k hk
        have := this.res k (.inr (.inr (P.2.2.2 k hk)))
        rw [P.2.2.1]
        exact this
    · obtain ⟨hne, rfl⟩ := hc
      have := H.op o x' hx
      refine ⟨?_, this.kind, this.cs, this.look, this.fresh, this.res⟩
      show x'.active = true → ((if x'.host = h then y else s.hosts x'.host).joined = true ∧
        (if x'.host = h then y else s.hosts x'.host).gen = x'.gen ∧ (if x'.host = h then y else s.hosts x'.host).busy = true)
      rw [if_neg hne]
      exact this.act
  · intro o o' x x' hx hx' ha ha' hh
    obtain ⟨z, hz, hc | hc⟩ := get o x hx
    · rw [hc.2, (lost_props z).1] at ha; simp at ha
    · obtain ⟨z', hz', hc' | hc'⟩ := get o' x' hx'
      · rw [hc'.2, (lost_props z').1] at ha'; simp at ha'
      · rw [hc.2] at ha hh; rw [hc'.2] at ha' hh
        exact H.uniq o o' z z' hz hz' ha ha' hh
  · intro o d hd
    obtain ⟨x, hx, hk⟩ := H.logged o d hd
    refine ⟨if x.host = h then x.lost else x, by simp only [hx, Option.map_some], ?_⟩
    have : (if x.host = h then x.lost else x).kind = x.kind := by
      split
      · exact (lost_props x).2.2.1
      · rfl
    rw [this]
    exact hk

theorem reading_buf {c : Cfg} {x : Op} {s : State} {j : Nat} (hb : ∀ i, i / c.per < j → x.buf i = s.idx i) (i : Nat)
    (hi : i / c.per < j + 1) : (if i / c.per = j then s.idx i else x.buf i) = s.idx i := by
  split
  · rfl
  · exact hb i (by omega)

/-- Every step that is allowed keeps the invariant. -/
theorem inv_step {c : Cfg} (hc : c.Ok) {s s' : State} (H : Inv c s) {a : Act} (ha : Allowed s a) (h : step c s a = some s') : Inv c s' := by
  cases a with
  | join p =>
    simp only [step] at h
    split at h
    · simp at h
    · rename_i hj
      simp only [Option.some.injEq] at h
      subst h
      refine inv_host H p _ fun o x hx hxa hxp => ?_
      have := ((H.op o x hx).act hxa).1
      rw [hxp] at this
      exact absurd this hj
  | remove p =>
    simp only [step] at h
    split at h
    · simp only [Option.some.injEq] at h
      subst h
      refine inv_host H p _ fun o x hx hxa hxp => ?_
      have := (H.op o x hx).act hxa
      rw [hxp] at this
      exact this
    · simp at h
  | kill p =>
    simp only [step] at h
    split at h
    · simp only [Option.some.injEq] at h
      subst h
      refine inv_host H p _ fun o x hx hxa hxp => ?_
      have := (H.op o x hx).act hxa
      rw [hxp] at this
      exact this
    · simp at h
  | fail p =>
    simp only [step] at h
    split at h
    · simp only [Option.some.injEq] at h
      subst h
      refine inv_host H p _ fun o x hx hxa hxp => ?_
      have := (H.op o x hx).act hxa
      rw [hxp] at this
      exact this
    · simp at h
  | leave p =>
    simp only [step] at h
    split at h
    · simp only [Option.some.injEq] at h
      subst h
      refine inv_host H p _ fun o x hx hxa hxp => ?_
      rw [ha o x hx hxp] at hxa
      simp at hxa
    · simp at h
  | crash p =>
    simp only [step, Option.some.injEq] at h
    subst h
    exact inv_crash H p _
  | begin o p kind =>
    simp only [step] at h
    split at h
    · rename_i hcond
      simp only [Bool.and_eq_true, Bool.not_eq_true', Option.isNone_iff_eq_none] at hcond
      obtain ⟨⟨⟨h1, h2⟩, h3⟩, h4⟩ := hcond
      simp only [Option.some.injEq] at h
      subst h
      have hno : ∀ o' x', s.ops o' = some x' → x'.active = true → x'.host = p → False := by
        intro o' x' hx' ha' hp
        have := ((H.op o' x' hx').act ha').2.2
        rw [hp, h3] at this
        simp at this
      have hnl : ∀ d, (o, d) ∉ s.log := by
        intro d hd
        obtain ⟨x, hx, _⟩ := H.logged o d hd
        rw [h4] at hx
        simp at hx
      have H1 := inv_host H p { s.hosts p with busy := true } fun o' x' hx' ha' hp => (hno o' x' hx' ha' hp).elim
      refine ⟨?_, ?_, H.area, H.idx, H.legal, ?_, H.once⟩
      · intro i y hi
        rw [setOp_get] at hi
        split at hi
        · rename_i heq
          simp only [Option.some.injEq] at hi
          subst hi; subst heq
          refine ⟨fun _ => ?_, ha, ?_, ?_, ?_, ?_⟩
          · simp [setOp, setHost, h1]
          · simp [Op.inCS]
          · intro _ k; simp
          · intro _; exact hnl
          · intro k hk; simp at hk
        · have := H1.op i y hi
          exact ⟨this.act, this.kind, this.cs, this.look, this.fresh, this.res⟩
      · intro i j y z hi hj hy hz hyz
        rw [setOp_get] at hi hj
        split at hi <;> split at hj
        · rename_i e1 e2; rw [e1, e2]
        · simp only [Option.some.injEq] at hi
          subst hi
          exact (hno j z hj hz hyz.symm).elim
        · simp only [Option.some.injEq] at hj
          subst hj
          exact (hno i y hi hy hyz).elim
        · exact H.uniq i j y z hi hj hy hz hyz
      · intro i d hd
        obtain ⟨x, hx, hx2⟩ := H.logged i d hd
        refine ⟨x, ?_, hx2⟩
        rw [setOp_get]
        split
        · rename_i heq; subst heq; exact absurd hd (hnl d)
        · exact hx
    · simp at h
  | acquire o ok =>
    simp only [step] at h
    split at h
    · simp at h
    rename_i x hx
    have X := H.op o x hx
    split at h
    · rename_i hpc
      have hxa : x.active = true := by simp [Op.active, hpc]
      split at h
      · rename_i hl
        simp only [Bool.not_eq_true'] at hl
        simp only [Option.some.injEq] at h
        subst h
        refine inv_set H hx rfl rfl (fun _ => hxa) ⟨fun _ => X.act hxa, X.kind, ?_, ?_, ?_, ?_⟩
        · simp [Op.inCS, hl]
        · intro _ k; simp
        · simp
        · intro k hk; simp at hk
      · rename_i hl
        simp only [Bool.not_eq_true', Bool.not_eq_false] at hl
        have hfail : ∀ s'', s'' = setOp s o { x with pc := .clear .error } → Inv c s'' := by
          intro s'' h
          subst h
          refine inv_set H hx rfl rfl (fun _ => hxa) ⟨fun _ => X.act hxa, X.kind, ?_, ?_, ?_, ?_⟩
          · simp [Op.inCS]
          · intro _ k; simp
          · simp
          · intro k hk; simp at hk
        have hgot : (∀ o' x', s.ops o' = some x' → x'.inCS = true → False) →
            ∀ s'', s'' = { setOp s o { x with pc := .reading 0, lver := s.lver + 1 } with
              owner := some (x.host, x.gen), lver := s.lver + 1 } → Inv c s'' := by
          intro hnone s'' h
          subst h
          have hmid : Inv c (setOp s o { x with pc := .clear .error }) := hfail _ rfl
          refine ⟨?_, ?_, H.area, H.idx, H.legal, ?_, H.once⟩
          · intro i y hi
            change (if i = o then _ else _) = some y at hi
            split at hi
            · rename_i heq
              simp only [Option.some.injEq] at hi
              subst hi; subst heq
              refine ⟨fun _ => X.act hxa, X.kind, fun _ => ⟨rfl, rfl, ?_⟩, ?_, ?_, ?_⟩
              · simp only [DiskOk]
                exact ⟨fun i hi => absurd hi (Nat.not_lt_zero _), X.fresh hpc⟩
              · intro _ k; simp
              · simp
              · intro k hk; simp at hk
            · have := H.op i y hi
              exact ⟨this.act, this.kind, fun hcs => (hnone i y hi hcs).elim, this.look, this.fresh, this.res⟩
          · intro i j y z hi hj hy hz hyz
            change (if i = o then _ else _) = some y at hi
            change (if j = o then _ else _) = some z at hj
            split at hi <;> split at hj
            · rename_i e1 e2; rw [e1, e2]
            · rename_i e1 e2
              simp only [Option.some.injEq] at hi
              subst hi
              rw [e1]
              exact H.uniq o j x z hx hj hxa hz hyz
            · rename_i e1 e2
              simp only [Option.some.injEq] at hj
              subst hj
              rw [e2]
              exact H.uniq i o y x hi hx hy hxa hyz
            · exact H.uniq i j y z hi hj hy hz hyz
          · intro i d hd
            obtain ⟨y, hy, hy2⟩ := hmid.logged i d hd
            rw [setOp_get] at hy
            split at hy
            · rename_i heq
              simp only [Option.some.injEq] at hy
              subst hy
              exact ⟨{ x with pc := .reading 0, lver := s.lver + 1 }, if_pos heq, hy2⟩
            · rename_i heq
              exact ⟨y, (if_neg heq).trans hy, hy2⟩
        split at h
        · simp only [Option.some.injEq] at h
          exact hfail s' h.symm
        · split at h
          · rename_i hown
            simp only [Option.some.injEq] at h
            refine hgot ?_ s' h.symm
            intro o' x' hx' hcs
            have := ((H.op o' x' hx').cs hcs).1
            rw [hown] at this
            simp at this
          · rename_i w hown
            split at h
            · rename_i hw
              simp only [Option.some.injEq] at h
              refine hgot ?_ s' h.symm
              intro o' x' hx' hcs
              have h1 := ((H.op o' x' hx').cs hcs).1
              have h2 := (H.op o' x' hx').act (inCS_active hcs)
              rw [hown] at h1
              simp only [Option.some.injEq] at h1
              subst h1
              rcases hw with ⟨hw, _⟩ | hw
              · have heq := H.uniq o' o x' x hx' hx (inCS_active hcs) hxa hw
                subst heq
                rw [hx] at hx'
                simp only [Option.some.injEq] at hx'
                subst hx'
                simp [Op.inCS, hpc] at hcs
              · simp [alive, h2.1, h2.2.1] at hw
            · simp only [Option.some.injEq] at h
              exact hfail s' h.symm
    · simp at h
  | read o ok =>
    simp only [step] at h
    split at h
    · simp at h
    rename_i x hx
    have X := H.op o x hx
    split at h
    · rename_i j hpc
      have hxa : x.active = true := by simp [Op.active, hpc]
      have hcs : locks x.kind = true → x.inCS = true := fun hl => by simp [Op.inCS, hpc, hl]
      split at h
      · simp only [Option.some.injEq] at h
        subst h
        cases hl : locks x.kind
        · refine inv_set H hx rfl rfl (fun _ => hxa) ⟨fun _ => X.act hxa, X.kind, ?_, ?_, ?_, ?_⟩
          · simp [Op.inCS, hl]
          · intro _ k; simp [giveUp, hl]
          · simp [giveUp, hl]
          · intro k hk; simp [giveUp, hl] at hk
        · have C := X.cs (hcs hl)
          refine inv_set H hx rfl rfl (fun _ => hxa) ⟨fun _ => X.act hxa, X.kind, fun _ => ⟨C.1, C.2.1, ?_⟩, ?_, ?_, ?_⟩
          · simp only [DiskOk, giveUp, hl, if_true]
          · intro h0; rw [show locks x.kind = false from h0] at hl; simp at hl
          · simp [giveUp, hl]
          · intro k hk; simp [giveUp, hl] at hk
      · split at h
        · simp only [Option.some.injEq] at h
          subst h
          refine inv_set H hx rfl rfl (fun _ => hxa) ⟨fun _ => X.act hxa, X.kind, fun hcs' => ?_, ?_, ?_, ?_⟩
          · have C := X.cs (hcs (by simp only [Op.inCS, Bool.and_eq_true] at hcs'; exact hcs'.1))
            refine ⟨C.1, C.2.1, ?_⟩
            have D := C.2.2
            simp only [DiskOk, hpc] at D ⊢
            exact ⟨fun i hi => reading_buf D.1 i hi, D.2⟩
          · intro _ k; simp
          · simp
          · intro k hk; simp at hk
        · rename_i hlast
          simp only [Option.some.injEq] at h
          subst h
          refine inv_set H hx rfl rfl (fun _ => hxa) ⟨fun _ => X.act hxa, X.kind, fun hcs' => ?_, ?_, ?_, ?_⟩
          · have hl : locks x.kind = true := by simp only [Op.inCS, Bool.and_eq_true] at hcs'; exact hcs'.1
            have C := X.cs (hcs hl)
            refine ⟨C.1, C.2.1, ?_⟩
            have D := C.2.2
            simp only [DiskOk, hpc] at D
            have hb : ∀ i, i / c.per < c.secs → (if i / c.per = j then s.idx i else x.buf i) = s.idx i :=
              fun i hi => reading_buf D.1 i (by omega)
            cases hk : x.kind with
            | create n =>
              simp only [DiskOk, afterRead, hk]
              cases hs : search c (fun i => if i / c.per = j then s.idx i else x.buf i) (· == none) with
              | none => simp
              | some k =>
                have S := search_some hs
                simp only
                refine ⟨hb, S.1, ?_, D.2⟩
                have h2 := S.2
                rw [hb k (hc.sec S.1)] at h2
                simpa using h2
            | delete n =>
              simp only [DiskOk, afterRead, hk]
              cases hs : search c (fun i => if i / c.per = j then s.idx i else x.buf i) (· == some n) with
              | none => simp
              | some k =>
                have S := search_some hs
                simp only
                refine ⟨hb, S.1, ?_, D.2⟩
                have h2 := S.2
                rw [hb k (hc.sec S.1)] at h2
                simpa using h2
            | lookup n => rw [hk] at hl; simp [locks] at hl
            | add k n => exact absurd hk (X.kind.1 k n)
            | rem k => exact absurd hk (X.kind.2 k)
          · intro hl k
            cases hk : x.kind with
            | create n => simp [hk, locks] at hl
            | delete n => simp [hk, locks] at hl
            | lookup n => simp only [afterRead, hk]; split <;> simp
            | add k n => exact absurd hk (X.kind.1 k n)
            | rem k => exact absurd hk (X.kind.2 k)
          · intro hb
            exfalso
            simp only [afterRead] at hb
            split at hb <;> (try split at hb) <;> simp at hb
          · intro k hk
            cases hkd : x.kind with
            | create n =>
              simp only [afterRead, hkd] at hk
              split at hk <;> simp at hk
            | delete n =>
              simp only [afterRead, hkd] at hk
              split at hk <;> simp at hk
            | lookup n => simp [hkd]
            | add k n => exact absurd hkd (X.kind.1 k n)
            | rem k => exact absurd hkd (X.kind.2 k)
    · simp at h
  | init o ok v =>
    simp only [step] at h
    split at h
    · simp at h
    rename_i x hx
    have X := H.op o x hx
    split at h
    · rename_i k hpc
      have hl : locks x.kind = true := by
        cases hl : locks x.kind
        · exact absurd hpc (X.look hl k).1
        · rfl
      have hxa : x.active = true := by simp [Op.active, hpc]
      have hcs : x.inCS = true := by simp [Op.inCS, hpc, hl]
      have C := X.cs hcs
      have hfree : s.idx k = none ∧ k < c.max := by
        have D := C.2.2
        cases hk : x.kind with
        | create n => simp only [DiskOk, hpc, hk] at D; exact ⟨D.2.2.1, D.2.1⟩
        | delete n => simp only [DiskOk, hpc, hk] at D; exact ⟨D.2.1, D.1⟩
        | lookup n => rw [hk] at hl; simp [locks] at hl
        | add k n => exact absurd hk (X.kind.1 k n)
        | rem k => exact absurd hk (X.kind.2 k)
      have harea : ∀ w : Option Nat, ∀ i n, s.idx i = some n → (if i = k then w else s.area i) = some n ∧ i < c.max := by
        intro w i n hi
        have hne : i ≠ k := by
          intro heq; subst heq; rw [hfree.1] at hi; simp at hi
        rw [if_neg hne]
        exact H.area i n hi
      split at h
      · simp only [Option.some.injEq] at h
        subst h
        refine inv_change H hx hcs rfl rfl rfl rfl rfl rfl (.inl rfl) ⟨fun _ => X.act hxa, X.kind, fun _ => ⟨C.1, C.2.1, ?_⟩, ?_, ?_, ?_⟩
          (harea _) H.idx H.legal
        · have D := C.2.2
          cases hk : x.kind with
          | create n =>
            simp only [DiskOk, hpc, hk] at D
            simp only [DiskOk, newEntry, if_true]
            exact ⟨D.1, D.2.1, D.2.2.1, trivial, D.2.2.2⟩
          | delete n => simp only [DiskOk]
          | lookup n => rw [hk] at hl; simp [locks] at hl
          | add k n => exact absurd hk (X.kind.1 k n)
          | rem k => exact absurd hk (X.kind.2 k)
        · intro h0; rw [show locks x.kind = false from h0] at hl; simp at hl
        · intro hb
          exfalso
          revert hb
          cases hk : x.kind <;> simp
        · intro k' hk'
          have D := C.2.2
          cases hk : x.kind with
          | create n => simp [hk] at hk'
          | delete n =>
            simp only [hk, Pc.release.injEq, Res.ok.injEq, reduceCtorEq, or_false] at hk'
            subst hk'
            simp only [DiskOk, hpc, hk] at D
            simp only
            exact D.2.2
          | lookup n => simp only
          | add k n => simp only
          | rem k => simp only
      · simp only [Option.some.injEq] at h
        subst h
        refine inv_change H hx hcs rfl rfl rfl rfl rfl rfl (.inl rfl) ⟨fun _ => X.act hxa, X.kind, fun _ => ⟨C.1, C.2.1, ?_⟩, ?_, ?_, ?_⟩
          (harea _) H.idx H.legal
        · simp only [DiskOk]
        · intro h0; rw [show locks x.kind = false from h0] at hl; simp at hl
        · simp
        · intro k' hk'; simp at hk'
    · simp at h
  | write o ok landed =>
    simp only [step] at h
    split at h
    · simp at h
    rename_i x hx
    have X := H.op o x hx
    split at h
    · rename_i k hpc
      have hl : locks x.kind = true := by
        cases hl : locks x.kind
        · exact absurd hpc (X.look hl k).2
        · rfl
      have hxa : x.active = true := by simp [Op.active, hpc]
      have hcs : x.inCS = true := by simp [Op.inCS, hpc, hl]
      have C := X.cs hcs
      have D := C.2.2
      split at h
      · simp at h
      rename_i hokl
      cases hk : x.kind with
      | lookup n => rw [hk] at hl; simp [locks] at hl
      | add k n => exact absurd hk (X.kind.1 k n)
      | rem k => exact absurd hk (X.kind.2 k)
      | create n =>
        simp only [DiskOk, hpc, hk] at D
        have hidx := writeSector_eq D.1 (hc.sec D.2.1)
        simp only [hk, newEntry] at hidx
        cases landed
        · simp only [Bool.false_eq_true, if_false, Option.some.injEq] at h
          have hok : ok = false := by simpa using hokl
          subst hok
          subst h
          refine inv_change H hx hcs rfl rfl rfl rfl rfl rfl (.inl rfl) ⟨fun _ => X.act hxa, X.kind, fun _ => ⟨C.1, C.2.1, ?_⟩, ?_, ?_, ?_⟩
            H.area H.idx H.legal
          · simp [DiskOk, giveUp, hl]
          · intro h0; rw [show locks x.kind = false from h0] at hl; simp at hl
          · simp [giveUp, hl]
          · intro k' hk'; simp [giveUp, hl] at hk'
        · simp only [if_true, hk, change, Option.some.injEq] at h
          subst h
          have hleg : Legal ((o, .added k n) :: s.log) := ⟨by rw [← H.idx]; exact D.2.2.1, H.legal⟩
          refine inv_change H hx hcs rfl rfl hk.symm rfl rfl rfl (.inr ⟨.added k n, rfl, D.2.2.2.2, hk⟩)
            ⟨fun _ => X.act hxa, hk ▸ X.kind, fun _ => ⟨C.1, C.2.1, ?_⟩, ?_, ?_, ?_⟩ ?_ ?_ hleg
          · cases ok <;> simp [DiskOk, giveUp, hl]
          · intro h0; simp [locks] at h0
          · cases ok <;> simp [giveUp, hl]
          · intro k' hk'
            simp only [hk]
            cases ok
            · simp [giveUp, hl] at hk'
            · simp at hk'
              subst hk'
              exact List.mem_cons_self
          · intro i m hi
            simp only [hidx] at hi
            split at hi
            · rename_i heq; subst heq
              simp only [Option.some.injEq] at hi
              subst hi
              exact ⟨D.2.2.2.1, D.2.1⟩
            · exact H.area i m hi
          · intro i
            simp only [hidx, replay]
            split
            · rfl
            · exact H.idx i
      | delete n =>
        simp only [DiskOk, hpc, hk] at D
        have hidx := writeSector_eq D.1 (hc.sec D.2.1)
        simp only [hk, newEntry] at hidx
        cases landed
        · simp only [Bool.false_eq_true, if_false, Option.some.injEq] at h
          have hok : ok = false := by simpa using hokl
          subst hok
          subst h
          refine inv_change H hx hcs rfl rfl rfl rfl rfl rfl (.inl rfl) ⟨fun _ => X.act hxa, X.kind, fun _ => ⟨C.1, C.2.1, ?_⟩, ?_, ?_, ?_⟩
            H.area H.idx H.legal
          · simp [DiskOk, giveUp, hl]
          · intro h0; rw [show locks x.kind = false from h0] at hl; simp at hl
          · simp [giveUp, hl]
          · intro k' hk'; simp [giveUp, hl] at hk'
        · simp only [if_true, hk, change, Option.some.injEq] at h
          subst h
          have hleg : Legal ((o, .removed k n) :: s.log) := ⟨by rw [← H.idx]; exact D.2.2.1, H.legal⟩
          refine inv_change H hx hcs rfl rfl hk.symm rfl rfl rfl (.inr ⟨.removed k n, rfl, D.2.2.2, hk⟩)
            ⟨fun _ => X.act hxa, hk ▸ X.kind, fun _ => ⟨C.1, C.2.1, ?_⟩, ?_, ?_, ?_⟩ ?_ ?_ hleg
          · cases ok
            · simp [DiskOk, giveUp, hl]
            · simp only [if_true, DiskOk, hk, hidx]
              exact ⟨D.2.1, trivial, List.mem_cons_self⟩
          · intro h0; simp [locks] at h0
          · cases ok <;> simp [giveUp, hl]
          · intro k' hk'
            simp only [hk]
            cases ok
            · simp [giveUp, hl] at hk'
            · simp at hk'
          · intro i m hi
            simp only [hidx] at hi
            split at hi
            · simp at hi
            · exact H.area i m hi
          · intro i
            simp only [hidx, replay]
            split
            · rfl
            · exact H.idx i
    · simp at h
  | release o ok =>
    simp only [step] at h
    split at h
    · simp at h
    rename_i x hx
    have X := H.op o x hx
    split at h
    · rename_i r hpc
      have hxa : x.active = true := by simp [Op.active, hpc]
      have hset : Inv c (setOp s o { x with pc := .clear r }) := by
        refine inv_set H hx rfl rfl (fun _ => hxa) ⟨fun _ => X.act hxa, X.kind, ?_, ?_, ?_, ?_⟩
        · simp [Op.inCS]
        · intro _ k; simp
        · simp
        · intro k hk
          simp only [Pc.clear.injEq, reduceCtorEq, or_false, false_or] at hk
          exact X.res k (.inl (by rw [hpc, hk]))
      split at h
      · rename_i hcond
        simp only [Bool.and_eq_true, decide_eq_true_eq] at hcond
        simp only [Option.some.injEq] at h
        subst h
        refine ⟨?_, hset.uniq, hset.area, hset.idx, hset.legal, hset.logged, hset.once⟩
        intro i y hi
        have Y := hset.op i y hi
        refine ⟨Y.act, Y.kind, fun hcs => ?_, Y.look, Y.fresh, Y.res⟩
        exfalso
        have h1 := (Y.cs hcs).1
        have h2 : s.owner = some (y.host, y.gen) := h1
        rw [hcond.1.2] at h2
        simp only [Option.some.injEq, Prod.mk.injEq] at h2
        have h3 : (setOp s o { x with pc := .clear r }).ops o = some { x with pc := .clear r } := by simp [setOp_get]
        have heq := hset.uniq i o y _ hi h3 (inCS_active hcs) (by simp [Op.active]) h2.1.symm
        subst heq
        have h4 : (setOp s i { x with pc := .clear r }).ops i = some y := hi
        rw [h3] at h4
        simp only [Option.some.injEq] at h4
        subst h4
        simp [Op.inCS] at hcs
      · simp only [Option.some.injEq] at h
        subst h
        exact hset
    · simp at h
  | clear o =>
    simp only [step] at h
    split at h
    · simp at h
    rename_i x hx
    have X := H.op o x hx
    split at h
    · rename_i r hpc
      have hxa : x.active = true := by simp [Op.active, hpc]
      simp only [Option.some.injEq] at h
      subst h
      have hset : Inv c (setOp s o { x with pc := .done r }) := by
        refine inv_set H hx rfl rfl (fun _ => hxa) ⟨fun h0 => ?_, X.kind, ?_, ?_, ?_, ?_⟩
        · simp [Op.active] at h0
        · simp [Op.inCS]
        · intro _ k; simp
        · simp
        · intro k hk
          simp only [Pc.done.injEq, reduceCtorEq, false_or] at hk
          exact X.res k (.inr (.inl (by rw [hpc, hk])))
      refine inv_host hset x.host { s.hosts x.host with busy := false } fun o' y hy hya hyh => ?_
      exfalso
      rw [setOp_get] at hy
      split at hy
      · simp only [Option.some.injEq] at hy
        subst hy
        simp [Op.active] at hya
      · rename_i hne
        exact hne (H.uniq o' o y x hy hx hya hxa hyh)
    · simp at h
  | land => exact ha.elim

/-- Every action of the execution is allowed. -/
def AllAllowed (c : Cfg) (s : State) : List Act → Prop
  | [] => True
  | a :: as => Allowed s a ∧ ∀ s', step c s a = some s' → AllAllowed c s' as

theorem inv_run {c : Cfg} (hc : c.Ok) {s s' : State} (H : Inv c s) {as : List Act} (ha : AllAllowed c s as) (h : run c s as = some s') :
    Inv c s' := by
  induction as generalizing s with
  | nil => simp only [run, Option.some.injEq] at h; exact h ▸ H
  | cons a as ih =>
    simp only [run] at h
    cases h1 : step c s a with
    | none => simp [h1] at h
    | some s1 => rw [h1] at h; exact ih (inv_step hc H ha.1 h1) (ha.2 s1 h1) h

/-- An execution: the states that were passed, newest first, and the state reached.  `ok` restricts the actions. -/
inductive Exec (c : Cfg) (ok : State → Act → Prop) : List State → State → Prop
  | start : Exec c ok [] initial
  | next {l : List State} {s s' : State} {a : Act} : Exec c ok l s → ok s a → step c s a = some s' → Exec c ok (s :: l) s'

theorem exec_run {c : Cfg} {ok : State → Act → Prop} {l : List State} {s s' : State} {as : List Act} (h : Exec c ok l s)
    (hok : ∀ s a, ok s a) (hr : run c s as = some s') : ∃ l', Exec c ok l' s' := by
  induction as generalizing s l with
  | nil => simp only [run, Option.some.injEq] at hr; exact ⟨l, hr ▸ h⟩
  | cons a as ih =>
    simp only [run] at hr
    cases h1 : step c s a with
    | none => simp [h1] at hr
    | some s1 => rw [h1] at hr; exact ih (.next h (hok s a) h1) hr

theorem exec_allowed {c : Cfg} {l : List State} {s s' : State} {as : List Act} (h : Exec c Allowed l s)
    (hok : AllAllowed c s as) (hr : run c s as = some s') : ∃ l', Exec c Allowed l' s' := by
  induction as generalizing s l with
  | nil => simp only [run, Option.some.injEq] at hr; exact ⟨l, hr ▸ h⟩
  | cons a as ih =>
    simp only [run] at hr
    cases h1 : step c s a with
    | none => simp [h1] at hr
    | some s1 => rw [h1] at hr; exact ih (.next h hok.1 h1) (hok.2 s1 h1) hr

theorem inv_exec {c : Cfg} (hc : c.Ok) {l : List State} {s : State} (h : Exec c Allowed l s) : Inv c s := by
  induction h with
  | start => exact inv_initial c
  | next _ ha hs ih => exact inv_step hc ih ha hs

/-- One step of a call, as far as its own fields go. -/
inductive Move (c : Cfg) (s : State) (x x' : Op) : Prop
  | start (h' : x'.pc = .reading 0)
  | fail (h' : x'.pc = .release .error ∨ x'.pc = .clear .error ∨ x'.pc = .done .error)
  | next (j : Nat) (h : x.pc = .reading j) (hb : x'.buf = fun i => if i / c.per = j then s.idx i else x.buf i) (h' : x'.pc = .reading (j + 1))
  | last (j : Nat) (h : x.pc = .reading j) (hb : x'.buf = fun i => if i / c.per = j then s.idx i else x.buf i) (hj : c.secs ≤ j + 1)
      (h' : x'.pc = afterRead c x')
  | work (k : Nat) (h : x.pc = .init k ∨ x.pc = .write k)
      (h' : x'.pc = .init k ∨ x'.pc = .write k ∨ x'.pc = .release (.ok k) ∨ x'.pc = .clear (.ok k))
  | release (r : Res) (h : x.pc = .release r) (h' : x'.pc = .clear r)
  | clear (r : Res) (h : x.pc = .clear r) (h' : x'.pc = .done r)

theorem giveUp_cases (x : Op) : giveUp x = .release .error ∨ giveUp x = .clear .error := by
  unfold giveUp; split <;> simp

theorem step_op {c : Cfg} {s s' : State} {a : Act} (h : step c s a = some s') {o : Nat} {x' : Op} (hx' : s'.ops o = some x') :
    s.ops o = some x' ∨ (s.ops o = none ∧ x'.pc = .begun) ∨
      ∃ x, s.ops o = some x ∧ x.active = true ∧ x'.kind = x.kind ∧ Move c s x x' := by
  have key : ∀ (o' : Nat) (x y : Op), s.ops o' = some x → s'.ops = (setOp s o' y).ops → x.active = true → y.kind = x.kind → Move c s x y →
      s.ops o = some x' ∨ (s.ops o = none ∧ x'.pc = .begun) ∨
        ∃ x, s.ops o = some x ∧ x.active = true ∧ x'.kind = x.kind ∧ Move c s x x' := by
    intro o' x y hx hops ha hk hm
    rw [hops, setOp_get] at hx'
    split at hx'
    · rename_i heq
      subst heq
      simp only [Option.some.injEq] at hx'
      subst hx'
      exact .inr (.inr ⟨x, hx, ha, hk, hm⟩)
    · exact .inl hx'
  cases a with
  | join p =>
    simp only [step] at h
    split at h
    · simp at h
    · simp only [Option.some.injEq] at h; subst h; exact .inl hx'
  | remove p =>
    simp only [step] at h
    split at h
    · simp only [Option.some.injEq] at h; subst h; exact .inl hx'
    · simp at h
  | kill p =>
    simp only [step] at h
    split at h
    · simp only [Option.some.injEq] at h; subst h; exact .inl hx'
    · simp at h
  | fail p =>
    simp only [step] at h
    split at h
    · simp only [Option.some.injEq] at h; subst h; exact .inl hx'
    · simp at h
  | leave p =>
    simp only [step] at h
    split at h
    · simp only [Option.some.injEq] at h; subst h; exact .inl hx'
    · simp at h
  | crash p =>
    simp only [step, Option.some.injEq] at h
    subst h
    simp only [Option.map_eq_some_iff] at hx'
    obtain ⟨x, hx, hxx⟩ := hx'
    split at hxx
    · cases hxa : x.active
      · simp only [Op.lost, hxa, Bool.false_eq_true, if_false] at hxx
        exact .inl (hxx ▸ hx)
      · simp only [Op.lost, hxa, if_true] at hxx
        subst hxx
        exact .inr (.inr ⟨x, hx, hxa, rfl, .fail (.inr (.inr rfl))⟩)
    · exact .inl (hxx ▸ hx)
  | begin o' p kind =>
    simp only [step] at h
    split at h
    · rename_i hcond
      simp only [Bool.and_eq_true, Option.isNone_iff_eq_none] at hcond
      simp only [Option.some.injEq] at h
      subst h
      rw [setOp_get] at hx'
      split at hx'
      · rename_i heq
        subst heq
        simp only [Option.some.injEq] at hx'
        subst hx'
        exact .inr (.inl ⟨hcond.2, rfl⟩)
      · exact .inl hx'
    · simp at h
  | acquire o' ok =>
    simp only [step] at h
    split at h
    · simp at h
    rename_i x hx
    split at h
    · rename_i hpc
      have hxa : x.active = true := by simp [Op.active, hpc]
      split at h
      · simp only [Option.some.injEq] at h
        subst h
        exact key o' x _ hx rfl hxa rfl (.start rfl)
      · split at h
        · simp only [Option.some.injEq] at h
          subst h
          exact key o' x _ hx rfl hxa rfl (.fail (.inr (.inl rfl)))
        · split at h
          · simp only [Option.some.injEq] at h
            subst h
            exact key o' x _ hx rfl hxa rfl (.start rfl)
          · split at h
            · simp only [Option.some.injEq] at h
              subst h
              exact key o' x _ hx rfl hxa rfl (.start rfl)
            · simp only [Option.some.injEq] at h
              subst h
              exact key o' x _ hx rfl hxa rfl (.fail (.inr (.inl rfl)))
    · simp at h
  | read o' ok =>
    simp only [step] at h
    split at h
    · simp at h
    rename_i x hx
    split at h
    · rename_i j hpc
      have hxa : x.active = true := by simp [Op.active, hpc]
      split at h
      · simp only [Option.some.injEq] at h
        subst h
        exact key o' x _ hx rfl hxa rfl (.fail (by rcases giveUp_cases x with g | g <;> simp [g]))
      · split at h
        · simp only [Option.some.injEq] at h
          subst h
          exact key o' x _ hx rfl hxa rfl (.next j hpc rfl rfl)
        · rename_i hj
          simp only [Option.some.injEq] at h
          subst h
          exact key o' x _ hx rfl hxa rfl (.last j hpc rfl (by omega) rfl)
    · simp at h
  | init o' ok v =>
    simp only [step] at h
    split at h
    · simp at h
    rename_i x hx
    split at h
    · rename_i k hpc
      have hxa : x.active = true := by simp [Op.active, hpc]
      split at h
      · simp only [Option.some.injEq] at h
        subst h
        exact key o' x _ hx rfl hxa rfl (.work k (.inl hpc) (by cases x.kind <;> simp))
      · simp only [Option.some.injEq] at h
        subst h
        exact key o' x _ hx rfl hxa rfl (.fail (.inl rfl))
    · simp at h
  | write o' ok landed =>
    simp only [step] at h
    split at h
    · simp at h
    rename_i x hx
    split at h
    · rename_i k hpc
      have hxa : x.active = true := by simp [Op.active, hpc]
      have hm : Move c s x { x with pc := if ok then (match x.kind with | .create _ => .release (.ok k) | .delete _ => .init k | _ => .clear (.ok k)) else giveUp x } := by
        cases ok
        · exact .fail (by rcases giveUp_cases x with g | g <;> simp [g])
        · exact .work k (.inr hpc) (by cases x.kind <;> simp)
      split at h
      · simp at h
      split at h
      · simp only [Option.some.injEq] at h
        subst h
        exact key o' x _ hx rfl hxa rfl hm
      · simp only [Option.some.injEq] at h
        subst h
        exact key o' x _ hx rfl hxa rfl hm
    · simp at h
  | release o' ok =>
    simp only [step] at h
    split at h
    · simp at h
    rename_i x hx
    split at h
    · rename_i r hpc
      have hxa : x.active = true := by simp [Op.active, hpc]
      split at h
      · simp only [Option.some.injEq] at h
        subst h
        exact key o' x _ hx rfl hxa rfl (.release r hpc rfl)
      · simp only [Option.some.injEq] at h
        subst h
        exact key o' x _ hx rfl hxa rfl (.release r hpc rfl)
    · simp at h
  | clear o' =>
    simp only [step] at h
    split at h
    · simp at h
    rename_i x hx
    split at h
    · rename_i r hpc
      have hxa : x.active = true := by simp [Op.active, hpc]
      simp only [Option.some.injEq] at h
      subst h
      exact key o' x _ hx rfl hxa rfl (.clear r hpc rfl)
    · simp at h
  | land =>
    simp only [step] at h
    split at h
    · simp at h
    · simp only [Option.some.injEq] at h; subst h; exact .inl hx'

/-- While call `o` ran there was a state with `p`. -/
def Seen (l : List State) (o : Nat) (p : State → Prop) : Prop := ∃ s1 ∈ l, (∃ x1, s1.ops o = some x1 ∧ x1.active = true) ∧ p s1

theorem Seen.cons {l : List State} {s : State} {o : Nat} {p : State → Prop} (h : Seen l o p) : Seen (s :: l) o p := by
  obtain ⟨s1, h1, h2⟩ := h
  exact ⟨s1, List.mem_cons_of_mem _ h1, h2⟩

/-- What a call has read was on the disk at some time while it ran. -/
structure HistOk (c : Cfg) (l : List State) (o : Nat) (x : Op) : Prop where
  buf : ∀ j, x.pc = .reading j → ∀ i, i / c.per < j → Seen l o fun s1 => s1.idx i = x.buf i
  look : ∀ n, x.kind = .lookup n → ∀ k, x.pc ≠ .init k ∧ x.pc ≠ .write k
  found : ∀ n, x.kind = .lookup n → ∀ k, (x.pc = .release (.ok k) ∨ x.pc = .clear (.ok k) ∨ x.pc = .done (.ok k)) →
    k < c.max ∧ Seen l o fun s1 => s1.idx k = some n
  missing : ∀ n, x.kind = .lookup n → (x.pc = .release .missing ∨ x.pc = .clear .missing ∨ x.pc = .done .missing) →
    ∀ k, k < c.max → Seen l o fun s1 => s1.idx k ≠ some n

theorem HistOk.cons {c : Cfg} {l : List State} {s : State} {o : Nat} {x : Op} (h : HistOk c l o x) : HistOk c (s :: l) o x :=
  ⟨fun j hj i hi => (h.buf j hj i hi).cons, h.look, fun n hn k hk => ⟨(h.found n hn k hk).1, (h.found n hn k hk).2.cons⟩,
    fun n hn hm k hk => (h.missing n hn hm k hk).cons⟩

theorem search_none {c : Cfg} {buf : Nat → Option Nat} {p : Option Nat → Bool} (h : search c buf p = none) {k : Nat} (hk : k < c.max) :
    p (buf k) = false := by
  have := List.find?_eq_none.mp h k (List.mem_range.mpr hk)
  simpa using this

theorem hist_exec {c : Cfg} (hc : c.Ok) {ok : State → Act → Prop} {l : List State} {s : State} (h : Exec c ok l s) :
    ∀ o x, s.ops o = some x → HistOk c l o x := by
  induction h with
  | start => intro o x hx; simp [initial] at hx
  | @next l s s' a _ _ hs ih =>
    intro o x' hx'
    rcases step_op hs hx' with hx | ⟨_, hb⟩ | ⟨x, hx, hxa, hk, hm⟩
    · exact (ih o x' hx).cons
    · exact ⟨by simp [hb], by simp [hb], by simp [hb], by simp [hb]⟩
    · have X := ih o x hx
      have seen : ∀ p : State → Prop, p s → Seen (s :: l) o p := fun p hp => ⟨s, List.mem_cons_self, ⟨x, hx, hxa⟩, hp⟩
      cases hm with
      | start h' =>
        refine ⟨?_, by simp [h'], by simp [h'], by simp [h']⟩
        intro j hj i hi
        rw [h'] at hj
        simp only [Pc.reading.injEq] at hj
        subst hj
        exact absurd hi (Nat.not_lt_zero _)
      | fail h' =>
        refine ⟨?_, ?_, ?_, ?_⟩ <;> (rcases h' with h' | h' | h' <;> simp [h'])
      | next j hpc hb h' =>
        refine ⟨?_, by simp [h'], by simp [h'], by simp [h']⟩
        intro j' hj i hi
        rw [h'] at hj
        simp only [Pc.reading.injEq] at hj
        subst hj
        simp only [hb]
        split
        · exact seen _ rfl
        · exact (X.buf j hpc i (by omega)).cons
      | last j hpc hb hj h' =>
        have hbuf : ∀ i, i < c.max → Seen (s :: l) o fun s1 => s1.idx i = x'.buf i := by
          intro i hi
          have := hc.sec hi
          simp only [hb]
          split
          · exact seen _ rfl
          · exact (X.buf j hpc i (by omega)).cons
        refine ⟨?_, ?_, ?_, ?_⟩
        · intro j' hj'
          rw [h'] at hj'
          simp only [afterRead] at hj'
          split at hj' <;> (try split at hj') <;> simp at hj'
        · intro n hn k
          rw [h']
          simp only [afterRead, hn]
          split <;> simp
        · intro n hn k hk
          rw [h'] at hk
          simp only [afterRead, hn] at hk
          cases hsr : search c x'.buf (· == some n) with
          | none => simp [hsr] at hk
          | some m =>
            simp only [hsr, Pc.clear.injEq, Res.ok.injEq, reduceCtorEq, false_or, or_false] at hk
            subst hk
            have S := search_some hsr
            refine ⟨S.1, ?_⟩
            obtain ⟨s1, h1, h2, h3⟩ := hbuf m S.1
            refine ⟨s1, h1, h2, ?_⟩
            show s1.idx m = some n
            rw [h3]
            simpa using S.2
        · intro n hn hmis k hk
          rw [h'] at hmis
          simp only [afterRead, hn] at hmis
          cases hsr : search c x'.buf (· == some n) with
          | some m => simp [hsr] at hmis
          | none =>
            obtain ⟨s1, h1, h2, h3⟩ := hbuf k hk
            refine ⟨s1, h1, h2, ?_⟩
            show s1.idx k ≠ some n
            rw [h3]
            have := search_none hsr hk
            simpa using this
      | work k hpc h' =>
        have hnl : ∀ n, x'.kind ≠ .lookup n := by
          intro n hn
          have := X.look n (by rw [← hk, hn]) k
          rcases hpc with hpc | hpc
          · exact this.1 hpc
          · exact this.2 hpc
        refine ⟨?_, fun n hn => absurd hn (hnl n), fun n hn => absurd hn (hnl n), fun n hn => absurd hn (hnl n)⟩
        rcases h' with h' | h' | h' | h' <;> simp [h']
      | release r hpc h' =>
        refine ⟨by simp [h'], by simp [h'], ?_, ?_⟩
        · intro n hn k hk'
          rw [h'] at hk'
          simp only [Pc.clear.injEq, reduceCtorEq, false_or, or_false] at hk'
          subst hk'
          have := X.found n (by rw [← hk, hn]) k (.inl hpc)
          exact ⟨this.1, this.2.cons⟩
        · intro n hn hk' k hkm
          rw [h'] at hk'
          simp only [Pc.clear.injEq, reduceCtorEq, false_or, or_false] at hk'
          subst hk'
          exact (X.missing n (by rw [← hk, hn]) (.inl hpc) k hkm).cons
      | clear r hpc h' =>
        refine ⟨by simp [h'], by simp [h'], ?_, ?_⟩
        · intro n hn k hk'
          rw [h'] at hk'
          simp only [Pc.done.injEq, reduceCtorEq, false_or] at hk'
          subst hk'
          have := X.found n (by rw [← hk, hn]) k (.inr (.inl hpc))
          exact ⟨this.1, this.2.cons⟩
        · intro n hn hk' k hkm
          rw [h'] at hk'
          simp only [Pc.done.injEq, reduceCtorEq, false_or] at hk'
          subst hk'
          exact (X.missing n (by rw [← hk, hn]) (.inr (.inl hpc)) k hkm).cons

/-- A creation that finds no free entry, and a deletion that does not find the name, are right at one time while they run. -/
theorem missing_exec {c : Cfg} (hc : c.Ok) {l : List State} {s : State} (h : Exec c Allowed l s) :
    ∀ o x, s.ops o = some x → (x.pc = .release .missing ∨ x.pc = .clear .missing ∨ x.pc = .done .missing) →
      match x.kind with
      | .create _ => Seen l o fun s1 => ∀ k, k < c.max → s1.idx k ≠ none
      | .delete n => Seen l o fun s1 => ∀ k, k < c.max → s1.idx k ≠ some n
      | _ => True := by
  induction h with
  | start => intro o x hx; simp [initial] at hx
  | @next l s s' a hl ha hs ih =>
    have H := inv_exec hc hl
    have mono : ∀ o (x : Op), (match x.kind with
      | .create _ => Seen l o fun s1 => ∀ k, k < c.max → s1.idx k ≠ none
      | .delete n => Seen l o fun s1 => ∀ k, k < c.max → s1.idx k ≠ some n
      | _ => True) → (match x.kind with
      | .create _ => Seen (s :: l) o fun s1 => ∀ k, k < c.max → s1.idx k ≠ none
      | .delete n => Seen (s :: l) o fun s1 => ∀ k, k < c.max → s1.idx k ≠ some n
      | _ => True) := by
      intro o x hx
      cases hk : x.kind <;> simp only [hk] at hx ⊢
      · exact hx.cons
      · exact hx.cons
    intro o x' hx' hmis
    rcases step_op hs hx' with hx | ⟨_, hb⟩ | ⟨x, hx, hxa, hk, hm⟩
    · exact mono o x' (ih o x' hx hmis)
    · simp [hb] at hmis
    · cases hm with
      | start h' => simp [h'] at hmis
      | fail h' => rcases h' with h' | h' | h' <;> simp [h'] at hmis
      | next j hpc hb h' => simp [h'] at hmis
      | last j hpc hb hj h' =>
        have X := H.op o x hx
        rw [h'] at hmis
        have hbuf : locks x.kind = true → ∀ k, k < c.max → x'.buf k = s.idx k := by
          intro hl k hkm
          have D := (X.cs (by simp [Op.inCS, hpc, hl])).2.2
          simp only [DiskOk, hpc] at D
          have := hc.sec hkm
          rw [hb]
          exact reading_buf D.1 k (by omega)
        cases hkd : x'.kind with
        | create n =>
          simp only
          refine ⟨s, List.mem_cons_self, ⟨x, hx, hxa⟩, ?_⟩
          intro k hkm
          simp only [afterRead, hkd] at hmis
          cases hsr : search c x'.buf (· == none) with
          | some m => rw [hsr] at hmis; simp at hmis
          | none =>
            rw [← hbuf (by rw [← hk, hkd]; rfl) k hkm]
            have := search_none hsr hkm
            intro hb; rw [hb] at this; simp at this
        | delete n =>
          simp only
          refine ⟨s, List.mem_cons_self, ⟨x, hx, hxa⟩, ?_⟩
          intro k hkm
          simp only [afterRead, hkd] at hmis
          cases hsr : search c x'.buf (· == some n) with
          | some m => simp [hsr] at hmis
          | none =>
            rw [← hbuf (by rw [← hk, hkd]; rfl) k hkm]
            have := search_none hsr hkm
            simpa using this
        | lookup n => trivial
        | add k n => trivial
        | rem k => trivial
      | work k hpc h' => rcases h' with h' | h' | h' | h' <;> simp [h'] at hmis
      | release r hpc h' =>
        rw [h'] at hmis
        simp only [Pc.clear.injEq, reduceCtorEq, false_or, or_false] at hmis
        subst hmis
        have := ih o x hx (.inl hpc)
        exact mono o x' (by rw [hk]; exact this)
      | clear r hpc h' =>
        rw [h'] at hmis
        simp only [Pc.done.injEq, reduceCtorEq, false_or] at hmis
        subst hmis
        have := ih o x hx (.inr (.inl hpc))
        exact mono o x' (by rw [hk]; exact this)

/-- The log only grows. -/
theorem step_log {c : Cfg} {s s' : State} {a : Act} (h : step c s a = some s') : ∃ m, s'.log = m ++ s.log := by
  have same : s'.log = s.log → ∃ m, s'.log = m ++ s.log := fun h => ⟨[], h⟩
  cases a <;> simp only [step] at h
  case write o ok landed =>
    split at h
    · simp at h
    split at h
    · split at h
      · simp at h
      · split at h
        · simp only [Option.some.injEq] at h
          subst h
          simp only
          split
          · exact ⟨[_], rfl⟩
          · exact ⟨[], rfl⟩
        · simp only [Option.some.injEq] at h
          subst h
          exact same rfl
    · simp at h
  all_goals
    repeat' split at h
    all_goals first
      | (simp at h; done)
      | (simp only [Option.some.injEq] at h; subst h; exact same rfl)

theorem exec_log {c : Cfg} {ok : State → Act → Prop} {l : List State} {s : State} (h : Exec c ok l s) {s1 : State} (h1 : s1 ∈ l) :
    ∃ m, s.log = m ++ s1.log := by
  induction h with
  | start => simp at h1
  | @next l s s' a _ _ hs ih =>
    obtain ⟨m, hm⟩ := step_log hs
    rcases List.mem_cons.mp h1 with rfl | h1
    · exact ⟨m, hm⟩
    · obtain ⟨m', hm'⟩ := ih h1
      exact ⟨m ++ m', by rw [hm, hm', List.append_assoc]⟩

theorem exec_mem {c : Cfg} {ok : State → Act → Prop} {l : List State} {s : State} (h : Exec c ok l s) {s1 : State} (h1 : s1 ∈ l) :
    ∃ l1, Exec c ok l1 s1 := by
  induction h with
  | start => simp at h1
  | @next l s s' a he _ _ ih =>
    rcases List.mem_cons.mp h1 with rfl | h1
    · exact ⟨l, he⟩
    · exact ih h1

/-- A name that was added and not removed since is in its entry. -/
theorem replay_kept {l1 l2 : List (Nat × Change)} {o k n : Nat} (hl : Legal (l1 ++ (o, .added k n) :: l2))
    (hn : ∀ o', (o', .removed k n) ∉ l1) : replay (l1 ++ (o, .added k n) :: l2) k = some n := by
  induction l1 with
  | nil => simp [replay]
  | cons d l1 ih =>
    obtain ⟨o', d⟩ := d
    have hn' : ∀ o', (o', .removed k n) ∉ l1 := fun o' hm => hn o' (List.mem_cons_of_mem _ hm)
    cases d with
    | added k' n' =>
      have h1 : Legal (l1 ++ (o, .added k n) :: l2) := hl.2
      have h2 := ih h1 hn'
      have h3 : replay (l1 ++ (o, .added k n) :: l2) k' = none := hl.1
      have hne : k ≠ k' := by intro heq; subst heq; rw [h2] at h3; simp at h3
      show (if k = k' then some n' else _) = some n
      rw [if_neg hne]
      exact h2
    | removed k' n' =>
      have h2 := ih hl.2 hn'
      have hne : k ≠ k' := by
        intro heq; subst heq
        have h3 : replay (l1 ++ (o, .added k n) :: l2) k = some n' := hl.1
        rw [h2] at h3
        simp only [Option.some.injEq] at h3
        subst h3
        exact hn o' List.mem_cons_self
      show (if k = k' then none else _) = some n
      rw [if_neg hne]
      exact h2

theorem legal_suffix {l1 l2 : List (Nat × Change)} (h : Legal (l1 ++ l2)) : Legal l2 := by
  induction l1 with
  | nil => exact h
  | cons d l1 ih =>
    obtain ⟨o, d⟩ := d
    cases d <;> exact ih h.2

/-- `s'` comes after `s`. -/
def Later (s s' : State) : Prop :=
  (∃ m, s'.log = m ++ s.log) ∧ ∀ o x, s.ops o = some x → ∃ x', s'.ops o = some x' ∧ x'.kind = x.kind

theorem Later.refl (s : State) : Later s s := ⟨⟨[], rfl⟩, fun _ x hx => ⟨x, hx, rfl⟩⟩

theorem Later.trans {s1 s2 s3 : State} (h1 : Later s1 s2) (h2 : Later s2 s3) : Later s1 s3 := by
  obtain ⟨⟨m1, hm1⟩, h1⟩ := h1
  obtain ⟨⟨m2, hm2⟩, h2⟩ := h2
  refine ⟨⟨m2 ++ m1, by rw [hm2, hm1, List.append_assoc]⟩, fun o x hx => ?_⟩
  obtain ⟨x', hx', hk'⟩ := h1 o x hx
  obtain ⟨x2, hx2, hk2⟩ := h2 o x' hx'
  exact ⟨x2, hx2, hk2.trans hk'⟩

theorem step_keeps {c : Cfg} {s s' : State} {a : Act} (h : step c s a = some s') {o : Nat} {x : Op} (hx : s.ops o = some x) :
    s'.ops o ≠ none := by
  have key : ∀ (o' : Nat) (y : Op), s'.ops = (setOp s o' y).ops → s'.ops o ≠ none := by
    intro o' y hops
    rw [hops, setOp_get]
    split <;> simp [hx]
  have same : s'.ops = s.ops → s'.ops o ≠ none := by intro hs; rw [hs, hx]; simp
  cases a <;> simp only [step] at h
  case crash p =>
    simp only [Option.some.injEq] at h
    subst h
    simp [hx]
  all_goals
    repeat' split at h
    all_goals first
      | (simp at h; done)
      | (simp only [Option.some.injEq] at h; subst h; exact same rfl)
      | (simp only [Option.some.injEq] at h; subst h; exact key _ _ rfl)

theorem step_later {c : Cfg} {s s' : State} {a : Act} (h : step c s a = some s') : Later s s' := by
  refine ⟨step_log h, fun o x hx => ?_⟩
  cases hx' : s'.ops o with
  | none => exact absurd hx' (step_keeps h hx)
  | some x' =>
    refine ⟨x', rfl, ?_⟩
    rcases step_op h hx' with h1 | ⟨h1, _⟩ | ⟨y, h1, _, hk, _⟩
    · rw [hx] at h1; simp only [Option.some.injEq] at h1; rw [h1]
    · rw [hx] at h1; simp at h1
    · rw [hx] at h1; simp only [Option.some.injEq] at h1; rw [hk, h1]

theorem exec_later {c : Cfg} {ok : State → Act → Prop} {l : List State} {s : State} (h : Exec c ok l s) {s1 : State} (h1 : s1 ∈ s :: l) :
    Later s1 s := by
  induction h with
  | start => simp only [List.mem_cons, List.not_mem_nil, or_false] at h1; subst h1; exact .refl _
  | @next l s s' a _ _ hs ih =>
    rcases List.mem_cons.mp h1 with rfl | h1
    · exact .refl _
    · exact (ih h1).trans (step_later hs)

theorem exec_total {c : Cfg} {ok : State → Act → Prop} {l : List State} {s : State} (h : Exec c ok l s) {s1 s2 : State}
    (h1 : s1 ∈ s :: l) (h2 : s2 ∈ s :: l) : Later s1 s2 ∨ Later s2 s1 := by
  induction h with
  | start =>
    simp only [List.mem_cons, List.not_mem_nil, or_false] at h1 h2
    subst h1; subst h2; exact .inl (.refl _)
  | @next l s s' a he ha hs ih =>
    have e : Exec c ok (s :: l) s' := .next he ha hs
    rcases List.mem_cons.mp h1 with rfl | h1'
    · exact .inr (exec_later e h2)
    · rcases List.mem_cons.mp h2 with rfl | h2'
      · exact .inl (exec_later e h1)
      · exact ih h1' h2'

/-- `Allowed`, and every release of the index lease reaches the disk. -/
def AllReleased (s : State) (a : Act) : Prop := Allowed s a ∧ ∀ o ok, a = .release o ok → ok = true

/-- The index lease is held by a living host only while a call of it is at work. -/
def Held (s : State) : Prop := ∀ w, s.owner = some w → w.2 ≤ (s.hosts w.1).gen ∧
  (alive s w = false ∨ ∃ o x, s.ops o = some x ∧ x.inCS = true ∧ x.host = w.1 ∧ x.gen = w.2)

theorem held_host {s : State} (H : Held s) (p : Nat) (y : Host) (hg : (s.hosts p).gen ≤ y.gen)
    (hj : y.joined = true → y.gen = (s.hosts p).gen → (s.hosts p).joined = true) : Held (setHost s p y) := by
  intro w hw
  obtain ⟨h1, h2⟩ := H w hw
  by_cases hp : w.1 = p
  · have e : (setHost s p y).hosts w.1 = y := by simp [setHost, hp]
    rw [e]
    rw [hp] at h1
    refine ⟨Nat.le_trans h1 hg, ?_⟩
    rcases h2 with h2 | h2
    · refine .inl ?_
      simp only [alive, e]
      simp only [alive, hp] at h2
      cases hyj : y.joined with
      | false => rfl
      | true =>
        by_cases hyg : y.gen = (s.hosts p).gen
        · rw [hj hyj hyg] at h2
          simpa [hyg] using h2
        · have : y.gen ≠ w.2 := by omega
          simp [this]
    · exact .inr h2
  · have e : (setHost s p y).hosts w.1 = s.hosts w.1 := by simp [setHost, hp]
    refine ⟨by rw [e]; exact h1, ?_⟩
    simp only [alive, e]
    exact h2

theorem held_set {s : State} (H : Held s) {o : Nat} {x x' : Op} (hx : s.ops o = some x)
    (hcs : x.inCS = true → x'.inCS = true ∧ x'.host = x.host ∧ x'.gen = x.gen) : Held (setOp s o x') := by
  intro w hw
  obtain ⟨h1, h2⟩ := H w hw
  refine ⟨h1, ?_⟩
  rcases h2 with h2 | ⟨o1, x1, hx1, hc1, hh, hg⟩
  · exact .inl h2
  · refine .inr ?_
    by_cases ho : o1 = o
    · subst ho
      rw [hx] at hx1
      simp only [Option.some.injEq] at hx1
      subst hx1
      obtain ⟨a, b, d⟩ := hcs hc1
      exact ⟨o1, x', by rw [setOp_get, if_pos rfl], a, b.trans hh, d.trans hg⟩
    · exact ⟨o1, x1, by rw [setOp_get, if_neg ho]; exact hx1, hc1, hh, hg⟩

theorem held_same {s s' : State} (H : Held s) (h1 : s'.owner = s.owner) (h2 : s'.hosts = s.hosts) (h3 : s'.ops = s.ops) : Held s' := by
  intro w hw
  have := H w (h1 ▸ hw)
  simpa only [alive, h2, h3] using this

theorem held_step {c : Cfg} {s s' : State} (I : Inv c s) (H : Held s) {a : Act} (ha : AllReleased s a) (h : step c s a = some s') :
    Held s' := by
  cases a with
  | join p =>
    simp only [step] at h
    split at h
    · simp at h
    · simp only [Option.some.injEq] at h
      subst h
      exact held_host H p _ (Nat.le_succ _) (fun _ hg => absurd hg (by simp))
  | remove p =>
    simp only [step] at h
    split at h
    · simp only [Option.some.injEq] at h
      subst h
      exact held_host H p _ (Nat.le_refl _) (fun hj _ => hj)
    · simp at h
  | kill p =>
    simp only [step] at h
    split at h
    · simp only [Option.some.injEq] at h
      subst h
      exact held_host H p _ (Nat.le_refl _) (fun hj _ => hj)
    · simp at h
  | fail p =>
    simp only [step] at h
    split at h
    · simp only [Option.some.injEq] at h
      subst h
      exact held_host H p _ (Nat.le_refl _) (fun hj _ => hj)
    · simp at h
  | leave p =>
    simp only [step] at h
    split at h
    · simp only [Option.some.injEq] at h
      subst h
      exact held_host H p _ (Nat.le_refl _) (fun hj _ => by simp at hj)
    · simp at h
  | crash p =>
    simp only [step, Option.some.injEq] at h
    subst h
    intro w hw
    obtain ⟨h1, h2⟩ := H w hw
    by_cases hp : w.1 = p
    · refine ⟨by simp [setHost, hp]; rw [← hp]; exact h1, .inl ?_⟩
      simp [alive, setHost, hp]
    · refine ⟨by simp [setHost, hp]; exact h1, ?_⟩
      rcases h2 with h2 | ⟨o1, x1, hx1, hc1, hh, hg⟩
      · exact .inl (by simpa [alive, setHost, hp] using h2)
      · exact .inr ⟨o1, x1, by simp [hx1, hh, hp], hc1, hh, hg⟩
  | begin o p kind =>
    simp only [step] at h
    split at h
    · rename_i hcond
      simp only [Bool.and_eq_true, Option.isNone_iff_eq_none] at hcond
      simp only [Option.some.injEq] at h
      subst h
      have H1 := held_host H p { s.hosts p with busy := true } (Nat.le_refl _) (fun hj _ => hj)
      intro w hw
      obtain ⟨h1, h2⟩ := H1 w hw
      refine ⟨h1, ?_⟩
      rcases h2 with h2 | ⟨o1, x1, hx1, hc1, hh, hg⟩
      · exact .inl h2
      · refine .inr ⟨o1, x1, ?_, hc1, hh, hg⟩
        have hx1' : s.ops o1 = some x1 := hx1
        rw [setOp_get, if_neg]
        · exact hx1
        · intro heq; subst heq; rw [hcond.2] at hx1'; simp at hx1'
    · simp at h
  | acquire o ok =>
    simp only [step] at h
    split at h
    · simp at h
    rename_i x hx
    split at h
    · rename_i hpc
      have hxa : x.active = true := by simp [Op.active, hpc]
      have hncs : x.inCS = true → False := by simp [Op.inCS, hpc]
      split at h
      · simp only [Option.some.injEq] at h
        subst h
        exact held_set H hx (fun hcs => (hncs hcs).elim)
      · rename_i hl
        simp only [Bool.not_eq_true', Bool.not_eq_false] at hl
        have hgot : Held { setOp s o { x with pc := .reading 0, lver := s.lver + 1 } with owner := some (x.host, x.gen), lver := s.lver + 1 } := by
          intro w hw
          simp only [Option.some.injEq] at hw
          subst hw
          refine ⟨Nat.le_of_eq ((I.op o x hx).act hxa).2.1.symm, .inr ⟨o, { x with pc := .reading 0, lver := s.lver + 1 }, ?_, ?_, rfl, rfl⟩⟩
          · exact if_pos rfl
          · simp [Op.inCS, hl]
        split at h
        · simp only [Option.some.injEq] at h
          subst h
          exact held_set H hx (fun hcs => (hncs hcs).elim)
        · split at h
          · simp only [Option.some.injEq] at h
            exact h ▸ hgot
          · split at h
            · simp only [Option.some.injEq] at h
              exact h ▸ hgot
            · simp only [Option.some.injEq] at h
              subst h
              exact held_set H hx (fun hcs => (hncs hcs).elim)
    · simp at h
  | read o ok =>
    simp only [step] at h
    split at h
    · simp at h
    rename_i x hx
    split at h
    · rename_i j hpc
      split at h
      · simp only [Option.some.injEq] at h
        subst h
        refine held_set H hx (fun hcs => ⟨?_, rfl, rfl⟩)
        have hl : locks x.kind = true := by simp only [Op.inCS, Bool.and_eq_true] at hcs; exact hcs.1
        simp [Op.inCS, giveUp, hl]
      · split at h
        · simp only [Option.some.injEq] at h
          subst h
          refine held_set H hx (fun hcs => ⟨?_, rfl, rfl⟩)
          have hl : locks x.kind = true := by simp only [Op.inCS, Bool.and_eq_true] at hcs; exact hcs.1
          simp [Op.inCS, hl]
        · simp only [Option.some.injEq] at h
          subst h
          refine held_set H hx (fun hcs => ⟨?_, rfl, rfl⟩)
          have hl : locks x.kind = true := by simp only [Op.inCS, Bool.and_eq_true] at hcs; exact hcs.1
          simp only [Op.inCS, hl, Bool.true_and, afterRead]
          cases hk : x.kind with
          | create n => simp only; cases search c (fun i => if i / c.per = j then s.idx i else x.buf i) (· == none) <;> rfl
          | delete n => simp only; cases search c (fun i => if i / c.per = j then s.idx i else x.buf i) (· == some n) <;> rfl
          | lookup n => rw [hk] at hl; simp [locks] at hl
          | add k n => rfl
          | rem k => rfl
    · simp at h
  | init o ok v =>
    simp only [step] at h
    split at h
    · simp at h
    rename_i x hx
    split at h
    · split at h
      · rename_i k hpc _
        simp only [Option.some.injEq] at h
        subst h
        refine held_same (held_set H hx (x' := { x with pc := match x.kind with | .create _ => .write k | _ => .release (.ok k) })
          (fun hcs => ⟨?_, rfl, rfl⟩)) rfl rfl rfl
        have hl : locks x.kind = true := by simp only [Op.inCS, Bool.and_eq_true] at hcs; exact hcs.1
        simp only [Op.inCS, hl, Bool.true_and]
        cases x.kind <;> rfl
      · simp only [Option.some.injEq] at h
        subst h
        refine held_same (held_set H hx (x' := { x with pc := .release .error }) (fun hcs => ⟨?_, rfl, rfl⟩)) rfl rfl rfl
        have hl : locks x.kind = true := by simp only [Op.inCS, Bool.and_eq_true] at hcs; exact hcs.1
        simp [Op.inCS, hl]
    · simp at h
  | write o ok landed =>
    simp only [step] at h
    split at h
    · simp at h
    rename_i x hx
    split at h
    · rename_i k hpc
      have hm : Held (setOp s o { x with pc := if ok then (match x.kind with | .create _ => .release (.ok k) | .delete _ => .init k | _ => .clear (.ok k)) else giveUp x }) := by
        refine held_set H hx (fun hcs => ⟨?_, rfl, rfl⟩)
        have hl : locks x.kind = true := by simp only [Op.inCS, Bool.and_eq_true] at hcs; exact hcs.1
        cases ok
        · simp [Op.inCS, giveUp, hl]
        · simp only [Op.inCS, hl, Bool.true_and, if_true]
          cases hk : x.kind <;> first | rfl | (rw [hk] at hl; simp [locks] at hl)
      split at h
      · simp at h
      split at h
      · simp only [Option.some.injEq] at h
        subst h
        exact held_same hm rfl rfl rfl
      · simp only [Option.some.injEq] at h
        subst h
        exact held_same hm rfl rfl rfl
    · simp at h
  | release o ok =>
    have hok := ha.2 o ok rfl
    subst hok
    simp only [step] at h
    split at h
    · simp at h
    rename_i x hx
    split at h
    · rename_i r hpc
      split at h
      · simp only [Option.some.injEq] at h
        subst h
        intro w hw
        simp at hw
      · rename_i hcond
        simp only [Option.some.injEq] at h
        subst h
        refine held_set H hx (fun hcs => ?_)
        have C := (I.op o x hx).cs hcs
        simp [C.1, C.2.1] at hcond
    · simp at h
  | clear o =>
    simp only [step] at h
    split at h
    · simp at h
    rename_i x hx
    split at h
    · rename_i r hpc
      simp only [Option.some.injEq] at h
      subst h
      have H1 := held_host H x.host { s.hosts x.host with busy := false } (Nat.le_refl _) (fun hj _ => hj)
      refine held_set H1 (x := x) hx (fun hcs => ?_)
      simp [Op.inCS, hpc] at hcs
    · simp at h
  | land => exact ha.1.elim

theorem exec_mono {c : Cfg} {ok ok' : State → Act → Prop} (hi : ∀ s a, ok s a → ok' s a) {l : List State} {s : State} (h : Exec c ok l s) :
    Exec c ok' l s := by
  induction h with
  | start => exact .start
  | next _ ha hs ih => exact .next ih (hi _ _ ha) hs

theorem held_exec {c : Cfg} (hc : c.Ok) {l : List State} {s : State} (h : Exec c AllReleased l s) : Held s := by
  induction h with
  | start => intro w hw; simp [initial] at hw
  | next he ha hs ih => exact held_step (inv_exec hc (exec_mono (fun _ _ h => h.1) he)) ih ha hs

end Sanlock.IndexOps
