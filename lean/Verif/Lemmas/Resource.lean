import Verif.Resource

/-!
# Invariants of the resource lists
-/

namespace Sanlock.Resource

/-- The token is on the list of a resource. -/
def Phase.on : Phase → Bool
  | .adding | .adopting | .held | .conv _ => true
  | _ => false

structure Inv (s : State) : Prop where
  lt : ∀ r x, s.res r = some x → r < s.nres
  uniq : ∀ r r' x x', s.res r = some x → s.res r' = some x' → x.name = x'.name → r = r'
  mem : ∀ r x t, s.res r = some x → t ∈ x.toks → (s.tok t).res = r ∧ (s.tok t).phase.on = true ∧ (s.tok t).name = x.name
  some' : ∀ t, (s.tok t).phase.on = true → s.res (s.tok t).res ≠ none
  on : ∀ t x, (s.tok t).phase.on = true → s.res (s.tok t).res = some x → t ∈ x.toks
  nodup : ∀ r x, s.res r = some x → x.toks.Nodup
  add : ∀ r x, s.res r = some x → x.loc = .add → x.toks.length = 1
  addp : ∀ r x t, s.res r = some x → t ∈ x.toks → ((s.tok t).phase = .adding ↔ x.loc = .add)
  held : ∀ r x, s.res r = some x → x.loc = .held → x.toks ≠ []
  rem : ∀ r x, s.res r = some x → x.loc = .rem → x.toks = []
  orphan : ∀ r x, s.res r = some x → x.loc = .orphan → x.toks = []
  trel : ∀ r x, s.res r = some x → x.threadRel = true → x.loc = .rem
  relg0 : ∀ t, (s.tok t).phase = .reling → s.res (s.tok t).res ≠ none
  relg : ∀ t x, (s.tok t).phase = .reling → s.res (s.tok t).res = some x →
    x.loc = .rem ∧ x.threadRel = false ∧ s.thread ≠ some (s.tok t).res
  relu : ∀ t t', (s.tok t).phase = .reling → (s.tok t').phase = .reling → (s.tok t).res = (s.tok t').res → t = t'
  thr0 : ∀ r, s.thread = some r → s.res r ≠ none
  thr : ∀ r x, s.thread = some r → s.res r = some x → x.loc = .rem ∧ x.threadRel = false

/-- The part about modes. -/
structure Mode (s : State) : Prop where
  mode : ∀ r x t, s.res r = some x → t ∈ x.toks → (s.tok t).shared = x.shared
  excl : ∀ r x, s.res r = some x → x.shared = false → x.toks.length ≤ 1
  conv : ∀ t b x, (s.tok t).phase = .conv b → s.res (s.tok t).res = some x → x.shared = !b

@[grind =] theorem set_apply {α : Type} (f : Nat → α) (i : Nat) (x : α) (j : Nat) :
    set f i x j = if j = i then x else f j := rfl

theorem find_some {s : State} {loc : Loc} {name r : Nat} (h : find s loc name = some r) :
    ∃ x, s.res r = some x ∧ x.loc = loc ∧ x.name = name := by
  unfold find at h
  have := List.find?_some h
  split at this
  · rename_i x hx
    simp only [Bool.and_eq_true, beq_iff_eq] at this
    exact ⟨x, hx, this.1, this.2⟩
  · simp at this

theorem find_none {s : State} (hi : Inv s) {loc : Loc} {name : Nat} (h : find s loc name = none) :
    ∀ r x, s.res r = some x → ¬ (x.loc = loc ∧ x.name = name) := by
  intro r x hx hc
  unfold find at h
  rw [List.find?_eq_none] at h
  have := h r (List.mem_range.mpr (hi.lt r x hx))
  rw [hx] at this
  simp [hc.1, hc.2] at this

theorem find_eq {s : State} (hi : Inv s) {loc : Loc} {name r : Nat} {x : Res} (h : s.res r = some x)
    (hl : x.loc = loc) (hn : x.name = name) : find s loc name = some r := by
  cases hf : find s loc name with
  | none => exact absurd ⟨hl, hn⟩ (find_none hi hf r x h)
  | some r' =>
    obtain ⟨x', h', _, hn'⟩ := find_some hf
    rw [hi.uniq r r' x x' h h' (by rw [hn, hn'])]

theorem inv_init : Inv init := by
  constructor <;> simp [init, Phase.on]

theorem mode_init : Mode init := by
  constructor <;> simp [init]

attribute [local grind =] Phase.on List.nodup_cons List.mem_cons

theorem erase_nil {l : List Nat} {t : Nat} (hn : l.Nodup) (h : l.erase t = []) : ∀ u ∈ l, u = t := by
  intro u hu
  refine Classical.byContradiction fun hne => ?_
  have : u ∈ l.erase t := hn.mem_erase_iff.mpr ⟨hne, hu⟩
  rw [h] at this; simp at this

theorem loc_cases (l : Loc) : l = .add ∨ l = .held ∨ l = .rem ∨ l = .orphan := by cases l <;> simp

set_option maxHeartbeats 4000000 in
theorem inv_relSection {s : State} {t : Nat} {x : Res} {lver : Bool} (h : Inv s)
    (hp : (s.tok t).phase.on = true) (hx : s.res (s.tok t).res = some x) (hq : x.toks.erase t ≠ [] → (s.tok t).phase ≠ .adding) :
    Inv (relSection s t x lver).1 := by
  have hnd := h.nodup _ _ hx
  have hE : ∀ u, u ∈ x.toks.erase t ↔ u ≠ t ∧ u ∈ x.toks := fun u => hnd.mem_erase_iff
  have hN : (x.toks.erase t).Nodup := hnd.erase t
  have ht := h.on t x hp hx
  have hloc := loc_cases x.loc
  unfold relSection
  dsimp only
  obtain ⟨h1, h2, h3, h4, h5, h6, h7, h8, h9, h10, h11, h12, h13, h14, h15, h16, h17⟩ := h
  split
  · rename_i hnil
    have hnil' := erase_nil hnd hnil
    clear hE hN hnil
    constructor <;> (try dsimp only) <;> grind (splits := 15)
  · constructor <;> (try dsimp only) <;> grind (splits := 15)

/-- The lookups that change something found nothing in the way. -/
theorem lookup_addShared {s : State} {a : Args} {r : Nat} (h : lookup s a = .addShared r) :
    ∃ x, s.res r = some x ∧ x.loc = .held ∧ x.name = a.name ∧ x.shared = true ∧ a.shared = true := by
  unfold lookup at h
  split at h
  · simp at h
  split at h
  · simp at h
  split at h
  · rename_i r' hf
    obtain ⟨x, hx, hl, hn⟩ := find_some hf
    simp only [hx] at h
    split at h
    · rename_i hc
      simp only [Lookup.addShared.injEq] at h
      subst h
      simp only [Bool.and_eq_true] at hc
      exact ⟨x, hx, hl, hn, hc.2, hc.1⟩
    · simp at h
  · unfold lookupOrphan at h
    split at h
    · rename_i r' hf
      obtain ⟨x, hx, hl, hn⟩ := find_some hf
      simp only [hx] at h
      repeat' split at h
      all_goals simp at h
    · split at h <;> simp at h

theorem lookup_adopt {s : State} {a : Args} {r : Nat} (h : lookup s a = .adopt r) :
    ∃ x, s.res r = some x ∧ x.loc = .orphan ∧ x.name = a.name ∧ x.shared = a.shared ∧
      (a.orphan = true ∨ a.orphanOnly = true) := by
  unfold lookup at h
  split at h
  · simp at h
  split at h
  · simp at h
  split at h
  · rename_i r' hf
    obtain ⟨x, hx, hl, hn⟩ := find_some hf
    simp only [hx] at h
    split at h <;> simp at h
  unfold lookupOrphan at h
  split at h
  · rename_i r' hf
    dsimp only at h
    split at h
    · simp at h
    · rename_i ha
      obtain ⟨x, hx, hl, hn⟩ := find_some hf
      simp only [hx] at h
      split at h
      · simp at h
      · rename_i hs
        simp only [Lookup.adopt.injEq] at h
        subst h
        refine ⟨x, hx, hl, hn, by simpa using hs, by cases hh : a.orphan <;> simp_all⟩
  · split at h <;> simp at h

theorem lookup_create {s : State} (hi : Inv s) {a : Args} (h : lookup s a = .create) :
    ∀ r x, s.res r = some x → x.name ≠ a.name := by
  intro r x hx hn
  have hf := fun loc (hl : x.loc = loc) => find_eq hi hx hl hn
  rcases loc_cases x.loc with hl | hl | hl | hl
  all_goals
    have hf := hf _ hl
    unfold lookup lookupOrphan at h
    simp only [hf] at h
    repeat' split at h
    all_goals simp_all

set_option maxHeartbeats 4000000 in
theorem inv_acquire {s : State} {t : Nat} {a : Args} {s' : State} {o : Option Int} (h : Inv s)
    (hs : step s (.acquire t a) = some (s', o)) : Inv s' := by
  simp only [step] at hs
  split at hs
  · simp at hs
  rename_i hph
  split at hs
  · simp only [Option.some.injEq, Prod.mk.injEq] at hs
    rw [← hs.1]; exact h
  · rename_i r hl
    obtain ⟨x, hx, hxl, hxn, -⟩ := lookup_addShared hl
    simp only [hx, Option.some.injEq, Prod.mk.injEq] at hs
    rw [← hs.1]
    obtain ⟨h1, h2, h3, h4, h5, h6, h7, h8, h9, h10, h11, h12, h13, h14, h15, h16, h17⟩ := h
    clear hl hs
    constructor <;> (try dsimp only) <;> grind (splits := 15)
  · rename_i r hl
    obtain ⟨x, hx, hxl, hxn, -⟩ := lookup_adopt hl
    simp only [hx, Option.some.injEq, Prod.mk.injEq] at hs
    rw [← hs.1]
    have htk := h.orphan _ _ hx hxl
    obtain ⟨h1, h2, h3, h4, h5, h6, h7, h8, h9, h10, h11, h12, h13, h14, h15, h16, h17⟩ := h
    clear hl hs
    constructor <;> (try dsimp only) <;> grind (splits := 15)
  · rename_i hl
    have hc := lookup_create h hl
    have hlt := h.lt
    have hnew : s.res s.nres = none := by
      cases hr : s.res s.nres with
      | none => rfl
      | some x => exact absurd (h.lt _ _ hr) (Nat.lt_irrefl _)
    simp only [Option.some.injEq, Prod.mk.injEq] at hs
    rw [← hs.1]
    obtain ⟨h1, h2, h3, h4, h5, h6, h7, h8, h9, h10, h11, h12, h13, h14, h15, h16, h17⟩ := h
    clear hl hs
    constructor <;> (try dsimp only) <;> grind (splits := 15)

set_option maxHeartbeats 4000000 in
theorem inv_step {s s' : State} {a : Act} {o : Option Int} (h : Inv s) (hs : step s a = some (s', o)) : Inv s' := by
  cases a with
  | acquire t a => exact inv_acquire h hs
  | acquired t ok rv lver =>
    simp only [step] at hs
    split at hs
    · simp at hs
    rename_i hph
    split at hs
    · simp at hs
    rename_i x hx
    have hph' : (s.tok t).phase = .adding := Classical.byContradiction hph
    have hon : (s.tok t).phase.on = true := by rw [hph']; rfl
    have ht := h.on t x hon hx
    have hloc := (h.addp _ _ _ hx ht).mp hph'
    have hlen := h.add _ _ hx hloc
    have hall : ∀ u ∈ x.toks, u = t := by
      obtain ⟨v, hv⟩ := List.length_eq_one_iff.mp hlen
      rw [hv] at ht ⊢
      simp_all
    split at hs
    · simp only [Option.some.injEq, Prod.mk.injEq] at hs
      rw [← hs.1]
      clear hs hph
      obtain ⟨h1, h2, h3, h4, h5, h6, h7, h8, h9, h10, h11, h12, h13, h14, h15, h16, h17⟩ := h
      constructor <;> (try dsimp only) <;> grind (splits := 15)
    · simp only [Option.some.injEq, Prod.mk.injEq] at hs
      rw [← hs.1]
      refine inv_relSection h hon hx fun hne => ?_
      have := List.length_erase_of_mem ht
      exact absurd (List.length_eq_zero_iff.mp (by omega)) hne
  | adopted t ok rv =>
    simp only [step] at hs
    split at hs
    · simp at hs
    rename_i hph
    split at hs
    · simp at hs
    rename_i x hx
    have hph' : (s.tok t).phase = .adopting := Classical.byContradiction hph
    have hon : (s.tok t).phase.on = true := by rw [hph']; rfl
    split at hs
    · simp only [Option.some.injEq, Prod.mk.injEq] at hs
      rw [← hs.1]
      clear hs hph
      obtain ⟨h1, h2, h3, h4, h5, h6, h7, h8, h9, h10, h11, h12, h13, h14, h15, h16, h17⟩ := h
      constructor <;> (try dsimp only) <;> grind (splits := 15)
    · simp only [Option.some.injEq, Prod.mk.injEq] at hs
      rw [← hs.1]
      exact inv_relSection h hon hx fun _ => by rw [hph']; simp
  | diesInCmd t =>
    simp only [step] at hs
    split at hs
    · simp at hs
    rename_i hph
    split at hs
    · simp at hs
    rename_i x hx
    have hph' : (s.tok t).phase = .held := Classical.byContradiction hph
    have hon : (s.tok t).phase.on = true := by rw [hph']; rfl
    simp only [Option.some.injEq, Prod.mk.injEq] at hs
    rw [← hs.1]
    exact inv_relSection (lver := x.lver) h hon hx fun _ => by rw [hph']; simp
  | release t =>
    simp only [step] at hs
    split at hs
    · simp at hs
    rename_i hph
    split at hs
    · simp at hs
    rename_i x hx
    have hph' : (s.tok t).phase = .held := Classical.byContradiction hph
    have hon : (s.tok t).phase.on = true := by rw [hph']; rfl
    simp only [Option.some.injEq] at hs
    have := inv_relSection (lver := x.lver) h hon hx fun _ => by rw [hph']; simp
    rw [hs] at this
    exact this
  | released t timeout rv =>
    simp only [step] at hs
    split at hs
    · simp at hs
    rename_i hph
    split at hs
    · simp at hs
    rename_i x hx
    have hph' : (s.tok t).phase = .reling := Classical.byContradiction hph
    obtain ⟨hl, htr, hth⟩ := h.relg t x hph' hx
    have htk := h.rem _ _ hx hl
    split at hs <;>
    · simp only [Option.some.injEq, Prod.mk.injEq] at hs
      rw [← hs.1]
      clear hs hph
      obtain ⟨h1, h2, h3, h4, h5, h6, h7, h8, h9, h10, h11, h12, h13, h14, h15, h16, h17⟩ := h
      constructor <;> (try dsimp only) <;> grind (splits := 15)
  | dies t sd =>
    simp only [step] at hs
    split at hs
    · simp at hs
    rename_i hph
    split at hs
    · simp at hs
    rename_i x hx
    have hph' : (s.tok t).phase = .held := Classical.byContradiction hph
    have hon : (s.tok t).phase.on = true := by rw [hph']; rfl
    have ht := h.on t x hon hx
    have hnd := h.nodup _ _ hx
    have hE : ∀ u, u ∈ x.toks.erase t ↔ u ≠ t ∧ u ∈ x.toks := fun u => hnd.mem_erase_iff
    have hN : (x.toks.erase t).Nodup := hnd.erase t
    have hloc := loc_cases x.loc
    split at hs
    · simp only [Option.some.injEq, Prod.mk.injEq] at hs
      rw [← hs.1]
      clear hs hph
      obtain ⟨h1, h2, h3, h4, h5, h6, h7, h8, h9, h10, h11, h12, h13, h14, h15, h16, h17⟩ := h
      constructor <;> (try dsimp only) <;> grind (splits := 15)
    · rename_i hnil
      have hnil' := erase_nil hnd (Classical.byContradiction hnil)
      clear hE hN hnil
      repeat' split at hs
      all_goals
        simp only [Option.some.injEq, Prod.mk.injEq] at hs
        rw [← hs.1]
        clear hs hph
        obtain ⟨h1, h2, h3, h4, h5, h6, h7, h8, h9, h10, h11, h12, h13, h14, h15, h16, h17⟩ := h
        constructor <;> (try dsimp only) <;> grind (splits := 15)
  | threadTake r =>
    simp only [step] at hs
    repeat' split at hs
    all_goals first
      | (simp at hs; done)
      | skip
    rename_i hc
    simp only [Option.some.injEq, Prod.mk.injEq] at hs
    rw [← hs.1]
    clear hs
    obtain ⟨h1, h2, h3, h4, h5, h6, h7, h8, h9, h10, h11, h12, h13, h14, h15, h16, h17⟩ := h
    constructor <;> (try dsimp only) <;> grind (splits := 15)
  | threadDone timeout =>
    simp only [step] at hs
    split at hs
    · simp at hs
    rename_i r hr
    split at hs
    · simp at hs
    rename_i x hx
    obtain ⟨hl, htr⟩ := h.thr r x hr hx
    have htk := h.rem _ _ hx hl
    split at hs <;>
    · simp only [Option.some.injEq, Prod.mk.injEq] at hs
      rw [← hs.1]
      clear hs
      obtain ⟨h1, h2, h3, h4, h5, h6, h7, h8, h9, h10, h11, h12, h13, h14, h15, h16, h17⟩ := h
      constructor <;> (try dsimp only) <;> grind (splits := 15)
  | releaseOrphan r =>
    simp only [step] at hs
    repeat' split at hs
    all_goals first
      | (simp at hs; done)
      | skip
    simp only [Option.some.injEq, Prod.mk.injEq] at hs
    rw [← hs.1]
    clear hs
    obtain ⟨h1, h2, h3, h4, h5, h6, h7, h8, h9, h10, h11, h12, h13, h14, h15, h16, h17⟩ := h
    constructor <;> (try dsimp only) <;> grind (splits := 15)
  | purge r =>
    simp only [step] at hs
    repeat' split at hs
    all_goals first
      | (simp at hs; done)
      | skip
    simp only [Option.some.injEq, Prod.mk.injEq] at hs
    rw [← hs.1]
    clear hs
    obtain ⟨h1, h2, h3, h4, h5, h6, h7, h8, h9, h10, h11, h12, h13, h14, h15, h16, h17⟩ := h
    constructor <;> (try dsimp only) <;> grind (splits := 15)
  | convert t toSh =>
    simp only [step] at hs
    split at hs
    · simp at hs
    rename_i hph
    have hph' : (s.tok t).phase = .held := Classical.byContradiction hph
    repeat' split at hs
    all_goals first
      | (simp at hs; done)
      | skip
    all_goals
      simp only [Option.some.injEq, Prod.mk.injEq] at hs
      rw [← hs.1]
    all_goals first
      | exact h
      | skip
    clear hs hph
    obtain ⟨h1, h2, h3, h4, h5, h6, h7, h8, h9, h10, h11, h12, h13, h14, h15, h16, h17⟩ := h
    constructor <;> (try dsimp only) <;> grind (splits := 15)
  | converted t ok rv =>
    simp only [step] at hs
    split at hs
    · rename_i toSh hph
      split at hs
      · simp at hs
      rename_i x hx
      have hon : (s.tok t).phase.on = true := by rw [hph]; rfl
      split at hs <;>
      · simp only [Option.some.injEq, Prod.mk.injEq] at hs
        rw [← hs.1]
        clear hs
        obtain ⟨h1, h2, h3, h4, h5, h6, h7, h8, h9, h10, h11, h12, h13, h14, h15, h16, h17⟩ := h
        constructor <;> (try dsimp only) <;> grind (splits := 15)
    · simp at hs

/-- What is assumed in the theorems about modes: a conversion to exclusive does not succeed while another process has
the resource shared.  The code does not ensure this. -/
def Alone (s : State) : Act → Prop
  | .converted t true _ => (s.tok t).phase = .conv false → ∀ x, s.res (s.tok t).res = some x → x.toks = [t]
  | _ => True

theorem len_erase {l : List Nat} {t : Nat} (h : l.length ≤ 1) : (l.erase t).length ≤ 1 := by
  have : (l.erase t).length ≤ l.length := List.length_erase_le
  omega

set_option maxHeartbeats 4000000 in
theorem mode_step {s s' : State} {a : Act} {o : Option Int} (h : Inv s) (hm : Mode s) (ha : Alone s a)
    (hs : step s a = some (s', o)) : Mode s' := by
  have hrel : ∀ t x lver, (s.tok t).phase.on = true → s.res (s.tok t).res = some x → Mode (relSection s t x lver).1 := by
    intro t x lver hp hx
    have hmem : ∀ u, u ∈ x.toks.erase t → u ∈ x.toks := fun u hu => List.mem_of_mem_erase hu
    have hne : t ∉ x.toks.erase t := (h.nodup _ _ hx).not_mem_erase
    have hlen := @len_erase x.toks t
    obtain ⟨m1, m2, m3⟩ := hm
    unfold relSection
    dsimp only
    split <;> constructor <;> (try dsimp only) <;> grind
  obtain ⟨m1, m2, m3⟩ := hm
  have hon' := h.on
  have horp := h.orphan
  have hrem := h.rem
  cases a with
  | acquire t a =>
    simp only [step] at hs
    split at hs
    · simp at hs
    rename_i hph
    have hph' : (s.tok t).phase = .none := Classical.byContradiction hph
    have hno : ∀ r x, s.res r = some x → t ∉ x.toks := by
      intro r x hx ht
      have := (h.mem r x t hx ht).2.1
      rw [hph'] at this; simp [Phase.on] at this
    split at hs
    · simp only [Option.some.injEq, Prod.mk.injEq] at hs
      rw [← hs.1]; exact ⟨m1, m2, m3⟩
    · rename_i r hl
      obtain ⟨x, hx, hxl, hxn, hxs, has⟩ := lookup_addShared hl
      simp only [hx, Option.some.injEq, Prod.mk.injEq] at hs
      rw [← hs.1]
      constructor <;> (try dsimp only) <;> grind
    · rename_i r hl
      obtain ⟨x, hx, hxl, hxn, hxs, -⟩ := lookup_adopt hl
      have htk := h.orphan _ _ hx hxl
      simp only [hx, Option.some.injEq, Prod.mk.injEq] at hs
      rw [← hs.1]
      constructor <;> (try dsimp only) <;> grind
    · simp only [Option.some.injEq, Prod.mk.injEq] at hs
      rw [← hs.1]
      have hsome := h.some'
      have hlt := h.lt
      have hnew : s.res s.nres = none := by
        cases hr : s.res s.nres with
        | none => rfl
        | some x => exact absurd (h.lt _ _ hr) (Nat.lt_irrefl _)
      constructor <;> (try dsimp only) <;> grind
  | acquired t ok rv lver =>
    simp only [step] at hs
    split at hs
    · simp at hs
    rename_i hph
    split at hs
    · simp at hs
    rename_i x hx
    have hph' : (s.tok t).phase = .adding := Classical.byContradiction hph
    have hon : (s.tok t).phase.on = true := by rw [hph']; rfl
    split at hs
    · simp only [Option.some.injEq, Prod.mk.injEq] at hs
      rw [← hs.1]
      constructor <;> (try dsimp only) <;> grind
    · simp only [Option.some.injEq, Prod.mk.injEq] at hs
      rw [← hs.1]
      exact hrel t x lver hon hx
  | adopted t ok rv =>
    simp only [step] at hs
    split at hs
    · simp at hs
    rename_i hph
    split at hs
    · simp at hs
    rename_i x hx
    have hph' : (s.tok t).phase = .adopting := Classical.byContradiction hph
    have hon : (s.tok t).phase.on = true := by rw [hph']; rfl
    split at hs
    · simp only [Option.some.injEq, Prod.mk.injEq] at hs
      rw [← hs.1]
      constructor <;> (try dsimp only) <;> grind
    · simp only [Option.some.injEq, Prod.mk.injEq] at hs
      rw [← hs.1]
      exact hrel t x x.lver hon hx
  | diesInCmd t =>
    simp only [step] at hs
    split at hs
    · simp at hs
    rename_i hph
    split at hs
    · simp at hs
    rename_i x hx
    have hph' : (s.tok t).phase = .held := Classical.byContradiction hph
    have hon : (s.tok t).phase.on = true := by rw [hph']; rfl
    simp only [Option.some.injEq, Prod.mk.injEq] at hs
    rw [← hs.1]
    exact hrel t x x.lver hon hx
  | release t =>
    simp only [step] at hs
    split at hs
    · simp at hs
    rename_i hph
    split at hs
    · simp at hs
    rename_i x hx
    have hph' : (s.tok t).phase = .held := Classical.byContradiction hph
    have hon : (s.tok t).phase.on = true := by rw [hph']; rfl
    simp only [Option.some.injEq] at hs
    have := hrel t x x.lver hon hx
    rw [hs] at this
    exact this
  | dies t sd =>
    simp only [step] at hs
    split at hs
    · simp at hs
    rename_i hph
    split at hs
    · simp at hs
    rename_i x hx
    have hmem : ∀ u, u ∈ x.toks.erase t → u ∈ x.toks := fun u hu => List.mem_of_mem_erase hu
    have hlen := @len_erase x.toks t
    repeat' split at hs
    all_goals
      simp only [Option.some.injEq, Prod.mk.injEq] at hs
      rw [← hs.1]
      constructor <;> (try dsimp only) <;> grind
  | convert t toSh =>
    simp only [step] at hs
    repeat' split at hs
    all_goals first
      | (simp at hs; done)
      | skip
    all_goals
      simp only [Option.some.injEq, Prod.mk.injEq] at hs
      rw [← hs.1]
      constructor <;> (try dsimp only) <;> grind
  | converted t ok rv =>
    simp only [step] at hs
    split at hs
    · rename_i toSh hph
      split at hs
      · simp at hs
      rename_i x hx
      have hon : (s.tok t).phase.on = true := by rw [hph]; rfl
      have ht := h.on t x hon hx
      cases ok with
      | true =>
        simp only [if_true, Option.some.injEq, Prod.mk.injEq] at hs
        rw [← hs.1]
        cases toSh with
        | false =>
          have hone := ha hph x hx
          have hmm := h.mem
          constructor <;> (try dsimp only)
          · intro r y u hy hu
            by_cases hr : r = (s.tok t).res
            · subst hr
              simp only [set_apply, if_true, Option.some.injEq] at hy
              subst hy
              rw [hone] at hu
              simp at hu
              subst hu
              simp [set_apply]
            · simp only [set_apply, if_neg hr] at hy
              have : u ≠ t := by
                intro hh; subst hh
                exact hr (hmm _ _ _ hy hu).1.symm
              simp only [set_apply, if_neg this]
              exact m1 _ _ _ hy hu
          · grind
          · have hon' := h.on
            grind
        | true =>
          have hxs : x.shared = false := m3 t true x hph hx
          have hlen := m2 _ _ hx hxs
          have hall : ∀ u ∈ x.toks, u = t := by
            intro u hu
            have h1 : x.toks.length = 1 := by
              have := List.length_pos_of_mem ht
              omega
            obtain ⟨v, hv⟩ := List.length_eq_one_iff.mp h1
            rw [hv] at ht hu
            simp_all
          have hmm := h.mem
          have hon' := h.on
          constructor <;> (try dsimp only) <;> grind
      | false =>
        simp only [if_neg, Bool.false_eq_true, if_false, Option.some.injEq, Prod.mk.injEq] at hs
        rw [← hs.1]
        constructor <;> (try dsimp only) <;> grind
    · simp at hs
  | released t timeout rv | threadTake r | threadDone timeout | releaseOrphan r | purge r =>
    simp only [step] at hs
    repeat' split at hs
    all_goals first
      | (simp at hs; done)
      | skip
    all_goals
      simp only [Option.some.injEq, Prod.mk.injEq] at hs
      rw [← hs.1]
      constructor <;> (try dsimp only) <;> grind

/-- States reachable by any sequence of actions. -/
inductive Reach : State → Prop
  | init : Reach init
  | step {s s' : State} {a : Act} {o : Option Int} : Reach s → step s a = some (s', o) → Reach s'

theorem inv_reach {s : State} (h : Reach s) : Inv s := by
  induction h with
  | init => exact inv_init
  | step _ hs ih => exact inv_step ih hs

/-- States reachable when no conversion to exclusive succeeds while another process shares the resource. -/
inductive ReachA : State → Prop
  | init : ReachA init
  | step {s s' : State} {a : Act} {o : Option Int} : ReachA s → Alone s a → step s a = some (s', o) → ReachA s'

theorem ReachA.reach {s : State} (h : ReachA s) : Reach s := by
  induction h with
  | init => exact .init
  | step _ _ hs ih => exact .step ih hs

theorem mode_reach {s : State} (h : ReachA s) : Mode s := by
  induction h with
  | init => exact mode_init
  | step h' ha hs ih => exact mode_step (inv_reach h'.reach) ih ha hs

theorem reach_run {s s' : State} {as : List Act} (h : Reach s) (hr : run s as = some s') : Reach s' := by
  induction as generalizing s with
  | nil => simp only [run, Option.some.injEq] at hr; subst hr; exact h
  | cons a rest ih =>
    simp only [run] at hr
    cases hs : step s a with
    | none => simp [hs] at hr
    | some r =>
      simp only [hs, Option.bind_some] at hr
      exact ih (.step (o := r.2) h hs) hr

end Sanlock.Resource
