import Verif.Lemmas.Regs

/-!
# C75: programs registered for host events
-/

namespace Sanlock.Regs

/-- Connection `c` is registered for the events of lockspace `i`. -/
def Registered (s : State) (i c : Nat) : Prop := ∃ p, s.spaces[i]? = some p ∧ some c ∈ p.slots

theorem registered_at {s : State} {i c : Nat} : Registered s i c ↔ ∃ a, At s c i a := by
  constructor
  · rintro ⟨p, h1, h2⟩
    obtain ⟨a, ha⟩ := List.mem_iff_getElem?.mp h2
    exact ⟨a, p, h1, ha⟩
  · rintro ⟨a, p, h1, h2⟩
    exact ⟨p, h1, List.mem_iff_getElem?.mpr ⟨a, h2⟩⟩

theorem run_snoc (l : List Ev) (e : Ev) : run (l ++ [e]) = (step (run l) e).1 := by
  unfold run; rw [List.foldl_append]; rfl

/-! ## One connection through one event -/

theorem get_upd {s : State} {c d : Nat} {x y : Sock} (hx : s.socks[c]? = some x) :
    (upd s c y).socks[d]? = if c = d then some y else s.socks[d]? := by
  show (s.socks.set c y)[d]? = _
  rw [List.getElem?_set]
  split
  · rw [if_pos (List.getElem?_eq_some_iff.mp hx).1]
  · rfl

theorem held_iff {s : State} {c : Nat} : held s c = true ↔ ∃ i, Registered s i c := by
  unfold held Registered
  rw [List.any_eq_true]
  constructor
  · rintro ⟨p, h1, h2⟩
    obtain ⟨i, hi⟩ := List.mem_iff_getElem?.mp h1
    exact ⟨i, p, hi, List.contains_iff_mem.mp h2⟩
  · rintro ⟨i, p, h1, h2⟩
    exact ⟨p, List.mem_iff_getElem?.mpr ⟨i, h1⟩, List.contains_iff_mem.mpr h2⟩

theorem sock_clean {s : State} {i c : Nat} {p : Space} {x : Sock} (h : s.socks[c]? = some x) :
    ∃ u, (clean s i p).socks[c]? = some { x with up := u } ∧ (u = x.up ∨ odd x = true ∧ u = x.up.drop 4) := by
  show ∃ u, (s.socks.mapIdx fun c x => if p.slots.contains (some c) && odd x then { x with up := x.up.drop 4 } else x)[c]? = _ ∧ _
  rw [List.getElem?_mapIdx, h]
  dsimp only [Option.map_some]
  cases hc : p.slots.contains (some c) && odd x with
  | true => exact ⟨x.up.drop 4, by rw [if_pos rfl], .inr ⟨(Bool.and_eq_true _ _ ▸ hc).2, rfl⟩⟩
  | false => exact ⟨x.up, by rw [if_neg Bool.false_ne_true], .inl rfl⟩

theorem socks_attempt {s s' : State} {i c : Nat} {d : Bool} (h : attempt s i c d = some s') : s'.socks = s.socks := by
  obtain ⟨_, p, b, _, _, rfl⟩ := attempt_spec h; rfl

theorem sock_regEvent {s : State} {n m c : Nat} {d1 d2 : Bool} {x : Sock} (h : s.socks[c]? = some x) :
    ∃ u, (regEvent s n m d1 d2).1.socks[c]? = some { x with up := u } := by
  generalize hr : regEvent s n m d1 d2 = r
  have hc := regEvent_case s n m d1 d2
  rw [hr] at hc
  cases hc with
  | bad => exact ⟨_, h⟩
  | unknown => exact ⟨_, h⟩
  | first i s' _ _ ha => exact ⟨x.up, by rw [socks_attempt ha]; exact h⟩
  | none i p => obtain ⟨u, e, _⟩ := sock_clean (i := i) (p := p) h; exact ⟨u, e⟩
  | second i p s' _ _ _ _ _ ha => obtain ⟨u, e, _⟩ := sock_clean (i := i) (p := p) h; exact ⟨u, by rw [socks_attempt ha]; exact e⟩
  | again i p => obtain ⟨u, e, _⟩ := sock_clean (i := i) (p := p) h; exact ⟨u, e⟩

theorem length_regEvent (s : State) (n m : Nat) (d1 d2 : Bool) : (regEvent s n m d1 d2).1.socks.length = s.socks.length := by
  generalize hr : regEvent s n m d1 d2 = r
  have hc := regEvent_case s n m d1 d2
  rw [hr] at hc
  cases hc with
  | bad => rfl
  | unknown => rfl
  | first i s' _ _ ha => rw [socks_attempt ha]
  | none i p => exact length_clean s i p
  | second i p s' _ _ _ _ _ ha => rw [socks_attempt ha]; exact length_clean s i p
  | again i p => exact length_clean s i p

/-- A connection through one event: result and flags stay, what it was sent only grows, by a delivery. -/
theorem sock_step {s : State} {c : Nat} {x : Sock} (h : s.socks[c]? = some x) (e : Ev) :
    ∃ y, (step s e).1.socks[c]? = some y ∧ y.rv = x.rv ∧ (x.op = false → y.op = false) ∧
      (y.sent = x.sent ∨ ∃ i n full p, e = .deliver i n full ∧ s.spaces[i]? = some p ∧ p.live = true ∧ some c ∈ p.slots ∧
        x.op = true ∧ c ∉ full ∧ y.sent = x.sent ++ [n]) ∧
      ((∀ d, e ≠ .get d) → y.got = x.got) := by
  have base : ∃ y, s.socks[c]? = some y ∧ y.rv = x.rv ∧ (x.op = false → y.op = false) ∧
      (y.sent = x.sent ∨ ∃ i n full p, e = .deliver i n full ∧ s.spaces[i]? = some p ∧ p.live = true ∧ some c ∈ p.slots ∧
        x.op = true ∧ c ∉ full ∧ y.sent = x.sent ++ [n]) ∧
      ((∀ d, e ≠ .get d) → y.got = x.got) := ⟨x, h, rfl, fun h => h, .inl rfl, fun _ => rfl⟩
  have one : ∀ (d : Nat) (z z' : Sock), s.socks[d]? = some z → z'.rv = z.rv → (z.op = false → z'.op = false) → z'.sent = z.sent →
      ((∀ d, e ≠ .get d) → z'.got = z.got) → ∃ y, (upd s d z').socks[c]? = some y ∧ y.rv = x.rv ∧ (x.op = false → y.op = false) ∧
      (y.sent = x.sent ∨ ∃ i n full p, e = .deliver i n full ∧ s.spaces[i]? = some p ∧ p.live = true ∧ some c ∈ p.slots ∧
        x.op = true ∧ c ∉ full ∧ y.sent = x.sent ++ [n]) ∧
      ((∀ d, e ≠ .get d) → y.got = x.got) := by
    intro d z z' hz h1 h2 h3 h4
    rw [get_upd hz]
    by_cases e : d = c
    · subst e
      rw [hz] at h; cases h
      exact ⟨z', by rw [if_pos rfl], h1, h2, .inl h3, h4⟩
    · rw [if_neg e]; exact base
  cases e with
  | add n => simp only [step]; split <;> exact base
  | leave i => simp only [step]; split <;> exact base
  | shut i =>
    simp only [step]
    split
    · split <;> exact base
    · exact base
  | reg n fl d1 d2 =>
    simp only [step]
    obtain ⟨u, hu⟩ := sock_regEvent (n := n) (m := s.socks.length) (d1 := d1) (d2 := d2) h
    exact ⟨{ x with up := u }, by
      rw [List.getElem?_append_left (by rw [length_regEvent]; exact (List.getElem?_eq_some_iff.mp h).1)]; exact hu,
      rfl, fun h => h, .inl rfl, fun _ => rfl⟩
  | answer d =>
    simp only [step]
    split
    · next z hz =>
      split
      · exact one d z _ hz rfl (fun h => h) rfl (fun _ => rfl)
      · exact base
    · exact base
  | wait d =>
    simp only [step]
    split
    · next z hz =>
      split
      · refine one d z _ hz ?_ ?_ ?_ ?_
        · unfold wait; dsimp only; repeat' (first | rfl | split)
        · unfold wait; dsimp only; repeat' (first | exact fun h => h | exact fun _ => rfl | split)
        · unfold wait; dsimp only; repeat' (first | rfl | split)
        · unfold wait; dsimp only; repeat' (first | exact fun _ => rfl | split)
      · exact base
    · exact base
  | get d =>
    simp only [step]
    split
    · next z hz =>
      split
      · refine one d z _ hz ?_ ?_ ?_ (fun hh => absurd rfl (hh d))
        · unfold get; repeat' (first | rfl | split)
        · unfold get; repeat' (first | exact fun h => h | split)
        · unfold get; repeat' (first | rfl | split)
      · exact base
    · exact base
  | write d b =>
    simp only [step]
    split
    · next z hz =>
      split
      · exact one d z _ hz rfl (fun h => h) rfl (fun _ => rfl)
      · exact base
    · exact base
  | bye d =>
    simp only [step]
    split
    · next z hz =>
      split
      · unfold bye
        split
        · exact one d z _ hz rfl (fun _ => rfl) rfl (fun _ => rfl)
        · exact one d z _ hz rfl (fun _ => rfl) rfl (fun _ => rfl)
      · exact base
    · exact base
  | endCmd n =>
    simp only [step]
    unfold endEvent
    split
    · exact base
    · split
      · exact base
      · split
        · exact base
        · next i _ _ p _ =>
          obtain ⟨u, e, _⟩ := sock_clean (i := i) (p := p) h
          exact ⟨_, e, rfl, fun h => h, .inl rfl, fun _ => rfl⟩
  | quit d =>
    simp only [step]
    split
    · next z hz => exact one d z _ hz rfl (fun _ => rfl) rfl (fun _ => rfl)
    · exact base
  | deliver i n full =>
    simp only [step]
    split
    · next p hp =>
      split
      · next hl =>
        unfold deliver
        rw [List.getElem?_mapIdx, h]
        dsimp only [Option.map_some]
        cases hc : p.slots.contains (some c) && takes full s.socks c with
        | false => exact ⟨x, by rw [if_neg Bool.false_ne_true], rfl, fun h => h, .inl rfl, fun _ => rfl⟩
        | true =>
          rw [if_pos rfl]
          rw [Bool.and_eq_true] at hc
          obtain ⟨h1, h2⟩ := hc
          unfold takes at h2
          rw [h, Bool.and_eq_true] at h2
          refine ⟨_, rfl, rfl, fun h => h, .inr ⟨i, n, full, p, rfl, hp, hl, List.contains_iff_mem.mp h1, h2.1, ?_, rfl⟩, fun _ => rfl⟩
          intro hm
          have := h2.2
          rw [List.contains_iff_mem.mpr hm] at this
          exact absurd this (by decide)
      · exact base
    · exact base

/-! ## Registering -/

theorem rv_run {c : Nat} (l : List Ev) : ∀ (s : State) (x y : Sock), s.socks[c]? = some x →
    (l.foldl (fun s e => (step s e).1) s).socks[c]? = some y → y.rv = x.rv := by
  induction l with
  | nil => intro s x y h1 h2; rw [show s.socks[c]? = some y from h2] at h1; cases h1; rfl
  | cons e t ih =>
    intro s x y h1 h2
    obtain ⟨z, hz, hr, _⟩ := sock_step h1 e
    exact (ih _ z y hz h2).trans hr

/-- What `sanlock_reg_event` returns is the result of the daemon, whatever happens in between. -/
theorem told (l l' : List Ev) (n fl : Nat) (d1 d2 : Bool) (x : Sock) (r r' : Int)
    (hr : (step (run l) (.reg n fl d1 d2)).2 = some r)
    (hx : (run (l ++ .reg n fl d1 d2 :: l')).socks[(run l).socks.length]? = some x) (hx2 : x.res = some r') : r' = r := by
  have h1 := ((run_inv _).sock _ x hx).told r' hx2
  have h2 : (run (l ++ .reg n fl d1 d2 :: l')) = l'.foldl (fun s e => (step s e).1) (step (run l) (.reg n fl d1 d2)).1 := by
    unfold run; rw [List.foldl_append]; rfl
  rw [h2] at hx
  have h3 : (step (run l) (.reg n fl d1 d2)).1.socks[(run l).socks.length]? =
      some ⟨[], [], true, true, (regEvent (run l) n (run l).socks.length d1 d2).2, fl, none, [], [], false, false⟩ := by
    simp only [step]
    rw [List.getElem?_append_right (by rw [length_regEvent]; exact Nat.le_refl _), length_regEvent, Nat.sub_self]
    rfl
  rw [h1, rv_run l' _ _ x h3 hx]
  exact Option.some.inj hr

example : (run [.add 1, .reg 1 0 true true, .answer 0, .wait 0]).socks[0]?.bind (·.res) = some 0 ∧
    (run [.add 1, .reg 2 0 true true, .answer 0, .wait 0]).socks[0]?.bind (·.res) = some (-2) := by decide +kernel

/-- The program has closed the socket without a word, has written the value 1, or fewer than four bytes. -/
def Left (x : Sock) : Prop :=
  (x.up = [] ∧ x.op = false) ∨ x.up.take 4 = [1, 0, 0, 0] ∨ (0 < x.up.length ∧ x.up.length < 4)

theorem gone_iff (x : Sock) : gone x = true ↔ Left x := by
  unfold gone odd Left
  rcases hu : x.up with _ | ⟨a, _ | ⟨b, _ | ⟨c, _ | ⟨d, t⟩⟩⟩⟩ <;> cases x.op <;> simp <;> omega

theorem nocode {P : Prop} {s : State} {a b : Int} (h : some (s, a).2 = some b) (hn : a ≠ b) : P :=
  absurd (Option.some.inj h) hn

/-- Registering takes a place for the new connection exactly if it returns 0. -/
theorem reg_zero (s : State) (hi : Inv s) (n fl : Nat) (d1 d2 : Bool) :
    (step s (.reg n fl d1 d2)).2 = some 0 ↔ ∃ i, Registered (step s (.reg n fl d1 d2)).1 i s.socks.length := by
  have hno : ∀ (s' : State), Inv s' → s'.socks.length = s.socks.length → ∀ i, ¬ Registered s' i s.socks.length := by
    intro s' hi' hl i hh
    obtain ⟨a, ha⟩ := registered_at.mp hh
    obtain ⟨x, hx, _⟩ := hi'.reg _ _ _ ha
    rw [← hl, List.getElem?_eq_none (Nat.le_refl _)] at hx
    exact nomatch hx
  have hyes : ∀ (t s' : State) (i : Nat) (d : Bool) (k : List Sock), attempt t i s.socks.length d = some s' →
      Registered ⟨s'.spaces, k⟩ i s.socks.length := by
    intro t s' i d k ha
    obtain ⟨_, p, b, hp, hb, rfl⟩ := attempt_spec ha
    refine ⟨{ p with slots := p.slots.set b (some s.socks.length) }, ?_, ?_⟩
    · show (t.spaces.set i _)[i]? = _
      rw [List.getElem?_set, if_pos rfl, if_pos (List.getElem?_eq_some_iff.mp hp).1]
    · exact List.mem_iff_getElem?.mpr ⟨b, by
        show (p.slots.set b _)[b]? = _
        rw [List.getElem?_set, if_pos rfl, if_pos (List.getElem?_eq_some_iff.mp hb).1]⟩
  simp only [step]
  generalize hr : regEvent s n s.socks.length d1 d2 = r
  have hc := regEvent_case s n s.socks.length d1 d2
  rw [hr] at hc
  cases hc with
  | bad => exact ⟨fun h => nocode h (by decide), fun ⟨i, h⟩ => absurd h (hno s hi rfl i)⟩
  | unknown => exact ⟨fun h => nocode h (by decide), fun ⟨i, h⟩ => absurd h (hno s hi rfl i)⟩
  | first i s' _ _ ha => exact ⟨fun _ => ⟨i, hyes s s' i d1 _ ha⟩, fun _ => rfl⟩
  | none i p _ _ hp => exact ⟨fun h => nocode h (by decide), fun ⟨j, h⟩ => absurd h (hno _ (hi.clean hp) (length_clean s i p) j)⟩
  | second i p s' _ _ hp _ _ ha => exact ⟨fun _ => ⟨i, hyes _ s' i d2 _ ha⟩, fun _ => rfl⟩
  | again i p _ _ hp => exact ⟨fun h => nocode h (by decide), fun ⟨j, h⟩ => absurd h (hno _ (hi.clean hp) (length_clean s i p) j)⟩

theorem filter_pos {l : List (Option Nat)} {k : List Sock} : cleaned k l ≠ 0 ↔ ∃ c x, some c ∈ l ∧ k[c]? = some x ∧ Left x := by
  unfold cleaned
  rw [Nat.ne_zero_iff_zero_lt, List.length_pos_iff_exists_mem]
  constructor
  · rintro ⟨o, ho⟩
    obtain ⟨h1, h2⟩ := List.mem_filter.mp ho
    cases o with
    | none => exact absurd h2 Bool.false_ne_true
    | some c =>
      have h2' : (k[c]?).any gone = true := h2
      cases hk : k[c]? with
      | none => rw [hk] at h2'; exact absurd h2' (by decide)
      | some x => rw [hk] at h2'; exact ⟨c, x, h1, hk, (gone_iff x).mp h2'⟩
  · rintro ⟨c, x, h1, h2, h3⟩
    refine ⟨some c, List.mem_filter.mpr ⟨h1, ?_⟩⟩
    show (k[c]?).any gone = true
    rw [h2]; exact (gone_iff x).mpr h3

/-- Registering fails with `-ENOCSI`, `dup` working, exactly if all places are taken by programs that have not left. -/
theorem reg_full (s : State) (hi : Inv s) (n fl : Nat) :
    (step s (.reg n fl true true)).2 = some (-50) ↔
      n ≠ 0 ∧ ∃ i p, look s n = some i ∧ s.spaces[i]? = some p ∧
        ∀ o ∈ p.slots, ∃ c x, o = some c ∧ s.socks[c]? = some x ∧ ¬ Left x := by
  have full : ∀ i p, s.spaces[i]? = some p → (attempt s i s.socks.length true = none ∧ cleaned s.socks p.slots = 0 ↔
      ∀ o ∈ p.slots, ∃ c x, o = some c ∧ s.socks[c]? = some x ∧ ¬ Left x) := by
    intro i p hp
    rw [attempt_none hp]
    constructor
    · rintro ⟨h1, h2⟩ o ho
      cases o with
      | none => exact absurd rfl (h1 none ho)
      | some c =>
        obtain ⟨a, ha⟩ := List.mem_iff_getElem?.mp ho
        obtain ⟨x, hx, _⟩ := hi.reg c i a ⟨p, hp, ha⟩
        exact ⟨c, x, rfl, hx, fun hl => (filter_pos.mpr ⟨c, x, ho, hx, hl⟩) h2⟩
    · intro h
      refine ⟨fun o ho e => ?_, ?_⟩
      · obtain ⟨c, _, e2, _⟩ := h o ho
        rw [e] at e2; exact nomatch e2
      · refine Classical.byContradiction fun hc => ?_
        obtain ⟨c, x, h1, h2, h3⟩ := filter_pos.mp hc
        obtain ⟨c', x', e, e2, e3⟩ := h _ h1
        cases e
        rw [h2] at e2; cases e2
        exact e3 h3
  -- after a clean that has freed a place there is one
  have free : ∀ i p, s.spaces[i]? = some p → cleaned s.socks p.slots ≠ 0 → attempt (clean s i p) i s.socks.length true ≠ none := by
    intro i p hp hc hh
    obtain ⟨c, x, h1, h2, h3⟩ := filter_pos.mp hc
    have hp' : (clean s i p).spaces[i]? = some { p with slots := cleanSlots s.socks p.slots } := by
      show (s.spaces.set i _)[i]? = _
      rw [List.getElem?_set, if_pos rfl, if_pos (List.getElem?_eq_some_iff.mp hp).1]
    have := (attempt_none hp').mp hh none
    refine this ?_ rfl
    refine List.mem_map.mpr ⟨some c, h1, ?_⟩
    show (if goneAt s.socks c then none else some c) = none
    unfold goneAt
    rw [h2]
    exact if_pos ((gone_iff x).mpr h3)
  simp only [step]
  generalize hr : regEvent s n s.socks.length true true = r
  have hc := regEvent_case s n s.socks.length true true
  rw [hr] at hc
  cases hc with
  | bad h => exact ⟨fun h => nocode h (by decide), fun h2 => absurd h h2.1⟩
  | unknown _ hl =>
    refine ⟨fun h => nocode h (by decide), fun h2 => ?_⟩
    obtain ⟨_, i, _, e, _⟩ := h2
    rw [hl] at e; exact nomatch e
  | first i s' _ hl ha =>
    refine ⟨fun h => nocode h (by decide), fun h2 => ?_⟩
    obtain ⟨_, j, p, e, hp, hf⟩ := h2
    rw [hl] at e; cases e
    rw [((full i p hp).mpr hf).1] at ha; exact nomatch ha
  | none i p hn hl hp ha hc => exact ⟨fun _ => ⟨hn, i, p, hl, hp, (full i p hp).mp ⟨ha, hc⟩⟩, fun _ => rfl⟩
  | second i p s' hn hl hp ha hc ha2 =>
    refine ⟨fun h => nocode h (by decide), fun h2 => ?_⟩
    obtain ⟨_, j, q, e, hq, hf⟩ := h2
    rw [hl] at e; cases e
    rw [hp] at hq; cases hq
    exact absurd ((full i p hp).mpr hf).2 hc
  | again i p hn hl hp ha hc ha2 => exact absurd ha2 (free i p hp hc)

/-- Registering is refused with `-EINVAL` exactly for the empty name, and with `-ENOENT` exactly if no lockspace of the name
is there: one that is being left does not count. -/
theorem reg_codes (s : State) (n fl : Nat) (d1 d2 : Bool) :
    ((step s (.reg n fl d1 d2)).2 = some Rv.EINVAL ↔ n = 0) ∧
    ((step s (.reg n fl d1 d2)).2 = some Rv.ENOENT ↔
      n ≠ 0 ∧ ∀ (i : Nat) (p : Space), s.spaces[i]? = some p → p.live = true → p.name ≠ n) := by
  have hno : look s n = none → ∀ (i : Nat) (p : Space), s.spaces[i]? = some p → p.live = true → p.name ≠ n := by
    intro hl i p hp h1 h2
    unfold look at hl
    have := List.findIdx?_eq_none_iff.mp hl p (List.mem_iff_getElem?.mpr ⟨i, hp⟩)
    rw [h1, h2, beq_self_eq_true] at this
    exact absurd this (by decide)
  have hyes : ∀ i, look s n = some i → ¬ (n ≠ 0 ∧ ∀ (i : Nat) (p : Space), s.spaces[i]? = some p → p.live = true → p.name ≠ n) := by
    intro i hl h
    obtain ⟨p, hp, h1, h2⟩ := look_some hl
    exact h.2 i p hp h1 h2
  simp only [step]
  generalize hr : regEvent s n s.socks.length d1 d2 = r
  have hc := regEvent_case s n s.socks.length d1 d2
  rw [hr] at hc
  cases hc with
  | bad h => exact ⟨⟨fun _ => h, fun _ => rfl⟩, ⟨fun h => nocode (s := s) h (by decide), fun h2 => absurd h h2.1⟩⟩
  | unknown h hl => exact ⟨⟨fun h => nocode (s := s) h (by decide), fun h2 => absurd h2 h⟩, ⟨fun _ => ⟨h, hno hl⟩, fun _ => rfl⟩⟩
  | first i s' h hl => exact ⟨⟨fun h => nocode (s := s) h (by decide), fun h2 => absurd h2 h⟩, ⟨fun h => nocode (s := s) h (by decide), fun h2 => absurd h2 (hyes i hl)⟩⟩
  | none i p h hl => exact ⟨⟨fun h => nocode (s := s) h (by decide), fun h2 => absurd h2 h⟩, ⟨fun h => nocode (s := s) h (by decide), fun h2 => absurd h2 (hyes i hl)⟩⟩
  | second i p s' h hl => exact ⟨⟨fun h => nocode (s := s) h (by decide), fun h2 => absurd h2 h⟩, ⟨fun h => nocode (s := s) h (by decide), fun h2 => absurd h2 (hyes i hl)⟩⟩
  | again i p h hl => exact ⟨⟨fun h => nocode (s := s) h (by decide), fun h2 => absurd h2 h⟩, ⟨fun h => nocode (s := s) h (by decide), fun h2 => absurd h2 (hyes i hl)⟩⟩

/-- There are 32 places in every lockspace, and no connection is in two of them. -/
theorem places (l : List Ev) : (∀ (i : Nat) (p : Space), (run l).spaces[i]? = some p → p.slots.length = 32) ∧
    (∀ i j c, Registered (run l) i c → Registered (run l) j c → i = j) ∧
    ∀ (i : Nat) (p : Space) (a b c : Nat), (run l).spaces[i]? = some p → p.slots[a]? = some (some c) → p.slots[b]? = some (some c) → a = b := by
  refine ⟨(run_inv l).len, ?_, ?_⟩
  · intro i j c h1 h2
    obtain ⟨a, ha⟩ := registered_at.mp h1
    obtain ⟨b, hb⟩ := registered_at.mp h2
    exact ((run_inv l).uniq c i j a b ha hb).1
  · intro i p a b c hp h1 h2
    exact ((run_inv l).uniq c i i a b ⟨p, hp, h1⟩ ⟨p, hp, h2⟩).2

-- 32 programs, then a 33rd; one of them exits, then there is a place
example : (step (run (.add 1 :: List.replicate 32 (.reg 1 0 true true))) (.reg 1 0 true true)).2 = some (-50) ∧
    (step (run (.add 1 :: List.replicate 32 (.reg 1 0 true true) ++ [.quit 7])) (.reg 1 0 true true)).2 = some 0 := by decide +kernel

/-! ## Staying registered -/

/-- How one event ends a registration. -/
inductive Ends (s : State) (i c : Nat) (x : Sock) : Ev → Prop
  | shut (p : Space) (hp : s.spaces[i]? = some p) (hl : p.live = false) : Ends s i c x (.shut i)
  | dead (n : Note) (full : List Nat) (h : x.op = false) : Ends s i c x (.deliver i n full)
  | full (n : Note) (full : List Nat) (h : c ∈ full) : Ends s i c x (.deliver i n full)
  | cmd (n : Nat) (hl : look s n = some i) (h : Left x) : Ends s i c x (.endCmd n)
  | reg (n fl : Nat) (d1 d2 : Bool) (hl : look s n = some i) (h : Left x) : Ends s i c x (.reg n fl d1 d2)

theorem reg_set_other {s : State} {i j c : Nat} {q : Space} {k : List Sock} (h : Registered s i c) (hne : j ≠ i) :
    Registered ⟨s.spaces.set j q, k⟩ i c := by
  obtain ⟨p, hp, hm⟩ := h
  exact ⟨p, by show (s.spaces.set j q)[i]? = _; rw [List.getElem?_set, if_neg hne]; exact hp, hm⟩

theorem reg_set_self {s : State} {i c : Nat} {p q : Space} {k : List Sock} (hp : s.spaces[i]? = some p) :
    Registered ⟨s.spaces.set i q, k⟩ i c ↔ some c ∈ q.slots := by
  have : (s.spaces.set i q)[i]? = some q := by rw [List.getElem?_set, if_pos rfl, if_pos (List.getElem?_eq_some_iff.mp hp).1]
  constructor
  · rintro ⟨r, hr, hm⟩
    have hr' : (s.spaces.set i q)[i]? = some r := hr
    rw [this] at hr'; cases hr'; exact hm
  · intro h; exact ⟨q, this, h⟩

theorem mem_map_slot {l : List (Option Nat)} {f : Nat → Bool} {c : Nat} :
    some c ∈ (l.map fun o => o.bind fun c => if f c then none else some c) ↔ some c ∈ l ∧ f c = false := by
  rw [List.mem_iff_getElem?, List.mem_iff_getElem?]
  constructor
  · rintro ⟨a, h⟩
    obtain ⟨h1, h2⟩ := map_slot h
    exact ⟨⟨a, h1⟩, h2⟩
  · rintro ⟨⟨a, h⟩, h2⟩
    exact ⟨a, map_slot_of h h2⟩

theorem goneAt_iff {k : List Sock} {c : Nat} {x : Sock} (h : k[c]? = some x) : goneAt k c = false ↔ ¬ Left x := by
  unfold goneAt
  rw [h, ← gone_iff, Bool.not_eq_true]
  exact Iff.rfl

theorem reg_clean {s : State} {i j c : Nat} {p : Space} {x : Sock} (hp : s.spaces[j]? = some p) (hx : s.socks[c]? = some x)
    (hr : Registered s i c) : Registered (clean s j p) i c ↔ ¬ (j = i ∧ Left x) := by
  by_cases e : j = i
  · subst e
    unfold clean
    rw [reg_set_self hp]
    unfold cleanSlots
    rw [mem_map_slot, goneAt_iff hx]
    obtain ⟨q, hq, hm⟩ := hr
    rw [hp] at hq; cases hq
    exact ⟨fun h h2 => h.2 h2.2, fun h => ⟨hm, fun h2 => h ⟨rfl, h2⟩⟩⟩
  · exact ⟨fun _ h => e h.1, fun _ => reg_set_other hr e⟩

theorem reg_attempt {s s' : State} {i j c m : Nat} {d : Bool} (h : attempt s j m d = some s') (hr : Registered s i c) (k : List Sock) :
    Registered ⟨s'.spaces, k⟩ i c := by
  obtain ⟨_, p, b, hp, hb, rfl⟩ := attempt_spec h
  by_cases e : j = i
  · subst e
    rw [reg_set_self hp]
    obtain ⟨q, hq, hm⟩ := hr
    rw [hp] at hq; cases hq
    obtain ⟨a, ha⟩ := List.mem_iff_getElem?.mp hm
    refine List.mem_iff_getElem?.mpr ⟨a, ?_⟩
    show (p.slots.set b _)[a]? = _
    rw [List.getElem?_set, if_neg (by rintro rfl; rw [hb] at ha; exact nomatch (Option.some.inj ha))]
    exact ha
  · exact reg_set_other hr e

/-- A registration ends only if the lockspace ends, the program has left or had no room for an event. -/
theorem ends {s : State} {i c : Nat} {x : Sock} (e : Ev) (hx : s.socks[c]? = some x) (hr : Registered s i c)
    (hn : ¬ Registered (step s e).1 i c) : Ends s i c x e := by
  have same : ∀ s' : State, s'.spaces = s.spaces → ¬ Registered s' i c → False := by
    intro s' e h
    obtain ⟨p, hp, hm⟩ := hr
    exact h ⟨p, by rw [e]; exact hp, hm⟩
  cases e with
  | add n =>
    simp only [step] at hn
    split at hn
    · obtain ⟨p, hp, hm⟩ := hr
      exact absurd ⟨p, by show (s.spaces ++ [_])[i]? = _; rw [List.getElem?_append_left (List.getElem?_eq_some_iff.mp hp).1]; exact hp, hm⟩ hn
    · exact absurd hr hn
  | leave j =>
    simp only [step] at hn
    split at hn
    · next q hq =>
      by_cases e : j = i
      · subst e
        rw [reg_set_self hq] at hn
        obtain ⟨p, hp, hm⟩ := hr
        rw [hq] at hp; cases hp
        exact absurd hm hn
      · exact absurd (reg_set_other hr e) hn
    · exact absurd hr hn
  | shut j =>
    simp only [step] at hn
    split at hn
    · next q hq =>
      split at hn
      · exact absurd hr hn
      · next hl =>
        by_cases e : j = i
        · subst e; exact .shut q hq (Bool.not_eq_true _ ▸ hl)
        · exact absurd (reg_set_other hr e) hn
    · exact absurd hr hn
  | reg n fl d1 d2 =>
    simp only [step] at hn
    generalize hr' : regEvent s n s.socks.length d1 d2 = r at hn
    have hc := regEvent_case s n s.socks.length d1 d2
    rw [hr'] at hc
    have hcl : ∀ j p, look s n = some j → s.spaces[j]? = some p → ¬ Registered (clean s j p) i c → Ends s i c x (.reg n fl d1 d2) := by
      intro j p hl hp hh
      rw [reg_clean hp hx hr] at hh
      obtain ⟨e, h⟩ := Classical.not_not.mp hh
      subst e
      exact .reg n fl d1 d2 hl h
    cases hc with
    | bad => exact (same _ rfl hn).elim
    | unknown => exact (same _ rfl hn).elim
    | first j s' _ _ ha => exact absurd (reg_attempt ha hr _) hn
    | none j p _ hl hp => exact hcl j p hl hp (fun ⟨q, h1, h2⟩ => hn ⟨q, h1, h2⟩)
    | second j p s' _ hl hp _ _ ha => exact hcl j p hl hp (fun h => hn (reg_attempt ha h _))
    | again j p _ hl hp => exact hcl j p hl hp (fun ⟨q, h1, h2⟩ => hn ⟨q, h1, h2⟩)
  | answer d =>
    simp only [step] at hn
    split at hn
    · split at hn
      · exact (same _ rfl hn).elim
      · exact absurd hr hn
    · exact absurd hr hn
  | wait d =>
    simp only [step] at hn
    split at hn
    · split at hn
      · exact (same _ rfl hn).elim
      · exact absurd hr hn
    · exact absurd hr hn
  | get d =>
    simp only [step] at hn
    split at hn
    · split at hn
      · exact (same _ rfl hn).elim
      · exact absurd hr hn
    · exact absurd hr hn
  | write d b =>
    simp only [step] at hn
    split at hn
    · split at hn
      · exact (same _ rfl hn).elim
      · exact absurd hr hn
    · exact absurd hr hn
  | bye d =>
    simp only [step] at hn
    split at hn
    · split at hn
      · exact (same _ rfl hn).elim
      · exact absurd hr hn
    · exact absurd hr hn
  | endCmd n =>
    simp only [step] at hn
    unfold endEvent at hn
    split at hn
    · exact absurd hr hn
    · split at hn
      · exact absurd hr hn
      · next j hl =>
        split at hn
        · exact absurd hr hn
        · next p hp =>
          dsimp only at hn
          rw [reg_clean hp hx hr] at hn
          obtain ⟨e, h⟩ := Classical.not_not.mp hn
          subst e
          exact .cmd n hl h
  | quit d =>
    simp only [step] at hn
    split at hn
    · exact (same _ rfl hn).elim
    · exact absurd hr hn
  | deliver j n full =>
    simp only [step] at hn
    split at hn
    · next p hp =>
      split at hn
      · by_cases e : j = i
        · subst e
          unfold deliver at hn
          rw [reg_set_self hp, slots_deliver, mem_map_slot] at hn
          obtain ⟨q, hq, hm⟩ := hr
          rw [hp] at hq; cases hq
          cases ho : x.op with
          | false => exact .dead n full ho
          | true =>
            refine .full n full (Classical.byContradiction fun hf => hn ⟨hm, ?_⟩)
            unfold takes
            rw [hx]
            have : full.contains c = false := by
              cases h : full.contains c with
              | false => rfl
              | true => exact absurd (List.contains_iff_mem.mp h) hf
            rw [this]
            show (!(x.op && !false)) = false
            rw [ho]; rfl
        · exact absurd (reg_set_other hr e) hn
      · exact absurd hr hn
    · exact absurd hr hn

/-- A connection becomes registered only by `sanlock_reg_event` of its own, when it is new. -/
theorem begins {s : State} (hi : Inv s) {i c : Nat} (e : Ev) (hn : ¬ Registered s i c) (hr : Registered (step s e).1 i c) :
    c = s.socks.length ∧ ∃ n fl d1 d2, e = .reg n fl d1 d2 ∧ (step s e).2 = some 0 := by
  have back : ∀ s' : State, (∀ c i a, At s' c i a → At s c i a) → Registered s' i c → False := by
    intro s' h hh
    obtain ⟨a, ha⟩ := registered_at.mp hh
    exact hn (registered_at.mpr ⟨a, h c i a ha⟩)
  have same : ∀ s' : State, s'.spaces = s.spaces → Registered s' i c → False := by
    intro s' e ⟨p, hp, hm⟩
    exact hn ⟨p, by rw [← e]; exact hp, hm⟩
  have hcl : ∀ j p, s.spaces[j]? = some p → Registered (clean s j p) i c → False := by
    intro j p hp hh
    exact back _ (fun c i a ha => at_set hp (fun a c h => (map_slot h).1) ha) hh
  have hrep : ∀ (j : Nat) (p : Space) (k : List Sock), s.spaces[j]? = some p →
      Registered ⟨s.spaces.set j { p with slots := List.replicate 32 none }, k⟩ i c → False := by
    intro j p k hp hh
    refine back _ (fun c i a ha => at_set hp (fun a c hs => ?_) ha) hh
    have hs' : (List.replicate 32 (none : Option Nat))[a]? = some (some c) := hs
    rw [List.getElem?_replicate] at hs'
    split at hs'
    · exact nomatch (Option.some.inj hs')
    · exact nomatch hs'
  cases e with
  | add n =>
    exfalso
    simp only [step] at hr
    split at hr
    · obtain ⟨p, hp, hm⟩ := hr
      have hp' : (s.spaces ++ [⟨n, true, List.replicate 32 none⟩])[i]? = some p := hp
      by_cases hl : i < s.spaces.length
      · rw [List.getElem?_append_left hl] at hp'; exact hn ⟨p, hp', hm⟩
      · rw [List.getElem?_append_right (Nat.le_of_not_lt hl)] at hp'
        cases hk : i - s.spaces.length with
        | zero => rw [hk] at hp'; rw [← Option.some.inj hp'] at hm; exact nomatch (List.eq_of_mem_replicate hm)
        | succ k => rw [hk] at hp'; exact nomatch hp'
    · exact hn hr
  | leave j =>
    exfalso
    simp only [step] at hr
    split at hr
    · next p hp => exact back _ (fun c i a ha => at_set (q := { p with live := false }) hp (fun _ _ hh => hh) ha) hr
    · exact hn hr
  | shut j =>
    exfalso
    simp only [step] at hr
    split at hr
    · next p hp =>
      split at hr
      · exact hn hr
      · exact hrep j p _ hp hr
    · exact hn hr
  | reg n fl d1 d2 =>
    have hc0 : c = s.socks.length := by
      refine Classical.byContradiction fun hne => ?_
      obtain ⟨a, ha⟩ := registered_at.mp hr
      simp only [step] at ha
      generalize hr' : regEvent s n s.socks.length d1 d2 = r at ha
      have hc := regEvent_case s n s.socks.length d1 d2
      rw [hr'] at hc
      have att : ∀ (t s' : State) (j : Nat) (d : Bool), attempt t j s.socks.length d = some s' → Registered s' i c → Registered t i c := by
        intro t s' j d ht ⟨q, hq, hm⟩
        obtain ⟨_, p, b, hp, hb, rfl⟩ := attempt_spec ht
        rcases set_get hq with ⟨e1, e2⟩ | ⟨_, e1⟩
        · subst e1; subst e2
          obtain ⟨a, ha⟩ := List.mem_iff_getElem?.mp hm
          rcases set_get ha with ⟨_, e3⟩ | ⟨_, e3⟩
          · exact absurd (Option.some.inj e3) hne
          · exact ⟨p, hp, List.mem_iff_getElem?.mpr ⟨a, e3⟩⟩
        · exact ⟨q, e1, hm⟩
      have reg : Registered r.1 i c := by
        obtain ⟨p, hp, hm⟩ := ha
        exact ⟨p, hp, List.mem_iff_getElem?.mpr ⟨a, hm⟩⟩
      cases hc with
      | bad => exact hn reg
      | unknown => exact hn reg
      | first j s' _ _ h => exact hn (att s s' j d1 h reg)
      | none j p _ _ hp => exact hcl j p hp reg
      | second j p s' _ _ hp _ _ h => exact hcl j p hp (att _ s' j d2 h reg)
      | again j p _ _ hp => exact hcl j p hp reg
    refine ⟨hc0, n, fl, d1, d2, rfl, (reg_zero s hi n fl d1 d2).mpr ⟨i, by rw [← hc0]; exact hr⟩⟩
  | answer d =>
    exfalso
    simp only [step] at hr
    split at hr
    · split at hr
      · exact same _ rfl hr
      · exact hn hr
    · exact hn hr
  | wait d =>
    exfalso
    simp only [step] at hr
    split at hr
    · split at hr
      · exact same _ rfl hr
      · exact hn hr
    · exact hn hr
  | get d =>
    exfalso
    simp only [step] at hr
    split at hr
    · split at hr
      · exact same _ rfl hr
      · exact hn hr
    · exact hn hr
  | write d b =>
    exfalso
    simp only [step] at hr
    split at hr
    · split at hr
      · exact same _ rfl hr
      · exact hn hr
    · exact hn hr
  | bye d =>
    exfalso
    simp only [step] at hr
    split at hr
    · split at hr
      · exact same _ rfl hr
      · exact hn hr
    · exact hn hr
  | endCmd n =>
    exfalso
    simp only [step] at hr
    unfold endEvent at hr
    split at hr
    · exact hn hr
    · split at hr
      · exact hn hr
      · split at hr
        · exact hn hr
        · next j _ _ p hp => exact hcl j p hp hr
  | quit d =>
    exfalso
    simp only [step] at hr
    split at hr
    · exact same _ rfl hr
    · exact hn hr
  | deliver j n full =>
    exfalso
    simp only [step] at hr
    split at hr
    · next p hp =>
      split at hr
      · refine back _ (fun c i a ha => at_set hp (fun a c hh => ?_) ha) hr
        have hh' : (p.slots.map fun o => o.bind fun c => if takes full s.socks c then some c else none)[a]? = some (some c) := hh
        rw [slots_deliver] at hh'
        exact (map_slot hh').1
      · exact hn hr
    · exact hn hr

/-! ## Events -/

/-- An event of a lockspace goes to every program registered that is there and has room, and to no other; the others are
not registered any more. -/
theorem delivers {s : State} {i : Nat} {p : Space} (n : Note) (full : List Nat) (hp : s.spaces[i]? = some p) (hl : p.live = true)
    {c : Nat} {x : Sock} (hx : s.socks[c]? = some x) :
    ∃ y, (step s (.deliver i n full)).1.socks[c]? = some y ∧
      (Registered s i c ∧ x.op = true ∧ c ∉ full → y.sent = x.sent ++ [n]) ∧
      (¬ (Registered s i c ∧ x.op = true ∧ c ∉ full) → y.sent = x.sent) ∧
      (Registered (step s (.deliver i n full)).1 i c ↔ Registered s i c ∧ x.op = true ∧ c ∉ full) := by
  have ht : takes full s.socks c = true ↔ x.op = true ∧ c ∉ full := by
    unfold takes
    rw [hx, Bool.and_eq_true, Bool.not_eq_true']
    constructor
    · rintro ⟨a, b⟩
      exact ⟨a, fun hm => by rw [List.contains_iff_mem.mpr hm] at b; exact absurd b (by decide)⟩
    · rintro ⟨a, b⟩
      refine ⟨a, ?_⟩
      cases h : full.contains c with
      | false => rfl
      | true => exact absurd (List.contains_iff_mem.mp h) b
  have hr : Registered s i c ↔ some c ∈ p.slots := by
    constructor
    · rintro ⟨q, hq, hm⟩; rw [hp] at hq; cases hq; exact hm
    · intro h; exact ⟨p, hp, h⟩
  have hstep : (step s (.deliver i n full)).1 = deliver s i p n full := by
    simp only [step, hp, hl, if_true]
  rw [hstep]
  have hget : (deliver s i p n full).socks[c]? = some (if p.slots.contains (some c) && takes full s.socks c then
       { x with down := x.down ++ msg n, sent := x.sent ++ [n], early := x.early || x.busy } else x) := by
    unfold deliver
    rw [List.getElem?_mapIdx, hx]
    rfl
  refine ⟨_, hget, ?_, ?_, ?_⟩
  · intro h
    rw [if_pos (by rw [Bool.and_eq_true, List.contains_iff_mem]; exact ⟨hr.mp h.1, ht.mpr h.2⟩)]
  · intro h
    rw [if_neg (by rw [Bool.and_eq_true, List.contains_iff_mem]; exact fun h2 => h ⟨hr.mpr h2.1, ht.mp h2.2⟩)]
  · unfold deliver
    rw [reg_set_self hp, slots_deliver, mem_map_slot, hr, ← ht, Bool.not_eq_false']

/-- What a program has got from `sanlock_get_event` is the first part of what was sent to it, if no event was sent before
the answer to its registration. -/
theorem gets_partial (l : List Ev) (c : Nat) (x : Sock) (hx : (run l).socks[c]? = some x) (he : x.early = false) :
    x.got <+: x.sent := ((run_inv l).sock c x hx).pref he

theorem get_next {s : State} {c : Nat} {x : Sock} (h : SockOk x) (he : x.early = false) (ho : x.op = true) (hr : x.res = some 0) :
    (x.got = x.sent ∧ get s c x = (x, if dopen s c x then Rv.EAGAIN else -1)) ∨
    ∃ n t, x.sent = x.got ++ n :: t ∧ (get s c x).2 = 0 ∧ (get s c x).1.got = x.got ++ [n] ∧ (get s c x).1.sent = x.sent ∧
      (get s c x).1.early = false ∧ (get s c x).1.op = true ∧ (get s c x).1.res = some 0 := by
  have hne : x.res ≠ none := by rw [hr]; exact Option.some_ne_none _
  have hb : x.busy = false := by
    cases hb : x.busy with
    | false => rfl
    | true => exact absurd (h.fresh he hb).1 hne
  obtain ⟨p, a, e⟩ := h.flow he ho hb hne
  cases p with
  | nil =>
    refine .inl ⟨by rw [a, List.append_nil], ?_⟩
    unfold get
    rw [e]; rfl
  | cons n t =>
    refine .inr ⟨n, t, a, ?_⟩
    have hl : x.down.length = 20 + (t.flatMap msg).length := by rw [e, List.flatMap_cons, List.length_append, length_msg]
    unfold get
    rw [if_neg (by omega), if_neg (by omega)]
    refine ⟨rfl, ?_, rfl, he, ho, hr⟩
    show x.got ++ [decode (x.down.take 20)] = _
    rw [e, List.flatMap_cons, decode_msg]

theorem run_append (l l' : List Ev) : run (l ++ l') = l'.foldl (fun s e => (step s e).1) (run l) := by
  unfold run; rw [List.foldl_append]

theorem step_get {s : State} {c : Nat} {x : Sock} (hx : s.socks[c]? = some x) (ho : x.op = true) (hr : x.res = some 0) :
    step s (.get c) = (upd s c (get s c x).1, some (get s c x).2) := by
  simp only [step, hx]
  rw [if_pos ⟨ho, hr⟩]

/-- A program that reads gets every event sent to it, in order, and is then told that there is no more: `-EAGAIN` as long
as it is registered, -1 when it is not. -/
theorem drain_partial (l : List Ev) (c : Nat) (x : Sock) (hx : (run l).socks[c]? = some x) (ho : x.op = true)
    (hr : x.res = some 0) (he : x.early = false) :
    ∃ y, (run (l ++ List.replicate (x.sent.length - x.got.length) (.get c))).socks[c]? = some y ∧ y.got = x.sent ∧
      (step (run (l ++ List.replicate (x.sent.length - x.got.length) (.get c))) (.get c)).2 =
        some (if held (run (l ++ List.replicate (x.sent.length - x.got.length) (.get c))) c then Rv.EAGAIN else -1) := by
  generalize hk : x.sent.length - x.got.length = k
  induction k generalizing l x with
  | zero =>
    rw [List.replicate_zero, List.append_nil]
    have ok := (run_inv l).sock c x hx
    have hb : x.busy = false := by
      cases hb : x.busy with
      | false => rfl
      | true => exact absurd (ok.fresh he hb).1 (by rw [hr]; exact Option.some_ne_none _)
    rcases get_next (s := run l) (c := c) ok he ho hr with ⟨a, b⟩ | ⟨n, t, a, _⟩
    · refine ⟨x, hx, a, ?_⟩
      rw [step_get hx ho hr, b]
      unfold dopen
      rw [hb, Bool.false_or]
    · rw [a, List.length_append, List.length_cons] at hk
      omega
  | succ k ih =>
    have ok := (run_inv l).sock c x hx
    rcases get_next (s := run l) (c := c) ok he ho hr with ⟨a, b⟩ | ⟨n, t, a, a0, a1, a2, a3, a4, a5⟩
    · rw [a] at hk; omega
    · have h1 : (run (l ++ [.get c])).socks[c]? = some (get (run l) c x).1 := by
        rw [run_snoc, step_get hx ho hr]
        show (upd (run l) c _).socks[c]? = _
        rw [get_upd hx, if_pos rfl]
      have := ih (l ++ [.get c]) _ h1 a4 a5 a3 (by rw [a1, a2, List.length_append, List.length_singleton]; omega)
      rw [a2, List.append_assoc] at this
      rw [List.replicate_succ]
      exact this

/-- An event used in the examples. -/
def ex : Note := ⟨2, 1, 7, 9, 3, 4⟩

example : ∃ x, (run [.add 1, .reg 1 0 true true, .answer 0, .wait 0, .deliver 0 ex [], .deliver 0 { ex with data := 10 } []]).socks[0]? = some x ∧
    x.op = true ∧ x.res = some 0 ∧ x.early = false ∧ x.sent.length = 2 ∧ x.got = [] := ⟨_, rfl, by decide +kernel⟩

/-- **Violated**: the events a program gets are events that were sent.  An event sent by the resource thread after the
registration but before its answer is taken for the answer; the next `sanlock_get_event` returns an event made of the
rest of it and the answer. -/
theorem early_violated (n : Note) : ∃ x,
    (run [.add 1, .reg 1 0 true true, .deliver 0 n [], .answer 0, .wait 0, .get 0]).socks[0]? = some x ∧
      x.sent = [n] ∧ x.res = some 0 ∧ x.got = [⟨n.sender, n.senderGen, 4364705808, 30, 32, 0⟩] := by
  refine ⟨⟨[], [], true, false, 0, 0, some 0, [n], [⟨n.sender, n.senderGen, 4364705808, 30, 32, 0⟩], true, false⟩, ?_, rfl, rfl, rfl⟩
  have h5 : (run [.add 1, .reg 1 0 true true, .deliver 0 n [], .answer 0, .wait 0]).socks[0]? =
      some ⟨(msg n ++ reply 0 0).drop 8, [], true, false, 0, 0, some 0, [n], [], true, false⟩ := rfl
  have hs : run [.add 1, .reg 1 0 true true, .deliver 0 n [], .answer 0, .wait 0, .get 0] =
      (step (run [.add 1, .reg 1 0 true true, .deliver 0 n [], .answer 0, .wait 0]) (.get 0)).1 := rfl
  rw [hs, step_get h5 rfl rfl]
  show (upd _ 0 _).socks[0]? = _
  rw [get_upd h5, if_pos rfl]
  have hg : get (run [.add 1, .reg 1 0 true true, .deliver 0 n [], .answer 0, .wait 0]) 0
      ⟨(msg n ++ reply 0 0).drop 8, [], true, false, 0, 0, some 0, [n], [], true, false⟩ =
      (⟨((msg n ++ reply 0 0).drop 8).drop 20, [], true, false, 0, 0, some 0, [n], [] ++ [decode (((msg n ++ reply 0 0).drop 8).take 20)], true, false⟩, 0) := by
    unfold get
    rw [if_neg (by rw [List.length_drop, List.length_append, length_msg, length_reply]; decide),
      if_neg (by rw [List.length_drop, List.length_append, length_msg, length_reply]; decide)]
  rw [hg]
  have hd : decode (((msg n ++ reply 0 0).drop 8).take 20) = ⟨n.sender, n.senderGen, 4364705808, 30, 32, 0⟩ := by
    show Note.mk (UInt64.ofNat (n.sender.toNat % 4294967296 + n.sender.toNat / 4294967296 * 4294967296))
      (UInt64.ofNat (n.senderGen.toNat % 4294967296 + n.senderGen.toNat / 4294967296 * 4294967296))
      (UInt64.ofNat (69738512 + 1 * 4294967296)) (UInt64.ofNat (30 + 0 * 4294967296)) (UInt64.ofNat (32 + 0 * 4294967296))
      (UInt64.ofNat (word 0 + 0 * 4294967296)) = _
    rw [join64, join64]
    rfl
  rw [hd]
  rfl

/-- **Violated**: a program is registered until it ends the registration or the lockspace ends.  A program that does not
read for a while loses the event and its registration; its call to end the registration raises `SIGPIPE`. -/
theorem full_violated : ∃ x,
    (run [.add 1, .reg 1 0 true true, .answer 0, .wait 0, .deliver 0 ex [0], .get 0, .bye 0]).socks[0]? = some x ∧
      ¬ Registered (run [.add 1, .reg 1 0 true true, .answer 0, .wait 0, .deliver 0 ex [0]]) 0 0 ∧ x.sent = [] ∧
      (step (run [.add 1, .reg 1 0 true true, .answer 0, .wait 0, .deliver 0 ex [0]]) (.get 0)).2 = some (-1) ∧ x.sig = true := by
  refine ⟨_, rfl, ?_, rfl, rfl, rfl⟩
  rintro ⟨p, hp, hm⟩
  cases hp
  exact absurd hm (by decide)

/-! ## Ending a registration -/

/-- A program that is not registered is sent nothing more. -/
theorem quiet (l l' : List Ev) (c : Nat) (x y : Sock) (hx : (run l).socks[c]? = some x) (hn : ∀ i, ¬ Registered (run l) i c)
    (hy : (run (l ++ l')).socks[c]? = some y) : y.sent = x.sent ∧ ∀ i, ¬ Registered (run (l ++ l')) i c := by
  induction l' generalizing l x with
  | nil => rw [List.append_nil] at hy ⊢; rw [hx] at hy; cases hy; exact ⟨rfl, hn⟩
  | cons e t ih =>
    obtain ⟨z, hz, _, _, hs, _⟩ := sock_step hx e
    have hz' : (run (l ++ [e])).socks[c]? = some z := by rw [run_snoc]; exact hz
    have hn' : ∀ i, ¬ Registered (run (l ++ [e])) i c := by
      intro i hh
      rw [run_snoc] at hh
      have := (begins (run_inv l) e (hn i) hh).1
      rw [this, List.getElem?_eq_none (Nat.le_refl _)] at hx
      exact nomatch hx
    have := ih (l ++ [e]) z hz' hn' (by rw [List.append_assoc]; exact hy)
    rw [List.append_assoc] at this
    refine ⟨this.1.trans ?_, this.2⟩
    rcases hs with h | ⟨i, n, full, p, _, hp, _, hm, _⟩
    · exact h
    · exact absurd ⟨p, hp, hm⟩ (hn i)

/-- `sanlock_end_event` with the name of its lockspace ends the registration, if the program has written nothing else on
the socket. -/
theorem ended_partial (l : List Ev) (n i c : Nat) (x : Sock) (hx : (run l).socks[c]? = some x) (ho : x.op = true)
    (hr : x.res = some 0) (hu : x.up = []) (hreg : Registered (run l) i c) (hl : look (run l) n = some i) (hn : n ≠ 0) :
    (step (run (l ++ [.bye c])) (.endCmd n)).2 = some 0 ∧ ∀ j, ¬ Registered (run (l ++ [.bye c, .endCmd n])) j c := by
  have hd : dopen (run l) c x = true := by
    unfold dopen; rw [held_iff.mpr ⟨i, hreg⟩, Bool.or_true]
  have hb : (step (run l) (.bye c)).1 = upd (run l) c { x with up := x.up ++ [1, 0, 0, 0], op := false } := by
    simp only [step, hx]
    rw [if_pos ⟨ho, hr⟩]
    unfold bye
    rw [if_pos hd]
  obtain ⟨p, hp, hlive, _⟩ := look_some hl
  have hp' : (upd (run l) c { x with up := x.up ++ [1, 0, 0, 0], op := false }).spaces[i]? = some p := hp
  have hx' : (upd (run l) c { x with up := x.up ++ [1, 0, 0, 0], op := false }).socks[c]? =
      some { x with up := x.up ++ [1, 0, 0, 0], op := false } := by rw [get_upd hx, if_pos rfl]
  have hreg' : Registered (upd (run l) c { x with up := x.up ++ [1, 0, 0, 0], op := false }) i c := by
    obtain ⟨q, h1, h2⟩ := hreg; exact ⟨q, h1, h2⟩
  have hl' : look (upd (run l) c { x with up := x.up ++ [1, 0, 0, 0], op := false }) n = some i := hl
  have hend : endEvent (upd (run l) c { x with up := x.up ++ [1, 0, 0, 0], op := false }) n =
      (clean (upd (run l) c { x with up := x.up ++ [1, 0, 0, 0], op := false }) i p, 0) := by
    unfold endEvent
    rw [if_neg hn, hl']
    dsimp only
    rw [hp']
  have e1 : run (l ++ [.bye c]) = upd (run l) c { x with up := x.up ++ [1, 0, 0, 0], op := false } := by rw [run_snoc, hb]
  have e2 : run (l ++ [.bye c, .endCmd n]) = clean (upd (run l) c { x with up := x.up ++ [1, 0, 0, 0], op := false }) i p := by
    rw [show l ++ [Ev.bye c, .endCmd n] = (l ++ [.bye c]) ++ [.endCmd n] by rw [List.append_assoc]; rfl, run_snoc, e1]
    simp only [step]
    rw [hend]
  refine ⟨?_, ?_⟩
  · rw [e1]; simp only [step]; rw [hend]
  · intro j hh
    rw [e2] at hh
    have hj : j = i := by
      refine Classical.byContradiction fun hne => hne ?_
      obtain ⟨a, ha⟩ := registered_at.mp hh
      have ha' := at_set hp' (fun a c h => (map_slot h).1) ha
      obtain ⟨b, hb2⟩ := registered_at.mp hreg'
      have hi' := (run_inv (l ++ [.bye c]))
      rw [e1] at hi'
      exact (hi'.uniq c j i a b ha' hb2).1
    subst hj
    exact (reg_clean hp' hx' hreg').mp hh ⟨rfl, .inr (.inl (by show (x.up ++ [1, 0, 0, 0]).take 4 = _; rw [hu]; rfl))⟩

example : ∃ x, (run [.add 1, .reg 1 0 true true, .answer 0, .wait 0]).socks[0]? = some x ∧ x.op = true ∧ x.res = some 0 ∧
    x.up = [] ∧ look (run [.add 1, .reg 1 0 true true, .answer 0, .wait 0]) 1 = some 0 := ⟨_, rfl, rfl, rfl, rfl, rfl⟩

/-- **Violated**: after `sanlock_end_event` has returned 0 the place is free.  If the program has written another value
before, the daemon reads and ignores that one. -/
theorem ended_violated :
    (step (run [.add 1, .reg 1 0 true true, .answer 0, .wait 0, .write 0 [2, 0, 0, 0], .bye 0]) (.endCmd 1)).2 = some 0 ∧
    Registered (run [.add 1, .reg 1 0 true true, .answer 0, .wait 0, .write 0 [2, 0, 0, 0], .bye 0, .endCmd 1]) 0 0 :=
  ⟨rfl, _, rfl, List.mem_cons_self⟩

/-- The results of `sanlock_end_event` in the daemon. -/
theorem end_codes (s : State) (n : Nat) :
    ((step s (.endCmd n)).2 = some 0 ↔ n ≠ 0 ∧ ∃ (i : Nat) (p : Space), s.spaces[i]? = some p ∧ p.live = true ∧ p.name = n) ∧
    ((step s (.endCmd n)).2 = some Rv.EINVAL ↔ n = 0) := by
  simp only [step]
  unfold endEvent
  by_cases hn : n = 0
  · rw [if_pos hn]
    exact ⟨⟨fun h => nocode (s := s) h (by decide), fun h => absurd hn h.1⟩, ⟨fun _ => hn, fun _ => rfl⟩⟩
  · rw [if_neg hn]
    cases hl : look s n with
    | none =>
      dsimp only
      refine ⟨⟨fun h => nocode (s := s) h (by decide), fun h => ?_⟩, ⟨fun h => nocode (s := s) h (by decide), fun h => absurd h hn⟩⟩
      obtain ⟨_, i, p, hp, h1, h2⟩ := h
      unfold look at hl
      have := List.findIdx?_eq_none_iff.mp hl p (List.mem_iff_getElem?.mpr ⟨i, hp⟩)
      rw [h1, h2, beq_self_eq_true] at this
      exact absurd this (by decide)
    | some i =>
      dsimp only
      obtain ⟨p, hp, h1, h2⟩ := look_some hl
      rw [hp]
      dsimp only
      exact ⟨⟨fun _ => ⟨hn, i, p, hp, h1, h2⟩, fun _ => rfl⟩, ⟨fun h => nocode (s := s) h (by decide), fun h => absurd h hn⟩⟩

/-- At the end of a lockspace nobody is registered for it. -/
theorem shut_all (s : State) (i c : Nat) (p : Space) (hp : s.spaces[i]? = some p) (hl : p.live = false) :
    ¬ Registered (step s (.shut i)).1 i c := by
  simp only [step, hp, hl, Bool.false_eq_true, if_false]
  rw [reg_set_self hp]
  exact fun h => nomatch (List.eq_of_mem_replicate h)

end Sanlock.Regs
