import Verif.Aio

/-!
# Invariant of the buffers
-/

namespace Sanlock.Aio

/-- The kernel does not answer `io_getevents` with an error while the I/O is waited for. -/
def Env.quiet (e : Env) : Prop := Ev.err ∉ e.evs

/-- Conditions under which the buffers are handled correctly. With `strict`, also that none is lost. -/
def Sound (strict : Bool) (s : State) : Op → Prop
  | .series _ es => ∀ e ∈ es, e.quiet
  | .leaseInit es => (∀ e ∈ es, e.quiet) ∧ (strict = true → (leaseInit es s).2 ≠ .fail)
  | .ballot _ w1 r1 w2 r2 =>
    (∀ es ∈ w1, ∀ e ∈ es, e.quiet) ∧ (∀ e ∈ r1, e.quiet) ∧ (∀ es ∈ w2, ∀ e ∈ es, e.quiet) ∧ (∀ e ∈ r2, e.quiet)
  | .rindex e rest =>
    e.quiet ∧ (aio (touch (alloc s).1 (alloc s).2) (alloc s).2 true e).2 ≠ .timeout ∧ ∀ es ∈ rest, ∀ e ∈ es, e.quiet
  | .lvbRead e => e.quiet ∧ (lvbRead e s).2 ≠ .timeout
  | .lvbWrite e => e.quiet ∧ (lvbWrite e s).2 ≠ .timeout
  | .lvbUse => True
  | .lvbFree => True
  | .renew evs r _ w =>
    r.quiet ∧ w.quiet ∧ (strict = true → s.last = .timeout → s.to ≠ none ∧ s.iobuf ≠ none ∧ (renewReap evs s).2 ≠ .fail) ∧
      (strict = true → s.last ≠ .timeout → s.to = none ∨ s.iobuf = none)
  | .close es => strict = true → ∀ i, (closeLoop es s).used i = false

/-- The buffers `H` are held by the functions running. -/
structure Inv (strict : Bool) (H : List Nat) (s : State) : Prop where
  bad : s.bad = false
  fly : ∀ i b, s.fly i = some b → s.sbuf i = some b ∧ s.used i = true ∧ b < s.next ∧ s.freed b = 0 ∧ i < s.n
  used : ∀ i, s.used i = true → s.fly i ≠ none
  inj : ∀ i j b, s.fly i = some b → s.fly j = some b → i = j
  held : ∀ b, b ∈ H → b < s.next ∧ s.freed b = 0 ∧ s.iobuf ≠ some b ∧ s.lvb ≠ some b ∧ ∀ i, s.fly i ≠ some b
  nodup : H.Nodup
  lvb : ∀ b, s.lvb = some b → b < s.next ∧ s.freed b = 0 ∧ s.iobuf ≠ some b ∧ ∀ i, s.fly i ≠ some b
  iobuf : ∀ b, s.iobuf = some b → b < s.next ∧ s.freed b = 0
  iofly : ∀ b i, s.iobuf = some b → s.fly i = some b → s.last = .timeout ∧ s.to = some i
  freed : ∀ b, s.freed b ≤ 1
  fresh : ∀ b, s.next ≤ b → s.freed b = 0
  acc : strict = true → ∀ b, b < s.next → s.freed b = 0 → (∀ i, s.fly i ≠ some b) → s.iobuf ≠ some b → s.lvb ≠ some b → b ∈ H

/-- While a function other than the reap runs, the renewal buffer is not in flight. -/
def Calm (s : State) : Prop := ∀ b i, s.iobuf = some b → s.fly i ≠ some b

theorem inFlight_false {s : State} {b} (h : ∀ i, s.fly i ≠ some b) : inFlight s b = false := by
  unfold inFlight
  rw [List.any_eq_false]
  intro i _
  simpa using h i

theorem alloc_next (s : State) : (alloc s).2 = s.next := rfl

theorem Inv.alloc {st H s} (h : Inv st H s) : Inv st (s.next :: H) (alloc s).1 := by
  have hn : s.next ∉ H := fun hm => by have := (h.held _ hm).1; omega
  obtain ⟨h1, h2, h3, h4, h5, h6, h7, h8, h9, h10, h11, h12⟩ := h
  unfold Aio.alloc
  constructor <;> (try dsimp only) <;> grind (splits := 15)

theorem Inv.touch {st H s b} (h : Inv st H s) (hb : s.freed b = 0) (hf : ∀ i, s.fly i ≠ some b) : Inv st H (touch s b) := by
  have hi := inFlight_false hf
  obtain ⟨h1, h2, h3, h4, h5, h6, h7, h8, h9, h10, h11, h12⟩ := h
  unfold Aio.touch
  constructor <;> (try dsimp only) <;> grind (splits := 15)

theorem Inv.touchHeld {st H s b} (h : Inv st H s) (hb : b ∈ H) : Inv st H (Aio.touch s b) :=
  h.touch (h.held _ hb).2.1 (h.held _ hb).2.2.2.2

theorem Inv.free {st H s b} (h : Inv st (b :: H) s) : Inv st H (free1 s b) := by
  have hi := inFlight_false (h.held b (by simp)).2.2.2.2
  obtain ⟨h1, h2, h3, h4, h5, h6, h7, h8, h9, h10, h11, h12⟩ := h
  unfold free1
  constructor <;> (try dsimp only) <;> grind (splits := 15)

/-- An event of a slot with buffer `b` is collected: `b` is the caller's again. -/
theorem Inv.collect {st H s i b} (h : Inv st H s) (hf : s.fly i = some b) (hc : s.iobuf ≠ some b) :
    Inv st (b :: H) (collect s i) := by
  have ha : ∀ c, c ≠ b → (∀ j, set s.fly i none j ≠ some c) → ∀ j, s.fly j ≠ some c := by
    intro c hc h j hj
    by_cases hji : j = i
    · subst hji
      rw [hf] at hj
      exact hc (Option.some.inj hj).symm
    · exact h j (by simp [set, hji, hj])
  obtain ⟨h1, h2, h3, h4, h5, h6, h7, h8, h9, h10, h11, h12⟩ := h
  unfold Aio.collect
  constructor <;> (try dsimp only) <;> grind (splits := 15)

/-- The event of the renewal read is collected. -/
theorem Inv.collectIobuf {st H s i b} (h : Inv st H s) (hf : s.fly i = some b) (hc : s.iobuf = some b) :
    Inv st H (Aio.collect s i) := by
  have ha : ∀ c, c ≠ b → (∀ j, set s.fly i none j ≠ some c) → ∀ j, s.fly j ≠ some c := by
    intro c hc h j hj
    by_cases hji : j = i
    · subst hji
      rw [hf] at hj
      exact hc (Option.some.inj hj).symm
    · exact h j (by simp [set, hji, hj])
  obtain ⟨h1, h2, h3, h4, h5, h6, h7, h8, h9, h10, h11, h12⟩ := h
  unfold Aio.collect
  constructor <;> (try dsimp only) <;> grind (splits := 15)

theorem Inv.drop {st H s i b} (h : Inv st (b :: H) s) (hb : s.sbuf i = some b) (hf : s.fly i = none) : Inv st H (drop s i) := by
  have hh := h.free
  have hx : Aio.drop s i = { free1 s b with sbuf := set s.sbuf i none } := by simp [Aio.drop, Aio.free, hb]
  rw [hx]
  have hf' : (free1 s b).fly i = none := hf
  have hs' : (free1 s b).sbuf = s.sbuf := rfl
  rw [← hs']
  obtain ⟨h1, h2, h3, h4, h5, h6, h7, h8, h9, h10, h11, h12⟩ := hh
  constructor <;> (try dsimp only) <;> grind (splits := 15)

theorem Inv.dropCollect {st H s i} (h : Inv st H s) (hf : s.fly i ≠ none) (hc : ∀ b, s.fly i = some b → s.iobuf ≠ some b) :
    Inv st H (Aio.drop (Aio.collect s i) i) := by
  obtain ⟨b, hb⟩ := Option.ne_none_iff_exists'.mp hf
  refine Inv.drop (h.collect hb (hc b hb)) ?_ ?_
  · exact (h.fly i b hb).1
  · simp [Aio.collect, set]

/-- What the kernel calls leave alone; slots only stop being in flight. -/
structure Frame (s s1 : State) : Prop where
  n : s1.n = s.n
  next : s1.next = s.next
  iobuf : s1.iobuf = s.iobuf
  to : s1.to = s.to
  last : s1.last = s.last
  lvb : s1.lvb = s.lvb
  closed : s1.closed = s.closed
  fly : ∀ i b, s1.fly i = some b → s.fly i = some b

theorem Frame.refl (s : State) : Frame s s := ⟨rfl, rfl, rfl, rfl, rfl, rfl, rfl, fun _ _ h => h⟩

theorem Frame.trans {s s1 s2 : State} (h : Frame s s1) (h' : Frame s1 s2) : Frame s s2 :=
  ⟨h'.n.trans h.n, h'.next.trans h.next, h'.iobuf.trans h.iobuf, h'.to.trans h.to, h'.last.trans h.last, h'.lvb.trans h.lvb,
   h'.closed.trans h.closed, fun i b hb => h.fly i b (h'.fly i b hb)⟩

theorem Frame.collect (s : State) (i) : Frame s (Aio.collect s i) := by
  refine ⟨rfl, rfl, rfl, rfl, rfl, rfl, rfl, ?_⟩
  intro j b hb
  simp only [Aio.collect, set] at hb
  split at hb
  · cases hb
  · exact hb

theorem Frame.drop (s : State) (i) : Frame s (Aio.drop s i) := by
  unfold Aio.drop Aio.free
  cases s.sbuf i <;> exact ⟨rfl, rfl, rfl, rfl, rfl, rfl, rfl, fun _ _ h => h⟩

theorem drop_fly (s : State) (i) : (Aio.drop s i).fly = s.fly := by
  unfold Aio.drop Aio.free
  cases s.sbuf i <;> rfl

theorem wait_spec {st H} {k b : Nat} (es : List Ev) (s : State) (h : Inv st H s) (hk : s.fly k = some b)
    (ho : ∀ i c, i ≠ k → s.fly i = some c → s.iobuf ≠ some c) :
    ∃ s1, Inv st H s1 ∧ s1.fly k = some b ∧ Frame s s1 ∧
      (wait k es s = (s1, .timeout) ∨ (wait k es s = (s1, .fail) ∧ Ev.err ∈ es) ∨
        ∃ ok : Bool, wait k es s = (collect s1 k, if ok then .ok else .fail)) := by
  induction es generalizing s with
  | nil => exact ⟨s, h, hk, Frame.refl s, Or.inl rfl⟩
  | cons e es ih =>
    cases e with
    | intr =>
      obtain ⟨s1, h1, h2, h3, h4⟩ := ih s h hk ho
      refine ⟨s1, h1, h2, h3, ?_⟩
      simp only [wait, List.mem_cons]
      rcases h4 with h4 | ⟨h4, h5⟩ | h4
      · exact Or.inl h4
      · exact Or.inr (Or.inl ⟨h4, Or.inr h5⟩)
      · exact Or.inr (Or.inr h4)
    | err => exact ⟨s, h, hk, Frame.refl s, Or.inr (Or.inl ⟨rfl, by simp⟩)⟩
    | timeout => exact ⟨s, h, hk, Frame.refl s, Or.inl rfl⟩
    | event i ok =>
      by_cases hi : s.fly i = none
      · obtain ⟨s1, h1, h2, h3, h4⟩ := ih s h hk ho
        refine ⟨s1, h1, h2, h3, ?_⟩
        simp only [wait, hi, if_true, List.mem_cons]
        rcases h4 with h4 | ⟨h4, h5⟩ | h4
        · exact Or.inl h4
        · exact Or.inr (Or.inl ⟨h4, Or.inr h5⟩)
        · exact Or.inr (Or.inr h4)
      · by_cases hik : i = k
        · subst hik
          refine ⟨s, h, hk, Frame.refl s, Or.inr (Or.inr ⟨ok, ?_⟩)⟩
          simp [wait, hi]
        · have hf : Frame s (Aio.drop (Aio.collect s i) i) := (Frame.collect s i).trans (Frame.drop _ i)
          obtain ⟨s1, h1, h2, h3, h4⟩ := ih (Aio.drop (Aio.collect s i) i) (h.dropCollect hi (fun c hc => ho i c hik hc)) (by
            rw [drop_fly]; simp [Aio.collect, set, show ¬k = i from fun h => hik h.symm, hk]) (by
            intro j c hj hc
            rw [hf.iobuf]
            exact ho j c hj (hf.fly j c hc))
          refine ⟨s1, h1, h2, hf.trans h3, ?_⟩
          simp only [wait, if_neg hi, if_pos hik, List.mem_cons]
          rcases h4 with h4 | ⟨h4, h5⟩ | h4
          · exact Or.inl h4
          · exact Or.inr (Or.inl ⟨h4, Or.inr h5⟩)
          · exact Or.inr (Or.inr h4)

theorem Calm.frame {s s1 : State} (h : Calm s) (hf : Frame s s1) : Calm s1 := by
  intro b i hb hi
  rw [hf.iobuf] at hb
  exact h b i hb (hf.fly i b hi)

theorem clearOne_spec {st H} (es : List Ev) (s : State) (h : Inv st H s) (hc : Calm s) :
    Inv st H (clearOne es s).1 ∧ Frame s (clearOne es s).1 := by
  induction es generalizing s with
  | nil => exact ⟨h, Frame.refl s⟩
  | cons e es ih =>
    cases e with
    | intr => exact ih s h hc
    | err => exact ⟨h, Frame.refl s⟩
    | timeout => exact ⟨h, Frame.refl s⟩
    | event i ok =>
      by_cases hi : s.fly i = none
      · simp only [clearOne, hi, if_true]
        exact ih s h hc
      · simp only [clearOne, if_neg hi]
        exact ⟨h.dropCollect hi (fun b hb hb' => hc b i hb' hb), (Frame.collect s i).trans (Frame.drop _ i)⟩

theorem firstFree_some {s : State} {k} (h : firstFree s = some k) : k < s.n ∧ s.used k = false := by
  unfold firstFree at h
  have h1 := List.find?_some h
  have h2 := List.mem_of_find?_eq_some h
  exact ⟨by simpa using h2, by simpa using h1⟩

theorem findSlot_spec {st H} (es : List Ev) (s : State) (h : Inv st H s) (hc : Calm s) :
    Inv st H (findSlot s es).1 ∧ Frame s (findSlot s es).1 ∧
      ∀ k, (findSlot s es).2 = some k → k < s.n ∧ (findSlot s es).1.used k = false := by
  unfold findSlot
  split
  · next k hk =>
    refine ⟨h, Frame.refl s, ?_⟩
    intro k' hk'
    cases hk'
    exact firstFree_some hk
  · have hcl := clearOne_spec es s h hc
    split
    · next s1 hs =>
      rw [hs] at hcl
      refine ⟨hcl.1, hcl.2, ?_⟩
      intro k hk
      rw [← hcl.2.n]
      exact firstFree_some hk
    · next s1 hs =>
      rw [hs] at hcl
      refine ⟨hcl.1, hcl.2, ?_⟩
      intro k hk
      cases hk

theorem Inv.submit {st H s k b} (h : Inv st (b :: H) s) (hk : k < s.n) (hu : s.used k = false) :
    Inv st H (submit s k b) := by
  have hi := inFlight_false (h.held b (by simp)).2.2.2.2
  have hkf : s.fly k = none := by
    cases hf : s.fly k with
    | none => rfl
    | some c => have := (h.fly k c hf).2.1; rw [hu] at this; cases this
  have ha : ∀ c, (∀ j, set s.fly k (some b) j ≠ some c) → c ≠ b ∧ ∀ j, s.fly j ≠ some c := by
    intro c h
    refine ⟨fun hcb => h k (by simp [set, hcb]), ?_⟩
    intro j hj
    by_cases hji : j = k
    · subst hji
      rw [hkf] at hj
      cases hj
    · exact h j (by simp [set, hji, hj])
  obtain ⟨h1, h2, h3, h4, h5, h6, h7, h8, h9, h10, h11, h12⟩ := h
  unfold Aio.submit Aio.touch
  constructor
  case acc =>
    intro hst c hc hfr hfl hio hl
    obtain ⟨hcb, hj⟩ := ha c hfl
    exact (List.mem_cons.mp (h12 hst c hc hfr hj hio hl)).resolve_left hcb
  all_goals (try dsimp only) <;> grind (splits := 15)

/-- What `do_linux_aio` leaves alone. -/
structure Frame' (s s1 : State) : Prop where
  n : s1.n = s.n
  next : s1.next = s.next
  iobuf : s1.iobuf = s.iobuf
  last : s1.last = s.last
  lvb : s1.lvb = s.lvb
  closed : s1.closed = s.closed

theorem Frame.toFrame' {s s1 : State} (h : Frame s s1) : Frame' s s1 := ⟨h.n, h.next, h.iobuf, h.last, h.lvb, h.closed⟩

theorem Frame'.trans {s s1 s2 : State} (h : Frame' s s1) (h' : Frame' s1 s2) : Frame' s s2 :=
  ⟨h'.n.trans h.n, h'.next.trans h.next, h'.iobuf.trans h.iobuf, h'.last.trans h.last, h'.lvb.trans h.lvb,
   h'.closed.trans h.closed⟩

theorem Inv.setTo {st H s} (h : Inv st H s) (hc : Calm s) (t : Option Nat) : Inv st H { s with to := t } := by
  unfold Calm at hc
  obtain ⟨h1, h2, h3, h4, h5, h6, h7, h8, h9, h10, h11, h12⟩ := h
  constructor <;> (try dsimp only) <;> grind (splits := 15)

/-- The buffers held after an I/O. -/
def back (b : Nat) (H : List Nat) : Res → List Nat
  | .timeout => H
  | _ => b :: H

/-- `do_linux_aio` on a buffer held: it is held again unless the I/O timed out. -/
theorem aio_spec {st H s b} (rd : Bool) (e : Env) (h : Inv st (b :: H) s) (hc : Calm s) (hq : e.quiet) :
    Inv st (back b H (aio s b rd e).2) (aio s b rd e).1 ∧ Frame' s (aio s b rd e).1 ∧
      Calm (aio s b rd e).1 ∧
      ((aio s b rd e).2 = .timeout → rd = true → ∃ k, (aio s b rd e).1.to = some k ∧ (aio s b rd e).1.fly k = some b) := by
  have hfs := findSlot_spec e.slot s h hc
  unfold aio
  revert hfs
  generalize findSlot s e.slot = r
  obtain ⟨s1, o⟩ := r
  intro hfs
  cases o with
  | none => exact ⟨by simpa [back] using hfs.1, hfs.2.1.toFrame', hc.frame hfs.2.1, by simp⟩
  | some k =>
    obtain ⟨h1, hf1, hk⟩ := hfs
    have hc1 := hc.frame hf1
    obtain ⟨hk1, hk2⟩ := hk k rfl
    dsimp only at h1 hf1 hk2 ⊢
    rw [← hf1.n] at hk1
    by_cases hs : e.submit = false
    · rw [if_pos hs]
      exact ⟨by simpa [back] using h1, hf1.toFrame', hc1, by simp⟩
    · rw [if_neg hs]
      have hb := h1.held b (by simp)
      have h2 := h1.submit hk1 hk2
      have hfl : (submit s1 k b).fly k = some b := by simp [submit, set]
      have hc2 : Calm (submit s1 k b) := by
        intro c i hci hi
        have hci : s1.iobuf = some c := hci
        simp only [submit, set] at hi
        split at hi
        · cases hi; exact hb.2.2.1 hci
        · exact hc1 c i hci hi
      have hfr : Frame' s1 (submit s1 k b) := ⟨rfl, rfl, rfl, rfl, rfl, rfl⟩
      obtain ⟨s3, h3, hk3, hf3, hw⟩ := wait_spec e.evs (submit s1 k b) h2 hfl (fun i c _ hi hci => hc2 c i hci hi)
      have hc3 := hc2.frame hf3
      have hfr3 := hf1.toFrame'.trans (hfr.trans hf3.toFrame')
      have hnb : s3.iobuf ≠ some b := fun hx => hc3 b k hx hk3
      rcases hw with hw | ⟨_, hw⟩ | ⟨ok, hw⟩
      · rw [hw]
        dsimp only [timedOut]
        split
        · refine ⟨by simpa [back] using h3.collect hk3 hnb, hfr3.trans (Frame.collect s3 k).toFrame', hc3.frame (Frame.collect s3 k), by simp⟩
        · next hcn =>
          refine ⟨by simpa [back] using h3.setTo hc3 _, hfr3.trans ⟨rfl, rfl, rfl, rfl, rfl, rfl⟩, hc3, fun _ hr => ⟨k, by simp [hr], hk3⟩⟩
      · exact absurd hw hq
      · rw [hw]
        have hx := h3.collect hk3 hnb
        have hy := hfr3.trans (Frame.collect s3 k).toFrame'
        have hz := hc3.frame (Frame.collect s3 k)
        cases ok with
        | true => exact ⟨by simpa [back] using hx, hy, hz, by simp⟩
        | false => exact ⟨by simpa [back] using hx, hy, hz, by simp⟩

theorem Calm.touch {s : State} (h : Calm s) (b) : Calm (Aio.touch s b) := h

theorem Frame'.refl (s : State) : Frame' s s := ⟨rfl, rfl, rfl, rfl, rfl, rfl⟩

theorem Inv.perm {st H H' s} (h : Inv st H s) (hp : H.Perm H') : Inv st H' s := by
  obtain ⟨h1, h2, h3, h4, h5, h6, h7, h8, h9, h10, h11, h12⟩ := h
  refine ⟨h1, h2, h3, h4, fun b hb => h5 b (hp.mem_iff.mpr hb), hp.nodup_iff.mp h6, h7, h8, h9, h10, h11, ?_⟩
  intro a b c d e f g
  exact hp.mem_iff.mp (h12 a b c d e f g)

theorem seriesLoop_spec {st H b} (rd : Bool) (es : List Env) (s : State) (h : Inv st (b :: H) s) (hc : Calm s)
    (hq : ∀ e ∈ es, e.quiet) :
    Inv st (back b H (seriesLoop b rd es s).2) (seriesLoop b rd es s).1 ∧ Frame' s (seriesLoop b rd es s).1 ∧
      Calm (seriesLoop b rd es s).1 := by
  induction es generalizing s with
  | nil => exact ⟨h, Frame'.refl s, hc⟩
  | cons e es ih =>
    have ha := aio_spec rd e h hc (hq e (by simp))
    simp only [seriesLoop]
    revert ha
    generalize aio s b rd e = r
    obtain ⟨s1, x⟩ := r
    intro ha
    obtain ⟨h1, h2, h3, _⟩ := ha
    cases x with
    | ok =>
      have h1 : Inv st (b :: H) s1 := h1
      obtain ⟨i1, i2, i3⟩ := ih (Aio.touch s1 b) (h1.touchHeld (by simp)) h3 (fun e he => hq e (by simp [he]))
      have ht : Frame' s1 (Aio.touch s1 b) := ⟨rfl, rfl, rfl, rfl, rfl, rfl⟩
      exact ⟨i1, h2.trans (ht.trans i2), i3⟩
    | fail => exact ⟨h1, h2, h3⟩
    | timeout => exact ⟨h1, h2, h3⟩

/-- Frame of functions that allocate. -/
structure FrameA (s s1 : State) : Prop where
  n : s1.n = s.n
  iobuf : s1.iobuf = s.iobuf
  last : s1.last = s.last
  lvb : s1.lvb = s.lvb
  closed : s1.closed = s.closed

theorem Frame'.toA {s s1 : State} (h : Frame' s s1) : FrameA s s1 := ⟨h.n, h.iobuf, h.last, h.lvb, h.closed⟩

theorem FrameA.refl (s : State) : FrameA s s := ⟨rfl, rfl, rfl, rfl, rfl⟩

theorem FrameA.trans {s s1 s2 : State} (h : FrameA s s1) (h' : FrameA s1 s2) : FrameA s s2 :=
  ⟨h'.n.trans h.n, h'.iobuf.trans h.iobuf, h'.last.trans h.last, h'.lvb.trans h.lvb, h'.closed.trans h.closed⟩

theorem FrameA.touch (s : State) (b) : FrameA s (Aio.touch s b) := ⟨rfl, rfl, rfl, rfl, rfl⟩
theorem FrameA.alloc (s : State) : FrameA s (Aio.alloc s).1 := ⟨rfl, rfl, rfl, rfl, rfl⟩
theorem FrameA.free1 (s : State) (b) : FrameA s (Aio.free1 s b) := ⟨rfl, rfl, rfl, rfl, rfl⟩

theorem series_spec {st H} (rd : Bool) (es : List Env) (s : State) (h : Inv st H s) (hc : Calm s)
    (hq : ∀ e ∈ es, e.quiet) :
    Inv st H (series rd es s).1 ∧ FrameA s (series rd es s).1 ∧ Calm (series rd es s).1 := by
  have h0 := h.alloc.touchHeld (b := s.next) (by simp)
  have ha := seriesLoop_spec rd es _ h0 hc hq
  unfold series
  dsimp only [alloc_next]
  revert ha
  generalize seriesLoop s.next rd es (Aio.touch (Aio.alloc s).1 s.next) = r
  obtain ⟨s1, x⟩ := r
  intro ha
  obtain ⟨h1, h2, h3⟩ := ha
  have hf : FrameA s s1 := (FrameA.alloc s).trans ((FrameA.touch _ s.next).trans h2.toA)
  cases x with
  | ok => exact ⟨Inv.free h1, hf.trans (FrameA.free1 _ _), h3⟩
  | fail => exact ⟨Inv.free h1, hf.trans (FrameA.free1 _ _), h3⟩
  | timeout => exact ⟨h1, hf, h3⟩

theorem Inv.forget {H s b} (h : Inv false (b :: H) s) : Inv false H s := by
  obtain ⟨h1, h2, h3, h4, h5, h6, h7, h8, h9, h10, h11, h12⟩ := h
  exact ⟨h1, h2, h3, h4, fun c hc => h5 c (by simp [hc]), (List.nodup_cons.mp h6).2, h7, h8, h9, h10, h11, fun h => by cases h⟩

theorem leaseInit_spec {st H} (es : List Env) (s : State) (h : Inv st H s) (hc : Calm s)
    (hq : ∀ e ∈ es, e.quiet) (hst : st = true → (leaseInit es s).2 ≠ .fail) :
    Inv st H (leaseInit es s).1 ∧ FrameA s (leaseInit es s).1 ∧ Calm (leaseInit es s).1 := by
  have h0 := h.alloc.touchHeld (b := s.next) (by simp)
  have ha := seriesLoop_spec false es _ h0 hc hq
  revert hst
  unfold leaseInit
  dsimp only [alloc_next]
  revert ha
  generalize seriesLoop s.next false es (Aio.touch (Aio.alloc s).1 s.next) = r
  obtain ⟨s1, x⟩ := r
  intro ha
  obtain ⟨h1, h2, h3⟩ := ha
  have hf : FrameA s s1 := (FrameA.alloc s).trans ((FrameA.touch _ s.next).trans h2.toA)
  cases x with
  | ok => intro _; exact ⟨Inv.free h1, hf.trans (FrameA.free1 _ _), h3⟩
  | fail =>
    intro hst
    cases st with
    | true => exact absurd rfl (hst rfl)
    | false => exact ⟨Inv.forget h1, hf, h3⟩
  | timeout => intro _; exact ⟨h1, hf, h3⟩

theorem seriesAll_spec {st H} (rd : Bool) (ess : List (List Env)) (s : State) (h : Inv st H s) (hc : Calm s)
    (hq : ∀ es ∈ ess, ∀ e ∈ es, e.quiet) :
    Inv st H (seriesAll rd ess s) ∧ FrameA s (seriesAll rd ess s) ∧ Calm (seriesAll rd ess s) := by
  induction ess generalizing s with
  | nil => exact ⟨h, FrameA.refl s, hc⟩
  | cons es ess ih =>
    obtain ⟨h1, h2, h3⟩ := series_spec rd es s h hc (hq es (by simp))
    obtain ⟨i1, i2, i3⟩ := ih _ h1 h3 (fun es he => hq es (by simp [he]))
    exact ⟨i1, h2.trans i2, i3⟩

/-- The buffers of a list with holes. -/
def bufs (bs : List (Option Nat)) : List Nat := bs.filterMap id

theorem allocN_spec {st H} (d : Nat) (s : State) (h : Inv st H s) (hc : Calm s) :
    Inv st (bufs (allocN d s).2 ++ H) (allocN d s).1 ∧ FrameA s (allocN d s).1 ∧ Calm (allocN d s).1 := by
  induction d generalizing s H with
  | zero => exact ⟨h, FrameA.refl s, hc⟩
  | succ d ih =>
    obtain ⟨i1, i2, i3⟩ := ih (Aio.alloc s).1 h.alloc hc
    refine ⟨?_, (FrameA.alloc s).trans i2, i3⟩
    refine Inv.perm i1 ?_
    simp [bufs, allocN, alloc_next, List.perm_middle]

theorem freeAll_spec {st H} (bs : List (Option Nat)) (s : State) (h : Inv st (bufs bs ++ H) s) :
    Inv st H (freeAll bs s) ∧ FrameA s (freeAll bs s) := by
  induction bs generalizing s with
  | nil => exact ⟨h, FrameA.refl s⟩
  | cons b bs ih =>
    cases b with
    | none => exact ih s h
    | some b =>
      obtain ⟨i1, i2⟩ := ih (free1 s b) (Inv.free h)
      exact ⟨i1, (FrameA.free1 s b).trans i2⟩

theorem readRound_spec {st H} (bs : List (Option Nat)) (es : List Env) (s : State) (h : Inv st (bufs bs ++ H) s) (hc : Calm s)
    (hq : ∀ e ∈ es, e.quiet) :
    Inv st (bufs (readRound bs es s).2 ++ H) (readRound bs es s).1 ∧ FrameA s (readRound bs es s).1 ∧
      Calm (readRound bs es s).1 := by
  induction bs generalizing s es H with
  | nil => cases es <;> exact ⟨h, FrameA.refl s, hc⟩
  | cons b bs ih =>
    cases es with
    | nil => cases b <;> exact ⟨h, FrameA.refl s, hc⟩
    | cons e es =>
      have hq' : ∀ e ∈ es, e.quiet := fun e he => hq e (by simp [he])
      cases b with
      | none => exact ih es s h hc hq'
      | some b =>
        have h0 : Inv st (b :: (bufs bs ++ H)) s := h
        have ha := aio_spec true e (h0.touchHeld (b := b) (by simp)) hc (hq e (by simp))
        simp only [readRound]
        revert ha
        generalize aio (Aio.touch s b) b true e = r
        obtain ⟨s1, x⟩ := r
        intro ha
        obtain ⟨h1, h2, h3, _⟩ := ha
        have hf : FrameA s s1 := (FrameA.touch s b).trans h2.toA
        cases x with
        | timeout =>
          obtain ⟨i1, i2, i3⟩ := ih es s1 h1 h3 hq'
          exact ⟨i1, hf.trans i2, i3⟩
        | fail =>
          have h1 : Inv st (b :: (bufs bs ++ H)) s1 := h1
          obtain ⟨i1, i2, i3⟩ := ih (H := b :: H) es s1 (h1.perm List.perm_middle.symm) h3 hq'
          exact ⟨i1.perm List.perm_middle, hf.trans i2, i3⟩
        | ok =>
          have h1 : Inv st (b :: (bufs bs ++ H)) s1 := h1
          have h1 := h1.touchHeld (b := b) (by simp)
          obtain ⟨i1, i2, i3⟩ := ih (H := b :: H) es (Aio.touch s1 b) (h1.perm List.perm_middle.symm) h3 hq'
          exact ⟨i1.perm List.perm_middle, hf.trans ((FrameA.touch s1 b).trans i2), i3⟩

theorem ballot_spec {st H} (d w1 r1 w2 r2) (s : State) (h : Inv st H s) (hc : Calm s)
    (hq : Sound st s (.ballot d w1 r1 w2 r2)) :
    Inv st H (ballot d w1 r1 w2 r2 s) ∧ FrameA s (ballot d w1 r1 w2 r2 s) := by
  obtain ⟨q1, q2, q3, q4⟩ := hq
  obtain ⟨a1, a2, a3⟩ := allocN_spec d s h hc
  obtain ⟨b1, b2, b3⟩ := seriesAll_spec false w1 _ a1 a3 q1
  obtain ⟨c1, c2, c3⟩ := readRound_spec _ r1 _ b1 b3 q2
  obtain ⟨d1, d2, d3⟩ := seriesAll_spec false w2 _ c1 c3 q3
  obtain ⟨e1, e2, e3⟩ := readRound_spec _ r2 _ d1 d3 q4
  obtain ⟨f1, f2⟩ := freeAll_spec _ _ e1
  exact ⟨f1, a2.trans (b2.trans (c2.trans (d2.trans (e2.trans f2))))⟩

theorem rindex_spec {st H} (e rest) (s : State) (h : Inv st H s) (hc : Calm s) (hq : Sound st s (.rindex e rest)) :
    Inv st H (rindex e rest s) ∧ FrameA s (rindex e rest s) := by
  obtain ⟨q1, q2, q3⟩ := hq
  have ha := aio_spec true e (h.alloc.touchHeld (b := s.next) (by simp)) hc q1
  unfold rindex
  dsimp only [alloc_next] at q2 ⊢
  revert ha q2
  generalize aio (Aio.touch (Aio.alloc s).1 s.next) s.next true e = r
  obtain ⟨s1, x⟩ := r
  intro q2 ha
  obtain ⟨h1, h2, h3, _⟩ := ha
  have hf : FrameA s s1 := (FrameA.alloc s).trans ((FrameA.touch _ s.next).trans h2.toA)
  cases x with
  | timeout => exact absurd rfl q2
  | fail => exact ⟨Inv.free h1, hf.trans (FrameA.free1 _ _)⟩
  | ok =>
    have h1 : Inv st (s.next :: H) s1 := h1
    obtain ⟨b1, b2, b3⟩ := seriesAll_spec false rest _ (h1.touchHeld (b := s.next) (by simp)) h3 q3
    exact ⟨Inv.free (b1.touchHeld (by simp)), hf.trans ((FrameA.touch _ _).trans (b2.trans ((FrameA.touch _ _).trans (FrameA.free1 _ _))))⟩

/-- The held buffer becomes the lvb. -/
theorem Inv.keepLvb {st H s b} (h : Inv st (b :: H) s) (hl : s.lvb = none) : Inv st H { s with lvb := some b } := by
  obtain ⟨h1, h2, h3, h4, h5, h6, h7, h8, h9, h10, h11, h12⟩ := h
  constructor <;> (try dsimp only) <;> grind (splits := 15)

/-- The lvb becomes a held buffer. -/
theorem Inv.takeLvb {st H s b} (h : Inv st H s) (hl : s.lvb = some b) : Inv st (b :: H) { s with lvb := none } := by
  obtain ⟨h1, h2, h3, h4, h5, h6, h7, h8, h9, h10, h11, h12⟩ := h
  constructor
  case acc =>
    intro hst c hc1 hfr hfl hio hl'
    by_cases hcb : c = b
    · simp [hcb]
    · exact List.mem_cons_of_mem _ (h12 hst c hc1 hfr hfl hio (by rw [hl]; exact fun hx => hcb (Option.some.inj hx).symm))
  all_goals (try dsimp only) <;> grind (splits := 15)

/-- The state with other values in the fields `do_linux_aio` does not look at. -/
def view (s : State) (l o : Option Nat) (r : Res) : State := { s with lvb := l, iobuf := o, last := r }

theorem view_drop (s : State) (i l o r) : Aio.drop (Aio.collect (view s l o r) i) i = view (Aio.drop (Aio.collect s i) i) l o r := by
  simp only [Aio.drop, Aio.collect, Aio.free, view]
  cases s.sbuf i <;> rfl

theorem wait_view (k es) (s : State) (l o r) : wait k es (view s l o r) = (view (wait k es s).1 l o r, (wait k es s).2) := by
  induction es generalizing s with
  | nil => rfl
  | cons e es ih =>
    cases e with
    | intr => exact ih s
    | err => rfl
    | timeout => rfl
    | event i ok =>
      simp only [wait]
      have hv : (view s l o r).fly = s.fly := rfl
      rw [hv]
      split
      · exact ih s
      · split
        · rw [view_drop, ih]
        · rfl

theorem clearOne_view (es) (s : State) (l o r) : clearOne es (view s l o r) = (view (clearOne es s).1 l o r, (clearOne es s).2) := by
  induction es generalizing s with
  | nil => rfl
  | cons e es ih =>
    cases e with
    | intr => exact ih s
    | err => rfl
    | timeout => rfl
    | event i ok =>
      simp only [clearOne]
      have hv : (view s l o r).fly = s.fly := rfl
      rw [hv]
      split
      · exact ih s
      · rw [view_drop]

theorem findSlot_view (es) (s : State) (l o r) : findSlot (view s l o r) es = (view (findSlot s es).1 l o r, (findSlot s es).2) := by
  have hv : firstFree (view s l o r) = firstFree s := rfl
  unfold findSlot
  rw [hv, clearOne_view]
  cases firstFree s with
  | some k => rfl
  | none =>
    dsimp only
    generalize clearOne es s = x
    obtain ⟨s1, b⟩ := x
    cases b <;> rfl

theorem aio_view (s : State) (b rd e l o r) : aio (view s l o r) b rd e = (view (aio s b rd e).1 l o r, (aio s b rd e).2) := by
  unfold aio
  rw [findSlot_view]
  generalize findSlot s e.slot = x
  obtain ⟨s1, y⟩ := x
  cases y with
  | none => rfl
  | some k =>
    dsimp only
    split
    · rfl
    · have hs : submit (view s1 l o r) k b = view (submit s1 k b) l o r := rfl
      rw [hs, wait_view]
      generalize wait k e.evs (submit s1 k b) = z
      obtain ⟨s2, w⟩ := z
      cases w with
      | ok => rfl
      | fail => rfl
      | timeout =>
        dsimp only [timedOut]
        split <;> rfl

theorem lvbRead_spec {st} (e) (s : State) (h : Inv st [] s) (hc : Calm s) (hl : s.lvb = none) (hq : Sound st s (.lvbRead e)) :
    Inv st [] (lvbRead e s).1 := by
  obtain ⟨q1, q2⟩ := hq
  have ha := aio_spec true e h.alloc hc q1
  unfold lvbRead at q2 ⊢
  dsimp only [alloc_next] at q2 ⊢
  have hv : ({ (Aio.alloc s).1 with lvb := some s.next } : State) = view (Aio.alloc s).1 (some s.next) s.iobuf s.last := rfl
  rw [hv, aio_view] at q2 ⊢
  revert ha q2
  generalize aio (Aio.alloc s).1 s.next true e = r
  obtain ⟨s1, x⟩ := r
  intro q2 ha
  obtain ⟨h1, h2, h3, _⟩ := ha
  have h2' : s1.lvb = none := h2.lvb.trans hl
  have hx : view s1 (some s.next) s.iobuf s.last = { s1 with lvb := some s.next } := by
    have a : s1.iobuf = s.iobuf := h2.iobuf
    have b : s1.last = s.last := h2.last
    simp only [view, ← a, ← b]
  cases x with
  | timeout => exact absurd rfl q2
  | fail => dsimp only; rw [hx]; exact Inv.keepLvb h1 h2'
  | ok => dsimp only; rw [hx]; exact Inv.keepLvb h1 h2'

theorem lvbWrite_spec {st} (e) (s : State) (h : Inv st [] s) (hc : Calm s) (hq : Sound st s (.lvbWrite e)) :
    Inv st [] (lvbWrite e s).1 := by
  obtain ⟨q1, q2⟩ := hq
  revert q2
  unfold lvbWrite
  split
  · intro _; exact h
  · next b hb =>
    intro q2
    have ha := aio_spec false e (h.takeLvb hb) hc q1
    have hv : s = view { s with lvb := none } (some b) s.iobuf s.last := by simp only [view, ← hb]
    rw [hv, aio_view] at q2 ⊢
    dsimp only at q2 ⊢
    revert ha q2
    generalize aio { s with lvb := none } b false e = r
    obtain ⟨s1, x⟩ := r
    intro q2 ha
    obtain ⟨h1, h2, h3, _⟩ := ha
    have h2' : s1.lvb = none := h2.lvb
    have hx : view s1 (some b) s.iobuf s.last = { s1 with lvb := some b } := by
      have a : s1.iobuf = s.iobuf := h2.iobuf
      have b : s1.last = s.last := h2.last
      simp only [view, ← a, ← b]
    cases x with
    | timeout => exact absurd rfl q2
    | fail => dsimp only; rw [hx]; exact Inv.keepLvb h1 h2'
    | ok => dsimp only; rw [hx]; exact Inv.keepLvb h1 h2'

theorem lvbUse_spec {st} (s : State) (h : Inv st [] s) : Inv st [] (lvbUse s) := by
  unfold lvbUse
  split
  · exact h
  · next b hb => exact h.touch (h.lvb b hb).2.1 (h.lvb b hb).2.2.2

theorem lvbFree_spec {st} (s : State) (h : Inv st [] s) : Inv st [] (lvbFree s) := by
  unfold lvbFree
  cases hb : s.lvb with
  | none => simpa [Aio.free, ← hb] using h
  | some b => exact (h.takeLvb hb).free

/-- The held buffer becomes the renewal buffer, not in flight. -/
theorem Inv.keepIobuf {st s b} (h : Inv st [b] s) (hl : s.iobuf = none) (r : Res) : Inv st [] { s with iobuf := some b, last := r } := by
  obtain ⟨h1, h2, h3, h4, h5, h6, h7, h8, h9, h10, h11, h12⟩ := h
  constructor <;> (try dsimp only) <;> grind (splits := 15)

/-- The renewal buffer becomes a held buffer. -/
theorem Inv.takeIobuf {st s b} (h : Inv st [] s) (hl : s.iobuf = some b) (hc : Calm s) (r : Res) :
    Inv st [b] { s with iobuf := none, last := r } := by
  unfold Calm at hc
  obtain ⟨h1, h2, h3, h4, h5, h6, h7, h8, h9, h10, h11, h12⟩ := h
  constructor
  case acc =>
    intro hst c hc1 hfr hfl hio hl'
    by_cases hcb : c = b
    · simp [hcb]
    · exact List.mem_cons_of_mem _ (h12 hst c hc1 hfr hfl (by rw [hl]; exact fun hx => hcb (Option.some.inj hx).symm) hl')
  all_goals (try dsimp only) <;> grind (splits := 15)

/-- The renewal buffer stays in flight. -/
theorem Inv.flyIobuf {st s b k} (h : Inv st [] s) (hl : s.iobuf = none) (hf : s.fly k = some b) (ht : s.to = some k) :
    Inv st [] { s with iobuf := some b, last := .timeout } := by
  obtain ⟨h1, h2, h3, h4, h5, h6, h7, h8, h9, h10, h11, h12⟩ := h
  constructor <;> (try dsimp only) <;> grind (splits := 15)

theorem Inv.setLast {st H s} (h : Inv st H s) (hc : Calm s) (r : Res) : Inv st H { s with last := r } := by
  unfold Calm at hc
  obtain ⟨h1, h2, h3, h4, h5, h6, h7, h8, h9, h10, h11, h12⟩ := h
  constructor <;> (try dsimp only) <;> grind (splits := 15)

theorem renewWrite_spec {st} (b v w) (s : State) (h : Inv st [] s) (hc : Calm s) (hi : s.iobuf = some b) (hq : w.quiet) :
    Inv st [] (renewWrite b v w s) := by
  have ht := h.touch (h.iobuf b hi).2 (fun i => hc b i hi)
  unfold renewWrite
  split
  · exact ht.setLast hc _
  · obtain ⟨h1, h2, h3⟩ := series_spec false [w] (Aio.touch s b) ht hc (by simpa using hq)
    have hi1 := h2.iobuf.trans hi
    exact (h1.touch (h1.iobuf b hi1).2 (fun i => h3 b i hi1)).setLast h3 _

theorem Inv.abandon {st s} (h : Inv st [] s) (hl : st = true → ∀ b, s.iobuf = some b → ∃ i, s.fly i = some b) :
    Inv st [] (abandon s) := by
  obtain ⟨h1, h2, h3, h4, h5, h6, h7, h8, h9, h10, h11, h12⟩ := h
  unfold Aio.abandon
  constructor
  case acc =>
    intro hst c hc1 hfr hfl hio hl'
    refine h12 hst c hc1 hfr hfl ?_ hl'
    intro hx
    obtain ⟨i, hi⟩ := hl hst c hx
    exact hfl i hi
  all_goals (try dsimp only) <;> grind (splits := 15)

theorem renewRead_spec {st} (r v w) (s : State) (h : Inv st [] s) (hc : Calm s)
    (hl : st = true → s.to = none ∨ s.iobuf = none) (hr : r.quiet) (hw : w.quiet) : Inv st [] (renewRead r v w s) := by
  have h1 : Inv st [] (renewSkip s) ∧ Calm (renewSkip s) := by
    unfold renewSkip
    split
    · next ht =>
      refine ⟨h.abandon ?_, fun b i hb => by cases hb⟩
      intro hst b hb
      rcases hl hst with h' | h'
      · exact absurd h' ht
      · rw [h'] at hb; cases hb
    · exact ⟨h, hc⟩
  unfold renewRead
  generalize renewSkip s = s1 at h1 ⊢
  have h2 : Inv st [] (renewAlloc s1) ∧ Calm (renewAlloc s1) := by
    unfold renewAlloc
    split
    · next hi =>
      have ha := h1.1.alloc
      have hk := Inv.keepIobuf ha hi s1.last
      refine ⟨hk, ?_⟩
      intro b i hb
      cases hb
      exact (ha.held _ (by simp [alloc_next])).2.2.2.2 i
    · exact h1
  generalize renewAlloc s1 = s2 at h2 ⊢
  obtain ⟨h2, hc2⟩ := h2
  split
  · exact h2
  · next b hb =>
    have ha := aio_spec true r (h2.takeIobuf hb hc2 s2.last) (fun c i hx => by cases hx) hr
    have hv : s2 = view { s2 with iobuf := none, last := s2.last } s2.lvb (some b) s2.last := by simp only [view, ← hb]
    have hv' := aio_view { s2 with iobuf := none, last := s2.last } b true r s2.lvb (some b) s2.last
    rw [← hv] at hv'
    rw [hv']
    revert ha
    generalize aio { s2 with iobuf := none, last := s2.last } b true r = x
    obtain ⟨s3, y⟩ := x
    intro ha
    obtain ⟨i1, i2, i3, i4⟩ := ha
    have hn : s3.iobuf = none := i2.iobuf
    have hx : ∀ z, view s3 s2.lvb (some b) z = { s3 with iobuf := some b, last := z } := by
      intro z
      have a : s3.lvb = s2.lvb := i2.lvb
      simp only [view, ← a]
    cases y with
    | timeout =>
      obtain ⟨k, hk1, hk2⟩ := i4 rfl rfl
      have hh := Inv.flyIobuf i1 hn hk2 hk1
      rw [← hx] at hh
      exact hh
    | fail =>
      have hh := Inv.keepIobuf i1 hn .fail
      rw [← hx] at hh
      exact hh
    | ok =>
      have i1 : Inv st [b] s3 := i1
      dsimp only
      rw [hx]
      refine renewWrite_spec b v w _ (Inv.keepIobuf i1 hn _) ?_ rfl hw
      intro c i hcx
      cases hcx
      exact (i1.held b (by simp)).2.2.2.2 i

theorem renew_spec {st} (evs r v w) (s : State) (h : Inv st [] s) (hq : Sound st s (.renew evs r v w)) :
    Inv st [] (renew evs r v w s) := by
  obtain ⟨q1, q2, q3, q4⟩ := hq
  unfold renew
  by_cases hl : s.last = .timeout
  · rw [if_pos hl]
    have hab : ∀ s', Inv st [] s' → (st = true → ∀ b, s'.iobuf = some b → ∃ i, s'.fly i = some b) →
        Inv st [] (renewRead r v w (abandon s')) := by
      intro s' h' hx
      exact renewRead_spec r v w _ (h'.abandon hx) (fun b i hb => by cases hb) (fun _ => Or.inr rfl) q1 q2
    have q3 := fun hst => q3 hst hl
    revert q3
    unfold renewReap
    cases ht : s.to with
    | none => intro q3; exact hab s h (fun hst => absurd rfl (q3 hst).1)
    | some k =>
      cases hi : s.iobuf with
      | none => intro q3; exact hab s h (fun hst => absurd rfl (q3 hst).2.1)
      | some b =>
        dsimp only
        by_cases hu : s.used k = false
        · rw [if_pos hu]
          intro q3
          exact hab s h (fun hst => absurd rfl (q3 hst).2.2)
        · rw [if_neg hu]
          by_cases hs : s.sbuf k ≠ some b
          · rw [if_pos hs]
            intro q3
            exact hab s h (fun hst => absurd rfl (q3 hst).2.2)
          · rw [if_neg hs]
            have hs : s.sbuf k = some b := Classical.byContradiction hs
            have hf : s.fly k = some b := by
              have hu' : s.used k = true := by simpa using hu
              cases hfk : s.fly k with
              | none => exact absurd hfk (h.used k hu')
              | some c =>
                have := (h.fly k c hfk).1
                rw [hs] at this
                exact this.symm
            obtain ⟨s3, h3, hk3, hf3, hw⟩ := wait_spec evs s h hf (by
              intro i c hik hic hx
              rw [hi] at hx
              cases hx
              exact hik (h.inj i k b hic hf))
            have hi3 : s3.iobuf = some b := hf3.iobuf.trans hi
            have hin : ∀ c, s3.iobuf = some c → ∃ i, s3.fly i = some c := by
              intro c hc
              rw [hi3] at hc
              cases hc
              exact ⟨k, hk3⟩
            rcases hw with hw | ⟨hw, _⟩ | ⟨ok, hw⟩
            · rw [hw]
              intro q3
              exact hab s3 h3 (fun _ => hin)
            · rw [hw]
              intro q3
              exact hab s3 h3 (fun _ => hin)
            · rw [hw]
              have hcl := h3.collectIobuf hk3 hi3
              have hcalm : Calm (Aio.collect s3 k) := by
                intro c i hc hx
                have hc : s3.iobuf = some c := hc
                rw [hi3] at hc
                cases hc
                have hx' := (Frame.collect s3 k).fly i b hx
                have := h3.inj i k b hx' hk3
                subst this
                simp [Aio.collect, set] at hx
              cases ok with
              | true =>
                intro q3
                have hio : (Aio.collect s3 k).iobuf = some b := hi3
                have hh := renewWrite_spec b v w _ (hcl.setTo hcalm none) hcalm hi3 q2
                simp only [if_true]
                split
                · exact hcl
                · next c hc =>
                  rw [hio] at hc
                  cases hc
                  exact hh
              | false =>
                intro q3
                exact hab _ hcl (fun hst => absurd rfl (q3 hst).2.2)
  · rw [if_neg hl]
    exact renewRead_spec r v w s h (fun b i hb hi => hl (h.iofly b i hb hi).1) (fun hst => q4 hst hl) q1 q2

theorem Inv.closeEvent {st s i b} (h : Inv st [] s) (hf : s.fly i = some b) :
    Inv st [] (Aio.drop { Aio.collect s i with iobuf := if s.sbuf i = s.iobuf then none else s.iobuf } i) := by
  have hs := (h.fly i b hf).1
  by_cases hx : s.sbuf i = s.iobuf
  · rw [if_pos hx]
    have hio : s.iobuf = some b := hx.symm.trans hs
    refine Inv.drop (b := b) ?_ hs (by simp [Aio.collect, set])
    have hh := h.collectIobuf hf hio
    refine (hh.takeIobuf hio ?_ s.last)
    intro c j hc hj
    have hc : s.iobuf = some c := hc
    rw [hio] at hc
    cases hc
    have hx' := (Frame.collect s i).fly j b hj
    have := h.inj j i b hx' hf
    subst this
    simp [Aio.collect, set] at hj
  · rw [if_neg hx]
    refine Inv.drop (b := b) ?_ hs (by simp [Aio.collect, set])
    exact h.collect hf (fun hy => hx (hs.trans hy.symm))

theorem closeLoop_spec {st} (es) (s : State) (h : Inv st [] s) : Inv st [] (closeLoop es s) := by
  induction es generalizing s with
  | nil => exact h
  | cons e es ih =>
    unfold closeLoop
    split
    · exact h
    · cases e with
      | intr => exact ih s h
      | timeout => exact ih s h
      | err => exact h
      | event i ok =>
        dsimp only
        split
        · exact ih s h
        · next hf =>
          obtain ⟨b, hb⟩ := Option.ne_none_iff_exists'.mp hf
          exact ih _ (h.closeEvent hb)

theorem close_spec {st} (es) (s : State) (h : Inv st [] s) (hq : Sound st s (.close es)) : Inv st [] (close es s) := by
  have h1 := closeLoop_spec es s h
  have hq : st = true → ∀ i, (closeLoop es s).used i = false := hq
  unfold close
  generalize closeLoop es s = s1 at h1 hq ⊢
  have hn : st = true → ∀ i, s1.fly i = none := by
    intro hst i
    cases hf : s1.fly i with
    | none => rfl
    | some b =>
      have := (h1.fly i b hf).2.1
      rw [hq hst i] at this
      cases this
  have hd : Inv st [] (destroy s1) := by
    obtain ⟨h1, h2, h3, h4, h5, h6, h7, h8, h9, h10, h11, h12⟩ := h1
    unfold destroy
    constructor <;> (try dsimp only) <;> grind (splits := 15)
  cases hi : s1.iobuf with
  | none =>
    obtain ⟨h1, h2, h3, h4, h5, h6, h7, h8, h9, h10, h11, h12⟩ := hd
    have hi' : (destroy s1).iobuf = none := hi
    simp only [Aio.free]
    constructor <;> (try dsimp only) <;> grind (splits := 15)
  | some b =>
    have hh := (hd.takeIobuf hi (fun c i _ hx => by cases hx) s1.last).free
    exact ⟨hh.bad, hh.fly, hh.used, hh.inj, hh.held, hh.nodup, hh.lvb, hh.iobuf, hh.iofly, hh.freed, hh.fresh, hh.acc⟩

theorem init_inv (st n) : Inv st [] (init n) := by
  unfold init
  constructor <;> (try dsimp only) <;> grind

theorem exec_inv {st s op} (h : Inv st [] s) (he : Enabled s op) (hq : Sound st s op) : Inv st [] (exec s op) := by
  have hcalm : s.last = .ok → Calm s := fun hl b i hb hi => by
    have := (h.iofly b i hb hi).1
    rw [hl] at this
    cases this
  cases op with
  | series rd es => exact (series_spec rd es s h (hcalm he.2) hq).1
  | leaseInit es => exact (leaseInit_spec es s h (hcalm he.2) hq.1 hq.2).1
  | ballot d w1 r1 w2 r2 => exact (ballot_spec d w1 r1 w2 r2 s h (hcalm he.2) hq).1
  | rindex e rest => exact (rindex_spec e rest s h (hcalm he.2) hq).1
  | lvbRead e => exact lvbRead_spec e s h (hcalm he.2.1) he.2.2 hq
  | lvbWrite e => exact lvbWrite_spec e s h (hcalm he.2) hq
  | lvbUse => exact lvbUse_spec s h
  | lvbFree => exact lvbFree_spec s h
  | renew evs r v w => exact renew_spec evs r v w s h hq
  | close es => exact close_spec es s h hq

/-- Sequences of operations that meet the conditions. -/
inductive ReachS (strict : Bool) (n : Nat) : State → Prop
  | init : ReachS strict n (init n)
  | step {s op} : ReachS strict n s → Enabled s op → Sound strict s op → ReachS strict n (exec s op)

theorem reachS_inv {st n s} (h : ReachS st n s) : Inv st [] s := by
  induction h with
  | init => exact init_inv st n
  | step _ he hq ih => exact exec_inv ih he hq

end Sanlock.Aio
