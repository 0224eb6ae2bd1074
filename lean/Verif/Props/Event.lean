import Verif.Lemmas.Event

/-!
# Properties of host events: C52
-/

namespace Sanlock.Event

open HostEvent (Seen)

/-! ## What happened, as a program sees it -/

/-- In step `x` a program on `w` calls `sanlock_set_event` to set an event (not to clear something) and gets 0. -/
def Accepted (P : Par) (x : State × Act) (w tgt : Nat) (he : He) (fl : Flags) (nd : Node) : Prop :=
  x.2 = .setEvent w tgt he fl ∧ x.1.node w = some nd ∧ (setEvent P x.1.now nd tgt he fl).1 = 0 ∧
    fl.clearEvent = false ∧ fl.clearHost = false

/-- The call in step `x` sets event `he` (with the generation given or the one the daemon fills in). -/
def Sets (P : Par) (x : State × Act) (w : Nat) (he : He) : Prop :=
  ∃ tgt he0 fl nd, Accepted P x w tgt he0 fl nd ∧ he.event = he0.event ∧ he.data = he0.data ∧
    (he.gen = he0.gen ∨ (he0.gen = 0 ∧ fl.curGen = true ∧ he.gen = (nd.seen tgt).ownerGen))

/-- The call in step `x` sets event `e` with data `d` for host `r` (or for all hosts). -/
def Names (P : Par) (x : State × Act) (w r e d : Nat) : Prop :=
  ∃ tgt he0 fl nd, Accepted P x w tgt he0 fl nd ∧ (tgt = r ∨ fl.all = true) ∧ he0.event = e ∧ he0.data = d

/-- In step `x` a program on `w` asks for the attention of `r`, by an event or by a lease request. -/
def Asks (P : Par) (x : State × Act) (w r : Nat) : Prop :=
  (∃ e d, Names P x w r e d) ∨ x.2 = .request w r

/-! ## Where an event comes from -/

/-- What is known of a host in the middle of an execution with history `H`. -/
structure Known (P : Par) (H : List (State × Act)) (now h : Nat) (nd : Node) : Prop where
  len : nd.bits.length = P.N
  le : ∀ t ∈ nd.bits, t ≤ now
  evle : nd.evTime ≤ now
  ask : ∀ j, 1 ≤ j → nd.bits.getD (j - 1) 0 ≠ 0 → ∃ x ∈ H, Asks P x h j ∧ x.1.now = nd.bits.getD (j - 1) 0
  set : nd.ev.event ≠ 0 → ∃ x ∈ H, Sets P x h nd.ev ∧ x.1.now = nd.evTime

theorem known_mono {P : Par} {H : List (State × Act)} {now now' h : Nat} {nd nd' : Node} {y : State × Act}
    (hk : Known P H now h nd) (hn : now ≤ now') (hc : core nd' = core nd) : Known P (y :: H) now' h nd' := by
  unfold core at hc
  injection hc with c1 hc
  injection hc with c2 c3
  constructor
  · rw [c1]; exact hk.len
  · intro t ht; rw [c1] at ht; have := hk.le t ht; omega
  · rw [c2]; have := hk.evle; omega
  · intro j hj hb
    rw [c1] at hb ⊢
    obtain ⟨x, hx, h1⟩ := hk.ask j hj hb
    exact ⟨x, List.mem_cons_of_mem _ hx, h1⟩
  · intro he
    rw [c3] at he ⊢
    rw [c2]
    obtain ⟨x, hx, h1⟩ := hk.set he
    exact ⟨x, List.mem_cons_of_mem _ hx, h1⟩

theorem set_le {l : List Nat} {i v b : Nat} (h : ∀ t ∈ l, t ≤ b) (hv : v ≤ b) : ∀ t ∈ l.set i v, t ≤ b := by
  intro t ht
  rcases List.mem_or_eq_of_mem_set ht with h1 | h1
  · exact h t h1
  · omega

theorem fill_eq (nd : Node) (tgt : Nat) (he : He) (fl : Flags) :
    (fill nd tgt he fl).event = he.event ∧ (fill nd tgt he fl).data = he.data ∧
    ((fill nd tgt he fl).gen = he.gen ∨
      (he.gen = 0 ∧ fl.curGen = true ∧ (fill nd tgt he fl).gen = (nd.seen tgt).ownerGen)) := by
  unfold fill
  split
  · rename_i h; exact ⟨rfl, rfl, Or.inr ⟨h.1, h.2, rfl⟩⟩
  · exact ⟨rfl, rfl, Or.inl rfl⟩

theorem known_step {P : Par} {H : List (State × Act)} {s s' : State} {a : Act} (hP : P.N ≤ 2000)
    (hlt : s.now < 2 ^ 64) (hk : ∀ h nd, s.node h = some nd → Known P H s.now h nd) (hs : step P s a = some s')
    {h : Nat} {nd' : Node} (hn : s'.node h = some nd') : Known P ((s, a) :: H) s'.now h nd' := by
  have hnow := (now_step hs).1
  have hmem : ∀ {x}, x ∈ H → x ∈ (s, a) :: H := fun hx => List.mem_cons_of_mem _ hx
  rcases core_step hs hn with ⟨nd, hnd, hc | ⟨tgt, he, fl, rfl, rfl⟩ | ⟨tgt, rfl, rfl⟩ | ⟨bits, bm, rfl, hb, rfl⟩⟩ |
      ⟨rfl, rfl⟩
  · exact known_mono (hk h nd hnd) hnow hc
  · have k := hk h nd hnd
    rcases setEvent_cases P s.now nd tgt he fl with ⟨_, e⟩ | ⟨e0, t1, t2, ⟨_, e⟩ | ⟨_, _, e⟩ | ⟨f1, f2, _, e⟩⟩
    · rw [e]; exact known_mono k hnow rfl
    · rw [e]
      refine ⟨k.len, fun t ht => Nat.le_trans (k.le t ht) hnow, hnow, ?_, fun hh => absurd rfl hh⟩
      intro j hj hb
      obtain ⟨x, hx, h1⟩ := k.ask j hj hb
      exact ⟨x, hmem hx, h1⟩
    · rw [e]
      refine ⟨by simp [k.len], set_le (fun t ht => Nat.le_trans (k.le t ht) hnow) (by omega),
        Nat.le_trans k.evle hnow, ?_, ?_⟩
      · intro j hj hb
        simp only at hb ⊢
        rw [getD_set (by rw [k.len]; omega)] at hb ⊢
        split at hb
        · omega
        · rename_i hne
          rw [if_neg hne]
          obtain ⟨x, hx, h1⟩ := k.ask j hj hb
          exact ⟨x, hmem hx, h1⟩
      · intro hh
        obtain ⟨x, hx, h1⟩ := k.set hh
        exact ⟨x, hmem hx, h1⟩
    · rw [e]
      have hacc : Accepted P (s, Act.setEvent h tgt he fl) h tgt he fl nd := ⟨rfl, hnd, e0, f1, f2⟩
      refine ⟨?_, ?_, hnow, ?_, ?_⟩
      · simp only; split <;> simp [k.len]
      · simp only
        split
        · intro t ht
          obtain ⟨_, _, rfl⟩ := List.mem_map.1 ht
          exact hnow
        · exact set_le (fun t ht => Nat.le_trans (k.le t ht) hnow) hnow
      · intro j hj hb
        simp only at hb ⊢
        cases hall : fl.all with
        | true =>
          simp only [hall, if_true] at hb ⊢
          by_cases hjl : j - 1 < (nd.bits.set (tgt - 1) s.now).length
          · rw [getD_map_const hjl]
            exact ⟨_, List.mem_cons_self, Or.inl ⟨_, _, tgt, he, fl, nd, hacc, Or.inr hall, rfl, rfl⟩, rfl⟩
          · refine absurd ?_ hb
            rw [List.getD_eq_getElem?_getD, List.getElem?_eq_none (by rw [List.length_map]; omega)]; rfl
        | false =>
          simp only [hall, Bool.false_eq_true, if_false] at hb ⊢
          rw [getD_set (by rw [k.len]; omega)] at hb ⊢
          by_cases hjt : j - 1 = tgt - 1
          · rw [if_pos hjt]
            exact ⟨_, List.mem_cons_self, Or.inl ⟨_, _, tgt, he, fl, nd, hacc, Or.inl (by omega), rfl, rfl⟩, rfl⟩
          · rw [if_neg hjt] at hb ⊢
            obtain ⟨x, hx, h1⟩ := k.ask j hj hb
            exact ⟨x, hmem hx, h1⟩
      · intro hh
        obtain ⟨q1, q2, q3⟩ := fill_eq nd tgt he fl
        exact ⟨_, List.mem_cons_self, ⟨tgt, he, fl, nd, hacc, q1, q2, q3⟩, rfl⟩
  · have k := hk h nd hnd
    unfold HostEvent.setHostBit
    split
    · exact known_mono k hnow rfl
    split
    · exact known_mono k hnow rfl
    · rename_i h1 h2
      refine ⟨by simp [k.len], set_le (fun t ht => Nat.le_trans (k.le t ht) hnow) hnow,
        Nat.le_trans k.evle hnow, ?_, ?_⟩
      · intro j hj hb
        simp only at hb ⊢
        rw [getD_set (by rw [k.len]; omega)] at hb ⊢
        by_cases hjt : j - 1 = tgt - 1
        · rw [if_pos hjt]
          have : j = tgt := by omega
          subst this
          exact ⟨_, List.mem_cons_self, Or.inr rfl, rfl⟩
        · rw [if_neg hjt] at hb ⊢
          obtain ⟨x, hx, h1⟩ := k.ask j hj hb
          exact ⟨x, hmem hx, h1⟩
      · intro hh
        obtain ⟨x, hx, h1⟩ := k.set hh
        exact ⟨x, hmem hx, h1⟩
  · have k := hk h nd hnd
    obtain ⟨b', bm', e, _, e1, _, e2⟩ := HostEvent.published (own := h) (secs := P.secs) (times := nd.bits)
      (by rw [k.len]; omega) hlt k.le
    rw [e] at hb
    injection hb with hb
    injection hb with hb1 hb2
    subst hb1
    subst hb2
    have hle : ∀ i, b'.getD i 0 = nd.bits.getD i 0 ∨ b'.getD i 0 = 0 := by
      intro i
      obtain ⟨ts', bm2, f, _, _, f3, _⟩ := HostEvent.createLoop_spec (own := h) (now := s.now) (secs := P.secs)
        (ts := nd.bits) (i := 0) (bm := List.replicate HostEvent.BITMAP_SIZE 0) List.length_replicate
        (by rw [k.len]; omega)
      have : some (ts', bm2) = some (b', bm') := by rw [← f]; exact e
      cases this
      rw [f3 i]
      split
      · exact Or.inr rfl
      · exact Or.inl rfl
    refine ⟨by simp only; rw [e1, k.len], ?_, Nat.le_trans k.evle hnow, ?_, ?_⟩
    · intro t ht
      simp only at ht
      obtain ⟨i, hi, rfl⟩ := List.getElem_of_mem ht
      have : b'.getD i 0 = b'[i] := by
        rw [List.getD_eq_getElem?_getD, List.getElem?_eq_getElem hi]; rfl
      rw [← this]
      rcases hle i with h1 | h1
      · rw [h1]; exact Nat.le_trans (getD_le k.le) hnow
      · omega
    · intro j hj hb
      simp only at hb ⊢
      rcases hle (j - 1) with h1 | h1
      · rw [h1] at hb ⊢
        obtain ⟨x, hx, h2⟩ := k.ask j hj hb
        exact ⟨x, hmem hx, h2⟩
      · exact absurd h1 hb
    · intro hh
      obtain ⟨x, hx, h1⟩ := k.set hh
      exact ⟨x, hmem hx, h1⟩
  · refine ⟨List.length_replicate, ?_, Nat.zero_le _, ?_, fun hh => absurd rfl hh⟩
    · intro t ht
      have := List.eq_of_mem_replicate ht
      omega
    · intro j hj hb
      refine absurd ?_ hb
      unfold Node.fresh
      rw [List.getD_eq_getElem?_getD, List.getElem?_replicate]
      split <;> rfl

theorem exec_known {P : Par} {t0 : Nat} (hP : P.N ≤ 2000) (h0 : t0 < 2 ^ 64) {H : List (State × Act)} {s : State}
    (hx : Exec P t0 H s) : s.now < 2 ^ 64 ∧ ∀ h nd, s.node h = some nd → Known P H s.now h nd := by
  induction hx with
  | init => exact ⟨h0, fun h nd he => by cases he⟩
  | step h hs ih => exact ⟨(now_step hs).2 ih.1, fun _ _ hn => known_step hP ih.1 ih.2 hs hn⟩

/-- Every step of an execution starts in a state that is itself reached. -/
theorem exec_mem {P : Par} {t0 : Nat} {H : List (State × Act)} {s : State} (hx : Exec P t0 H s) :
    ∀ x ∈ H, ∃ H', Exec P t0 H' x.1 ∧ ∀ y ∈ H', y ∈ H := by
  induction hx with
  | init => intro x hx; cases hx
  | step h hs ih =>
    intro x hx
    rcases List.mem_cons.1 hx with rfl | hx
    · exact ⟨_, h, fun y hy => List.mem_cons_of_mem _ hy⟩
    · obtain ⟨H', h1, h2⟩ := ih x hx
      exact ⟨H', h1, fun y hy => List.mem_cons_of_mem _ (h2 y hy)⟩

/-- **C52** (where an event comes from).  In any execution, of any length and with any number of hosts, whatever a
program receives was sent: it is a non zero event from another host, that host set exactly this event with a
successful call, and within the display period before the renewal that published it that host asked for the attention
of the receiving host, by an event or by a lease request. -/
theorem delivered_origin {P : Par} {t0 : Nat} (hP : P.N ≤ 2000) (h0 : t0 < 2 ^ 64) {H : List (State × Act)} {s : State}
    (hx : Exec P t0 H s) {r c : Nat} {n : Note} (hg : (r, c, n) ∈ s.got) :
    n.recv = r ∧ n.sender ≠ r ∧ n.he.event ≠ 0 ∧
    ∃ p ∈ H, p.2 = .prepare n.sender ∧
      (∃ x ∈ H, Sets P x n.sender n.he ∧ x.1.now ≤ p.1.now) ∧
      ∃ y ∈ H, Asks P y n.sender r ∧ y.1.now ≤ p.1.now ∧ p.1.now ≤ y.1.now + P.secs := by
  have ht := transport (Q := fun r w he => ∃ p ∈ H, p.2 = .prepare w ∧
      (∃ x ∈ H, Sets P x w he ∧ x.1.now ≤ p.1.now) ∧
      ∃ y ∈ H, Asks P y w r ∧ y.1.now ≤ p.1.now ∧ p.1.now ≤ y.1.now + P.secs) hP hx (by
    intro p hp w nd bits bm ha hnd hb
    obtain ⟨H', hx', hsub⟩ := exec_mem hx p hp
    obtain ⟨hlt, hk⟩ := exec_known hP h0 hx'
    have k := hk w nd hnd
    obtain ⟨b', bm', e, e0, _, e1, _⟩ := HostEvent.published (own := w) (secs := P.secs) (times := nd.bits)
      (by rw [k.len]; omega) hlt k.le
    rw [e] at hb
    cases hb
    refine ⟨e0, fun j hj hbit hev => ⟨p, hp, ha, ?_, ?_⟩⟩
    · obtain ⟨x, hx1, hx2, hx3⟩ := k.set hev
      exact ⟨x, hsub x hx1, hx2, by rw [hx3]; exact k.evle⟩
    · obtain ⟨_, _, q1, q2⟩ := (e1 j hj).1 hbit
      obtain ⟨y, hy1, hy2, hy3⟩ := k.ask j hj q1
      have := getD_le k.le (k := j - 1)
      exact ⟨y, hsub y hy1, hy2, by omega, by omega⟩)
  obtain ⟨g1, g2, g3, g4⟩ := ht.got _ hg
  simp only at g1 g2 g3 g4
  rw [g1] at g3 g4
  exact ⟨g1, g3, g2, g4⟩

/-! ## Only the hosts named -/

/-- How a program has to use events so that only the hosts named get them: no lease requests; no replacing or clearing
of events, no event zero; one data value for each event; and no renewal begins in the second of a call. -/
structure Plain (D : Nat → Nat) (H : List (State × Act)) : Prop where
  noReq : ∀ x ∈ H, ∀ w r, x.2 ≠ .request w r
  set : ∀ x ∈ H, ∀ w t he fl, x.2 = .setEvent w t he fl →
    fl.replace = false ∧ fl.clearEvent = false ∧ he.event ≠ 0 ∧ he.data = D he.event
  apart : ∀ x ∈ H, ∀ y ∈ H, ∀ w t he fl, x.2 = .prepare w → y.2 = .setEvent w t he fl → x.1.now ≠ y.1.now

/-- What is known of a host when events are used this way. -/
structure Tidy (P : Par) (D : Nat → Nat) (H : List (State × Act)) (h : Nat) (nd : Node) : Prop where
  time : nd.evTime = 0 ∨ ∃ y ∈ H, ∃ t he fl, y.2 = .setEvent h t he fl ∧ y.1.now = nd.evTime
  data : nd.ev.event ≠ 0 → nd.ev.data = D nd.ev.event
  bit : ∀ j, 1 ≤ j → nd.bits.getD (j - 1) 0 ≠ 0 → nd.bits.getD (j - 1) 0 ≤ nd.evTime ∧
    ∃ x ∈ H, ∃ e, e ≠ 0 ∧ Names P x h j e (D e) ∧ x.1.now = nd.bits.getD (j - 1) 0 ∧
      (e = nd.ev.event ∨ nd.bits.getD (j - 1) 0 + P.secs ≤ nd.evTime)

theorem tidy_mono {P : Par} {D : Nat → Nat} {H : List (State × Act)} {h : Nat} {nd nd' : Node} {y : State × Act}
    (hk : Tidy P D H h nd) (hc : core nd' = core nd) : Tidy P D (y :: H) h nd' := by
  unfold core at hc
  injection hc with c1 hc
  injection hc with c2 c3
  constructor
  · rw [c2]
    rcases hk.time with h1 | ⟨x, hx, h1⟩
    · exact Or.inl h1
    · exact Or.inr ⟨x, List.mem_cons_of_mem _ hx, h1⟩
  · rw [c3]; exact hk.data
  · intro j hj hb
    rw [c1] at hb ⊢
    rw [c2, c3]
    obtain ⟨h0, x, hx, h1⟩ := hk.bit j hj hb
    exact ⟨h0, x, List.mem_cons_of_mem _ hx, h1⟩

theorem tidy_bits {P : Par} {D : Nat → Nat} {H : List (State × Act)} {h : Nat} {nd nd' : Node} {y : State × Act}
    (hk : Tidy P D H h nd) (h2 : nd'.evTime = nd.evTime) (h3 : nd'.ev = nd.ev)
    (hb : ∀ i, nd'.bits.getD i 0 = nd.bits.getD i 0 ∨ nd'.bits.getD i 0 = 0) : Tidy P D (y :: H) h nd' := by
  constructor
  · rw [h2]
    rcases hk.time with h1 | ⟨x, hx, h1⟩
    · exact Or.inl h1
    · exact Or.inr ⟨x, List.mem_cons_of_mem _ hx, h1⟩
  · rw [h3]; exact hk.data
  · intro j hj hne
    rcases hb (j - 1) with h1 | h1
    · rw [h1] at hne ⊢
      rw [h2, h3]
      obtain ⟨h0, x, hx, h1⟩ := hk.bit j hj hne
      exact ⟨h0, x, List.mem_cons_of_mem _ hx, h1⟩
    · exact absurd h1 hne

theorem tidy_step {P : Par} {D : Nat → Nat} {t0 : Nat} {H : List (State × Act)} {s s' : State} {a : Act} (hP : P.N ≤ 2000)
    (h0 : t0 < 2 ^ 64) (hx : Exec P t0 H s) (hpl : Plain D ((s, a) :: H))
    (hk : ∀ h nd, s.node h = some nd → Tidy P D H h nd) (hs : step P s a = some s')
    {h : Nat} {nd' : Node} (hn : s'.node h = some nd') : Tidy P D ((s, a) :: H) h nd' := by
  obtain ⟨hlt, hkn⟩ := exec_known hP h0 hx
  rcases core_step hs hn with ⟨nd, hnd, hc | ⟨tgt, he, fl, rfl, rfl⟩ | ⟨tgt, rfl, rfl⟩ | ⟨bits, bm, rfl, hb, rfl⟩⟩ |
      ⟨rfl, rfl⟩
  · exact tidy_mono (hk h nd hnd) hc
  · have k := hk h nd hnd
    have kn := hkn h nd hnd
    obtain ⟨g1, g2, g3, g4⟩ := hpl.set _ List.mem_cons_self h tgt he fl rfl
    rcases setEvent_cases P s.now nd tgt he fl with ⟨_, e⟩ | ⟨e0, t1, t2, ⟨f, e⟩ | ⟨_, _, e⟩ | ⟨f1, f2, f3, e⟩⟩
    · rw [e]; exact tidy_mono k rfl
    · rw [g2] at f; cases f
    · rw [e]
      refine tidy_bits k rfl rfl (fun i => ?_)
      simp only
      rw [getD_set (by rw [kn.len]; omega)]
      split
      · exact Or.inr rfl
      · exact Or.inl rfl
    · rw [e]
      obtain ⟨q1, q2, _⟩ := fill_eq nd tgt he fl
      have hacc : Accepted P (s, Act.setEvent h tgt he fl) h tgt he fl nd := ⟨rfl, hnd, e0, f1, f2⟩
      refine ⟨Or.inr ⟨_, List.mem_cons_self, tgt, he, fl, rfl, rfl⟩, ?_, ?_⟩
      · intro _; simp only; rw [q1, q2]; exact g4
      · intro j hj hb
        simp only at hb ⊢
        rw [q1]
        have mine : tgt = j ∨ fl.all = true → s.now ≤ s.now ∧ ∃ x ∈ (s, Act.setEvent h tgt he fl) :: H, ∃ e, e ≠ 0 ∧
            Names P x h j e (D e) ∧ x.1.now = s.now ∧ (e = he.event ∨ s.now + P.secs ≤ s.now) := fun hh =>
          ⟨Nat.le_refl _, _, List.mem_cons_self, he.event, g3,
            ⟨tgt, he, fl, nd, hacc, hh, rfl, g4⟩, rfl, Or.inl rfl⟩
        cases hall : fl.all with
        | true =>
          simp only [hall, if_true] at hb ⊢
          by_cases hjl : j - 1 < (nd.bits.set (tgt - 1) s.now).length
          · rw [getD_map_const hjl]
            exact mine (Or.inr hall)
          · refine absurd ?_ hb
            rw [List.getD_eq_getElem?_getD, List.getElem?_eq_none (by rw [List.length_map]; omega)]; rfl
        | false =>
          simp only [hall, Bool.false_eq_true, if_false] at hb ⊢
          rw [getD_set (by rw [kn.len]; omega)] at hb ⊢
          by_cases hjt : j - 1 = tgt - 1
          · rw [if_pos hjt]
            exact mine (Or.inl (by omega))
          · rw [if_neg hjt] at hb ⊢
            obtain ⟨b0, x, hx1, e1, e2, e3, e4, e5⟩ := k.bit j hj hb
            have hevle := kn.evle
            refine ⟨by omega, x, List.mem_cons_of_mem _ hx1, e1, e2, e3, e4, ?_⟩
            rcases e5 with e5 | e5
            · rw [HostEvent.sub64_eq kn.evle hlt, g1] at f3
              rcases f3 with f3 | f3 | f3 | f3 | f3
              · cases f3
              · exact Or.inr (by omega)
              · exact absurd (e5.trans f3) e2
              · exact absurd f3 g3
              · exact Or.inl (by omega)
            · exact Or.inr (by omega)
  · exact absurd rfl (hpl.noReq _ List.mem_cons_self h tgt)
  · have k := hk h nd hnd
    have kn := hkn h nd hnd
    refine tidy_bits k rfl rfl (fun i => ?_)
    obtain ⟨ts', bm2, f, _, _, f3, _⟩ := HostEvent.createLoop_spec (own := h) (now := s.now) (secs := P.secs)
      (ts := nd.bits) (i := 0) (bm := List.replicate HostEvent.BITMAP_SIZE 0) List.length_replicate
      (by rw [kn.len]; omega)
    have : some (ts', bm2) = some (bits, bm) := by rw [← f]; exact hb
    cases this
    simp only
    rw [f3 i]
    split
    · exact Or.inr rfl
    · exact Or.inl rfl
  · refine ⟨Or.inl rfl, fun hh => absurd rfl hh, ?_⟩
    intro j hj hb
    refine absurd ?_ hb
    unfold Node.fresh
    rw [List.getD_eq_getElem?_getD, List.getElem?_replicate]
    split <;> rfl

theorem plain_tail {D : Nat → Nat} {H H' : List (State × Act)} (h : Plain D H) (hs : ∀ y ∈ H', y ∈ H) : Plain D H' :=
  ⟨fun x hx => h.noReq x (hs x hx), fun x hx => h.set x (hs x hx),
   fun x hx y hy => h.apart x (hs x hx) y (hs y hy)⟩

theorem exec_tidy {P : Par} {D : Nat → Nat} {t0 : Nat} (hP : P.N ≤ 2000) (h0 : t0 < 2 ^ 64) {H : List (State × Act)}
    {s : State} (hx : Exec P t0 H s) (hpl : Plain D H) : ∀ h nd, s.node h = some nd → Tidy P D H h nd := by
  induction hx with
  | init => intro h nd he; cases he
  | step h hs ih =>
    exact fun _ _ hn => tidy_step hP h0 h hpl (ih (plain_tail hpl (fun y hy => List.mem_cons_of_mem _ hy))) hs hn

/-- The full claim, which the code does not satisfy: whatever the programs on a host do, a host gets an event only if
somebody set that event, with that data, for that host. -/
def OnlyNamed (P : Par) : Prop :=
  ∀ t0 H s, 1 ≤ t0 → t0 < 2 ^ 64 → Exec P t0 H s → ∀ r c n, (r, c, n) ∈ s.got →
    ∃ x ∈ H, Names P x n.sender r n.he.event n.he.data

/-- **C52** (only the hosts named).  As long as lease requests, replacing, clearing and event zero are not used, every
event has one data value, and no renewal begins in the second of a call, a host gets an event only if a program set
that event, with that data, for that host (or for all hosts), within the display period before it was published.
Missing: the other uses, for which the claim fails, see the theorems below. -/
theorem only_named_partial {P : Par} {D : Nat → Nat} {t0 : Nat} (hP : P.N ≤ 2000) (h0 : t0 < 2 ^ 64)
    {H : List (State × Act)} {s : State} (hx : Exec P t0 H s) (hpl : Plain D H) {r c : Nat} {n : Note}
    (hg : (r, c, n) ∈ s.got) :
    ∃ x ∈ H, Names P x n.sender r n.he.event n.he.data ∧
      ∃ p ∈ H, p.2 = .prepare n.sender ∧ x.1.now ≤ p.1.now ∧ p.1.now ≤ x.1.now + P.secs := by
  have ht := transport (Q := fun r w he => ∃ x ∈ H, Names P x w r he.event he.data ∧
      ∃ p ∈ H, p.2 = .prepare w ∧ x.1.now ≤ p.1.now ∧ p.1.now ≤ x.1.now + P.secs) hP hx (by
    intro p hp w nd bits bm ha hnd hb
    obtain ⟨H', hx', hsub⟩ := exec_mem hx p hp
    obtain ⟨hlt, hk⟩ := exec_known hP h0 hx'
    have k := hk w nd hnd
    have ti := exec_tidy hP h0 hx' (plain_tail hpl hsub) w nd hnd
    obtain ⟨b', bm', e, e0, _, e1, _⟩ := HostEvent.published (own := w) (secs := P.secs) (times := nd.bits)
      (by rw [k.len]; omega) hlt k.le
    rw [e] at hb
    cases hb
    refine ⟨e0, fun j hj hbit hev => ?_⟩
    obtain ⟨_, _, q1, q2⟩ := (e1 j hj).1 hbit
    obtain ⟨b0, x, x1, ev, x2, x3, x4, x5⟩ := ti.bit j hj q1
    have hle := getD_le k.le (k := j - 1)
    have hne : nd.evTime < p.1.now := by
      have := k.evle
      rcases ti.time with h1 | ⟨y, hy, t, he, fl, h1, h2⟩
      · omega
      · have := hpl.apart p hp y (hsub y hy) w t he fl ha h1
        omega
    rcases x5 with x5 | x5
    · refine ⟨x, hsub x x1, ?_, p, hp, ha, by omega, by omega⟩
      have hd := ti.data (by omega)
      rw [hd, ← x5]
      exact x3
    · omega)
  obtain ⟨g1, _, _, g4⟩ := ht.got _ hg
  simp only at g1 g4
  rw [g1] at g4
  exact g4

/-! ## Every host named gets the event -/

/-- Steps other than the ones of host `w` that write its sector leave the sector alone. -/
theorem sec_step {P : Par} {s s' : State} {a : Act} {w : Nat} (hs : step P s a = some s') (h1 : a ≠ .join w)
    (h2 : a ≠ .leave w) (h3 : a ≠ .write w) : s'.sec w = s.sec w := by
  cases a <;> simp only [step] at hs <;> (repeat' split at hs) <;> first
    | (cases hs; done)
    | (cases hs; rfl)
    | (cases hs; exact upd_other _ _ (fun e => by subst e; first | exact h1 rfl | exact h2 rfl | exact h3 rfl))

/-- A host other than one that leaves or dies stays; what can happen to the part of it that receives. -/
theorem recv_step {P : Par} {s s' : State} {a : Act} {r : Nat} {nd : Node} (hs : step P s a = some s')
    (hn : s.node r = some nd) (h1 : a ≠ .leave r) (h2 : a ≠ .die r) :
    ∃ nd', s'.node r = some nd' ∧
      ((nd'.buf = nd.buf ∧ nd'.seen = nd.seen ∧ nd'.queue = nd.queue) ∨
       (∃ w, a = .fetch r w ∧ nd' = { nd with buf := upd nd.buf w (s.sec w) }) ∨
       (∃ w, a = .check r w ∧ 1 ≤ w ∧ checkOne P r s.now nd w = some nd') ∨
       (∃ ok n q, a = .callback r ok ∧ nd.queue = n :: q ∧ s'.done = n :: s.done ∧
         nd' = { nd with queue := q, regs := (callbacks r ok n nd.regs).2 })) ∧
      (∀ n ∈ s.done, n ∈ s'.done) := by
  have oth : ∀ {i : Nat} {m : Option Node}, r ≠ i → upd s.node i m r = some nd := by
    intro i m hi; rw [upd_other _ _ hi]; exact hn
  cases a with
  | tick d =>
    simp only [step] at hs
    split at hs
    · cases hs; exact ⟨nd, hn, Or.inl ⟨rfl, rfl, rfl⟩, fun n h => h⟩
    · cases hs
  | join i =>
    simp only [step] at hs
    split at hs
    · split at hs
      · cases hs
      · rename_i hi
        cases hs
        have : r ≠ i := by intro e; subst e; rw [hn] at hi; cases hi
        exact ⟨nd, oth this, Or.inl ⟨rfl, rfl, rfl⟩, fun n h => h⟩
    · cases hs
  | leave i =>
    simp only [step] at hs
    split at hs
    · cases hs
    · cases hs
      exact ⟨nd, oth (fun e => h1 (by rw [e])), Or.inl ⟨rfl, rfl, rfl⟩, fun n h => h⟩
  | die i =>
    simp only [step] at hs
    split at hs
    · cases hs
    · cases hs
      exact ⟨nd, oth (fun e => h2 (by rw [e])), Or.inl ⟨rfl, rfl, rfl⟩, fun n h => h⟩
  | setEvent i tgt he fl =>
    simp only [step] at hs
    split at hs
    · cases hs
    · rename_i m hm
      cases hs
      by_cases hi : r = i
      · subst hi
        rw [hn] at hm
        cases hm
        obtain ⟨_, e2, e3, e4, _⟩ := setEvent_rest P s.now nd tgt he fl
        exact ⟨_, upd_same _ _ _, Or.inl ⟨e2, e3, e4⟩, fun n h => h⟩
      · exact ⟨nd, oth hi, Or.inl ⟨rfl, rfl, rfl⟩, fun n h => h⟩
  | request i tgt =>
    simp only [step] at hs
    split at hs
    · cases hs
    · rename_i m hm
      cases hs
      by_cases hi : r = i
      · subst hi
        rw [hn] at hm
        cases hm
        exact ⟨_, upd_same _ _ _, Or.inl ⟨rfl, rfl, rfl⟩, fun n h => h⟩
      · exact ⟨nd, oth hi, Or.inl ⟨rfl, rfl, rfl⟩, fun n h => h⟩
  | prepare i =>
    simp only [step] at hs
    split at hs
    · cases hs
    · rename_i m hm
      split at hs
      · cases hs
      · cases hs
        by_cases hi : r = i
        · subst hi
          rw [hn] at hm
          cases hm
          exact ⟨_, upd_same _ _ _, Or.inl ⟨rfl, rfl, rfl⟩, fun n h => h⟩
        · exact ⟨nd, oth hi, Or.inl ⟨rfl, rfl, rfl⟩, fun n h => h⟩
  | write i =>
    simp only [step] at hs
    split at hs
    · cases hs
    · rename_i m hm
      split at hs
      · cases hs
      · cases hs
        by_cases hi : r = i
        · subst hi
          rw [hn] at hm
          cases hm
          exact ⟨_, upd_same _ _ _, Or.inl ⟨rfl, rfl, rfl⟩, fun n h => h⟩
        · exact ⟨nd, oth hi, Or.inl ⟨rfl, rfl, rfl⟩, fun n h => h⟩
  | abort i =>
    simp only [step] at hs
    split at hs
    · cases hs
    · rename_i m hm
      cases hs
      by_cases hi : r = i
      · subst hi
        rw [hn] at hm
        cases hm
        exact ⟨_, upd_same _ _ _, Or.inl ⟨rfl, rfl, rfl⟩, fun n h => h⟩
      · exact ⟨nd, oth hi, Or.inl ⟨rfl, rfl, rfl⟩, fun n h => h⟩
  | fetch i w =>
    simp only [step] at hs
    split at hs
    · split at hs
      · cases hs
      · rename_i m hm
        cases hs
        by_cases hi : r = i
        · subst hi
          rw [hn] at hm
          cases hm
          exact ⟨_, upd_same _ _ _, Or.inr (Or.inl ⟨w, rfl, rfl⟩), fun n h => h⟩
        · exact ⟨nd, oth hi, Or.inl ⟨rfl, rfl, rfl⟩, fun n h => h⟩
    · cases hs
  | check i w =>
    simp only [step] at hs
    split at hs
    · rename_i hw
      split at hs
      · cases hs
      · rename_i m hm
        split at hs
        · cases hs
        · rename_i m' hc
          cases hs
          by_cases hi : r = i
          · subst hi
            rw [hn] at hm
            cases hm
            exact ⟨_, upd_same _ _ _, Or.inr (Or.inr (Or.inl ⟨w, rfl, hw.1, hc⟩)), fun n h => h⟩
          · exact ⟨nd, oth hi, Or.inl ⟨rfl, rfl, rfl⟩, fun n h => h⟩
    · cases hs
  | reg i c =>
    simp only [step] at hs
    split at hs
    · cases hs
    · rename_i m hm
      split at hs
      · cases hs
        by_cases hi : r = i
        · subst hi
          rw [hn] at hm
          cases hm
          exact ⟨_, upd_same _ _ _, Or.inl ⟨rfl, rfl, rfl⟩, fun n h => h⟩
        · exact ⟨nd, oth hi, Or.inl ⟨rfl, rfl, rfl⟩, fun n h => h⟩
      · cases hs
  | callback i ok =>
    simp only [step] at hs
    split at hs
    · cases hs
    · rename_i m hm
      split at hs
      · cases hs
      · rename_i n q hq
        cases hs
        by_cases hi : r = i
        · subst hi
          rw [hn] at hm
          cases hm
          exact ⟨_, upd_same _ _ _, Or.inr (Or.inr (Or.inr ⟨ok, n, q, rfl, hq, rfl, rfl⟩)),
            fun x hx => List.mem_cons_of_mem _ hx⟩
        · exact ⟨nd, oth hi, Or.inl ⟨rfl, rfl, rfl⟩, fun x hx => List.mem_cons_of_mem _ hx⟩

/-! ### What a host remembers is never ahead of the sector -/

/-- `(g, t)` is an older or the present version of the sector `x`; `live` says its owner is a member. -/
def Old (live : Bool) (x : Sec) (g t : Nat) : Prop :=
  g ≤ x.gen ∧ (live = true → g = x.gen → t ≤ x.ts)

structure Behind (s : State) : Prop where
  ts : ∀ w, (s.sec w).ts ≤ s.now
  buf : ∀ r nd w, s.node r = some nd → Old (s.node w).isSome (s.sec w) (nd.buf w).gen (nd.buf w).ts
  seen : ∀ r nd w, s.node r = some nd → Old (s.node w).isSome (s.sec w) (nd.seen w).ownerGen (nd.seen w).timestamp

theorem old_zero (live : Bool) (x : Sec) : Old live x 0 0 := ⟨Nat.zero_le _, fun _ _ => Nat.zero_le _⟩

theorem node_step {P : Par} {s s' : State} {a : Act} {w : Nat} (hs : step P s a = some s') (h1 : a ≠ .join w)
    (h2 : a ≠ .leave w) (h3 : a ≠ .die w) : (s'.node w).isSome = (s.node w).isSome := by
  cases hn : s.node w with
  | some nd =>
    obtain ⟨nd', h, _⟩ := recv_step hs hn h2 h3
    rw [h]; rfl
  | none =>
    cases hn' : s'.node w with
    | none => rfl
    | some nd' =>
      rcases core_step hs hn' with ⟨nd, h, _⟩ | ⟨h, _⟩
      · rw [hn] at h; cases h
      · exact absurd h h1

theorem old_step {P : Par} {s s' : State} {a : Act} (hb : ∀ w, (s.sec w).ts ≤ s.now) (hs : step P s a = some s')
    {w g t : Nat} (ho : Old (s.node w).isSome (s.sec w) g t) : Old (s'.node w).isSome (s'.sec w) g t := by
  by_cases h1 : a = .join w
  · subst h1
    simp only [step] at hs
    split at hs
    · split at hs
      · cases hs
      · cases hs
        simp only [upd_same]
        have := ho.1
        exact ⟨by simp only; omega, fun _ e => by simp only at e; omega⟩
    · cases hs
  by_cases h2 : a = .leave w
  · subst h2
    simp only [step] at hs
    split at hs
    · cases hs
    · cases hs
      simp only [upd_same]
      exact ⟨ho.1, fun e => by cases e⟩
  by_cases h3 : a = .die w
  · subst h3
    simp only [step] at hs
    split at hs
    · cases hs
    · cases hs
      simp only [upd_same]
      exact ⟨ho.1, fun e => by cases e⟩
  rw [node_step hs h1 h2 h3]
  by_cases h4 : a = .write w
  · subst h4
    simp only [step] at hs
    split at hs
    · cases hs
    · split at hs
      · cases hs
      · cases hs
        simp only [upd_same]
        refine ⟨ho.1, fun e1 e2 => ?_⟩
        have := ho.2 e1 e2
        have := hb w
        simp only
        omega
  · rw [sec_step hs h1 h2 h4]; exact ho

theorem behind_step {P : Par} {s s' : State} {a : Act} (hb : Behind s) (hs : step P s a = some s') : Behind s' := by
  have node : ∀ r nd', s'.node r = some nd' →
      (∃ nd, s.node r = some nd ∧
        ((nd'.buf = nd.buf ∧ nd'.seen = nd.seen) ∨
         (∃ w, a = .fetch r w ∧ nd' = { nd with buf := upd nd.buf w (s.sec w) }) ∨
         (∃ w, a = .check r w ∧ checkOne P r s.now nd w = some nd'))) ∨ nd' = Node.fresh P := by
    intro r nd' hn'
    cases hn : s.node r with
    | none =>
      rcases core_step hs hn' with ⟨nd, h, _⟩ | ⟨_, h⟩
      · rw [hn] at h; cases h
      · exact Or.inr h
    | some nd =>
      have h1 : a ≠ .leave r := by
        intro e; subst e
        simp only [step, hn] at hs
        cases hs
        simp only [upd_same] at hn'
        cases hn'
      have h2 : a ≠ .die r := by
        intro e; subst e
        simp only [step, hn] at hs
        cases hs
        simp only [upd_same] at hn'
        cases hn'
      obtain ⟨nd1, e1, e2, _⟩ := recv_step hs hn h1 h2
      rw [hn'] at e1
      cases e1
      refine Or.inl ⟨nd, rfl, ?_⟩
      rcases e2 with ⟨x, y, _⟩ | ⟨w, x, y⟩ | ⟨w, x, _, y⟩ | ⟨ok, n, q, _, _, _, y⟩
      · exact Or.inl ⟨x, y⟩
      · exact Or.inr (Or.inl ⟨w, x, y⟩)
      · exact Or.inr (Or.inr ⟨w, x, y⟩)
      · rw [y]; exact Or.inl ⟨rfl, rfl⟩
  refine ⟨?_, ?_, ?_⟩
  · intro w
    have hnow := (now_step hs).1
    have := hb.ts w
    by_cases h1 : a = .join w
    · subst h1
      simp only [step] at hs
      split at hs
      · split at hs
        · cases hs
        · cases hs; simp only [upd_same]; omega
      · cases hs
    by_cases h2 : a = .leave w
    · subst h2
      simp only [step] at hs
      split at hs
      · cases hs
      · cases hs; simp only [upd_same]; omega
    by_cases h4 : a = .write w
    · subst h4
      simp only [step] at hs
      split at hs
      · cases hs
      · split at hs
        · cases hs
        · cases hs; simp only [upd_same]; omega
    · rw [sec_step hs h1 h2 h4]; omega
  · intro r nd' w hn'
    rcases node r nd' hn' with ⟨nd, hn, ⟨x, _⟩ | ⟨w', rfl, rfl⟩ | ⟨w', rfl, hc⟩⟩ | rfl
    · rw [x]; exact old_step hb.ts hs (hb.buf r nd w hn)
    · have ho := old_step hb.ts hs (hb.buf r nd w hn)
      simp only
      by_cases hw : w = w'
      · subst hw
        rw [upd_same]
        refine old_step hb.ts hs ⟨Nat.le_refl _, fun _ _ => Nat.le_refl _⟩
      · rw [upd_other _ _ hw]; exact ho
    · have ho := old_step hb.ts hs (hb.buf r nd w hn)
      unfold checkOne at hc
      simp only at hc
      split at hc
      · cases hc
      · cases hc; exact ho
    · exact old_zero _ _
  · intro r nd' w hn'
    rcases node r nd' hn' with ⟨nd, hn, ⟨_, x⟩ | ⟨w', rfl, rfl⟩ | ⟨w', rfl, hc⟩⟩ | rfl
    · rw [x]; exact old_step hb.ts hs (hb.seen r nd w hn)
    · exact old_step hb.ts hs (hb.seen r nd w hn)
    · have ho := old_step hb.ts hs (hb.seen r nd w hn)
      have hbf := old_step hb.ts hs (hb.buf r nd w hn)
      unfold checkOne at hc
      simp only at hc
      split at hc
      · cases hc
      · rename_i n hl
        cases hc
        simp only
        by_cases hw : w = w'
        · subst hw
          rw [upd_same]
          have hk : (n.seen.ownerGen = (nd.buf w).gen ∧ n.seen.timestamp = (nd.buf w).ts) := by
            unfold HostEvent.look at hl
            simp only at hl
            split at hl
            · rename_i h; cases hl; exact ⟨h.2.1, h.2.2⟩
            · split at hl
              · cases hl; exact ⟨rfl, rfl⟩
              · split at hl
                · cases hl
                · cases hl; exact ⟨rfl, rfl⟩
                · split at hl <;> · cases hl; exact ⟨rfl, rfl⟩
          rw [hk.1, hk.2]
          exact hbf
        · rw [upd_other _ _ hw]; exact ho
    · exact old_zero _ _

theorem exec_behind {P : Par} {t0 : Nat} {H : List (State × Act)} {s : State} (hx : Exec P t0 H s) : Behind s := by
  induction hx with
  | init => exact ⟨fun w => Nat.zero_le _, fun r nd w h => (by cases h), fun r nd w h => (by cases h)⟩
  | step h hs ih => exact behind_step ih hs

theorem exec_run {P : Par} {t0 : Nat} : ∀ {as : List Act} {H : List (State × Act)} {s s' : State},
    Exec P t0 H s → run P s as = some s' → ∃ H', Exec P t0 H' s'
  | [], _, _, _, hx, hr => by cases hr; exact ⟨_, hx⟩
  | a :: as, _, s, _, hx, hr => by
    simp only [run] at hr
    split at hr
    · cases hr
    · rename_i s1 h1
      exact exec_run (Exec.step hx h1) hr

/-- The state after part of a run. -/
theorem run_append {P : Par} : ∀ {as bs : List Act} {s s' : State}, run P s (as ++ bs) = some s' →
    ∃ s1, run P s as = some s1 ∧ run P s1 bs = some s'
  | [], _, s, _, hr => ⟨s, rfl, hr⟩
  | a :: as, bs, s, s', hr => by
    simp only [List.cons_append, run] at hr ⊢
    split at hr
    · cases hr
    · rename_i s1 h1
      exact run_append hr

theorem run_now {P : Par} : ∀ {as : List Act} {s s' : State}, run P s as = some s' → s.now ≤ s'.now
  | [], _, _, hr => by cases hr; exact Nat.le_refl _
  | a :: as, s, s', hr => by
    simp only [run] at hr
    split at hr
    · cases hr
    · rename_i s1 h1
      exact Nat.le_trans (now_step h1).1 (run_now hr)

/-! ### The sender -/

/-- Between the call and the renewal that publishes the event: the bit and the event stay. -/
theorem sender_keeps {P : Par} {t0 w r t : Nat} {he : He} (hP : P.N ≤ 2000) (ht0 : t0 < 2 ^ 64) (hr : 1 ≤ r ∧ r ≤ P.N)
    (ht : 1 ≤ t) : ∀ {as : List Act} {H : List (State × Act)} {s s' : State}, Exec P t0 H s → run P s as = some s' →
    (∀ a ∈ as, a ≠ .leave w ∧ a ≠ .die w ∧ ∀ x y z, a ≠ .setEvent w x y z) → s'.now ≤ t + P.secs →
    (∃ nd, s.node w = some nd ∧ nd.ev = he ∧ t ≤ nd.bits.getD (r - 1) 0) →
    (∃ nd, s'.node w = some nd ∧ nd.ev = he ∧ t ≤ nd.bits.getD (r - 1) 0)
  | [], _, _, _, _, hrun, _, _, hk => by cases hrun; exact hk
  | a :: as, H, s, s', hx, hrun, hA, hlim, ⟨nd, hn, he1, hb⟩ => by
    simp only [run] at hrun
    split at hrun
    · cases hrun
    · rename_i s1 h1
      obtain ⟨a1, a2, a3⟩ := hA a List.mem_cons_self
      obtain ⟨nd1, hn1, _⟩ := recv_step h1 hn a1 a2
      obtain ⟨hlt, hkn⟩ := exec_known hP ht0 hx
      have k := hkn w nd hn
      have hnow1 := (now_step h1).1
      have hnow2 := run_now hrun
      refine sender_keeps hP ht0 hr ht (Exec.step hx h1) hrun (fun b hb => hA b (List.mem_cons_of_mem _ hb)) hlim
        ⟨nd1, hn1, ?_⟩
      rcases core_step h1 hn1 with ⟨m, hm, hc | ⟨tgt, he, fl, rfl, rfl⟩ | ⟨tgt, rfl, rfl⟩ | ⟨bits, bm, rfl, hcb, rfl⟩⟩ |
          ⟨rfl, rfl⟩
      · rw [hn] at hm; cases hm
        unfold core at hc
        injection hc with c1 hc
        injection hc with c2 c3
        exact ⟨c3.trans he1, by rw [c1]; exact hb⟩
      · exact absurd rfl (a3 tgt he fl)
      · rw [hn] at hm; cases hm
        refine ⟨he1, ?_⟩
        simp only
        unfold HostEvent.setHostBit
        split
        · exact hb
        split
        · exact hb
        · simp only
          rw [getD_set (by rw [k.len]; omega)]
          split
          · have := getD_le k.le (k := r - 1); omega
          · exact hb
      · rw [hn] at hm; cases hm
        refine ⟨he1, ?_⟩
        simp only
        obtain ⟨ts', bm2, f, _, _, f3, _⟩ := HostEvent.createLoop_spec (own := w) (now := s.now) (secs := P.secs)
          (ts := nd.bits) (i := 0) (bm := List.replicate HostEvent.BITMAP_SIZE 0) List.length_replicate
          (by rw [k.len]; omega)
        have : some (ts', bm2) = some (bits, bm) := by rw [← f]; exact hcb
        cases this
        rw [f3 (r - 1), HostEvent.sub64_eq (getD_le k.le) hlt]
        rw [if_neg (by omega)]
        exact hb
      · simp only [step, hn] at h1
        split at h1 <;> cases h1

/-- Between the beginning of the renewal and its write. -/
theorem prep_keeps {P : Par} {w : Nat} {x : List UInt8 × He} : ∀ {as : List Act} {s s' : State}, run P s as = some s' →
    (∀ a ∈ as, a ≠ .leave w ∧ a ≠ .die w ∧ a ≠ .prepare w ∧ a ≠ .write w ∧ a ≠ .abort w) →
    (∃ nd, s.node w = some nd ∧ nd.prep = some x) → (∃ nd, s'.node w = some nd ∧ nd.prep = some x)
  | [], _, _, hrun, _, hk => by cases hrun; exact hk
  | a :: as, s, s', hrun, hA, ⟨nd, hn, hp⟩ => by
    simp only [run] at hrun
    split at hrun
    · cases hrun
    · rename_i s1 h1
      refine prep_keeps hrun (fun b hb => hA b (List.mem_cons_of_mem _ hb)) ?_
      obtain ⟨a1, a2, a3, a4, a5⟩ := hA a List.mem_cons_self
      have other : ∀ {i : Nat} {m : Node} {m' : Node}, s.node i = some m → (i = w → m'.prep = m.prep) →
          ∃ nd, upd s.node i (some m') w = some nd ∧ nd.prep = some x := by
        intro i m m' hm hpp
        by_cases hi : w = i
        · subst hi
          rw [hn] at hm
          cases hm
          exact ⟨m', upd_same _ _ _, by rw [hpp rfl]; exact hp⟩
        · exact ⟨nd, by rw [upd_other _ _ hi]; exact hn, hp⟩
      cases a with
      | tick d =>
        simp only [step] at h1
        split at h1
        · cases h1; exact ⟨nd, hn, hp⟩
        · cases h1
      | join i =>
        simp only [step] at h1
        split at h1
        · split at h1
          · cases h1
          · rename_i hi
            cases h1
            have : w ≠ i := by intro e; subst e; rw [hn] at hi; cases hi
            exact ⟨nd, by simp only; rw [upd_other _ _ this]; exact hn, hp⟩
        · cases h1
      | leave i =>
        simp only [step] at h1
        split at h1
        · cases h1
        · cases h1
          have : w ≠ i := fun e => a1 (by rw [e])
          exact ⟨nd, by simp only; rw [upd_other _ _ this]; exact hn, hp⟩
      | die i =>
        simp only [step] at h1
        split at h1
        · cases h1
        · cases h1
          have : w ≠ i := fun e => a2 (by rw [e])
          exact ⟨nd, by simp only; rw [upd_other _ _ this]; exact hn, hp⟩
      | setEvent i tgt he fl =>
        simp only [step] at h1
        split at h1
        · cases h1
        · rename_i m hm
          cases h1
          exact other hm (fun _ => (setEvent_rest P s.now m tgt he fl).1)
      | request i tgt =>
        simp only [step] at h1
        split at h1
        · cases h1
        · rename_i m hm
          cases h1
          exact other hm (fun _ => rfl)
      | prepare i =>
        simp only [step] at h1
        split at h1
        · cases h1
        · rename_i m hm
          split at h1
          · cases h1
          · cases h1
            exact other hm (fun e => absurd (by rw [e]) a3)
      | write i =>
        simp only [step] at h1
        split at h1
        · cases h1
        · rename_i m hm
          split at h1
          · cases h1
          · cases h1
            exact other hm (fun e => absurd (by rw [e]) a4)
      | abort i =>
        simp only [step] at h1
        split at h1
        · cases h1
        · rename_i m hm
          cases h1
          exact other hm (fun e => absurd (by rw [e]) a5)
      | fetch i v =>
        simp only [step] at h1
        split at h1
        · split at h1
          · cases h1
          · rename_i m hm
            cases h1
            exact other hm (fun _ => rfl)
        · cases h1
      | check i v =>
        simp only [step] at h1
        split at h1
        · split at h1
          · cases h1
          · rename_i m hm
            split at h1
            · cases h1
            · rename_i m' hc
              cases h1
              refine other hm (fun _ => ?_)
              unfold checkOne at hc
              simp only at hc
              split at hc
              · cases hc
              · cases hc; rfl
        · cases h1
      | reg i c =>
        simp only [step] at h1
        split at h1
        · cases h1
        · rename_i m hm
          split at h1
          · cases h1
            exact other hm (fun _ => rfl)
          · cases h1
      | callback i ok =>
        simp only [step] at h1
        split at h1
        · cases h1
        · rename_i m hm
          split at h1
          · cases h1
          · cases h1
            exact other hm (fun _ => rfl)

/-! ### The receiver -/

/-- Host `r` has the note: it is in the queue or was passed on. -/
def Has (s : State) (r : Nat) (n : Note) : Prop := n ∈ s.done ∨ ∃ nd, s.node r = some nd ∧ n ∈ nd.queue

/-- The steps that may not happen between the write and the look: a further write by `w`, either host leaving. -/
def Undisturbed (r w : Nat) (as : List Act) : Prop :=
  ∀ a ∈ as, a ≠ .write w ∧ a ≠ .join w ∧ a ≠ .leave w ∧ a ≠ .leave r ∧ a ≠ .die r

theorem has_step {P : Par} {s s' : State} {a : Act} {r : Nat} {nd : Node} {n : Note} (hs : step P s a = some s')
    (hn : s.node r = some nd) (h1 : a ≠ .leave r) (h2 : a ≠ .die r) (hh : Has s r n) : Has s' r n := by
  obtain ⟨nd', hn', hc, hd⟩ := recv_step hs hn h1 h2
  rcases hh with hh | ⟨m, hm, hq⟩
  · exact Or.inl (hd n hh)
  · rw [hn] at hm; cases hm
    rcases hc with ⟨_, _, e⟩ | ⟨_, _, rfl⟩ | ⟨w, _, _, hc⟩ | ⟨ok, m, q, _, e1, e2, rfl⟩
    · exact Or.inr ⟨nd', hn', by rw [e]; exact hq⟩
    · exact Or.inr ⟨_, hn', hq⟩
    · refine Or.inr ⟨nd', hn', ?_⟩
      unfold checkOne at hc
      simp only at hc
      split at hc
      · cases hc
      · cases hc
        simp only
        split
        · exact List.mem_append_left _ hq
        · exact hq
    · rw [e1] at hq
      rcases List.mem_cons.1 hq with rfl | hq
      · exact Or.inl (by rw [e2]; exact List.mem_cons_self)
      · exact Or.inr ⟨_, hn', hq⟩

theorem exec_lens {P : Par} {t0 : Nat} {H : List (State × Act)} {s : State} (hP : P.N ≤ 2000) (h0 : t0 < 2 ^ 64)
    (hx : Exec P t0 H s) : TInv P (fun _ _ _ => True) s := by
  refine transport hP hx (fun x hxm w nd bits bm ha hnd hb => ?_)
  obtain ⟨H', hx', _⟩ := exec_mem hx x hxm
  obtain ⟨_, hk⟩ := exec_known hP h0 hx'
  refine ⟨?_, fun _ _ _ _ => trivial⟩
  obtain ⟨ts', bm2, f, f1, _⟩ := HostEvent.createLoop_spec (own := w) (now := x.1.now) (secs := P.secs)
    (ts := nd.bits) (i := 0) (bm := List.replicate HostEvent.BITMAP_SIZE 0) List.length_replicate
    (by have := (hk w nd hnd).len; omega)
  have : some (ts', bm2) = some (bits, bm) := by rw [← f]; exact hb
  cases this
  exact f1

/-- After the sector `S` of host `w` was written: `r` has the note or has not looked at `S` yet.  `f`: `r` has read
it. -/
def Waiting (s : State) (r w : Nat) (S : Sec) (f : Prop) : Prop :=
  s.sec w = S ∧ ∃ nd, s.node r = some nd ∧ (f → nd.buf w = S) ∧
    ((nd.buf w).gen = S.gen → (nd.buf w).ts = S.ts → nd.buf w = S) ∧
    (Has s r ⟨r, w, S.gen, S.he⟩ ∨ (nd.seen w).ownerGen ≠ S.gen ∨ (nd.seen w).timestamp ≠ S.ts)

theorem waiting_fetch {P : Par} {s s' : State} {r v w : Nat} {S : Sec} {f : Prop}
    (hs : step P s (.fetch r v) = some s') (hk : Waiting s r w S f) :
    Waiting s' r w S f ∧ (v = w → Waiting s' r w S True) := by
  have hsec : s'.sec w = s.sec w := sec_step hs (fun h => by cases h) (fun h => by cases h) (fun h => by cases h)
  obtain ⟨hS, nd, hn, h1, h2, h3⟩ := hk
  have hh := fun h => has_step (n := ⟨r, w, S.gen, S.he⟩) hs hn (fun h => by cases h) (fun h => by cases h) h
  simp only [step, hn] at hs
  split at hs
  · cases hs
    have hbuf : v = w → upd nd.buf v (s.sec v) w = S := fun e => by subst e; rw [upd_same]; exact hS
    have hbuf' : ¬ v = w → upd nd.buf v (s.sec v) w = nd.buf w := fun e => upd_other _ _ (fun h => e h.symm)
    have h3' := h3.imp hh id
    refine ⟨⟨hS, _, upd_same _ _ _, ?_, ?_, h3'⟩, fun e => ⟨hS, _, upd_same _ _ _, fun _ => hbuf e, fun _ _ => hbuf e, h3'⟩⟩
    · intro hf
      by_cases e : v = w
      · exact hbuf e
      · simp only; rw [hbuf' e]; exact h1 hf
    · simp only
      by_cases e : v = w
      · exact fun _ _ => hbuf e
      · rw [hbuf' e]; exact h2
  · cases hs

theorem waiting_check {P : Par} {s s' : State} {r v w : Nat} {S : Sec} {f : Prop} (hP : P.N ≤ 2000)
    (hr : 1 ≤ r ∧ r ≤ P.N) (hwr : w ≠ r) (hbit : HostEvent.bit r S.bitmap = true) (hev : S.he.event ≠ 0)
    (hl : TInv P (fun _ _ _ => True) s) (hs : step P s (.check r v) = some s') (hk : Waiting s r w S f) :
    Waiting s' r w S f ∧ (v = w → f → Has s' r ⟨r, w, S.gen, S.he⟩) := by
  obtain ⟨hS, nd, hn, h1, h2, h3⟩ := hk
  have hh := fun h => has_step (n := ⟨r, w, S.gen, S.he⟩) hs hn (fun h => by cases h) (fun h => by cases h) h
  simp only [step, hn] at hs
  split at hs
  · rename_i hv
    obtain ⟨x, ev, e, e1, e2, e3, e4⟩ := checkOne_spec (now := s.now) (nd := nd) (w := v) hP hr hv.1
      ((hl.node r nd hn).2.buf v).1
    rw [e] at hs
    cases hs
    by_cases hvw : v = w
    · subst hvw
      have key : nd.buf v = S → Has (State.mk s.now (upd s.node r (some { nd with
            seen := upd nd.seen v x,
            queue := if ev then nd.queue ++ [⟨r, v, (nd.buf v).gen, (nd.buf v).he⟩] else nd.queue }))
            s.sec s.got s.done) r ⟨r, v, S.gen, S.he⟩ := by
        intro hb
        rcases h3 with h3 | h3
        · exact hh h3
        · have : ev = true := by
            rw [e4, hb]
            exact ⟨Or.inr h3, hwr, hbit, hev⟩
          refine Or.inr ⟨_, upd_same _ _ _, ?_⟩
          simp only [this, if_true, hb]
          exact List.mem_append_right _ (List.mem_singleton.2 rfl)
      refine ⟨⟨hS, _, upd_same _ _ _, h1, h2, ?_⟩, fun _ hf => key (h1 hf)⟩
      simp only [upd_same]
      by_cases hb : nd.buf v = S
      · exact Or.inl (key hb)
      · refine Or.inr ?_
        rw [e2, e3]
        by_cases hg : (nd.buf v).gen = S.gen
        · exact Or.inr (fun ht => hb (h2 hg ht))
        · exact Or.inl hg
    · refine ⟨⟨hS, _, upd_same _ _ _, h1, h2, ?_⟩, fun hh => absurd hh hvw⟩
      simp only [upd_other _ _ (fun h => hvw h.symm : ¬ w = v)]
      exact h3.imp hh id
  · cases hs

theorem waiting_step {P : Par} {s s' : State} {a : Act} {r w : Nat} {S : Sec} {f : Prop} (hP : P.N ≤ 2000)
    (hr : 1 ≤ r ∧ r ≤ P.N) (hwr : w ≠ r) (hbit : HostEvent.bit r S.bitmap = true) (hev : S.he.event ≠ 0)
    (hl : TInv P (fun _ _ _ => True) s) (hs : step P s a = some s')
    (hA : a ≠ .write w ∧ a ≠ .join w ∧ a ≠ .leave w ∧ a ≠ .leave r ∧ a ≠ .die r)
    (hk : Waiting s r w S f) : Waiting s' r w S f := by
  have hk' := hk
  obtain ⟨a1, a2, a3, a4, a5⟩ := hA
  have hsec := sec_step hs a2 a3 a1
  obtain ⟨hS, nd, hn, h1, h2, h3⟩ := hk
  have hh := fun h => has_step (n := ⟨r, w, S.gen, S.he⟩) hs hn a4 a5 h
  obtain ⟨nd', hn', hc, _⟩ := recv_step hs hn a4 a5
  rcases hc with ⟨e1, e2, e3⟩ | ⟨v, rfl, rfl⟩ | ⟨v, rfl, hv, hcv⟩ | ⟨ok, m, q, rfl, q1, q2, rfl⟩
  · refine ⟨by rw [hsec]; exact hS, nd', hn', ?_, ?_, ?_⟩
    · rw [e1]; exact h1
    · rw [e1]; exact h2
    · rw [e2]; exact h3.imp hh id
  · exact (waiting_fetch hs hk').1
  · exact (waiting_check hP hr hwr hbit hev hl hs hk').1
  · exact ⟨by rw [hsec]; exact hS, _, hn', h1, h2, h3.imp hh id⟩

theorem waiting_run {P : Par} {t0 : Nat} {r w : Nat} {S : Sec} {f : Prop} (hP : P.N ≤ 2000) (h0 : t0 < 2 ^ 64)
    (hr : 1 ≤ r ∧ r ≤ P.N) (hwr : w ≠ r) (hbit : HostEvent.bit r S.bitmap = true) (hev : S.he.event ≠ 0) :
    ∀ {as : List Act} {H : List (State × Act)} {s s' : State}, Exec P t0 H s → run P s as = some s' →
    Undisturbed r w as → Waiting s r w S f → Waiting s' r w S f
  | [], _, _, _, _, hrun, _, hk => by cases hrun; exact hk
  | a :: as, H, s, s', hx, hrun, hu, hk => by
    simp only [run] at hrun
    split at hrun
    · cases hrun
    · rename_i s1 h1
      exact waiting_run hP h0 hr hwr hbit hev (Exec.step hx h1) hrun (fun b hb => hu b (List.mem_cons_of_mem _ hb))
        (waiting_step hP hr hwr hbit hev (exec_lens hP h0 hx) h1 (hu a List.mem_cons_self) hk)

theorem has_run {P : Par} {r : Nat} {n : Note} : ∀ {as : List Act} {s s' : State}, run P s as = some s' →
    (∀ a ∈ as, a ≠ .leave r ∧ a ≠ .die r) → (∃ nd, s.node r = some nd) → Has s r n → Has s' r n
  | [], _, _, hrun, _, _, hk => by cases hrun; exact hk
  | a :: as, s, s', hrun, hu, ⟨nd, hn⟩, hk => by
    simp only [run] at hrun
    split at hrun
    · cases hrun
    · rename_i s1 h1
      obtain ⟨a4, a5⟩ := hu a List.mem_cons_self
      obtain ⟨nd', hn', _⟩ := recv_step h1 hn a4 a5
      exact has_run hrun (fun b hb => hu b (List.mem_cons_of_mem _ hb)) ⟨nd', hn'⟩ (has_step h1 hn a4 a5 hk)

set_option maxHeartbeats 1000000 in
/-- **C52** (every host named gets the event).  From any state an execution can reach: a program on host `w` sets an
event for host `r`, or for all hosts, and gets 0.  Host `w` begins a renewal within the display period, no other event
having been set or cleared meanwhile, and the renewal writes the sector in a later second than the last one.  Host `r`
is a member then, and reads the sector and looks at it before the next renewal of `w`.  Then `r` has the event in the
queue to its programs, or has passed it on already, with the values given and the number and generation of `w`.
Missing: when the renewal comes later than the display period, the event is never published, see `lost_violated`. -/
theorem event_arrives_partial {P : Par} {t0 : Nat} (hP : P.N ≤ 2000) (ht1 : 1 ≤ t0) (ht2 : t0 < 2 ^ 64)
    {H : List (State × Act)} {s0 : State} (hx : Exec P t0 H s0) {w r tgt : Nat} {he : He} {fl : Flags} {nd0 : Node}
    (hn0 : s0.node w = some nd0) (hok : (setEvent P s0.now nd0 tgt he fl).1 = 0)
    (hf1 : fl.clearEvent = false) (hf2 : fl.clearHost = false) (hname : tgt = r ∨ fl.all = true)
    (hr : 1 ≤ r ∧ r ≤ P.N) (hwr : w ≠ r) (hev : he.event ≠ 0)
    {A B M1 M2 M3 : List Act} {s1 s2 s3 : State}
    (hrun1 : run P s0 (.setEvent w tgt he fl :: A) = some s1)
    (hA : ∀ a ∈ A, a ≠ .leave w ∧ a ≠ .die w ∧ ∀ x y z, a ≠ .setEvent w x y z)
    (hsoon : s1.now ≤ s0.now + P.secs)
    (hrun2 : run P s1 (.prepare w :: B) = some s2)
    (hB : ∀ a ∈ B, a ≠ .leave w ∧ a ≠ .die w ∧ a ≠ .prepare w ∧ a ≠ .write w ∧ a ≠ .abort w)
    (hlater : (s2.sec w).ts < s2.now) (hmem : (s2.node r).isSome)
    (hrun3 : run P s2 (.write w :: (M1 ++ .fetch r w :: (M2 ++ .check r w :: M3))) = some s3)
    (hM : Undisturbed r w (M1 ++ M2 ++ M3)) :
    ∃ n : Note, Has s3 r n ∧ n.recv = r ∧ n.sender = w ∧ n.senderGen = (s2.sec w).gen ∧ n.he.event = he.event ∧
      n.he.data = he.data ∧ (he.gen ≠ 0 → n.he.gen = he.gen) := by
  obtain ⟨hlt0, hk0⟩ := exec_known hP ht2 hx
  have hpos : ∀ {H s}, Exec P t0 H s → 1 ≤ s.now := by
    intro H s h
    induction h with
    | init => exact ht1
    | step h hs ih => exact Nat.le_trans ih (now_step hs).1
  -- the call
  simp only [run] at hrun1
  split at hrun1
  · cases hrun1
  rename_i s01 hs01
  have hx1 := Exec.step hx hs01
  have kn := hk0 w nd0 hn0
  have hev' := (fill_eq nd0 tgt he fl)
  have start : ∃ nd, s01.node w = some nd ∧ nd.ev = fill nd0 tgt he fl ∧ s0.now ≤ nd.bits.getD (r - 1) 0 := by
    simp only [step, hn0] at hs01
    cases hs01
    refine ⟨_, upd_same _ _ _, ?_⟩
    rcases setEvent_cases P s0.now nd0 tgt he fl with ⟨e, _⟩ | ⟨_, t1, t2, ⟨f, _⟩ | ⟨_, f, _⟩ | ⟨_, _, _, e⟩⟩
    · exact absurd hok e
    · rw [hf1] at f; cases f
    · rw [hf2] at f; cases f
    · rw [e]
      refine ⟨rfl, ?_⟩
      simp only
      cases hall : fl.all with
      | true =>
        simp only [if_true]
        rw [getD_map_const (by rw [List.length_set, kn.len]; omega)]
        exact Nat.le_refl _
      | false =>
        simp only [Bool.false_eq_true, if_false]
        rcases hname with rfl | h
        · rw [getD_set (by rw [kn.len]; omega), if_pos rfl]; exact Nat.le_refl _
        · rw [hall] at h; cases h
  obtain ⟨nd1, hn1, he1, hb1⟩ := sender_keeps hP ht2 hr (hpos hx) hx1 hrun1 hA hsoon start
  obtain ⟨H1, hx1'⟩ := exec_run hx1 hrun1
  obtain ⟨hlt1, hk1⟩ := exec_known hP ht2 hx1'
  have kn1 := hk1 w nd1 hn1
  -- the renewal begins
  simp only [run] at hrun2
  split at hrun2
  · cases hrun2
  rename_i s11 hs11
  have hx11 := Exec.step hx1' hs11
  obtain ⟨bits', bm, hcb, hbl, _, hbits, _⟩ := HostEvent.published (own := w) (secs := P.secs) (times := nd1.bits)
    (by rw [kn1.len]; omega) hlt1 kn1.le
  have hbit : HostEvent.bit r bm = true := by
    rw [hbits r hr.1]
    have := hpos hx
    exact ⟨by rw [kn1.len]; exact hr.2, fun h => hwr h.symm, by omega, by omega⟩
  have hprep : ∃ nd, s11.node w = some nd ∧ nd.prep = some (bm, fill nd0 tgt he fl) := by
    simp only [step, hn1, hcb] at hs11
    cases hs11
    exact ⟨_, upd_same _ _ _, by simp only; rw [he1]⟩
  obtain ⟨nd2, hn2, hp2⟩ := prep_keeps hrun2 hB hprep
  obtain ⟨H2, hx2⟩ := exec_run hx11 hrun2
  -- the write
  simp only [run] at hrun3
  split at hrun3
  · cases hrun3
  rename_i s21 hs21
  have hx21 := Exec.step hx2 hs21
  have hbeh := exec_behind hx2
  obtain ⟨ndr, hnr⟩ := Option.isSome_iff_exists.1 hmem
  have hw0 : Waiting s21 r w ⟨(s2.sec w).gen, s2.now, fill nd0 tgt he fl, bm⟩ False := by
    obtain ⟨ndr', hnr', hc, _⟩ := recv_step hs21 hnr (fun h => by cases h) (fun h => by cases h)
    have hsame : ndr'.buf = ndr.buf ∧ ndr'.seen = ndr.seen := by
      rcases hc with ⟨a, b, _⟩ | ⟨_, a, _⟩ | ⟨_, a, _⟩ | ⟨_, _, _, a, _⟩
      · exact ⟨a, b⟩
      · cases a
      · cases a
      · cases a
    simp only [step, hn2, hp2] at hs21
    cases hs21
    have ob := hbeh.buf r ndr w hnr
    have os := hbeh.seen r ndr w hnr
    rw [hn2] at ob os
    refine ⟨upd_same _ _ _, ndr', hnr', fun h => h.elim, ?_, Or.inr ?_⟩
    · rw [hsame.1]
      intro g t
      simp only at g t
      have := ob.2 rfl g
      omega
    · rw [hsame.2]
      by_cases g : (ndr.seen w).ownerGen = (s2.sec w).gen
      · have := os.2 rfl g
        exact Or.inr (by simp only; omega)
      · exact Or.inl g
  -- the receiver
  have hevf : (fill nd0 tgt he fl).event ≠ 0 := by rw [hev'.1]; exact hev
  have hu : ∀ {M}, (∀ a ∈ M, a ∈ M1 ++ M2 ++ M3) → Undisturbed r w M := fun h a ha => hM a (h a ha)
  obtain ⟨s22, r1, hrun3⟩ := run_append hrun3
  have w1 := waiting_run hP ht2 hr hwr hbit hevf hx21 r1
    (hu (fun a h => List.mem_append_left _ (List.mem_append_left _ h))) hw0
  obtain ⟨H22, hx22⟩ := exec_run hx21 r1
  simp only [run] at hrun3
  split at hrun3
  · cases hrun3
  rename_i s23 hs23
  have w2 := (waiting_fetch hs23 w1).2 rfl
  have hx23 := Exec.step hx22 hs23
  obtain ⟨s24, r2, hrun3⟩ := run_append hrun3
  have w3 := waiting_run hP ht2 hr hwr hbit hevf hx23 r2
    (hu (fun a h => List.mem_append_left _ (List.mem_append_right _ h))) w2
  obtain ⟨H24, hx24⟩ := exec_run hx23 r2
  simp only [run] at hrun3
  split at hrun3
  · cases hrun3
  rename_i s25 hs25
  obtain ⟨w4, w5⟩ := waiting_check hP hr hwr hbit hevf (exec_lens hP ht2 hx24) hs25 w3
  have hhas := w5 rfl trivial
  obtain ⟨_, nd5, hn5, _⟩ := w4
  refine ⟨_, has_run hrun3 (fun a ha => ?_) ⟨nd5, hn5⟩ hhas, rfl, rfl, rfl, hev'.1, hev'.2.1, ?_⟩
  · have := hM a (List.mem_append_right _ ha)
    exact ⟨this.2.2.2.1, this.2.2.2.2⟩
  · intro hg
    rcases hev'.2.2 with h | ⟨h, _⟩
    · exact h
    · exact absurd h hg

/-! ### From the queue to the programs -/

theorem got_step {P : Par} {s s' : State} {a : Act} (hs : step P s a = some s') : ∀ x ∈ s.got, x ∈ s'.got := by
  cases a <;> simp only [step] at hs <;> (repeat' split at hs) <;> first
    | (cases hs; done)
    | (cases hs; exact fun x h => h)
    | (cases hs; exact fun x h => List.mem_append_left _ h)

theorem regs_step {P : Par} {s s' : State} {a : Act} {r c : Nat} {nd nd' : Node} (hs : step P s a = some s')
    (hn : s.node r = some nd) (hn' : s'.node r = some nd') (hc : c ∈ nd.regs)
    (hok : ∀ ok, a = .callback r ok → ok c = true) : c ∈ nd'.regs := by
  have same : ∀ {i : Nat} {m m' : Node}, s.node i = some m →
      upd s.node i (some m') r = some nd' → (∀ c ∈ m.regs, c ∈ m'.regs) → c ∈ nd'.regs := by
    intro i m m' hm hu hr
    by_cases hi : r = i
    · subst hi
      rw [upd_same] at hu
      cases hu
      rw [hn] at hm
      cases hm
      exact hr c hc
    · rw [upd_other _ _ hi, hn] at hu
      cases hu
      exact hc
  have drop : ∀ {i : Nat}, upd s.node i none r = some nd' → c ∈ nd'.regs := by
    intro i hu
    by_cases hi : r = i
    · subst hi; rw [upd_same] at hu; cases hu
    · rw [upd_other _ _ hi, hn] at hu; cases hu; exact hc
  cases a with
  | tick d =>
    simp only [step] at hs
    split at hs
    · cases hs; simp only at hn'; rw [hn] at hn'; cases hn'; exact hc
    · cases hs
  | join i =>
    simp only [step] at hs
    split at hs
    · split at hs
      · cases hs
      · rename_i hi
        cases hs
        have : r ≠ i := by intro e; subst e; rw [hn] at hi; cases hi
        simp only [upd_other _ _ this] at hn'
        rw [hn] at hn'; cases hn'; exact hc
    · cases hs
  | leave i =>
    simp only [step] at hs
    split at hs
    · cases hs
    · cases hs; exact drop hn'
  | die i =>
    simp only [step] at hs
    split at hs
    · cases hs
    · cases hs; exact drop hn'
  | setEvent i tgt he fl =>
    simp only [step] at hs
    split at hs
    · cases hs
    · rename_i m hm
      cases hs
      exact same hm hn' (fun c h => by rw [(setEvent_rest P s.now m tgt he fl).2.2.2.2]; exact h)
  | request i tgt =>
    simp only [step] at hs
    split at hs
    · cases hs
    · rename_i m hm
      cases hs
      exact same hm hn' (fun c h => h)
  | prepare i =>
    simp only [step] at hs
    split at hs
    · cases hs
    · rename_i m hm
      split at hs
      · cases hs
      · cases hs
        exact same hm hn' (fun c h => h)
  | write i =>
    simp only [step] at hs
    split at hs
    · cases hs
    · rename_i m hm
      split at hs
      · cases hs
      · cases hs
        exact same hm hn' (fun c h => h)
  | abort i =>
    simp only [step] at hs
    split at hs
    · cases hs
    · rename_i m hm
      cases hs
      exact same hm hn' (fun c h => h)
  | fetch i v =>
    simp only [step] at hs
    split at hs
    · split at hs
      · cases hs
      · rename_i m hm
        cases hs
        exact same hm hn' (fun c h => h)
    · cases hs
  | check i v =>
    simp only [step] at hs
    split at hs
    · split at hs
      · cases hs
      · rename_i m hm
        split at hs
        · cases hs
        · rename_i m' hcv
          cases hs
          refine same hm hn' (fun c h => ?_)
          unfold checkOne at hcv
          simp only at hcv
          split at hcv
          · cases hcv
          · cases hcv; exact h
    · cases hs
  | reg i c =>
    simp only [step] at hs
    split at hs
    · cases hs
    · rename_i m hm
      split at hs
      · cases hs
        exact same hm hn' (fun c h => List.mem_append_left _ h)
      · cases hs
  | callback i ok =>
    simp only [step] at hs
    split at hs
    · cases hs
    · rename_i m hm
      split at hs
      · cases hs
      · cases hs
        by_cases hi : r = i
        · subst hi
          simp only [upd_same] at hn'
          cases hn'
          rw [hn] at hm
          cases hm
          exact List.mem_filter.2 ⟨hc, hok ok rfl⟩
        · simp only [upd_other _ _ hi] at hn'
          rw [hn] at hn'; cases hn'; exact hc

/-- The number of times the resource thread of `r` passes on an event. -/
def passes (r : Nat) : List Act → Nat
  | [] => 0
  | .callback i _ :: as => (if i = r then 1 else 0) + passes r as
  | _ :: as => passes r as

/-- **C52** (the programs).  An event in the queue of a host reaches every program registered there, once the resource
thread has passed on what was queued before it, as long as the host stays a member and sends to that program
succeed. -/
theorem program_gets {P : Par} {r c : Nat} {n : Note} : ∀ {as : List Act} {s s' : State} {nd : Node} {q1 q2 : List Note},
    run P s as = some s' → s.node r = some nd → nd.queue = q1 ++ n :: q2 → c ∈ nd.regs →
    (∀ a ∈ as, a ≠ .leave r ∧ a ≠ .die r ∧ ∀ ok, a = .callback r ok → ok c = true) →
    q1.length < passes r as → (r, c, n) ∈ s'.got
  | [], _, _, _, _, _, _, _, _, _, _, hp => by simp [passes] at hp
  | a :: as, s, s', nd, q1, q2, hrun, hn, hq, hc, hA, hp => by
    simp only [run] at hrun
    split at hrun
    · cases hrun
    · rename_i s1 h1
      obtain ⟨a4, a5, hok⟩ := hA a List.mem_cons_self
      have hA' : ∀ b ∈ as, b ≠ .leave r ∧ b ≠ .die r ∧ ∀ ok, b = .callback r ok → ok c = true :=
        fun b hb => hA b (List.mem_cons_of_mem _ hb)
      obtain ⟨nd', hn', hcase, _⟩ := recv_step h1 hn a4 a5
      have hc' := regs_step h1 hn hn' hc hok
      by_cases hcb : ∃ ok, a = .callback r ok
      · obtain ⟨ok, rfl⟩ := hcb
        simp only [passes, if_true] at hp
        simp only [step, hn, hq] at h1
        cases q1 with
        | nil =>
          simp only [List.nil_append] at h1
          cases h1
          have hin : (r, c, n) ∈ (callbacks r ok n nd.regs).1 :=
            List.mem_map.2 ⟨c, List.mem_filter.2 ⟨hc, hok ok rfl⟩, rfl⟩
          have : ∀ {as : List Act} {s s' : State}, run P s as = some s' → ∀ x ∈ s.got, x ∈ s'.got := by
            intro as
            induction as with
            | nil => intro s s' h x hx; cases h; exact hx
            | cons a as ih =>
              intro s s' h x hx
              simp only [run] at h
              split at h
              · cases h
              · rename_i s1 h1; exact ih h x (got_step h1 x hx)
          exact this hrun _ (List.mem_append_right _ hin)
        | cons m q1 =>
          simp only [List.cons_append] at h1
          cases h1
          simp only [upd_same] at hn'
          cases hn'
          refine program_gets (q1 := q1) (q2 := q2) hrun (upd_same _ _ _) rfl hc' hA' ?_
          simp only [List.length_cons] at hp
          omega
      · have hp' : q1.length < passes r as := by
          cases a with
          | callback i ok =>
            have : i ≠ r := fun e => hcb ⟨ok, by rw [e]⟩
            simp only [passes, if_neg this] at hp
            omega
          | _ => exact hp
        rcases hcase with ⟨_, _, e⟩ | ⟨_, _, rfl⟩ | ⟨v, _, _, hcv⟩ | ⟨ok, _, _, e, _⟩
        · exact program_gets (q2 := q2) hrun hn' (by rw [e]; exact hq) hc' hA' hp'
        · exact program_gets (q2 := q2) hrun hn' hq hc' hA' hp'
        · unfold checkOne at hcv
          simp only at hcv
          split at hcv
          · cases hcv
          · rename_i nt _
            cases hcv
            cases hev : nt.event with
            | false =>
              refine program_gets (q1 := q1) (q2 := q2) hrun hn' ?_ hc' hA' hp'
              simp only [hev, Bool.false_eq_true, if_false]
              exact hq
            | true =>
              refine program_gets (q1 := q1) (q2 := q2 ++ [⟨r, v, (nd.buf v).gen, (nd.buf v).he⟩]) hrun hn' ?_ hc' hA' hp'
              simp only [hev, if_true]
              rw [hq]
              simp
        · exact absurd ⟨ok, e⟩ hcb

/-! ## Examples and violations -/

/-- A lockspace of four host ids with the default display period. -/
def P4 : Par := ⟨4, 60⟩

/-- Hosts 1, 2 and 3 join; programs are registered for events on 2 and 3. -/
def joined : List Act := [.join 1, .join 2, .join 3, .reg 2 9, .reg 3 9]

/-- A whole renewal of host 1. -/
def renew1 : List Act := [.prepare 1, .write 1]

/-- Host `r` reads and looks at the sector of host 1 and passes on one event. -/
def take (r : Nat) : List Act := [.fetch r 1, .check r 1, .callback r (fun _ => true)]

/-- An action that sets event `e` with data `d` for host `r`, successful or not. -/
def namesB (r e d : Nat) : Act → Bool
  | .setEvent _ t he fl => (t == r || fl.all) && he.event == e && he.data == d
  | _ => false

/-- The event `e`, `d` arrives on host `r` from host 1 although no call in the run set it for `r`. -/
def Misdelivered (P : Par) (t0 : Nat) (as : List Act) (r e d : Nat) : Prop :=
  ∃ s, run P (State.init t0) as = some s ∧ (∃ c n, (r, c, n) ∈ s.got ∧ n.he.event = e ∧ n.he.data = d) ∧
    as.any (namesB r e d) = false

theorem exec_of_run {P : Par} {t0 : Nat} : ∀ {as : List Act} {H : List (State × Act)} {s s' : State},
    Exec P t0 H s → run P s as = some s' → ∃ H', Exec P t0 H' s' ∧ ∀ x ∈ H', x ∈ H ∨ x.2 ∈ as
  | [], H, _, _, hx, hr => by cases hr; exact ⟨H, hx, fun x hx => Or.inl hx⟩
  | a :: as, H, s, _, hx, hr => by
    simp only [run] at hr
    split at hr
    · cases hr
    · rename_i s1 h1
      obtain ⟨H', h2, h3⟩ := exec_of_run (Exec.step hx h1) hr
      refine ⟨H', h2, fun x hx => ?_⟩
      rcases h3 x hx with h | h
      · rcases List.mem_cons.1 h with rfl | h
        · exact Or.inr List.mem_cons_self
        · exact Or.inl h
      · exact Or.inr (List.mem_cons_of_mem _ h)

theorem misdelivered_not {P : Par} {t0 : Nat} {as : List Act} {r e d : Nat} (h1 : 1 ≤ t0) (h2 : t0 < 2 ^ 64)
    (hm : Misdelivered P t0 as r e d) : ¬ OnlyNamed P := by
  intro ho
  obtain ⟨s, hr, ⟨c, n, hg, he, hd⟩, ha⟩ := hm
  obtain ⟨H, hx, hH⟩ := exec_of_run Exec.init hr
  obtain ⟨x, hxm, tgt, he0, fl, nd, hacc, hn, e1, e2⟩ := ho t0 H s h1 h2 hx r c n hg
  rcases hH x hxm with h | h
  · cases h
  · rw [List.any_eq_false] at ha
    refine ha _ h ?_
    rw [hacc.1]
    simp only [namesB, e1, e2, he, hd, beq_self_eq_true, Bool.and_true, Bool.or_eq_true, beq_iff_eq]
    exact hn

/-- From a run that can be computed. -/
theorem misdelivered_of {P : Par} {t0 : Nat} {as : List Act} {r : Nat} (c : Nat) (n : Note)
    (h : (run P (State.init t0) as).map (fun s => decide ((r, c, n) ∈ s.got)) = some true)
    (h2 : as.any (namesB r n.he.event n.he.data) = false) : Misdelivered P t0 as r n.he.event n.he.data := by
  cases hr : run P (State.init t0) as with
  | none => rw [hr] at h; cases h
  | some s =>
    rw [hr] at h
    simp only [Option.map_some, Option.some.injEq, decide_eq_true_iff] at h
    exact ⟨s, hr, ⟨c, n, h, rfl, rfl⟩, h2⟩

/-- The hypotheses of `delivered_origin` and `only_named_partial` are met by an ordinary run: host 1 sets event 5 for
host 2, renews five seconds later, and host 2 gets it. -/
def ordinary : List Act :=
  joined ++ [.tick 10, .setEvent 1 2 ⟨0, 5, 7⟩ {}, .tick 5] ++ renew1 ++ take 2

example : (run P4 (State.init 1) ordinary).map (fun s => s.got) = some [(2, 9, ⟨2, 1, 1, ⟨0, 5, 7⟩⟩)] := by
  decide +kernel

/-- The history of a run. -/
def hist (P : Par) : State → List Act → List (State × Act) → Option (List (State × Act) × State)
  | s, [], H => some (H, s)
  | s, a :: as, H =>
    match step P s a with
    | none => none
    | some s' => hist P s' as ((s, a) :: H)

theorem exec_hist {P : Par} {t0 : Nat} : ∀ {as : List Act} {H H' : List (State × Act)} {s s' : State},
    Exec P t0 H s → hist P s as H = some (H', s') → Exec P t0 H' s'
  | [], _, _, _, _, hx, hr => by cases hr; exact hx
  | a :: as, H, _, s, _, hx, hr => by
    simp only [hist] at hr
    split at hr
    · cases hr
    · rename_i s1 h1
      exact exec_hist (Exec.step hx h1) hr

/-- `Plain` with data 7 for every event, as a computation. -/
def plainB (H : List (State × Act)) : Bool :=
  H.all fun x =>
    (match x.2 with
     | .request _ _ => false
     | .setEvent _ _ he fl => !fl.replace && !fl.clearEvent && he.event != 0 && he.data == 7
     | _ => true) &&
    H.all fun y =>
      match x.2, y.2 with
      | .prepare w, .setEvent v _ _ _ => w != v || x.1.now != y.1.now
      | _, _ => true

theorem plain_of {H : List (State × Act)} (h : plainB H = true) : Plain (fun _ => 7) H := by
  unfold plainB at h
  rw [List.all_eq_true] at h
  refine ⟨?_, ?_, ?_⟩
  · intro x hx w r e
    have := h x hx
    rw [e] at this
    simp at this
  · intro x hx w t he fl e
    have := h x hx
    rw [e] at this
    simp only [Bool.and_eq_true, Bool.not_eq_true', bne_iff_ne, beq_iff_eq] at this
    exact ⟨this.1.1.1.1, this.1.1.1.2, this.1.1.2, this.1.2⟩
  · intro x hx y hy w t he fl e1 e2
    have := h x hx
    rw [Bool.and_eq_true, List.all_eq_true] at this
    have := this.2 y hy
    rw [e1, e2] at this
    simpa using this

example : ∃ H s, Exec P4 1 H s ∧ Plain (fun _ => 7) H ∧ (2, 9, ⟨2, 1, 1, ⟨0, 5, 7⟩⟩) ∈ s.got := by
  have h : (hist P4 (State.init 1) ordinary []).map (fun x => (plainB x.1, decide ((2, 9, ⟨2, 1, 1, ⟨0, 5, 7⟩⟩) ∈ x.2.got))) =
      some (true, true) := by decide +kernel
  cases e : hist P4 (State.init 1) ordinary [] with
  | none => rw [e] at h; cases h
  | some x =>
    rw [e] at h
    simp only [Option.map_some, Option.some.injEq, Prod.mk.injEq, decide_eq_true_iff] at h
    exact ⟨x.1, x.2, exec_hist Exec.init e, plain_of h.1, h.2⟩

/-- The hypotheses of `event_arrives_partial` are met. -/
example : ∃ s0 nd0 s1 s2 s3, run P4 (State.init 1) (joined ++ [.tick 10]) = some s0 ∧ s0.node 1 = some nd0 ∧
    (setEvent P4 s0.now nd0 2 ⟨0, 5, 7⟩ {}).1 = 0 ∧ run P4 s0 [.setEvent 1 2 ⟨0, 5, 7⟩ {}, .tick 5] = some s1 ∧
    s1.now ≤ s0.now + P4.secs ∧ run P4 s1 [.prepare 1, .tick 1] = some s2 ∧ (s2.sec 1).ts < s2.now ∧
    (s2.node 2).isSome ∧ run P4 s2 [.write 1, .fetch 2 1, .tick 1, .check 2 1] = some s3 := by
  refine ⟨_, _, _, _, _, rfl, rfl, rfl, rfl, by decide +kernel, rfl, by decide +kernel, by decide +kernel, rfl⟩

/-- The hypotheses of `program_gets` are met. -/
example : ∃ s nd n q2 s', run P4 (State.init 1) (joined ++ [.tick 10, .setEvent 1 2 ⟨0, 5, 7⟩ {}, .tick 5] ++ renew1 ++
    [.fetch 2 1, .check 2 1]) = some s ∧ s.node 2 = some nd ∧ nd.queue = [] ++ n :: q2 ∧ 9 ∈ nd.regs ∧
    run P4 s [.callback 2 (fun _ => true)] = some s' := by
  refine ⟨_, _, _, _, _, rfl, rfl, rfl, by decide, rfl⟩

/-- **C52 fails** (lease requests).  Host 1 sets an event for host 2.  Long after the event was published and its
display period is over, a program on host 1 requests a lease that host 3 owns.  The event was kept in the record, and
the bit set for the request makes host 3 take it for its own. -/
theorem stale_event_violated : Misdelivered P4 1
    (joined ++ [.tick 10, .setEvent 1 2 ⟨0, 1, 0⟩ {}, .tick 5] ++ renew1 ++ take 2 ++ [.tick 20] ++ renew1 ++
      [.tick 100000] ++ renew1 ++ [.request 1 3, .tick 5] ++ renew1 ++ take 3) 3 1 0 :=
  misdelivered_of (as := _) 9 ⟨3, 1, 1, ⟨0, 1, 0⟩⟩ (by decide +kernel) (by decide +kernel)

/-- **C52 fails** (the example in the documentation).  "To send different event/data values to different hosts, wait
for set_bitmap_seconds between the two set_event calls": at time 10 host 1 sets an event for host 2, at time 70 another
one for host 3, and a renewal begins in the same second.  Host 2 gets the event meant for host 3. -/
theorem boundary_violated : Misdelivered P4 1
    (joined ++ [.tick 9, .setEvent 1 2 ⟨0, 1, 11⟩ {}, .tick 5] ++ renew1 ++ take 2 ++ [.tick 55] ++
      [.setEvent 1 3 ⟨0, 2, 22⟩ {}] ++ renew1 ++ take 2) 2 2 22 :=
  misdelivered_of (as := _) 9 ⟨2, 1, 1, ⟨0, 2, 22⟩⟩ (by decide +kernel) (by decide +kernel)

/-- **C52 fails** (same event, other data).  "Unless the REPLACE_EVENT flag is used, sanlock will return -EBUSY": host 1
sets event 1 with data 11 for host 2 and a second later event 1 with data 22 for host 3.  Both calls succeed, and
host 2 gets the data meant for host 3. -/
theorem same_event_violated : Misdelivered P4 1
    (joined ++ [.tick 9, .setEvent 1 2 ⟨0, 1, 11⟩ {}, .tick 1, .setEvent 1 3 ⟨0, 1, 22⟩ {}, .tick 5] ++ renew1 ++
      take 2) 2 1 22 :=
  misdelivered_of (as := _) 9 ⟨2, 1, 1, ⟨0, 1, 22⟩⟩ (by decide +kernel) (by decide +kernel)

/-- **C52 fails** (clearing).  Clearing an event leaves the bits of the hosts it was for, so that the next event, which
is then not refused, goes to them as well. -/
theorem cleared_event_violated : Misdelivered P4 1
    (joined ++ [.tick 9, .setEvent 1 2 ⟨0, 1, 11⟩ {}, .setEvent 1 2 ⟨0, 0, 0⟩ { clearEvent := true },
      .setEvent 1 3 ⟨0, 2, 22⟩ {}, .tick 5] ++ renew1 ++ take 2) 2 2 22 :=
  misdelivered_of (as := _) 9 ⟨2, 1, 1, ⟨0, 2, 22⟩⟩ (by decide +kernel) (by decide +kernel)

/-- **C52 fails** (event zero).  A call with event 0 is never refused and lets the next event replace one that is still
being shown. -/
theorem zero_event_violated : Misdelivered P4 1
    (joined ++ [.tick 9, .setEvent 1 2 ⟨0, 1, 11⟩ {}, .setEvent 1 3 ⟨0, 0, 0⟩ {},
      .setEvent 1 3 ⟨0, 2, 22⟩ {}, .tick 5] ++ renew1 ++ take 2) 2 2 22 :=
  misdelivered_of (as := _) 9 ⟨2, 1, 1, ⟨0, 2, 22⟩⟩ (by decide +kernel) (by decide +kernel)

/-- The full claim fails. -/
theorem only_named_violated : ¬ OnlyNamed P4 := misdelivered_not (by decide) (by decide) stale_event_violated

/-- **C52 fails** (lost events).  Host 1 sets an event for host 2 and gets 0.  Its renewals fail for 61 seconds, which
it survives, and then succeed again: the event is published without the bit of host 2.  Host 2 looks, as it looked all
the time, and gets nothing; the wish is forgotten. -/
theorem lost_violated :
    ((run P4 (State.init 1) (joined ++ [.tick 10])).map fun s =>
      (s.node 1).map fun nd => (setEvent P4 s.now nd 2 ⟨0, 1, 11⟩ {}).1) = some (some 0) ∧
    ((run P4 (State.init 1) (joined ++ [.tick 10, .setEvent 1 2 ⟨0, 1, 11⟩ {}, .tick 20, .prepare 1, .tick 10, .abort 1,
      .fetch 2 1, .check 2 1, .tick 20, .prepare 1, .tick 10, .abort 1, .tick 1] ++ renew1 ++
      [.fetch 2 1, .check 2 1])).map fun s =>
        ((s.node 1).map (·.bits), (s.sec 1).he, (s.node 2).map (·.queue), s.done)) =
      some (some [0, 0, 0, 0], ⟨0, 1, 11⟩, some [], []) := by
  constructor <;> decide +kernel

/-- **C52 fails** (other incarnation).  Host 1 sets an event for generation 1 of host 2.  Host 2 leaves and joins again
as generation 2 and gets the event all the same. -/
theorem incarnation_violated :
    (run P4 (State.init 1) (joined ++ [.tick 10, .setEvent 1 2 ⟨1, 1, 11⟩ {}, .tick 5] ++ renew1 ++
      [.leave 2, .tick 10, .join 2, .reg 2 9] ++ take 2)).map (fun s => (s.got, (s.sec 2).gen)) =
    some ([(2, 9, ⟨2, 1, 1, ⟨1, 1, 11⟩⟩)], 2) := by
  decide +kernel

end Sanlock.Event
