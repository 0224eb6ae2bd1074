import Verif.Event
import Verif.Props.HostEvent

/-!
# Lemmas about host events
-/

namespace Sanlock.Event

open HostEvent (Seen)

theorem upd_same {α : Type} (f : Nat → α) (i : Nat) (v : α) : upd f i v i = v := by simp [upd]

theorem upd_other {α : Type} (f : Nat → α) {i j : Nat} (v : α) (h : j ≠ i) : upd f i v j = f j := by simp [upd, h]

/-! ## From the sector to the programs

`Q r w he` is any property of an event `he` that host `w` shows to host `r`. -/

/-- Every bit of a bitmap published with an event has the property. -/
def Good (Q : Nat → Nat → He → Prop) (w : Nat) (bm : List UInt8) (he : He) : Prop :=
  bm.length = 256 ∧ ∀ j, 1 ≤ j → HostEvent.bit j bm = true → he.event ≠ 0 → Q j w he

def GoodNote (Q : Nat → Nat → He → Prop) (n : Note) : Prop :=
  n.he.event ≠ 0 ∧ n.sender ≠ n.recv ∧ Q n.recv n.sender n.he

structure TNode (Q : Nat → Nat → He → Prop) (h : Nat) (nd : Node) : Prop where
  prep : ∀ bm he, nd.prep = some (bm, he) → Good Q h bm he
  buf : ∀ w, Good Q w (nd.buf w).bitmap (nd.buf w).he
  queue : ∀ n ∈ nd.queue, n.recv = h ∧ GoodNote Q n

structure TInv (P : Par) (Q : Nat → Nat → He → Prop) (s : State) : Prop where
  node : ∀ h nd, s.node h = some nd → (1 ≤ h ∧ h ≤ P.N) ∧ TNode Q h nd
  sec : ∀ w, Good Q w (s.sec w).bitmap (s.sec w).he
  got : ∀ x ∈ s.got, x.2.2.recv = x.1 ∧ GoodNote Q x.2.2

theorem good_zero {Q : Nat → Nat → He → Prop} (w : Nat) (he : He) : Good Q w (List.replicate 256 0) he :=
  ⟨List.length_replicate, fun j _ hb => absurd hb (by rw [HostEvent.bit_zero]; decide)⟩

/-- What the beginning of a renewal hands over is good. -/
def PrepOk (P : Par) (Q : Nat → Nat → He → Prop) (x : State × Act) : Prop :=
  ∀ w nd bits bm, x.2 = .prepare w → x.1.node w = some nd →
    HostEvent.createBitmap w x.1.now P.secs nd.bits = some (bits, bm) → Good Q w bm nd.ev

theorem tnode_upd {P : Par} {Q : Nat → Nat → He → Prop} {s : State} {h : Nat} {nd' : Node} {h' : Nat} {nd : Node}
    (hi : TInv P Q s) (hr : 1 ≤ h ∧ h ≤ P.N)
    (he : upd s.node h (some nd') h' = some nd) (hn : TNode Q h nd') : (1 ≤ h' ∧ h' ≤ P.N) ∧ TNode Q h' nd := by
  by_cases hh : h' = h
  · subst hh
    rw [upd_same] at he
    cases he
    exact ⟨hr, hn⟩
  · rw [upd_other _ _ hh] at he
    exact hi.node h' nd he

theorem tnode_drop {P : Par} {Q : Nat → Nat → He → Prop} {s : State} {h h' : Nat} {nd : Node}
    (hi : TInv P Q s) (he : upd s.node h none h' = some nd) : (1 ≤ h' ∧ h' ≤ P.N) ∧ TNode Q h' nd := by
  by_cases hh : h' = h
  · subst hh
    rw [upd_same] at he
    cases he
  · rw [upd_other _ _ hh] at he
    exact hi.node h' nd he

theorem tsec_upd {Q : Nat → Nat → He → Prop} {f : Nat → Sec} {h : Nat} {x : Sec}
    (hi : ∀ w, Good Q w (f w).bitmap (f w).he) (hx : Good Q h x.bitmap x.he) (w : Nat) :
    Good Q w (upd f h x w).bitmap (upd f h x w).he := by
  by_cases hh : w = h
  · subst hh; rw [upd_same]; exact hx
  · rw [upd_other _ _ hh]; exact hi w

/-- The fields of the host that `set_event` leaves alone. -/
theorem setEvent_rest (P : Par) (now : Nat) (nd : Node) (tgt : Nat) (he : He) (fl : Flags) :
    (setEvent P now nd tgt he fl).2.prep = nd.prep ∧ (setEvent P now nd tgt he fl).2.buf = nd.buf ∧
    (setEvent P now nd tgt he fl).2.seen = nd.seen ∧ (setEvent P now nd tgt he fl).2.queue = nd.queue ∧
    (setEvent P now nd tgt he fl).2.regs = nd.regs := by
  unfold setEvent
  split
  · exact ⟨rfl, rfl, rfl, rfl, rfl⟩
  split
  · exact ⟨rfl, rfl, rfl, rfl, rfl⟩
  simp only
  split
  · exact ⟨rfl, rfl, rfl, rfl, rfl⟩
  split
  · exact ⟨rfl, rfl, rfl, rfl, rfl⟩
  split <;> exact ⟨rfl, rfl, rfl, rfl, rfl⟩

/-- One look: what it can queue. -/
theorem checkOne_spec {P : Par} {r now : Nat} {nd : Node} {w : Nat} (hP : P.N ≤ 2000) (hr : 1 ≤ r ∧ r ≤ P.N)
    (hw : 1 ≤ w) (hb : (nd.buf w).bitmap.length = 256) :
    ∃ x : Seen, ∃ ev : Bool,
      checkOne P r now nd w = some { nd with
        seen := upd nd.seen w x
        queue := if ev then nd.queue ++ [⟨r, w, (nd.buf w).gen, (nd.buf w).he⟩] else nd.queue } ∧
      x.ownerId = w ∧ x.ownerGen = (nd.buf w).gen ∧ x.timestamp = (nd.buf w).ts ∧
      (ev = true ↔ ((nd.seen w).ownerId ≠ w ∨ (nd.seen w).ownerGen ≠ (nd.buf w).gen ∨
        (nd.seen w).timestamp ≠ (nd.buf w).ts) ∧ w ≠ r ∧ HostEvent.bit r (nd.buf w).bitmap = true ∧
        (nd.buf w).he.event ≠ 0) := by
  obtain ⟨n, e, e1, _⟩ := HostEvent.notice_iff (own := r) (now := now) (secs := P.secs) (i := w - 1)
    (hs := nd.seen w) (sec := ⟨w, (nd.buf w).gen, (nd.buf w).ts, (nd.buf w).he.event, (nd.buf w).bitmap⟩)
    hb hr.1 (by omega)
  refine ⟨n.seen, n.event, ?_, ?_⟩
  · unfold checkOne
    simp only [e]
  · have hs : n.seen.ownerId = w ∧ n.seen.ownerGen = (nd.buf w).gen ∧ n.seen.timestamp = (nd.buf w).ts := by
      unfold HostEvent.look at e
      simp only at e
      split at e
      · rename_i h; cases e; exact ⟨h.1, h.2.1, h.2.2⟩
      · split at e
        · cases e; exact ⟨rfl, rfl, rfl⟩
        · split at e
          · cases e
          · cases e; exact ⟨rfl, rfl, rfl⟩
          · split at e <;> · cases e; exact ⟨rfl, rfl, rfl⟩
    refine ⟨hs.1, hs.2.1, hs.2.2, ?_⟩
    rw [e1]
    simp only
    constructor
    · rintro ⟨a, b, c⟩; exact ⟨a, by omega, c⟩
    · rintro ⟨a, b, c⟩; exact ⟨a, by omega, c⟩

theorem tinv_init {P : Par} {Q : Nat → Nat → He → Prop} {t0 : Nat} : TInv P Q (State.init t0) :=
  ⟨fun h nd he => (by cases he), fun w => good_zero w _, fun x hx => (by cases hx)⟩

theorem tinv_step {P : Par} {Q : Nat → Nat → He → Prop} {s s' : State} {a : Act} (hP : P.N ≤ 2000)
    (hi : TInv P Q s) (hp : PrepOk P Q (s, a)) (hs : step P s a = some s') : TInv P Q s' := by
  cases a with
  | tick d =>
    simp only [step] at hs
    split at hs
    · cases hs; exact ⟨hi.node, hi.sec, hi.got⟩
    · cases hs
  | join h =>
    simp only [step] at hs
    split at hs
    · rename_i hr
      split at hs
      · cases hs
      · cases hs
        refine ⟨fun h' nd he => tnode_upd hi hr he ?_, fun w => tsec_upd hi.sec (good_zero h _) w, hi.got⟩
        exact ⟨fun bm he hh => (by cases hh), fun w => good_zero w _, fun n hn => (by cases hn)⟩
    · cases hs
  | leave h =>
    simp only [step] at hs
    split at hs
    · cases hs
    · cases hs
      exact ⟨fun h' nd he => tnode_drop hi he, fun w => tsec_upd hi.sec (good_zero h _) w, hi.got⟩
  | die h =>
    simp only [step] at hs
    split at hs
    · cases hs
    · cases hs
      exact ⟨fun h' nd he => tnode_drop hi he, hi.sec, hi.got⟩
  | setEvent h tgt he fl =>
    simp only [step] at hs
    split at hs
    · cases hs
    · rename_i nd hnd
      cases hs
      obtain ⟨hr, hn⟩ := hi.node h nd hnd
      obtain ⟨e1, e2, e3, e4, e5⟩ := setEvent_rest P s.now nd tgt he fl
      refine ⟨fun h' nd' he' => tnode_upd hi hr he' ?_, hi.sec, hi.got⟩
      exact ⟨by rw [e1]; exact hn.prep, by rw [e2]; exact hn.buf, by rw [e4]; exact hn.queue⟩
  | request h tgt =>
    simp only [step] at hs
    split at hs
    · cases hs
    · rename_i nd hnd
      cases hs
      obtain ⟨hr, hn⟩ := hi.node h nd hnd
      exact ⟨fun h' nd' he' => tnode_upd hi hr he' ⟨hn.prep, hn.buf, hn.queue⟩, hi.sec, hi.got⟩
  | prepare h =>
    simp only [step] at hs
    split at hs
    · cases hs
    · rename_i nd hnd
      split at hs
      · cases hs
      · rename_i bits' bm hb
        cases hs
        obtain ⟨hr, hn⟩ := hi.node h nd hnd
        refine ⟨fun h' nd' he' => tnode_upd hi hr he' ⟨?_, hn.buf, hn.queue⟩, hi.sec, hi.got⟩
        intro bm' he' hh
        cases hh
        exact hp h nd bits' bm rfl hnd hb
  | write h =>
    simp only [step] at hs
    split at hs
    · cases hs
    · rename_i nd hnd
      split at hs
      · cases hs
      · rename_i bm he hb
        cases hs
        obtain ⟨hr, hn⟩ := hi.node h nd hnd
        refine ⟨fun h' nd' he' => tnode_upd hi hr he' ⟨fun _ _ hh => (by cases hh), hn.buf, hn.queue⟩,
          fun w => tsec_upd hi.sec (hn.prep bm he hb) w, hi.got⟩
  | abort h =>
    simp only [step] at hs
    split at hs
    · cases hs
    · rename_i nd hnd
      cases hs
      obtain ⟨hr, hn⟩ := hi.node h nd hnd
      exact ⟨fun h' nd' he' => tnode_upd hi hr he' ⟨fun _ _ hh => (by cases hh), hn.buf, hn.queue⟩, hi.sec, hi.got⟩
  | fetch r w =>
    simp only [step] at hs
    split at hs
    · split at hs
      · cases hs
      · rename_i nd hnd
        cases hs
        obtain ⟨hr, hn⟩ := hi.node r nd hnd
        exact ⟨fun h' nd' he' => tnode_upd hi hr he' ⟨hn.prep, fun w' => tsec_upd hn.buf (hi.sec w) w', hn.queue⟩,
          hi.sec, hi.got⟩
    · cases hs
  | check r w =>
    simp only [step] at hs
    split at hs
    · rename_i hw
      split at hs
      · cases hs
      · rename_i nd hnd
        obtain ⟨hr, hn⟩ := hi.node r nd hnd
        obtain ⟨x, ev, e, _, _, _, e1⟩ := checkOne_spec (now := s.now) hP hr hw.1 (hn.buf w).1
        rw [e] at hs
        simp only at hs
        cases hs
        refine ⟨fun h' nd' he' => tnode_upd hi hr he' ⟨hn.prep, hn.buf, ?_⟩, hi.sec, hi.got⟩
        simp only
        intro n hn'
        cases hev : ev with
        | false => rw [hev] at hn'; exact hn.queue n hn'
        | true =>
          rw [hev, if_pos rfl] at hn'
          rcases List.mem_append.1 hn' with h | h
          · exact hn.queue n h
          · rw [List.mem_singleton] at h
            subst h
            obtain ⟨_, a, b, c⟩ := e1.1 hev
            exact ⟨rfl, c, a, (hn.buf w).2 r hr.1 b c⟩
    · cases hs
  | reg r c =>
    simp only [step] at hs
    split at hs
    · cases hs
    · rename_i nd hnd
      split at hs
      · cases hs
        obtain ⟨hr, hn⟩ := hi.node r nd hnd
        exact ⟨fun h' nd' he' => tnode_upd hi hr he' ⟨hn.prep, hn.buf, hn.queue⟩, hi.sec, hi.got⟩
      · cases hs
  | callback r ok =>
    simp only [step] at hs
    split at hs
    · cases hs
    · rename_i nd hnd
      split at hs
      · cases hs
      · rename_i n q hq
        cases hs
        obtain ⟨hr, hn⟩ := hi.node r nd hnd
        refine ⟨fun h' nd' he' => tnode_upd hi hr he' ⟨hn.prep, hn.buf, ?_⟩, hi.sec, ?_⟩
        · intro m hm
          exact hn.queue m (by rw [hq]; exact List.mem_cons_of_mem _ hm)
        · intro x hx
          rcases List.mem_append.1 hx with h | h
          · exact hi.got x h
          · simp only [callbacks, List.mem_map] at h
            obtain ⟨c, _, rfl⟩ := h
            exact hn.queue n (by rw [hq]; exact List.mem_cons_self)

/-- Whatever holds of all that renewals hand over holds of all that programs receive. -/
theorem transport {P : Par} {t0 : Nat} {Q : Nat → Nat → He → Prop} (hP : P.N ≤ 2000) {H : List (State × Act)}
    {s : State} (hx : Exec P t0 H s) (hq : ∀ x ∈ H, PrepOk P Q x) : TInv P Q s := by
  induction hx with
  | init => exact tinv_init
  | step h hs ih =>
    exact tinv_step hP (ih (fun x hx => hq x (List.mem_cons_of_mem _ hx))) (hq _ List.mem_cons_self) hs

/-! ## What a renewal hands over -/

/-- The values of a host on which its renewals depend. -/
def core (nd : Node) : List Nat × Nat × He := (nd.bits, nd.evTime, nd.ev)

/-- What a step can do to the core of a host. -/
def Change (P : Par) (s : State) (a : Act) (h : Nat) (nd' : Node) : Prop :=
  (∃ nd, s.node h = some nd ∧
      (core nd' = core nd ∨
       (∃ tgt he fl, a = .setEvent h tgt he fl ∧ nd' = (setEvent P s.now nd tgt he fl).2) ∨
       (∃ tgt, a = .request h tgt ∧ nd' = { nd with bits := (HostEvent.setHostBit P.N s.now nd.bits tgt).2 }) ∨
       (∃ bits bm, a = .prepare h ∧ HostEvent.createBitmap h s.now P.secs nd.bits = some (bits, bm) ∧
         nd' = { nd with bits := bits, prep := some (bm, nd.ev) }))) ∨
    (a = .join h ∧ nd' = Node.fresh P)

/-- Steps of other kinds leave the core of every host alone. -/
theorem core_step {P : Par} {s s' : State} {a : Act} (hs : step P s a = some s') {h : Nat} {nd' : Node}
    (hn : s'.node h = some nd') : Change P s a h nd' := by
  have same : ∀ (i : Nat) (m m' : Node), s.node i = some m → core m' = core m →
      upd s.node i (some m') h = some nd' → ∃ nd, s.node h = some nd ∧ core nd' = core nd := by
    intro i m m' hm hc hu
    by_cases hh : h = i
    · subst hh
      rw [upd_same] at hu
      cases hu
      exact ⟨m, hm, hc⟩
    · rw [upd_other _ _ hh] at hu
      exact ⟨nd', hu, rfl⟩
  have lift : ∀ {a}, (∃ nd, s.node h = some nd ∧ core nd' = core nd) → Change P s a h nd' :=
    fun ⟨nd, h1, h2⟩ => Or.inl ⟨nd, h1, Or.inl h2⟩
  cases a with
  | tick d =>
    simp only [step] at hs
    split at hs
    · cases hs; exact lift ⟨nd', hn, rfl⟩
    · cases hs
  | join i =>
    simp only [step] at hs
    split at hs
    · split at hs
      · cases hs
      · cases hs
        by_cases hh : h = i
        · subst hh
          simp only [upd_same] at hn
          cases hn
          exact Or.inr ⟨rfl, rfl⟩
        · simp only [upd_other _ _ hh] at hn
          exact lift ⟨nd', hn, rfl⟩
    · cases hs
  | leave i =>
    simp only [step] at hs
    split at hs
    · cases hs
    · cases hs
      by_cases hh : h = i
      · subst hh; simp only [upd_same] at hn; cases hn
      · simp only [upd_other _ _ hh] at hn; exact lift ⟨nd', hn, rfl⟩
  | die i =>
    simp only [step] at hs
    split at hs
    · cases hs
    · cases hs
      by_cases hh : h = i
      · subst hh; simp only [upd_same] at hn; cases hn
      · simp only [upd_other _ _ hh] at hn; exact lift ⟨nd', hn, rfl⟩
  | setEvent i tgt he fl =>
    simp only [step] at hs
    split at hs
    · cases hs
    · rename_i nd hnd
      cases hs
      by_cases hh : h = i
      · subst hh
        simp only [upd_same] at hn
        cases hn
        exact Or.inl ⟨nd, hnd, Or.inr (Or.inl ⟨tgt, he, fl, rfl, rfl⟩)⟩
      · simp only [upd_other _ _ hh] at hn; exact lift ⟨nd', hn, rfl⟩
  | request i tgt =>
    simp only [step] at hs
    split at hs
    · cases hs
    · rename_i nd hnd
      cases hs
      by_cases hh : h = i
      · subst hh
        simp only [upd_same] at hn
        cases hn
        exact Or.inl ⟨nd, hnd, Or.inr (Or.inr (Or.inl ⟨tgt, rfl, rfl⟩))⟩
      · simp only [upd_other _ _ hh] at hn; exact lift ⟨nd', hn, rfl⟩
  | prepare i =>
    simp only [step] at hs
    split at hs
    · cases hs
    · rename_i nd hnd
      split at hs
      · cases hs
      · rename_i bits' bm hb
        cases hs
        by_cases hh : h = i
        · subst hh
          simp only [upd_same] at hn
          cases hn
          exact Or.inl ⟨nd, hnd, Or.inr (Or.inr (Or.inr ⟨bits', bm, rfl, hb, rfl⟩))⟩
        · simp only [upd_other _ _ hh] at hn; exact lift ⟨nd', hn, rfl⟩
  | write i =>
    simp only [step] at hs
    split at hs
    · cases hs
    · rename_i nd hnd
      split at hs
      · cases hs
      · cases hs
        exact lift (same i nd _ hnd (by rfl) hn)
  | abort i =>
    simp only [step] at hs
    split at hs
    · cases hs
    · rename_i nd hnd
      cases hs
      exact lift (same i nd _ hnd (by rfl) hn)
  | fetch r w =>
    simp only [step] at hs
    split at hs
    · split at hs
      · cases hs
      · rename_i nd hnd
        cases hs
        exact lift (same r nd _ hnd (by rfl) hn)
    · cases hs
  | check r w =>
    simp only [step] at hs
    split at hs
    · split at hs
      · cases hs
      · rename_i nd hnd
        split at hs
        · cases hs
        · rename_i nd1 hc
          cases hs
          refine lift (same r nd _ hnd ?_ hn)
          unfold checkOne at hc
          simp only at hc
          split at hc
          · cases hc
          · cases hc; rfl
    · cases hs
  | reg r c =>
    simp only [step] at hs
    split at hs
    · cases hs
    · rename_i nd hnd
      split at hs
      · cases hs
        exact lift (same r nd _ hnd (by rfl) hn)
      · cases hs
  | callback r ok =>
    simp only [step] at hs
    split at hs
    · cases hs
    · rename_i nd hnd
      split at hs
      · cases hs
      · cases hs
        exact lift (same r nd _ hnd (by rfl) hn)

theorem now_step {P : Par} {s s' : State} {a : Act} (hs : step P s a = some s') :
    s.now ≤ s'.now ∧ (s.now < 2 ^ 64 → s'.now < 2 ^ 64) := by
  cases a <;> simp only [step] at hs <;> (repeat' split at hs) <;> first | (cases hs; done) | (cases hs; exact ⟨by simp, by simp_all⟩)

theorem getD_set {l : List Nat} {i v k : Nat} (hi : i < l.length) :
    (l.set i v).getD k 0 = if k = i then v else l.getD k 0 := by
  rw [List.getD_eq_getElem?_getD, List.getElem?_set]
  by_cases h : i = k
  · subst h; rw [if_pos rfl, if_pos hi, if_pos rfl]; rfl
  · rw [if_neg h, if_neg (by omega), List.getD_eq_getElem?_getD]

theorem getD_map_const {l : List Nat} {v k : Nat} (hk : k < l.length) : (l.map (fun _ => v)).getD k 0 = v := by
  rw [List.getD_eq_getElem?_getD, List.getElem?_map, List.getElem?_eq_getElem hk]; rfl

theorem getD_le {l : List Nat} {b k : Nat} (h : ∀ t ∈ l, t ≤ b) : l.getD k 0 ≤ b := by
  rw [List.getD_eq_getElem?_getD]
  cases e : l[k]? with
  | none => simp
  | some t => simpa using h t (List.mem_of_getElem? e)

/-- The effect of an accepted call that sets an event. -/
theorem setEvent_cases (P : Par) (now : Nat) (nd : Node) (tgt : Nat) (he : He) (fl : Flags) :
    ((setEvent P now nd tgt he fl).1 ≠ 0 ∧ (setEvent P now nd tgt he fl).2 = nd) ∨
    ((setEvent P now nd tgt he fl).1 = 0 ∧ 1 ≤ tgt ∧ tgt ≤ P.N ∧
      ((fl.clearEvent = true ∧ (setEvent P now nd tgt he fl).2 = { nd with ev := He.zero, evTime := now }) ∨
       (fl.clearEvent = false ∧ fl.clearHost = true ∧
        (setEvent P now nd tgt he fl).2 = { nd with bits := nd.bits.set (tgt - 1) 0 }) ∨
       (fl.clearEvent = false ∧ fl.clearHost = false ∧
        (fl.replace = true ∨ P.secs ≤ HostEvent.sub64 now nd.evTime ∨ nd.ev.event = 0 ∨ he.event = 0 ∨
          nd.ev.event = he.event) ∧
        (setEvent P now nd tgt he fl).2 = { nd with evTime := now, ev := fill nd tgt he fl, bits :=
          if fl.all then (nd.bits.set (tgt - 1) now).map (fun _ => now) else nd.bits.set (tgt - 1) now }))) := by
  have hfe : (fill nd tgt he fl).event = he.event := by unfold fill; split <;> rfl
  unfold setEvent
  by_cases h1 : tgt = 0 ∨ tgt > 2000
  · rw [if_pos h1]; exact Or.inl ⟨show Rv.EINVAL ≠ 0 by decide, rfl⟩
  rw [if_neg h1]
  by_cases h2 : tgt > P.N
  · rw [if_pos h2]; exact Or.inl ⟨show Rv.EINVAL ≠ 0 by decide, rfl⟩
  rw [if_neg h2]
  simp only
  by_cases h3 : fl.clearEvent = true
  · rw [if_pos h3]
    exact Or.inr ⟨rfl, by omega, by omega, Or.inl ⟨h3, rfl⟩⟩
  rw [if_neg h3]
  have h3' : fl.clearEvent = false := by simpa using h3
  by_cases h4 : fl.clearHost = true
  · rw [if_pos h4]
    exact Or.inr ⟨rfl, by omega, by omega, Or.inr (Or.inl ⟨h3', h4, rfl⟩)⟩
  rw [if_neg h4]
  have h4' : fl.clearHost = false := by simpa using h4
  rw [hfe]
  split
  · exact Or.inl ⟨show Rv.EBUSY ≠ 0 by decide, rfl⟩
  · rename_i h5
    refine Or.inr ⟨rfl, by omega, by omega, Or.inr (Or.inr ⟨h3', h4', ?_, rfl⟩)⟩
    cases hr : fl.replace with
    | true => exact Or.inl rfl
    | false =>
      refine Or.inr ?_
      simp only [hr, true_and] at h5
      omega

end Sanlock.Event
