import Verif.Lemmas.Descr

/-!
# I/O is done only for files that the call has tried to open

`tried` follows a tree with the file that was last tried for each variable.
-/

namespace Sanlock.Descr

/-- Every I/O of the tree is for the file that was last tried, and not closed since, in its variable. -/
def tried : Prog → (Nat → Option Nat) → Prop
  | .ret _, _ => True
  | .open v f ok err, T => tried ok (set T v (some f)) ∧ tried err (set T v (some f))
  | .io v f p, T => T v = some f ∧ tried p T
  | .closeDisk v p, T => tried p (set T v none)
  | .close v p, T => tried p (set T v none)
  | .move v w p, T => tried p (set (set T w (T v)) v none)
  | .ifSet _ p q, T => tried p T ∧ tried q T
  | .alt p q, T => tried p T ∧ tried q T
  | .fault _ p q, T => tried p T ∧ tried q T

/-- All of `ds` were tried. -/
def On (ds : List (Nat × Nat)) (T : Nat → Option Nat) : Prop := ∀ d ∈ ds, T d.1 = some d.2

variable {p ok err fail : Prog} {T : Nat → Option Nat} {ds : List (Nat × Nat)} {h : Nat × Nat}

theorem tried_closeDisks : ∀ {T : Nat → Option Nat},
    (∀ T', (∀ v, v ∉ ds.map (·.1) → T' v = T v) → tried p T') → tried (closeDisks ds p) T := by
  induction ds with
  | nil => intro T hp; exact hp T fun _ _ => rfl
  | cons d ds ih =>
    intro T hp
    refine ih fun T' hT => hp T' fun v hv => ?_
    simp only [List.map_cons, List.mem_cons, not_or] at hv
    rw [hT v hv.2, set_apply, if_neg hv.1]

theorem tried_ioDisks (hon : On ds T) (hp : tried p T) : tried (ioDisks ds p) T := by
  induction ds with
  | nil => exact hp
  | cons d ds ih => exact ⟨hon d (List.mem_cons_self ..), ih fun e he => hon e (List.mem_cons_of_mem _ he)⟩

theorem tried_openLoop {n : Nat} (fail : Prog) (ds : List (Nat × Nat)) : ∀ (T : Nat → Option Nat) (num : Nat), Vars ds →
    (∀ T', On ds T' → (∀ v, v ∉ ds.map (·.1) → T' v = T v) → tried ok T') →
    (∀ T', (∀ v, v ∉ ds.map (·.1) → T' v = T v) → tried fail T') → tried (openLoop n ok fail ds num) T := by
  induction ds with
  | nil =>
    intro T num _ hok hf
    simp only [openLoop]
    split
    · exact hok T (fun _ e => absurd e List.not_mem_nil) fun _ _ => rfl
    · exact hf T fun _ _ => rfl
  | cons d ds ih =>
    intro T num hv hok hf
    have hv' : d.1 ∉ ds.map (·.1) ∧ (ds.map (·.1)).Nodup := by
      simpa [Vars, List.nodup_cons] using hv
    have key : ∀ num, tried (openLoop n ok fail ds num) (set T d.1 (some d.2)) := by
      intro num
      refine ih _ num hv'.2 ?_ ?_
      · intro T' hon hT
        refine hok T' ?_ ?_
        · intro e he
          rcases List.mem_cons.1 he with e1 | he
          · subst e1
            rw [hT _ hv'.1, set_apply, if_pos rfl]
          · exact hon e he
        · intro v hvn
          simp only [List.map_cons, List.mem_cons, not_or] at hvn
          rw [hT v hvn.2, set_apply, if_neg hvn.1]
      · intro T' hT
        refine hf T' fun v hvn => ?_
        simp only [List.map_cons, List.mem_cons, not_or] at hvn
        rw [hT v hvn.2, set_apply, if_neg hvn.1]
    exact ⟨hf T fun _ _ => rfl, key _, key _⟩

theorem tried_openDisks (hv : Vars ds) (hok : ∀ T', On ds T' → (∀ v, v ∉ ds.map (·.1) → T' v = T v) → tried ok T')
    (hf : ∀ T', (∀ v, v ∉ ds.map (·.1) → T' v = T v) → tried fail T') : tried (openDisks ds ok fail) T := by
  refine tried_openLoop _ ds T 0 hv hok fun T' hT => tried_closeDisks fun T2 hT2 => hf T2 fun v hvn => ?_
  rw [hT2 v hvn, hT v hvn]

/-- A tree that may start when `ds` were tried. -/
def After (ds : List (Nat × Nat)) (p : Prog) : Prop := ∀ T, On ds T → tried p T

theorem after_close (p : Prog) (hp : ∀ T, tried p T) : After ds (closeDisks ds p) :=
  fun _ _ => tried_closeDisks fun T' _ => hp T'

theorem On.keep {T T' : Nat → Option Nat} {hs : List (Nat × Nat)} (ho : On ds T) (hh : ∀ d ∈ ds, d.1 ∉ hs.map (·.1))
    (hT : ∀ v, v ∉ hs.map (·.1) → T' v = T v) : On ds T' := fun d hd => by rw [hT _ (hh d hd)]; exact ho d hd

theorem tried_leaseOut {o : Bool} (hh : ∀ d ∈ ds, d.1 ≠ h.1) (hp : After ds p) (ho : On ds T) : tried (leaseOut h o p) T := by
  unfold leaseOut
  split
  · exact tried_closeDisks fun T' hT => hp T' (ho.keep (hs := [h]) (fun d hd => by simpa using hh d hd) hT)
  · exact hp T ho

theorem tried_leaseRun {o : Bool} {again : Prog} (hh : ∀ d ∈ ds, d.1 ≠ h.1) (hok : After ds ok) (herr : After ds err)
    (ho : On ds T) (ha : tried again T) : tried (leaseRun ds h o ok err again) T :=
  tried_ioDisks ho ⟨tried_leaseOut hh hok ho, tried_leaseOut hh herr ho, ha⟩

theorem tried_leaseWait {again : Prog} (hh : ∀ d ∈ ds, d.1 ≠ h.1) (hok : After ds ok) (herr : After ds err)
    (ho : On ds T) (hT : T h.1 = some h.2) (ha : tried again T) : tried (leaseWait ds h ok err again) T :=
  ⟨hT, tried_leaseOut hh herr ho, tried_leaseRun hh hok herr ho ha, tried_ioDisks ho ⟨tried_leaseOut hh herr ho, ha⟩⟩

theorem tried_acquireLease (hh : ∀ d ∈ ds, d.1 ≠ h.1) (hok : After ds ok) (herr : After ds err) :
    ∀ (k : Nat) (o : Bool) (T : Nat → Option Nat), On ds T → (o = true → T h.1 = some h.2) →
      tried (acquireLease ds h ok err k o) T := by
  intro k
  induction k with
  | zero => intro o T ho _; exact tried_leaseOut hh herr ho
  | succ k ih =>
    intro o T ho hT
    refine tried_ioDisks ho ⟨tried_leaseOut hh herr ho, tried_leaseRun hh hok herr ho (ih o T ho hT), ?_⟩
    cases o with
    | true => exact tried_leaseWait hh hok herr ho (hT rfl) (ih true T ho fun _ => hT rfl)
    | false =>
      have hk : ∀ T', (∀ v, v ∉ [h].map (·.1) → T' v = T v) → On ds T' := fun T' h2 =>
        ho.keep (hs := [h]) (fun d hd => by simpa using hh d hd) h2
      have hop : tried (openDisks [h] (leaseWait ds h ok err (acquireLease ds h ok err k true)) err) T := by
        refine tried_openDisks (by simp [Vars]) ?_ fun T' h2 => herr T' (hk T' h2)
        intro T' h1 h2
        have := h1 h (List.mem_singleton_self h)
        exact tried_leaseWait hh hok herr (hk T' h2) this (ih true T' (hk T' h2) fun _ => this)
      exact ⟨herr T ho, hop⟩

theorem after_release_opened {next : Prog} (hn : ∀ T, tried next T) : After ds (releaseToken ds true false next) :=
  fun T ho => ⟨after_close next hn T ho, after_close next hn T ho, tried_ioDisks ho (after_close next hn T ho)⟩

theorem tried_release {next : Prog} {nodisk : Bool} (hv : Vars ds) (hn : ∀ T, tried next T) :
    tried (releaseToken ds false nodisk next) T := by
  refine ⟨tried_closeDisks fun T' _ => hn T', ?_⟩
  cases nodisk with
  | true => exact hn T
  | false =>
    exact tried_openDisks hv
      (fun T' ho _ => ⟨after_close next hn T' ho, tried_ioDisks ho (after_close next hn T' ho)⟩) fun T' _ => hn T'

theorem after_acquireLoop (hh : ∀ d ∈ ds, d.1 ≠ h.1) (k : Nat) : ∀ j, After ds (acquireLoop ds h k j) := by
  have hr : After ds (releaseToken ds true false (.ret false)) := after_release_opened fun _ => trivial
  intro j
  induction j with
  | zero => exact hr
  | succ j ih =>
    intro T ho
    have h1 : After ds (.alt (ioDisks ds (releaseToken ds true false (.ret false))) (ioDisks ds (closeDisks ds (.ret true)))) :=
      fun T' ho' => ⟨tried_ioDisks ho' (hr T' ho'), tried_ioDisks ho' (after_close (.ret true) (fun _ => trivial) T' ho')⟩
    have h2 : After ds (.alt (releaseToken ds true false (.ret false)) (acquireLoop ds h k j)) :=
      fun T' ho' => ⟨hr T' ho', ih T' ho'⟩
    exact tried_acquireLease hh h1 h2 k false T ho fun e => by cases e

theorem tried_sysfs {y : Nat} (hp : ∀ T', (∀ v, v ≠ 3 → T' v = T v) → tried p T') : tried (sysfs y p) T := by
  refine ⟨hp T fun _ _ => rfl, ⟨by simp [set_apply], ?_⟩, ?_⟩
  · exact hp _ fun v hv => by simp [set_apply, hv]
  · exact hp _ fun v hv => by simp [set_apply, hv]

theorem tried_renewals {f w : Nat} {wd : Bool} (h0 : T 0 = some f) (h2 : wd = true → T 2 = some w) (hp : tried p T) :
    ∀ n, tried (renewals f w wd p n) T := by
  intro n
  induction n with
  | zero => exact hp
  | succ n ih =>
    refine ⟨h0, ?_⟩
    cases wd with
    | true => exact ⟨⟨h2 rfl, ih⟩, ih⟩
    | false => exact ih

theorem tried_spaceOut : tried spaceOut T := trivial

theorem tried_spaceThread (f w y : Nat) (wd : Bool) (n : Nat) : tried (spaceThread f w y wd n) T := by
  have last : ∀ T' : Nat → Option Nat, T' 0 = some f →
      tried (if wd then
        .open 1 w
          (.io 1 w (.fault .wdFails (.close 2 spaceOut)
            (.io 0 f (.alt (.close 1 spaceOut)
              (.io 1 w (.alt (.close 1 (.io 0 f spaceOut))
                (.move 1 2 (renewals f w true (.close 2 (.io 0 f spaceOut)) n))))))))
          spaceOut
       else .io 0 f (.alt spaceOut (renewals f w false (.io 0 f spaceOut) n))) T' := by
    intro T' h0
    cases wd with
    | false =>
      have h : tried (renewals f w false (.io 0 f spaceOut) n) T' :=
        tried_renewals h0 (fun e => by cases e) (show tried (.io 0 f spaceOut) T' from ⟨h0, trivial⟩) n
      exact ⟨h0, trivial, h⟩
    | true =>
      refine ⟨⟨by simp [set_apply], trivial, by simp [set_apply, h0], trivial, by simp [set_apply],
        ⟨by simp [set_apply, h0], trivial⟩, ?_⟩, trivial⟩
      have h : ∀ T2 : Nat → Option Nat, T2 0 = some f → T2 2 = some w →
          tried (renewals f w true (.close 2 (.io 0 f spaceOut)) n) T2 := fun T2 e0 e2 =>
        tried_renewals e0 (fun _ => e2)
          (show tried (.close 2 (.io 0 f spaceOut)) T2 from ⟨by simp [set_apply, e0], trivial⟩) n
      exact h _ (by simp [set_apply, h0]) (by simp [set_apply])
  refine ⟨⟨by simp [set_apply], trivial, ?_⟩, trivial⟩
  refine tried_sysfs fun T1 h1 => tried_sysfs fun T2 h2 => tried_sysfs fun T3 h3 => ⟨trivial, last T3 ?_⟩
  rw [h3 0 (by decide), h2 0 (by decide), h1 0 (by decide)]
  simp [set_apply]

theorem number_tried (fs : List Nat) : ∀ i, (∀ d ∈ number i fs, i ≤ d.1 ∧ d.1 < i + fs.length) ∧ Vars (number i fs) := by
  induction fs with
  | nil => intro i; exact ⟨fun _ e => absurd e List.not_mem_nil, List.nodup_nil⟩
  | cons f fs ih =>
    intro i
    obtain ⟨h1, h2⟩ := ih (i + 1)
    refine ⟨?_, ?_⟩
    · intro d hd
      simp only [number, List.mem_cons] at hd
      simp only [List.length_cons]
      rcases hd with e | hd
      · rw [e]; exact ⟨Nat.le_refl i, by simp only; omega⟩
      · have := h1 d hd; omega
    · simp only [Vars, number, List.map_cons, List.nodup_cons]
      refine ⟨?_, h2⟩
      intro hm
      obtain ⟨d, hd, e⟩ := List.mem_map.1 hm
      have := (h1 d hd).1
      omega

theorem tried_prog (c : Cmd) (T : Nat → Option Nat) : tried c.prog T := by
  have cl : ∀ {ds : List (Nat × Nat)} {r : Bool}, After ds (closeDisks ds (.ret r)) := after_close _ fun _ => trivial
  cases c with
  | acquire fs hf k j =>
    obtain ⟨h1, h2⟩ := number_tried fs 0
    have hh : ∀ d ∈ number 0 fs, d.1 ≠ fs.length := fun d hd => by have := h1 d hd; omega
    exact ⟨trivial, trivial,
      tried_openDisks h2 (fun T' ho _ => cl T' ho) (fun T' _ => tried_release h2 fun _ => trivial),
      tried_openDisks h2 (fun T' ho _ => after_acquireLoop (h := (fs.length, hf)) hh k j T' ho)
        (fun T' _ => tried_release h2 fun _ => trivial)⟩
  | release fs => exact tried_release (number_tried fs 0).2 fun _ => trivial
  | convert fs hf k =>
    obtain ⟨h1, h2⟩ := number_tried fs 0
    have hh : ∀ d ∈ number 0 fs, d.1 ≠ fs.length := fun d hd => by have := h1 d hd; omega
    refine ⟨trivial, tried_openDisks h2 (fun T' ho _ => ⟨tried_ioDisks ho (cl T' ho), ?_⟩) fun _ _ => trivial⟩
    exact tried_acquireLease (h := (fs.length, hf)) hh (fun T2 ho2 => tried_ioDisks ho2 (cl T2 ho2))
      (fun T2 ho2 => tried_ioDisks ho2 (cl T2 ho2)) k false T' ho fun e => by cases e
  | disks fs =>
    exact ⟨trivial, tried_openDisks (number_tried fs 0).2
      (fun T' ho _ => ⟨cl T' ho, tried_ioDisks ho (cl T' ho)⟩) fun _ _ => trivial⟩
  | disk f =>
    exact ⟨trivial, ⟨trivial, by simp [set_apply], trivial, by simp [set_apply], trivial⟩, trivial⟩
  | format f =>
    exact ⟨⟨trivial, trivial, by simp [set_apply], trivial, by simp [set_apply], trivial⟩, trivial⟩
  | change f hf k =>
    have e : (set T 0 (some f)) 0 = some f := by simp [set_apply]
    refine ⟨⟨trivial, e, trivial, ⟨e, trivial⟩, ?_⟩, trivial⟩
    have h1 : After [(0, f)] (.io 0 f (.closeDisk 0 (.ret true))) :=
      fun T' ho => ⟨ho (0, f) (List.mem_singleton_self _), trivial⟩
    have h2 : After [(0, f)] (.closeDisk 0 (.ret false)) := fun T' ho => trivial
    refine tried_acquireLease (h := (1, hf)) (fun d hd => ?_) h1 h2 k false _ (fun d hd => ?_) fun e => by cases e
    · rw [List.mem_singleton.1 hd]; exact (by decide : (0 : Nat) ≠ 1)
    · rw [List.mem_singleton.1 hd]; exact e
  | space f w y wd n => exact tried_spaceThread f w y wd n
  | client f => exact ⟨⟨trivial, by simp [set_apply], trivial⟩, trivial⟩

/-- What was tried and is not open was a failure; I/O reaches no file only after one. -/
structure Inv2 (s : State) : Prop where
  thr : ∀ t p σ, s.thr t = some (p, σ) → ∃ T, tried p T ∧ ∀ v f, T v = some f → σ v = -1 → (t, f) ∈ s.miss
  lost : ∀ t f, (t, f) ∈ s.lost → (t, f) ∈ s.miss

theorem Inv2.goOn {s : State} {t : Nat} {p : Prog} {σ : Nat → Int} {T : Nat → Option Nat} {tab' hits' closes' lost' miss' ev'}
    (h : Inv2 s) (hp : tried p T) (hT : ∀ v f, T v = some f → σ v = -1 → (t, f) ∈ miss')
    (hm : ∀ x, x ∈ s.miss → x ∈ miss') (hl : ∀ u f, (u, f) ∈ lost' → (u, f) ∈ miss') :
    Inv2 (Descr.goOn ⟨tab', s.thr, hits', closes', lost', miss', ev'⟩ t p σ) where
  thr u q τ e := by
    simp only [Descr.goOn, set_apply] at e
    split at e
    · rename_i hu
      subst hu
      cases e
      exact ⟨T, hp, hT⟩
    · obtain ⟨T', h1, h2⟩ := h.thr u q τ e
      exact ⟨T', h1, fun v f hv hs => hm _ (h2 v f hv hs)⟩
  lost := hl

theorem Inv2.move {K own lim} {s : State} {t : Nat} {b : Bool} {p : Prog} {σ : Nat → Int} (h : Inv2 s) (hi : Inv K own s)
    (ht : s.thr t = some (p, σ)) (hev : (Descr.move lim s t b p σ).ev = []) : Inv2 (Descr.move lim s t b p σ) := by
  obtain ⟨T, hp, hT⟩ := h.thr t p σ ht
  have same : ∀ q : Prog, tried q T → Inv2 (Descr.goOn s t q σ) := fun q hq => h.goOn hq hT (fun _ e => e) h.lost
  cases p with
  | ret r => exact h
  | «open» v f ok err =>
    simp only [Descr.move]
    split
    · rename_i n hl
      refine h.goOn (miss' := s.miss) (lost' := s.lost) hp.1 ?_ (fun _ e => e) h.lost
      intro w g hw hs
      simp only [set_apply] at hw hs
      split at hw
      · rename_i e
        rw [if_pos e] at hs
        omega
      · rename_i e
        rw [if_neg e] at hs
        exact hT w g hw hs
    · refine h.goOn (miss' := (t, f) :: s.miss) (lost' := s.lost) hp.2 ?_ (fun _ e => List.mem_cons_of_mem _ e)
        (fun u g hm => List.mem_cons_of_mem _ (h.lost u g hm))
      intro w g hw hs
      simp only [set_apply] at hw
      split at hw
      · cases hw; exact List.mem_cons_self ..
      · exact List.mem_cons_of_mem _ (hT w g hw hs)
  | io v f p =>
    refine h.goOn (miss' := s.miss) hp.2 hT (fun _ e => e) ?_
    intro u g hm
    split at hm
    · rename_i hn
      rcases List.mem_cons.1 hm with e | hm
      · have e1 : u = t := (Prod.mk.inj e).1
        have e2 : g = f := (Prod.mk.inj e).2
        subst e1 e2
        have hx : σ v = -1 := by
          have := (hi.move ht hev).hits (σ v) g ((entry s.tab (σ v)).map (·.file)) (List.mem_cons_self ..)
          rcases this with h1 | h1
          · exact h1.1
          · rw [Option.isNone_iff_eq_none.1 hn] at h1
            cases h1
        exact hT v g hp.1 hx
      · exact h.lost u g hm
    · exact h.lost u g hm
  | closeDisk v p =>
    have key : ∀ τ : Nat → Int, (∀ w, w ≠ v → τ w = σ w) →
        ∀ w g, (set T v none) w = some g → τ w = -1 → (t, g) ∈ s.miss := by
      intro τ hτ w g hw hs
      simp only [set_apply] at hw
      split at hw
      · cases hw
      · rename_i e
        rw [hτ w e] at hs
        exact hT w g hw hs
    simp only [Descr.move]
    split
    · exact h.goOn hp (key σ fun _ _ => rfl) (fun _ e => e) h.lost
    · exact h.goOn hp (key _ fun w hw => by simp [set_apply, hw]) (fun _ e => e) h.lost
  | close v p =>
    refine h.goOn hp (T := set T v none) ?_ (fun _ e => e) h.lost
    intro w g hw hs
    simp only [set_apply] at hw
    split at hw
    · cases hw
    · exact hT w g hw hs
  | move v w p =>
    refine h.goOn hp (T := set (set T w (T v)) v none) ?_ (fun _ e => e) h.lost
    intro u g hu hs
    simp only [set_apply] at hu hs
    split at hu
    · cases hu
    · split at hu
      · rename_i e
        rw [if_pos e] at hs
        exact hT v g hu hs
      · rename_i e
        rw [if_neg e] at hs
        exact hT u g hu hs
  | ifSet v p q =>
    simp only [Descr.move]
    split
    · exact same q hp.2
    · exact same p hp.1
  | alt p q =>
    simp only [Descr.move]
    split
    · exact same p hp.1
    · exact same q hp.2
  | fault e p q =>
    simp only [Descr.move]
    split
    · exact h.goOn hp.1 hT (fun _ e => e) h.lost
    · exact same q hp.2

theorem Inv2.step {K own lim} {s : State} {c : Choice} (h : Inv2 s) (hi : Inv K own s)
    (hev : (Descr.step lim s c).ev = []) : Inv2 (Descr.step lim s c) := by
  cases c with
  | start t d =>
    simp only [Descr.step]
    split
    · exact h
    · exact h.goOn (tried_prog d fun _ => none) (fun _ _ e => by cases e) (fun _ e => e) h.lost
  | go t b =>
    cases e : s.thr t with
    | none =>
      simp only [Descr.step, e]
      exact h
    | some q =>
      simp only [Descr.step, e] at hev ⊢
      exact h.move hi e hev

theorem inv2_run {own lim} (cs : List Choice) : ∀ {s : State}, Inv2 s → Inv (fun _ => false) own s →
    (run lim s cs).ev = [] → Inv2 (run lim s cs) := by
  induction cs with
  | nil => intro s h _ _; exact h
  | cons c cs ih =>
    intro s h hi hev
    have hev' : (Descr.step lim s c).ev = [] := run_ev (cs := cs) hev
    exact ih (h.step hi hev') (hi.step (fun _ _ _ e => by cases e) hev') hev

theorem inv2_start (own : Nat → Option Nat) : Inv2 (start own) :=
  ⟨fun _ _ _ e => (by cases e), fun _ _ e => (by cases e)⟩

end Sanlock.Descr
