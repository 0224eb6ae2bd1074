import Verif.Lemmas.Resetd

/-!
# C67: `sanlk-resetd` watches the lockspaces it was told to watch

An entry `⟨some x, some f, some f⟩` of the table is a lockspace `x` that is watched: events that arrive on the
registration `f` are read in the next pass.  All theorems are about every start, every sequence of passes and every
result of the calls made.
-/

namespace Sanlock.Resetd

open Sanlock.ResetTool

/-- The bytes of a name in the examples. -/
abbrev nm (c : UInt8) : Bytes := [c]

/-! ## The table and the registrations -/

/-- Every registration that is open belongs to exactly one entry, which has its name; every entry with a name has one
open registration, made for that name.  So nothing leaks, nothing is closed twice, and no lockspace is answered on
behalf of another. -/
theorem table_sound (w q m : Bool) (delay : Int) (args : List (Bytes × RegRes)) (qs : List Poll) :
    let s := run (start w q m delay args) qs
    (∀ f x, (f, x) ∈ s.open_ → Eff.reg x f ∈ s.log ∧ ∃ i, (s.slot i).fd = some f ∧ (s.slot i).name = some x ∧
      ∀ j, (s.slot j).fd = some f → j = i) ∧
    (∀ i x, (s.slot i).name = some x → ∃ f, (s.slot i).fd = some f ∧ (f, x) ∈ s.open_ ∧
      ∀ g, (s.slot i).poll = some g → g = f) ∧
    (∀ i, (s.slot i).name = none → (s.slot i).fd = none ∧ (s.slot i).poll = none) ∧ s.open_.Nodup := by
  intro s
  have h : WF s := wf_all w q m delay args qs
  have hh : Hist s := hist_all w q m delay args qs
  refine ⟨?_, ?_, ?_, h.nodup⟩
  · intro f x hf
    obtain ⟨_, i, a, b⟩ := h.own f x hf
    exact ⟨hh.reg f x hf, i, a, b, fun j hj => h.inj j i f hj a⟩
  · intro i x hi
    obtain ⟨f, a, b, c⟩ := h.used i x hi
    refine ⟨f, a, c, ?_⟩
    intro g hg
    rcases b with b | b
    · rw [b] at hg; cases hg; rfl
    · rw [b] at hg; cases hg
  · intro i hi
    rw [h.free i hi]; exact ⟨rfl, rfl⟩

example :
    (run (start true false false 25 [(nm 97, .ok), (nm 98, .fail), (nm 99, .ok)])
      [.ready { upd := some (datagram wReg (nm 100)) }]).open_ = [(2, nm 100), (1, nm 99), (0, nm 97)] := by
  decide +kernel

/-- A watched lockspace stays watched, in every pass, until its registration is ended or a reply to a request is sent
in that lockspace. -/
theorem watched_until (w q m : Bool) (delay : Int) (args : List (Bytes × RegRes)) (qs rs : List Poll) (i : Nat)
    (x : Bytes) (f : Nat) (h : (run (start w q m delay args) qs).slot i = ⟨some x, some f, some f⟩) :
    (run (start w q m delay args) (qs ++ rs)).slot i = ⟨some x, some f, some f⟩ ∨
    ∃ l, (run (start w q m delay args) (qs ++ rs)).log = (run (start w q m delay args) qs).log ++ l ∧
      (Eff.ended x (some f) ∈ l ∨ ∃ a b, Eff.act (some x) (.reply i a b) ∈ l) := by
  have hr : ∀ (s : S) (a b : List Poll), run s (a ++ b) = run (run s a) b := by
    intro s a b
    induction a generalizing s with
    | nil => rfl
    | cons c a ih => exact ih _
  rw [hr]
  exact keep_ops (ops_run (wf_all ..) rs) i x f h

example : (run (start true false false 25 [(nm 97, .ok)]) ([] ++ [.intr, .ready { upd := some (datagram wReg (nm 98)) }])).slot 0
    = ⟨some (nm 97), some 0, some 0⟩ := by decide +kernel

/-- And it is ended only for a reason: an update that names it, `clear`, a hang-up or a failed read on its own
descriptor, or the end of the daemon. -/
theorem kept (s : S) (hq : s.quit = false) (p : Ready) (i : Nat) (x : Bytes) (f : Nat)
    (h : s.slot i = ⟨some x, some f, some f⟩) (hs : p.sig ≠ some true)
    (hu : ∀ b, p.upd = some b → parse b ≠ some (.reg x) ∧ parse b ≠ some (.end_ x) ∧ parse b ≠ some .clear)
    (hh : (p.ins.getD i {}).hup = false) (he : (p.ins.getD i {}).pin = true → (p.ins.getD i {}).evs = []) :
    (pass s (.ready p)).slot i = ⟨some x, some f, some f⟩ := by
  obtain ⟨t, h1, h2, _⟩ := pass_ready hq p hs
  rw [h1]
  refine sweep_quiet ?_ _ ?_
  · have := front_ne h p (by
      intro u hau
      simp only [asked] at hau
      cases ho : s.updOpen with
      | false => rw [ho] at hau; cases hau
      | true =>
        rw [ho] at hau
        cases hb : p.upd with
        | none => rw [hb] at hau; cases hau
        | some b =>
          rw [hb] at hau
          obtain ⟨c1, c2, c3⟩ := hu b hb
          have hau : parse b = some u := hau
          rw [hau] at c1 c2 c3
          exact ⟨fun e => c1 (by rw [e]), fun e => c2 (by rw [e]), fun e => c3 (by rw [e])⟩)
    simp only [S.slot, h2]
    exact this
  · intro e hm
    obtain ⟨_, rfl⟩ := mem_revents hm
    rw [h]
    exact ⟨hh, he⟩

example : parse (datagram wReg (nm 98)) ≠ some (.reg (nm 97)) ∧ parse (datagram wReg (nm 98)) ≠ some (.end_ (nm 97)) ∧
    parse (datagram wReg (nm 98)) ≠ some .clear := by decide +kernel

/-! ## Updates -/

/-- A datagram of `sanlk-reset` is read as it was meant, if the name has no white space. -/
theorem parse_datagram (cmd x : Bytes) (hc : ∀ c ∈ cmd, c ≠ 0 ∧ isSpace c = false) (hx : ∀ c ∈ x, c ≠ 0 ∧ isSpace c = false)
    (hc0 : cmd ≠ []) (hx0 : x ≠ []) (hl : cmd.length + 1 + x.length ≤ 255) :
    parse (datagram cmd x) = if cmd = wReg then some (.reg x) else if cmd = wEnd then some (.end_ x)
      else if cmd = wClear then some .clear else none := by
  have ht : (cmd ++ 32 :: x).take 255 = cmd ++ 32 :: x := List.take_of_length_le (by simp; omega)
  have hlen : (cmd ++ 32 :: x).length ≤ 255 := by simp; omega
  have hd : datagram cmd x = (cmd ++ 32 :: x) ++ List.replicate (256 - (cmd ++ 32 :: x).length) 0 := by
    simp only [datagram, ht]
  have hdl : (datagram cmd x).length = 256 := by
    rw [hd, List.length_append, List.length_replicate]; omega
  have hnz : ∀ c ∈ cmd ++ 32 :: x, decide (c ≠ 0) = true := by
    intro c hm
    rcases List.mem_append.mp hm with hm | hm
    · simpa using (hc c hm).1
    · rcases List.mem_cons.mp hm with rfl | hm
      · decide
      · simpa using (hx c hm).1
  have htw : ((datagram cmd x).take 255).takeWhile (· ≠ 0) = cmd ++ 32 :: x := by
    rw [hd, List.take_append, List.take_of_length_le hlen, List.takeWhile_append_of_pos hnz, List.take_replicate]
    have : ∀ n, (List.replicate n (0 : UInt8)).takeWhile (fun c => decide (c ≠ 0)) = [] := by
      intro n; cases n <;> simp [List.replicate_succ]
    rw [this, List.append_nil]
  have hsc : ∀ c ∈ cmd, solid c = true := fun c hm => by simp [solid, (hc c hm).2]
  have hsx : ∀ c ∈ x, solid c = true := fun c hm => by simp [solid, (hx c hm).2]
  have hsp : solid 32 = false := by decide
  have hsp' : isSpace 32 = true := by decide
  have hdw : ∀ l m : Bytes, l ≠ [] → (∀ c ∈ l, isSpace c = false) → (l ++ m).dropWhile isSpace = l ++ m := by
    intro l m h0 h1
    cases l with
    | nil => exact absurd rfl h0
    | cons a l => simp [List.dropWhile_cons, h1 a (.head _)]
  have hscan : scan2 (cmd ++ 32 :: x) = some (cmd, x) := by
    have e1 : (cmd ++ 32 :: x).dropWhile isSpace = cmd ++ 32 :: x := hdw _ _ hc0 (fun c hm => (hc c hm).2)
    have e2 : (cmd ++ 32 :: x).takeWhile solid = cmd := by
      rw [List.takeWhile_append_of_pos hsc, List.takeWhile_cons, hsp]; simp
    have e3 : (cmd ++ 32 :: x).dropWhile solid = 32 :: x := by
      rw [List.dropWhile_append_of_pos hsc, List.dropWhile_cons, hsp]; simp
    have e4 : (32 :: x).dropWhile isSpace = x := by
      rw [List.dropWhile_cons, hsp', if_pos rfl]
      have := hdw x [] hx0 (fun c hm => (hx c hm).2)
      simpa using this
    have e5 : x.takeWhile solid = x := by
      have := List.takeWhile_append_of_pos (l₂ := []) hsx
      simpa using this
    simp only [scan2, e1, e2, e3, e4, e5]
    rw [if_neg (by rintro (h | h); exact hc0 h; exact hx0 h)]
  simp only [parse, hdl, htw, hscan, ne_eq, not_true_eq_false, if_false]

example : parse (datagram wEnd [108, 115, 49]) = some (.end_ [108, 115, 49]) := by decide +kernel

/-- A name with a space is cut at the space: `sanlk-reset reg "a b"` reports success and another lockspace is
watched. -/
theorem space_violated : ∃ x y : Bytes, y ≠ x ∧ (updateLocal wReg [x] [true]).2 = true ∧
    (updateLocal wReg [x] [true]).1 = [datagram wReg x] ∧ parse (datagram wReg x) = some (.reg y) :=
  ⟨[97, 32, 98], [97], by decide +kernel⟩

/-- `sanlk-reset reg x` for a lockspace that is not in the table: it is watched after the pass. -/
theorem reg_new_watched (w q m : Bool) (delay : Int) (args : List (Bytes × RegRes)) (qs : List Poll) (p : Ready)
    (b x : Bytes) (hb : p.upd = some b) (hp : parse b = some (.reg x)) (hr : p.reg = .ok) (hs : p.sig ≠ some true)
    (hq : (run (start w q m delay args) qs).quit = false) (ho : (run (start w q m delay args) qs).updOpen = true)
    (hnew : ∀ i, ((run (start w q m delay args) qs).slot i).name ≠ some x)
    (hfree : ∃ i < 64, ((run (start w q m delay args) qs).slot i).name = none) :
    ∃ i f, (pass (run (start w q m delay args) qs) (.ready p)).slot i = ⟨some x, some f, some f⟩ ∧
      Eff.reg x f ∈ (pass (run (start w q m delay args) qs) (.ready p)).log := by
  have hw := wf_all w q m delay args qs
  have hlen : (run (start w q m delay args) qs).slots.length = 64 := by
    rw [len_ops (ops_all w q m delay args qs)]; simp [blank]
  have hh := hist_ops (hist_all w q m delay args qs) hw (ops_pass hw (.ready p))
  have hw' := wf_pass hw (.ready p)
  revert hw hlen hq ho hnew hfree hh hw'
  generalize run (start w q m delay args) qs = s
  intro hq ho hnew hfree hw hlen hh hw'
  have hf : findLs s x = none := by
    cases hf : findLs s x with
    | none => rfl
    | some i => exact absurd (findLs_spec hf).2 (hnew i)
  obtain ⟨i, hi⟩ : ∃ i, findFree s = some i := by
    cases hg : findFree s with
    | some i => exact ⟨i, rfl⟩
    | none =>
      exfalso
      obtain ⟨k, hk, hn⟩ := hfree
      have hk : k < s.slots.length := by omega
      have := List.findIdx?_eq_none_iff.mp hg (s.slots[k]) (List.getElem_mem hk)
      simp only [S.slot, List.getD_eq_getElem?_getD, List.getElem?_eq_getElem hk, Option.getD_some] at hn
      rw [decide_eq_false_iff_not] at this
      exact this hn
  obtain ⟨hil, hin⟩ := findFree_spec hi
  obtain ⟨t, h1, h2, _⟩ := pass_ready hq p hs
  have hslot : t.slot i = watched x s.next := by
    simp only [S.slot, h2]
    show (front s p).slot i = _
    rw [front_asked]
    have : asked s p = some (.reg x) := by simp [asked, ho, hb, hp]
    rw [this]
    show (update s (.reg x) p.reg).slot i = _
    simp only [update, hf, hi]
    rw [slot_register s i i x p.reg hil, if_pos rfl, if_pos hr]
  have hfin : (pass s (.ready p)).slot i = watched x s.next := by
    rw [h1]
    refine sweep_quiet hslot _ ?_
    intro e hm
    obtain ⟨_, rfl⟩ := mem_revents hm
    rw [hw.free i hin]
    exact ⟨rfl, fun hp => by cases hp⟩
  refine ⟨i, s.next, hfin, ?_⟩
  obtain ⟨f, a, _, c⟩ := hw'.used i x (by rw [hfin])
  rw [hfin] at a
  cases a
  exact hh.reg _ _ c

example : (pass (run (start true false false 25 [(nm 97, .ok)]) [])
    (.ready { upd := some (datagram wReg (nm 98)), ins := [{ hup := true }] })).slot 1 =
      ⟨some (nm 98), some 1, some 1⟩ := by decide +kernel

/-- `sanlk-reset reg x` for a lockspace that is already in the table: the old registration is replaced.  Missing: the
pass must not also find a hang-up on the old registration (`reg_again_violated`). -/
theorem reg_again_watched_partial (w q m : Bool) (delay : Int) (args : List (Bytes × RegRes)) (qs : List Poll) (p : Ready)
    (b x : Bytes) (hb : p.upd = some b) (hp : parse b = some (.reg x)) (hr : p.reg = .ok) (hs : p.sig ≠ some true)
    (hq : (run (start w q m delay args) qs).quit = false) (ho : (run (start w q m delay args) qs).updOpen = true)
    (hold : ∃ i, ((run (start w q m delay args) qs).slot i).name = some x)
    (hin : ∀ i, (p.ins.getD i {}).hup = false ∧ ((p.ins.getD i {}).pin = true → (p.ins.getD i {}).evs = [])) :
    ∃ i f, (pass (run (start w q m delay args) qs) (.ready p)).slot i = ⟨some x, some f, some f⟩ ∧
      (f, x) ∉ (run (start w q m delay args) qs).open_ := by
  have hw := wf_all w q m delay args qs
  revert hw hq ho hold
  generalize run (start w q m delay args) qs = s
  intro hq ho hold hw
  obtain ⟨i, hi⟩ : ∃ i, findLs s x = some i := by
    cases hf : findLs s x with
    | some i => exact ⟨i, rfl⟩
    | none => obtain ⟨k, hk⟩ := hold; exact absurd hk (findLs_none hf k)
  obtain ⟨hil, _⟩ := findLs_spec hi
  obtain ⟨t, h1, h2, _⟩ := pass_ready hq p hs
  have hslot : t.slot i = watched x s.next := by
    simp only [S.slot, h2]
    show (front s p).slot i = _
    rw [front_asked]
    have : asked s p = some (.reg x) := by simp [asked, ho, hb, hp]
    rw [this]
    show (update s (.reg x) p.reg).slot i = _
    simp only [update, hi]
    rw [slot_register _ i i x p.reg (by rw [len_unregister]; exact hil), if_pos rfl, if_pos hr, next_unregister]
  refine ⟨i, s.next, ?_, ?_⟩
  · rw [h1]
    refine sweep_quiet hslot _ ?_
    intro e hm
    obtain ⟨_, rfl⟩ := mem_revents hm
    split
    · exact hin i
    · exact ⟨rfl, fun hp => by cases hp⟩
  · intro hm
    exact absurd (hw.own _ _ hm).1 (by omega)

example : (pass (run (start true false false 25 [(nm 97, .ok)]) [])
    (.ready { upd := some (datagram wReg (nm 97)) })).slot 0 = ⟨some (nm 97), some 1, some 1⟩ := by decide +kernel

/-- A lockspace that is left and joined again while `sanlk-resetd` is busy: `sanlk-reset reg` makes a new registration,
and the hang-up of the old one, found by the same `poll`, ends it.  `sanlk-reset` reported success, sanlock granted the
registration, and nobody watches the lockspace. -/
theorem reg_again_violated : ∃ (p : Ready) (x : Bytes),
    p.upd = some (datagram wReg x) ∧ p.reg = .ok ∧ (updateLocal wReg [x] [true]) = ([datagram wReg x], true) ∧
    let s := pass (start true false false 25 [(x, .ok)]) (.ready p)
    Eff.reg x 1 ∈ s.log ∧ s.quit = false ∧ s.open_ = [] ∧ ∀ sl ∈ s.slots, sl = Slot.empty :=
  ⟨{ upd := some (datagram wReg (nm 97)), ins := [{ hup := true }] }, nm 97, by decide +kernel⟩

/-- With 64 lockspaces in the table a further one is not watched, and the user is not told. -/
theorem reg_full_violated : ∃ (p : Ready) (x : Bytes) (args : List (Bytes × RegRes)),
    p.upd = some (datagram wReg x) ∧ p.reg = .ok ∧ (updateLocal wReg [x] [true]) = ([datagram wReg x], true) ∧
    args.length = 64 ∧
    let s := pass (start true false false 25 args) (.ready p)
    s.quit = false ∧ ∀ sl ∈ s.slots, sl.name ≠ some x :=
  ⟨{ upd := some (datagram wReg (nm 97)) }, nm 97, (List.range 64).map (fun i => ([98, UInt8.ofNat (i + 1)], .ok)),
    by decide +kernel⟩

/-- `sanlk-reset end x` ends the watch of `x` in the same pass, whatever else the pass finds.  Missing: the lockspace must not
have been given twice when `sanlk-resetd` was started (`end_violated`). -/
theorem end_ends_partial (w q m : Bool) (delay : Int) (args : List (Bytes × RegRes)) (hd : (args.map (·.1)).Nodup)
    (qs : List Poll) (p : Ready) (b x : Bytes) (hb : p.upd = some b) (hp : parse b = some (.end_ x))
    (hq : (run (start w q m delay args) qs).quit = false) (ho : (run (start w q m delay args) qs).updOpen = true) :
    ∀ f, (f, x) ∉ (pass (run (start w q m delay args) qs) (.ready p)).open_ := by
  have hw := wf_all w q m delay args qs
  have hu := uniq_run (uniq_start w q m delay args hd) qs
  revert hw hu hq ho
  generalize run (start w q m delay args) qs = s
  intro hq ho hw hu f hm
  obtain ⟨_, j, _, hj⟩ := (wf_pass hw _).own f x hm
  have hj := shrink_pass hq p j x hj
  rw [front_asked] at hj
  have : asked s p = some (.end_ x) := by simp [asked, ho, hb, hp]
  rw [this] at hj
  have hj : ((update s (.end_ x) p.reg).slot j).name = some x := hj
  simp only [update] at hj
  cases hf : findLs s x with
  | none => rw [hf] at hj; exact findLs_none hf j hj
  | some i =>
    rw [hf] at hj
    have hj : ((unregister s i).slot j).name = some x := hj
    rw [slot_unregister] at hj
    split at hj
    · cases hj
    · rename_i hne; exact hne (hu j i x hj (findLs_spec hf).2)

example : (pass (run (start true false false 25 [(nm 97, .ok), (nm 98, .ok)]) [])
    (.ready { upd := some (datagram wEnd (nm 97)) })).open_ = [(1, nm 98)] := by decide +kernel

/-- A lockspace given twice on the command line is registered twice, and `end` ends one of the two. -/
theorem end_violated : ∃ (x : Bytes) (args : List (Bytes × RegRes)),
    let s := pass (start true false false 25 args) (.ready { upd := some (datagram wEnd x) })
    ∃ f, (f, x) ∈ s.open_ ∧ s.slot 1 = ⟨some x, some f, some f⟩ :=
  ⟨nm 97, [(nm 97, .ok), (nm 97, .ok)], 1, by decide +kernel⟩

/-- `sanlk-reset clear all` ends every watch in the same pass. -/
theorem clear_clears (w q m : Bool) (delay : Int) (args : List (Bytes × RegRes))
    (qs : List Poll) (p : Ready) (b : Bytes) (hb : p.upd = some b) (hp : parse b = some .clear)
    (hq : (run (start w q m delay args) qs).quit = false) (ho : (run (start w q m delay args) qs).updOpen = true) :
    (pass (run (start w q m delay args) qs) (.ready p)).open_ = [] := by
  have hw := wf_all w q m delay args qs
  revert hw hq ho
  generalize run (start w q m delay args) qs = s
  intro hq ho hw
  refine open_nil (wf_pass hw _) ?_
  intro i hi
  refine none_of_shrink (shrink_pass hq p) ?_
  rw [len_ops (ops_pass hw _)] at hi
  rw [front_asked]
  have : asked s p = some .clear := by simp [asked, ho, hb, hp]
  rw [this]
  exact clear_none s _ i (List.mem_range.mpr hi)

example : parse (datagram wClear [97, 108, 108]) = some .clear ∧
    (start true false false 25 [(nm 97, .ok), (nm 98, .ok)]).open_ ≠ [] := by decide +kernel

/-- When the daemon ends, every registration has been ended. -/
theorem end_of_daemon (w q m : Bool) (delay : Int) (args : List (Bytes × RegRes)) (qs : List Poll)
    (hq : (run (start w q m delay args) qs).quit = true) : (run (start w q m delay args) qs).open_ = [] := by
  have key : ∀ (qs : List Poll) (s : S), WF s → (s.quit = true → s.open_ = []) →
      (run s qs).quit = true → (run s qs).open_ = [] := by
    intro qs
    induction qs with
    | nil => intro s _ h; exact h
    | cons r qs ih =>
      intro s hw h
      refine ih _ (wf_pass hw r) ?_
      intro hq'
      cases hqs : s.quit with
      | true => simp only [pass, hqs, if_true]; exact h hqs
      | false =>
        have sw : ∀ (l : List (Nat × In)) (t : S), WF t → (sweep t l).quit = t.quit := by
          intro l
          induction l with
          | nil => intro t _; rfl
          | cons e l ih' =>
            intro t ht
            have qu : ∀ (u : S) (i : Nat), (unregister u i).quit = u.quit := by
              intro u i; simp only [unregister]; cases (u.slot i).name <;> rfl
            have ql : ∀ (evs : List GetRes) (u : S) (i : Nat), (getLoop u i evs).quit = u.quit := by
              intro evs
              induction evs with
              | nil => intro u i; rfl
              | cons g evs ih2 =>
                intro u i
                cases g with
                | err => exact qu u i
                | ev r =>
                  rw [getLoop_cons]; split
                  · rfl
                  · exact ih2 _ _
            have qe : ∀ (evs : List GetRes) (u : S) (i : Nat), (getEvents u i evs).quit = u.quit := by
              intro evs u i
              simp only [getEvents]
              cases (u.slot i).fd with
              | none => exact qu u i
              | some f => exact ql evs u i
            rw [sweep_cons, ih' (entry t e) (wf_ops ht (ops_entry ht e.1 e.2))]
            simp only [entry]
            split <;> split <;> simp only [qu, qe]
        cases r with
        | intr => simp only [pass, hqs, Bool.false_eq_true, if_false] at hq'
        | fail =>
          simp only [pass, hqs, Bool.false_eq_true, if_false]
          exact leave_open hw
        | ready p =>
          by_cases hs : p.sig = some true
          · simp only [pass, hqs, hs, Bool.false_eq_true, if_false, if_true]
            exact leave_open (wf_ops hw (ops_front hw p))
          · exfalso
            have qup : ∀ (t : S) (u : Upd) (rr : RegRes), (update t u rr).quit = t.quit := by
              have qu : ∀ (u : S) (i : Nat), (unregister u i).quit = u.quit := by
                intro u i; simp only [unregister]; cases (u.slot i).name <;> rfl
              have qr : ∀ (u : S) (i : Nat) (x : Bytes) (rr : RegRes), (register u i x rr).quit = u.quit := by
                intro u i x rr; cases rr <;> rfl
              have qc : ∀ (is : List Nat) (u : S), (clearFrom u is).quit = u.quit := by
                intro is
                induction is with
                | nil => intro u; rfl
                | cons i is ih2 =>
                  intro u; simp only [clearFrom]; rw [ih2]; split
                  · rfl
                  · exact qu u i
              intro t u rr
              cases u with
              | reg x =>
                simp only [update]
                cases findLs t x with
                | some i => exact (qr _ _ _ _).trans (qu _ _)
                | none =>
                  dsimp only
                  cases findFree t with
                  | some i => exact qr _ _ _ _
                  | none => rfl
              | end_ x =>
                simp only [update]
                cases findLs t x with
                | some i => exact qu _ _
                | none => rfl
              | clear => exact qc _ _
            have qf : (front s p).quit = false := by
              rw [front_asked]
              show S.quit (match asked s p with | some u => update s u p.reg | none => s) = _
              cases asked s p with
              | none => exact hqs
              | some u => exact (qup _ _ _).trans hqs
            simp only [pass, hqs, Bool.false_eq_true, if_false, if_neg hs] at hq'
            split at hq'
            · rename_i hd
              rw [sw _ _ (wf_ops hw ((ops_front hw p).trans (.one (.sysrq _ _ hd))))] at hq'
              rw [show S.quit { front s p with log := (front s p).log ++ [.sysrq p.now] } = (front s p).quit from rfl,
                qf] at hq'
              cases hq'
            · rw [sw _ _ (wf_ops hw (ops_front hw p)), qf] at hq'
              cases hq'
  refine key qs _ (wf_start ..) ?_ hq
  intro hq0
  have : ∀ (args : List (Bytes × RegRes)) (s : S) (i : Nat), (startReg s i args).quit = s.quit := by
    intro args
    induction args with
    | nil => intro s i; rfl
    | cons a args ih =>
      intro s i
      obtain ⟨x, r⟩ := a
      simp only [startReg]
      rw [ih]
      cases r <;> rfl
  rw [start, this] at hq0
  cases hq0

example : (run (start true false false 25 [(nm 97, .ok)]) [.ready { sig := some true }]).quit = true := by decide +kernel

/-! ## Requests -/

/-- The first request to reset that arrives in a watched lockspace is read and acted upon in that pass. -/
theorem request_read (w q m : Bool) (delay : Int) (args : List (Bytes × RegRes)) (qs : List Poll) (p : Ready)
    (i : Nat) (x : Bytes) (f : Nat) (r : Daemon.Req) (evs : List GetRes)
    (hq : (run (start w q m delay args) qs).quit = false)
    (h : (run (start w q m delay args) qs).slot i = ⟨some x, some f, some f⟩) (hs : p.sig ≠ some true)
    (hu : ∀ b, p.upd = some b → parse b ≠ some (.reg x) ∧ parse b ≠ some (.end_ x) ∧ parse b ≠ some .clear)
    (hp : (p.ins.getD i {}).pin = true) (he : (p.ins.getD i {}).evs = .ev r :: evs) (hr : r.reset = true) :
    let s := pass (run (start w q m delay args) qs) (.ready p)
    Eff.got (some x) true r.reboot r.now ∈ s.log ∧ s.d.resetting = true ∧
    (w = true → ∃ y t ok, Eff.act y (.live t ok) ∈ s.log) := by
  intro s
  have hw := wf_all w q m delay args qs
  have hh : Hist s := hist_ops (hist_all w q m delay args qs) hw (ops_pass hw (.ready p))
  have hc : s.d.useWatchdog = w :=
    (const_ops ((ops_all w q m delay args qs).trans (ops_pass hw (.ready p)))).1
  suffices hm : Eff.got (some x) true r.reboot r.now ∈ s.log ∧ s.d.resetting = true by
    exact ⟨hm.1, hm.2, fun hw' => hh.live hm.2 (by rw [hc]; exact hw')⟩
  clear hh hc
  show Eff.got (some x) true r.reboot r.now ∈ (pass (run (start w q m delay args) qs) (.ready p)).log ∧
    (pass (run (start w q m delay args) qs) (.ready p)).d.resetting = true
  clear s
  revert hw hq h
  generalize run (start w q m delay args) qs = s0
  intro hq h hw
  obtain ⟨t, h1, h2, h3, h4⟩ := pass_ready hq p hs
  have hwt : WF t := wf_ops hw ((ops_front hw p).trans h4)
  have ht : t.slot i = watched x f := by
    simp only [S.slot, h2]
    exact front_ne h p (by
      intro u hau
      simp only [asked] at hau
      cases ho : s0.updOpen with
      | false => rw [ho] at hau; cases hau
      | true =>
        rw [ho] at hau
        cases hb : p.upd with
        | none => rw [hb] at hau; cases hau
        | some b =>
          rw [hb] at hau
          obtain ⟨c1, c2, c3⟩ := hu b hb
          have hau : parse b = some u := hau
          rw [hau] at c1 c2 c3
          exact ⟨fun e => c1 (by rw [e]), fun e => c2 (by rw [e]), fun e => c3 (by rw [e])⟩)
  obtain ⟨l, m', hl, hne⟩ := revents_split s0 p.ins i (watched_lt h)
  rw [h] at hl
  have hl : revents s0 p.ins = l ++ (i, p.ins.getD i {}) :: m' := hl
  rw [h1, hl, sweep_append, sweep_cons]
  have hwl : WF (sweep t l) := wf_ops hwt (ops_sweep hwt l)
  have hsl : (sweep t l).slot i = watched x f := by rw [slot_sweep_ne l hne]; exact ht
  revert hwl hsl
  generalize sweep t l = v
  intro hwl hsl
  -- the state after the first event
  have hgot : Eff.got (some x) true r.reboot r.now ∈ (oneEvent v i r).1.log := by
    rw [log_oneEvent, hsl, hr]; exact List.mem_append_right _ (.head _)
  have hrs : (oneEvent v i r).1.d.resetting = true :=
    (handle_resetting v.d { r with ls := i }).trans (by simp [hr])
  obtain ⟨z, hz1, hz2, hops⟩ : ∃ z : S, z.log = (oneEvent v i r).1.log ∧ z.d = (oneEvent v i r).1.d ∧
      Ops z (sweep (entry v (i, p.ins.getD i {})) m') := by
    have hwe : WF (entry v (i, p.ins.getD i {})) := wf_ops hwl (ops_entry hwl i _)
    have hg : ∃ z : S, z.log = (oneEvent v i r).1.log ∧ z.d = (oneEvent v i r).1.d ∧
        Ops z (getEvents v i (.ev r :: evs)) := by
      simp only [getEvents, hsl]
      rw [getLoop_cons]
      split
      · exact ⟨mute (oneEvent v i r).1 i, rfl, rfl, .nil _⟩
      · exact ⟨_, rfl, rfl,
          ops_getLoop (s := (oneEvent v i r).1) i x f (by rw [slot_oneEvent, hsl]) (by rw [slot_oneEvent, hsl]) evs⟩
    obtain ⟨z, a, b, c⟩ := hg
    refine ⟨z, a, b, Ops.trans ?_ (ops_sweep hwe m')⟩
    simp only [entry, hp, he, if_true]
    split
    · exact c.trans (.one (.unreg _ i))
    · exact c
  obtain ⟨l', hl'⟩ := log_ops hops
  exact ⟨by rw [hl', hz1]; exact List.mem_append_left _ hgot, resetting_ops hops (by rw [hz2]; exact hrs)⟩

/-- A request to reset from host 2. -/
abbrev ask (reset reboot liveOk : Bool) (now : UInt64) : Daemon.Req :=
  { ls := 0, from_ := 2, gen := 1, reset, reboot, now, cfgOk := true, liveOk }

example : (pass (start true false false 25 [(nm 97, .ok)])
    (.ready { ins := [{ pin := true, evs := [.ev (ask true false true 7)] }] })).log =
      [.reg (nm 97) 0, .got (some (nm 97)) true false 7, .act (some (nm 97)) (.used 0 true),
        .act (some (nm 97)) (.live 7 true), .act (some (nm 97)) (.reply 0 true false)] := by decide +kernel

/-- Nobody resets the host unasked: the watchdog is told to expire at the time of a request to reset, which was read
from a registered lockspace, and the replies are sent in lockspaces where events were read. -/
theorem reset_only_if_asked (w q m : Bool) (delay : Int) (args : List (Bytes × RegRes)) (qs : List Poll) :
    let s := run (start w q m delay args) qs
    (∀ y t ok, Eff.act y (.live t ok) ∈ s.log → ∃ x f b, y = some x ∧ Eff.reg x f ∈ s.log ∧
      Eff.got (some x) true b t ∈ s.log) ∧
    (∀ y o, Eff.act y o ∈ s.log → ∃ x f a b t, y = some x ∧ Eff.reg x f ∈ s.log ∧ Eff.got (some x) a b t ∈ s.log) := by
  intro s
  have hh : Hist s := hist_all w q m delay args qs
  constructor
  · intro y t ok hm
    obtain ⟨_, b, hg⟩ := hh.liveOf y t ok hm
    obtain ⟨x, f, rfl, hx⟩ := hh.got _ _ _ _ hg
    exact ⟨x, f, b, rfl, hx, hg⟩
  · intro y o hm
    obtain ⟨a, b, t, hg⟩ := hh.act y o hm
    obtain ⟨x, f, rfl, hx⟩ := hh.got _ _ _ _ hg
    exact ⟨x, f, a, b, t, rfl, hx, hg⟩

/-- The watchdog is told at most once, however many hosts ask in however many lockspaces; a later request does not put
the reset off. -/
theorem reset_once (w q m : Bool) (delay : Int) (args : List (Bytes × RegRes)) (qs : List Poll) :
    (run (start w q m delay args) qs).log.countP
      (fun e => match e with | .act _ (.live _ _) => true | _ => false) ≤ 1 := by
  have h := live_ops (ops_all w q m delay args qs) (by simp [blank])
  have e : (fun e : Eff => match e with | .act _ (.live _ _) => true | _ => false) = isLive := by
    funext e
    cases e with
    | act y o => cases o <;> rfl
    | _ => rfl
  rw [e]
  refine Nat.le_trans h ?_
  split <;> omega

example : ((run (start true false false 25 [(nm 97, .ok), (nm 98, .ok)])
    [.ready { ins := [{ pin := true, evs := [.ev (ask true false true 7)] },
      { pin := true, evs := [.ev (ask true false true 8)] }] }]).log.filter isLive).length = 1 := by decide +kernel

/-- If the message to `wdmd` fails, it is not sent again: later requests to reset are read and nothing comes of
them. -/
theorem reset_not_retried_violated : ∃ (p1 p2 : Ready),
    let s := run (start true false false 25 [(nm 97, .ok)]) [.ready p1, .ready p2]
    Eff.got (some (nm 97)) true false 1000 ∈ s.log ∧ s.quit = false ∧ s.slot 0 = ⟨some (nm 97), some 0, some 0⟩ ∧
    ∀ y t, Eff.act y (.live t true) ∉ s.log ∧ Eff.act y (.live 1000 false) ∉ s.log := by
  refine ⟨{ ins := [{ pin := true, evs := [.ev (ask true false false 7)] }] },
    { ins := [{ pin := true, evs := [.ev (ask true false true 1000)] }] }, ?_⟩
  have h : run (start true false false 25 [(nm 97, .ok)])
      [.ready { ins := [{ pin := true, evs := [.ev (ask true false false 7)] }] },
        .ready { ins := [{ pin := true, evs := [.ev (ask true false true 1000)] }] }] =
      { start true false false 25 [(nm 97, .ok)] with
        d := ⟨true, false, false, true, true, false⟩
        timed := true
        log := [.reg (nm 97) 0, .got (some (nm 97)) true false 7, .act (some (nm 97)) (.used 0 true),
          .act (some (nm 97)) (.live 7 false), .got (some (nm 97)) true false 1000,
          .act (some (nm 97)) (.used 0 true)] } := by decide +kernel
  dsimp only
  rw [h]
  refine ⟨by decide, rfl, by decide +kernel, ?_⟩
  intro y t
  constructor <;> intro hm <;> simp at hm

/-! ## Rebooting through sysrq -/

/-- The host is rebooted through sysrq only if that is enabled, and only when the delay has passed since a request to
reboot, read from a registered lockspace. -/
theorem sysrq_only_if_asked (w q m : Bool) (delay : Int) (args : List (Bytes × RegRes)) (qs : List Poll) (t : UInt64)
    (h : Eff.sysrq t ∈ (run (start w q m delay args) qs).log) :
    q = true ∧ ∃ x f a t0, Eff.reg x f ∈ (run (start w q m delay args) qs).log ∧
      Eff.got (some x) a true t0 ∈ (run (start w q m delay args) qs).log ∧ UInt64.ofInt delay ≤ t - t0 := by
  have hh := hist_all w q m delay args qs
  have hc := const_ops (ops_all w q m delay args qs)
  obtain ⟨a, y, b, t0, hg, hle⟩ := hh.sysrq t h
  obtain ⟨x, f, rfl, hx⟩ := hh.got _ _ _ _ hg
  rw [hc.2.1] at a
  rw [hc.2.2] at hle
  exact ⟨a, x, f, b, t0, hx, hg, hle⟩

example : (run (start true true false 25 [(nm 97, .ok)])
    [.ready { ins := [{ pin := true, evs := [.ev (ask false true true 7)] }] }, .ready { now := 31 },
      .ready { now := 32 }]).log =
      [.reg (nm 97) 0, .got (some (nm 97)) false true 7, .act (some (nm 97)) (.reply 0 false true), .sysrq 32] := by
  decide +kernel

/-- Once a reboot has been asked for and the delay is over, the next pass reboots.  The loop does not sleep longer than
a second then. -/
theorem sysrq_done (w q m : Bool) (delay : Int) (args : List (Bytes × RegRes)) (qs : List Poll) (p : Ready)
    (hq : (run (start w q m delay args) qs).quit = false) (hs : p.sig ≠ some true)
    (hr : (run (start w q m delay args) qs).d.rebooting = true)
    (hd : UInt64.ofInt delay ≤ p.now - (run (start w q m delay args) qs).rebootAt) :
    Eff.sysrq p.now ∈ (pass (run (start w q m delay args) qs) (.ready p)).log := by
  have hw := wf_all w q m delay args qs
  have hc := (const_ops (ops_all w q m delay args qs)).2.2
  revert hq hr hd hw hc
  generalize run (start w q m delay args) qs = s
  intro hq hr hd hw hc
  have key : (front s p).d = s.d ∧ (front s p).rebootAt = s.rebootAt ∧ (front s p).delay = s.delay := by
    have ku : ∀ (u : S) (i : Nat), (unregister u i).d = u.d ∧ (unregister u i).rebootAt = u.rebootAt ∧
        (unregister u i).delay = u.delay := by
      intro u i; simp only [unregister]; cases (u.slot i).name <;> exact ⟨rfl, rfl, rfl⟩
    have kr : ∀ (u : S) (i : Nat) (x : Bytes) (rr : RegRes), (register u i x rr).d = u.d ∧
        (register u i x rr).rebootAt = u.rebootAt ∧ (register u i x rr).delay = u.delay := by
      intro u i x rr; cases rr <;> exact ⟨rfl, rfl, rfl⟩
    have kc : ∀ (is : List Nat) (u : S), (clearFrom u is).d = u.d ∧ (clearFrom u is).rebootAt = u.rebootAt ∧
        (clearFrom u is).delay = u.delay := by
      intro is
      induction is with
      | nil => intro u; exact ⟨rfl, rfl, rfl⟩
      | cons i is ih =>
        intro u; simp only [clearFrom]
        split
        · exact ih u
        · have := ih (unregister u i)
          have k := ku u i
          exact ⟨this.1.trans k.1, this.2.1.trans k.2.1, this.2.2.trans k.2.2⟩
    rw [front_asked]
    show S.d (match asked s p with | some u => update s u p.reg | none => s) = _ ∧
      S.rebootAt (match asked s p with | some u => update s u p.reg | none => s) = _ ∧
      S.delay (match asked s p with | some u => update s u p.reg | none => s) = _
    cases asked s p with
    | none => exact ⟨rfl, rfl, rfl⟩
    | some u =>
      cases u with
      | clear => exact kc _ _
      | end_ x =>
        simp only [update]
        cases findLs s x with
        | none => exact ⟨rfl, rfl, rfl⟩
        | some i => exact ku s i
      | reg x =>
        simp only [update]
        cases findLs s x with
        | some i =>
          have k := ku s i
          have k' := kr (unregister s i) i x p.reg
          exact ⟨k'.1.trans k.1, k'.2.1.trans k.2.1, k'.2.2.trans k.2.2⟩
        | none =>
          dsimp only
          cases findFree s with
          | none => exact ⟨rfl, rfl, rfl⟩
          | some i => exact kr s i x p.reg
  have hdue : due (front s p) p.now = true := by
    simp only [due, key.1, key.2.1, key.2.2, hr, hc, Bool.true_and, decide_eq_true_eq]
    exact hd
  simp only [pass, hq, Bool.false_eq_true, if_false, if_neg hs, hdue, if_true]
  have hw2 : WF { front s p with log := (front s p).log ++ [.sysrq p.now] } :=
    wf_ops hw ((ops_front hw p).trans (.one (.sysrq _ _ hdue)))
  obtain ⟨l, hl⟩ := log_ops (ops_sweep hw2 (revents s p.ins))
  rw [hl]
  exact List.mem_append_left _ (List.mem_append_right _ (.head _))

/-- The two facts that make the loop look at the clock again. -/
theorem timed_if_reset (w q m : Bool) (delay : Int) (args : List (Bytes × RegRes)) (qs : List Poll) :
    let s := run (start w q m delay args) qs
    s.d.resetting = true ∨ s.d.rebooting = true → s.timed = true := by
  have op : ∀ {s t : S}, Op s t → (s.d.resetting = true ∨ s.d.rebooting = true → s.timed = true) →
      (t.d.resetting = true ∨ t.d.rebooting = true → t.timed = true) := by
    intro s t o h
    have ev : ∀ i r, ((oneEvent s i r).1.d.resetting = true ∨ (oneEvent s i r).1.d.rebooting = true →
        (oneEvent s i r).1.timed = true) := by
      intro i r
      have h1 : (oneEvent s i r).1.d.resetting = (s.d.resetting || r.reset) := handle_resetting s.d { r with ls := i }
      have h2 : (oneEvent s i r).1.d.rebooting = (s.d.rebooting || (r.reboot && s.d.useSysrq)) :=
        handle_rebooting s.d { r with ls := i }
      rw [h1, h2]
      show _ → (s.timed || (r.reset && !s.d.resetting) || (r.reboot && s.d.useSysrq && !s.d.rebooting)) = true
      revert h
      cases s.d.resetting <;> cases s.d.rebooting <;> cases r.reset <;> cases r.reboot <;> cases s.d.useSysrq <;>
        cases s.timed <;> decide
    cases o with
    | reg i x r => cases r <;> exact h
    | unreg i => simp only [unregister]; cases (s.slot i).name <;> exact h
    | ev i r => exact ev i r
    | reply i r => exact ev i r
    | upd => exact h
    | sysrq => exact h
    | quit => exact h
  have ops : ∀ {s t : S}, Ops s t → (s.d.resetting = true ∨ s.d.rebooting = true → s.timed = true) →
      (t.d.resetting = true ∨ t.d.rebooting = true → t.timed = true) := by
    intro s t o
    induction o with
    | nil => exact fun h => h
    | cons a _ ih => exact fun h => ih (op a h)
  exact ops (ops_all w q m delay args qs) (by rintro (h | h) <;> cases h)

/-- A negative delay (`sanlk-resetd -b 1 -d -1`) becomes a delay of 584 billion years. -/
theorem sysrq_negative_violated : ∃ p : Ready,
    let s := run (start true true false (-1) [(nm 97, .ok)])
      [.ready { ins := [{ pin := true, evs := [.ev (ask false true true 7)] }] }, .ready p]
    s.d.rebooting = true ∧ p.now = 1000000007 ∧ Eff.sysrq p.now ∉ s.log :=
  ⟨{ now := 1000000007 }, by decide +kernel⟩

/-- The count of lockspaces (shown when debugging) is wrong after a hang-up that is found together with an unreadable
descriptor: the entry is removed twice. -/
theorem count_violated : ∃ p : Ready,
    let s := pass (start true false false 25 [(nm 97, .ok)]) (.ready p)
    s.open_ = [] ∧ s.count = -1 :=
  ⟨{ ins := [{ pin := true, hup := true, evs := [.err] }] }, by decide +kernel⟩

end Sanlock.Resetd
