import Verif.Lemmas.DescrTried

/-!
# C70: I/O reaches the file it was meant for, and every descriptor is given back
-/

namespace Sanlock.Descr

/-- C70.  Whatever calls run at the same time, in whatever order their system calls come and whichever of them fail: I/O goes to
the file that was meant, or, for a disk that could not be opened, nowhere. -/
theorem io_right_file_partial (lim : Nat) (own : Nat → Option Nat) (cs : List Choice)
    (hev : (run lim (start own) cs).ev = []) :
    ∀ x f g, (x, f, g) ∈ (run lim (start own) cs).hits → g = some f ∨ (x = -1 ∧ g = none) := by
  intro x f g hm
  exact ((inv_run (K := fun _ => false) cs (inv_start _ own) (fun _ _ _ e => by cases e) hev).hits x f g hm).symm

/-- C70.  I/O reaches no file only if the same call could not open the file that was meant. -/
theorem io_lost_partial (lim : Nat) (own : Nat → Option Nat) (cs : List Choice)
    (hev : (run lim (start own) cs).ev = []) :
    ∀ t f, (t, f) ∈ (run lim (start own) cs).lost → (t, f) ∈ (run lim (start own) cs).miss :=
  (inv2_run cs (inv2_start own) (inv_start _ own) hev).lost

/-- C70.  A call closes only descriptors that are open and that it opened itself. -/
theorem closes_own_partial (lim : Nat) (own : Nat → Option Nat) (cs : List Choice)
    (hev : (run lim (start own) cs).ev = []) :
    ∀ t o, (t, o) ∈ (run lim (start own) cs).closes → o = some t :=
  (inv_run (K := fun _ => false) cs (inv_start _ own) (fun _ _ _ e => by cases e) hev).closes

/-- C70.  A call that has ended has no descriptor open, and the daemon's own are untouched. -/
theorem given_back_partial (lim : Nat) (own : Nat → Option Nat) (cs : List Choice)
    (hev : (run lim (start own) cs).ev = []) :
    (∀ t, ended (run lim (start own) cs) t → ∀ n f, (run lim (start own) cs).tab n ≠ some ⟨t, f⟩) ∧
    (∀ n f, (run lim (start own) cs).tab n = some ⟨0, f⟩ ↔ own n = some f) := by
  have h := inv_run (K := fun _ => false) (lim := lim) cs (inv_start _ own) (fun _ _ _ e => by cases e) hev
  refine ⟨?_, h.own⟩
  rintro t ⟨r, σ, ht⟩ n f e
  obtain ⟨a, hg, hc⟩ := h.thr t _ _ ht
  obtain ⟨v, hv, -⟩ := hc.all n f e
  rcases hg v with h1 | ⟨-, h1⟩ <;> rw [hv] at h1 <;> cases h1

/-- C70.  When all calls have ended exactly the descriptors of the daemon are open. -/
theorem all_given_back_partial (lim : Nat) (own : Nat → Option Nat) (cs : List Choice)
    (hev : (run lim (start own) cs).ev = [])
    (hall : ∀ t, (run lim (start own) cs).thr t ≠ none → ended (run lim (start own) cs) t) :
    (run lim (start own) cs).tab = (start own).tab := by
  have h := inv_run (K := fun _ => false) (lim := lim) cs (inv_start _ own) (fun _ _ _ e => by cases e) hev
  obtain ⟨h1, h2⟩ := given_back_partial lim own cs hev
  funext n
  cases e : (run lim (start own) cs).tab n with
  | none =>
    cases e2 : own n with
    | none => simp [start, e2]
    | some f =>
      have := (h2 n f).2 e2
      rw [e] at this
      cases this
  | some x =>
    obtain ⟨t, f⟩ := x
    by_cases ht : t = 0
    · subst ht
      have := (h2 n f).1 e
      simp [start, this]
    · exact absurd e (h1 t (hall t (h.used n t f e ht)) n f)

/-- C70.  A call on the disks of a lease leaves them marked as not open, so that the next call can open them (`open_disks` refuses
disks that are open). -/
theorem marked_closed_partial (lim : Nat) (own : Nat → Option Nat) (cs : List Choice)
    (hev : (run lim (start own) cs).ev = []) (t : Nat) (hns : ∀ c, .start t c ∈ cs → c.isSpace = false)
    {r : Bool} {σ : Nat → Int} (ht : (run lim (start own) cs).thr t = some (.ret r, σ)) : ∀ v, σ v = -1 := by
  have h := inv_run (K := fun u => decide (u = t)) (lim := lim) cs (inv_start _ own)
    (fun u d hm e => by
      have : u = t := by simpa using e
      subst this
      exact hns d hm) hev
  obtain ⟨a, hg, hc⟩ := h.thr t _ _ ht
  intro v
  rcases hg v with h1 | ⟨h1, -⟩
  · exact hc.unset v h1
  · simp at h1

/-- A run with three calls: a lease with two of three disks is acquired, a lockspace renews once and ends, a client connects;
all descriptors are given back and the I/O went where it should. -/
def exRun : List Choice :=
  [.start 1 (.disks [7, 8, 9]), .start 2 (.space 1 50 60 true 1), .start 3 (.client 70), .go 3 true, .go 3 false] ++
  [Choice.go 1 false, .go 1 true, .go 1 true, .go 2 true, .go 1 true, .go 1 false, .go 1 true, .go 1 true] ++
  [true, false, true, true, true, false, true, true, false, true, false, true, false, true].map (.go 2) ++
  [false, true, true, true, true, true].map (.go 1) ++ [true, true, true, true, true, true].map (.go 2) ++
  [Choice.go 1 true, .go 3 true, .go 3 true]

def exOwn : Nat → Option Nat := fun n => if n < 3 then some (100 + n) else none

example :
    let s := run 20 (start exOwn) exRun
    s.ev = [] ∧ (∀ n < 20, s.tab n = (start exOwn).tab n) ∧ (s.hits.filter fun h => h.2.2 = some h.2.1).length = 10 ∧
    s.hits.length = 11 ∧ s.closes.length = 5 ∧ s.lost = [(1, 8)] ∧ s.miss = [(1, 8)] := by
  decide +kernel

/-! ### Majority -/

/-- What a tree does when its opens end as in the list: result, and which variables are open. -/
def exec : Prog → List Bool → (Nat → Bool) → Option (Bool × (Nat → Bool))
  | .ret r, _, o => some (r, o)
  | .open _ _ _ _, [], _ => none
  | .open v _ ok err, b :: bs, o => if b then exec ok bs (set o v true) else exec err bs o
  | .closeDisk v p, bs, o => exec p bs (set o v false)
  | .ifSet v p q, bs, o => if o v then exec p bs o else exec q bs o
  | _, _, _ => none

theorem majority_iff (n num : Nat) : majority n num = true ↔ n < 2 * num := by
  unfold majority
  split
  · rename_i h; simp; omega
  · split
    · rename_i h1 h2
      simp only [decide_eq_true_eq]
      omega
    · rename_i h1 h2
      simp only [decide_eq_true_eq]
      omega

theorem exec_closeDisks (ds : List (Nat × Nat)) (p : Prog) (bs : List Bool) :
    ∀ o, exec (closeDisks ds p) bs o = exec p bs (fun v => if v ∈ ds.map (·.1) then false else o v) := by
  induction ds with
  | nil => intro o; simp [closeDisks]
  | cons d ds ih =>
    intro o
    simp only [closeDisks, exec]
    rw [ih]
    congr 1
    funext v
    simp only [set_apply, List.map_cons, List.mem_cons]
    grind

theorem exec_openLoop (n : Nat) (all : List (Nat × Nat)) (fs : List Nat) : ∀ (i : Nat) (bs : List Bool) (num : Nat) (o : Nat → Bool),
    bs.length = fs.length → (∀ v, i ≤ v → o v = false) →
    exec (openLoop n (.ret true) (closeDisks all (.ret false)) (number i fs) num) bs o =
      if n < 2 * (num + bs.count true) then some (true, fun v => if i ≤ v then bs[v - i]?.getD false else o v)
      else some (false, fun v => if v ∈ all.map (·.1) then false else if i ≤ v then bs[v - i]?.getD false else o v) := by
  induction fs with
  | nil =>
    intro i bs num o hl ho
    have hb : bs = [] := List.length_eq_zero_iff.1 hl
    subst hb
    have e : (fun v => if i ≤ v then ([] : List Bool)[v - i]?.getD false else o v) = o := by
      funext v
      split
      · rw [ho v ‹_›]; rfl
      · rfl
    have e2 : (fun v => if v ∈ all.map (·.1) then false else if i ≤ v then ([] : List Bool)[v - i]?.getD false else o v) =
        fun v => if v ∈ all.map (·.1) then false else o v := by
      funext v
      by_cases hv : v ∈ all.map (·.1)
      · rw [if_pos hv, if_pos hv]
      · rw [if_neg hv, if_neg hv]
        exact congrFun e v
    rw [e, e2, List.count_nil, Nat.add_zero]
    simp only [number, openLoop]
    by_cases hm : n < 2 * num
    · have h1 : majority n num = true := (majority_iff n num).2 hm
      simp only [h1, if_pos hm, if_true]
      rfl
    · have h1 : majority n num = false := by
        cases h : majority n num with
        | false => rfl
        | true => exact absurd ((majority_iff n num).1 h) hm
      simp only [h1, if_neg hm, exec_closeDisks, Bool.false_eq_true, if_false]
      rfl
  | cons f fs ih =>
    intro i bs num o hl ho
    cases bs with
    | nil => cases hl
    | cons b bs =>
      have hl' : bs.length = fs.length := by simpa using hl
      simp only [number, openLoop, exec, ho i (Nat.le_refl i), Bool.false_eq_true, if_false]
      have upd : ∀ (o' : Nat → Bool), (∀ v, v ≠ i → o' v = o v) → o' i = b →
          (fun v => if i + 1 ≤ v then bs[v - (i + 1)]?.getD false else o' v) =
            fun v => if i ≤ v then (b :: bs)[v - i]?.getD false else o v := by
        intro o' h1 h2
        funext v
        by_cases hv : i + 1 ≤ v
        · rw [if_pos hv, if_pos (by omega)]
          have : v - i = (v - (i + 1)) + 1 := by omega
          rw [this]
          rfl
        · rw [if_neg hv]
          by_cases hvi : v = i
          · subst hvi
            rw [if_pos (Nat.le_refl _), h2]
            simp
          · rw [if_neg (by omega), h1 v hvi]
      cases b with
      | true =>
        simp only [if_true]
        rw [ih (i + 1) bs (num + 1) (set o i true) hl' (fun v hv => by
          simp only [set_apply, if_neg (show v ≠ i by omega)]; exact ho v (by omega))]
        have hu := upd (set o i true) (fun v hv => by simp [set_apply, hv]) (by simp [set_apply])
        have ec : n < 2 * (num + 1 + bs.count true) ↔ n < 2 * (num + (true :: bs).count true) := by
          simp only [List.count_cons_self]; omega
        have hu2 : (fun v => if v ∈ all.map (·.1) then false
              else if i + 1 ≤ v then bs[v - (i + 1)]?.getD false else set o i true v) =
            fun v => if v ∈ all.map (·.1) then false else if i ≤ v then (true :: bs)[v - i]?.getD false else o v := by
          funext v
          by_cases hv : v ∈ all.map (·.1)
          · rw [if_pos hv, if_pos hv]
          · rw [if_neg hv, if_neg hv]
            exact congrFun hu v
        rw [hu, hu2]
        simp only [ec]
      | false =>
        simp only [Bool.false_eq_true, if_false]
        rw [ih (i + 1) bs num o hl' (fun v hv => ho v (by omega))]
        have hu := upd o (fun v _ => rfl) (ho i (Nat.le_refl i))
        have ec : n < 2 * (num + bs.count true) ↔ n < 2 * (num + (false :: bs).count true) := by
          simp
        have hu2 : (fun v => if v ∈ all.map (·.1) then false
              else if i + 1 ≤ v then bs[v - (i + 1)]?.getD false else o v) =
            fun v => if v ∈ all.map (·.1) then false else if i ≤ v then (false :: bs)[v - i]?.getD false else o v := by
          funext v
          by_cases hv : v ∈ all.map (·.1)
          · rw [if_pos hv, if_pos hv]
          · rw [if_neg hv, if_neg hv]
            exact congrFun hu v
        rw [hu, hu2]
        simp only [ec]

theorem number_map (fs : List Nat) : ∀ i v, v ∈ (number i fs).map (·.1) ↔ i ≤ v ∧ v < i + fs.length := by
  induction fs with
  | nil => intro i v; simp [number] <;> omega
  | cons f fs ih =>
    intro i v
    simp only [number, List.map_cons, List.mem_cons, ih, List.length_cons]
    omega

/-- C70.  Opening the disks of a lease succeeds exactly when more than half of them could be opened; then those are open, and
otherwise none is. -/
theorem open_majority (fs : List Nat) (bs : List Bool) (hl : bs.length = fs.length) :
    ∃ r o, exec (openDisks (number 0 fs) (.ret true) (.ret false)) bs (fun _ => false) = some (r, o) ∧
      (r = true ↔ fs.length < 2 * bs.count true) ∧
      (r = true → ∀ d, o d = (bs[d]?).getD false) ∧ (r = false → ∀ d, o d = false) := by
  have hn : ∀ i, (number i fs).length = fs.length := by
    clear hl
    induction fs with
    | nil => intro i; rfl
    | cons f fs ih => intro i; simp [number, ih]
  have key := exec_openLoop (number 0 fs).length (number 0 fs) fs 0 bs 0 (fun _ => false) hl (fun _ _ => rfl)
  unfold openDisks
  rw [key, hn]
  simp only [Nat.zero_add, Nat.zero_le, if_true, Nat.sub_zero]
  by_cases hm : fs.length < 2 * bs.count true
  · rw [if_pos hm]
    exact ⟨true, _, rfl, by simp [hm], fun _ d => rfl, fun e => by cases e⟩
  · rw [if_neg hm]
    refine ⟨false, _, rfl, by simp [hm], ⟨fun e => (Bool.noConfusion e), fun _ d => ?_⟩⟩
    split
    · rfl
    · rename_i hd
      rw [number_map] at hd
      have : bs[d]? = none := List.getElem?_eq_none (by omega)
      rw [this]
      rfl

example : (exec (openDisks (number 0 [7, 8, 9]) (.ret true) (.ret false)) [true, false, true] (fun _ => false)).map (·.1) = some true ∧
    (exec (openDisks (number 0 [7, 8]) (.ret true) (.ret false)) [true, false] (fun _ => false)).map (fun x => (x.1, x.2 0)) =
      some (false, false) := by
  decide

/-! ### Where the claim is false -/

/-- The start of a lockspace up to the point where wdmd fails. -/
def wdFailing (t : Nat) : List Choice :=
  [true, true, false, true, true, true, false, true, true, true, true].map (.go t)

/-- Two lockspaces whose start fails because wdmd cannot open the watchdog, a lease that is written to disk 7, and a read of disk 9. -/
def wdRun : List Choice :=
  [.start 1 (.space 1 50 60 true 0)] ++ wdFailing 1 ++ [.go 1 true,
   .start 2 (.space 2 50 60 true 0)] ++ wdFailing 2 ++ [
   .start 3 (.disks [7]), .go 3 false, .go 3 true, .go 3 true,
   .go 2 true,
   .start 4 (.disk 9), .go 4 false, .go 4 true,
   .go 3 false, .go 3 true]

/-- C70, violated.  When wdmd cannot open the watchdog, `lockspace_thread` closes descriptor 0 instead of its connection to wdmd
(`sp->wd_fd` is not set yet).  The first time this closes the daemon's standard input, which makes 0 the number of the next file
that is opened; the second time it closes that file, and the call that opened it closes a file of yet another call.
Here what a call writes to disk 7 arrives on disk 9. -/
theorem watchdog_fails_violated :
    let s := run 20 (start exOwn) wdRun
    s.ev = [.wdFails, .wdFails] ∧ (0, 7, some 9) ∈ s.hits ∧ (1, some 0) ∈ s.closes ∧ (2, some 3) ∈ s.closes := by
  decide +kernel

/-- … and the connection to wdmd stays open after the call. -/
theorem watchdog_leak_violated :
    let s := run 20 (start exOwn) ([.start 1 (.space 1 50 60 true 0)] ++ wdFailing 1 ++ [.go 1 true])
    (s.thr 1).map (fun x => match x.1 with | .ret _ => true | _ => false) = some true ∧ s.tab 4 = some ⟨1, 50⟩ ∧ s.tab 0 = none := by
  decide +kernel

/-- `n` requests to format an index with flags that do not go together. -/
def formats (f : Nat) : Nat → Nat → List Choice
  | _, 0 => []
  | t, n + 1 => [.start t (.format f), .go t true, .go t true] ++ formats f (t + 1) n

theorem formats_run (lim f : Nat) : ∀ (n t m : Nat) (s : State), t ≠ 0 → (∀ u, t ≤ u → s.thr u = none) →
    (∀ k, s.tab k ≠ none ↔ k < m) → m + n ≤ lim → (∀ u, s.thr u ≠ none → ended s u) → (∀ e ∈ s.ev, e = .badSizes) →
    let s' := run lim s (formats f t n)
    (∀ k, s'.tab k ≠ none ↔ k < m + n) ∧ (∀ u, s'.thr u ≠ none → ended s' u) ∧ (∀ e ∈ s'.ev, e = .badSizes) := by
  intro n
  induction n with
  | zero => intro t m s _ _ hm _ he hv; exact ⟨hm, he, hv⟩
  | succ n ih =>
    intro t m s ht hthr hm hle he hv
    have hlow : lowest lim s.tab = some m := by
      unfold lowest
      rw [List.find?_eq_some_iff_append]
      refine ⟨?_, List.range m, (List.range (lim - m - 1)).map (· + (m + 1)), ?_, ?_⟩
      · have : ¬ s.tab m ≠ none := by rw [hm]; omega
        have e : s.tab m = none := Classical.byContradiction this
        simp [e]
      · have e1 : lim = m + 1 + (lim - m - 1) := by omega
        conv => lhs; rw [e1]
        rw [List.range_add, List.range_succ]
        simp [List.append_assoc, Nat.add_comm]
      · intro k hk
        have := (hm k).2 (List.mem_range.1 hk)
        cases ek : s.tab k with
        | none => exact absurd ek this
        | some x => simp [ek]
    have h0 : ¬ (t = 0 ∨ (s.thr t).isSome) := by
      rw [hthr t (Nat.le_refl t)]
      simp [ht]
    let s1 : State := { s with
      tab := set s.tab m (some ⟨t, f⟩)
      thr := set s.thr t (some (.ret false, set (fun _ => -1) 0 (m : Int)))
      ev := .badSizes :: s.ev }
    have e : run lim s ([.start t (.format f), .go t true, .go t true] ++ formats f (t + 1) n) =
        run lim s1 (formats f (t + 1) n) := by
      simp only [run, List.foldl_append, List.foldl_cons, List.foldl_nil]
      congr 1
      have e1 : step lim s (.start t (.format f)) = goOn s t (rindexFormat f) (fun _ => -1) := by
        simp only [step, if_neg h0]
        rfl
      rw [e1]
      have e2 : step lim (goOn s t (rindexFormat f) fun _ => -1) (.go t true) =
          goOn { goOn s t (rindexFormat f) (fun _ => -1) with tab := set s.tab m (some ⟨t, f⟩) } t
            (.fault .badSizes (.ret false)
              (.alt (.closeDisk 0 (.ret false)) (.io 0 f (.alt (.closeDisk 0 (.ret false)) (.io 0 f (.closeDisk 0 (.ret true)))))))
            (set (fun _ => -1) 0 (m : Int)) := by
        simp only [step, goOn, set_same, rindexFormat, move, hlow]
      rw [e2]
      simp only [step, goOn, set_same, move, if_true, set_set, s1]
    have e' : run lim s (formats f t (n + 1)) = run lim s1 (formats f (t + 1) n) := e
    rw [e']
    have := ih (t + 1) (m + 1) s1 (by omega) ?_ ?_ (by omega) ?_ ?_
    · simpa only [Nat.add_assoc, Nat.add_comm 1 n] using this
    · intro u hu
      show set s.thr t _ u = none
      rw [set_apply, if_neg (by omega)]
      exact hthr u (by omega)
    · intro k
      show set s.tab m _ k ≠ none ↔ _
      rw [set_apply]
      split
      · rename_i e; simp [e]
      · rename_i e
        rw [hm]
        omega
    · intro u hu
      by_cases e : u = t
      · exact ⟨false, set (fun _ => -1) 0 (m : Int), by simp [s1, e, set_apply]⟩
      · have hu' : s.thr u ≠ none := by
          have : s1.thr u = s.thr u := by simp [s1, set_apply, e]
          rwa [this] at hu
        obtain ⟨r, σ, h⟩ := he u hu'
        exact ⟨r, σ, by simp [s1, set_apply, e, h]⟩
    · intro x hx
      rcases List.mem_cons.1 hx with h | h
      · exact h
      · exact hv x h

/-- A tree that gets nowhere when every open fails. -/
def stuck : Prog → Prop
  | .ret _ => True
  | .open _ _ _ err => stuck err
  | .io _ _ p => stuck p
  | .closeDisk _ p => stuck p
  | .close _ _ => False
  | .move _ _ _ => False
  | .ifSet _ _ q => stuck q
  | .alt p q => stuck p ∧ stuck q
  | .fault _ p q => stuck p ∧ stuck q

theorem stuck_closeDisks {ds : List (Nat × Nat)} {p : Prog} (h : stuck p) : stuck (closeDisks ds p) := by
  induction ds with
  | nil => exact h
  | cons d ds ih => exact ih

theorem stuck_openDisks {ds : List (Nat × Nat)} {ok fail : Prog} (h : stuck fail) : stuck (openDisks ds ok fail) := by
  unfold openDisks
  generalize hn : ds.length = n
  have hm : ∀ k, majority k 0 = false := fun k => by
    cases e : majority k 0 with
    | false => rfl
    | true => rw [majority_iff] at e; omega
  have hc : stuck (closeDisks ds fail) := stuck_closeDisks h
  generalize closeDisks ds fail = q at hc
  clear hn
  induction ds with
  | nil => simp only [openLoop, hm]; exact hc
  | cons d ds ih => exact ih

/-- The threads of a daemon without free descriptors. -/
def Idle (x : Prog × (Nat → Int)) : Prop :=
  (stuck x.1 ∧ ∀ v, x.2 v = -1) ∨ (∃ r, x.1 = .ret r) ∨ (∃ v f ok r, x.1 = .open v f ok (.ret r))

theorem idle_start (c : Cmd) : Idle (c.prog, c.store) := by
  cases c with
  | acquire fs hf k j =>
    have e : stuck (releaseToken (number 0 fs) false true (.ret false)) := ⟨stuck_closeDisks trivial, trivial⟩
    exact .inl ⟨⟨trivial, trivial, stuck_openDisks e, stuck_openDisks e⟩, fun _ => rfl⟩
  | release fs =>
    exact .inl ⟨⟨stuck_closeDisks trivial, stuck_openDisks trivial⟩, fun _ => rfl⟩
  | convert fs hf k => exact .inl ⟨⟨trivial, stuck_openDisks trivial⟩, fun _ => rfl⟩
  | disks fs => exact .inl ⟨⟨trivial, stuck_openDisks trivial⟩, fun _ => rfl⟩
  | disk f => exact .inl ⟨⟨trivial, trivial⟩, fun _ => rfl⟩
  | format f => exact .inl ⟨trivial, fun _ => rfl⟩
  | change f hf k => exact .inl ⟨trivial, fun _ => rfl⟩
  | space f w y wd n => exact .inr (.inr ⟨0, f, _, false, rfl⟩)
  | client f => exact .inl ⟨trivial, fun _ => rfl⟩

/-- Nothing can be opened, nothing is closed, no I/O arrives. -/
structure Dead (lim : Nat) (tab₀ : Nat → Option Ent) (old : List (Int × Nat × Option Nat)) (s : State) : Prop where
  tab : s.tab = tab₀
  full : lowest lim tab₀ = none
  thr : ∀ t x, s.thr t = some x → Idle x
  hits : ∃ new, s.hits = new ++ old ∧ ∀ h ∈ new, h.2.2 = none

theorem Dead.goOn {lim tab old} {s : State} {t : Nat} {p : Prog} {σ : Nat → Int} {ev' miss'} (h : Dead lim tab old s) (hi : Idle (p, σ)) :
    Dead lim tab old (Descr.goOn { s with ev := ev', miss := miss' } t p σ) where
  tab := h.tab
  full := h.full
  thr u x e := by
    simp only [Descr.goOn, set_apply] at e
    split at e
    · cases e; exact hi
    · exact h.thr u x e
  hits := h.hits

theorem Dead.step {lim tab old} {s : State} (h : Dead lim tab old s) (c : Choice) : Dead lim tab old (Descr.step lim s c) := by
  cases c with
  | start t c =>
    simp only [Descr.step]
    split
    · exact h
    · exact h.goOn (ev' := s.ev) (miss' := s.miss) (idle_start c)
  | go t b =>
    cases e : s.thr t with
    | none => simp only [Descr.step, e]; exact h
    | some q =>
      obtain ⟨p, σ⟩ := q
      simp only [Descr.step, e]
      have hl : lowest lim s.tab = none := by rw [h.tab]; exact h.full
      have same : ∀ q τ, Idle (q, τ) → Dead lim tab old (Descr.goOn s t q τ) := fun q τ hi => h.goOn (ev' := s.ev) (miss' := s.miss) hi
      rcases h.thr t _ e with ⟨hs, hσ⟩ | ⟨r, hr⟩ | ⟨v, f, ok, r, hr⟩
      · cases p with
        | ret r => exact h
        | «open» v f ok err =>
          simp only [Descr.move, hl]
          have : Dead lim tab old (Descr.goOn { s with miss := (t, f) :: s.miss } t err σ) :=
            h.goOn (ev' := s.ev) (.inl ⟨hs, hσ⟩)
          cases b <;> exact this
        | io v f p =>
          simp only [Descr.move]
          have hx : (entry s.tab (σ v)).map (·.file) = none := by
            have hv : σ v = -1 := hσ v
            rw [hv]
            rfl
          refine ⟨h.tab, h.full, ?_, ?_⟩
          · intro u x e
            simp only [Descr.goOn, set_apply] at e
            split at e
            · cases e; exact .inl ⟨hs, hσ⟩
            · exact h.thr u x e
          · obtain ⟨new, h1, h2⟩ := h.hits
            refine ⟨(σ v, f, (entry s.tab (σ v)).map (·.file)) :: new, ?_, ?_⟩
            · show _ :: s.hits = _
              rw [h1]
              rfl
            · intro y hy
              rcases List.mem_cons.1 hy with rfl | hy
              · exact hx
              · exact h2 y hy
        | closeDisk v p =>
          simp only [Descr.move, if_pos (hσ v)]
          exact same _ _ (.inl ⟨hs, hσ⟩)
        | close v p => exact hs.elim
        | move v w p => exact hs.elim
        | ifSet v p q =>
          simp only [Descr.move, if_pos (hσ v)]
          exact same _ _ (.inl ⟨hs, hσ⟩)
        | alt p q =>
          cases b
          · exact same _ _ (.inl ⟨hs.2, hσ⟩)
          · exact same _ _ (.inl ⟨hs.1, hσ⟩)
        | fault ev p q =>
          cases b
          · exact same _ _ (.inl ⟨hs.2, hσ⟩)
          · exact h.goOn (ev' := ev :: s.ev) (miss' := s.miss) (.inl ⟨hs.1, hσ⟩)
      · simp only at hr
        subst hr
        exact h
      · simp only at hr
        subst hr
        simp only [Descr.move, hl]
        have : Dead lim tab old (Descr.goOn { s with miss := (t, f) :: s.miss } t (.ret r) σ) :=
          h.goOn (ev' := s.ev) (.inr (.inl ⟨r, rfl⟩))
        cases b <;> exact this

/-- C70, violated.  A request to format an index with flags that do not go together leaves a descriptor open.  Whatever the limit:
after enough of them all descriptors are used although no call runs, and from then on no I/O of any call reaches a disk. -/
theorem format_leak_violated (lim : Nat) (own : Nat → Option Nat) (m : Nat) (hm : ∀ k, own k ≠ none ↔ k < m) (hle : m ≤ lim) (f : Nat) :
    let s := run lim (start own) (formats f 1 (lim - m))
    (∀ e ∈ s.ev, e = .badSizes) ∧ (∀ u, s.thr u ≠ none → ended s u) ∧ (∀ k < lim, s.tab k ≠ none) ∧
    ∀ cs, ∃ new, (run lim s cs).hits = new ++ s.hits ∧ (∀ h ∈ new, h.2.2 = none) ∧ (run lim s cs).tab = s.tab := by
  have h := formats_run lim f (lim - m) 1 m (start own) (by decide) (fun _ _ => rfl)
    (fun k => by rw [← hm k]; simp [start]) (by omega) (fun u e => absurd rfl e) (fun e he => by cases he)
  intro s
  obtain ⟨h1, h2, h3⟩ := h
  have hfull : ∀ k < lim, s.tab k ≠ none := fun k hk => (h1 k).2 (by omega)
  refine ⟨h3, h2, hfull, ?_⟩
  intro cs
  have hd : Dead lim s.tab s.hits s := by
    refine ⟨rfl, ?_, ?_, [], rfl, fun _ hx => absurd hx List.not_mem_nil⟩
    · unfold lowest
      rw [List.find?_eq_none]
      intro k hk
      have := hfull k (List.mem_range.1 hk)
      simpa using this
    · intro t x e
      obtain ⟨r, σ, hr⟩ := h2 t (by rw [e]; simp)
      rw [hr] at e
      cases e
      exact .inr (.inl ⟨r, rfl⟩)
  have : ∀ (cs : List Choice) (s' : State), Dead lim s.tab s.hits s' → Dead lim s.tab s.hits (run lim s' cs) := by
    intro cs
    induction cs with
    | nil => intro s' h; exact h
    | cons c cs ih => intro s' h; exact ih _ (h.step c)
  obtain ⟨ht, -, -, new, hn1, hn2⟩ := this cs s hd
  exact ⟨new, hn1, hn2, ht⟩

example : (∀ k, exOwn k ≠ none ↔ k < 3) ∧ 3 ≤ 1024 := by
  refine ⟨fun k => ?_, by decide⟩
  unfold exOwn
  split <;> simp_all

/-- C70, violated.  A connection for which there is no slot stays open. -/
theorem no_slot_violated :
    let s := run 20 (start exOwn) [.start 1 (.client 70), .go 1 true, .go 1 true]
    s.ev = [.noSlot] ∧ (s.thr 1).map (fun x => match x.1 with | .ret _ => true | _ => false) = some true ∧ s.tab 3 = some ⟨1, 70⟩ := by
  decide +kernel

end Sanlock.Descr
