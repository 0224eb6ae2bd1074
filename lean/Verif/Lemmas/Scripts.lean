import Verif.Scripts

/-!
# Lemmas about the test scripts
-/

namespace Sanlock.Scripts

/-- The table `t` at time `now` with the ended runs `h`, newest first: names are used once, an entry that is not running shows
the result of the latest run of its script, and times are in order. -/
structure Ok (t : Table) (h : List Run) (now : Nat) : Prop where
  uniq : ∀ (i j : Nat) (sc sc' : Script), t[i]? = some (some sc) → t[j]? = some (some sc') → sc.name = sc'.name → i = j
  last : ∀ (i : Nat) (sc : Script), t[i]? = some (some sc) → sc.running = false →
    (sc.start = 0 ∧ sc.failed = false) ∨
      ∃ r, h.find? (fun r => r.name == sc.name) = some r ∧ r.start = sc.start ∧ r.pass = !sc.failed
  time : ∀ (i : Nat) (sc : Script), t[i]? = some (some sc) → sc.start ≤ now
  runs : ∀ r ∈ h, r.start ≤ r.fin

theorem ok_later {t : Table} {h : List Run} {n m : Nat} (H : Ok t h n) (hm : n ≤ m) : Ok t h m :=
  ⟨H.uniq, H.last, fun i sc hi => Nat.le_trans (H.time i sc hi) hm, H.runs⟩

/-! ## One pass over the running scripts -/

theorem poll_get (now : Nat) (outs : List Out) (t : Table) (i : Nat) :
    (poll now outs t).1[i]? = t[i]?.map fun e => (pollOne now (outs.getD i .busy) e).1 := by
  simp only [poll, List.getElem?_map, List.getElem?_mapIdx, Option.map_map, Function.comp_def]

theorem poll_runs {now : Nat} {outs : List Out} {t : Table} {r : Run} (h : r ∈ (poll now outs t).2) :
    ∃ (i : Nat) (sc : Script), t[i]? = some (some sc) ∧ (pollOne now (outs.getD i .busy) (some sc)).2 = some r := by
  simp only [poll, List.mem_filterMap] at h
  obtain ⟨x, hx, hr⟩ := h
  obtain ⟨i, hi⟩ := List.mem_iff_getElem?.mp hx
  rw [List.getElem?_mapIdx] at hi
  cases ht : t[i]? with
  | none => simp [ht] at hi
  | some e =>
    simp only [ht, Option.map_some, Option.some.injEq] at hi
    cases e with
    | none => rw [← hi] at hr; simp [pollOne] at hr
    | some sc => exact ⟨i, sc, ht, by rw [hi]; exact hr⟩

theorem runs_poll {now : Nat} {outs : List Out} {t : Table} {r : Run} {i : Nat} {e : Option Script} (h : t[i]? = some e)
    (hr : (pollOne now (outs.getD i .busy) e).2 = some r) : r ∈ (poll now outs t).2 := by
  simp only [poll, List.mem_filterMap]
  refine ⟨pollOne now (outs.getD i .busy) e, ?_, hr⟩
  rw [List.mem_iff_getElem?]
  exact ⟨i, by rw [List.getElem?_mapIdx, h]; rfl⟩

/-- What one `waitpid` makes of one script. -/
theorem pollOne_cases (now : Nat) (o : Out) (sc : Script) :
    (pollOne now o (some sc) = (some sc, none)) ∨
    (sc.running = true ∧ ∃ f, pollOne now o (some sc) =
      (some { sc with running := false, failed := f }, some ⟨sc.name, sc.start, now, !f⟩)) := by
  simp only [pollOne]
  split
  · rename_i hr
    cases o with
    | busy => exact .inl rfl
    | error => exact .inl rfl
    | signal => exact .inr ⟨hr, true, rfl⟩
    | exit code => refine .inr ⟨hr, code != 0, ?_⟩; cases code <;> rfl
  · exact .inl rfl

/-- From `sc` to `sc'`, with the runs that ended. -/
structure Adv (runs : List Run) (sc sc' : Script) : Prop where
  name : sc'.name = sc.name
  start : sc'.start = sc.start
  same : sc.running = false → sc' = sc
  ended : sc.running = true → sc'.running = false → ∃ r ∈ runs, r.name = sc.name ∧ r.start = sc.start ∧ r.pass = !sc'.failed

theorem find_append_none {p : Run → Bool} {a b : List Run} (h : ∀ r ∈ a, p r = false) : (a ++ b).find? p = b.find? p := by
  rw [List.find?_append, List.find?_eq_none.mpr (by intro x hx; simp [h x hx])]
  rfl

/-- One pass. -/
theorem poll_spec {now : Nat} {outs : List Out} {t : Table} {h : List Run} {prev : Nat} (H : Ok t h prev) (hn : prev ≤ now) :
    Ok (poll now outs t).1 ((poll now outs t).2 ++ h) now ∧
    (∀ r ∈ (poll now outs t).2, r.fin = now) ∧
    (∀ (i : Nat), t[i]? = some none → (poll now outs t).1[i]? = some none) ∧
    (∀ (i : Nat), t[i]? = none → (poll now outs t).1[i]? = none) ∧
    (∀ (i : Nat) (sc : Script), t[i]? = some (some sc) → ∃ sc', (poll now outs t).1[i]? = some (some sc') ∧ Adv (poll now outs t).2 sc sc') := by
  have fwd : ∀ (i : Nat) (sc : Script), t[i]? = some (some sc) → ∃ sc', (poll now outs t).1[i]? = some (some sc') ∧ Adv (poll now outs t).2 sc sc' := by
    intro i sc hi
    rcases pollOne_cases now (outs.getD i .busy) sc with h1 | ⟨h1, f, h2⟩
    · refine ⟨sc, by rw [poll_get, hi, Option.map_some, h1], rfl, rfl, fun _ => rfl, fun k1 k2 => ?_⟩
      rw [k1] at k2; simp at k2
    · refine ⟨{ sc with running := false, failed := f }, by rw [poll_get, hi, Option.map_some, h2], rfl, rfl, fun k => ?_, fun _ _ => ?_⟩
      · rw [h1] at k; simp at k
      · exact ⟨⟨sc.name, sc.start, now, !f⟩, runs_poll hi (by rw [h2]), rfl, rfl, rfl⟩
  have back : ∀ (i : Nat) (sc' : Script), (poll now outs t).1[i]? = some (some sc') → ∃ sc, t[i]? = some (some sc) ∧ Adv (poll now outs t).2 sc sc' := by
    intro i sc' hi
    cases ht : t[i]? with
    | none => rw [poll_get, ht] at hi; simp at hi
    | some e =>
      cases e with
      | none => rw [poll_get, ht] at hi; simp [pollOne] at hi
      | some sc =>
        obtain ⟨sc2, h1, h2⟩ := fwd i sc ht
        rw [h1] at hi
        simp only [Option.some.injEq] at hi
        exact ⟨sc, rfl, hi ▸ h2⟩
  refine ⟨⟨?_, ?_, ?_, ?_⟩, ?_, ?_, ?_, fwd⟩
  · intro i j sc sc' hi hj hn'
    obtain ⟨a, ha, hadv⟩ := back i sc hi
    obtain ⟨b, hb, hbdv⟩ := back j sc' hj
    exact H.uniq i j a b ha hb (by rw [← hadv.name, ← hbdv.name, hn'])
  · intro i sc' hi hr
    obtain ⟨sc, hsc, hadv⟩ := back i sc' hi
    by_cases hrun : sc.running = true
    · obtain ⟨r, hrm, r1, r2, r3⟩ := hadv.ended hrun hr
      right
      have huniq : ∀ r' ∈ (poll now outs t).2, r'.name = sc.name → r' = r := by
        intro r' hr' hnm
        obtain ⟨j, b, hb, hb2⟩ := poll_runs hr'
        obtain ⟨k, d, hd, hd2⟩ := poll_runs hrm
        rcases pollOne_cases now (outs.getD j .busy) b with c1 | ⟨_, f1, c1⟩
        · rw [c1] at hb2; simp at hb2
        rcases pollOne_cases now (outs.getD k .busy) d with c2 | ⟨_, f2, c2⟩
        · rw [c2] at hd2; simp at hd2
        have nb : b.name = sc.name := by
          have hb3 := hb2
          rw [c1] at hb3
          simp only [Option.some.injEq] at hb3
          rw [← hnm, ← hb3]
        have nd : d.name = sc.name := by
          have hd3 := hd2
          rw [c2] at hd3
          simp only [Option.some.injEq] at hd3
          rw [← r1, ← hd3]
        have e1 := H.uniq j i b sc hb hsc nb
        have e2 := H.uniq k i d sc hd hsc nd
        subst e1; subst e2
        rw [hb] at hd
        simp only [Option.some.injEq] at hd
        subst hd
        exact Option.some.inj (hb2.symm.trans hd2)
      have hf : (poll now outs t).2.find? (fun r => r.name == sc'.name) = some r := by
        cases hfind : (poll now outs t).2.find? (fun r => r.name == sc'.name) with
        | none =>
          have := List.find?_eq_none.mp hfind r hrm
          simp [hadv.name, r1] at this
        | some r' =>
          have h1 := List.mem_of_find?_eq_some hfind
          have h2 := List.find?_some hfind
          simp only [beq_iff_eq] at h2
          rw [huniq r' h1 (by rw [h2, hadv.name])]
      refine ⟨r, by rw [List.find?_append, hf]; rfl, by rw [r2, hadv.start], r3⟩
    · have hrun : sc.running = false := by simpa using hrun
      have heq := hadv.same hrun
      subst heq
      rcases H.last i sc' hsc hrun with h1 | ⟨r, h1, h2⟩
      · exact .inl h1
      · refine .inr ⟨r, ?_, h2⟩
        rw [find_append_none, h1]
        intro r' hr'
        obtain ⟨j, b, hb, hb2⟩ := poll_runs hr'
        rcases pollOne_cases now (outs.getD j .busy) b with c1 | ⟨c0, f1, c1⟩
        · rw [c1] at hb2; simp at hb2
        · rw [c1] at hb2
          simp only [Option.some.injEq] at hb2
          apply Classical.byContradiction
          intro hne
          have hnm : r'.name = sc'.name := by simpa using hne
          rw [← hb2] at hnm
          have e1 := H.uniq j i b sc' hb hsc hnm
          subst e1
          rw [hb] at hsc
          simp only [Option.some.injEq] at hsc
          rw [hsc, hrun] at c0
          simp at c0
  · intro i sc' hi
    obtain ⟨sc, hsc, hadv⟩ := back i sc' hi
    rw [hadv.start]
    exact Nat.le_trans (H.time i sc hsc) hn
  · intro r hr
    rcases List.mem_append.mp hr with hr | hr
    · obtain ⟨j, b, hb, hb2⟩ := poll_runs hr
      rcases pollOne_cases now (outs.getD j .busy) b with c1 | ⟨c0, f1, c1⟩
      · rw [c1] at hb2; simp at hb2
      · rw [c1] at hb2
        simp only [Option.some.injEq] at hb2
        rw [← hb2]
        exact Nat.le_trans (H.time j b hb) hn
    · exact H.runs r hr
  · intro r hr
    obtain ⟨j, b, hb, hb2⟩ := poll_runs hr
    rcases pollOne_cases now (outs.getD j .busy) b with c1 | ⟨c0, f1, c1⟩
    · rw [c1] at hb2; simp at hb2
    · rw [c1] at hb2
      simp only [Option.some.injEq] at hb2
      rw [← hb2]
  · intro i hi
    rw [poll_get, hi]; rfl
  · intro i hi
    rw [poll_get, hi]; rfl

theorem adv_trans {a b : List Run} {x y z : Script} (h1 : Adv a x y) (h2 : Adv b y z) : Adv (b ++ a) x z := by
  refine ⟨h2.name.trans h1.name, h2.start.trans h1.start, fun h => ?_, fun hx hz => ?_⟩
  · have hy := h1.same h
    rw [h2.same (by rw [hy]; exact h), hy]
  · by_cases hy : y.running = true
    · obtain ⟨r, hr, k1, k2, k3⟩ := h2.ended hy hz
      exact ⟨r, List.mem_append_left _ hr, k1.trans h1.name, k2.trans h1.start, k3⟩
    · have hy : y.running = false := by simpa using hy
      obtain ⟨r, hr, k1, k2, k3⟩ := h1.ended hx hy
      exact ⟨r, List.mem_append_right _ hr, k1, k2, by rw [k3, h2.same hy]⟩

/-- The waiting loop. -/
theorem waitLoop_spec {std begin : Nat} {H0 : List Run} (polls : List (Nat × List Out)) :
    ∀ (t : Table) (hist : List Run) (prev : Nat) (t' : Table) (h' : List Run) (now : Nat),
    waitLoop std begin t hist prev polls = some (t', h', now) → Ok t (hist ++ H0) prev →
    prev ≤ now ∧ Ok t' (h' ++ H0) now ∧ ∃ runs, h' = runs ++ hist ∧ (∀ r ∈ runs, prev ≤ r.fin ∧ r.fin ≤ now) ∧
      (∀ (i : Nat), t[i]? = some none → t'[i]? = some none) ∧ (∀ (i : Nat), t[i]? = none → t'[i]? = none) ∧
      (∀ (i : Nat) (sc : Script), t[i]? = some (some sc) → ∃ sc', t'[i]? = some (some sc') ∧ Adv runs sc sc') := by
  induction polls with
  | nil => intro t hist prev t' h' now h; simp [waitLoop] at h
  | cons p rest ih =>
    obtain ⟨now1, outs⟩ := p
    intro t hist prev t' h' now h H
    simp only [waitLoop] at h
    split at h
    · simp at h
    rename_i hlt
    have hle : prev ≤ now1 := by omega
    obtain ⟨P1, P2, P3, P4, P5⟩ := poll_spec (outs := outs) H hle
    rw [← List.append_assoc] at P1
    split at h
    · split at h
      · simp only [Option.some.injEq, Prod.mk.injEq] at h
        obtain ⟨rfl, rfl, rfl⟩ := h
        exact ⟨hle, P1, _, rfl, fun r hr => by rw [P2 r hr]; exact ⟨hle, Nat.le_refl _⟩, P3, P4, P5⟩
      · simp at h
    · obtain ⟨Q1, Q2, runs, Q3, Q4, Q5, Q6, Q7⟩ := ih _ _ _ _ _ _ h P1
      refine ⟨Nat.le_trans hle Q1, Q2, runs ++ (poll now1 outs t).2, by rw [Q3, List.append_assoc], ?_, ?_, ?_, ?_⟩
      · intro r hr
        rcases List.mem_append.mp hr with hr | hr
        · exact ⟨Nat.le_trans hle (Q4 r hr).1, (Q4 r hr).2⟩
        · rw [P2 r hr]; exact ⟨hle, Q1⟩
      · intro i hi; exact Q5 i (P3 i hi)
      · intro i hi; exact Q6 i (P4 i hi)
      · intro i sc hi
        obtain ⟨y, hy, ha⟩ := P5 i sc hi
        obtain ⟨z, hz, hb⟩ := Q7 i y hy
        exact ⟨z, hz, adv_trans ha hb⟩

/-- What the first loop of `test_scripts` makes of one script. -/
theorem startOne_cases (std begin : Nat) (ok : Bool) (sc : Script) :
    (sc.running = true ∧ startOne std begin ok (some sc) = some sc) ∨
    (sc.running = false ∧ sc.failed = false ∧ begin - sc.start < std - 1 ∧ startOne std begin ok (some sc) = some sc) ∨
    (sc.running = false ∧ (sc.failed = true ∨ std - 1 ≤ begin - sc.start) ∧ ok = true ∧
      startOne std begin ok (some sc) = some { sc with running := true, start := begin }) ∨
    (sc.running = false ∧ (sc.failed = true ∨ std - 1 ≤ begin - sc.start) ∧ ok = false ∧ startOne std begin ok (some sc) = none) := by
  simp only [startOne]
  cases sc.running <;> cases sc.failed <;> cases ok <;> by_cases h : begin - sc.start < std - 1 <;> simp [h] <;> omega

theorem running_zero {t : Table} (h : running t = 0) {i : Nat} {sc : Script} (hi : t[i]? = some (some sc)) : sc.running = false := by
  simp only [running, List.countP_eq_zero] at h
  simpa using h (some sc) (List.mem_of_getElem? hi)

/-- `test_scripts`. -/
theorem testScripts_spec {std begin : Nat} {oks : List Bool} {polls : List (Nat × List Out)} {t t' : Table} {fails now : Nat}
    {runs H0 : List Run} (h : testScripts std begin oks polls t = some (t', fails, runs, now)) (H : Ok t H0 begin) :
    begin ≤ now ∧ Ok t' (runs ++ H0) now ∧ (∀ r ∈ runs, begin ≤ r.fin ∧ r.fin ≤ now) ∧
    fails = (runs.countP fun r => !r.pass) + running t' ∧
    (∀ (i : Nat) (sc' : Script), t'[i]? = some (some sc') → ∃ sc, t[i]? = some (some sc) ∧ sc'.name = sc.name) ∧
    ((∀ b ∈ oks, b = true) → ∀ (i : Nat) (sc : Script), t[i]? = some (some sc) → ∃ sc', t'[i]? = some (some sc') ∧ sc'.name = sc.name) ∧
    (fails = 0 → ∀ (i : Nat) (sc' : Script), t'[i]? = some (some sc') →
      begin < std - 1 ∨ ∃ r, (runs ++ H0).find? (fun r => r.name == sc'.name) = some r ∧ r.pass = true ∧
        (begin ≤ r.fin ∨ begin < r.start + (std - 1))) := by
  simp only [testScripts] at h
  split at h
  · simp at h
  rename_i t2 runs2 now2 hw
  simp only [Option.some.injEq, Prod.mk.injEq] at h
  obtain ⟨rfl, hfails, rfl, rfl⟩ := h
  have get1 : ∀ (i : Nat), (t.mapIdx fun i e => startOne std begin (oks.getD i true) e)[i]? =
      t[i]?.map (startOne std begin (oks.getD i true)) := fun i => List.getElem?_mapIdx
  have back1 : ∀ (i : Nat) (sc1 : Script), (t.mapIdx fun i e => startOne std begin (oks.getD i true) e)[i]? = some (some sc1) →
      ∃ sc, t[i]? = some (some sc) ∧ startOne std begin (oks.getD i true) (some sc) = some sc1 := by
    intro i sc1 hi
    rw [get1] at hi
    cases ht : t[i]? with
    | none => simp [ht] at hi
    | some e =>
      cases e with
      | none => simp [ht, startOne] at hi
      | some sc => exact ⟨sc, rfl, by simpa [ht] using hi⟩
  have name1 : ∀ i sc sc1, startOne std begin (oks.getD i true) (some sc) = some sc1 → sc1.name = sc.name := by
    intro i sc sc1 h1
    rcases startOne_cases std begin (oks.getD i true) sc with ⟨_, k⟩ | ⟨_, _, _, k⟩ | ⟨_, _, _, k⟩ | ⟨_, _, _, k⟩ <;> rw [k] at h1 <;>
      simp at h1 <;> rw [← h1]
  have H1 : Ok (t.mapIdx fun i e => startOne std begin (oks.getD i true) e) ([] ++ H0) begin := by
    refine ⟨?_, ?_, ?_, H.runs⟩
    · intro i j a b ha hb hn
      obtain ⟨x, hx, hx'⟩ := back1 i a ha
      obtain ⟨y, hy, hy'⟩ := back1 j b hb
      exact H.uniq i j x y hx hy (by rw [← name1 i x a hx', ← name1 j y b hy', hn])
    · intro i a ha hr
      obtain ⟨x, hx, hx'⟩ := back1 i a ha
      rcases startOne_cases std begin (oks.getD i true) x with ⟨k0, k⟩ | ⟨_, _, _, k⟩ | ⟨_, _, _, k⟩ | ⟨_, _, _, k⟩ <;> rw [k] at hx' <;>
        try simp only [Option.some.injEq] at hx'
      · subst hx'; rw [k0] at hr; simp at hr
      · subst hx'; exact H.last i x hx hr
      · subst hx'; simp at hr
      · simp at hx'
    · intro i a ha
      obtain ⟨x, hx, hx'⟩ := back1 i a ha
      have := H.time i x hx
      rcases startOne_cases std begin (oks.getD i true) x with ⟨k0, k⟩ | ⟨_, _, _, k⟩ | ⟨_, _, _, k⟩ | ⟨_, _, _, k⟩ <;> rw [k] at hx' <;>
        try simp only [Option.some.injEq] at hx'
      · subst hx'; exact this
      · subst hx'; exact this
      · subst hx'; exact Nat.le_refl _
      · simp at hx'
  obtain ⟨W1, W2, runs, W3, W4, W5, W6, W7⟩ := waitLoop_spec polls _ _ _ _ _ _ hw H1
  rw [List.append_nil] at W3
  subst W3
  have back2 : ∀ (i : Nat) (sc' : Script), t2[i]? = some (some sc') → ∃ sc1, (t.mapIdx fun i e => startOne std begin (oks.getD i true) e)[i]? = some (some sc1) ∧
      Adv runs2 sc1 sc' := by
    intro i sc' hi
    cases ht : (t.mapIdx fun i e => startOne std begin (oks.getD i true) e)[i]? with
    | none => rw [W6 i ht] at hi; simp at hi
    | some e =>
      cases e with
      | none => rw [W5 i ht] at hi; simp at hi
      | some sc1 =>
        obtain ⟨y, hy, ha⟩ := W7 i sc1 ht
        rw [hy] at hi
        simp only [Option.some.injEq] at hi
        exact ⟨sc1, rfl, hi ▸ ha⟩
  refine ⟨W1, W2, W4, hfails.symm, ?_, ?_, ?_⟩
  · intro i sc' hi
    obtain ⟨sc1, h1, ha⟩ := back2 i sc' hi
    obtain ⟨sc, h2, h3⟩ := back1 i sc1 h1
    exact ⟨sc, h2, by rw [ha.name, name1 i sc sc1 h3]⟩
  · intro hoks i sc hi
    have hok : oks.getD i true = true := by
      simp only [List.getD_eq_getElem?_getD]
      cases ho : oks[i]? with
      | none => rfl
      | some b => exact hoks b (List.mem_of_getElem? ho)
    have : ∃ sc1, startOne std begin (oks.getD i true) (some sc) = some sc1 := by
      rcases startOne_cases std begin (oks.getD i true) sc with ⟨k0, k⟩ | ⟨_, _, _, k⟩ | ⟨_, _, _, k⟩ | ⟨_, _, k0, _⟩
      · exact ⟨_, k⟩
      · exact ⟨_, k⟩
      · exact ⟨_, k⟩
      · rw [hok] at k0; simp at k0
    obtain ⟨sc1, h1⟩ := this
    obtain ⟨sc', h2, ha⟩ := W7 i sc1 (by rw [get1, hi, Option.map_some, h1])
    exact ⟨sc', h2, by rw [ha.name, name1 i sc sc1 h1]⟩
  · intro hz i sc' hi
    rw [hz] at hfails
    have hrun : running t2 = 0 := by omega
    have hpass : ∀ r ∈ runs2, r.pass = true := by
      have : (runs2.countP fun r => !r.pass) = 0 := by omega
      rw [List.countP_eq_zero] at this
      intro r hr
      simpa using this r hr
    have hnr := running_zero hrun hi
    obtain ⟨sc1, h1, ha⟩ := back2 i sc' hi
    obtain ⟨sc, h2, h3⟩ := back1 i sc1 h1
    by_cases hr1 : sc1.running = true
    · obtain ⟨r, hr, k1, _, _⟩ := ha.ended hr1 hnr
      right
      cases hfind : runs2.find? (fun r => r.name == sc'.name) with
      | none =>
        have := List.find?_eq_none.mp hfind r hr
        simp [ha.name, k1] at this
      | some r' =>
        have hm := List.mem_of_find?_eq_some hfind
        exact ⟨r', by rw [List.find?_append, hfind]; rfl, hpass r' hm, .inl (W4 r' hm).1⟩
    · have hr1 : sc1.running = false := by simpa using hr1
      have heq := ha.same hr1
      rcases startOne_cases std begin (oks.getD i true) sc with ⟨k0, k⟩ | ⟨_, kf, kt, k⟩ | ⟨_, _, _, k⟩ | ⟨_, _, _, k⟩ <;> rw [k] at h3 <;>
        try simp only [Option.some.injEq] at h3
      · subst h3; rw [k0] at hr1; simp at hr1
      · subst h3
        subst heq
        rcases W2.last i sc' hi hnr with ⟨k1, _⟩ | ⟨r, k1, k2, k3⟩
        · left; omega
        · right
          exact ⟨r, k1, by rw [k3, kf]; rfl, .inr (by rw [k2]; omega)⟩
      · subst h3; simp at hr1
      · simp at h3

/-- The loop ends with a script still running only when the time is over. -/
theorem waitLoop_time {std begin : Nat} (polls : List (Nat × List Out)) :
    ∀ (t : Table) (hist : List Run) (prev : Nat) (t' : Table) (h' : List Run) (now : Nat),
    waitLoop std begin t hist prev polls = some (t', h', now) → running t' ≠ 0 → begin + (std - 1) ≤ now ∨ std ≤ 1 := by
  induction polls with
  | nil => intro t hist prev t' h' now h; simp [waitLoop] at h
  | cons p rest ih =>
    intro t hist prev t' h' now h hr
    simp only [waitLoop] at h
    split at h
    · simp at h
    · split at h
      · rename_i hc
        split at h
        · simp only [Option.some.injEq, Prod.mk.injEq] at h
          obtain ⟨rfl, rfl, rfl⟩ := h
          rcases hc with hc | hc
          · exact absurd hc hr
          · omega
        · simp at h
      · exact ih _ _ _ _ _ _ h hr

/-! ## The directory -/

theorem addScript_get (n : Nat) (t : Table) (i : Nat) (sc : Script) (h : (addScript n t)[i]? = some (some sc)) :
    t[i]? = some (some sc) ∨ (sc = ⟨n, false, false, 0⟩ ∧ t[i]? = some none ∧ ∀ j < i, t[j]? ≠ some none) := by
  induction t generalizing i with
  | nil => simp [addScript] at h
  | cons e t ih =>
    cases e with
    | none =>
      simp only [addScript] at h
      cases i with
      | zero => simp at h; exact .inr ⟨h.symm, rfl, by simp⟩
      | succ i => simp at h ⊢; exact .inl h
    | some x =>
      simp only [addScript] at h
      cases i with
      | zero => exact .inl h
      | succ i =>
        simp only [List.getElem?_cons_succ] at h ⊢
        rcases ih i h with h1 | ⟨h1, h2, h3⟩
        · exact .inl h1
        · refine .inr ⟨h1, h2, ?_⟩
          intro j hj
          cases j with
          | zero => simp
          | succ j => simp only [List.getElem?_cons_succ]; exact h3 j (by omega)

theorem addScript_keep (n : Nat) (t : Table) (i : Nat) (sc : Script) (h : t[i]? = some (some sc)) :
    (addScript n t)[i]? = some (some sc) := by
  induction t generalizing i with
  | nil => simp at h
  | cons e t ih =>
    cases e with
    | none =>
      cases i with
      | zero => simp at h
      | succ i => simpa [addScript] using h
    | some x =>
      cases i with
      | zero => simpa [addScript] using h
      | succ i => simp only [addScript, List.getElem?_cons_succ] at h ⊢; exact ih i h

theorem listed_iff {t : Table} {n : Nat} : listed t n = true ↔ ∃ (i : Nat) (sc : Script), t[i]? = some (some sc) ∧ sc.name = n := by
  simp only [listed, List.any_eq_true]
  constructor
  · rintro ⟨e, he, h⟩
    split at h
    · rename_i sc
      obtain ⟨i, hi⟩ := List.mem_iff_getElem?.mp he
      exact ⟨i, sc, hi, by simpa using h⟩
    · simp at h
  · rintro ⟨i, sc, hi, rfl⟩
    exact ⟨some sc, List.mem_of_getElem? hi, by simp⟩

theorem ok_setup {t : Table} {h : List Run} {now : Nat} (H : Ok t h now) (dir : List (Nat × Bool)) :
    Ok (setupScripts t dir) h now := by
  induction dir generalizing t with
  | nil => exact H
  | cons e dir ih =>
    obtain ⟨n, ok⟩ := e
    simp only [setupScripts]
    split
    · rename_i hc
      simp only [Bool.and_eq_true, Bool.not_eq_true'] at hc
      have hnl : ∀ (i : Nat) (sc : Script), t[i]? = some (some sc) → sc.name ≠ n := by
        intro i sc hi hn
        have := listed_iff.mpr ⟨i, sc, hi, hn⟩
        rw [hc.2] at this
        simp at this
      refine ih ⟨?_, ?_, ?_, H.runs⟩
      · intro i j a b ha hb hab
        rcases addScript_get n t i a ha with h1 | ⟨h1, h2, h3⟩ <;> rcases addScript_get n t j b hb with k1 | ⟨k1, k2, k3⟩
        · exact H.uniq i j a b h1 k1 hab
        · exact absurd (hab.trans (by rw [k1])) (hnl i a h1)
        · exact absurd (hab.symm.trans (by rw [h1])) (hnl j b k1)
        · rcases Nat.lt_trichotomy i j with h | h | h
          · exact absurd h2 (k3 i h)
          · exact h
          · exact absurd k2 (h3 j h)
      · intro i a ha hr
        rcases addScript_get n t i a ha with h1 | ⟨h1, _⟩
        · exact H.last i a h1 hr
        · subst h1; exact .inl ⟨rfl, rfl⟩
      · intro i a ha
        rcases addScript_get n t i a ha with h1 | ⟨h1, _⟩
        · exact H.time i a h1
        · subst h1; exact Nat.zero_le _
    · exact ih H

theorem listed_add {t : Table} {n m : Nat} (h : listed t m = true) : listed (addScript n t) m = true := by
  obtain ⟨i, sc, hi, hn⟩ := listed_iff.mp h
  exact listed_iff.mpr ⟨i, sc, addScript_keep n t i sc hi, hn⟩

theorem listed_setup {t : Table} {m : Nat} (dir : List (Nat × Bool)) (h : listed t m = true) : listed (setupScripts t dir) m = true := by
  induction dir generalizing t with
  | nil => exact h
  | cons e dir ih =>
    obtain ⟨n, ok⟩ := e
    simp only [setupScripts]
    split
    · exact ih (listed_add h)
    · exact ih h

/-- Free entries. -/
def free (t : Table) : Nat := t.countP (·.isNone)

theorem addScript_free {n : Nat} {t : Table} (h : 0 < free t) : listed (addScript n t) n = true ∧ free (addScript n t) + 1 = free t := by
  induction t with
  | nil => simp [free] at h
  | cons e t ih =>
    cases e with
    | none => simp [addScript, listed, free]
    | some sc =>
      have h' : 0 < free t := by simpa [free] using h
      obtain ⟨k1, k2⟩ := ih h'
      refine ⟨?_, ?_⟩
      · simp only [listed] at k1
        simp [addScript, listed, k1]
      · simpa [addScript, free] using k2

/-- With enough room every script of the directory is listed. -/
theorem setup_lists {dir : List (Nat × Bool)} {t : Table} (h : (dir.countP (·.2)) ≤ free t) {n : Nat} (hn : (n, true) ∈ dir) :
    listed (setupScripts t dir) n = true := by
  induction dir generalizing t with
  | nil => simp at hn
  | cons e dir ih =>
    obtain ⟨m, ok⟩ := e
    simp only [setupScripts]
    rcases List.mem_cons.mp hn with hn | hn
    · simp only [Prod.mk.injEq] at hn
      obtain ⟨rfl, rfl⟩ := hn
      refine listed_setup dir ?_
      cases hl : listed t n
      · simp only [Bool.true_and, Bool.not_false, if_true]
        have : 0 < free t := by simp at h; omega
        exact (addScript_free this).1
      · simpa using hl
    · refine ih ?_ hn
      cases ok
      · simpa using h
      · simp at h
        split
        · have := (addScript_free (n := m) (t := t) (by omega)).2
          omega
        · omega

end Sanlock.Scripts
