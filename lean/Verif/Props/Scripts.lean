import Verif.Lemmas.Scripts
import Verif.Props.Wdmd

/-!
# Test scripts of the watchdog daemon (C59)

The manual promises: "if any single source does not pass the test for the length of the fire timeout, the watchdog is guaranteed
to fire", for the scripts of a directory as for client processes.
-/

namespace Sanlock.Scripts

open Sanlock.Wdmd (St DevOp newOps Failing Inv2)

/-! ## What holds in every reachable state -/

structure Good (s : Sys) : Prop where
  ok : Ok s.table s.hist s.w.now
  w : Inv2 s.w

theorem wdmd_now (w : St) (e : Wdmd.Ev) : w.now ≤ (Wdmd.step w e).now := by
  cases hx : w.exited with
  | true => cases e <;> simp [Wdmd.step, hx]
  | false =>
    cases e
    case wait d => simp [Wdmd.step]
    case openWatchdog ci f o a =>
      simp only [Wdmd.step, hx, Bool.false_eq_true, if_false]
      split
      · unfold Wdmd.openWatchdog
        split
        · exact Nat.le_refl _
        · split
          · exact Nat.le_refl _
          · simp only
            split
            · exact Nat.le_refl _
            · split <;> simp [Wdmd.petWatchdog_fields, Wdmd.openDev_fields, Wdmd.closeWatchdog_fields]
      · exact Nat.le_refl _
    case round n f ok =>
      simp only [Wdmd.step, hx, Bool.false_eq_true, if_false]
      unfold Wdmd.round
      split
      · simp [Wdmd.closeWatchdog_fields]
      · split
        · exact Nat.le_refl _
        · split
          · simp [Wdmd.closeWatchdog_fields]
          · split
            · unfold Wdmd.runTests
              simp only
              split
              · split <;> simp [Wdmd.petWatchdog_fields, Wdmd.openDev_fields]
              · simp [Wdmd.closeWatchdogUnclean_fields]
            · exact Nat.le_refl _
    all_goals simp [Wdmd.step, hx, Wdmd.onClient]

/-- An iteration that comes to the tests runs them. -/
theorem tests_round {w : St} (h : tests w = true) (n f : Nat) (ok : Bool) :
    Wdmd.step w (.round n f ok) = Wdmd.runTests w n f ok := by
  simp only [tests, Bool.and_eq_true, Bool.not_eq_true', decide_eq_true_eq] at h
  obtain ⟨⟨⟨⟨h1, h2⟩, h3⟩, h4⟩, h5⟩ := h
  simp only [Wdmd.step, h1, Bool.false_eq_true, if_false, Wdmd.round, h2, h3, Bool.not_true, h4, if_pos h5]

theorem runTests_now (w : St) (n f : Nat) (ok : Bool) : (Wdmd.runTests w n f ok).now = w.now + n := by
  unfold Wdmd.runTests
  simp only
  split
  · split <;> simp [Wdmd.petWatchdog_fields, Wdmd.openDev_fields]
  · simp [Wdmd.closeWatchdogUnclean_fields]

/-- An iteration that does not come to the tests at most closes the device cleanly. -/
theorem not_tests_round {w : St} (h : tests w = false) (n f : Nat) (ok : Bool) :
    Wdmd.step w (.round n f ok) = w ∨ Wdmd.step w (.round n f ok) = { Wdmd.closeWatchdog w with exited := true } ∨
    (w.resetting = false ∧
      Wdmd.step w (.round n f ok) = { Wdmd.closeWatchdog w with enabled := false, testInterval := w.stdInterval, testTime := 0 }) := by
  cases hx : w.exited with
  | true => left; simp [Wdmd.step, hx]
  | false =>
    simp only [Wdmd.step, hx, Bool.false_eq_true, if_false]
    unfold Wdmd.round
    split
    · exact .inr (.inl rfl)
    · rename_i h1
      split
      · exact .inl rfl
      · rename_i h2
        split
        · rename_i h3
          simp only [Bool.and_eq_true, Bool.not_eq_true'] at h3
          exact .inr (.inr ⟨h3.2, rfl⟩)
        · rename_i h3
          split
          · rename_i h4
            exfalso
            simp [tests, hx, h4] at h
            simp at h1 h2 h3
            cases hq : w.quit <;> cases ha : Wdmd.active w.clients <;> simp_all
          · exact .inl rfl

theorem good_init (now : Nat) (dir : List (Nat × Bool)) : Good (init now dir) := by
  refine ⟨ok_setup ⟨?_, ?_, ?_, by simp [init]⟩ dir, Wdmd.inv2_init now⟩
  · intro i j sc sc' h
    have := List.mem_of_getElem? h
    simp at this
  · intro i sc h
    have := List.mem_of_getElem? h
    simp at this
  · intro i sc h
    have := List.mem_of_getElem? h
    simp at this

theorem good_step {s s' : Sys} {e : Ev} (H : Good s) (h : step s e = some s') : Good s' := by
  cases e with
  | base e =>
    have hs : s' = { s with w := Wdmd.step s.w e } := by
      cases e <;> simp [step] at h <;> exact h.symm
    subst hs
    exact ⟨ok_later H.ok (wdmd_now s.w e), Wdmd.inv2_step s.w e H.w⟩
  | sighup dir =>
    simp only [step] at h
    split at h <;> simp only [Option.some.injEq] at h <;> subst h
    · exact H
    · exact ⟨ok_setup H.ok dir, H.w⟩
  | round oks polls ok =>
    simp only [step] at h
    split at h
    · rename_i ht
      split at h
      · simp at h
      · rename_i t fails runs now hts
        simp only [Option.some.injEq] at h
        subst h
        obtain ⟨k1, k2, _⟩ := testScripts_spec hts H.ok
        refine ⟨?_, Wdmd.inv2_step s.w (.round (now - s.w.now) fails ok) H.w⟩
        show Ok t (runs ++ s.hist) (Wdmd.step s.w (.round (now - s.w.now) fails ok)).now
        rw [tests_round ht, runTests_now]
        exact ok_later k2 (by omega)
    · simp only [Option.some.injEq] at h
      subst h
      exact ⟨ok_later H.ok (wdmd_now s.w _), Wdmd.inv2_step s.w (.round 0 0 ok) H.w⟩

theorem good_run {s s' : Sys} {es : List Ev} (H : Good s) (h : run s es = some s') : Good s' := by
  induction es generalizing s with
  | nil => simp only [run, Option.some.injEq] at h; exact h ▸ H
  | cons e es ih =>
    simp only [run] at h
    cases h1 : step s e with
    | none => simp [h1] at h
    | some s1 => rw [h1] at h; exact ih (good_step H h1) h

/-- Every start of a script in the event succeeds. -/
def Starts : Ev → Prop
  | .round oks _ _ => ∀ b ∈ oks, b = true
  | _ => True

theorem listed_step {s s' : Sys} {e : Ev} (H : Good s) (h : step s e = some s') (he : Starts e) {n : Nat}
    (hn : listed s.table n = true) : listed s'.table n = true := by
  cases e with
  | base e =>
    have hs : s' = { s with w := Wdmd.step s.w e } := by
      cases e <;> simp [step] at h <;> exact h.symm
    subst hs
    exact hn
  | sighup dir =>
    simp only [step] at h
    split at h <;> simp only [Option.some.injEq] at h <;> subst h
    · exact hn
    · exact listed_setup dir hn
  | round oks polls ok =>
    simp only [step] at h
    split at h
    · rename_i ht
      split at h
      · simp at h
      · rename_i t fails runs now hts
        simp only [Option.some.injEq] at h
        subst h
        obtain ⟨_, _, _, _, _, k6, _⟩ := testScripts_spec hts H.ok
        obtain ⟨i, sc, hi, hsn⟩ := listed_iff.mp hn
        obtain ⟨sc', hi', hn'⟩ := k6 he i sc hi
        exact listed_iff.mpr ⟨i, sc', hi', hn'.trans hsn⟩
    · simp only [Option.some.injEq] at h
      subst h
      exact hn

theorem listed_run {s s' : Sys} {es : List Ev} (H : Good s) (h : run s es = some s') (he : ∀ e ∈ es, Starts e) {n : Nat}
    (hn : listed s.table n = true) : listed s'.table n = true := by
  induction es generalizing s with
  | nil => simp only [run, Option.some.injEq] at h; exact h ▸ hn
  | cons e es ih =>
    simp only [run] at h
    cases h1 : step s e with
    | none => simp [h1] at h
    | some s1 =>
      rw [h1] at h
      exact ih (good_step H h1) h (fun e' hm => he e' (List.mem_cons_of_mem _ hm)) (listed_step H h1 (he e (by simp)) hn)

/-- Runs that ended stay on record. -/
theorem hist_step {s s' : Sys} {e : Ev} (h : step s e = some s') : ∀ r ∈ s.hist, r ∈ s'.hist := by
  cases e with
  | base e =>
    have hs : s' = { s with w := Wdmd.step s.w e } := by
      cases e <;> simp [step] at h <;> exact h.symm
    subst hs
    exact fun r hr => hr
  | sighup dir =>
    simp only [step] at h
    split at h <;> simp only [Option.some.injEq] at h <;> subst h <;> exact fun r hr => hr
  | round oks polls ok =>
    simp only [step] at h
    split at h
    · split at h
      · simp at h
      · simp only [Option.some.injEq] at h
        subst h
        exact fun r hr => List.mem_append_right _ hr
    · simp only [Option.some.injEq] at h
      subst h
      exact fun r hr => hr

theorem hist_run {s s' : Sys} {es : List Ev} (h : run s es = some s') : ∀ r ∈ s.hist, r ∈ s'.hist := by
  induction es generalizing s with
  | nil => simp only [run, Option.some.injEq] at h; subst h; exact fun r hr => hr
  | cons e es ih =>
    simp only [run] at h
    cases h1 : step s e with
    | none => simp [h1] at h
    | some s1 =>
      rw [h1] at h
      exact fun r hr => ih h r (hist_step h1 r hr)

/-! ## A keep-alive means that the scripts passed -/

/-- The latest run of the script `n` that ended. -/
def latest (h : List Run) (n : Nat) : Option Run := h.find? fun r => r.name == n

/-- While the daemon tests, the device is pinged or opened only in a round after which the latest run of every script in the table
has passed, and that run ended in this round or began less than a test interval ago. -/
theorem ping_listed {s s' : Sys} {e : Ev} (H : Good s) (hen : s.w.enabled = true) (h : step s e = some s')
    {ops : List (Nat × DevOp)} (hops : newOps s.w s'.w ops) {t : Nat}
    (hk : (t, DevOp.keepalive) ∈ ops ∨ (t, DevOp.opened) ∈ ops) {n : Nat} (hn : listed s'.table n = true) :
    ∃ r, latest s'.hist n = some r ∧ r.pass = true ∧ (s.w.now ≤ r.fin ∨ s.w.now < r.start + (s.w.stdInterval - 1)) := by
  have noop : ∀ e' : Wdmd.Ev, s'.w = Wdmd.step s.w e' → ∃ m ok, e' = .round m 0 ok := by
    intro e' hs
    obtain ⟨ops', hops', _, h3⟩ := Wdmd.device_ops s.w e' hen
    have : ops' = ops := by
      unfold newOps at hops hops'
      rw [← hs, hops] at hops'
      exact (List.append_cancel_right hops').symm
    subst this
    obtain ⟨m, ok, he, _⟩ := h3 (hk.imp (fun h => ⟨t, h⟩) (fun h => ⟨t, h⟩))
    exact ⟨m, ok, he⟩
  have nolog : s'.w.log = s.w.log → False := by
    intro hl
    unfold newOps at hops
    rw [hl] at hops
    have : ops = [] := List.append_cancel_right (hops.symm.trans (List.nil_append _).symm)
    subst this
    simp at hk
  cases e with
  | base e =>
    exfalso
    have hs : s' = { s with w := Wdmd.step s.w e } := by
      cases e <;> simp [step] at h <;> exact h.symm
    obtain ⟨m, ok, he⟩ := noop e (by rw [hs])
    subst he
    simp [step] at h
  | sighup dir =>
    exfalso
    simp only [step] at h
    split at h <;> simp only [Option.some.injEq] at h <;> subst h <;> exact nolog rfl
  | round oks polls ok =>
    simp only [step] at h
    split at h
    · rename_i ht
      split at h
      · simp at h
      · rename_i tb fails runs now hts
        simp only [Option.some.injEq] at h
        subst h
        obtain ⟨_, _, _, _, _, _, k7⟩ := testScripts_spec hts H.ok
        obtain ⟨m, ok', he⟩ := noop (.round (now - s.w.now) fails ok) rfl
        injection he with _ hf _
        obtain ⟨i, sc, hi, hsn⟩ := listed_iff.mp hn
        rcases k7 hf i sc hi with h1 | h1
        · exfalso
          have := H.w.first hen
          have := H.w.mono
          simp only [tests, Bool.and_eq_true, decide_eq_true_eq] at ht
          have := ht.2
          omega
        · rw [hsn] at h1
          exact h1
    · rename_i ht
      exfalso
      have ht : tests s.w = false := by simpa using ht
      simp only [Option.some.injEq] at h
      have hclose : s'.w.log = (Wdmd.closeWatchdog s.w).log → False := by
        intro hl
        unfold Wdmd.closeWatchdog at hl
        cases hd : s.w.devOpen <;> simp only [hd, Bool.false_eq_true, if_false, if_true, Wdmd.St.emit] at hl
        · exact nolog hl
        · unfold newOps at hops
          rw [hl] at hops
          have : ops = [(s.w.now, DevOp.closeClean)] := List.append_cancel_right (hops.symm.trans rfl)
          subst this
          simp at hk
      rcases not_tests_round ht 0 0 ok with h1 | h1 | ⟨_, h1⟩
      · rw [h1] at h; subst h; exact nolog rfl
      · rw [h1] at h; subst h; exact hclose rfl
      · rw [h1] at h; subst h; exact hclose rfl

/-- **C59.** The directory held at most eight usable files when the daemon started, and no start of a script has failed.  Then in
every execution, once the daemon tests, the device is pinged or opened only in a round after which the latest run of every one of
these scripts has passed; and that run ended in the round or began less than a test interval ago. -/
theorem scripts_pass_partial (now : Nat) (dir : List (Nat × Bool)) (hdir : dir.countP (·.2) ≤ 8) (es : List Ev) (s : Sys)
    (hs : run (init now dir) es = some s) (e : Ev) (s' : Sys) (h : step s e = some s') (hst : ∀ e' ∈ e :: es, Starts e')
    (hen : s.w.enabled = true) (ops : List (Nat × DevOp)) (hops : newOps s.w s'.w ops) (t : Nat)
    (hk : (t, DevOp.keepalive) ∈ ops ∨ (t, DevOp.opened) ∈ ops) (n : Nat) (hn : (n, true) ∈ dir) :
    ∃ r, latest s'.hist n = some r ∧ r.pass = true ∧ (s.w.now ≤ r.fin ∨ s.w.now < r.start + (s.w.stdInterval - 1)) := by
  have H := good_run (good_init now dir) hs
  have hl : listed (init now dir).table n = true := setup_lists (by simpa [free, maxScripts] using hdir) hn
  have hl2 := listed_run (good_init now dir) hs (fun e' hm => hst e' (List.mem_cons_of_mem _ hm)) hl
  exact ping_listed H hen h hops hk (listed_step H h (hst e (by simp)) hl2)

/-! ## A script that does not pass -/

/-- No run of the script `n` that ended at `t0` or later has passed. -/
def NoPass (h : List Run) (n t0 : Nat) : Prop := ∀ r ∈ h, r.name = n → t0 ≤ r.fin → r.pass = false

/-- A round of tests that begins a test interval after `t0` fails. -/
theorem nopass_fails {s : Sys} (H : Good s) {oks : List Bool} {polls : List (Nat × List Out)} {t : Table} {fails now : Nat}
    {runs : List Run} (h : testScripts s.w.stdInterval s.w.now oks polls s.table = some (t, fails, runs, now)) {n t0 : Nat}
    (hn : listed t n = true) (hnp : NoPass (runs ++ s.hist) n t0) (ht0 : t0 + s.w.stdInterval ≤ s.w.now + 1) (hstd : 0 < s.w.stdInterval) :
    fails ≠ 0 := by
  intro hz
  obtain ⟨_, k2, _, _, _, _, k7⟩ := testScripts_spec h H.ok
  obtain ⟨i, sc, hi, hsn⟩ := listed_iff.mp hn
  rcases k7 hz i sc hi with h1 | ⟨r, h1, h2, h3⟩
  · omega
  · have hm := List.mem_of_find?_eq_some h1
    have hnm := List.find?_some h1
    simp only [beq_iff_eq] at hnm
    have hf : r.fin < t0 := by
      apply Classical.byContradiction
      intro hge
      have := hnp r hm (hnm.trans hsn) (by omega)
      rw [h2] at this
      simp at this
    have := k2.runs r hm
    omega

/-- **C59.** A round of tests that begins at least a test interval after the script last passed closes the device, so that it
counts down. -/
theorem nopass_closes {s s' : Sys} (H : Good s) {oks : List Bool} {polls : List (Nat × List Out)} {ok : Bool}
    (ht : tests s.w = true) (h : step s (.round oks polls ok) = some s') (hst : Starts (.round oks polls ok)) {n t0 : Nat}
    (hn : listed s.table n = true) (hnp : NoPass s'.hist n t0) (ht0 : t0 + s.w.stdInterval ≤ s.w.now + 1) (hstd : 0 < s.w.stdInterval) :
    Failing s'.w ∧ s'.w.dev.armed = s.w.dev.armed ∧ s'.w.dev.lastPing ≤ max s.w.dev.lastPing s'.w.now ∧ s'.w.exited = false := by
  have hl := listed_step H h hst hn
  simp only [step, ht, if_true] at h
  split at h
  · simp at h
  · rename_i tb fails runs now hts
    simp only [Option.some.injEq] at h
    subst h
    have hf := nopass_fails H hts hl hnp ht0 hstd
    have hen : s.w.enabled = true := by
      simp only [tests, Bool.and_eq_true] at ht
      exact ht.1.1.2
    have hx : s.w.exited = false := by
      simp only [tests, Bool.and_eq_true, Bool.not_eq_true'] at ht
      exact ht.1.1.1.1
    simp only [tests_round ht]
    unfold Wdmd.runTests
    simp only
    rw [if_neg (by omega)]
    refine ⟨⟨by simp [Wdmd.closeWatchdogUnclean_fields, hen], rfl, (Wdmd.closeWatchdogUnclean_fields _).2.2.2.2.2.1⟩,
      (Wdmd.closeWatchdogUnclean_fields _).2.2.2.2.2.2.1, ?_, by simp [Wdmd.closeWatchdogUnclean_fields, hx]⟩
    unfold Wdmd.closeWatchdogUnclean
    split
    · simp only [Wdmd.St.emit, Wdmd.Dev.op]
      omega
    · simp only
      omega

/-- What lasts while the script does not pass. -/
structure Held (s : Sys) : Prop where
  good : Good s
  closed : s.w.devOpen = false
  fail : s.w.exited = false → Failing s.w

theorem held_step {s s' : Sys} (H : Held s) {e : Ev} (h : step s e = some s') (hst : Starts e) {n t0 : Nat}
    (hn : listed s.table n = true) (hnp : NoPass s'.hist n t0) (ht0 : t0 + s.w.stdInterval ≤ s.w.now + 1) (hstd : 0 < s.w.stdInterval) :
    Held s' ∧ s'.w.dev = s.w.dev ∧ s'.w.log = s.w.log ∧ s'.w.fire = s.w.fire ∧ s'.w.stdInterval = s.w.stdInterval ∧
      s.w.now ≤ s'.w.now := by
  have hg := good_step H.good h
  cases e with
  | base e =>
    have hs : s' = { s with w := Wdmd.step s.w e } := by
      cases e <;> simp [step] at h <;> exact h.symm
    have hnr : ∀ a b c, e ≠ .round a b c := by
      intro a b c he
      subst he
      simp [step] at h
    subst hs
    have hnow := wdmd_now s.w e
    cases hx : s.w.exited with
    | true =>
      have hc : (∃ d, e = .wait d) ∨ Wdmd.step s.w e = s.w := by
        cases e with
        | wait d => exact .inl ⟨d, rfl⟩
        | _ => right; simp [Wdmd.step, hx]
      rcases hc with ⟨d, rfl⟩ | hc
      · exact ⟨⟨hg, H.closed, fun hh => absurd (show s.w.exited = false from hh) (by simp [hx])⟩, rfl, rfl, rfl, rfl, hnow⟩
      · simp only [hc] at hg ⊢
        exact ⟨⟨hg, H.closed, H.fail⟩, by trivial, by trivial, by trivial, by trivial, Nat.le_refl _⟩
    | false =>
      have hf := H.fail hx
      cases e
      case round a b c => exact absurd rfl (hnr a b c)
      case wait d => exact ⟨⟨hg, H.closed, fun _ => ⟨hf.en, hf.rs, hf.closed⟩⟩, rfl, rfl, rfl, rfl, hnow⟩
      case openWatchdog ci f o a =>
        have : Wdmd.step s.w (.openWatchdog ci f o a) = s.w := by simp [Wdmd.step, hx, Wdmd.openWatchdog, hf.en]
        rw [this] at hg ⊢
        exact ⟨⟨hg, H.closed, fun _ => hf⟩, rfl, rfl, rfl, rfl, Nat.le_refl _⟩
      all_goals
        simp only [Wdmd.step, hx, Bool.false_eq_true, if_false, Wdmd.onClient] at hg hnow ⊢
        exact ⟨⟨hg, H.closed, fun _ => ⟨hf.en, hf.rs, hf.closed⟩⟩, by trivial, by trivial, by trivial, by trivial, hnow⟩
  | sighup dir =>
    simp only [step] at h
    split at h <;> simp only [Option.some.injEq] at h <;> subst h
    · exact ⟨H, rfl, rfl, rfl, rfl, Nat.le_refl _⟩
    · exact ⟨⟨hg, H.closed, H.fail⟩, rfl, rfl, rfl, rfl, Nat.le_refl _⟩
  | round oks polls ok =>
    have hl := listed_step H.good h hst hn
    simp only [step] at h
    split at h
    · rename_i ht
      split at h
      · simp at h
      · rename_i tb fails runs now hts
        simp only [Option.some.injEq] at h
        subst h
        have hf := nopass_fails H.good hts hl hnp ht0 hstd
        have hx : s.w.exited = false := by
          simp only [tests, Bool.and_eq_true, Bool.not_eq_true'] at ht
          exact ht.1.1.1.1
        have hfl := H.fail hx
        have hw : Wdmd.step s.w (.round (now - s.w.now) fails ok) =
            { s.w with testTime := s.w.now, now := s.w.now + (now - s.w.now), testInterval := 1, resetting := true } := by
          rw [tests_round ht]
          unfold Wdmd.runTests
          simp only
          rw [if_neg (by omega), Wdmd.closeUnclean_closed { s.w with testTime := s.w.now, now := s.w.now + (now - s.w.now) } H.closed]
        simp only [hw] at hg ⊢
        exact ⟨⟨hg, H.closed, fun _ => ⟨hfl.en, rfl, hfl.closed⟩⟩, by trivial, by trivial, by trivial, by trivial, by omega⟩
    · rename_i ht
      have ht : tests s.w = false := by simpa using ht
      simp only [Option.some.injEq] at h
      have hc := (Wdmd.closeWatchdog_fields s.w).2.2.2.2.2.2.1 H.closed
      rcases not_tests_round ht 0 0 ok with h1 | h1 | ⟨h0, h1⟩
      · rw [h1] at h; subst h
        exact ⟨⟨hg, H.closed, H.fail⟩, rfl, rfl, rfl, rfl, Nat.le_refl _⟩
      · rw [h1, hc] at h; subst h
        exact ⟨⟨hg, H.closed, fun hh => by simp at hh⟩, rfl, rfl, rfl, rfl, Nat.le_refl _⟩
      · cases hx : s.w.exited with
        | true =>
          have : Wdmd.step s.w (.round 0 0 ok) = s.w := by simp [Wdmd.step, hx]
          rw [this] at h; subst h
          exact ⟨⟨hg, H.closed, H.fail⟩, rfl, rfl, rfl, rfl, Nat.le_refl _⟩
        | false =>
          have := (H.fail hx).rs
          rw [h0] at this
          simp at this

theorem held_run {s s' : Sys} (H : Held s) {es : List Ev} (h : run s es = some s') (hst : ∀ e ∈ es, Starts e) {n t0 : Nat}
    (hn : listed s.table n = true) (hnp : NoPass s'.hist n t0) (ht0 : t0 + s.w.stdInterval ≤ s.w.now + 1) (hstd : 0 < s.w.stdInterval) :
    Held s' ∧ s'.w.dev = s.w.dev ∧ s'.w.log = s.w.log ∧ s'.w.fire = s.w.fire := by
  induction es generalizing s with
  | nil => simp only [run, Option.some.injEq] at h; subst h; exact ⟨H, rfl, rfl, rfl⟩
  | cons e es ih =>
    simp only [run] at h
    cases h1 : step s e with
    | none => simp [h1] at h
    | some s1 =>
      rw [h1] at h
      have he := hst e (by simp)
      have hnp1 : NoPass s1.hist n t0 := fun r hr => hnp r (hist_run h r hr)
      obtain ⟨k1, k2, k3, k4, k5, k6⟩ := held_step H h1 he hn hnp1 ht0 hstd
      have := ih k1 h (fun e' hm => hst e' (List.mem_cons_of_mem _ hm)) (listed_step H.good h1 he hn) (by rw [k5]; omega) (by rw [k5]; exact hstd)
      rw [k2, k3, k4] at this
      exact this

/-- **C59.** The script `n` is in the table, the watchdog is armed, the daemon tests, and no run of `n` that ends at `t0` or later
passes.  From the first round of tests that begins at least a test interval after `t0`, nothing touches the device: it is neither
pinged nor opened nor disarmed in any execution in which every start of a script succeeds, whatever the clients do, and whether or
not the daemon ends.  So the watchdog fires its timeout after the end of that round or earlier. -/
theorem failing_script_fires_partial (now : Nat) (dir : List (Nat × Bool)) (es0 : List Ev) (s : Sys)
    (hs : run (init now dir) es0 = some s) (n t0 : Nat) (hn : listed s.table n = true) (ht : tests s.w = true)
    (harm : s.w.dev.armed = true) (hping : s.w.dev.lastPing ≤ s.w.now)
    (ht0 : t0 + s.w.stdInterval ≤ s.w.now + 1) (hstd : 0 < s.w.stdInterval)
    (oks : List Bool) (polls : List (Nat × List Out)) (ok : Bool) (s1 : Sys) (h1 : step s (.round oks polls ok) = some s1)
    (es : List Ev) (s2 : Sys) (h2 : run s1 es = some s2) (hst : ∀ e ∈ Ev.round oks polls ok :: es, Starts e)
    (hnp : NoPass s2.hist n t0) :
    s2.w.dev = s1.w.dev ∧ s2.w.log = s1.w.log ∧ s2.w.devOpen = false ∧ s2.w.dev.armed = true ∧
    s2.w.dev.lastPing + s2.w.fire ≤ s1.w.now + s.w.fire := by
  have H := good_run (good_init now dir) hs
  have hst1 := hst (Ev.round oks polls ok) (by simp)
  have hnp1 : NoPass s1.hist n t0 := fun r hr => hnp r (hist_run h2 r hr)
  obtain ⟨k1, k2, k3, _⟩ := nopass_closes H ht h1 hst1 hn hnp1 ht0 hstd
  have hl := listed_step H h1 hst1 hn
  have hG := good_step H h1
  have hw : s1.w.fire = s.w.fire ∧ s1.w.stdInterval = s.w.stdInterval ∧ s.w.now ≤ s1.w.now := by
    simp only [step, ht, if_true] at h1
    split at h1
    · simp at h1
    · simp only [Option.some.injEq] at h1
      subst h1
      refine ⟨?_, ?_, wdmd_now _ _⟩
      · simp only [tests_round ht]
        unfold Wdmd.runTests
        simp only
        split
        · split <;> simp only [Wdmd.petWatchdog, Wdmd.openDev, Wdmd.St.emit] <;> split <;> (try split) <;> (try split) <;> rfl
        · simp only [Wdmd.closeWatchdogUnclean, Wdmd.St.emit]
          split <;> rfl
      · simp only [tests_round ht]
        exact (Wdmd.runTests_fields _ _ _ _).2.2.2.1
  obtain ⟨m1, m2, m3, m4⟩ := held_run ⟨hG, k1.closed, fun _ => k1⟩ h2 (fun e hm => hst e (List.mem_cons_of_mem _ hm)) hl hnp
    (by rw [hw.2.1]; omega) (by rw [hw.2.1]; exact hstd)
  refine ⟨m2, m3, m1.closed, by rw [m2, k2, harm], ?_⟩
  rw [m2, m4, hw.1]
  have := hw.2.2
  omega

/-! ## No false alarm -/

/-- **C59.** A round of tests in which every run that ended passed, after which no script is running, and in which every client
is far from its expiry time, pings the device, and opens it before if it was closed. -/
theorem passing_pings {s s' : Sys} (H : Good s) {oks : List Bool} {polls : List (Nat × List Out)} (ht : tests s.w = true)
    (h : step s (.round oks polls true) = some s')
    (hp : ∀ r ∈ s'.hist, s.w.now ≤ r.fin → r.pass = true) (hr : ∀ sc, some sc ∈ s'.table → sc.running = false)
    (hc : ∀ c ∈ s.w.clients, c.used = true → c.expire ≠ 0 → s'.w.now + s.w.stdInterval < c.expire.toNat) :
    ∃ ops, newOps s.w s'.w ops ∧ (s'.w.now, DevOp.keepalive) ∈ ops ∧ s'.w.devOpen = true ∧ s'.w.dev.lastPing = s'.w.now := by
  simp only [step, ht, if_true] at h
  split at h
  · simp at h
  · rename_i tb fails runs now hts
    simp only [Option.some.injEq] at h
    subst h
    obtain ⟨_, _, k3, k4, _⟩ := testScripts_spec hts H.ok
    have h1 : (runs.countP fun r => !r.pass) = 0 := by
      rw [List.countP_eq_zero]
      intro r hr
      simp [hp r (List.mem_append_left _ hr) (k3 r hr).1]
    have h2 : running tb = 0 := by
      simp only [running, List.countP_eq_zero]
      intro e he
      cases e with
      | none => simp
      | some sc => simp [hr sc he]
    have hf : fails = 0 := by omega
    subst hf
    simp only [tests_round ht, runTests_now] at hc ⊢
    have h3 : Wdmd.testClients s.w.stdInterval (s.w.now + (now - s.w.now)) s.w.clients = 0 := by
      simp only [Wdmd.testClients, List.length_eq_zero_iff, List.filter_eq_nil_iff]
      intro c hcm hcf
      simp only [Wdmd.clientFails, Bool.and_eq_true, bne_iff_ne, ne_eq, Bool.or_eq_true, decide_eq_true_eq] at hcf
      have := hc c hcm hcf.1.1 hcf.1.2
      have hsub := Wdmd.sub_toNat (e := c.expire) (n := s.w.stdInterval) (by omega)
      omega
    unfold Wdmd.runTests
    simp only
    rw [if_pos (by omega)]
    cases hd : s.w.devOpen
    · exact ⟨[(s.w.now + (now - s.w.now), .keepalive), (s.w.now + (now - s.w.now), .opened)],
        by simp [newOps, Wdmd.petWatchdog, Wdmd.openDev, hd, Wdmd.St.emit],
        by simp, by simp [Wdmd.petWatchdog, Wdmd.openDev, hd, Wdmd.St.emit],
        by simp [Wdmd.petWatchdog, Wdmd.openDev, hd, Wdmd.St.emit, Wdmd.Dev.op]⟩
    · exact ⟨[(s.w.now + (now - s.w.now), .keepalive)], by simp [newOps, Wdmd.petWatchdog, hd, Wdmd.St.emit],
        by simp, by simp [Wdmd.petWatchdog, hd, Wdmd.St.emit], by simp [Wdmd.petWatchdog, hd, Wdmd.St.emit, Wdmd.Dev.op]⟩

/-- **C59.** A script counts as unfinished only in a round that has lasted for the test interval less a second, if that is not zero. -/
theorem given_time {s s' : Sys} (H : Good s) {oks : List Bool} {polls : List (Nat × List Out)} {ok : Bool} (ht : tests s.w = true)
    (h : step s (.round oks polls ok) = some s') {sc : Script} (hsc : some sc ∈ s'.table) (hr : sc.running = true)
    (hstd : 1 < s.w.stdInterval) : s.w.now + (s.w.stdInterval - 1) ≤ s'.w.now := by
  simp only [step, ht, if_true] at h
  split at h
  · simp at h
  · rename_i tb fails runs now hts
    simp only [Option.some.injEq] at h
    subst h
    have h0 := (testScripts_spec hts H.ok).1
    simp only [tests_round ht, runTests_now]
    simp only [testScripts] at hts
    split at hts
    · simp at hts
    · rename_i t2 runs2 now2 hw
      simp only [Option.some.injEq, Prod.mk.injEq] at hts
      obtain ⟨rfl, _, rfl, rfl⟩ := hts
      have hrun : running t2 ≠ 0 := by
        intro hz
        obtain ⟨i, hi⟩ := List.mem_iff_getElem?.mp hsc
        rw [running_zero hz hi] at hr
        simp at hr
      rcases waitLoop_time polls _ _ _ _ _ _ hw hrun with h1 | h1 <;> omega

/-! ## Examples -/

/-- A client has opened the watchdog at time 100. -/
def exClient : List Ev := [.base .connect, .base (.openWatchdog 2 60 true true), .base (.refSet 2)]

/-- Two scripts, both pass at time 110. -/
def exPass : List Ev := exClient ++ [.base (.wait 10)]

def exRound : Ev := .round [] [(110, [.busy, .exit 0]), (111, [.exit 0])] true

def exS : Sys := (run (init 100 [(7, true), (8, true), (9, false)]) exPass).get (by decide +kernel)

def exS' : Sys := (step exS exRound).get (by decide +kernel)

/-- Example for `scripts_pass_partial` and `passing_pings`: a round at 110 that takes one second. -/
example : ∃ s s', run (init 100 [(7, true), (8, true), (9, false)]) exPass = some s ∧ step s exRound = some s' ∧
    tests s.w = true ∧ s.w.enabled = true ∧ newOps s.w s'.w [(111, .keepalive)] ∧
    latest s'.hist 7 = some ⟨7, 110, 111, true⟩ ∧ latest s'.hist 8 = some ⟨8, 110, 110, true⟩ ∧
    (∀ r ∈ s'.hist, s.w.now ≤ r.fin → r.pass = true) ∧ listed s'.table 9 = false := by
  refine ⟨exS, exS', (Option.some_get _).symm, (Option.some_get _).symm, ?_⟩
  unfold newOps
  decide +kernel

/-- Example for `failing_script_fires_partial`: the script 7 passes at 110, hangs from 120 on, the daemon is told to stop and the
client goes away; the device is last touched at 129. -/
def exHang : List Ev :=
  exPass ++ [exRound, .base (.wait 9)]

def exHangRound : Ev :=
  .round [] [(120, [.busy, .exit 0]), (125, []), (129, [])] true

def exAfter : List Ev :=
  [.base (.wait 1), .round [] [(130, []), (139, [])] true, .base (.wait 1), .base (.refClear 2), .base .sigterm, .base (.hup 2),
    .round [] [] true, .base (.wait 100)]

def exH : Sys := (run (init 100 [(7, true), (8, true)]) exHang).get (by decide +kernel)

def exH1 : Sys := (step exH exHangRound).get (by decide +kernel)

def exH2 : Sys := (run exH1 exAfter).get (by decide +kernel)

example : ∃ s s1 s2, run (init 100 [(7, true), (8, true)]) exHang = some s ∧ step s exHangRound = some s1 ∧ run s1 exAfter = some s2 ∧
    listed s.table 7 = true ∧ tests s.w = true ∧ s.w.dev.armed = true ∧ s.w.dev.lastPing = 111 ∧ s.w.now = 120 ∧ s.w.stdInterval = 10 ∧
    (∀ r ∈ s2.hist, r.name = 7 → 111 < r.fin → r.pass = false) ∧
    s2.w.exited = true ∧ s2.w.dev.armed = true ∧ s2.w.dev.lastPing = 129 ∧ s2.w.fire = 60 ∧ s2.w.now = 240 := by
  refine ⟨exH, exH1, exH2, (Option.some_get _).symm, (Option.some_get _).symm, (Option.some_get _).symm, ?_⟩
  decide +kernel

/-! ## What does not hold -/

/-- Rounds in which no script is in the table, every ten seconds. -/
def idleRounds : Nat → Nat → List Ev
  | _, 0 => []
  | t, k + 1 => .base (.wait 10) :: .round [] [(t + 10, [])] true :: idleRounds (t + 10) k

/-- **C59 does not hold** when a start fails: a script that has only ever failed is dropped for good if one `fork` fails, and the
device is kept alive for longer than the timeout afterwards. -/
theorem start_failure_violated : ∃ s, run (init 100 [(7, true)])
      (exClient ++ [.base (.wait 10), .round [] [(110, [.exit 1])] true, .base (.wait 1), .round [false] [(111, [])] true] ++ idleRounds 111 10) = some s ∧
    s.hist = [⟨7, 110, 110, false⟩] ∧ s.w.log.head? = some (211, .keepalive) ∧ s.w.fire = 60 ∧ s.w.dev.lastPing = 211 ∧ s.w.devOpen = true := by
  refine ⟨(run (init 100 [(7, true)]) _).get (by decide +kernel), (Option.some_get _).symm, ?_⟩
  decide +kernel

/-- **C59 does not hold** for the ninth script: it is never run, and the device is kept alive. -/
theorem ninth_script_violated : ∃ s, run (init 100 ((List.range 9).map fun i => (i, true)))
      (exClient ++ [.base (.wait 10), .round [] [(110, List.replicate 8 (.exit 0))] true, .base (.wait 10),
        .round [] [(120, List.replicate 8 (.exit 0))] true]) = some s ∧
    (s.hist.all fun r => r.name != 8) = true ∧ listed s.table 8 = false ∧ s.w.log.head? = some (120, .keepalive) := by
  refine ⟨(run (init 100 ((List.range 9).map fun i => (i, true))) _).get (by decide +kernel), (Option.some_get _).symm, ?_⟩
  decide +kernel

/-- Without a client that opened the watchdog no script is run. -/
theorem no_client_no_script {s s' : Sys} {oks : List Bool} {polls : List (Nat × List Out)} {ok : Bool} (hen : s.w.enabled = false)
    (h : step s (.round oks polls ok) = some s') : s'.hist = s.hist ∧ s'.table = s.table := by
  have ht : tests s.w = false := by simp [tests, hen]
  simp only [step, ht, Bool.false_eq_true, if_false, Option.some.injEq] at h
  subst h
  exact ⟨rfl, rfl⟩

/-- **C59 does not hold** without a client: the only script fails whenever it is asked, no one asks, and the watchdog is not armed. -/
theorem no_client_violated : ∃ s, run (init 100 [(7, true)])
      [.base (.wait 10), .round [] [(110, [.exit 1])] true, .base (.wait 100), .round [] [(210, [.exit 1])] true] = some s ∧
    s.hist = [] ∧ s.w.dev.armed = false ∧ s.w.exited = false := by
  refine ⟨(run (init 100 [(7, true)]) _).get (by decide +kernel), (Option.some_get _).symm, ?_⟩
  decide +kernel

/-- With a timeout below ten seconds the daemon does not wait for its scripts: one that passes, but not before the daemon looks for
the first time, counts as failed, and the device is closed. -/
theorem short_timeout_violated : ∃ s, run (init 100 [(7, true)])
      ([.base .connect, .base (.openWatchdog 2 9 true true), .base (.refSet 2), .base (.wait 1), .round [] [(101, [.busy])] true]) = some s ∧
    s.w.stdInterval = 1 ∧ Failing s.w ∧ s.hist = [] := by
  refine ⟨(run (init 100 [(7, true)]) _).get (by decide +kernel), (Option.some_get _).symm, by decide +kernel, ⟨?_, ?_, ?_⟩, ?_⟩ <;>
    decide +kernel

end Sanlock.Scripts
