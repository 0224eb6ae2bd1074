import Verif.Timing

/-!
# C43: timeout settings
-/

namespace Sanlock.Timing

theorem set_positive (c : Config) (o : Option') (h : 0 < c.io ∧ 0 < c.wd) :
    0 < (c.set o).io ∧ 0 < (c.set o).wd := by
  cases o <;> simp only [Config.set] <;> split <;> simp_all

theorem configured_positive (opts : List Option') : 0 < (configure opts).io ∧ 0 < (configure opts).wd := by
  have h : ∀ (c : Config), 0 < c.io ∧ 0 < c.wd → 0 < (opts.foldl Config.set c).io ∧ 0 < (opts.foldl Config.set c).wd := by
    induction opts with
    | nil => intro c h; exact h
    | cons o os ih => intro c h; exact ih _ (set_positive c o h)
  have := h Config.default (by decide)
  unfold configure setupTimeouts
  split
  · split
    · exact this
    · split <;> exact this
  · exact this

/-- **C43.** Whatever options are given, in any order, with values for which the arithmetic does not
overflow (an I/O timeout below eight years): the timeouts are strictly ordered and the host-dead time is
the failure time plus the watchdog time. -/
theorem timeouts_ordered (opts : List Option') (hio : (configure opts).io < 2 ^ 28)
    (hov : 8 * (configure opts).io + (configure opts).wd < 2 ^ 31) :
    ∃ r w f d, renewalSeconds (configure opts).io = some r ∧ warnSeconds (configure opts).io = some w ∧
      failSeconds (configure opts).io = some f ∧ hostDeadSeconds (configure opts).wd (configure opts).io = some d ∧
      0 < r ∧ r < w ∧ w < f ∧ f < d ∧ d = f + (configure opts).wd := by
  obtain ⟨h1, h2⟩ := configured_positive opts
  generalize configure opts = c at *
  refine ⟨2 * c.io, 6 * c.io, 8 * c.io, 8 * c.io + c.wd, ?_, ?_, ?_, ?_, ?_⟩
  · unfold renewalSeconds cint; rw [if_pos]; omega
  · unfold warnSeconds cint; rw [if_pos]; omega
  · unfold failSeconds cint; rw [if_pos]; omega
  · unfold hostDeadSeconds cint
    rw [if_pos (by omega)]
    simp only [Option.bind_eq_bind, Option.bind_some]
    rw [if_pos (by omega)]
  · omega

/-- The same with a hypothesis that is met by every value an administrator would use. -/
example : (configure [.ioTimeout 20, .watchdogFireTimeout 45]).io < 2 ^ 28 ∧
    8 * (configure [.ioTimeout 20, .watchdogFireTimeout 45]).io +
      (configure [.ioTimeout 20, .watchdogFireTimeout 45]).wd < 2 ^ 31 := by decide

/-- Is the grace period set by the administrator? -/
def GraceGiven (opts : List Option') : Prop := ∃ v, Option'.killGraceSeconds v ∈ opts ∧ 0 ≤ v ∧ v ≤ 60

/-- **C43, grace period.** Unless the administrator sets the grace period, it ends before the watchdog
fires; for the default and for every timeout of at least 30 seconds with ten seconds to spare. -/
theorem grace_fits_partial (opts : List Option') (h : ¬ GraceGiven opts) :
    0 ≤ (configure opts).grace ∧ (configure opts).grace < (configure opts).wd ∧
    (30 ≤ (configure opts).wd → (configure opts).grace + 10 ≤ (configure opts).wd) := by
  have hpos := configured_positive opts
  have hg : (opts.foldl Config.set Config.default).grace = 40 ∧
      (opts.foldl Config.set Config.default).graceSet = false := by
    have : ∀ (os : List Option') (c : Config), (∀ o ∈ os, ∀ v, o = .killGraceSeconds v → ¬ (0 ≤ v ∧ v ≤ 60)) →
        c.grace = 40 ∧ c.graceSet = false →
        (os.foldl Config.set c).grace = 40 ∧ (os.foldl Config.set c).graceSet = false := by
      intro os
      induction os with
      | nil => intro c _ h; exact h
      | cons o os ih =>
        intro c ho hc
        apply ih
        · exact fun x hx => ho x (List.mem_cons_of_mem _ hx)
        · cases o <;> simp only [Config.set] <;> split <;> try exact hc
          rename_i v hv
          exact absurd ⟨hv.2, hv.1⟩ (ho _ List.mem_cons_self v rfl)
    apply this
    · intro o ho v hv hv2
      exact h ⟨v, hv ▸ ho, hv2⟩
    · decide
  unfold configure setupTimeouts at *
  simp only [hg.2, true_and] at *
  split
  · rename_i h60
    rw [if_pos h60] at hpos
    split
    · simp only; omega
    · rename_i h30
      rw [if_neg h30] at hpos
      split
      · rename_i h3
        rw [if_pos h3] at hpos
        simp only at hpos ⊢
        omega
      · omega
  · rename_i h60
    rw [hg.1]
    omega

example : ¬ GraceGiven [.watchdogFireTimeout 45, .killGraceSeconds 61] := by
  rintro ⟨v, h1, h2, h3⟩
  simp at h1
  omega

/-- **C43 is violated by explicit settings.** A grace period up to 60 seconds is accepted together with
any watchdog timeout: here the watchdog fires 50 seconds before the grace period ends. -/
theorem grace_fits_violated :
    (configure [.watchdogFireTimeout 10, .killGraceSeconds 60]).grace >
      (configure [.watchdogFireTimeout 10, .killGraceSeconds 60]).wd + 49 := by decide

/-- An I/O timeout of 2^28 seconds, which is accepted, overflows. -/
theorem timeouts_overflow_violated :
    failSeconds (configure [.ioTimeout (2 ^ 28)]).io = none := by decide

end Sanlock.Timing
