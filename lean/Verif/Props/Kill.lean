import Verif.Kill

/-!
# Signals: C30
-/

namespace Sanlock.Kill

/-- What the process in slot `i` was sent. -/
def sent (e : Env) (t : List Cl) (i : Nat) : Option Sig := ((killPids e t).2)[i]?.join

theorem sent_round {e : Env} {t : List Cl} {i : Nat} {s : Sig} (h : sent e t i = some s) :
    ∃ c, t[i]? = some c ∧ e.killing ≤ 1 ∧ (round e c).2 = some s := by
  unfold sent killPids at h
  split at h
  · rw [List.getElem?_map] at h
    cases hc : t[i]? <;> rw [hc] at h <;> simp at h
  · rw [List.getElem?_map] at h
    cases hc : t[i]? with
    | none => rw [hc] at h; simp at h
    | some c =>
      rw [hc] at h
      exact ⟨c, rfl, by omega, by simpa using h⟩

theorem round_some {e : Env} {c : Cl} {s : Sig} (h : (round e c).2 = some s) :
    c.used = true ∧ c.pid.isSome = true ∧ c.killCount < e.countMax ∧ e.name ∈ c.tokens ∧ s = restrict c (baseSig e c) ∧
      (c.killCount = 0 ∨ c.killLast < e.now) ∧ ¬ (c.runpathSent = true ∧ s = .runpath) := by
  unfold round killOne at h
  split at h
  · cases h
  · rename_i c' s' heq
    split at heq
    · cases heq
    · split at heq
      · cases heq
      · split at heq
        · cases heq
        · split at heq
          · cases heq
          · split at heq
            · cases heq
            · rename_i h1 h2 h3 h4 h5
              cases heq
              unfold send at h
              split at h
              · cases h
              · rename_i h6
                cases h
                refine ⟨by simpa using h1, ?_, by omega, ?_, rfl, by omega, h6⟩
                · cases hp : c.pid with
                  | none => exact absurd hp h2
                  | some p => rfl
                · have : usingSpace e c = true := by simpa using h5
                  simpa [usingSpace] using this

/-- Only live registered processes with a lease in the lockspace are sent anything, and only while there are attempts left. -/
theorem only_users {e : Env} {t : List Cl} {i : Nat} {s : Sig} (h : sent e t i = some s) :
    ∃ c, t[i]? = some c ∧ c.used = true ∧ c.pid.isSome = true ∧ e.name ∈ c.tokens ∧ c.killCount < e.countMax := by
  obtain ⟨c, hc, _, hr⟩ := sent_round h
  obtain ⟨h1, h2, h3, h4, _⟩ := round_some hr
  exact ⟨c, hc, h1, h2, h4, h3⟩

/-- The first time, every such process is sent something. -/
theorem all_users {e : Env} {t : List Cl} {i : Nat} {c : Cl} (hk : e.killing ≤ 1) (hm : 0 < e.countMax) (hc : t[i]? = some c)
    (h1 : c.used = true) (h2 : c.pid.isSome = true) (h3 : e.name ∈ c.tokens) (h4 : c.killCount = 0) (h5 : c.runpathSent = false) :
    ∃ s, sent e t i = some s := by
  have hu : usingSpace e c = true := by simpa [usingSpace] using h3
  have hp : c.pid ≠ none := by intro h; rw [h] at h2; cases h2
  have hko : killOne e c = ({ c with killLast := e.now, killCount := c.killCount + 1 }, some (restrict c (baseSig e c))) := by
    unfold killOne
    rw [if_neg (by rw [h1]; decide), if_neg hp, if_neg (by omega), if_neg (by omega), if_neg (by rw [hu]; decide)]
  refine ⟨restrict c (baseSig e c), ?_⟩
  unfold sent killPids
  rw [if_neg (by omega), List.getElem?_map, hc]
  simp only [Option.map_some, Option.join_some, round, hko, send]
  rw [if_neg (by rw [h5]; rintro ⟨h, _⟩; cases h)]

/-- A process that did not ask for restrictions: its own program or SIGTERM before the end of the grace period,
SIGKILL afterwards, or when the lockspace is removed by force. -/
theorem unrestricted {e : Env} {t : List Cl} {i : Nat} {s : Sig} {c : Cl} (h : sent e t i = some s) (hc : t[i]? = some c)
    (hk : c.noKill = false) (ht : c.noTerm = false) :
    (e.externalRemove = true ∨ 1 < e.shutdown → s = .kill) ∧
    (e.lastSuccess + e.fail + e.grace ≤ e.now → s = .kill) ∧
    (e.externalRemove = false → e.shutdown ≤ 1 → e.now < e.lastSuccess + e.fail + e.grace →
      (c.killpath = true → 0 < e.grace → s = .runpath) ∧ (c.killpath = false ∨ e.grace = 0 → s = .term)) := by
  obtain ⟨c', hc', _, hr⟩ := sent_round h
  rw [hc] at hc'; cases hc'
  obtain ⟨_, _, _, _, hs, _⟩ := round_some hr
  have hs : s = baseSig e c := by rw [hs]; unfold restrict; rw [hk, ht]; simp
  subst hs
  unfold baseSig inGrace
  refine ⟨?_, ?_, ?_⟩
  · intro h
    rw [if_pos]
    rcases h with h | h <;> simp [h]
  · intro h
    have hn : ¬ e.now < e.lastSuccess + e.fail + e.grace := by omega
    simp [hn]
  · intro h1 h2 h3
    have hs : ¬ e.shutdown > 1 := by omega
    refine ⟨fun h4 h5 => ?_, fun h4 => ?_⟩
    · simp [h1, hs, h3, h4, h5]
    · rcases h4 with h4 | h4
      · simp [h1, hs, h3, h4]
      · have : e.now < e.lastSuccess + e.fail := by omega
        simp [h1, hs, h4, this]

/-- A process that asked not to be sent one of the signals is not sent it.  Missing: a process that asked for both. -/
theorem restriction_respected_partial {e : Env} {t : List Cl} {i : Nat} {s : Sig} {c : Cl} (h : sent e t i = some s) (hc : t[i]? = some c)
    (hb : c.noKill = false ∨ c.noTerm = false) : (c.noKill = true → s ≠ .kill) ∧ (c.noTerm = true → s ≠ .term) := by
  obtain ⟨c', hc', _, hr⟩ := sent_round h
  rw [hc] at hc'; cases hc'
  obtain ⟨_, _, _, _, hs, _⟩ := round_some hr
  rw [hs]
  unfold restrict
  cases hk : c.noKill <;> cases ht : c.noTerm <;> cases baseSig e c <;> simp_all

/-- A process that asked for neither signal is sent SIGKILL whenever it is sent a signal at all. -/
theorem both_restricted_killed {e : Env} {t : List Cl} {i : Nat} {s : Sig} {c : Cl} (h : sent e t i = some s) (hc : t[i]? = some c)
    (hk : c.noKill = true) (ht : c.noTerm = true) : s = .runpath ∨ s = .kill := by
  obtain ⟨c', hc', _, hr⟩ := sent_round h
  rw [hc] at hc'; cases hc'
  obtain ⟨_, _, _, _, hs, _⟩ := round_some hr
  rw [hs]
  unfold restrict
  rw [hk, ht]
  cases baseSig e c <;> simp

/-- The environment of a lockspace that failed. -/
def failed : Env := ⟨7, 1, false, 0, 40, 80, 100, 185, 100⟩

def proc : Cl := ⟨true, some 42, 0, 0, false, false, false, false, [3, 7]⟩

example : sent failed [{ proc with tokens := [3] }, proc] 1 = some .term := by decide
example : sent failed [{ proc with tokens := [3] }, proc] 0 = none := by decide
example : sent { failed with now := 220 } [proc] 0 = some .kill := by decide
example : sent failed [{ proc with killpath := true }] 0 = some .runpath := by decide
example : sent { failed with now := 220 } [{ proc with noKill := true }] 0 = some .term := by decide

/-- The negation of the claim for a process that asked for both. -/
theorem restriction_violated : ∃ (e : Env) (t : List Cl) (i : Nat) (c : Cl), t[i]? = some c ∧ c.noKill = true ∧ sent e t i = some .kill :=
  ⟨failed, [{ proc with noKill := true, noTerm := true }], 0, _, rfl, rfl, by decide⟩

/-- The program of a process is started at most once: after it was, `kill_pids` does not start it again, in whatever
environments it runs and as long as nothing resets the entry. -/
theorem program_once {e : Env} {c : Cl} (h : (round e c).2 = some .runpath) (es : List Env) :
    ∀ e', (round e' (es.foldl (fun c e => (round e c).1) (round e c).1)).2 ≠ some .runpath := by
  have hko : ∀ (e : Env) (c : Cl), (killOne e c).1.runpathSent = c.runpathSent := by
    intro e c
    unfold killOne
    (repeat' split) <;> rfl
  have hsend : ∀ (c : Cl) (s : Sig), c.runpathSent = true → (send c s).1.runpathSent = true := by
    intro c s hc
    unfold send
    (repeat' split) <;> first | exact hc | rfl
  have hkeep : ∀ (e : Env) (c : Cl), c.runpathSent = true → (round e c).1.runpathSent = true := by
    intro e c hc
    have hk := hko e c
    rw [hc] at hk
    unfold round
    split
    · rename_i heq; rw [heq] at hk; exact hk
    · rename_i heq; rw [heq] at hk; exact hsend _ _ hk
  have h1 : (round e c).1.runpathSent = true := by
    have hr := h
    unfold round at hr ⊢
    split at hr
    · cases hr
    · rename_i c' s' heq
      unfold send at hr ⊢
      split at hr
      · cases hr
      · rename_i hn
        have : s' = .runpath := by simpa using hr
        subst this
        rw [if_neg hn]; simp
  have h2 : ∀ (es : List Env) (c : Cl), c.runpathSent = true → (es.foldl (fun c e => (round e c).1) c).runpathSent = true := by
    intro es
    induction es with
    | nil => intro c hc; exact hc
    | cons e es ih => intro c hc; exact ih _ (hkeep e c hc)
  intro e' he'
  exact (round_some he').2.2.2.2.2.2 ⟨h2 es _ h1, rfl⟩

/-- Later rounds go on: a process that still uses the lockspace a second after the last attempt, and was not yet tried
`kill_count_max` times, is sent a signal again, unless that would be starting its program a second time. -/
theorem keeps_signalling {e : Env} {t : List Cl} {i : Nat} {c : Cl} (hk : e.killing ≤ 1) (hc : t[i]? = some c)
    (h1 : c.used = true) (h2 : c.pid.isSome = true) (h3 : e.name ∈ c.tokens) (h4 : c.killCount < e.countMax)
    (h5 : c.killLast < e.now) (h6 : c.runpathSent = false ∨ e.lastSuccess + e.fail + e.grace ≤ e.now) :
    ∃ s, sent e t i = some s := by
  have hu : usingSpace e c = true := by simpa [usingSpace] using h3
  have hp : c.pid ≠ none := by intro h; rw [h] at h2; cases h2
  have hko : killOne e c = ({ c with killLast := e.now, killCount := c.killCount + 1 }, some (restrict c (baseSig e c))) := by
    unfold killOne
    have a1 : ¬ c.killCount ≥ e.countMax := by omega
    have a2 : ¬ (c.killCount > 0 ∧ e.now - c.killLast < 1) := by omega
    rw [if_neg (by simp [h1]), if_neg hp, if_neg a1, if_neg a2, if_neg (by simp [hu])]
  have hnr : ¬ (c.runpathSent = true ∧ restrict c (baseSig e c) = .runpath) := by
    rintro ⟨hs, hr⟩
    rcases h6 with h6 | h6
    · rw [h6] at hs; cases hs
    · have hg : inGrace e = false := by simp only [inGrace, decide_eq_false_iff_not]; omega
      have hb : baseSig e c = .kill := by unfold baseSig; split <;> simp [hg]
      rw [hb] at hr
      unfold restrict at hr
      cases hk : c.noKill <;> cases ht : c.noTerm <;> simp [hk, ht] at hr
  refine ⟨restrict c (baseSig e c), ?_⟩
  unfold sent killPids
  rw [if_neg (by omega), List.getElem?_map, hc]
  simp only [Option.map_some, Option.join_some, round, hko, send]
  rw [if_neg hnr]

/-- The same process one and two seconds later. -/
example : sent { failed with now := 186 } [(round failed proc).1] 0 = some .term ∧ sent failed [(round failed proc).1] 0 = none := by decide

end Sanlock.Kill
