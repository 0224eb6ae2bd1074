import Verif.ResetTool

/-!
# Lemmas about `sanlk-reset`
-/

namespace Sanlock.ResetTool

open Liveness (Flag)

/-- The host's reply came in this pass through lockspace `i`: an event from host id `id` with the bit for
"resetting". -/
def Heard (i : Nat) (id : UInt64) (q : Pass) : Prop := ∃ rb, Got.event id true rb ∈ q.got i

/-- The daemon reported the host as dead in lockspace `i`. -/
def SeenDead (i : Nat) (q : Pass) : Prop := ∃ h, q.hosts i = some h ∧ h.flag = some .dead

def SeenFree (i : Nat) (q : Pass) : Prop := ∃ h, q.hosts i = some h ∧ h.flag = some .free

/-- The newest timestamp reported in lockspace `i` (the passes are given last first); 0 if there is none. -/
def lastTs (i : Nat) : List Pass → UInt64
  | [] => 0
  | q :: h => match q.hosts i with
    | some x => x.timestamp
    | none => lastTs i h

/-- How often the timestamp reported in lockspace `i` was not the one reported before. -/
def changes (i : Nat) : List Pass → Nat
  | [] => 0
  | q :: h => match q.hosts i with
    | some x => if lastTs i h ≠ 0 ∧ lastTs i h ≠ x.timestamp then changes i h + 1 else changes i h
    | none => changes i h

/-- The connection for lockspace `i` has stayed usable. -/
def Usable (i : Nat) (h : List Pass) : Prop := ∀ q ∈ h, q.hup i = false ∧ Got.err ∉ q.got i

theorem anyLs_iff (p : Nat → Bool) : anyLs p = true ↔ ∃ i, i < maxLs ∧ p i = true := by
  simp only [anyLs, List.any_eq_true, List.mem_range]

/-- One lockspace after `reset_done`. -/
def after (native : Bool) (now : UInt64) (l : Ls) (r : Option Host) : Ls :=
  look (if native then note now (refresh l r) else refresh l r)

/-- Whether the native timeout is still used in this pass. -/
def nat' (s : St) (p : Pass) : Bool := s.native && !anyLs fun i => disables (s.ls i) (p.hosts i)

/-- One lockspace when the native check is made. -/
def mid (s : St) (p : Pass) (i : Nat) : Ls :=
  if nat' s p then note p.now (refresh (s.ls i) (p.hosts i)) else refresh (s.ls i) (p.hosts i)

def wd' (s : St) (p : Pass) : Bool :=
  s.wdFailed || (nat' s p && anyLs fun i => passed p.now (mid s p i) && late (mid s p i))

theorem resetDone_eq (s : St) (p : Pass) : resetDone s p.now p.hosts =
    if nat' s p && wd' s p then ({ s with ls := mid s p, native := nat' s p, wdFailed := wd' s p }, false)
    else ({ s with ls := fun i => look (mid s p i), native := nat' s p, wdFailed := wd' s p },
      (nat' s p && anyLs fun i => passed p.now (mid s p i) && !late (mid s p i)) ||
        anyLs fun i => deadDone s.resourceMode (look (mid s p i))) := by
  have e : ∀ c : Bool, (if c = true then (fun i => note p.now (refresh (s.ls i) (p.hosts i)))
      else fun i => refresh (s.ls i) (p.hosts i)) =
      fun i => if c = true then note p.now (refresh (s.ls i) (p.hosts i)) else refresh (s.ls i) (p.hosts i) := by
    intro c; cases c <;> rfl
  unfold resetDone
  simp only [e]
  rfl

/-- A pass that does not end the program. -/
theorem pass_waiting {s s' : St} {p : Pass} (h : pass s p = (s', .waiting)) :
    (nat' s p && wd' s p) = false ∧ wd' s p = false ∧
      s' = { s with ls := fun i => readLs (look (mid s p i)) (p.got i) (p.hup i), native := nat' s p,
                    wdFailed := wd' s p } := by
  unfold pass at h
  simp only [resetDone_eq] at h
  cases hn : (nat' s p && wd' s p)
  · simp only [hn, Bool.false_eq_true, if_false] at h
    split at h
    · cases h
    · split at h
      · cases h
      · rename_i h1 h2
        have hw : wd' s p = false := by
          cases hw : wd' s p
          · rfl
          · simp [resetFail, hw] at h2
        injection h with e _
        exact ⟨rfl, hw, e.symm⟩
  · simp only [hn, if_true, Bool.false_eq_true, if_false] at h
    have hw : wd' s p = true := by
      revert hn; cases nat' s p <;> cases wd' s p <;> simp
    simp [resetFail, hw] at h

/-! What the parts do to one lockspace. -/

theorem refresh_keeps (l : Ls) (r : Option Host) : (refresh l r).reg = l.reg ∧ (refresh l r).hostId = l.hostId ∧
    (refresh l r).isResetting = l.isResetting ∧ (refresh l r).isDead = l.isDead ∧ (refresh l r).isFree = l.isFree ∧
    (refresh l r).beginLocal = l.beginLocal ∧ (refresh l r).beginTs = l.beginTs := by
  unfold refresh
  split
  · split <;> exact ⟨rfl, rfl, rfl, rfl, rfl, rfl, rfl⟩
  · exact ⟨rfl, rfl, rfl, rfl, rfl, rfl, rfl⟩

theorem note_keeps (now : UInt64) (l : Ls) : (note now l).reg = l.reg ∧ (note now l).hostId = l.hostId ∧
    (note now l).isResetting = l.isResetting ∧ (note now l).isDead = l.isDead ∧ (note now l).isFree = l.isFree ∧
    (note now l).timestamp = l.timestamp ∧ (note now l).flag = l.flag ∧ (note now l).renewals = l.renewals := by
  unfold note
  split <;> exact ⟨rfl, rfl, rfl, rfl, rfl, rfl, rfl, rfl⟩

theorem mid_keeps (s : St) (p : Pass) (i : Nat) : (mid s p i).reg = (s.ls i).reg ∧
    (mid s p i).hostId = (s.ls i).hostId ∧ (mid s p i).isResetting = (s.ls i).isResetting ∧
    (mid s p i).isDead = (s.ls i).isDead ∧ (mid s p i).isFree = (s.ls i).isFree ∧
    (mid s p i).timestamp = (refresh (s.ls i) (p.hosts i)).timestamp ∧
    (mid s p i).flag = (refresh (s.ls i) (p.hosts i)).flag ∧
    (mid s p i).renewals = (refresh (s.ls i) (p.hosts i)).renewals := by
  obtain ⟨r1, r2, r3, r4, r5, _, _⟩ := refresh_keeps (s.ls i) (p.hosts i)
  unfold mid
  split
  · obtain ⟨n1, n2, n3, n4, n5, n6, n7, n8⟩ := note_keeps p.now (refresh (s.ls i) (p.hosts i))
    exact ⟨n1.trans r1, n2.trans r2, n3.trans r3, n4.trans r4, n5.trans r5, n6, n7, n8⟩
  · exact ⟨r1, r2, r3, r4, r5, rfl, rfl, rfl⟩

theorem look_keeps (l : Ls) : (look l).reg = l.reg ∧ (look l).hostId = l.hostId ∧
    (look l).isResetting = l.isResetting ∧ (look l).timestamp = l.timestamp ∧ (look l).flag = l.flag ∧
    (look l).beginLocal = l.beginLocal ∧ (look l).beginTs = l.beginTs ∧ (look l).renewals = l.renewals := by
  unfold look
  split <;> exact ⟨rfl, rfl, rfl, rfl, rfl, rfl, rfl, rfl⟩

theorem look_dead {l : Ls} (h : (look l).isDead = true) : l.isDead = true ∨ l.flag = some .dead := by
  unfold look at h
  split at h
  · simpa using h
  · exact Or.inl h

theorem look_free {l : Ls} (h : (look l).isFree = true) : l.isFree = true ∨ l.flag = some .free := by
  unfold look at h
  split at h
  · simpa using h
  · exact Or.inl h

theorem getEvents_keeps (gs : List Got) : ∀ l : Ls, (getEvents l gs).hostId = l.hostId ∧
    (getEvents l gs).isDead = l.isDead ∧ (getEvents l gs).isFree = l.isFree ∧
    (getEvents l gs).timestamp = l.timestamp ∧ (getEvents l gs).flag = l.flag ∧
    (getEvents l gs).beginLocal = l.beginLocal ∧ (getEvents l gs).beginTs = l.beginTs ∧
    ((getEvents l gs).reg = true → l.reg = true) ∧ (getEvents l gs).renewals = l.renewals := by
  induction gs with
  | nil => intro l; exact ⟨rfl, rfl, rfl, rfl, rfl, rfl, rfl, id, rfl⟩
  | cons g gs ih =>
    intro l
    cases g with
    | err => exact ⟨rfl, rfl, rfl, rfl, rfl, rfl, rfl, fun h => by simp [getEvents, unregister] at h, rfl⟩
    | event f r b =>
      obtain ⟨a1, a2, a3, a4, a5, a6, a7, a8, a9⟩ :=
        ih (if f = l.hostId && r then { l with isResetting := true } else l)
      simp only [getEvents]
      rw [a1, a2, a3, a4, a5, a6, a7, a9]
      refine ⟨?_, ?_, ?_, ?_, ?_, ?_, ?_, fun h => ?_, ?_⟩
      all_goals first
        | (have := a8 h; revert this; split <;> exact id)
        | (split <;> rfl)

/-- The reply is noted only if it came. -/
theorem getEvents_resetting (gs : List Got) : ∀ l : Ls, (getEvents l gs).isResetting = true →
    l.isResetting = true ∨ ∃ rb, Got.event l.hostId true rb ∈ gs := by
  induction gs with
  | nil => intro l h; exact Or.inl h
  | cons g gs ih =>
    intro l h
    cases g with
    | err => exact Or.inl h
    | event f r b =>
      simp only [getEvents] at h
      have hid : (if f = l.hostId && r then { l with isResetting := true } else l).hostId = l.hostId := by
        split <;> rfl
      rcases ih _ h with h1 | ⟨rb, h1⟩
      · by_cases hc : (f = l.hostId && r) = true
        · simp only [Bool.and_eq_true, decide_eq_true_eq] at hc
          exact Or.inr ⟨b, by rw [hc.1, hc.2]; exact List.mem_cons_self⟩
        · rw [if_neg hc] at h1; exact Or.inl h1
      · rw [hid] at h1
        exact Or.inr ⟨rb, List.mem_cons_of_mem _ h1⟩

/-- As long as the lockspace stays registered, a reply that came is noted. -/
theorem getEvents_heard (gs : List Got) : ∀ l : Ls, (getEvents l gs).reg = true →
    (l.isResetting = true ∨ ∃ rb, Got.event l.hostId true rb ∈ gs) → (getEvents l gs).isResetting = true := by
  induction gs with
  | nil => intro l _ h; rcases h with h | ⟨_, h⟩; exact h; cases h
  | cons g gs ih =>
    intro l hr h
    cases g with
    | err => simp [getEvents, unregister] at hr
    | event f r b =>
      simp only [getEvents] at hr ⊢
      have hid : (if f = l.hostId && r then { l with isResetting := true } else l).hostId = l.hostId := by
        split <;> rfl
      refine ih _ hr ?_
      rw [hid]
      rcases h with h | ⟨rb, h⟩
      · left; split
        · rfl
        · exact h
      · rcases List.mem_cons.1 h with e | e
        · injection e with e1 e2 _
          left
          rw [if_pos (by simp [← e1, ← e2])]
        · exact Or.inr ⟨rb, e⟩

theorem readLs_keeps (l : Ls) (gs : List Got) (hup : Bool) : (readLs l gs hup).hostId = l.hostId ∧
    (readLs l gs hup).isDead = l.isDead ∧ (readLs l gs hup).isFree = l.isFree ∧
    (readLs l gs hup).timestamp = l.timestamp ∧ (readLs l gs hup).flag = l.flag ∧
    (readLs l gs hup).beginLocal = l.beginLocal ∧ (readLs l gs hup).beginTs = l.beginTs ∧
    ((readLs l gs hup).reg = true → l.reg = true ∧ hup = false ∧ (getEvents l gs).reg = true) ∧
    (readLs l gs hup).renewals = l.renewals := by
  unfold readLs
  cases hr : l.reg
  · simp only [Bool.false_eq_true, if_false]
    exact ⟨trivial, trivial, trivial, trivial, trivial, trivial, trivial,
      fun h => (by rw [hr] at h; cases h), trivial⟩
  · simp only [if_true]
    obtain ⟨a1, a2, a3, a4, a5, a6, a7, _, a9⟩ := getEvents_keeps gs l
    cases hup
    · simp only [Bool.false_eq_true, if_false]
      exact ⟨a1, a2, a3, a4, a5, a6, a7, fun h => ⟨trivial, trivial, h⟩, a9⟩
    · simp only [if_true]
      exact ⟨a1, a2, a3, a4, a5, a6, a7, fun h => (by simp [unregister] at h), a9⟩

theorem readLs_resetting {l : Ls} {gs : List Got} {hup : Bool} (h : (readLs l gs hup).isResetting = true) :
    l.isResetting = true ∨ ∃ rb, Got.event l.hostId true rb ∈ gs := by
  unfold readLs at h
  split at h
  · refine getEvents_resetting gs l ?_
    revert h; cases hup <;> exact id
  · exact Or.inl h

theorem readLs_heard {l : Ls} {gs : List Got} {hup : Bool} (hr : (readLs l gs hup).reg = true)
    (h : l.isResetting = true ∨ ∃ rb, Got.event l.hostId true rb ∈ gs) : (readLs l gs hup).isResetting = true := by
  obtain ⟨r1, r2, r3⟩ := (readLs_keeps l gs hup).2.2.2.2.2.2.2.1 hr
  have : readLs l gs hup = getEvents l gs := by simp [readLs, r1, r2]
  rw [this]
  exact getEvents_heard gs l r3 h

theorem getEvents_reg (gs : List Got) : ∀ l : Ls, ((getEvents l gs).reg = true ↔ l.reg = true ∧ Got.err ∉ gs) := by
  induction gs with
  | nil => intro l; simp [getEvents]
  | cons g gs ih =>
    intro l
    cases g with
    | err => simp [getEvents, unregister]
    | event f r b =>
      simp only [getEvents]
      rw [ih]
      have : (if f = l.hostId && r then { l with isResetting := true } else l).reg = l.reg := by split <;> rfl
      rw [this]
      simp

theorem readLs_reg (l : Ls) (gs : List Got) (hup : Bool) :
    ((readLs l gs hup).reg = true ↔ l.reg = true ∧ hup = false ∧ Got.err ∉ gs) := by
  cases hr : l.reg
  · simp [readLs, hr]
  · cases hup
    · simp only [readLs, hr, if_true, Bool.false_eq_true, if_false, getEvents_reg]
      simp
    · simp [readLs, hr, unregister]

/-- What the tool knows after the passes `h` about lockspace `i`. -/
structure Knows (s0 : St) (h : List Pass) (s : St) (i : Nat) : Prop where
  id : (s.ls i).hostId = (s0.ls i).hostId
  res : (s.ls i).isResetting = true → ∃ q ∈ h, Heard i (s0.ls i).hostId q
  heard : (s.ls i).reg = true → (∃ q ∈ h, Heard i (s0.ls i).hostId q) → (s.ls i).isResetting = true
  beg : (s.ls i).beginLocal ≠ 0 → ∃ h1 b h2, h = h1 ++ b :: h2 ∧ (∃ q ∈ h2, Heard i (s0.ls i).hostId q) ∧
    (s.ls i).beginLocal = b.now ∧ (s.ls i).beginTs = lastTs i (b :: h2)
  dead : (s.ls i).isDead = true → ∃ q ∈ h, SeenDead i q
  free : (s.ls i).isFree = true → ∃ q ∈ h, SeenFree i q
  ts : (s.ls i).reg = true → (s.ls i).timestamp = lastTs i h
  cnt : (s.ls i).reg = true → (s.ls i).renewals = changes i h
  reg : (s.ls i).reg = true ↔ (s0.ls i).reg = true ∧ Usable i h
  fdead : (s.ls i).flag = some .dead → ∃ q ∈ h, SeenDead i q
  ffree : (s.ls i).flag = some .free → ∃ q ∈ h, SeenFree i q

/-- After the lists of hosts have been read in pass `p`. -/
structure Mid (s0 : St) (h : List Pass) (p : Pass) (l : Ls) (i : Nat) : Prop where
  id : l.hostId = (s0.ls i).hostId
  res : l.isResetting = true → ∃ q ∈ h, Heard i (s0.ls i).hostId q
  heard : l.reg = true → (∃ q ∈ h, Heard i (s0.ls i).hostId q) → l.isResetting = true
  beg : l.beginLocal ≠ 0 → ∃ h1 b h2, p :: h = h1 ++ b :: h2 ∧ (∃ q ∈ h2, Heard i (s0.ls i).hostId q) ∧
    l.beginLocal = b.now ∧ l.beginTs = lastTs i (b :: h2)
  dead : l.isDead = true → ∃ q ∈ p :: h, SeenDead i q
  free : l.isFree = true → ∃ q ∈ p :: h, SeenFree i q
  ts : l.reg = true → l.timestamp = lastTs i (p :: h)
  cnt : l.reg = true → l.renewals = changes i (p :: h)
  reg : l.reg = true ↔ (s0.ls i).reg = true ∧ Usable i h
  fdead : l.flag = some .dead → ∃ q ∈ p :: h, SeenDead i q
  ffree : l.flag = some .free → ∃ q ∈ p :: h, SeenFree i q

theorem ex_cons {P : Pass → Prop} {p : Pass} {h : List Pass} (x : ∃ q ∈ h, P q) : ∃ q ∈ p :: h, P q := by
  obtain ⟨q, hq, hp⟩ := x
  exact ⟨q, List.mem_cons_of_mem _ hq, hp⟩

theorem knows_mid {s0 s : St} {h : List Pass} {i : Nat} (k : Knows s0 h s i) (p : Pass) :
    Mid s0 h p (mid s p i) i := by
  obtain ⟨m1, m2, m3, m4, m5, m6, m7, m8⟩ := mid_keeps s p i
  obtain ⟨r1, r2, r3, r4, r5, r6, r7⟩ := refresh_keeps (s.ls i) (p.hosts i)
  have hts : (s.ls i).reg = true → (refresh (s.ls i) (p.hosts i)).timestamp = lastTs i (p :: h) := by
    intro hr
    simp only [refresh, hr, if_true, lastTs]
    cases hh : p.hosts i with
    | none => exact k.ts hr
    | some x => rfl
  have hcnt : (s.ls i).reg = true → (refresh (s.ls i) (p.hosts i)).renewals = changes i (p :: h) := by
    intro hr
    simp only [refresh, hr, if_true, changes]
    cases hh : p.hosts i with
    | none => exact k.cnt hr
    | some x => simp only [k.ts hr, k.cnt hr]
  have hfd : ∀ f, (refresh (s.ls i) (p.hosts i)).flag = some f → (s.ls i).flag = some f ∨
      ∃ x, p.hosts i = some x ∧ x.flag = some f := by
    intro f hf
    unfold refresh at hf
    split at hf
    · cases hh : p.hosts i with
      | none => rw [hh] at hf; exact Or.inl hf
      | some x => rw [hh] at hf; exact Or.inr ⟨x, rfl, hf⟩
    · exact Or.inl hf
  refine ⟨m2.trans k.id, fun e => k.res (m3 ▸ e), fun e he => m3.trans (k.heard (m1 ▸ e) he), ?_,
    fun e => ex_cons (k.dead (m4 ▸ e)), fun e => ex_cons (k.free (m5 ▸ e)), fun e => m6.trans (hts (m1 ▸ e)),
    fun e => m8.trans (hcnt (m1 ▸ e)), by rw [m1]; exact k.reg, ?_, ?_⟩
  · intro hb
    have old : (mid s p i).beginLocal = (s.ls i).beginLocal → (mid s p i).beginTs = (s.ls i).beginTs →
        ∃ h1 b h2, p :: h = h1 ++ b :: h2 ∧ (∃ q ∈ h2, Heard i (s0.ls i).hostId q) ∧
          (mid s p i).beginLocal = b.now ∧ (mid s p i).beginTs = lastTs i (b :: h2) := by
      intro e1 e2
      obtain ⟨h1, b, h2, e3, e4, e5, e6⟩ := k.beg (e1 ▸ hb)
      exact ⟨p :: h1, b, h2, by rw [e3]; rfl, e4, e1.trans e5, e2.trans e6⟩
    unfold mid at old ⊢
    cases hn : nat' s p
    · simp only [hn, Bool.false_eq_true, if_false] at old ⊢
      exact old r6 r7
    · simp only [hn, if_true] at old ⊢
      by_cases hc : ((refresh (s.ls i) (p.hosts i)).reg && (refresh (s.ls i) (p.hosts i)).isResetting &&
          (refresh (s.ls i) (p.hosts i)).beginLocal == 0) = true
      · have hc' := hc
        simp only [Bool.and_eq_true] at hc'
        simp only [note, hc, if_true]
        refine ⟨[], p, h, rfl, k.res (r3 ▸ hc'.1.2), rfl, hts (r1 ▸ hc'.1.1)⟩
      · simp only [note, hc, if_false] at old ⊢
        exact old r6 r7
  · intro hf
    rw [m7] at hf
    rcases hfd _ hf with e | ⟨x, e1, e2⟩
    · exact ex_cons (k.fdead e)
    · exact ⟨p, List.mem_cons_self, x, e1, e2⟩
  · intro hf
    rw [m7] at hf
    rcases hfd _ hf with e | ⟨x, e1, e2⟩
    · exact ex_cons (k.ffree e)
    · exact ⟨p, List.mem_cons_self, x, e1, e2⟩

theorem mid_look {s0 : St} {h : List Pass} {p : Pass} {l : Ls} {i : Nat} (m : Mid s0 h p l i) :
    Mid s0 h p (look l) i := by
  obtain ⟨l1, l2, l3, l4, l5, l6, l7, l8⟩ := look_keeps l
  refine ⟨l2.trans m.id, fun e => m.res (l3 ▸ e), fun e he => l3.trans (m.heard (l1 ▸ e) he), ?_, ?_, ?_,
    fun e => l4.trans (m.ts (l1 ▸ e)), fun e => l8.trans (m.cnt (l1 ▸ e)), by rw [l1]; exact m.reg, fun e => m.fdead (l5 ▸ e), fun e => m.ffree (l5 ▸ e)⟩
  · intro e
    rw [l6] at e
    rw [l6, l7]
    exact m.beg e
  · intro e
    rcases look_dead e with e | e
    · exact m.dead e
    · exact m.fdead e
  · intro e
    rcases look_free e with e | e
    · exact m.free e
    · exact m.ffree e

theorem knows_start (s0 : St) (i : Nat) (h : s0.ls i = Ls.none ∨ ∃ x, s0.ls i = Ls.start x) : Knows s0 [] s0 i := by
  refine ⟨rfl, ?_, fun _ ⟨_, hq, _⟩ => (by cases hq), ?_, ?_, ?_, ?_, ?_,
    ⟨fun h => ⟨h, fun q hq => (by cases hq)⟩, fun h => h.1⟩, ?_, ?_⟩
  all_goals
    intro e
    rcases h with h | ⟨x, h⟩ <;> rw [h] at e <;>
      first | (rw [h]; rfl) | (exact absurd e (by simp [Ls.none, Ls.start]))

theorem start_entries (ids : List UInt64) (n r : Bool) (b : UInt64) (i : Nat) :
    (start ids n r b).ls i = Ls.none ∨ ∃ x, (start ids n r b).ls i = Ls.start x := by
  simp only [start]
  cases ids[i]? with
  | none => exact Or.inl rfl
  | some x => exact Or.inr ⟨x, rfl⟩

theorem knows_step {s0 s s' : St} {h : List Pass} {p : Pass} (hp : pass s p = (s', .waiting)) (i : Nat)
    (k : Knows s0 h s i) : Knows s0 (p :: h) s' i := by
  obtain ⟨_, _, rfl⟩ := pass_waiting hp
  have m := mid_look (knows_mid k p)
  obtain ⟨a1, a2, a3, a4, a5, a6, a7, a8, a9⟩ := readLs_keeps (look (mid s p i)) (p.got i) (p.hup i)
  refine ⟨a1.trans m.id, ?_, ?_, ?_, fun e => m.dead (a2 ▸ e), fun e => m.free (a3 ▸ e),
    fun e => a4.trans (m.ts (a8 e).1), fun e => a9.trans (m.cnt (a8 e).1), ?_, fun e => m.fdead (a5 ▸ e), fun e => m.ffree (a5 ▸ e)⟩
  · intro e
    rcases readLs_resetting e with e | ⟨rb, e⟩
    · exact ex_cons (m.res e)
    · rw [m.id] at e
      exact ⟨p, List.mem_cons_self, rb, e⟩
  · intro hr ⟨q, hq, hh⟩
    refine readLs_heard hr ?_
    rcases List.mem_cons.1 hq with rfl | hq
    · right; rw [m.id]; exact hh
    · left; exact m.heard (a8 hr).1 ⟨q, hq, hh⟩
  · intro e
    simp only [a6] at e
    simp only [a6, a7]
    exact m.beg e
  · rw [readLs_reg, m.reg]
    simp only [Usable, List.mem_cons, forall_eq_or_imp]
    exact ⟨fun ⟨⟨x, y⟩, z⟩ => ⟨x, z, y⟩, fun ⟨x, z, y⟩ => ⟨⟨x, y⟩, z⟩⟩

theorem exec_knows {s0 s : St} {h : List Pass} (he : Exec s0 h s)
    (h0 : ∀ i, s0.ls i = Ls.none ∨ ∃ x, s0.ls i = Ls.start x) (i : Nat) : Knows s0 h s i := by
  induction he with
  | nil => exact knows_start s0 i (h0 i)
  | cons p _ hp ih => exact knows_step hp i ih

theorem exec_fixed {s0 s : St} {h : List Pass} (he : Exec s0 h s) :
    s.resourceMode = s0.resourceMode ∧ s.begin = s0.begin ∧ (s0.wdFailed = false → s.wdFailed = false) := by
  induction he with
  | nil => exact ⟨rfl, rfl, fun h => h⟩
  | cons p _ hp ih =>
    obtain ⟨_, hw, rfl⟩ := pass_waiting hp
    exact ⟨ih.1, ih.2.1, fun _ => hw⟩

end Sanlock.ResetTool
