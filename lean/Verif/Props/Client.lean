import Verif.Lemmas.Client
import Verif.Util

/-!
# Properties of client slots: C29, C31, C32, C44, C45
-/

namespace Sanlock.Client

/-- No command is running and the main thread is not in the middle of cleaning up. -/
def Quiet (s : State) : Prop := s.main = none ∧ ∀ th, s.thr th = none

theorem run_append {s : State} {a b : List Act} : run s (a ++ b) = (run s a).bind fun s' => run s' b := by
  induction a generalizing s with
  | nil => rfl
  | cons x a ih =>
    simp only [List.cons_append, run]
    cases step s x with
    | none => rfl
    | some s' => exact ih

/-- As `run`, but only through steps the assumptions allow. -/
def allowedB (s : State) : Act → Bool
  | .register ci _ => (s.cl ci).reg == false
  | .remSpace _ _ => false
  | _ => true

def runA (s : State) : List Act → Option State
  | [] => some s
  | a :: as =>
    if allowedB s a then
      match step s a with
      | none => none
      | some s' => runA s' as
    else none

theorem reach_runA {as : List Act} : ∀ {s s' : State}, Reach s → runA s as = some s' → Reach s' := by
  induction as with
  | nil => intro s s' hr h; cases h; exact hr
  | cons a as ih =>
    intro s s' hr h
    simp only [runA] at h
    split at h
    · rename_i ha
      cases hs : step s a with
      | none => rw [hs] at h; cases h
      | some s1 =>
        rw [hs] at h
        refine ih (Reach.step hr ?_ hs) h
        cases a <;> simp_all [allowedB, Allowed]
    · cases h

/-! ## C29 -/

/-- No lease is released twice, whatever the order of death of the process and the end of commands. -/
theorem released_once {s : State} (h : Reach s) (t : Tok) : s.rel t ≤ 1 := by
  obtain ⟨loc, hi⟩ := inv_reach h
  rw [hi.rel]
  split <;> omega

/-- When nothing is in progress, the leases not yet released are those of registered processes that are alive.  Missing:
processes for which a convert command failed to receive its resource (`stuck`). -/
theorem quiet_tokens_partial {s : State} (h : Reach s) (hq : Quiet s) (t : Tok) (ht : t < s.next) :
    (s.rel t = 0 ↔ ∃ ci, ((s.cl ci).pid.isSome = true ∨ (s.cl ci).stuck = true) ∧ t ∈ (s.cl ci).tokens) ∧ (s.rel t = 0 ∨ s.rel t = 1) := by
  obtain ⟨loc, hi⟩ := inv_reach h
  have hr := hi.rel t
  have hne : ∀ r ci, ¬ Ex s.thr r ci := fun r ci ⟨th, T, h1, _⟩ => by rw [hq.2 th] at h1; cases h1
  refine ⟨?_, by rw [hr]; split <;> simp⟩
  constructor
  · intro h0
    cases hl : loc t with
    | fresh => exact absurd ((hi.fresh t).mp hl) (Nat.not_le.mpr ht)
    | thr th =>
      have := (hi.tok_thr th t).mp hl
      rw [hq.2 th] at this; cases this
    | released => rw [hr, if_pos hl] at h0; cases h0
    | slot ci =>
      refine ⟨ci, ?_⟩
      have hd : (s.cl ci).dangling = false := by
        cases hd : (s.cl ci).dangling with
        | false => rfl
        | true => exact absurd hl (hi.tok_dang ci t hd).1
      have hm := (hi.tok_slot ci t hd).mpr hl
      refine ⟨?_, hm⟩
      have hreg : (s.cl ci).reg = true := by
        cases hg : (s.cl ci).reg with
        | true => rfl
        | false => rw [(hi.unreg ci hg).1] at hm; cases hm
      cases hp : (s.cl ci).pid.isSome with
      | true => exact Or.inl rfl
      | false =>
        have hdead := hi.dead ci hreg hp
        have hnf : (s.cl ci).needFree = false := by
          cases hn : (s.cl ci).needFree with
          | false => rfl
          | true => rw [(hi.nf ci hn).2.2.2 hreg] at hd; cases hd
        rcases hi.owner ci hdead hnf with h1 | h1 | h1
        · exact Or.inr h1
        · rw [hq.1] at h1; cases h1
        · exact absurd h1 (hne _ _)
  · rintro ⟨ci, hp, hm⟩
    have hd : (s.cl ci).dangling = false := by
      rcases hp with hp | hp
      · cases hd : (s.cl ci).dangling with
        | false => rfl
        | true => have := (hi.pid_reg ci hp).2; rw [hi.dang_dead ci hd] at this; cases this
      · exact (hi.stuck ci hp).2.2.2.2.1
    rw [hr, (hi.tok_slot ci t hd).mp hm]; rfl

/-- When nothing is in progress, the slot of a process that died is free again.  Missing: a killpath command from that
connection met the death of its target (`leaked`), or a convert command failed to receive its resource (`stuck`). -/
theorem quiet_slots_partial {s : State} (h : Reach s) (hq : Quiet s) (ci : Nat)
    (hreg : (s.cl ci).reg = true) : (s.cl ci).pid.isSome = true ∨ (s.cl ci).leaked = true ∨ (s.cl ci).stuck = true := by
  obtain ⟨loc, hi⟩ := inv_reach h
  have hne : ∀ r ci, ¬ Ex s.thr r ci := fun r ci ⟨th, T, h1, _⟩ => by rw [hq.2 th] at h1; cases h1
  cases hp : (s.cl ci).pid.isSome with
  | true => exact Or.inl rfl
  | false =>
    refine Or.inr ?_
    have hdead := hi.dead ci hreg hp
    cases hn : (s.cl ci).needFree with
    | true =>
      rcases hi.susp ci (hi.nf ci hn).1 with h1 | h1
      · exact Or.inl h1
      · exact absurd h1 (hne _ _)
    | false =>
      rcases hi.owner ci hdead hn with h1 | h1 | h1
      · exact Or.inr h1
      · rw [hq.1] at h1; cases h1
      · exact absurd h1 (hne _ _)

set_option maxHeartbeats 2000000 in
/-- Only a convert that failed to receive its resource makes a slot `stuck`, and only a killpath that met the death of its
target makes one `leaked`. -/
theorem stuck_only {s s' : State} {a : Act} (hs : step s a = some s') (ci : Nat) :
    ((s.cl ci).stuck = false → (s'.cl ci).stuck = true → ∃ th, a = .convertFail th) ∧
    ((s.cl ci).leaked = false → (s'.cl ci).leaked = true → ∃ th T, a = .free th ∧ s.thr th = some T ∧ T.kind = .killpath ∧ T.cin = ci) := by
  have h1 : ∀ c, (freeCl c).stuck = true → c.stuck = true := by
    intro c; unfold freeCl; (repeat' split) <;> simp_all [Cl.empty]
  have h2 : ∀ c, (freeCl c).leaked = true → c.leaked = true := by
    intro c; unfold freeCl; (repeat' split) <;> simp_all [Cl.empty]
  have h3 : ∀ c, (resumeCl c).stuck = true → c.stuck = true := by
    intro c; unfold resumeCl; (repeat' split) <;> first | exact id | exact h1 _
  have h4 : ∀ c, (resumeCl c).leaked = true → c.leaked = true := by
    intro c; unfold resumeCl; (repeat' split) <;> first | exact id | exact h2 _
  cases a <;> simp only [step] at hs <;> (repeat' split at hs) <;> cases hs <;> (try dsimp only) <;>
    refine ⟨fun a b => ?_, fun a b => ?_⟩ <;> grind (splits := 30) [set_apply, Cl.empty]

/-- A process with a lease dies while it acquires another one. -/
def deathTrace : List Act :=
  [.addSpace 7 1, .setGen 0 5, .connect 0, .register 0 100, .start 0 0 .acquire, .lookup 0 7, .acq 0 ⟨7, 1, 5, 0⟩, .final 0 true,
   .reply 0, .start 0 0 .acquire, .lookup 1 7, .acq 1 ⟨7, 1, 5, 0⟩, .dead1 0, .final 1 true, .relTok 1 1, .relCl 1, .free 1, .reply 1]

set_option maxRecDepth 100000 in
example : ∃ s, Reach s ∧ s.next = 2 ∧ s.rel 0 = 1 ∧ s.rel 1 = 1 ∧ (s.cl 0).used = false ∧ s.main = none ∧ s.thr 0 = none ∧ s.thr 1 = none := by
  have h : ((runA init deathTrace).any fun s => s.next == 2 && s.rel 0 == 1 && s.rel 1 == 1 && !(s.cl 0).used && s.main.isNone &&
    (s.thr 0).isNone && (s.thr 1).isNone) = true := by decide +kernel
  cases hs : runA init deathTrace with
  | none => rw [hs] at h; cases h
  | some s =>
    rw [hs] at h
    refine ⟨s, reach_runA Reach.init hs, ?_⟩
    simp only [Option.any_some, Bool.and_eq_true, beq_iff_eq, Bool.not_eq_true', Option.isNone_iff_eq_none] at h
    obtain ⟨⟨⟨⟨⟨⟨a, b⟩, c⟩, d⟩, e⟩, f⟩, g⟩ := h
    exact ⟨a, b, c, d, e, f, g⟩

/-- Steps that end with a lease. -/
def getLease : List Act :=
  [.addSpace 7 1, .setGen 0 5, .connect 0, .register 0 100, .start 0 0 .acquire, .lookup 0 7, .acq 0 ⟨7, 1, 5, 0⟩, .final 0 true, .reply 0]

/-- Everything is at rest, slot 0 is in use for a dead process, and the lease 0 was never released. -/
def stuckB (s : State) : Bool :=
  s.main.isNone && (List.range s.nthr).all (fun th => (s.thr th).isNone) && (s.cl 0).used && (s.cl 0).pid.isNone &&
    decide (0 < s.next) && s.rel 0 == 0

set_option maxRecDepth 100000 in
/-- A convert whose resource is not received completely leaves the process marked as having a command: when the process
dies, its leases are never released. -/
theorem convert_failure_keeps_lease_violated :
    ((run init (getLease ++ [.start 0 0 .convert, .convertFail 1, .reply 1, .dead1 0])).any stuckB) = true := by decide +kernel

set_option maxRecDepth 100000 in
/-- Registering again on the same connection forgets the leases: after the process is gone lease 0 is still not released. -/
theorem register_twice_forgets_lease_violated :
    ((run init (getLease ++ [.register 0 100, .dead1 0, .dead2])).any fun s =>
      s.main.isNone && (List.range s.nthr).all (fun th => (s.thr th).isNone) && !(s.cl 0).used && s.next == 1 && s.rel 0 == 0) = true := by
  decide +kernel

set_option maxRecDepth 100000 in
/-- A process that dies while its killpath command is running keeps its slot for ever. -/
theorem killpath_death_leaks_slot_violated :
    ((runA init (getLease ++ [.start 0 0 .killpath, .dead1 0, .final 1 true, .relCl 1, .free 1])).any fun s =>
      s.main.isNone && (List.range s.nthr).all (fun th => (s.thr th).isNone) && (s.cl 0).used && (s.cl 0).pid.isNone && s.rel 0 == 1) = true := by
  decide +kernel

/-! ## C44 -/

/-- At most one command works for a registered process at a time. -/
theorem one_command {s : State} (h : Reach s) {th th' : Nat} {T T' : Thr} (h1 : s.thr th = some T) (h2 : s.thr th' = some T')
    (p1 : T.phase = .run) (p2 : T'.phase = .run) (hc : T.ct = T'.ct) : th = th' := by
  obtain ⟨loc, hi⟩ := inv_reach h
  exact hi.claim_uniq th T th' T' h1 h2 (Or.inl p1) (Or.inl p2) hc

/-- A second command is refused. -/
theorem second_command_refused {s s' : State} (h : Reach s) {th cin : Nat} {T : Thr} {k : Kind} (h1 : s.thr th = some T)
    (p1 : T.phase = .run) (hs : step s (.start cin T.ct k) = some s') : s' = s := by
  obtain ⟨loc, hi⟩ := inv_reach h
  have hc := (hi.claim_run th T h1 p1).1
  simp only [step] at hs
  split at hs
  · rw [if_neg] at hs
    · cases hs; rfl
    · simp [accepts, hc]
  · cases hs

/-- A process that is being killed gets no new leases. -/
theorem killed_refused {s s' : State} {cin ct : Nat} (hk : 0 < (s.cl ct).killCount) (hs : step s (.start cin ct .acquire) = some s') :
    s' = s := by
  simp only [step] at hs
  split at hs
  · rw [if_neg] at hs
    · cases hs; rfl
    · simp [accepts, hk]
  · cases hs

/-- A dead process gets no commands. -/
theorem dead_refused {s s' : State} {cin ct : Nat} {k : Kind} (hk : (s.cl ct).pid = none) (hs : step s (.start cin ct k) = some s') :
    s' = s := by
  simp only [step] at hs
  split at hs
  · rw [if_neg] at hs
    · cases hs; rfl
    · simp [accepts, hk]
  · cases hs

set_option maxRecDepth 100000 in
example : ((runA init [.connect 0, .connect 1, .register 0 100, .start 0 0 .inquire, .start 1 0 .release]).any fun s =>
    s.nthr == 1 && (s.thr 0).isSome && (s.cl 0).cmdActive && !(s.cl 1).suspend) = true := by decide +kernel

set_option maxRecDepth 100000 in
/-- After a convert that failed to receive its resource every command is refused, although none is running. -/
theorem convert_failure_refuses_violated :
    ((run init (getLease ++ [.start 0 0 .convert, .convertFail 1, .reply 1, .start 0 0 .release])).any fun s =>
      (List.range s.nthr).all (fun th => (s.thr th).isNone) && (s.cl 0).pid.isSome && !(accepts (s.cl 0) .release) && s.nthr == 2) = true := by
  decide +kernel

/-! ## C31 -/

/-- Lockspaces on the list have different names, and the leases of live processes are in listed lockspaces. -/
structure InvS (s : State) : Prop where
  names : s.spaces.Pairwise fun a b => a.name ≠ b.name
  insts : s.spaces.Pairwise fun a b => a.inst ≠ b.inst
  fresh : ∀ sp ∈ s.spaces, sp.inst < s.ninst
  listed : ∀ ci t, (s.cl ci).pid.isSome = true → t ∈ (s.cl ci).tokens → ∃ sp ∈ s.spaces, sp.name = (s.info t).name

theorem find_name {l : List Space} {n : Nat} {sp : Space} (h : findSpace l n = some sp) : sp ∈ l ∧ sp.name = n := by
  unfold findSpace at h
  exact ⟨List.mem_of_find?_eq_some h, by simpa using List.find?_some h⟩

theorem map_key {l : List Space} {f : Space → Space} (hf : ∀ sp, (f sp).name = sp.name ∧ (f sp).inst = sp.inst)
    {s : State} (hi : InvS s) (hl : l = s.spaces.map f) : InvS { s with spaces := l } := by
  subst hl
  refine ⟨?_, ?_, ?_, ?_⟩
  · refine List.pairwise_map.mpr (hi.names.imp fun h => ?_)
    rw [(hf _).1, (hf _).1]; exact h
  · refine List.pairwise_map.mpr (hi.insts.imp fun h => ?_)
    rw [(hf _).2, (hf _).2]; exact h
  · intro sp hsp
    obtain ⟨sp', h1, rfl⟩ := List.mem_map.mp hsp
    rw [(hf _).2]; exact hi.fresh _ h1
  · intro ci t hp ht
    obtain ⟨sp, h1, h2⟩ := hi.listed ci t hp ht
    exact ⟨f sp, List.mem_map.mpr ⟨sp, h1, rfl⟩, by rw [(hf _).1]; exact h2⟩

/-- Steps that leave the lockspaces alone and give no live process more tokens. -/
theorem invS_shrink {s s' : State} (hi : InvS s) (h1 : s'.spaces = s.spaces) (h2 : s'.ninst = s.ninst) (h3 : s'.info = s.info)
    (h4 : ∀ ci t, (s'.cl ci).pid.isSome = true → t ∈ (s'.cl ci).tokens → (s.cl ci).pid.isSome = true ∧ t ∈ (s.cl ci).tokens) : InvS s' := by
  refine ⟨by rw [h1]; exact hi.names, by rw [h1]; exact hi.insts, by rw [h1, h2]; exact hi.fresh, ?_⟩
  intro ci t hp ht
  obtain ⟨h5, h6⟩ := h4 ci t hp ht
  rw [h1, h3]
  exact hi.listed ci t h5 h6

attribute [local grind =] set_apply
attribute [local grind] Cl.empty freeCl resumeCl

theorem freeCl_tokens (c : Cl) (t : Tok) (h1 : (freeCl c).pid.isSome = true) (h2 : t ∈ (freeCl c).tokens) :
    c.pid.isSome = true ∧ t ∈ c.tokens := by
  grind

theorem invS_step {s s' : State} {a : Act} {loc} (hl : Inv s loc) (hi : InvS s) (ha : Allowed s a) (h : step s a = some s') : InvS s' := by
  cases a with
  | acq th i =>
    simp only [step] at h
    split at h
    · split at h
      · cases h
        refine ⟨hi.names, hi.insts, hi.fresh, ?_⟩
        intro ci t hp ht
        obtain ⟨sp, h1, h2⟩ := hi.listed ci t hp ht
        refine ⟨sp, h1, ?_⟩
        have hd : (s.cl ci).dangling = false := by
          have h3 := (hl.pid_reg ci hp).2
          have h4 := hl.dang_dead ci
          cases hq : (s.cl ci).dangling with
          | false => rfl
          | true => rw [h4 hq] at h3; cases h3
        have hs := (hl.tok_slot ci t hd).mp ht
        have hne : t ≠ s.next := by
          rintro rfl
          rw [(hl.fresh s.next).mpr (Nat.le_refl _)] at hs; cases hs
        show sp.name = (set s.info s.next i t).name
        rw [set_apply, if_neg hne]; exact h2
      · cases h
    · cases h
  | final th ok =>
    simp only [step] at h
    split at h
    · rename_i T hT
      split at h
      · split at h
        · split at h
          · rename_i hc
            cases h
            refine ⟨hi.names, hi.insts, hi.fresh, ?_⟩
            intro ci t hp ht
            dsimp only at hp ht ⊢
            rw [set_apply] at hp ht
            split at ht
            · rename_i hci
              subst hci
              rw [if_pos rfl] at hp
              rcases List.mem_append.mp ht with ht | ht
              · exact hi.listed _ t hp ht
              · have := List.all_eq_true.mp hc.2.2 t ht
                unfold checkTok at this
                split at this
                · cases this
                · rename_i sp hf
                  exact ⟨sp, find_name hf⟩
            · rename_i hci
              rw [if_neg hci] at hp
              exact hi.listed _ t hp ht
          · cases h
            exact invS_shrink hi rfl rfl rfl (by intro ci t; dsimp only; grind)
        · split at h
          · cases h
            exact invS_shrink hi rfl rfl rfl (by intro ci t; dsimp only; grind)
          · cases h
      · cases h
    · cases h
  | addSpace name hostId =>
    simp only [step] at h
    split at h
    · rename_i hn
      cases h
      have hn' : ∀ sp ∈ s.spaces, sp.name ≠ name := by
        intro sp hsp he
        rw [Option.isNone_iff_eq_none] at hn
        unfold findSpace at hn
        rw [List.find?_eq_none] at hn
        exact hn sp hsp (by simpa using he)
      refine ⟨List.pairwise_cons.mpr ⟨fun b hb => Ne.symm (hn' b hb), hi.names⟩,
        List.pairwise_cons.mpr ⟨fun b hb => Nat.ne_of_gt (hi.fresh b hb), hi.insts⟩, ?_, ?_⟩
      · intro sp hsp
        rcases List.mem_cons.mp hsp with rfl | hsp
        · exact Nat.lt_succ_self _
        · exact Nat.lt_succ_of_lt (hi.fresh sp hsp)
      · intro ci t hp ht
        obtain ⟨sp, h1, h2⟩ := hi.listed ci t hp ht
        exact ⟨sp, List.mem_cons_of_mem _ h1, h2⟩
    · cases h
  | setGen i g =>
    simp only [step] at h; cases h
    exact map_key (f := fun sp => if sp.inst = i then { sp with gen := g } else sp) (by intro sp; split <;> exact ⟨rfl, rfl⟩) hi rfl
  | killSpace i =>
    simp only [step] at h; cases h
    exact map_key (f := fun sp => if sp.inst = i then { sp with killing := true } else sp) (by intro sp; split <;> exact ⟨rfl, rfl⟩) hi rfl
  | remSpace n i =>
    simp only [step] at h
    split at h
    · rename_i sp hf
      split at h
      · rename_i hc
        cases h
        refine ⟨hi.names.filter _, hi.insts.filter _, fun sp hsp => hi.fresh sp ((List.mem_filter.mp hsp).1), ?_⟩
        intro ci t hp ht
        obtain ⟨sp', h1, h2⟩ := hi.listed ci t hp ht
        refine ⟨sp', List.mem_filter.mpr ⟨h1, ?_⟩, h2⟩
        refine Classical.byContradiction fun hq => ?_
        have hq' : sp'.inst = i := by simpa using hq
        have hsp : sp.inst = i := by simpa using List.find?_some hf
        have : sp' = sp := Util.pairwise_inj hi.insts h1 (List.mem_of_find?_eq_some hf) (hq'.trans hsp.symm)
        subst this
        have hall := hc.2
        have hu : (s.cl ci).used = true := by
          cases hu : (s.cl ci).used with
          | true => rfl
          | false =>
            have hp' : (s.cl ci).pid.isSome = true := hp
            rw [hl.unused ci hu] at hp'; cases hp'
        have hci : ci < n := by
          refine Classical.byContradiction fun hge => ?_
          rw [ha ci (by omega)] at hu; cases hu
        have := List.all_eq_true.mp hall ci (List.mem_range.mpr hci)
        have hus : usingSpace s (s.cl ci) sp'.name = true := List.any_eq_true.mpr ⟨t, ht, by simpa using h2.symm⟩
        have hp' : (s.cl ci).pid.isSome = true := hp
        rw [hu, hp', hus] at this
        cases this
      · cases h
    · cases h
  | _ =>
    simp only [step] at h
    (repeat' split at h) <;> first
      | cases h; done
      | (cases h; first | exact hi | exact invS_shrink hi rfl rfl rfl (by intro ci t; dsimp only; grind [List.mem_of_mem_erase]))

theorem invS_reach {s : State} (h : Reach s) : InvS s := by
  induction h with
  | init => exact ⟨.nil, .nil, fun _ h => (by cases h), fun _ _ h => (by cases h)⟩
  | step hr ha hs ih =>
    obtain ⟨loc, hl⟩ := inv_reach hr
    exact invS_step hl ih ha hs

/-- Every lease of a live registered process is in a lockspace that is listed, so it is watched. -/
theorem live_leases_listed {s : State} (h : Reach s) {ci : Nat} {t : Tok} (hp : (s.cl ci).pid.isSome = true)
    (ht : t ∈ (s.cl ci).tokens) : ∃ sp ∈ s.spaces, sp.name = (s.info t).name :=
  (invS_reach h).listed ci t hp ht

/-- A lockspace leaves the list only when it has failed and no live registered process has a lease in it. -/
theorem removal_safe {s s' : State} (h : Reach s) {n inst : Nat} (ha : Allowed s (.remSpace n inst))
    (hs : step s (.remSpace n inst) = some s') : ∃ sp ∈ s.spaces, sp.inst = inst ∧ sp.killing = true ∧
      (∀ sp' ∈ s'.spaces, sp'.name ≠ sp.name) ∧
      ∀ ci t, (s'.cl ci).pid.isSome = true → t ∈ (s'.cl ci).tokens → (s'.info t).name ≠ sp.name := by
  have hr' := Reach.step h ha hs
  have hi := invS_reach h
  simp only [step] at hs
  split at hs
  · rename_i sp hf
    have hmem := List.mem_of_find?_eq_some hf
    have hinst : sp.inst = inst := by simpa using List.find?_some hf
    split at hs
    · rename_i hc
      cases hs
      have hnn : ∀ sp' ∈ s.spaces.filter (·.inst != inst), sp'.name ≠ sp.name := by
        intro sp' hsp' he
        rw [List.mem_filter] at hsp'
        have := Util.pairwise_inj hi.names hsp'.1 hmem he
        subst this
        simp [hinst] at hsp'
      refine ⟨sp, hmem, hinst, hc.1, hnn, ?_⟩
      intro ci t hp ht he
      obtain ⟨sp', h1, h2⟩ := live_leases_listed hr' hp ht
      exact hnn sp' h1 (h2.trans he)
    · cases hs
  · cases hs

/-- Whatever a step makes of the leases of a process, a new one is in a listed lockspace that has not failed. -/
theorem grant_active_partial {s s' : State} {a : Act} (hs : step s a = some s') {ci : Nat} {t : Tok}
    (h0 : t ∉ (s.cl ci).tokens) (h1 : t ∈ (s'.cl ci).tokens) :
    ∃ sp ∈ s.spaces, sp.name = (s.info t).name ∧ sp.killing = false ∧ sp.hostId = (s.info t).hostId := by
  cases a with
  | final th ok =>
    simp only [step] at hs
    split at hs
    · rename_i T hT
      split at hs
      · split at hs
        · split at hs
          · rename_i hc
            cases hs
            dsimp only at h1
            rw [set_apply] at h1
            split at h1
            · rename_i hci
              subst hci
              rcases List.mem_append.mp h1 with h1 | h1
              · exact absurd h1 h0
              · have := List.all_eq_true.mp hc.2.2 t h1
                unfold checkTok at this
                split at this
                · cases this
                · rename_i sp hf
                  simp only [Bool.and_eq_true, Bool.not_eq_true', beq_iff_eq] at this
                  exact ⟨sp, (find_name hf).1, (find_name hf).2, this.1, this.2⟩
            · exact absurd h1 h0
          · cases hs; exfalso; dsimp only at h1; grind
        · split at hs
          · cases hs; exfalso; dsimp only at h1; grind
          · cases hs
      · cases hs
    · cases hs
  | _ =>
    exfalso
    simp only [step] at hs
    (repeat' split at hs) <;> first
      | cases hs; done
      | (cases hs; first | exact h0 h1 | (dsimp only at h1; grind [List.mem_of_mem_erase]))

/-- A state in which a lockspace is removed although a process is registered. -/
example : ∃ s s', Reach s ∧ Allowed s (.remSpace 1 0) ∧ step s (.remSpace 1 0) = some s' := by
  refine ⟨_, _, reach_runA (as := [.addSpace 7 1, .setGen 0 5, .connect 0, .register 0 100, .killSpace 0]) Reach.init rfl, ?_, rfl⟩
  intro ci h
  have : ci ≠ 0 := by omega
  simp [set_apply, this, init, Cl.empty]

/-! ## C32 -/

/-- Lease 0 was granted although its generation is not that of the lockspace it is in. -/
def staleB (s : State) : Bool :=
  (s.cl 0).pid.isSome && (s.cl 0).tokens == [0] &&
    s.spaces.any fun sp => sp.name == (s.info 0).name && !sp.killing && sp.gen != (s.info 0).gen

set_option maxRecDepth 100000 in
/-- An acquire that began before the lockspace was removed and added again is reported as successful, with the generation
of the membership that is gone. -/
theorem regrant_after_rejoin_violated :
    ((run init [.addSpace 7 1, .setGen 0 5, .connect 0, .register 0 100, .start 0 0 .acquire, .lookup 0 7, .acq 0 ⟨7, 1, 5, 0⟩,
      .killSpace 0, .remSpace 1 0, .addSpace 7 1, .setGen 1 6, .final 0 true]).any staleB) = true := by decide +kernel

set_option maxRecDepth 100000 in
/-- A lockspace is usable before its generation is stored: a lease is taken with generation 0. -/
theorem generation_zero_violated :
    ((run init [.addSpace 7 1, .connect 0, .register 0 100, .start 0 0 .acquire, .lookup 0 7, .acq 0 ⟨7, 1, 0, 0⟩,
      .setGen 0 5, .final 0 true]).any staleB) = true := by decide +kernel

/-! ## C45 -/

/-- What became of the leases a command acquired. -/
structure InvA (s : State) : Prop where
  thr_lt : ∀ th T, s.thr th = some T → th < s.nthr
  by_lt : ∀ t, t < s.next → s.by' t < s.nthr
  gran : ∀ th T, s.thr th = some T → T.phase = .run → s.granted th = false
  gran_lt : ∀ th, s.nthr ≤ th → s.granted th = false
  empty : ∀ th T, s.thr th = some T → T.phase = .reply ∨ T.phase = .freeing → T.held = []
  conv : ∀ th T, s.thr th = some T → T.phase = .run → T.kind = .convert → T.held = []
  mine : ∀ th T, s.thr th = some T → T.kind = .acquire → ∀ t, t ∈ T.held → t < s.next ∧ s.by' t = th
  runAll : ∀ th T, s.thr th = some T → T.phase = .run → ∀ t, t < s.next → s.by' t = th → T.kind = .acquire ∧ t ∈ T.held
  gone : ∀ t, t < s.next → s.granted (s.by' t) = false → 1 ≤ s.rel t ∨ t ∈ heldOf (s.thr (s.by' t))

attribute [local grind] heldOf

macro "finA" : tactic => `(tactic| (constructor <;> (try dsimp only) <;> grind (splits := 12)))

set_option maxHeartbeats 2000000 in
theorem invA_step {s s' : State} {a : Act} (hi : InvA s) (ha : Allowed s a) (h : step s a = some s') : InvA s' := by
  have hn : s.thr s.nthr = none := by
    cases h : s.thr s.nthr with
    | none => rfl
    | some T => exact absurd (hi.thr_lt _ _ h) (Nat.lt_irrefl _)
  have he : ∀ (l : List Tok) (x t : Tok), x ∈ l → x ≠ t → x ∈ l.erase t := fun l x t h1 h2 => (List.mem_erase_of_ne h2).mpr h1
  have he' : ∀ (l : List Tok) (x t : Tok), x ∈ l.erase t → x ∈ l := fun l x t => List.mem_of_mem_erase
  obtain ⟨h1, h2, h3, h4, h5, h6, h7, h8, h9⟩ := hi
  cases a with
  | _ =>
    simp only [step] at h
    (repeat' split at h) <;> first
      | cases h; done
      | (cases h; first | exact ⟨h1, h2, h3, h4, h5, h6, h7, h8, h9⟩ | finA)

theorem invA_reach {s : State} (h : Reach s) : InvA s := by
  induction h with
  | init => constructor <;> simp [init]
  | step _ ha hs ih => exact invA_step ih ha hs

/-- When an acquire that was not granted is finished, every lease it got was released, exactly once. -/
theorem failed_acquire_releases {s : State} (h : Reach s) {th : Nat} (hg : s.granted th = false)
    (hf : s.thr th = none ∨ ∃ T, s.thr th = some T ∧ T.phase = .reply) {t : Tok} (ht : t < s.next) (hb : s.by' t = th) : s.rel t = 1 := by
  have hi := invA_reach h
  have h1 := released_once h t
  have h2 := hi.gone t ht (by rw [hb]; exact hg)
  rw [hb] at h2
  rcases h2 with h2 | h2
  · omega
  · rcases hf with hf | ⟨T, hf, hp⟩
    · rw [hf] at h2; cases h2
    · rw [hf] at h2
      have h2 : t ∈ T.held := h2
      rw [hi.empty th T hf (Or.inl hp)] at h2; cases h2

/-- An acquire that is granted adds exactly the leases it got, all of them, to those of the process. -/
theorem granted_acquire_adds_all {s s' : State} (h : Reach s) {th : Nat} {ok : Bool} (hs : step s (.final th ok) = some s')
    (hg : s'.granted th = true) : ok = true ∧ ∃ T new, s.thr th = some T ∧ (s'.cl T.ct).tokens = (s.cl T.ct).tokens ++ new ∧
      (s'.cl T.ct).pid.isSome = true ∧ (∀ t, t ∈ new ↔ t < s.next ∧ s.by' t = th) ∧ ∀ t ∈ new, s'.rel t = 0 := by
  have hi := invA_reach h
  obtain ⟨loc, hl⟩ := inv_reach h
  simp only [step] at hs
  split at hs
  · rename_i T hT
    split at hs
    · rename_i hph
      have hng := hi.gran th T hT hph
      split at hs
      · rename_i hk
        split at hs
        · rename_i hc
          cases hs
          refine ⟨hc.1, T, T.held, hT, by simp [set_apply], ?_, ?_, ?_⟩
          · have hco := hl.claim_ok th T hT (Or.inl hph)
            simp only [set_apply, if_pos]
            cases hq : (s.cl T.ct).pid.isSome with
            | true => rfl
            | false => have := hl.dead _ hco.2.1 hq; rw [hc.2.1] at this; cases this
          · intro t
            exact ⟨fun ht => hi.mine th T hT hk t ht, fun ht => (hi.runAll th T hT hph t ht.1 ht.2).2⟩
          · intro t ht
            have : loc t = .thr th := (hl.tok_thr th t).mpr (by rw [hT]; exact ht)
            have h2 := hl.rel t
            rw [this] at h2; exact h2
        · cases hs; rw [show s.granted th = false from hng] at hg; cases hg
      · split at hs
        · cases hs; rw [show s.granted th = false from hng] at hg; cases hg
        · cases hs
    · cases hs
  · cases hs

/-- The leases of a live process change only by a granted acquire, which appends, and by a release command for it. -/
theorem leases_change {s s' : State} {a : Act} (h : Reach s) (hs : step s a = some s') (ha : Allowed s a) {ci : Nat} (hp : (s.cl ci).pid.isSome = true)
    (hc : (s'.cl ci).tokens ≠ (s.cl ci).tokens) :
    (∃ th T, a = .final th true ∧ s.thr th = some T ∧ T.kind = .acquire ∧ T.ct = ci ∧ s'.granted th = true) ∨
    (∃ th T t, a = .take th t ∧ s.thr th = some T ∧ T.kind = .release ∧ T.ct = ci) := by
  obtain ⟨loc, hl⟩ := inv_reach h
  have hr := (hl.pid_reg ci hp).1
  have huse : (s.cl ci).used = true := by
    cases hu : (s.cl ci).used with
    | true => rfl
    | false => rw [hl.unused ci hu] at hp; cases hp
  clear hl
  have hu : ∀ c : Cl, c.pid.isSome = true → (freeCl c).tokens = c.tokens := by grind
  cases a with
  | register c p =>
    exfalso
    simp only [step] at hs
    split at hs
    · have ha' : (s.cl c).reg = false := ha
      cases hs
      refine hc ?_
      dsimp only
      rw [set_apply]
      split
      · rename_i h; subst h; rw [ha'] at hr; cases hr
      · rfl
    · cases hs
  | final th ok =>
    simp only [step] at hs
    split at hs
    · rename_i T hT
      split at hs
      · split at hs
        · rename_i hk
          split at hs
          · rename_i hok
            cases hs
            refine Or.inl ⟨th, T, by rw [hok.1], hT, hk, ?_, by simp [set_apply]⟩
            refine Classical.byContradiction fun hne => hc ?_
            dsimp only
            rw [set_apply, if_neg (Ne.symm hne)]
          · exfalso; cases hs; refine hc ?_; dsimp only; grind
        · split at hs
          · exfalso; cases hs; refine hc ?_; dsimp only; grind
          · cases hs
      · cases hs
    · cases hs
  | take th t =>
    simp only [step] at hs
    split at hs
    · rename_i T hT
      split at hs
      · rename_i hk
        cases hs
        refine Or.inr ⟨th, T, t, rfl, hT, hk.1, ?_⟩
        refine Classical.byContradiction fun hne => hc ?_
        dsimp only
        rw [set_apply, if_neg (Ne.symm hne)]
      · cases hs
    · cases hs
  | dead2 =>
    exfalso
    simp only [step] at hs
    split at hs
    · cases hs
      refine hc ?_
      dsimp only
      rw [set_apply]
      split
      · rename_i h; subst h; exact hu _ hp
      · rfl
    · cases hs
  | _ =>
    exfalso
    simp only [step] at hs
    (repeat' split at hs) <;> first
      | cases hs; done
      | (cases hs; first | exact hc rfl | (refine hc ?_; dsimp only; grind))

set_option maxRecDepth 100000 in
/-- A live process whose second acquire of two resources fails after the first one keeps the lease it had. -/
example : ((runA init (getLease ++ [.start 0 0 .acquire, .lookup 1 7, .acq 1 ⟨7, 1, 5, 0⟩, .final 1 false, .relTok 1 1, .relCl 1, .reply 1])).any
    fun s => (s.cl 0).tokens == [0] && s.rel 0 == 0 && s.rel 1 == 1 && s.granted 0 && !s.granted 1 && s.by' 1 == 1) = true := by decide +kernel

end Sanlock.Client
