import Verif.Wdmd

/-!
# Properties of the watchdog daemon: C16, C17
-/

namespace Sanlock.Wdmd

/-! ## Case analysis of one step -/

theorem run_nil (s : St) : run s [] = s := rfl
theorem run_cons (s : St) (e : Ev) (es : List Ev) : run s (e :: es) = run (step s e) es := rfl

/-- Fields other than the client list are not changed by client messages. -/
theorem onClient_dev (s : St) (ci : Nat) (f : Client → Client) :
    (onClient s ci f).dev = s.dev ∧ (onClient s ci f).devOpen = s.devOpen ∧
    (onClient s ci f).enabled = s.enabled ∧ (onClient s ci f).log = s.log ∧
    (onClient s ci f).exited = s.exited ∧ (onClient s ci f).stdInterval = s.stdInterval ∧
    (onClient s ci f).now = s.now ∧ (onClient s ci f).quit = s.quit ∧
    (onClient s ci f).resetting = s.resetting := by
  simp [onClient]

theorem mem_modify {α : Type} {l : List α} {i : Nat} {f : α → α} {x : α} (h : x ∈ l.modify i f) :
    x ∈ l ∨ ∃ y ∈ l, x = f y := by
  rw [List.mem_iff_getElem?] at h
  obtain ⟨j, hj⟩ := h
  rw [List.getElem?_modify] at hj
  cases hl : l[j]? with
  | none => simp [hl] at hj
  | some y =>
    have hy : y ∈ l := List.mem_of_getElem? hl
    simp only [hl, Option.map_eq_map, Option.map_some, Option.some.injEq] at hj
    split at hj
    · exact Or.inr ⟨y, hy, hj.symm⟩
    · exact Or.inl (hj ▸ hy)

/-! ## C16 -/

/-- A client holds a reference. -/
def Referenced (s : St) : Prop := ∃ c ∈ s.clients, c.used = true ∧ c.refcount = true

theorem active_iff (s : St) : active s.clients = true ↔ Referenced s := by
  simp [active, Referenced, List.any_eq_true]

theorem closeWatchdog_fields (s : St) :
    (closeWatchdog s).clients = s.clients ∧ (closeWatchdog s).enabled = s.enabled ∧
    (closeWatchdog s).exited = s.exited ∧ (closeWatchdog s).now = s.now ∧
    (closeWatchdog s).stdInterval = s.stdInterval ∧ (closeWatchdog s).devOpen = false ∧
    (s.devOpen = false → closeWatchdog s = s) ∧ (closeWatchdog s).dev.lastPing = s.dev.lastPing := by
  unfold closeWatchdog
  cases h : s.devOpen <;> simp [St.emit, Dev.op, h]

theorem closeWatchdogUnclean_fields (s : St) :
    (closeWatchdogUnclean s).clients = s.clients ∧ (closeWatchdogUnclean s).enabled = s.enabled ∧
    (closeWatchdogUnclean s).exited = s.exited ∧ (closeWatchdogUnclean s).now = s.now ∧
    (closeWatchdogUnclean s).stdInterval = s.stdInterval ∧ (closeWatchdogUnclean s).devOpen = false ∧
    (closeWatchdogUnclean s).dev.armed = s.dev.armed ∧
    (s.devOpen = false → closeWatchdogUnclean s = s) := by
  unfold closeWatchdogUnclean
  cases h : s.devOpen <;> simp [St.emit, Dev.op, h]

theorem closeUnclean_closed (s : St) (h : s.devOpen = false) : closeWatchdogUnclean s = s := by
  simp [closeWatchdogUnclean, h]

theorem petWatchdog_fields (s : St) :
    (petWatchdog s).clients = s.clients ∧ (petWatchdog s).enabled = s.enabled ∧
    (petWatchdog s).exited = s.exited ∧ (petWatchdog s).now = s.now ∧
    (petWatchdog s).stdInterval = s.stdInterval ∧ (petWatchdog s).devOpen = s.devOpen ∧
    (petWatchdog s).dev.armed = s.dev.armed := by
  unfold petWatchdog
  cases h : s.devOpen <;> simp [St.emit, Dev.op, h]

theorem openDev_fields (s : St) (ok : Bool) :
    (openDev s ok).1.clients = s.clients ∧ (openDev s ok).1.enabled = s.enabled ∧
    (openDev s ok).1.exited = s.exited ∧ (openDev s ok).1.now = s.now ∧
    (openDev s ok).1.stdInterval = s.stdInterval ∧
    (s.dev.armed = true → (openDev s ok).1.dev.armed = true) := by
  unfold openDev
  cases h : s.devOpen <;> cases ok <;> simp [St.emit, Dev.op]

theorem runTests_fields (s : St) (n f : Nat) (ok : Bool) :
    (runTests s n f ok).clients = s.clients ∧ (runTests s n f ok).enabled = s.enabled ∧
    (runTests s n f ok).exited = s.exited ∧ (runTests s n f ok).stdInterval = s.stdInterval ∧
    (s.dev.armed = true → (runTests s n f ok).dev.armed = true) := by
  unfold runTests
  simp only
  split
  · split
    · simp [petWatchdog_fields]
    · simp only [petWatchdog_fields, openDev_fields, true_and]
      intro h
      exact (openDev_fields _ _).2.2.2.2.2 h
  · simp only [closeWatchdogUnclean_fields, true_and]
    exact fun h => h

/-- **C16.** The daemon leaves its loop, and from then on exits, only when no client holds a reference. -/
theorem exit_only_unreferenced (s : St) (e : Ev) (h0 : s.exited = false)
    (h : (step s e).exited = true) : ¬ Referenced (step s e) := by
  rw [← active_iff]
  cases e with
  | round n f ok =>
    simp only [step, h0, Bool.false_eq_true, if_false] at h ⊢
    unfold round at h ⊢
    split at h
    · rename_i hc
      rw [if_pos hc]
      simp only [closeWatchdog_fields]
      simp only [Bool.and_eq_true, Bool.not_eq_true'] at hc
      simp [hc.2]
    · split at h
      · rw [h0] at h; simp at h
      · split at h
        · simp only [closeWatchdog_fields] at h
          rw [h0] at h; simp at h
        · split at h
          · rw [(runTests_fields _ _ _ _).2.2.1, h0] at h; simp at h
          · rw [h0] at h; simp at h
  | openWatchdog ci fire o a =>
    exfalso
    simp only [step, h0, Bool.false_eq_true, if_false] at h
    split at h
    · unfold openWatchdog at h
      split at h
      · rw [h0] at h; simp at h
      · split at h
        · rw [h0] at h; simp at h
        · simp only at h
          split at h
          · rw [h0] at h; simp at h
          · split at h
            · simp only [petWatchdog_fields, openDev_fields] at h
              rw [h0] at h; simp at h
            · simp only [closeWatchdog_fields, openDev_fields] at h
              rw [h0] at h; simp at h
    · rw [h0] at h; simp at h
  | wait d => simp [step, h0] at h
  | connect => simp [step, h0] at h
  | sigterm => simp [step, h0] at h
  | refSet ci => simp [step, h0, onClient] at h
  | refClear ci => simp [step, h0, onClient] at h
  | testLive ci x => simp [step, h0, onClient] at h
  | hup ci => simp [step, h0, onClient] at h

/-- No reopening of the device has failed. -/
def NoReopenFailure : Ev → Prop
  | .round _ _ ok => ok = true
  | _ => True

/-- While the daemon runs and no reopening failed: the device is armed only while the test loop is
enabled; it is open exactly when enabled and the last test did not fail. -/
structure Inv (s : St) : Prop where
  armed : s.exited = false → s.dev.armed = true → s.enabled = true
  dis : s.exited = false → s.enabled = false → s.devOpen = false
  opn : s.exited = false → s.enabled = true → s.resetting = false → s.devOpen = true

theorem inv_init (now : Nat) : Inv (init now) := by
  constructor <;> simp [init]

theorem inv_step (s : St) (e : Ev) (hi : Inv s) (he : NoReopenFailure e) : Inv (step s e) := by
  have hoc : ∀ ci f, Inv (onClient s ci f) := fun ci f => ⟨hi.armed, hi.dis, hi.opn⟩
  cases hx : s.exited with
  | true =>
    have : (step s e).exited = true := by cases e <;> simp [step, hx]
    constructor <;> intro h <;> rw [this] at h <;> simp at h
  | false =>
    have hi1 := hi.armed hx
    have hi2 := hi.dis hx
    have hi3 := hi.opn hx
    cases e with
    | wait d => exact ⟨hi.armed, hi.dis, hi.opn⟩
    | connect => simp only [step, hx, Bool.false_eq_true, if_false]; exact ⟨fun _ => hi1, fun _ => hi2, fun _ => hi3⟩
    | sigterm => simp only [step, hx, Bool.false_eq_true, if_false]; exact ⟨fun _ => hi1, fun _ => hi2, fun _ => hi3⟩
    | refSet ci => simp only [step, hx, Bool.false_eq_true, if_false]; exact hoc _ _
    | refClear ci => simp only [step, hx, Bool.false_eq_true, if_false]; exact hoc _ _
    | testLive ci x => simp only [step, hx, Bool.false_eq_true, if_false]; exact hoc _ _
    | hup ci => simp only [step, hx, Bool.false_eq_true, if_false]; exact hoc _ _
    | openWatchdog ci fire o a =>
      simp only [step, hx, Bool.false_eq_true, if_false]
      split
      · unfold openWatchdog
        split
        · exact hi
        · rename_i hen
          have hen' : s.enabled = false := by simpa using hen
          have hd := hi2 hen'
          split
          · exact hi
          · cases o
            · simp [openDev, hd]; exact hi
            · simp only [openDev, hd, Bool.false_eq_true, if_false, if_true, Bool.true_eq_false]
              split
              · constructor <;> simp [petWatchdog, St.emit]
              · constructor <;> simp [closeWatchdog, St.emit, Dev.op, hen']
      · exact hi
    | round n f ok =>
      simp only [NoReopenFailure] at he
      subst he
      simp only [step, hx, Bool.false_eq_true, if_false]
      unfold round
      split
      · constructor <;> intro h <;> simp at h
      · split
        · exact hi
        · rename_i hen
          have hen' : s.enabled = true := by simpa using hen
          split
          · rename_i hc
            simp only [Bool.and_eq_true, Bool.not_eq_true'] at hc
            have hd := hi3 hen' hc.2
            constructor
            · simp [closeWatchdog, hd, St.emit, Dev.op]
            · intro _ _; simp [closeWatchdog_fields]
            · simp
          · split
            · constructor
              · intro _ _; rw [(runTests_fields _ _ _ _).2.1]; exact hen'
              · intro _ h; rw [(runTests_fields _ _ _ _).2.1, hen'] at h; simp at h
              · intro _ _
                unfold runTests
                simp only
                split
                · intro _
                  cases hd : s.devOpen <;> simp [petWatchdog, openDev, St.emit, hd]
                · simp
            · exact hi

theorem inv_run (es : List Ev) : ∀ (s : St), Inv s → (∀ e ∈ es, NoReopenFailure e) → Inv (run s es) := by
  induction es with
  | nil => intro s h _; exact h
  | cons e es ih =>
    intro s h hes
    rw [run_cons]
    exact ih _ (inv_step s e h (hes e List.mem_cons_self)) fun x hx => hes x (List.mem_cons_of_mem _ hx)

/-- **C16.** In every execution of the daemon, whatever clients connect, die, take and drop references
and set expiry times in whatever order: the watchdog device goes from armed to disarmed only in a moment
when no client holds a reference.  (The device is assumed openable when the daemon reopens it; see
`disarm_after_reopen_failure`.) -/
theorem disarm_only_unreferenced (now : Nat) (es : List Ev) (hes : ∀ e ∈ es, NoReopenFailure e) (e : Ev)
    (h1 : (run (init now) es).dev.armed = true)
    (h2 : (step (run (init now) es) e).dev.armed = false) :
    ¬ Referenced (step (run (init now) es) e) := by
  have hi := inv_run es _ (inv_init now) hes
  generalize run (init now) es = s at *
  rw [← active_iff]
  cases hx : s.exited with
  | true =>
    exfalso
    have : (step s e).dev = s.dev := by cases e <;> simp [step, hx]
    rw [this, h1] at h2; simp at h2
  | false =>
    have hen := hi.armed hx h1
    cases e with
    | round n f ok =>
      simp only [step, hx, Bool.false_eq_true, if_false] at h2 ⊢
      unfold round at h2 ⊢
      split at h2
      · rename_i hc
        rw [if_pos hc]
        simp only [closeWatchdog_fields]
        simp only [Bool.and_eq_true, Bool.not_eq_true'] at hc
        simp [hc.2]
      · rename_i hc1
        rw [if_neg hc1]
        split at h2
        · rw [h1] at h2; simp at h2
        · rename_i hc2
          rw [if_neg hc2]
          split at h2
          · rename_i hc
            rw [if_pos hc]
            simp only [closeWatchdog_fields]
            simp only [Bool.and_eq_true, Bool.not_eq_true'] at hc
            simp [hc.1.1]
          · split at h2
            · rw [(runTests_fields _ _ _ _).2.2.2.2 h1] at h2; simp at h2
            · rw [h1] at h2; simp at h2
    | openWatchdog ci fire o a =>
      exfalso
      simp only [step, hx, Bool.false_eq_true, if_false, openWatchdog, hen, if_true, ite_self] at h2
      rw [h1] at h2; simp at h2
    | wait d => simp [step, h1] at h2
    | connect => simp [step, hx, h1] at h2
    | sigterm => simp [step, hx, h1] at h2
    | refSet ci => simp [step, hx, onClient, h1] at h2
    | refClear ci => simp [step, hx, onClient, h1] at h2
    | testLive ci x => simp [step, hx, onClient, h1] at h2
    | hup ci => simp [step, hx, onClient, h1] at h2

/-- Without the assumption on reopening: a failed reopening can leave the device armed while the daemon
believes it is closed, and the next client whose timeout is refused disarms it although another client
holds a reference. -/
theorem disarm_after_reopen_failure :
    ∃ es e, (run (init 100) es).dev.armed = true ∧ (step (run (init 100) es) e).dev.armed = false ∧
      Referenced (step (run (init 100) es) e) := by
  refine ⟨[.connect, .openWatchdog 2 60 true true, .testLive 2 105, .wait 10, .round 0 0 true,
    .testLive 2 0, .hup 2, .wait 1, .round 0 0 false, .wait 10, .round 0 0 false, .connect, .refSet 2, .connect],
    .openWatchdog 3 60 true false, by decide, by decide, ?_⟩
  exact ⟨{ Client.empty with used := true, isOpen := true, refcount := true }, by decide, rfl, rfl⟩

/-! A client that dies while it has an expiry time. -/

/-- Entry `ci` belongs to a dead client that had an expiry time. -/
def DeadAt (s : St) (ci : Nat) (c : Client) : Prop :=
  s.clients[ci]? = some c ∧ c.used = true ∧ c.isOpen = false ∧ c.expire ≠ 0

/-- **C16.** When a client with an expiry time dies its entry, expiry time and reference are kept. -/
theorem dead_client_kept (s : St) (ci : Nat) (c : Client) (hx : s.exited = false)
    (h : s.clients[ci]? = some c) (hu : c.used = true) (ho : c.isOpen = true) (he : c.expire ≠ 0) :
    ∃ c', DeadAt (step s (.hup ci)) ci c' ∧ c'.expire = c.expire ∧ c'.refcount = c.refcount := by
  refine ⟨{ c with pidDead := true, isOpen := false }, ⟨?_, hu, rfl, he⟩, rfl, rfl⟩
  simp [step, hx, onClient, List.getElem?_modify, h, ho, clientPidDead, he]

theorem clientAdd_keeps (cs : List Client) (ci : Nat) (c : Client) (h : cs[ci]? = some c)
    (hu : c.used = true) : (clientAdd cs)[ci]? = some c := by
  induction cs generalizing ci with
  | nil => simp at h
  | cons d cs ih =>
    unfold clientAdd
    cases ci with
    | zero =>
      simp only [List.getElem?_cons_zero, Option.some.injEq] at h
      subst h
      simp [hu]
    | succ ci =>
      simp only [List.getElem?_cons_succ] at h
      split
      · simpa using ih ci h
      · simpa using h

theorem round_clients (s : St) (n f : Nat) (ok : Bool) : (round s n f ok).clients = s.clients := by
  unfold round
  split
  · simp [closeWatchdog_fields]
  · split
    · rfl
    · split
      · simp [closeWatchdog_fields]
      · split
        · exact (runTests_fields _ _ _ _).1
        · rfl

theorem openWatchdog_clients (s : St) (f : Nat) (o a : Bool) : (openWatchdog s f o a).clients = s.clients := by
  unfold openWatchdog
  split
  · rfl
  · split
    · rfl
    · simp only
      split
      · rfl
      · split
        · simp [petWatchdog_fields, openDev_fields]
        · simp [closeWatchdog_fields, openDev_fields]

/-- **C16.** The entry of a dead client with an expiry time is never changed or freed again. -/
theorem dead_entry_forever (s : St) (ci : Nat) (c : Client) (h : DeadAt s ci c) (es : List Ev) :
    DeadAt (run s es) ci c := by
  induction es generalizing s with
  | nil => exact h
  | cons e es ih =>
    rw [run_cons]
    apply ih
    obtain ⟨h1, h2, h3, h4⟩ := h
    refine ⟨?_, h2, h3, h4⟩
    have hoc : ∀ ci' f, (onClient s ci' f).clients[ci]? = some c := by
      intro ci' f
      simp only [onClient, List.getElem?_modify, h1, Option.map_eq_map, Option.map_some, h3]
      simp
    cases hx : s.exited with
    | true => cases e <;> simpa [step, hx] using h1
    | false =>
      cases e <;> simp only [step, hx, Bool.false_eq_true, if_false]
      case wait => exact h1
      case connect => exact clientAdd_keeps _ _ _ h1 h2
      case sigterm => exact h1
      case round => rw [round_clients]; exact h1
      case openWatchdog =>
        split
        · rw [openWatchdog_clients]; exact h1
        · exact h1
      all_goals exact hoc _ _

theorem sub_toNat {e : UInt64} {n : Nat} (h : n ≤ e.toNat) : (e - UInt64.ofNat n).toNat = e.toNat - n := by
  have hlt := e.toNat_lt
  have hn : (UInt64.ofNat n).toNat = n := by
    rw [UInt64.toNat_ofNat']; exact Nat.mod_eq_of_lt (by omega)
  rw [UInt64.toNat_sub_of_le, hn]
  rw [UInt64.le_iff_toNat_le, hn]; exact h

/-- The state after the test that noticed the coming expiry of a dead client: device closed uncleanly,
entry kept. -/
structure Doomed (s : St) (ci : Nat) (c : Client) : Prop where
  dead : DeadAt s ci c
  ref : c.refcount = true
  big : s.stdInterval ≤ c.expire.toNat
  due : c.expire.toNat ≤ s.now + s.stdInterval
  en : s.enabled = true
  closed : s.devOpen = false

theorem doomed_active {s : St} {ci : Nat} {c : Client} (h : DeadAt s ci c) (hr : c.refcount = true) :
    active s.clients = true :=
  (active_iff s).mpr ⟨c, List.mem_of_getElem? h.1, h.2.1, hr⟩

theorem clientFails_due {std now : Nat} {c : Client} (hu : c.used = true) (he : c.expire ≠ 0)
    (hb : std ≤ c.expire.toNat) (hd : c.expire.toNat ≤ now + std) : clientFails std now c = true := by
  unfold clientFails
  have : c.expire.toNat - std ≤ now := by omega
  simp [hu, he, sub_toNat hb, this]

theorem testClients_pos {std now : Nat} {cs : List Client} {c : Client} (hm : c ∈ cs)
    (h : clientFails std now c = true) : testClients std now cs ≠ 0 := by
  unfold testClients
  rw [Ne, List.length_eq_zero_iff, List.filter_eq_nil_iff]
  intro hc
  exact hc c hm h

/-- One step of a state in which a dead client with a reference has been noticed. -/
theorem doomed_step {s : St} {ci : Nat} {c : Client} (h : Doomed s ci c) (e : Ev) :
    Doomed (step s e) ci c ∧ (step s e).dev = s.dev ∧ (step s e).exited = s.exited := by
  have hd' := dead_entry_forever s ci c h.dead [e]
  rw [run_cons, run_nil] at hd'
  have hact := doomed_active h.dead h.ref
  cases hx : s.exited with
  | true =>
    cases e
    case wait d => exact ⟨⟨hd', h.ref, h.big, by have := h.due; simp only [step]; omega, h.en, h.closed⟩, rfl, hx⟩
    all_goals
      simp only [step, hx, if_true] at hd' ⊢
      exact ⟨⟨hd', h.ref, h.big, h.due, h.en, h.closed⟩, by simp⟩
  | false =>
    cases e
    case wait d => exact ⟨⟨hd', h.ref, h.big, by have := h.due; simp only [step]; omega, h.en, h.closed⟩, rfl, hx⟩
    case openWatchdog ci' f o a =>
      have : step s (.openWatchdog ci' f o a) = s := by
        simp [step, hx, openWatchdog, h.en]
      rw [this]
      exact ⟨h, rfl, hx⟩
    case round n f ok =>
      simp only [step, hx, Bool.false_eq_true, if_false] at hd' ⊢
      unfold round at hd' ⊢
      simp only [hact, Bool.not_true, Bool.and_false, Bool.false_eq_true, if_false, h.en,
        Bool.false_and] at hd' ⊢
      split
      · rename_i hdue
        rw [if_pos hdue] at hd'
        have hm : c ∈ s.clients := List.mem_of_getElem? h.dead.1
        have hf : f + testClients s.stdInterval (s.now + n) s.clients ≠ 0 := by
          have := testClients_pos hm (clientFails_due (now := s.now + n) h.dead.2.1 h.dead.2.2.2 h.big
            (by have := h.due; omega))
          omega
        have hr : runTests s n f ok =
            { s with testTime := s.now, now := s.now + n, testInterval := 1, resetting := true } := by
          unfold runTests
          simp only
          rw [if_neg hf]
          rw [closeUnclean_closed]
          exact h.closed
        rw [hr] at hd' ⊢
        exact ⟨⟨hd', h.ref, h.big, by have := h.due; show _ ≤ s.now + n + s.stdInterval; omega, h.en, h.closed⟩,
          rfl, hx⟩
      · rename_i hdue
        exact ⟨h, rfl, hx⟩
    all_goals
      simp only [step, hx, Bool.false_eq_true, if_false] at hd' ⊢
      exact ⟨⟨hd', h.ref, h.big, h.due, h.en, h.closed⟩, by simp [onClient, hx]⟩

/-- **C16.** Once a test has noticed a dead client's coming expiry, nothing that happens afterwards pings,
disarms or reopens the device, and the daemon does not exit: the device fires `fire` seconds after its
last ping. -/
theorem dead_client_fires {s : St} {ci : Nat} {c : Client} (h : Doomed s ci c) (es : List Ev) :
    (run s es).dev = s.dev ∧ (run s es).devOpen = false ∧ (run s es).exited = s.exited := by
  suffices hh : Doomed (run s es) ci c ∧ (run s es).dev = s.dev ∧ (run s es).exited = s.exited from
    ⟨hh.2.1, hh.1.closed, hh.2.2⟩
  induction es generalizing s with
  | nil => exact ⟨h, rfl, rfl⟩
  | cons e es ih =>
    rw [run_cons]
    obtain ⟨h1, h2, h3⟩ := doomed_step h e
    obtain ⟨h4, h5, h6⟩ := ih h1
    exact ⟨h4, by rw [h5, h2], by rw [h6, h3]⟩

/-- **C16.** A test round in the last test interval before the expiry of a dead client (or later) notices
it: the device stays armed, was pinged for the last time, and `Doomed` holds. -/
theorem dead_client_noticed {s : St} {ci : Nat} {c : Client} (hd : DeadAt s ci c) (hr : c.refcount = true)
    (hb : s.stdInterval ≤ c.expire.toNat) (hx : s.exited = false) (hen : s.enabled = true)
    (ha : s.dev.armed = true)
    (hi : s.now - s.testTime ≥ s.testInterval) (n f : Nat) (ok : Bool)
    (hdue : c.expire.toNat ≤ s.now + n + s.stdInterval) :
    Doomed (step s (.round n f ok)) ci c ∧ (step s (.round n f ok)).dev.armed = true ∧
      (step s (.round n f ok)).dev.lastPing ≤ max s.dev.lastPing (s.now + n) := by
  have hd' := dead_entry_forever s ci c hd [.round n f ok]
  rw [run_cons, run_nil] at hd'
  have hact := doomed_active hd hr
  have hm : c ∈ s.clients := List.mem_of_getElem? hd.1
  have hf : f + testClients s.stdInterval (s.now + n) s.clients ≠ 0 := by
    have := testClients_pos hm (clientFails_due (now := s.now + n) hd.2.1 hd.2.2.2 hb hdue)
    omega
  have hstep : step s (.round n f ok) = runTests s n f ok := by
    simp only [step, hx, Bool.false_eq_true, if_false, round, hact, Bool.not_true, Bool.and_false, hen,
      Bool.false_and, if_pos hi]
  have hr' : runTests s n f ok =
      { closeWatchdogUnclean { s with testTime := s.now, now := s.now + n } with
        testInterval := 1, resetting := true } := by
    unfold runTests
    simp only
    rw [if_neg hf]
  rw [hstep] at hd' ⊢
  refine ⟨⟨hd', hr, ?_, ?_, ?_, ?_⟩, (runTests_fields _ _ _ _).2.2.2.2 ha, ?_⟩
  · rw [(runTests_fields _ _ _ _).2.2.2.1]; exact hb
  · rw [hr']
    show _ ≤ (closeWatchdogUnclean _).now + (closeWatchdogUnclean _).stdInterval
    rw [(closeWatchdogUnclean_fields _).2.2.2.1, (closeWatchdogUnclean_fields _).2.2.2.2.1]
    exact hdue
  · rw [(runTests_fields _ _ _ _).2.1]; exact hen
  · rw [hr']; exact (closeWatchdogUnclean_fields _).2.2.2.2.2.1
  · rw [hr']
    show (closeWatchdogUnclean _).dev.lastPing ≤ _
    unfold closeWatchdogUnclean
    cases hdo : s.devOpen <;> simp [St.emit, Dev.op, hdo] <;> omega

/-- Example execution: client 2 opens the watchdog, takes a reference, sets expiry 180 at time 100 and
dies; the round at 170 notices. -/
def exampleDead : List Ev :=
  [.connect, .openWatchdog 2 60 true true, .refSet 2, .testLive 2 180, .hup 2, .wait 70, .round 0 0 true]

example : Doomed (run (init 100) exampleDead) 2
      { Client.empty with used := true, refcount := true, expire := 180, pidDead := true } ∧
    (run (init 100) exampleDead).dev = { armed := true, lastPing := 170 } := by
  refine ⟨⟨⟨by decide, rfl, rfl, by decide⟩, rfl, by decide, by decide, by decide, by decide⟩, by decide⟩

/-- A client that sets an expiry time without taking a reference is not protected: after it died a
terminate signal makes the daemon disarm the watchdog, so its expiry never fires. -/
theorem unreferenced_expiry_violated :
    ∃ es, (∃ c, DeadAt (run (init 100) es) 2 c) ∧ (run (init 100) es).dev.armed = true ∧
      (run (init 100) (es ++ [.sigterm, .round 0 0 true])).dev.armed = false := by
  refine ⟨[.connect, .openWatchdog 2 60 true true, .testLive 2 180, .hup 2],
    ⟨{ Client.empty with used := true, expire := 180, pidDead := true }, by decide, rfl, rfl, by decide⟩,
    by decide, by decide⟩

/-! ## C17 -/

/-- At time `t` client `c` is more than a test interval away from its expiry time. -/
def FarFromExpiry (std t : Nat) (c : Client) : Prop := t < c.expire.toNat ∧ (std ≤ c.expire.toNat → t + std < c.expire.toNat)

theorem testClients_zero {std now : Nat} {cs : List Client} (h : testClients std now cs = 0) :
    ∀ c ∈ cs, c.used = true → c.expire ≠ 0 → FarFromExpiry std now c := by
  intro c hc hu he
  unfold testClients at h
  rw [List.length_eq_zero_iff, List.filter_eq_nil_iff] at h
  have := h c hc
  unfold clientFails at this
  simp only [hu, Bool.true_and, Bool.and_eq_true, bne_iff_ne, ne_eq, he, not_false_eq_true, true_and,
    Bool.or_eq_true, decide_eq_true_eq, not_or] at this
  refine ⟨by omega, fun hs => ?_⟩
  rw [sub_toNat hs] at this
  omega

/-- Device operations done by a step. -/
def newOps (s s' : St) (ops : List (Nat × DevOp)) : Prop := s'.log = ops ++ s.log

/-- What a step does to the device, in the words of the property.  While the test loop is enabled, a step
opens or pings the device only in a round whose scripts all succeeded and in which every client with an
expiry time was far from it; a round with a failure only closes the device (uncleanly). -/
theorem device_ops (s : St) (e : Ev) (hen : s.enabled = true) :
    ∃ ops, newOps s (step s e) ops ∧
      (∀ t op, (t, op) ∈ ops → t = (step s e).now) ∧
      (((∃ t, (t, DevOp.keepalive) ∈ ops) ∨ (∃ t, (t, DevOp.opened) ∈ ops)) →
        ∃ n ok, e = .round n 0 ok ∧
          ∀ c ∈ s.clients, c.used = true → c.expire ≠ 0 → FarFromExpiry s.stdInterval (s.now + n) c) := by
  have hno : ∀ s' : St, s'.log = s.log → ∃ ops, newOps s s' ops ∧
      (∀ t op, (t, op) ∈ ops → t = s'.now) ∧
      (((∃ t, (t, DevOp.keepalive) ∈ ops) ∨ (∃ t, (t, DevOp.opened) ∈ ops)) →
        ∃ n ok, e = .round n 0 ok ∧
          ∀ c ∈ s.clients, c.used = true → c.expire ≠ 0 → FarFromExpiry s.stdInterval (s.now + n) c) := by
    intro s' h
    exact ⟨[], by simp [newOps, h], by simp, by simp⟩
  cases hx : s.exited with
  | true => apply hno; cases e <;> simp [step, hx]
  | false =>
    cases e
    case openWatchdog ci f o a =>
      apply hno
      simp [step, hx, openWatchdog, hen]
    case round n f ok =>
      have hclose : ∀ s' : St, s'.log = (closeWatchdog s).log → s'.now = s.now →
          ∃ ops, newOps s s' ops ∧ (∀ t op, (t, op) ∈ ops → t = s'.now) ∧
          (((∃ t, (t, DevOp.keepalive) ∈ ops) ∨ (∃ t, (t, DevOp.opened) ∈ ops)) →
            ∃ n' ok', Ev.round n f ok = .round n' 0 ok' ∧
              ∀ c ∈ s.clients, c.used = true → c.expire ≠ 0 → FarFromExpiry s.stdInterval (s.now + n') c) := by
        intro s' h hn
        unfold closeWatchdog at h
        cases hd : s.devOpen <;> simp [hd, St.emit] at h
        · exact ⟨[], by simp [newOps, h], by simp, by simp⟩
        · refine ⟨[(s.now, .closeClean)], by simp [newOps, h], by simp [hn], by simp⟩
      simp only [step, hx, Bool.false_eq_true, if_false]
      unfold round
      split
      · apply hclose
        · rfl
        · exact (closeWatchdog_fields s).2.2.2.1
      · split
        · exact hno _ rfl
        · split
          · apply hclose
            · rfl
            · exact (closeWatchdog_fields s).2.2.2.1
          · split
            · unfold runTests
              simp only
              split
              · rename_i hz
                have hf : f = 0 := by omega
                subst hf
                have hfar := testClients_zero (show testClients s.stdInterval (s.now + n) s.clients = 0 by omega)
                cases hd : s.devOpen
                · cases ok
                  · refine ⟨[], ?_, by simp, by simp⟩
                    simp [newOps, petWatchdog, openDev, hd]
                  · refine ⟨[(s.now + n, .keepalive), (s.now + n, .opened)], ?_, ?_, fun _ => ⟨n, true, rfl, hfar⟩⟩
                    · simp [newOps, petWatchdog, openDev, hd, St.emit]
                    · simp only [Bool.false_eq_true, if_false, petWatchdog_fields, openDev_fields]
                      simp only [List.mem_cons, List.not_mem_nil, or_false]
                      rintro t op (h | h) <;> (cases h; rfl)
                · refine ⟨[(s.now + n, .keepalive)], ?_, ?_, fun _ => ⟨n, ok, rfl, hfar⟩⟩
                  · simp [newOps, petWatchdog, hd, St.emit]
                  · simp only [if_true, petWatchdog_fields]
                    simp
              · cases hd : s.devOpen
                · refine ⟨[], ?_, by simp, by simp⟩
                  simp [newOps, closeWatchdogUnclean, hd]
                · refine ⟨[(s.now + n, .closeUnclean)], ?_, ?_, by simp⟩
                  · simp [newOps, closeWatchdogUnclean, hd, St.emit]
                  · simp only [closeWatchdogUnclean_fields]
                    simp
            · exact hno _ rfl
    all_goals
      apply hno
      simp [step, hx, onClient]

/-- A test round whose tests all passed. -/
def Passed (s : St) (e : Ev) : Prop :=
  ∃ n ok, e = .round n 0 ok ∧ testClients s.stdInterval (s.now + n) s.clients = 0

/-- State after a failed test: enabled, resetting, device closed. -/
structure Failing (s : St) : Prop where
  en : s.enabled = true
  rs : s.resetting = true
  closed : s.devOpen = false

/-- **C17.** From a failed test on, the device is neither pinged nor disarmed in any execution until a
round passes. -/
theorem no_ping_until_pass (s : St) (h : Failing s) (es : List Ev)
    (hnp : ∀ pre e post, es = pre ++ e :: post → ¬ Passed (run s pre) e) :
    (run s es).dev = s.dev ∧ (run s es).log = s.log ∧ ((run s es).exited = false → Failing (run s es)) := by
  suffices hh : ∀ (es : List Ev) (s : St), ((s.exited = false → Failing s) ∧ s.devOpen = false) →
      (∀ pre e post, es = pre ++ e :: post → ¬ Passed (run s pre) e) →
      ((run s es).dev = s.dev ∧ (run s es).log = s.log ∧ ((run s es).exited = false → Failing (run s es))) from
    hh es s ⟨fun _ => h, h.closed⟩ hnp
  clear hnp h s es
  intro es
  induction es with
  | nil => intro s h _; exact ⟨rfl, rfl, h.1⟩
  | cons e es ih =>
    intro s h hnp
    rw [run_cons]
    have hstep : (((step s e).exited = false → Failing (step s e)) ∧ (step s e).devOpen = false) ∧
        (step s e).dev = s.dev ∧ (step s e).log = s.log := by
      cases hx : s.exited with
      | true => cases e <;> simp [step, hx, h.2]
      | false =>
        obtain ⟨h, hc⟩ := h
        have h := h hx
        have hen := h.en
        have hrs := h.rs
        cases e
        case wait d => exact ⟨⟨fun _ => ⟨h.en, h.rs, h.closed⟩, h.closed⟩, rfl, rfl⟩
        case openWatchdog ci f o a =>
          have : step s (.openWatchdog ci f o a) = s := by simp [step, hx, openWatchdog, h.en]
          rw [this]; exact ⟨⟨fun _ => h, h.closed⟩, rfl, rfl⟩
        case round n f ok =>
          have hnp0 := hnp [] (.round n f ok) es rfl
          rw [run_nil] at hnp0
          simp only [step, hx, Bool.false_eq_true, if_false]
          unfold round
          split
          · rw [(closeWatchdog_fields s).2.2.2.2.2.2.1 h.closed]
            exact ⟨⟨fun hh => by simp at hh, h.closed⟩, rfl, rfl⟩
          · simp only [h.en, Bool.not_true, Bool.false_eq_true, if_false, h.rs, Bool.and_false]
            split
            · have hf : f + testClients s.stdInterval (s.now + n) s.clients ≠ 0 := by
                intro h0
                apply hnp0
                have : f = 0 := by omega
                subst this
                exact ⟨n, ok, rfl, by omega⟩
              unfold runTests
              simp only
              rw [if_neg hf]
              rw [closeUnclean_closed { s with testTime := s.now, now := s.now + n } h.closed]
              exact ⟨⟨fun _ => ⟨h.en, rfl, h.closed⟩, h.closed⟩, rfl, rfl⟩
            · exact ⟨⟨fun _ => h, h.closed⟩, rfl, rfl⟩
        all_goals
          simp only [step, hx, Bool.false_eq_true, if_false]
          exact ⟨⟨fun _ => ⟨h.en, h.rs, h.closed⟩, h.closed⟩, by simp [onClient]⟩
    obtain ⟨h1, h2, h3⟩ := hstep
    have := ih (step s e) h1 (fun pre e' post heq => by
      have := hnp (e :: pre) e' post (by rw [heq]; rfl)
      rwa [run_cons] at this)
    rw [h2, h3] at this
    exact this

/-- **C17.** A failed round leads to that state. -/
theorem failed_round (s : St) (n f : Nat) (ok : Bool) (hx : s.exited = false) (hen : s.enabled = true)
    (hq : s.quit = false) (hex : external s.clients = true)
    (hi : s.now - s.testTime ≥ s.testInterval)
    (hf : f ≠ 0 ∨ ∃ c ∈ s.clients, c.used = true ∧ c.expire ≠ 0 ∧ c.expire.toNat ≤ s.now + n) :
    Failing (step s (.round n f ok)) := by
  have hf' : f + testClients s.stdInterval (s.now + n) s.clients ≠ 0 := by
    rcases hf with hf | ⟨c, hm, hu, he, hd⟩
    · omega
    · have := testClients_pos (std := s.stdInterval) (now := s.now + n) hm (by simp [clientFails, hu, he, hd])
      omega
  have hstep : step s (.round n f ok) = runTests s n f ok := by
    simp only [step, hx, Bool.false_eq_true, if_false, round, hq, hen, hex, Bool.not_true,
      Bool.and_false, Bool.false_and, if_pos hi]
  rw [hstep]
  unfold runTests
  simp only
  rw [if_neg hf']
  exact ⟨by simp [closeWatchdogUnclean_fields, hen], rfl, (closeWatchdogUnclean_fields _).2.2.2.2.2.1⟩

/-- Example: a script failure at time 110 with a referenced client. -/
example : Failing (run (init 100) [.connect, .openWatchdog 2 60 true true, .refSet 2, .testLive 2 180,
    .wait 10, .round 0 1 true]) ∧
    (run (init 100) [.connect, .openWatchdog 2 60 true true, .refSet 2, .testLive 2 180,
      .wait 10, .round 0 1 true, .wait 1, .round 0 0 true]).dev.lastPing = 111 := by
  exact ⟨⟨by decide, by decide, by decide⟩, by decide⟩

/-- The first test is at least one interval after boot, so the unsigned subtraction in the test of the
interval before the expiry never matters. -/
structure Inv2 (s : St) : Prop where
  mono : s.testTime ≤ s.now
  first : s.enabled = true → s.stdInterval ≤ s.testTime + s.testInterval

theorem inv2_init (now : Nat) : Inv2 (init now) := ⟨Nat.zero_le _, by simp [init]⟩

theorem closeWatchdog_time (s : St) : (closeWatchdog s).testTime = s.testTime ∧
    (closeWatchdog s).testInterval = s.testInterval := by
  unfold closeWatchdog; split <;> simp [St.emit]

theorem closeUnclean_time (s : St) : (closeWatchdogUnclean s).testTime = s.testTime ∧
    (closeWatchdogUnclean s).testInterval = s.testInterval := by
  unfold closeWatchdogUnclean; split <;> simp [St.emit]

theorem pet_time (s : St) : (petWatchdog s).testTime = s.testTime ∧
    (petWatchdog s).testInterval = s.testInterval := by
  unfold petWatchdog; split <;> simp [St.emit]

theorem openDev_time (s : St) (ok : Bool) : (openDev s ok).1.testTime = s.testTime ∧
    (openDev s ok).1.testInterval = s.testInterval := by
  unfold openDev; split <;> cases ok <;> simp [St.emit]

theorem inv2_step (s : St) (e : Ev) (h : Inv2 s) : Inv2 (step s e) := by
  obtain ⟨hm, hf⟩ := h
  cases hx : s.exited with
  | true =>
    cases e <;> simp only [step, hx, if_true] <;> first | exact ⟨hm, hf⟩ | exact ⟨by show s.testTime ≤ s.now + _; omega, hf⟩
  | false =>
    cases e <;> simp only [step, hx, Bool.false_eq_true, if_false]
    case wait d => exact ⟨by show s.testTime ≤ s.now + d; omega, hf⟩
    case openWatchdog ci f o a =>
      split
      · unfold openWatchdog
        split
        · exact ⟨hm, hf⟩
        · split
          · exact ⟨hm, hf⟩
          · simp only
            split
            · exact ⟨hm, hf⟩
            · split
              · constructor
                · simp only [petWatchdog_fields, pet_time, openDev_time, openDev_fields]; exact hm
                · simp only [petWatchdog_fields, pet_time, openDev_time, openDev_fields]; omega
              · rename_i hen _ _ _
                constructor
                · simp only [closeWatchdog_fields, closeWatchdog_time, openDev_time, openDev_fields]; exact hm
                · simp only [closeWatchdog_fields, closeWatchdog_time, openDev_time, openDev_fields]; exact hf
      · exact ⟨hm, hf⟩
    case round n f ok =>
      unfold round
      split
      · constructor
        · simp only [closeWatchdog_fields, closeWatchdog_time]; exact hm
        · simp only [closeWatchdog_fields, closeWatchdog_time]; exact hf
      · split
        · exact ⟨hm, hf⟩
        · split
          · exact ⟨Nat.zero_le _, by simp⟩
          · split
            · rename_i hen _ hdue
              have hf := hf (by simpa using hen)
              unfold runTests
              simp only
              split
              · split
                · constructor
                  · simp only [petWatchdog_fields, pet_time]; omega
                  · simp only [petWatchdog_fields, pet_time]; omega
                · constructor
                  · simp only [petWatchdog_fields, pet_time, openDev_fields, openDev_time]; omega
                  · simp only [petWatchdog_fields, pet_time, openDev_fields, openDev_time]; omega
              · constructor
                · simp only [closeWatchdogUnclean_fields, closeUnclean_time]; omega
                · simp only [closeWatchdogUnclean_fields, closeUnclean_time]; omega
            · exact ⟨hm, hf⟩
    all_goals exact ⟨hm, hf⟩

theorem inv2_run (es : List Ev) : ∀ (s : St), Inv2 s → Inv2 (run s es) := by
  induction es with
  | nil => intro s h; exact h
  | cons e es ih => intro s h; rw [run_cons]; exact ih _ (inv2_step s e h)

/-- **C17.** In every execution, while the test loop is enabled: a keep-alive is written to (or the device
opened by) a step only in a round in which no script failed and every client with an expiry time was more
than a test interval away from it. -/
theorem keepalive_only_if_tests_pass (now : Nat) (es : List Ev) (e : Ev)
    (hen : (run (init now) es).enabled = true) (ops : List (Nat × DevOp))
    (hops : newOps (run (init now) es) (step (run (init now) es) e) ops) (t : Nat)
    (hk : (t, DevOp.keepalive) ∈ ops ∨ (t, DevOp.opened) ∈ ops) :
    (∃ n ok, e = .round n 0 ok) ∧
    ∀ c ∈ (run (init now) es).clients, c.used = true → c.expire ≠ 0 →
      t + (run (init now) es).stdInterval < c.expire.toNat := by
  have h2 := inv2_run es _ (inv2_init now)
  generalize run (init now) es = s at *
  obtain ⟨ops', h1, h3, h4⟩ := device_ops s e hen
  have : ops = ops' := by
    unfold newOps at hops h1
    exact List.append_cancel_right (hops.symm.trans h1)
  subst this
  have hk' : (∃ t, (t, DevOp.keepalive) ∈ ops) ∨ ∃ t, (t, DevOp.opened) ∈ ops := by
    rcases hk with h | h
    · exact Or.inl ⟨t, h⟩
    · exact Or.inr ⟨t, h⟩
  obtain ⟨n, ok, he, hfar⟩ := h4 hk'
  subst he
  refine ⟨⟨n, ok, rfl⟩, fun c hc hu hne => ?_⟩
  obtain ⟨hf1, hf2⟩ := hfar c hc hu hne
  have ht : t = (step s (.round n 0 ok)).now := by
    rcases hk with h | h <;> exact h3 _ _ h
  -- the round was due, so the test time is at least one interval after boot
  have hne' : ops ≠ [] := by rintro rfl; simp at hk
  have hx : s.exited = false := by
    refine Classical.byContradiction fun hc => hne' ?_
    have hx : s.exited = true := by simpa using hc
    have : (step s (.round n 0 ok)) = s := by simp [step, hx]
    unfold newOps at h1
    rw [this] at h1
    exact List.append_cancel_right (h1.symm.trans rfl : ops ++ s.log = [] ++ s.log)
  have hround : step s (.round n 0 ok) = round s n 0 ok := by simp [step, hx]
  rw [hround] at ht h1
  have hd : s.now - s.testTime ≥ s.testInterval ∧ round s n 0 ok = runTests s n 0 ok := by
    have hclean : ∀ s' : St, s'.log = (closeWatchdog s).log → newOps s s' ops → False := by
      intro s' hl hn
      unfold newOps at hn
      rw [hl] at hn
      unfold closeWatchdog at hn
      cases hdv : s.devOpen <;> simp [hdv, St.emit] at hn
      · exact hne' hn
      · have : [(s.now, DevOp.closeClean)] ++ s.log = ops ++ s.log := hn
        have := List.append_cancel_right this
        rw [← this] at hk
        simp at hk
    unfold round at h1 ⊢
    split at h1
    · exact (hclean _ rfl h1).elim
    · rename_i hc1
      rw [if_neg hc1]
      split at h1
      · exfalso
        unfold newOps at h1
        exact hne' (List.append_cancel_right (h1.symm.trans rfl : ops ++ s.log = [] ++ s.log))
      · rename_i hc2
        rw [if_neg hc2]
        split at h1
        · exact (hclean _ rfl h1).elim
        · rename_i hc3
          rw [if_neg hc3]
          split at h1
          · rename_i hc4
            exact ⟨hc4, by rw [if_pos hc4]⟩
          · exfalso
            unfold newOps at h1
            exact hne' (List.append_cancel_right (h1.symm.trans rfl : ops ++ s.log = [] ++ s.log))
  have htn : t = s.now + n := by
    rw [ht, hd.2]
    unfold runTests
    simp only
    split
    · split
      · simp [petWatchdog_fields]
      · simp [petWatchdog_fields, openDev_fields]
    · simp [closeWatchdogUnclean_fields]
  have hstd := h2.first hen
  have hmono := h2.mono
  rw [htn]
  apply hf2
  omega

/-- Example for the hypotheses: a referenced client with expiry 180, test at 110. -/
example : newOps (run (init 100) [.connect, .openWatchdog 2 60 true true, .refSet 2, .testLive 2 180, .wait 10])
    (step (run (init 100) [.connect, .openWatchdog 2 60 true true, .refSet 2, .testLive 2 180, .wait 10])
      (.round 0 0 true)) [(110, .keepalive)] := by
  unfold newOps; decide

/-- **C17**.  The interval between tests fits the timeout of the device: at least two rounds, for all but the shortest
timeouts at least five, happen in the time after which an unfed device resets the host. -/
theorem interval_fits (fire : Nat) :
    0 < testIntervalFor fire ∧ testIntervalFor fire ≤ 10 ∧ (2 ≤ fire → 2 * testIntervalFor fire ≤ fire) ∧
      (10 ≤ fire → 5 * testIntervalFor fire ≤ fire) := by
  unfold testIntervalFor
  (repeat' split) <;> omega

example : testIntervalFor 60 = 10 ∧ testIntervalFor 10 = 2 ∧ testIntervalFor 9 = 1 := by decide

end Sanlock.Wdmd
