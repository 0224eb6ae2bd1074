import Verif.Request

/-!
# C40: requests for a lease

The claim is that the holder acts on a request at most once per requested version, never for a version it has passed, and never for a
shared or released lease. What holds: the request record only moves forward; each examination sends at most one message, to the process
that holds the lease at that moment; and the version requested is newer than the one held, unless the lease was released and taken again
by the same process meanwhile. Acting once is violated by a second examination (`repeated_violated`), the passed version by that race
(`passed_version_violated`), and a shared lease is signalled with process id 0 (`shared_violated`).
-/

namespace Sanlock.Request

/-- Process a message is about. -/
def Msg.pid : Msg → Nat
  | .sigkill p => p
  | .sigterm p => p
  | .runpath p => p

/-- C40: a request that is written has a version newer than the lease and not older than the request on disk, and is for a lease that
is not free; its version and mode are those asked for, the version being the next one if none was given. -/
theorem request_written {leader req lver mode next rv owner r} (h : request leader req lver mode next = (rv, owner, some r))
    (hn : lver ≠ 0 ∨ mode ≠ 0) :
    rv = .ok ∧ leader.free = false ∧ owner = leader.owner ∧ leader.lver < r.lver ∧ req.lver ≤ r.lver ∧ r.mode = mode ∧
      (lver ≠ 0 → r.lver = lver) ∧ (lver = 0 → next = true ∧ r.lver = leader.lver + 1) := by
  have h0 : ¬(lver = 0 ∧ mode = 0) := by
    rintro ⟨h1, h2⟩
    rcases hn with h | h
    · exact h h1
    · exact h h2
  have hle : ∀ a b : UInt64, ¬(a ≤ b) → b < a := by intro a b h; exact UInt64.not_le.mp h
  have hlt : ∀ a b : UInt64, ¬(a < b) → b ≤ a := by intro a b h; exact UInt64.not_lt.mp h
  unfold request at h
  rw [if_neg h0] at h
  by_cases hf : leader.free = true
  · simp [hf] at h
  · rw [if_neg hf] at h
    dsimp only at h
    by_cases hx : lver = 0 ∧ next = true
    · rw [if_pos hx] at h
      repeat' split at h
      all_goals simp at h
      next h1 h2 h3 h4 =>
        obtain ⟨a, b, c⟩ := h
        subst a b c
        exact ⟨rfl, by simpa using hf, rfl, hle _ _ h1, hlt _ _ h4, rfl, fun h => absurd hx.1 h, fun _ => ⟨hx.2, rfl⟩⟩
    · rw [if_neg hx] at h
      repeat' split at h
      all_goals simp at h
      next h1 h2 h3 h4 =>
        obtain ⟨a, b, c⟩ := h
        subst a b c
        refine ⟨rfl, by simpa using hf, rfl, hle _ _ h1, hlt _ _ h4, rfl, fun _ => rfl, ?_⟩
        intro hz
        subst hz
        exact absurd (UInt64.zero_le (a := leader.lver)) h1

/-- The hypotheses are met. -/
example : (request ⟨false, 5, 2⟩ ⟨true, true, 6, 1⟩ 0 1 true) = (.ok, 2, some ⟨true, true, 6, 1⟩) := by decide

/-- C40: nothing is written, and the caller is told, when the lease is free, the version is already passed, or a later version is
requested already. -/
theorem request_refused {leader : Leader} {req lver mode next} (hn : lver ≠ 0) :
    (leader.free = true → request leader req lver mode next = (.ok, 0, none)) ∧
      (leader.free = false → lver ≤ leader.lver → request leader req lver mode next = (.old, leader.owner, none)) ∧
      (leader.free = false → leader.lver < lver → req.magic = true → req.version = true → lver < req.lver →
        request leader req lver mode next = (.lver, leader.owner, none)) := by
  refine ⟨?_, ?_, ?_⟩
  · intro h; simp [request, hn, h]
  · intro h h1; simp [request, hn, h, h1]
  · intro h h1 h2 h3 h4
    have : ¬lver ≤ leader.lver := UInt64.not_le.mpr h1
    simp [request, hn, h, h2, h3, h4, this]

/-- The hypotheses are met. -/
example : (7 : UInt64) ≠ 0 ∧ (Leader.mk false 9 2).free = false ∧ (7 : UInt64) ≤ (Leader.mk false 9 2).lver := by decide

/-- What holds in all executions. -/
structure Inv (s : State) : Prop where
  inst : ∀ r, s.held = some r → r.inst < s.next
  picked : ∀ i p l, s.thread = .picked i p l → i < s.next
  act : ∀ i p l q m, s.thread = .act i p l q m → i < s.next ∧ l < q ∧ m ≠ 0
  sent : ∀ x, x ∈ s.sent → x.msg.pid = x.res.pid

theorem inv_step {s a s'} (h : Inv s) (hs : step s a = some s') : Inv s' := by
  obtain ⟨h1, h2, h3, h4⟩ := h
  have hlt : ∀ a b : UInt64, ¬(a ≤ b) → b < a := by intro a b h; exact UInt64.not_le.mp h
  cases a <;> simp only [step] at hs
  case act =>
    split at hs
    · split at hs
      · split at hs
        · split at hs
          · next hm =>
            cases hs
            constructor <;> dsimp only <;> try (first | grind | skip)
            intro x hx
            rcases List.mem_cons.mp hx with rfl | hx
            · unfold message at hm
              dsimp only
              grind [Msg.pid]
            · exact h4 x hx
          · cases hs; constructor <;> dsimp only <;> grind
        · cases hs; constructor <;> dsimp only <;> grind
      · cases hs; constructor <;> dsimp only <;> grind
    · cases hs
  all_goals
    constructor <;> grind

theorem reach_inv {s} (h : Reach s) : Inv s := by
  induction h with
  | init l r => constructor <;> simp [init]
  | step _ hs ih => exact inv_step ih hs

/-- C40: a message is only sent to the process that holds the lease at that moment, and is about that process; in particular nothing is
sent when the lease was released. -/
theorem sent_to_holder {s a s' x} (h : Reach s) (hs : step s a = some s') (hx : s'.sent = x :: s.sent) :
    a = .act ∧ s.held = some x.res ∧ x.msg.pid = x.res.pid := by
  have hi := reach_inv (h.step hs)
  have hm : x.msg.pid = x.res.pid := hi.sent x (by rw [hx]; simp)
  have hne : s'.sent ≠ s.sent := by
    rw [hx]
    intro hy
    have := congrArg List.length hy
    simp at this
  have hsent := hx
  cases a <;> simp only [step] at hs
  case act =>
    repeat' split at hs
    all_goals first | cases hs | skip
    all_goals first
      | exact absurd rfl hne
      | (refine ⟨rfl, ?_, hm⟩
         simp only [List.cons.injEq] at hx
         rw [← hx.1]
         assumption)
  all_goals (exfalso; apply hne; clear hx hsent hm hne; grind)

/-- The hypotheses are met: a message is sent. -/
example : ∃ s s' x, run (init ⟨false, 5, 1⟩ ⟨true, true, 0, 0⟩)
    [.acquire 77 false 5 false false false, .request 6 1 false true, .examine, .pick, .read true] = some s ∧
    step s .act = some s' ∧ s'.sent = x :: s.sent ∧ x.msg = .sigkill 77 := ⟨_, _, _, rfl, rfl, rfl, rfl⟩

/-- The thread has taken an examination and not finished it. -/
def pending (s : State) : Nat :=
  (if s.thread = .idle then 0 else 1) + (match s.held with | some r => if r.examine then 1 else 0 | none => 0)

/-- C40 as far as it holds: at most one message is sent per examination; one examination never sends two. -/
theorem once_per_examine_partial {s} (h : Reach s) : s.sent.length ≤ s.examines := by
  suffices hp : s.sent.length + pending s ≤ s.examines by omega
  induction h with
  | init l r => simp [init, pending]
  | @step s a s' _ hs ih =>
    unfold pending at *
    cases a <;> simp only [step] at hs
    all_goals
      (repeat' split at hs)
      all_goals first | cases hs | skip
      all_goals simp_all
      all_goals first | omega | (repeat' split) <;> grind

/-- Executions without mode conversions. -/
inductive ReachA : State → Prop
  | init (l r) : ReachA (init l r)
  | step {s a s'} : ReachA s → (∀ sh l, a ≠ .convert sh l) → step s a = some s' → ReachA s'

theorem ReachA.reach {s} (h : ReachA s) : Reach s := by
  induction h with
  | init l r => exact Reach.init l r
  | step _ _ hs ih => exact ih.step hs

/-- Without conversions the thread's copy is that of the resource as long as it is held, and an exclusive lease has its process. -/
structure InvA (s : State) : Prop where
  picked : ∀ i p l r, s.thread = .picked i p l → s.held = some r → r.inst = i → r.lver = l
  act : ∀ i p l q m r, s.thread = .act i p l q m → s.held = some r → r.inst = i → r.lver = l
  excl : ∀ r, s.held = some r → r.shared = false → r.pid ≠ 0

theorem reachA_inv {s} (h : ReachA s) : InvA s := by
  induction h with
  | init l r => constructor <;> simp [init]
  | @step s a s' hr hc hs ih =>
    obtain ⟨g1, g2, g3, g4⟩ := reach_inv hr.reach
    obtain ⟨h1, h2, h3⟩ := ih
    cases a <;> simp only [step] at hs
    case convert sh l => exact absurd rfl (hc sh l)
    all_goals
      (repeat' split at hs)
      all_goals first | cases hs | skip
      all_goals constructor <;> (try dsimp only) <;> grind

/-- C40 as far as it holds: a message is for a version newer than the one held, and an exclusive holder is signalled with its own process id,
if there are no conversions and the lease was not released and taken again between looking at it and acting. -/
theorem newer_partial {s s' x i p l q m} (h : ReachA s) (ht : s.thread = .act i p l q m) (hi : ∀ r, s.held = some r → r.inst = i)
    (hs : step s .act = some s') (hx : s'.sent = x :: s.sent) :
    s.held = some x.res ∧ x.res.lver < x.req ∧ (x.res.shared = false → x.msg.pid = x.res.pid ∧ x.res.pid ≠ 0) := by
  have hh := sent_to_holder h.reach hs hx
  have hv := reachA_inv h
  have hw := reach_inv h.reach
  refine ⟨hh.2.1, ?_, fun hsh => ⟨hh.2.2, hv.excl _ hh.2.1 hsh⟩⟩
  have hl := hv.act i p l q m x.res ht hh.2.1 (hi _ hh.2.1)
  have hq : x.req = q := by
    simp only [step, ht] at hs
    repeat' split at hs
    all_goals first | cases hs | skip
    all_goals simp at hx
    rw [← hx]
  rw [hl, hq]
  exact (hw.act i p l q m ht).2.1

/-- The hypotheses are met by the example above. -/
example : ∃ s s' x, ReachA s ∧ s.thread = .act 0 77 5 6 1 ∧ (∀ r, s.held = some r → r.inst = 0) ∧ step s .act = some s' ∧ s'.sent = x :: s.sent := by
  refine ⟨_, _, _, ReachA.step (a := .read true) (ReachA.step (a := .pick) (ReachA.step (a := .examine)
    (ReachA.step (a := .request 6 1 false true) (ReachA.step (a := .acquire 77 false 5 false false false) (ReachA.init ⟨false, 5, 1⟩ ⟨true, true, 0, 0⟩)
    (by simp) rfl) (by simp) rfl) (by simp) rfl) (by simp) rfl) (by simp) rfl, rfl, ?_, rfl, rfl⟩
  intro r hr
  cases hr
  rfl

/-- C40: without restrictions a forced request is SIGKILL, a graceful one runs the program of the holder or sends SIGTERM; no other mode
sends anything. -/
theorem message_kind (r : Res) (pid : Nat) (mode : UInt32) :
    (message r pid mode ≠ none ↔ mode = 1 ∨ mode = 2) ∧
      (r.restrictKill = true → message r pid 1 ≠ some (.sigkill pid)) ∧
      (r.restrictKill = false → message r pid 1 = some (.sigkill pid)) ∧
      (r.killpath = true → message r pid 2 = some (.runpath pid)) ∧
      (r.killpath = false → r.restrictTerm = false → message r pid 2 = some (.sigterm pid)) := by
  have h12 : (2 : UInt32) ≠ 1 := by decide
  refine ⟨?_, ?_, ?_, ?_, ?_⟩
  · unfold message force graceful
    by_cases h1 : mode = 1
    · simp [h1]
    · by_cases h2 : mode = 2
      · simp only [h2, h12, if_false, if_true, or_true, iff_true]
        split <;> simp
      · simp [h1, h2]
  all_goals simp_all [message, force, graceful]

/-- Part of C40 violated: a graceful request sends SIGKILL to a process that must not get SIGKILL (it must get no signal at all). -/
theorem restricted_violated :
    message { inst := 0, pid := 77, shared := false, lver := 5, restrictKill := true, restrictTerm := true, killpath := false, examine := false } 77 2 =
      some (.sigkill 77) := by decide

/-- C40 violated: the same request is acted on twice when the host is told to examine it twice. -/
theorem repeated_violated : ∃ s, Reach s ∧ ∃ x, s.sent = [x, x] ∧ x.req = 6 ∧ x.msg = .sigkill 77 :=
  ⟨_, run_reach (as := [.acquire 77 false 5 false false false, .request 6 1 false true, .examine, .pick, .read true, .act,
    .examine, .pick, .read true, .act]) (Reach.init ⟨false, 5, 1⟩ ⟨true, true, 0, 0⟩) rfl, _, rfl, rfl, rfl⟩

/-- C40 violated: a process releases the lease as asked and acquires it again with the version requested; it is killed for the old request. -/
theorem passed_version_violated : ∃ s, Reach s ∧ ∃ x, s.sent = [x] ∧ x.msg = .sigkill 77 ∧ x.req = 6 ∧ x.res.lver = 6 :=
  ⟨_, run_reach (as := [.acquire 77 false 5 false false false, .request 6 1 false true, .examine, .pick, .read true, .release,
    .acquire 77 false 6 false false false, .act]) (Reach.init ⟨false, 5, 1⟩ ⟨true, true, 0, 0⟩) rfl, _, rfl, rfl, rfl, rfl⟩

/-- C40 violated: a shared lease is signalled, with process id 0, which is the process group of the daemon itself. -/
theorem shared_violated : ∃ s, Reach s ∧ ∃ x, s.sent = [x] ∧ x.msg = .sigkill 0 ∧ x.res.shared = true :=
  ⟨_, run_reach (as := [.request 9 1 false true, .leader ⟨true, 5, 1⟩, .acquire 77 true 6 false false false, .examine, .pick, .read true, .act])
    (Reach.init ⟨false, 5, 1⟩ ⟨true, true, 0, 0⟩) rfl, _, rfl, rfl, rfl⟩

/-- C40 violated: so is a lease converted to exclusive, and one converted to shared is signalled with the process that converted it. -/
theorem converted_violated : (∃ s, Reach s ∧ ∃ x, s.sent = [x] ∧ x.msg = .sigkill 0 ∧ x.res.shared = false) ∧
    (∃ s, Reach s ∧ ∃ x, s.sent = [x] ∧ x.msg = .sigkill 77 ∧ x.res.shared = true) :=
  ⟨⟨_, run_reach (as := [.acquire 77 true 5 false false false, .convert false 6, .request 9 1 false true, .examine, .pick, .read true, .act])
    (Reach.init ⟨false, 5, 1⟩ ⟨true, true, 0, 0⟩) rfl, _, rfl, rfl, rfl⟩,
   ⟨_, run_reach (as := [.acquire 77 false 5 false false false, .convert true 5, .request 9 1 false true, .examine, .pick, .read true, .act])
    (Reach.init ⟨false, 5, 1⟩ ⟨true, true, 0, 0⟩) rfl, _, rfl, rfl, rfl⟩⟩

end Sanlock.Request
