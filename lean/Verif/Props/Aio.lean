import Verif.Lemmas.Aio

/-!
# C35: buffers of timed-out I/O

A buffer handed to the kernel is not freed, used or handed over again before the kernel is done with it, and it is freed exactly once.
The claim fails when `io_getevents` fails (`getevents_error_violated`), when the I/O of an lvb times out
(`lvb_use_after_free_violated`, `lvb_double_free_violated`), and when the read of a resource index times out
(`rindex_early_free_violated`, `rindex_double_free_violated`). In all other cases it holds.
-/

namespace Sanlock.Aio

/-- Several operations one after the other. -/
def run (s : State) : List Op → State
  | [] => s
  | op :: ops => run (exec s op) ops

/-- C35, except for the three cases in the head of the file (`Sound`): for all sequences of operations of a task with any number of
slots and all answers of the kernel, a buffer the kernel works on is not freed, is in one slot only, and is the one in the slot;
no buffer is freed twice; and the program never uses a buffer that is in flight or freed. -/
theorem buffers_safe_partial {n s} (h : ReachS false n s) :
    (∀ i b, s.fly i = some b → s.freed b = 0) ∧ (∀ i j b, s.fly i = some b → s.fly j = some b → i = j) ∧
      (∀ b, s.freed b ≤ 1) ∧ (∀ i b, s.fly i = some b → s.used i = true ∧ s.sbuf i = some b) ∧ s.bad = false := by
  have hi := reachS_inv h
  exact ⟨fun i b hb => (hi.fly i b hb).2.2.2.1, hi.inj, hi.freed, fun i b hb => ⟨(hi.fly i b hb).2.1, (hi.fly i b hb).1⟩, hi.bad⟩

/-- C35: when a task is closed and the kernel was done with everything, every buffer was freed exactly once.
The conditions (`Sound true`) also exclude the buffers lost in `lease_init_leak`, `renew_leak` and `reap_leak`. -/
theorem freed_exactly_once_partial {n s es} (h : ReachS true n s) (hc : s.closed = false) (hl : s.lvb = none)
    (hu : ∀ i, (closeLoop es s).used i = false) :
    ∀ b, b < (close es s).next → (close es s).freed b = 1 := by
  have hi := reachS_inv (h.step (op := .close es) hc (fun _ => hu))
  intro b hb
  have h1 := hi.freed b
  have hlv : (close es s).lvb = none := by
    have : ∀ es s, (closeLoop es s).lvb = s.lvb := by
      intro es
      induction es with
      | nil => intro s; rfl
      | cons e es ih =>
        intro s
        unfold closeLoop
        split
        · rfl
        · cases e with
          | intr => exact ih s
          | timeout => exact ih s
          | err => rfl
          | event i ok =>
            dsimp only
            split
            · exact ih s
            · rw [ih, (Frame.drop _ _).lvb]; rfl
    have hx := this es s
    unfold close
    rw [hl] at hx
    cases (closeLoop es s).iobuf <;> simpa [Aio.free, destroy, free1] using hx
  by_cases h0 : (exec s (.close es)).freed b = 0
  · have := hi.acc rfl b hb h0 (by
      intro i
      show (close es s).fly i ≠ some b
      unfold close Aio.free
      cases (closeLoop es s).iobuf <;> simp [destroy, free1]) (by show (close es s).iobuf ≠ some b; unfold close; simp) (by
      show (close es s).lvb ≠ some b
      rw [hlv]; simp)
    simp at this
  · show (exec s (.close es)).freed b = 1
    omega

/-- Answers: the I/O completes. -/
def done (i : Nat) : Env := { evs := [.event i true] }

/-- Answers: the I/O times out. -/
def late : Env := { evs := [.timeout] }

/-- The conditions are met by a renewal whose read times out, is reaped by the next one, and then a close. -/
example : ReachS false 2 (run (init 2) [.series false [done 0], .renew [] late true (done 0),
    .renew [.event 0 true] (done 0) true (done 0), .close []]) := by
  have q : ∀ i, (done i).quiet := by intro i; simp [Env.quiet, done]
  have q' : late.quiet := by simp [Env.quiet, late]
  refine ReachS.step (op := .close []) (ReachS.step (op := .renew [.event 0 true] (done 0) true (done 0)) (ReachS.step (op := .renew [] late true (done 0)) (ReachS.step (op := .series false [done 0]) ReachS.init ?_ ?_) ?_ ?_) ?_ ?_) ?_ ?_
  · exact ⟨rfl, rfl⟩
  · intro e he; simp at he; subst he; exact q 0
  · rfl
  · exact ⟨q', q 0, by simp, by simp⟩
  · simp only [Enabled]; decide
  · exact ⟨q 0, q 0, by simp, by simp⟩
  · simp only [Enabled]; decide
  · simp [Sound]

/-- The conditions without loss are met by a ballot on three disks, one of which times out, after which the task is closed. -/
example : ∃ s, ReachS true 2 s ∧ s.closed = false ∧ s.lvb = none ∧ s.fly 0 = some 1 ∧
    (∀ i, (closeLoop [.event 0 true] s).used i = false) := by
  have q : ∀ i, (done i).quiet := by intro i; simp [Env.quiet, done]
  have q' : late.quiet := by simp [Env.quiet, late]
  refine ⟨_, ReachS.step (op := .ballot 3 [] [done 0, late, done 1] [] []) ReachS.init ⟨rfl, rfl⟩ ?_, by decide, by decide, by decide, ?_⟩
  · refine ⟨by simp, ?_, by simp, by simp⟩
    intro e he
    simp at he
    rcases he with rfl | rfl | rfl
    · exact q 0
    · exact q'
    · exact q 1
  · intro i
    by_cases h0 : i = 0
    · subst h0; decide
    · by_cases h1 : i = 1
      · subst h1; decide
      · simp [closeLoop, exec, ballot, allocN, alloc, seriesAll, readRound, aio, findSlot, firstFree, init, List.range, List.range.loop,
          submit, wait, done, late, collect, touch, inFlight, set, timedOut, freeAll, free, free1, drop, h0, h1]

/-- In that run the slot is in flight after the first renewal, and afterwards both buffers were freed once. -/
example : (run (init 2) [.series false [done 0], .renew [] late true (done 0)]).fly 0 = some 1 ∧
    (run (init 2) [.series false [done 0], .renew [] late true (done 0),
      .renew [.event 0 true] (done 0) true (done 0), .close []]).freed 1 = 1 := by decide

/-- C35 violated: `io_getevents` fails with an error other than EINTR, the caller frees a buffer the kernel still works on;
its event is later collected for another I/O and the buffer is freed again. -/
theorem getevents_error_violated :
    (run (init 2) [.series true [{ evs := [.err] }]]).fly 0 = some 0 ∧
      (run (init 2) [.series true [{ evs := [.err] }]]).freed 0 = 1 ∧
      (run (init 2) [.series true [{ evs := [.err] }], .series true [{ evs := [.event 0 true, .event 1 true] }]]).freed 0 = 2 := by
  decide

/-- C35 violated: the read of an lvb times out but the acquire succeeds; the event is collected for another I/O, which frees the
buffer; the process then sets the lvb. -/
theorem lvb_use_after_free_violated :
    Enabled (init 2) (.lvbRead late) ∧
      (run (init 2) [.lvbRead late, .series true [{ evs := [.event 0 true, .event 1 true] }]]).lvb = some 0 ∧
      (run (init 2) [.lvbRead late, .series true [{ evs := [.event 0 true, .event 1 true] }]]).freed 0 = 1 ∧
      (run (init 2) [.lvbRead late, .series true [{ evs := [.event 0 true, .event 1 true] }]]).bad = false ∧
      (run (init 2) [.lvbRead late, .series true [{ evs := [.event 0 true, .event 1 true] }], .lvbUse]).bad = true := by
  refine ⟨⟨rfl, rfl, rfl⟩, ?_⟩
  decide

/-- C35 violated: as before, and the release of the lease frees the buffer a second time. If the event is not collected before,
the release frees the buffer while the kernel still works on it. -/
theorem lvb_double_free_violated :
    (run (init 2) [.lvbRead late, .series true [{ evs := [.event 0 true, .event 1 true] }], .lvbFree]).freed 0 = 2 ∧
      (run (init 2) [.lvbRead late, .lvbFree]).freed 0 = 1 ∧ (run (init 2) [.lvbRead late, .lvbFree]).fly 0 = some 0 := by decide

/-- C35 violated: the write of an lvb times out and the release frees the buffer. -/
theorem lvb_write_violated :
    (run (init 2) [.lvbRead (done 0), .lvbWrite late, .lvbFree]).freed 0 = 1 ∧
      (run (init 2) [.lvbRead (done 0), .lvbWrite late, .lvbFree]).fly 0 = some 0 := by decide

/-- C35 violated: the read of a resource index times out and its buffer is freed while the kernel still works on it. -/
theorem rindex_early_free_violated :
    (run (init 2) [.rindex late []]).freed 0 = 1 ∧ (run (init 2) [.rindex late []]).fly 0 = some 0 := by decide

/-- C35 violated: the buffer is freed again when the event is collected. -/
theorem rindex_double_free_violated :
    (run (init 2) [.rindex late [], .series true [{ evs := [.event 0 true, .event 1 true] }]]).freed 0 = 2 := by decide

/-- Part of C35 violated: a failed write when a lease is initialised loses the buffer. -/
theorem lease_init_leak :
    (run (init 2) [.leaseInit [{ evs := [.event 0 false] }], .close []]).freed 0 = 0 ∧
      (run (init 2) [.leaseInit [{ evs := [.event 0 false] }], .close []]).next = 1 := by decide

/-- Part of C35 violated: when the write of a renewal times out, the next renewal loses the buffer of the read. -/
theorem renew_leak :
    (run (init 2) [.renew [] (done 0) true late, .renew [] (done 1) true (done 1), .close [.event 0 true]]).freed 0 = 0 ∧
      (run (init 2) [.renew [] (done 0) true late, .renew [] (done 1) true (done 1), .close [.event 0 true]]).freed 1 = 1 := by decide

/-- Part of C35 violated: a read that timed out and then failed loses its buffer. -/
theorem reap_leak :
    (run (init 2) [.renew [] late true (done 0), .renew [.event 0 false] (done 0) true (done 0), .close []]).freed 0 = 0 := by decide

end Sanlock.Aio
