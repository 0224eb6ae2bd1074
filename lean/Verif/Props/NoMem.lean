import Verif.Lemmas.NoMem
import Verif.Props.Verify

/-!
# C72: what happens when memory runs out
-/

namespace Sanlock.NoMem

open OnDisk

/-- What one expects when an allocation fails: the result is an error, no null pointer is used, and nothing is written any
more. -/
def FailsClean {α : Type} (res : α → Int) (p : Prog α) : Prop :=
  ∀ t e, Runs p t e → ∀ pre post, t = pre ++ Ev.alloc false :: post →
    (∃ a, e = .done a ∧ res a < 0) ∧ ∀ w r, Ev.write w r ∉ post

theorem bind_ite {α β : Type} {c : Prop} [Decidable c] {p q : Prog α} {f : α → Prog β} :
    (if c then p else q).bind f = if c then p.bind f else q.bind f := by split <;> rfl

theorem holds_ite_iff {α : Type} {Q : List Ev → End α → Prop} {c : Prop} [Decidable c] {p q : Prog α} {pre : List Ev} :
    Holds Q (if c then p else q) pre ↔ (c → Holds Q p pre) ∧ (¬ c → Holds Q q pre) := by
  split <;> simp [*]

theorem clean_ite_iff {α : Type} {res : α → Int} {c : Prop} [Decidable c] {p q : Prog α} :
    Clean res (if c then p else q) ↔ (c → Clean res p) ∧ (¬ c → Clean res q) := by
  split <;> simp [*]

/-- **C72, sectors, host blocks, renewals, the header of an index.** -/
theorem fails_clean_partial (n : Nat) (buf : Bool) :
    FailsClean id writeSectors ∧ FailsClean id readSectors ∧ FailsClean id (writeHostBlock n) ∧
    FailsClean id readModeBlock ∧ FailsClean id (renew buf) ∧ FailsClean id readHeader ∧
    FailsClean id (begin_ (.ret 0)) := by
  have hl : ∀ n rv, Clean (id : Int → Int) (hostBlockLoop rv n) := by
    intro n
    induction n with
    | zero => intro rv; trivial
    | succ n ih =>
      intro rv r
      show Clean id (if r < 0 then Prog.ret r else hostBlockLoop r n)
      split
      · trivial
      · exact ih r
  have lt : Rv.ENOMEM < 0 := by decide
  have hh : Clean (id : Int → Int) readHeader := by
    refine ⟨fun r => ?_, lt⟩
    show Clean id (if r < 0 then Prog.ret r else .op fun v => .ret v)
    split
    · trivial
    · intro v; trivial
  refine ⟨fun t e h => clean_runs h ⟨fun _ => trivial, lt⟩, fun t e h => clean_runs h ⟨fun _ => trivial, lt⟩,
    fun t e h => clean_runs h ⟨hl n 0, lt⟩, fun t e h => clean_runs h ⟨fun _ => trivial, lt⟩,
    fun t e h => clean_runs h ?_, fun t e h => clean_runs h hh, fun t e h => clean_runs h ?_⟩
  · have hread : Clean (id : Int → Int) (.op fun r => if r ≠ 0 then .ret r else
        .op fun v => if v < 0 then .ret v else
        .alloc fun m => if m then .write .other fun r => .ret (if r < 0 then r else Rv.OK) else .ret Rv.ENOMEM) := by
      intro r
      show Clean id (if r ≠ 0 then Prog.ret r else _)
      split
      · trivial
      · intro v
        show Clean id (if v < 0 then Prog.ret v else _)
        split
        · trivial
        · exact ⟨fun _ => trivial, lt⟩
    cases buf with
    | true => exact hread
    | false =>
      refine ⟨hread, fun r => ?_⟩
      show (if r < 0 then r else -14) < 0
      split <;> omega
  · intro o
    show Clean id (if o < 0 then Prog.ret o else _)
    split
    · trivial
    intro b
    show Clean id (if b < 0 then Prog.ret b else _)
    split
    · trivial
    refine ⟨fun r => ?_, lt⟩
    simp only [Prog.bind, bind_ite, if_true, clean_ite_iff, Clean, Failing, Bool.not_true, Bool.not_false, id]
    simp [lt]

example : ∃ t e, Runs (writeHostBlock 3) t e ∧ Ev.alloc false ∈ t :=
  ⟨_, _, .alloc false (.ret _), List.mem_cons_self⟩

/-! ## Initialising lease areas -/

/-- The successful writes of lease areas. -/
def leaseWrites (t : List Ev) : Nat := (t.filter fun x => match x with | .write .lease r => decide (0 ≤ r) | _ => false).length

theorem leaseWrites_append (a b : List Ev) : leaseWrites (a ++ b) = leaseWrites a + leaseWrites b := by
  simp only [leaseWrites, List.filter_append, List.length_append]

theorem holds_initLoop {Q : List Ev → End Int → Prop} (n : Nat) (pre : List Ev)
    (h0 : ∀ t, leaseWrites t = leaseWrites pre + n → Q t (.done 0)) (h1 : ∀ t r, r < 0 → Q t (.done r)) :
    Holds Q (initLoop n) pre := by
  induction n generalizing pre with
  | zero => exact h0 pre rfl
  | succ n ih =>
    intro r
    show Holds Q (if r < 0 then Prog.ret r else initLoop n) _
    split
    · exact h1 _ r ‹_›
    · rename_i hr
      refine ih _ fun t ht => h0 t ?_
      rw [ht, leaseWrites_append]
      have : leaseWrites [Ev.write .lease r] = 1 := by
        simp only [leaseWrites, List.filter_cons]
        rw [if_pos (decide_eq_true (by omega))]
        rfl
      omega

/-- **C72, initialising.** When `sanlock_write_lockspace` returns exactly 0, the area was written twice (all records, then the
first one again), when `sanlock_write_resource` does, every disk was written; whatever else happened. -/
theorem init_zero_partial :
    (∀ t, Runs cmdWriteLockspace t (.done 0) → leaseWrites t = 2) ∧
    (∀ n t, Runs (cmdWriteResource n) t (.done 0) → leaseWrites t = n) := by
  refine ⟨fun t h => ?_, fun n t h => ?_⟩
  · refine holds_runs (Q := fun t e => e = .done 0 → leaseWrites t = 2) h [] ?_ rfl
    intro o
    show Holds _ (if o < 0 then Prog.ret (-19) else deltaInit) _
    split
    · intro e; exact nomatch e
    intro m
    cases m with
    | false => intro e; exact nomatch e
    | true =>
      intro r
      show Holds _ (if r < 0 then Prog.ret r else .write .lease fun r2 => .ret r2) _
      split
      · intro e
        have := End.done.inj e
        omega
      · rename_i hr
        intro r2 e
        have := End.done.inj e
        subst this
        show leaseWrites [.op o, .alloc true, .write .lease r, .write .lease 0] = 2
        simp only [leaseWrites, List.filter_cons]
        rw [if_pos (decide_eq_true (by omega))]
        rfl
  · refine holds_runs (Q := fun t e => e = .done 0 → leaseWrites t = n) h [] ?_ rfl
    intro m
    cases m with
    | false => intro e; exact nomatch e
    | true =>
      intro o
      show Holds _ (if o < 0 then Prog.ret o else paxosInit n) _
      split
      · intro e
        have := End.done.inj e
        omega
      intro m
      cases m with
      | false => intro e; exact nomatch e
      | true =>
        refine holds_initLoop n _ (fun t ht _ => ?_) (fun t r hr e => ?_)
        · rw [ht]
          show leaseWrites [.alloc true, .op o, .alloc true] + n = n
          simp [leaseWrites]
        · have := End.done.inj e
          omega

example : Runs (cmdWriteResource 2) [.alloc true, .op 0, .alloc true, .write .lease 0, .write .lease 0] (.done 0) :=
  .alloc true (.op 0 (.alloc true (.write 0 (.write 0 (.ret 0)))))

/-- **C72 is violated.** Without memory both calls return 12, which is no error code, though nothing was written. -/
theorem init_violated (n : Nat) :
    (∃ t, Runs cmdWriteLockspace t (.done 12) ∧ ∀ w r, Ev.write w r ∉ t) ∧
    (∃ t, Runs (cmdWriteResource n) t (.done 12) ∧ ∀ w r, Ev.write w r ∉ t) := by
  refine ⟨⟨[.op 0, .alloc false], .op 0 (.alloc false (.ret _)), ?_⟩,
    ⟨[.alloc true, .op 0, .alloc false], .alloc true (.op 0 (.alloc false (.ret _))), ?_⟩⟩ <;>
    intro w r h <;> simp at h

/-! ## The index -/

theorem holds_ite {α : Type} {Q : List Ev → End α → Prop} {c : Prop} [Decidable c] {p q : Prog α} {pre : List Ev}
    (h1 : c → Holds Q p pre) (h2 : ¬ c → Holds Q q pre) : Holds Q (if c then p else q) pre := by
  split
  · exact h1 ‹_›
  · exact h2 ‹_›

/-- A write of `w` succeeded. -/
def wrote (w : What) (t : List Ev) : Bool := t.any fun x => match x with
  | .write v r => decide (v = w) && decide (0 ≤ r)
  | _ => false

theorem wrote_spec {w : What} {t : List Ev} (h : wrote w t = true) : ∃ r, 0 ≤ r ∧ Ev.write w r ∈ t := by
  obtain ⟨x, hx, h⟩ := List.any_eq_true.mp h
  match x, hx, h with
  | .write v r, hx, h =>
    simp only [Bool.and_eq_true, decide_eq_true_eq] at h
    exact ⟨r, h.2, h.1 ▸ hx⟩

/-- What creating and deleting must respect: no crash, and writes of `b` only after a successful write of `a`, unless an
allocation failed. -/
structure Ordered (a b : What) (t : List Ev) (e : End Int) : Prop where
  ok : Ev.alloc false ∉ t → e ≠ .crash ∧ after a b false t = true ∧
    ∀ rv, e = .done rv → 0 ≤ rv → wrote a t = true ∧ wrote b t = true

/-- Close the cases of an execution. -/
macro "leaf" : tactic => `(tactic| (
    constructor
    intro hn
    simp only [List.mem_cons, Ev.alloc.injEq, List.not_mem_nil, reduceCtorEq, false_or, or_false, not_or,
      End.done.injEq] at * <;>
    first
      | (exfalso; simp_all; done)
      | (exfalso; omega)
      | (refine ⟨by simp, ?_, fun rv e h => ?_⟩
         · simp only [after, if_true, reduceCtorEq, if_false, Bool.false_or, Bool.and_true, decide_eq_true_eq]
           try omega
         · first
           | (exfalso; omega)
           | (simp only [wrote, List.any_cons, decide_true, decide_false, reduceCtorEq, Bool.false_or, Bool.true_and,
               Bool.false_and, List.any_nil, Bool.or_false, decide_eq_true_eq]; omega))))

theorem create_all (t : List Ev) (e : End Int) (h : Runs rindexCreate t e) : Ordered .lease .entry t e := by
  refine holds_runs h [] ?_
  simp only [rindexCreate, begin_, readHeader, readRindex, search, paxosInit, initLoop, updateRindex, released, bind_ite,
    Prog.bind, Holds, holds_ite_iff, List.nil_append, List.cons_append]
  have := (by decide : Rv.ENOMEM < 0)
  repeat' (first | apply And.intro | intro)
  all_goals leaf

theorem delete_all (t : List Ev) (e : End Int) (h : Runs rindexDelete t e) : Ordered .entry .lease t e := by
  refine holds_runs h [] ?_
  simp only [rindexDelete, begin_, readHeader, readRindex, search, paxosInit, initLoop, updateRindex, released, bind_ite,
    Prog.bind, Holds, holds_ite_iff, List.nil_append, List.cons_append]
  have := (by decide : Rv.ENOMEM < 0)
  repeat' (first | apply And.intro | intro)
  all_goals leaf

/-- Nothing but a failed allocation makes an operation use a null pointer. -/
structure NoCrash {α : Type} (t : List Ev) (e : End α) : Prop where
  ok : Ev.alloc false ∉ t → ∃ a, e = .done a

macro "leafNC" : tactic => `(tactic| (
    constructor
    intro hn
    simp only [List.mem_cons, Ev.alloc.injEq, List.not_mem_nil, reduceCtorEq, false_or, or_false, not_or,
      End.done.injEq] at * <;>
    first
      | exact ⟨_, rfl⟩
      | (exfalso; simp_all; done)
      | (exfalso; omega)))

theorem lookup_all (t : List Ev) (e : End Int) (h : Runs rindexLookup t e) : NoCrash t e := by
  refine holds_runs h [] ?_
  simp only [rindexLookup, readHeader, readRindex, search, bind_ite,
    Prog.bind, Holds, holds_ite_iff, List.nil_append, List.cons_append]
  repeat' (first | apply And.intro | intro)
  all_goals leafNC

theorem update_all (t : List Ev) (e : End Int) (h : Runs rindexUpdate t e) : NoCrash t e := by
  refine holds_runs h [] ?_
  simp only [rindexUpdate, readHeader, readRindex, updateRindex, bind_ite,
    Prog.bind, Holds, holds_ite_iff, List.nil_append, List.cons_append]
  repeat' (first | apply And.intro | intro)
  all_goals leafNC

theorem owners_all (t : List Ev) (e : End Int) (h : Runs readOwners t e) : NoCrash t e := by
  refine holds_runs h [] ?_
  simp only [readOwners, readBuf, bind_ite,
    Prog.bind, Holds, holds_ite_iff, List.nil_append, List.cons_append]
  repeat' (first | apply And.intro | intro)
  all_goals leafNC

/-- **C72, creating.** When no allocation fails, the index names a new resource only after its lease area was written, and
the call reports success only after both. -/
theorem create_partial {t : List Ev} {e : End Int} (h : Runs rindexCreate t e) (hm : Ev.alloc false ∉ t) :
    (∃ rv, e = .done rv ∧ (0 ≤ rv → (∃ r, 0 ≤ r ∧ Ev.write .lease r ∈ t) ∧ ∃ r, 0 ≤ r ∧ Ev.write .entry r ∈ t)) ∧
    ∀ pre r post, t = pre ++ .write .entry r :: post → ∃ r', 0 ≤ r' ∧ Ev.write .lease r' ∈ pre := by
  obtain ⟨h1, h2, h3⟩ := (create_all t e h).ok hm
  refine ⟨?_, fun pre r post et => ?_⟩
  · cases e with
    | crash => exact absurd rfl h1
    | done rv => exact ⟨rv, rfl, fun h => ⟨wrote_spec (h3 rv rfl h).1, wrote_spec (h3 rv rfl h).2⟩⟩
  · exact (after_spec (by decide) h2 pre r post et).resolve_left (by decide)

/-- **C72, deleting.** When no allocation fails, a lease area is cleared only after the index stopped naming it, and the call
reports success only after both. -/
theorem delete_partial {t : List Ev} {e : End Int} (h : Runs rindexDelete t e) (hm : Ev.alloc false ∉ t) :
    (∃ rv, e = .done rv ∧ (0 ≤ rv → (∃ r, 0 ≤ r ∧ Ev.write .entry r ∈ t) ∧ ∃ r, 0 ≤ r ∧ Ev.write .lease r ∈ t)) ∧
    ∀ pre r post, t = pre ++ .write .lease r :: post → ∃ r', 0 ≤ r' ∧ Ev.write .entry r' ∈ pre := by
  obtain ⟨h1, h2, h3⟩ := (delete_all t e h).ok hm
  refine ⟨?_, fun pre r post et => ?_⟩
  · cases e with
    | crash => exact absurd rfl h1
    | done rv => exact ⟨rv, rfl, fun h => ⟨wrote_spec (h3 rv rfl h).1, wrote_spec (h3 rv rfl h).2⟩⟩
  · exact (after_spec (by decide) h2 pre r post et).resolve_left (by decide)

example : ∃ t, Runs rindexCreate t (.done 0) ∧ Ev.alloc false ∉ t :=
  ⟨_, .op 0 (.op 0 (.alloc true (.op 0 (.op 0 (.alloc true (.alloc true (.op 0 (.alloc true (.op 0 (.op 0 (.alloc true
    (.write 0 (.alloc true (.write 0 (.op 0 (.ret 0)))))))))))))))), by decide⟩

/-- **C72, looking up, updating, reading owners.** When no allocation fails no null pointer is used. -/
theorem no_crash_partial {t : List Ev} {e : End Int} (hm : Ev.alloc false ∉ t)
    (h : Runs rindexLookup t e ∨ Runs rindexUpdate t e ∨ Runs readOwners t e) : ∃ rv, e = .done rv := by
  rcases h with h | h | h
  · exact (lookup_all t e h).ok hm
  · exact (update_all t e h).ok hm
  · exact (owners_all t e h).ok hm

/-- **C72 is violated.** Creating a resource: without memory for the lease area the index still gets the entry, and the call
reports success. -/
theorem create_violated : ∃ t, Runs rindexCreate t (.done 0) ∧ Ev.write .entry 0 ∈ t ∧ ∀ r, Ev.write .lease r ∉ t := by
  refine ⟨_, .op 0 (.op 0 (.alloc true (.op 0 (.op 0 (.alloc true (.alloc true (.op 0 (.alloc true (.op 0 (.op 0
    (.alloc false (.alloc true (.write 0 (.op 0 (.ret 0))))))))))))))), by decide, fun r h => ?_⟩
  simp at h

/-- **C72 is violated.** Deleting a resource: without memory for the sector of the index the entry stays, the lease area is
cleared, and the call reports success. -/
theorem delete_violated : ∃ t, Runs rindexDelete t (.done 0) ∧ Ev.write .lease 0 ∈ t ∧ ∀ r, Ev.write .entry r ∉ t := by
  refine ⟨_, .op 0 (.op 0 (.alloc true (.op 0 (.op 0 (.alloc true (.alloc true (.op 0 (.alloc true (.op 0 (.op 0
    (.alloc false (.alloc true (.write 0 (.op 0 (.ret 0))))))))))))))), by decide, fun r h => ?_⟩
  simp at h

/-- **C72 is violated.** Formatting an index: without memory for its lease the call reports success though the lease was not
written; without memory for the index itself it returns 12. -/
theorem format_violated :
    (∃ t, Runs rindexFormat t (.done 0) ∧ ∀ r, Ev.write .lease r ∉ t) ∧
    (∃ t, Runs rindexFormat t (.done 12) ∧ ∀ w r, Ev.write w r ∉ t) := by
  refine ⟨⟨_, .op 0 (.alloc true (.write 0 (.alloc true (.alloc false (.ret 0))))), fun r h => ?_⟩,
    ⟨_, .op 0 (.alloc false (.ret _)), fun w r h => ?_⟩⟩ <;> simp at h

/-- **C72 is violated.** Without memory for the index the daemon follows a null pointer in all operations on it, and also when
the owners of a resource are asked for.  Everything else works here. -/
theorem crash_violated (there : List Bool) :
    (∃ t, Runs rindexCreate t .crash ∧ ∀ r, Ev.op r ∈ t → r = 0) ∧
    (∃ t, Runs rindexDelete t .crash ∧ ∀ r, Ev.op r ∈ t → r = 0) ∧
    (∃ t, Runs rindexLookup t .crash ∧ ∀ r, Ev.op r ∈ t → r = 0) ∧
    (∃ t, Runs rindexUpdate t .crash ∧ ∀ r, Ev.op r ∈ t → r = 0) ∧
    (∃ t, Runs (rindexRebuild there) t .crash ∧ ∀ r, Ev.op r ∈ t → r = 0) ∧
    (∃ t, Runs readOwners t .crash ∧ ∀ r, Ev.op r ∈ t → r = 0) := by
  refine ⟨⟨_, .op 0 (.op 0 (.alloc true (.op 0 (.op 0 (.alloc true (.alloc true (.op 0 (.alloc false .crash)))))))), ?_⟩,
    ⟨_, .op 0 (.op 0 (.alloc true (.op 0 (.op 0 (.alloc true (.alloc true (.op 0 (.alloc false .crash)))))))), ?_⟩,
    ⟨_, .op 0 (.op 0 (.alloc true (.op 0 (.op 0 (.alloc false .crash))))), ?_⟩,
    ⟨_, .op 0 (.op 0 (.alloc true (.op 0 (.op 0 (.alloc false (.alloc true .crash)))))), ?_⟩,
    ⟨_, .op 0 (.op 0 (.alloc true (.op 0 (.op 0 (.alloc true (.alloc true (.op 0 (.alloc false .crash)))))))), ?_⟩,
    ⟨_, .alloc false .crash, ?_⟩⟩ <;> intro r h <;> simp at h <;> exact h

/-! ## Rebuilding an index -/

theorem loop_nomem (there : List Bool) :
    ∃ t, Runs (rebuildLoop there) t (.done (there.map fun _ => false)) ∧ ∀ r, Ev.op r ∉ t := by
  induction there with
  | nil => exact ⟨[], .ret [], fun r h => nomatch h⟩
  | cons b rest ih =>
    obtain ⟨t, h1, h2⟩ := ih
    have hb : Runs ((rebuildLoop rest).bind fun l => .ret (decide ((0 : Int) ≤ Rv.ENOMEM ∧ b = true) :: l)) (t ++ [])
        (.done (false :: rest.map fun _ => false)) := bind_runs h1 (by
      have : decide ((0 : Int) ≤ Rv.ENOMEM ∧ b = true) = false := decide_eq_false fun h => absurd h.1 (by decide)
      rw [this]
      exact .ret _)
    refine ⟨_, .alloc false hb, fun r h => ?_⟩
    rcases List.mem_cons.mp h with h | h
    · exact nomatch h
    · rw [List.append_nil] at h
      exact h2 r h

/-- **C72 is violated.** Rebuilding an index: without memory to read the leases, though every device works, the index is written
without any entry, whatever leases there are, and the call reports success. -/
theorem rebuild_violated (there : List Bool) :
    ∃ t, Runs (rindexRebuild there) t (.done (0, some (there.map fun _ => false))) ∧ ∀ r, Ev.op r ∈ t → r = 0 := by
  obtain ⟨t, h1, h2⟩ := loop_nomem there
  have hb : Runs ((rebuildLoop there).bind fun l => .write .entry fun w => .op fun _ =>
      .ret (if w < 0 then w else 0, if w < 0 then none else some l)) (t ++ [.write .entry 0, .op 0])
      (.done ((0 : Int), some (there.map fun _ => false))) := bind_runs h1 (.write 0 (.op 0 (.ret _)))
  refine ⟨_, .op 0 (.op 0 (.alloc true (.op 0 (.op 0 (.alloc true (.alloc true (.op 0 (.alloc true (.op 0 hb))))))))), fun r h => ?_⟩
  simp only [List.mem_cons, List.mem_append, Ev.op.injEq, reduceCtorEq, false_or, List.not_mem_nil, or_false] at h
  have := h2 r
  rcases h with h | h | h | h | h | h | h | h <;> first | exact h | exact absurd h this

theorem loop_ok {there : List Bool} {t : List Ev} {l : List Bool} (h : Runs (rebuildLoop there) t (.done l))
    (hm : Ev.alloc false ∉ t) (ho : ∀ r, Ev.op r ∈ t → 0 ≤ r) : l = there := by
  induction there generalizing t l with
  | nil => cases h; rfl
  | cons b rest ih =>
    cases h with
    | @alloc _ m t' _ h =>
      cases m with
      | false => exact absurd List.mem_cons_self hm
      | true =>
        cases h with
        | @op _ r t'' _ h =>
          have hr : 0 ≤ r := ho r (List.mem_cons_of_mem _ List.mem_cons_self)
          have h' : Runs (if r = -90 then Prog.ret ((b :: rest).map fun _ => false)
            else (rebuildLoop rest).bind fun l => .ret (decide (0 ≤ r ∧ b = true) :: l)) t'' (.done l) := h
          rw [if_neg (by omega)] at h'
          rcases runs_bind h' with ⟨a, t1, t2, h1, h2, h3⟩ | ⟨_, h2⟩
          · have e := ih h1 (fun hh => hm (by rw [h3]; simp [hh])) (fun r hh => ho r (by rw [h3]; simp [hh]))
            cases h2
            rw [e]
            congr 1
            cases b <;> simp [hr]
          · exact nomatch h2

/-- **C72, rebuilding.** When no allocation and no read fails, the entries written are those of the leases that are there. -/
theorem rebuild_partial {there l : List Bool} {t : List Ev} {rv : Int} (h : Runs (rindexRebuild there) t (.done (rv, some l)))
    (hm : Ev.alloc false ∉ t) (ho : ∀ r, Ev.op r ∈ t → 0 ≤ r) : l = there := by
  have step1 : ∀ {h0 : Int} {k : Prog (Int × Option (List Bool))} {t' : List Ev},
      Runs (if h0 < 0 then Prog.ret (h0, none) else k) t' (.done (rv, some l)) → Runs k t' (.done (rv, some l)) := by
    intro h0 k t' h
    split at h
    · cases h
    · exact h
  obtain ⟨t1, h, hs1⟩ : ∃ t1, Runs ((rebuildLoop there).bind fun l =>
      .write .entry fun w => .op fun _ => .ret (if w < 0 then w else 0, if w < 0 then none else some l)) t1
      (.done (rv, some l)) ∧ ∀ x ∈ t1, x ∈ t := by
    cases h with | op o h => ?_
    have h := step1 h
    cases h with | op b h => ?_
    have h := step1 h
    cases h with | alloc m h => ?_
    have hm1 : m = true := by
      cases m with
      | true => rfl
      | false => exact absurd (by simp) hm
    subst hm1
    cases h with | op r h => ?_
    have hr : ¬ r < 0 := by have := ho r (by simp); omega
    have h : Runs (Prog.bind (if r < 0 then .ret r else .op fun v => .ret v) _) _ _ := h
    rw [if_neg hr] at h
    cases h with | op v h => ?_
    have h := step1 h
    cases h with | alloc m h => ?_
    have hm1 : m = true := by
      cases m with
      | true => rfl
      | false => exact absurd (by simp) hm
    subst hm1
    cases h with | alloc m h => ?_
    have hm1 : m = true := by
      cases m with
      | true => rfl
      | false => exact absurd (by simp) hm
    subst hm1
    cases h with | op a h => ?_
    have h := step1 h
    cases h with | alloc m h => ?_
    have hm1 : m = true := by
      cases m with
      | true => rfl
      | false => exact absurd (by simp) hm
    subst hm1
    cases h with | @op _ r2 t9 _ h => ?_
    have hr : 0 ≤ r2 := ho r2 (by simp)
    have h : Runs (if r2 < 0 then .op fun _ => .ret (r2, none) else
      if (!decide (0 ≤ r2)) = true then .crash else (rebuildLoop there).bind fun l =>
        .write .entry fun w => .op fun _ => .ret (if w < 0 then w else 0, if w < 0 then none else some l)) t9
      (.done (rv, some l)) := h
    rw [if_neg (by omega), if_neg (by simp [hr])] at h
    exact ⟨t9, h, fun x hx => by simp [hx]⟩
  rcases runs_bind h with ⟨a, t2, t3, h1, h2, h3⟩ | ⟨_, h2⟩
  · have e := loop_ok h1 (fun hh => hm (hs1 _ (by rw [h3]; simp [hh]))) (fun r hh => ho r (hs1 _ (by rw [h3]; simp [hh])))
    subst e
    cases h2 with | write w h2 => ?_
    cases h2 with | op o h2 => ?_
    by_cases hw : w < 0
    · rw [if_pos hw, if_pos hw] at h2
      cases h2
    · rw [if_neg hw, if_neg hw] at h2
      cases h2
      rfl
  · exact nomatch h2

example : ∃ t, Runs (rindexRebuild [true]) t (.done (0, some [true])) ∧ Ev.alloc false ∉ t :=
  ⟨_, .op 0 (.op 0 (.alloc true (.op 0 (.op 0 (.alloc true (.alloc true (.op 0 (.alloc true (.op 0
    (.alloc true (.op 0 (.write 0 (.op 0 (.ret _)))))))))))))), by decide⟩

/-! ## Value blocks and lists -/

theorem recvLoop_ok {rv : Int} {n : Nat} {t : List Ev} {e : End (Int × Bool)} (h : Runs (recvLoop rv n) t e) :
    ∃ r b, e = .done (r, b) ∧ (b = true ∨ r < 0) := by
  induction n generalizing t with
  | zero => cases h; exact ⟨rv, true, rfl, .inl rfl⟩
  | succ n ih =>
    cases h with
    | @op _ r t' _ h =>
      have h' : Runs (if r < 0 then Prog.ret (r, false) else recvLoop rv n) t' e := h
      split at h'
      · cases h'; exact ⟨r, false, rfl, .inr ‹_›⟩
      · exact ih h'

/-- **C72, lists.** When there is memory, a call that returns a list and reports no error has set the list. -/
theorem list_partial {rv : Int} {n : Nat} {t : List Ev} {e : End (Int × Bool)} (h : Runs (clientList rv n) t e)
    (hm : Ev.alloc false ∉ t) : ∃ r b, e = .done (r, b) ∧ (b = true ∨ r < 0) := by
  unfold clientList at h
  split at h
  · rename_i hr; cases h; exact ⟨rv, false, rfl, .inr hr.1⟩
  · cases h with
    | @alloc _ m t' _ h =>
      cases m with
      | false => exact absurd List.mem_cons_self hm
      | true => exact recvLoop_ok h

example : Runs (clientList 0 1) [.alloc true, .op 4] (.done (0, true)) := .alloc true (.op 4 (.ret _))

/-- **C72 is violated.** Without memory the list calls return the daemon's result, that is success, and the number of items, but
leave the caller's pointer alone; an acquire that asks for the value block succeeds without one. -/
theorem list_violated (n : Nat) :
    (∃ t, Runs (clientList 0 n) t (.done (0, false))) ∧ ∃ t, Runs acquireLvb t (.done (Rv.OK, false)) :=
  ⟨⟨_, .alloc false (.ret _)⟩, ⟨_, .alloc false (.ret _)⟩⟩

/-! ## Acquire -/

/-- **C72 is violated.** A host acquires a free lease and memory runs out in the ballot: it commits a record with version 0,
owner 0 and generation 0, though no ballot was run; the call reports that another host got the lease. -/
theorem ballot_nomem_violated (P : Acquire.Par) (sum : Leader → UInt32) (cur : Leader) (mbal now : UInt64)
    (hf : cur.timestamp = 0) (hforce : P.force = false) (hl : P.acquireLver = 0) (hid : P.hostId ≠ 0)
    (hv : cur.lver < cur.lver + 1) :
    ∃ x l, runM P sum (StM.init cur.sectorSize.toNat (Acquire.leaderAlign cur))
        [.op (.lease (.ok (cur, mbal))), .ballotNoMem, .op (.written now 0)] = some x ∧
      x.s.written = some l ∧ x.s.pc = .done Rv.ACQUIRE_OTHER (some l) none ∧
      l.lver = 0 ∧ l.ownerId = 0 ∧ l.ownerGeneration = 0 ∧ l.writeId = P.hostId := by
  have h2 : ¬ cur.lver > cur.lver + 1 := fun h => UInt64.lt_asymm h hv
  simp [runM, stepM, StM.init, Acquire.step, Acquire.St.init, Acquire.afterRead, hforce, hl, hf, Acquire.toRun,
    Acquire.settle, Acquire.beforeBallot, h2, enomem, Rv.DBLOCK_MBAL, Rv.DBLOCK_LVER, Acquire.newLeader, Ne.symm hid]

/-- **C72 is violated.** When memory runs out in the first read, acquire goes on with a record it never read. -/
theorem read_nomem_violated (P : Acquire.Par) (sum : Leader → UInt32) (sector align : Nat) :
    ∃ x, runM P sum (StM.init sector align) [.readNoMem] = some x ∧ x.unset = true :=
  ⟨_, rfl, rfl⟩

/-- **C72 is violated.** When acquire has to start again because the record changed, and memory runs out in that read, it goes on
with the old record: it runs a ballot for the version after the old one although it has seen the newer record. -/
theorem stale_nomem_violated (P : Acquire.Par) (sum : Leader → UInt32) (old new : Leader) (mbal : UInt64)
    (hf : old.timestamp = 0) (hforce : P.force = false) (hl : P.acquireLver = 0)
    (hv : old.lver < old.lver + 1) (hn : old.lver + 1 < new.lver) :
    ∃ x m, runM P sum (StM.init old.sectorSize.toNat (Acquire.leaderAlign old))
        [.op (.lease (.ok (old, mbal))), .op (.ballot Rv.DBLOCK_LVER none false), .op (.leader (.ok new)), .readNoMem] = some x ∧
      x.s.pc = .ballot old m := by
  have h2 : ¬ old.lver > old.lver + 1 := fun h => UInt64.lt_asymm h hv
  have h3 : ¬ new.lver = old.lver + 1 := fun h => by
    rw [h] at hn
    exact UInt64.lt_irrefl _ hn
  simp [runM, stepM, StM.init, Acquire.step, Acquire.St.init, Acquire.afterRead, hforce, hl, hf, Acquire.toRun,
    Acquire.settle, Acquire.beforeBallot, h2, h3, hn]

/-- Ballots that succeed deliver their block. -/
def Delivers (ins : List InM) : Prop :=
  ∀ rv retract, InM.op (.ballot rv none retract) ∈ ins → rv < 0

structure CInv (P : Acquire.Par) (sum : Leader → UInt32) (ins : List InM) (x : StM) : Prop where
  write : ∀ cur, x.s.pc = .write cur → ∃ rv db rt rest, ins = .op (.ballot rv (some db) rt) :: rest ∧ 0 ≤ rv ∧ x.s.dblock = db
  written : ∀ l, x.s.written = some l → ∃ now w rv db rt rest cur, ins = .op (.written now w) :: .op (.ballot rv (some db) rt) :: rest ∧
    0 ≤ rv ∧ l = Acquire.newLeader P sum cur db now
  fin : x.s.written ≠ none → ∃ rv ret db, x.s.pc = .done rv ret db

theorem not_write_afterRead {P : Acquire.Par} {s : Acquire.St} {cur : Leader} {m : UInt64} :
    (∀ c, (Acquire.afterRead P s cur m).pc ≠ .write c) ∧ (Acquire.afterRead P s cur m).written = s.written := by
  unfold Acquire.afterRead Acquire.toRun
  refine ⟨fun c => ?_, ?_⟩ <;> (repeat' split) <;> simp

theorem settle_facts {P : Acquire.Par} {s : Acquire.St} :
    (Acquire.settle P s = s ∨ ∀ c, (Acquire.settle P s).pc ≠ .write c) ∧ (Acquire.settle P s).written = s.written ∧
    (Acquire.settle P s).dblock = s.dblock := by
  unfold Acquire.settle Acquire.beforeBallot
  split
  · refine ⟨.inr fun c => ?_, ?_, ?_⟩ <;> (repeat' split) <;> simp
  · exact ⟨.inl rfl, rfl, rfl⟩

theorem step_write {P : Acquire.Par} {sum : Leader → UInt32} {s s' : Acquire.St} {i : Acquire.In} {c : Leader}
    (h : Acquire.step P sum s i = some s') (hw : s'.pc = .write c) :
    ∃ rv db rt, i = .ballot rv db rt ∧ 0 ≤ rv ∧ s'.dblock = db.getD ⟨0, 0, 0, 0, 0, 0, 0, 0⟩ := by
  cases i with
  | ballot rv db rt =>
    cases e : s.pc <;> simp only [Acquire.step, e, reduceCtorEq] at h
    refine ⟨rv, db, rt, rfl, ?_⟩
    split at h
    · cases h; exact nomatch hw
    · split at h
      · cases h; exact nomatch hw
      · rename_i h2
        cases h
        exact ⟨by omega, rfl⟩
  | lease r =>
    exfalso
    cases e : s.pc <;> simp only [Acquire.step, e, reduceCtorEq] at h
    split at h <;> cases h
    · exact nomatch hw
    · exact not_write_afterRead.1 c hw
  | _ =>
    exfalso
    cases e : s.pc <;> simp only [Acquire.step, e, Acquire.afterHostInfo, Acquire.afterDelta, Acquire.afterClock,
      Acquire.toRun, Acquire.beforeBallot] at h <;> (repeat' split at h) <;> cases h <;> exact nomatch hw

theorem step_written {P : Acquire.Par} {sum : Leader → UInt32} {s s' : Acquire.St} {i : Acquire.In}
    (h : Acquire.step P sum s i = some s') :
    s'.written = s.written ∨ ∃ now rv cur, i = .written now rv ∧ s.pc = .write cur ∧
      s'.written = some (Acquire.newLeader P sum cur s.dblock now) ∧ ∃ rv ret db, s'.pc = .done rv ret db := by
  cases i with
  | written now rv =>
    cases e : s.pc <;> simp only [Acquire.step, e, reduceCtorEq] at h
    rename_i cur
    split at h
    · cases h; exact .inl rfl
    · right
      refine ⟨now, rv, cur, rfl, rfl, ?_⟩
      split at h <;> cases h <;> exact ⟨rfl, _, _, _, rfl⟩
  | lease r =>
    left
    cases e : s.pc <;> simp only [Acquire.step, e, reduceCtorEq] at h
    split at h <;> cases h
    · rfl
    · exact not_write_afterRead.2
  | _ =>
    left
    cases e : s.pc <;> simp only [Acquire.step, e, Acquire.afterHostInfo, Acquire.afterDelta, Acquire.afterClock,
      Acquire.toRun, Acquire.beforeBallot] at h <;> (repeat' split at h) <;> cases h <;> rfl

theorem step_done {P : Acquire.Par} {sum : Leader → UInt32} {s : Acquire.St} {i : Acquire.In} {rv : Int} {ret : Option Leader}
    {db : Option Dblock} (hd : s.pc = .done rv ret db) : Acquire.step P sum s i = none := by
  cases i <;> simp only [Acquire.step, hd]

theorem cinv {P : Acquire.Par} {sum : Leader → UInt32} {sector align : Nat} {ins : List InM} {x : StM}
    (h : ExecM P sum (StM.init sector align) ins x) (hd : Delivers ins) (hb : InM.ballotNoMem ∉ ins) : CInv P sum ins x := by
  induction h with
  | nil => exact ⟨fun c h => (nomatch h), fun l h => (nomatch h), fun h => absurd rfl h⟩
  | @step ins x x' i hx hs ih =>
    have ih := ih (fun rv rt hm => hd rv rt (List.mem_cons_of_mem _ hm)) fun hm => hb (List.mem_cons_of_mem _ hm)
    -- nothing was written before, since a step is possible
    have hnw : x.s.written = none := by
      refine Classical.byContradiction fun hne => ?_
      obtain ⟨rv, ret, db, he⟩ := ih.fin hne
      cases i with
      | op j => simp only [stepM, step_done he] at hs; exact nomatch hs
      | readNoMem => simp only [stepM, he] at hs; exact nomatch hs
      | ballotNoMem => exact hb List.mem_cons_self
    obtain ⟨f1, f2, f3⟩ := @settle_facts P x'.s
    cases i with
    | ballotNoMem => exact absurd List.mem_cons_self hb
    | readNoMem =>
      have key : (∀ c, x'.s.pc ≠ .write c) ∧ x'.s.written = none := by
        cases e : x.s.pc <;> simp only [stepM, e, reduceCtorEq] at hs
        split at hs <;> cases hs
        · exact ⟨not_write_afterRead.1, not_write_afterRead.2.trans hnw⟩
        · exact ⟨fun c h => (nomatch h), hnw⟩
      refine ⟨fun c hc => ?_, fun l hl => ?_, fun hne => ?_⟩
      · rcases f1 with f1 | f1
        · exact absurd (show x'.s.pc = .write c by rw [← f1]; exact hc) (key.1 c)
        · exact absurd hc (f1 c)
      · have hl : (Acquire.settle P x'.s).written = some l := hl
        rw [f2, key.2] at hl
        exact nomatch hl
      · exact absurd (f2.trans key.2) hne
    | op j =>
      obtain ⟨s', hs', e'⟩ : ∃ s', Acquire.step P sum x.s j = some s' ∧ x'.s = s' := by
        cases e : Acquire.step P sum x.s j with
        | none => simp only [stepM, e] at hs; exact nomatch hs
        | some s' =>
          simp only [stepM, e, Option.map_some, Option.some.injEq] at hs
          exact ⟨s', rfl, by rw [← hs]⟩
      rw [e'] at f1 f2 f3
      refine ⟨fun c hc => ?_, fun l hl => ?_, fun hne => ?_⟩
      · have hc : (Acquire.settle P x'.s).pc = .write c := hc
        rw [e'] at hc
        rcases f1 with f1 | f1
        · rw [f1] at hc
          obtain ⟨rv, db, rt, g1, g2, g3⟩ := step_write hs' hc
          cases db with
          | none => exact absurd (hd rv rt (by rw [g1]; exact List.mem_cons_self)) (by omega)
          | some db =>
            refine ⟨rv, db, rt, ins, by rw [g1], g2, ?_⟩
            show (Acquire.settle P x'.s).dblock = db
            rw [e', f3, g3]
            rfl
        · exact absurd hc (f1 c)
      · have hl : (Acquire.settle P x'.s).written = some l := hl
        rw [e', f2] at hl
        rcases step_written hs' with g | ⟨now, w, cur, g1, g2, g3, _⟩
        · rw [g, hnw] at hl
          exact nomatch hl
        · obtain ⟨rv, db, rt, rest, k1, k2, k3⟩ := ih.write cur g2
          rw [g3, k3] at hl
          exact ⟨now, w, rv, db, rt, rest, cur, by rw [g1, k1], k2, (Option.some.inj hl).symm⟩
      · have hne : (Acquire.settle P x'.s).written ≠ none := hne
        rw [e', f2] at hne
        rcases step_written hs' with g | ⟨_, _, _, _, _, _, a, b, c, g⟩
        · exact absurd (g.trans hnw) hne
        · refine ⟨a, b, c, ?_⟩
          show (Acquire.settle P x'.s).pc = _
          rw [e']
          simp only [Acquire.settle, g]

/-- **C72, acquire.** When memory does not run out in a ballot - it may run out in any read - the record committed by acquire has
the version, owner, generation and timestamp that the ballot before it delivered. -/
theorem commit_partial {P : Acquire.Par} {sum : Leader → UInt32} {sector align : Nat} {ins : List InM} {x : StM} {l : Leader}
    (h : ExecM P sum (StM.init sector align) ins x) (hd : Delivers ins) (hb : InM.ballotNoMem ∉ ins)
    (hw : x.s.written = some l) :
    ∃ now w rv db rt rest, ins = .op (.written now w) :: .op (.ballot rv (some db) rt) :: rest ∧ 0 ≤ rv ∧
      l.lver = db.lver ∧ l.ownerId = db.inp ∧ l.ownerGeneration = db.inp2 ∧ l.timestamp = db.inp3 := by
  obtain ⟨now, w, rv, db, rt, rest, cur, h1, h2, h3⟩ := (cinv h hd hb).written l hw
  exact ⟨now, w, rv, db, rt, rest, h1, h2, by rw [h3]; rfl, by rw [h3]; rfl, by rw [h3]; rfl, by rw [h3]; rfl⟩

theorem exec_of_run {P : Acquire.Par} {sum : Leader → UInt32} {x0 x y : StM} {pre ins : List InM}
    (h : ExecM P sum x0 pre x) (hr : runM P sum x ins = some y) : ExecM P sum x0 (ins.reverse ++ pre) y := by
  induction ins generalizing x pre with
  | nil =>
    simp only [runM, Option.some.injEq] at hr
    subst hr
    exact h
  | cons i rest ih =>
    obtain ⟨x', h1, h2⟩ := Option.bind_eq_some_iff.mp hr
    rw [List.reverse_cons, List.append_assoc]
    exact ih (.step h h1) h2

/-- Acquiring any free lease, with a ballot that succeeds, is such an execution. -/
example (P : Acquire.Par) (cur : Leader) (db : Dblock) (hf : cur.timestamp = 0) (hforce : P.force = false)
    (hl : P.acquireLver = 0) (hv : cur.lver < cur.lver + 1) (hdb : db.inp = P.hostId) :
    ∃ ins x l, ExecM P (fun _ => 0) (StM.init cur.sectorSize.toNat (Acquire.leaderAlign cur)) ins x ∧ Delivers ins ∧
      InM.ballotNoMem ∉ ins ∧ x.s.written = some l ∧ l.ownerId = P.hostId := by
  have h2 : ¬ cur.lver > cur.lver + 1 := fun h => UInt64.lt_asymm h hv
  obtain ⟨x, l, h1, h3, h4⟩ : ∃ x l, runM P (fun _ => 0) (StM.init cur.sectorSize.toNat (Acquire.leaderAlign cur))
      [.op (.lease (.ok (cur, 0))), .op (.ballot 0 (some db) false), .op (.written 99 0)] = some x ∧
      x.s.written = some l ∧ l.ownerId = P.hostId := by
    simp [runM, stepM, StM.init, Acquire.step, Acquire.St.init, Acquire.afterRead, hforce, hl, hf, Acquire.toRun,
      Acquire.settle, Acquire.beforeBallot, h2, Rv.DBLOCK_MBAL, Rv.DBLOCK_LVER, Acquire.newLeader, hdb]
  refine ⟨_, x, l, exec_of_run .nil h1, ?_, ?_, h3, h4⟩
  · intro rv rt h
    simp at h
  · simp

/-! ## Several disks -/

theorem seen_ok {zero : Leader} {one : Option Leader} {rds : List Rd} {t : List (Leader × Int)}
    (h : seen zero one rds = some t) (hn : ∀ r ∈ rds, r ≠ .noMem) (hneg : ∀ e l, (.err e ∈ rds ∨ .bad e l ∈ rds) → e < 0) (l : Leader) :
    Verify.votesFor l (t.map fun (l, rv) => if rv < 0 then ⟨zero, false⟩ else (⟨l, true⟩ : Verify.DiskRead)) =
      (rds.filter fun r => match r with | .ok m => Verify.leadersMatch m l | _ => false).length ∧ t.length = rds.length := by
  induction rds generalizing one t with
  | nil => cases h; exact ⟨rfl, rfl⟩
  | cons r rest ih =>
    have hn' : ∀ r ∈ rest, r ≠ .noMem := fun r hr => hn r (List.mem_cons_of_mem _ hr)
    have hneg' : ∀ e l, (.err e ∈ rest ∨ .bad e l ∈ rest) → e < 0 := fun e l h =>
      hneg e l (h.imp (List.mem_cons_of_mem _) (List.mem_cons_of_mem _))
    cases r with
    | noMem => exact absurd rfl (hn _ List.mem_cons_self)
    | err e =>
      obtain ⟨t', h1, h2⟩ := Option.map_eq_some_iff.mp h
      obtain ⟨i1, i2⟩ := ih h1 hn' hneg'
      subst h2
      have he : e < 0 := hneg e zero (.inl List.mem_cons_self)
      refine ⟨?_, congrArg Nat.succ i2⟩
      rw [List.filter_cons_of_neg (by simp), ← i1]
      simp [Verify.votesFor, he]
    | bad e m =>
      obtain ⟨t', h1, h2⟩ := Option.map_eq_some_iff.mp h
      obtain ⟨i1, i2⟩ := ih h1 hn' hneg'
      subst h2
      have he : e < 0 := hneg e m (.inr List.mem_cons_self)
      refine ⟨?_, congrArg Nat.succ i2⟩
      rw [List.filter_cons_of_neg (by simp), ← i1]
      simp [Verify.votesFor, he]
    | ok m =>
      obtain ⟨t', h1, h2⟩ := Option.map_eq_some_iff.mp h
      obtain ⟨i1, i2⟩ := ih h1 hn' hneg'
      subst h2
      refine ⟨?_, congrArg Nat.succ i2⟩
      by_cases hm : Verify.leadersMatch m l = true
      · rw [List.filter_cons_of_pos (by simpa using hm), List.length_cons, ← i1]
        simp [Verify.votesFor, hm]
      · rw [List.filter_cons_of_neg (by simpa using hm), ← i1]
        simp [Verify.votesFor, hm]

/-- **C72, several disks.** When memory does not run out, the record with which acquire starts was read, and verified, on more
than half of the disks. -/
theorem read_num_partial {zero l : Leader} {rds : List Rd} {rv : Int} (h : readNum zero rds = some (rv, some l))
    (hn : ∀ r ∈ rds, r ≠ .noMem) (hneg : ∀ e l, (.err e ∈ rds ∨ .bad e l ∈ rds) → e < 0) :
    rds.length < 2 * (rds.filter fun r => match r with | .ok m => Verify.leadersMatch m l | _ => false).length := by
  obtain ⟨t, h1, h2⟩ := Option.map_eq_some_iff.mp h
  obtain ⟨i1, i2⟩ := seen_ok h1 hn hneg l
  unfold Verify.leaseReadNum at h2
  simp only at h2
  split at h2
  · exact nomatch h2
  · split at h2
    · exact nomatch h2
    · rename_i l' hp
      have : l' = l := Option.some.inj (Prod.mk.inj h2).2
      subst this
      obtain ⟨k, hk, hm⟩ := Verify.pick_some hp
      have hle := (Verify.reps_le _ _ hk).1
      simp only at hle
      rw [i1] at hle
      rcases (Verify.majority_iff _ _).mp hm with ⟨g1, g2⟩ | ⟨g1, g2⟩
      · unfold Verify.Majority at g1; omega
      · omega

example : ∃ l, readNum Verify.exRec [.ok l, .err (-5), .ok l] = some (0, some l) :=
  ⟨{ Verify.exRec with lver := 9 }, rfl⟩

/-- **C72 is violated.** Three disks: the first cannot be read, the second has the record, and there is no memory to read the
third: the record of the second disk is counted twice and taken for the one of a majority.  If there is no memory for the first
disk, a record that was never read is counted. -/
theorem read_num_violated (zero l : Leader) (e : Int) (he : e < 0) (hz : Verify.leadersMatch l zero = false) :
    readNum zero [.err e, .ok l, .noMem] = some (12, some l) ∧ ∀ rest, readNum zero (.noMem :: rest) = none := by
  have hm : Verify.leadersMatch l l = true := (Verify.leadersMatch_iff _ _).mpr (Verify.SameOwner.refl l)
  refine ⟨?_, fun rest => rfl⟩
  simp [readNum, seen, enomem, Verify.leaseReadNum, Verify.reps, Verify.addRead, Verify.bumpFirst, hm, Verify.pick,
    Ballot.majority, he, hz]

end Sanlock.NoMem
