import Verif.NoMem

/-!
# Lemmas on programs that allocate
-/

namespace Sanlock.NoMem

/-- An allocation failed before: from here on nothing is written, no null pointer is used, and the result is an error. -/
def Failing {α : Type} (res : α → Int) : Prog α → Prop
  | .ret a => res a < 0
  | .alloc k => ∀ m, Failing res (k m)
  | .op k => ∀ r, Failing res (k r)
  | .write _ _ => False
  | .crash => False

/-- Every failure of an allocation leads to `Failing`. -/
def Clean {α : Type} (res : α → Int) : Prog α → Prop
  | .ret _ => True
  | .alloc k => Clean res (k true) ∧ Failing res (k false)
  | .op k => ∀ r, Clean res (k r)
  | .write _ k => ∀ r, Clean res (k r)
  | .crash => True

theorem failing_runs {α : Type} {res : α → Int} {p : Prog α} {t : List Ev} {e : End α} (h : Runs p t e) :
    Failing res p → (∃ a, e = .done a ∧ res a < 0) ∧ ∀ w r, Ev.write w r ∉ t := by
  induction h with
  | ret a => intro f; exact ⟨⟨a, rfl, f⟩, fun _ _ hm => nomatch hm⟩
  | crash => intro f; exact f.elim
  | alloc m _ ih =>
    intro f
    obtain ⟨h1, h2⟩ := ih (f m)
    refine ⟨h1, fun w r hm => ?_⟩
    rcases List.mem_cons.mp hm with h | h
    · exact nomatch h
    · exact h2 w r h
  | op r _ ih =>
    intro f
    obtain ⟨h1, h2⟩ := ih (f r)
    refine ⟨h1, fun w r hm => ?_⟩
    rcases List.mem_cons.mp hm with h | h
    · exact nomatch h
    · exact h2 w r h
  | write r _ ih => intro f; exact f.elim

theorem clean_runs {α : Type} {res : α → Int} {p : Prog α} {t : List Ev} {e : End α} (h : Runs p t e) :
    Clean res p → ∀ pre post, t = pre ++ Ev.alloc false :: post →
      (∃ a, e = .done a ∧ res a < 0) ∧ ∀ w r, Ev.write w r ∉ post := by
  induction h with
  | ret a => intro _ pre post e; cases pre <;> exact nomatch e
  | crash => intro _ pre post e; cases pre <;> exact nomatch e
  | @alloc k m t e hr ih =>
    intro c pre post et
    cases pre with
    | nil =>
      simp only [List.nil_append, List.cons.injEq, Ev.alloc.injEq] at et
      obtain ⟨e1, e2⟩ := et
      subst e1 e2
      exact failing_runs hr c.2
    | cons x pre =>
      simp only [List.cons_append, List.cons.injEq] at et
      cases m with
      | true => exact ih c.1 pre post et.2
      | false =>
        obtain ⟨h1, h2⟩ := failing_runs hr c.2
        refine ⟨h1, fun w r hm => h2 w r ?_⟩
        rw [et.2]
        exact List.mem_append_right _ (List.mem_cons_of_mem _ hm)
  | op r _ ih =>
    intro c pre post et
    cases pre with
    | nil => exact nomatch et
    | cons x pre =>
      simp only [List.cons_append, List.cons.injEq] at et
      exact ih (c r) pre post et.2
  | write r _ ih =>
    intro c pre post et
    cases pre with
    | nil => exact nomatch et
    | cons x pre =>
      simp only [List.cons_append, List.cons.injEq] at et
      exact ih (c r) pre post et.2

/-- Executions of a sequence. -/
theorem runs_bind {α β : Type} {p : Prog α} {f : α → Prog β} {t : List Ev} {e : End β} (h : Runs (p.bind f) t e) :
    (∃ a t1 t2, Runs p t1 (.done a) ∧ Runs (f a) t2 e ∧ t = t1 ++ t2) ∨ (Runs p t .crash ∧ e = .crash) := by
  induction p generalizing t e with
  | ret a => exact .inl ⟨a, [], t, .ret a, h, rfl⟩
  | crash => cases h; exact .inr ⟨.crash, rfl⟩
  | alloc k ih =>
    cases h with
    | alloc m h =>
      rcases ih m h with ⟨a, t1, t2, h1, h2, h3⟩ | ⟨h1, h2⟩
      · exact .inl ⟨a, _ :: t1, t2, .alloc m h1, h2, by rw [h3]; rfl⟩
      · exact .inr ⟨.alloc m h1, h2⟩
  | op k ih =>
    cases h with
    | op m h =>
      rcases ih m h with ⟨a, t1, t2, h1, h2, h3⟩ | ⟨h1, h2⟩
      · exact .inl ⟨a, _ :: t1, t2, .op m h1, h2, by rw [h3]; rfl⟩
      · exact .inr ⟨.op m h1, h2⟩
  | write w k ih =>
    cases h with
    | write m h =>
      rcases ih m h with ⟨a, t1, t2, h1, h2, h3⟩ | ⟨h1, h2⟩
      · exact .inl ⟨a, _ :: t1, t2, .write m h1, h2, by rw [h3]; rfl⟩
      · exact .inr ⟨.write m h1, h2⟩

theorem bind_runs {α β : Type} {p : Prog α} {f : α → Prog β} {t1 t2 : List Ev} {a : α} {e : End β}
    (h1 : Runs p t1 (.done a)) (h2 : Runs (f a) t2 e) : Runs (p.bind f) (t1 ++ t2) e := by
  induction p generalizing t1 with
  | ret b => cases h1; exact h2
  | crash => cases h1
  | alloc k ih => cases h1 with | alloc m h => exact .alloc m (ih m h)
  | op k ih => cases h1 with | op m h => exact .op m (ih m h)
  | write w k ih => cases h1 with | write m h => exact .write m (ih m h)

end Sanlock.NoMem

namespace Sanlock.NoMem

/-- `Q` holds for what was observed and the end of every execution; `pre` was observed before. -/
def Holds {α : Type} (Q : List Ev → End α → Prop) : Prog α → List Ev → Prop
  | .ret a, pre => Q pre (.done a)
  | .alloc k, pre => ∀ m, Holds Q (k m) (pre ++ [.alloc m])
  | .op k, pre => ∀ r, Holds Q (k r) (pre ++ [.op r])
  | .write w k, pre => ∀ r, Holds Q (k r) (pre ++ [.write w r])
  | .crash, pre => Q pre .crash

theorem holds_runs {α : Type} {Q : List Ev → End α → Prop} {p : Prog α} {t : List Ev} {e : End α} (h : Runs p t e) :
    ∀ pre, Holds Q p pre → Q (pre ++ t) e := by
  induction h with
  | ret a => intro pre c; rw [List.append_nil]; exact c
  | crash => intro pre c; rw [List.append_nil]; exact c
  | alloc m _ ih => intro pre c; have := ih _ (c m); rw [List.append_assoc] at this; exact this
  | op m _ ih => intro pre c; have := ih _ (c m); rw [List.append_assoc] at this; exact this
  | write m _ ih => intro pre c; have := ih _ (c m); rw [List.append_assoc] at this; exact this

/-- Every write of `b` comes after a successful write of `a`. -/
def after (a b : What) : Bool → List Ev → Bool
  | _, [] => true
  | d, .write w r :: t =>
    if w = a then after a b (d || decide (0 ≤ r)) t else if w = b then d && after a b d t else after a b d t
  | d, _ :: t => after a b d t

theorem after_spec {a b : What} (hab : a ≠ b) {t : List Ev} {d : Bool} (h : after a b d t = true) :
    ∀ pre r post, t = pre ++ .write b r :: post → d = true ∨ ∃ r', 0 ≤ r' ∧ .write a r' ∈ pre := by
  induction t generalizing d with
  | nil => intro pre r post e; cases pre <;> exact nomatch e
  | cons x t ih =>
    intro pre r post e
    cases pre with
    | nil =>
      simp only [List.nil_append, List.cons.injEq] at e
      rw [e.1] at h
      simp only [after] at h
      rw [if_neg (fun he => hab he.symm), if_pos trivial] at h
      simp only [Bool.and_eq_true] at h
      exact .inl h.1
    | cons y pre =>
      simp only [List.cons_append, List.cons.injEq] at e
      obtain ⟨e1, e2⟩ := e
      subst e1
      have key : ∀ d', after a b d' t = true → (d' = true → d = true ∨ ∃ r', 0 ≤ r' ∧ .write a r' ∈ x :: pre) →
          d = true ∨ ∃ r', 0 ≤ r' ∧ .write a r' ∈ x :: pre := by
        intro d' hd hk
        rcases ih hd pre r post e2 with h1 | ⟨r', h1, h2⟩
        · exact hk h1
        · exact .inr ⟨r', h1, List.mem_cons_of_mem _ h2⟩
      cases x with
      | alloc m => exact key d h fun h => .inl h
      | op m => exact key d h fun h => .inl h
      | write w r0 =>
        simp only [after] at h
        by_cases h1 : w = a
        · rw [if_pos h1] at h
          refine key _ h fun hd => ?_
          rcases Bool.or_eq_true _ _ ▸ hd with h2 | h2
          · exact .inl h2
          · exact .inr ⟨r0, of_decide_eq_true h2, by rw [h1]; exact List.mem_cons_self⟩
        · rw [if_neg h1] at h
          by_cases h2 : w = b
          · rw [if_pos h2] at h
            simp only [Bool.and_eq_true] at h
            exact key d h.2 fun h => .inl h
          · rw [if_neg h2] at h
            exact key d h fun h => .inl h

end Sanlock.NoMem
