import Verif.Props.Client

/-!
# When a process stops being regarded as killed: C44
-/

namespace Sanlock.Client

/-- How a slot can change with regard to its kill count. -/
def Keeps (c c' : Cl) : Prop := c.killCount ≤ c'.killCount ∨ c'.used = false ∨ c.used = false

theorem keeps_refl (c : Cl) : Keeps c c := Or.inl (Nat.le_refl _)

theorem keeps_free {c d : Cl} (h : d.killCount = c.killCount) : Keeps c (freeCl d) := by
  unfold freeCl Keeps
  split
  · left; omega
  · split
    · left; omega
    · split
      · left; exact Nat.le_of_eq h.symm
      · right; left; rfl

theorem keeps_resume {c d : Cl} (h : d.killCount = c.killCount) : Keeps c (resumeCl d) := by
  unfold resumeCl
  split
  · left; omega
  · split
    · left; omega
    · split
      · exact keeps_free (by exact h)
      · left; exact Nat.le_of_eq h.symm

theorem keeps_set {f : Nat → Cl} {i : Nat} {d : Cl} (h : Keeps (f i) d) (ci : Nat) : Keeps (f ci) (set f i d ci) := by
  unfold set
  split
  · rename_i he; subst he; exact h
  · exact keeps_refl _

/-- C44: a process that is being killed is regarded so until its connection is closed, or until it has released its last lease
with a command of its own while it was alive. -/
theorem kill_mark_kept {s s' : State} {a : Act} {ci : Nat} (hs : step s a = some s')
    (hlt : (s'.cl ci).killCount < (s.cl ci).killCount) :
    (s'.cl ci).used = false ∨ (s.cl ci).used = false ∨
      ((s.cl ci).tokens = [] ∧ (s.cl ci).pidDead = false ∧
        ∃ th T ok, a = .final th ok ∧ s.thr th = some T ∧ T.kind = .release ∧ T.ct = ci ∧ T.held = []) := by
  have done : Keeps (s.cl ci) (s'.cl ci) → (s'.cl ci).used = false ∨ (s.cl ci).used = false ∨
      ((s.cl ci).tokens = [] ∧ (s.cl ci).pidDead = false ∧
        ∃ th T ok, a = .final th ok ∧ s.thr th = some T ∧ T.kind = .release ∧ T.ct = ci ∧ T.held = []) := by
    intro h
    rcases h with h | h | h
    · omega
    · exact Or.inl h
    · exact Or.inr (Or.inl h)
  cases a with
  | connect c =>
    simp only [step] at hs
    split at hs
    · rename_i hc
      injection hs with hs; subst hs
      exact done (keeps_set (f := s.cl) (Or.inr (Or.inr hc.2)) ci)
    · cases hs
  | register c pid =>
    simp only [step] at hs
    split at hs
    · injection hs with hs; subst hs
      refine done (keeps_set (f := s.cl) ?_ ci); exact Or.inl (Nat.le_refl _)
    · cases hs
  | start cin ct k =>
    simp only [step] at hs
    split at hs
    · split at hs
      · injection hs with hs; subst hs
        refine done (Or.inl ?_)
        simp only [set]
        split <;> split <;> simp_all
      · injection hs with hs; subst hs; exact absurd hlt (Nat.lt_irrefl _)
    · cases hs
  | startOther cin =>
    simp only [step] at hs
    split at hs
    · injection hs with hs; subst hs
      refine done (keeps_set (f := s.cl) ?_ ci); exact Or.inl (Nat.le_refl _)
    · cases hs
  | lookup th name =>
    simp only [step] at hs
    repeat' split at hs
    all_goals first | (cases hs; done) | (injection hs with hs; subst hs; exact absurd hlt (Nat.lt_irrefl _))
  | acq th i =>
    simp only [step] at hs
    repeat' split at hs
    all_goals first | (cases hs; done) | (injection hs with hs; subst hs; exact absurd hlt (Nat.lt_irrefl _))
  | take th t =>
    simp only [step] at hs
    repeat' split at hs
    all_goals first | (cases hs; done) | (injection hs with hs; subst hs; refine done (keeps_set (f := s.cl) ?_ ci); exact Or.inl (Nat.le_refl _))
  | relTok th t =>
    simp only [step] at hs
    repeat' split at hs
    all_goals first | (cases hs; done) | (injection hs with hs; subst hs; exact absurd hlt (Nat.lt_irrefl _))
  | final th ok =>
    simp only [step] at hs
    split at hs
    · rename_i T hT
      split at hs
      · split at hs
        · split at hs
          · injection hs with hs; subst hs; refine done (keeps_set (f := s.cl) ?_ ci); exact Or.inl (Nat.le_refl _)
          · injection hs with hs; subst hs; refine done (keeps_set (f := s.cl) ?_ ci); exact Or.inl (Nat.le_refl _)
        · split at hs
          · rename_i hheld
            injection hs with hs; subst hs
            simp only [set] at hlt
            split at hlt
            · rename_i he
              subst he
              simp only at hlt
              split at hlt
              · rename_i hk
                exact Or.inr (Or.inr ⟨hk.2.2, hk.2.1, th, T, ok, rfl, hT, hk.1, rfl, hheld⟩)
              · omega
            · omega
          · cases hs
      · cases hs
    · cases hs
  | relCl th =>
    simp only [step] at hs
    repeat' split at hs
    all_goals first | (cases hs; done) | (injection hs with hs; subst hs; first | exact absurd hlt (Nat.lt_irrefl _) | refine done (keeps_set (f := s.cl) ?_ ci); exact Or.inl (Nat.le_refl _))
  | free th =>
    simp only [step] at hs
    split at hs
    · rename_i T hT
      split at hs
      · have h1 : Keeps (s.cl ci) (set s.cl T.ct (freeCl (s.cl T.ct)) ci) := keeps_set (keeps_free rfl) ci
        split at hs
        · injection hs with hs; subst hs
          refine done ?_
          by_cases hc : ci = T.cin
          · subst hc
            simp only [set, if_true] at h1 ⊢
            exact h1
          · have : set (set s.cl T.ct (freeCl (s.cl T.ct))) T.cin
                { set s.cl T.ct (freeCl (s.cl T.ct)) T.cin with leaked := true } ci = set s.cl T.ct (freeCl (s.cl T.ct)) ci := by
              exact if_neg hc
            rw [← this] at h1
            exact h1
        · injection hs with hs; subst hs; exact done h1
      · cases hs
    · cases hs
  | reply th =>
    simp only [step] at hs
    split at hs
    · split at hs
      · injection hs with hs; subst hs; exact done (keeps_set (keeps_resume rfl) ci)
      · cases hs
    · cases hs
  | dead1 c =>
    simp only [step] at hs
    split at hs
    · split at hs
      · injection hs with hs; subst hs; exact absurd hlt (Nat.lt_irrefl _)
      · injection hs with hs; subst hs; refine done (keeps_set (f := s.cl) ?_ ci); exact Or.inl (Nat.le_refl _)
    · cases hs
  | dead2 =>
    simp only [step] at hs
    split at hs
    · injection hs with hs; subst hs; refine done (keeps_set (f := s.cl) ?_ ci); exact keeps_free rfl
    · cases hs
  | hangup c =>
    simp only [step] at hs
    split at hs
    · injection hs with hs; subst hs; refine done (keeps_set (f := s.cl) ?_ ci); exact keeps_free rfl
    · cases hs
  | convertFail th =>
    simp only [step] at hs
    repeat' split at hs
    all_goals first | (cases hs; done) | (injection hs with hs; subst hs; refine done (keeps_set (f := s.cl) ?_ ci); exact Or.inl (Nat.le_refl _))
  | addSpace name hostId =>
    simp only [step] at hs
    split at hs
    · injection hs with hs; subst hs; exact absurd hlt (Nat.lt_irrefl _)
    · cases hs
  | setGen inst gen =>
    simp only [step] at hs; injection hs with hs; subst hs; exact absurd hlt (Nat.lt_irrefl _)
  | killSpace inst =>
    simp only [step] at hs; injection hs with hs; subst hs; exact absurd hlt (Nat.lt_irrefl _)
  | remSpace n inst =>
    simp only [step] at hs
    repeat' split at hs
    all_goals first | (cases hs; done) | (injection hs with hs; subst hs; exact absurd hlt (Nat.lt_irrefl _))
  | kill inst c =>
    simp only [step] at hs
    repeat' split at hs
    all_goals first | (cases hs; done) | (injection hs with hs; subst hs; refine done (keeps_set (f := s.cl) ?_ ci); exact Or.inl (Nat.le_succ _))

set_option maxRecDepth 100000 in
/-- A kill count is cleared by releasing everything. -/
example : ((runA init [.connect 0, .connect 1, .register 0 100, .addSpace 5 1, .setGen 0 1, .start 0 0 .acquire, .lookup 0 5, .acq 0 ⟨5, 1, 1, 0⟩, .final 0 true,
    .reply 0, .killSpace 0, .kill 0 0]).any fun s => (s.cl 0).killCount == 1 && !(s.cl 0).tokens.isEmpty) = true := by decide +kernel

end Sanlock.Client
