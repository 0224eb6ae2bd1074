import Verif.Lemmas.Status

/-!
# Lemmas about the sorted output
-/

namespace Sanlock.Status

/-- The entries that are not printed yet. -/
def left (a : List (Option Rec)) : List Rec := a.filterMap id

theorem left_some (r : Rec) (a : List (Option Rec)) : left (some r :: a) = r :: left a := rfl
theorem left_none (a : List (Option Rec)) : left (none :: a) = left a := rfl

theorem pick_eq (f : Rec → Bool) (a : List (Option Rec)) :
    (pick f a).1 = (left a).filter f ∧ left (pick f a).2 = (left a).filter (fun r => !f r) := by
  induction a with
  | nil => exact ⟨rfl, rfl⟩
  | cons x a ih =>
    cases x with
    | none => exact ⟨by rw [pick, left_none]; exact ih.1, by rw [pick, left_none, left_none]; exact ih.2⟩
    | some r =>
      rw [pick]
      split
      · rename_i h
        refine ⟨?_, ?_⟩
        · rw [left_some, List.filter_cons, if_pos h]; exact congrArg _ ih.1
        · rw [left_none, left_some, List.filter_cons, if_neg (by simp [h])]; exact ih.2
      · rename_i h
        refine ⟨?_, ?_⟩
        · rw [left_some, List.filter_cons, if_neg h]; exact ih.1
        · rw [left_some, left_some, List.filter_cons, if_pos (by simp [h])]; exact congrArg _ ih.2

theorem find_none {t : Nat} {a : List (Option Rec)} (h : find t a = none) : ∀ r ∈ left a, r.st.type ≠ t := by
  induction a with
  | nil => intro r hr; cases hr
  | cons x a ih =>
    cases x with
    | none =>
      rw [find, Option.map_eq_none_iff] at h
      exact ih h
    | some r =>
      rw [find] at h
      split at h
      · cases h
      · rename_i hr
        rw [Option.map_eq_none_iff] at h
        intro x hx
        rcases List.mem_cons.1 hx with rfl | hx
        · exact hr
        · exact ih h x hx

theorem find_some {t : Nat} {a a' : List (Option Rec)} {r : Rec} (h : find t a = some (r, a')) :
    ∃ pre post, left a = pre ++ r :: post ∧ left a' = pre ++ post ∧ r.st.type = t ∧ ∀ x ∈ pre, x.st.type ≠ t := by
  induction a generalizing a' with
  | nil => cases h
  | cons x a ih =>
    cases x with
    | none =>
      rw [find, Option.map_eq_some_iff] at h
      obtain ⟨⟨r', a''⟩, h1, h2⟩ := h
      injection h2 with h2 h3
      subst h2 h3
      obtain ⟨pre, post, e1, e2, e3, e4⟩ := ih h1
      exact ⟨pre, post, e1, e2, e3, e4⟩
    | some x =>
      rw [find] at h
      split at h
      · rename_i hx
        injection h with h
        injection h with h2 h3
        subst h2 h3
        exact ⟨[], left a, rfl, rfl, hx, by simp⟩
      · rename_i hx
        rw [Option.map_eq_some_iff] at h
        obtain ⟨⟨r', a''⟩, h1, h2⟩ := h
        injection h2 with h2 h3
        subst h2 h3
        obtain ⟨pre, post, e1, e2, e3, e4⟩ := ih h1
        refine ⟨x :: pre, post, by rw [left_some, e1]; rfl, by rw [left_some, e2]; rfl, e3, fun y hy => ?_⟩
        rcases List.mem_cons.1 hy with rfl | hy
        · exact hx
        · exact e4 y hy

/-- Each head with the records that belong to it and to no earlier head. -/
def groups (f : Rec → Rec → Bool) : List Rec → List Rec → List Rec
  | [], _ => []
  | h :: hs, rs => h :: (rs.filter (f h) ++ groups f hs (rs.filter fun r => !f h r))

/-- Those that belong to no head. -/
def others (f : Rec → Rec → Bool) (hs rs : List Rec) : List Rec := rs.filter fun r => hs.all fun h => !f h r

theorem by_eq {t : Nat} {f : Rec → Rec → Bool} (hf : ∀ h r, f h r = true → r.st.type ≠ t) : ∀ fuel a,
    ((left a).filter fun r => r.st.type = t).length ≤ fuel →
    (by_ t f fuel a).1 = groups f ((left a).filter fun r => r.st.type = t) ((left a).filter fun r => r.st.type ≠ t) ∧
      left (by_ t f fuel a).2 = others f ((left a).filter fun r => r.st.type = t) ((left a).filter fun r => r.st.type ≠ t) := by
  intro fuel
  induction fuel with
  | zero =>
    intro a hl
    have h0 : ((left a).filter fun r => r.st.type = t) = [] := List.eq_nil_of_length_eq_zero (by omega)
    rw [by_, h0, groups, others]
    refine ⟨rfl, ?_⟩
    have h1 : ∀ r ∈ left a, r.st.type ≠ t := fun r hr hc => by
      have : r ∈ (left a).filter fun r => r.st.type = t := List.mem_filter.2 ⟨hr, by simpa using hc⟩
      rw [h0] at this
      cases this
    rw [List.filter_filter]
    exact (List.filter_eq_self.2 fun r hr => by simpa using h1 r hr).symm
  | succ n ih =>
    intro a hl
    rw [by_]
    split
    · rename_i hn
      have h1 := find_none hn
      have h0 : ((left a).filter fun r => r.st.type = t) = [] := List.filter_eq_nil_iff.2 fun r hr => by simpa using h1 r hr
      rw [h0, groups, others]
      refine ⟨rfl, ?_⟩
      rw [List.filter_filter]
      exact (List.filter_eq_self.2 fun r hr => by simpa using h1 r hr).symm
    · rename_i r a' hs
      obtain ⟨pre, post, e1, e2, e3, e4⟩ := find_some hs
      obtain ⟨p1, p2⟩ := pick_eq (f r) a'
      have hpre : (pre.filter fun r => decide (r.st.type = t)) = [] := List.filter_eq_nil_iff.2 fun r hr => by simpa using e4 r hr
      have hh : ((left a).filter fun r => decide (r.st.type = t)) = r :: post.filter fun r => decide (r.st.type = t) := by
        rw [e1, List.filter_append, hpre, List.filter_cons, if_pos (by simpa using e3)]; rfl
      have ho : ((left a).filter fun r => decide (r.st.type ≠ t)) = (left a').filter fun r => decide (r.st.type ≠ t) := by
        rw [e1, e2, List.filter_append, List.filter_append, List.filter_cons, if_neg (by simp [e3])]
      have k1 : ((left (pick (f r) a').2).filter fun r => decide (r.st.type = t)) = post.filter fun r => decide (r.st.type = t) := by
        rw [p2, List.filter_filter]
        have : ∀ l : List Rec, (l.filter fun x => decide (x.st.type = t) && !f r x) = l.filter fun x => decide (x.st.type = t) := fun l => by
          refine List.filter_congr fun x _ => ?_
          by_cases hx : x.st.type = t
          · have : f r x = false := by
              cases hfx : f r x with
              | false => rfl
              | true => exact absurd hx (hf _ _ hfx)
            simp [this]
          · simp [hx]
        rw [this, e2, List.filter_append, hpre]; rfl
      have k2 : ((left (pick (f r) a').2).filter fun r => decide (r.st.type ≠ t)) =
          ((left a).filter fun r => decide (r.st.type ≠ t)).filter fun x => !f r x := by
        rw [p2, ho, List.filter_filter, List.filter_filter]
        exact List.filter_congr fun x _ => Bool.and_comm _ _
      have k3 : (pick (f r) a').1 = ((left a).filter fun r => decide (r.st.type ≠ t)).filter (f r) := by
        rw [p1, ho, List.filter_filter]
        refine (List.filter_congr fun x _ => ?_)
        cases hfx : f r x with
        | false => rfl
        | true => simpa using hf _ _ hfx
      obtain ⟨i1, i2⟩ := ih (pick (f r) a').2 (by
        rw [k1]; rw [hh] at hl; simp only [List.length_cons] at hl; omega)
      rw [k1, k2] at i1 i2
      rw [hh]
      refine ⟨?_, ?_⟩
      · show r :: ((pick (f r) a').1 ++ (by_ t f n (pick (f r) a').2).1) = _
        rw [i1, k3, groups]
      · show left (by_ t f n (pick (f r) a').2).2 = _
        rw [i2, others, others, List.filter_filter]
        refine List.filter_congr fun x _ => ?_
        rw [List.all_cons, Bool.and_comm]

theorem groups_perm {f : Rec → Rec → Bool} : ∀ hs rs, (groups f hs rs ++ others f hs rs).Perm (hs ++ rs) := by
  intro hs
  induction hs with
  | nil =>
    intro rs
    show (([] : List Rec) ++ rs.filter fun _ => true).Perm rs
    rw [List.nil_append, List.filter_eq_self.2 fun _ _ => rfl]
  | cons h hs ih =>
    intro rs
    have e : others f (h :: hs) rs = others f hs (rs.filter fun r => !f h r) := by
      unfold others
      rw [List.filter_filter]
      exact List.filter_congr fun x _ => by rw [List.all_cons, Bool.and_comm]
    rw [groups, e, List.cons_append, List.append_assoc, List.cons_append]
    refine List.Perm.cons _ ?_
    refine ((List.Perm.refl _).append (ih _)).trans ?_
    refine (List.perm_append_comm_assoc _ _ _).trans ((List.Perm.refl _).append ?_)
    exact List.filter_append_perm (f h) rs

/-- A record that belongs to a head stands behind such a head, with nothing between them that does not belong to it. -/
theorem groups_under {f : Rec → Rec → Bool} : ∀ hs rs r, r ∈ rs → (∃ h ∈ hs, f h r = true) →
    ∃ h a b c, groups f hs rs = a ++ h :: (b ++ r :: c) ∧ h ∈ hs ∧ f h r = true ∧ ∀ x ∈ b, f h x = true := by
  intro hs
  induction hs with
  | nil => rintro rs r - ⟨h, hh, -⟩; cases hh
  | cons h hs ih =>
    intro rs r hr hex
    cases hf : f h r with
    | true =>
      have hm : r ∈ rs.filter (f h) := List.mem_filter.2 ⟨hr, hf⟩
      obtain ⟨b, c, hbc⟩ := List.append_of_mem hm
      refine ⟨h, [], b, c ++ groups f hs (rs.filter fun r => !f h r), ?_, List.mem_cons_self .., hf, fun x hx => ?_⟩
      · rw [groups, hbc]; simp
      · have : x ∈ rs.filter (f h) := by rw [hbc]; exact List.mem_append_left _ hx
        exact (List.mem_filter.1 this).2
    | false =>
      obtain ⟨h', hh', hf'⟩ := hex
      have hne : h' ∈ hs := by
        rcases List.mem_cons.1 hh' with rfl | hh'
        · rw [hf] at hf'; cases hf'
        · exact hh'
      obtain ⟨k, a, b, c, e1, e2, e3, e4⟩ := ih (rs.filter fun r => !f h r) r (List.mem_filter.2 ⟨hr, by simp [hf]⟩) ⟨h', hne, hf'⟩
      refine ⟨k, h :: (rs.filter (f h) ++ a), b, c, ?_, List.mem_cons_of_mem _ e2, e3, e4⟩
      rw [groups, e1]; simp

theorem left_map (rs : List Rec) : left (rs.map some) = rs := by
  induction rs with
  | nil => rfl
  | cons r rs ih => rw [List.map_cons, left_some, ih]

theorem perm_filter (f : Rec → Bool) (l : List Rec) : (l.filter f ++ l.filter fun r => !f r).Perm l := List.filter_append_perm f l

/-- The conditions of the loops hold for leases only. -/
theorem ofPid_type {p : Nat} {r : Rec} (h : ofPid p r = true) : r.st.type = 4 := by
  simp [ofPid] at h; exact h.1

theorem ofSpace_type {s : Str} {r : Rec} (h : ofSpace s r = true) : r.st.type = 4 := by
  simp [ofSpace] at h; exact h.1

/-- What the last three steps start from. -/
def rest3 (byPid : Bool) (rs : List Rec) : List Rec :=
  ((rs.filter fun r => !ofType 1 r).filter fun r => !noPid r).filter fun r => !ofType (if byPid then 3 else 2) r

def head (byPid : Bool) : Nat := if byPid then 2 else 3

def under (byPid : Bool) (h r : Rec) : Bool := if byPid then ofPid h.st.data32 r else ofSpace h.st.name r

theorem under_type {byPid : Bool} {h r : Rec} (hu : under byPid h r = true) : r.st.type = 4 := by
  cases byPid with
  | true => exact ofPid_type hu
  | false => exact ofSpace_type hu

/-- The order of the records. -/
theorem order_eq (byPid : Bool) (rs : List Rec) :
    (order byPid rs).1 = rs.filter (ofType 1) ++ ((rs.filter fun r => !ofType 1 r).filter noPid ++
        ((((rs.filter fun r => !ofType 1 r).filter fun r => !noPid r).filter (ofType (if byPid then 3 else 2))) ++
          groups (under byPid) ((rest3 byPid rs).filter fun r => r.st.type = head byPid)
            ((rest3 byPid rs).filter fun r => r.st.type ≠ head byPid))) ∧
      (order byPid rs).2 = others (under byPid) ((rest3 byPid rs).filter fun r => r.st.type = head byPid)
            ((rest3 byPid rs).filter fun r => r.st.type ≠ head byPid) := by
  obtain ⟨a1, b1⟩ := pick_eq (ofType 1) (rs.map some)
  rw [left_map] at a1 b1
  obtain ⟨a2, b2⟩ := pick_eq noPid (pick (ofType 1) (rs.map some)).2
  rw [b1] at a2 b2
  obtain ⟨a3, b3⟩ := pick_eq (ofType (if byPid then 3 else 2)) (pick noPid (pick (ofType 1) (rs.map some)).2).2
  rw [b2] at a3 b3
  have hlen : ((rest3 byPid rs).filter fun r => decide (r.st.type = head byPid)).length ≤ rs.length := by
    refine Nat.le_trans (List.length_filter_le ..) ?_
    unfold rest3
    exact Nat.le_trans (List.length_filter_le ..) (Nat.le_trans (List.length_filter_le ..) (List.length_filter_le ..))
  have all : ∀ l : List Rec, l.filter (ofType 0) = l := fun l => List.filter_eq_self.2 fun _ _ => rfl
  cases byPid with
  | true =>
    obtain ⟨a4, b4⟩ := by_eq (t := 2) (f := fun c => ofPid c.st.data32) (fun h r hr => by rw [ofPid_type hr]; decide) rs.length
      (pick (ofType (if true then 3 else 2)) (pick noPid (pick (ofType 1) (rs.map some)).2).2).2 (by rw [b3]; exact hlen)
    rw [b3] at a4 b4
    obtain ⟨a5, -⟩ := pick_eq (ofType 0) (by_ 2 (fun c => ofPid c.st.data32) rs.length
      (pick (ofType (if true then 3 else 2)) (pick noPid (pick (ofType 1) (rs.map some)).2).2).2).2
    rw [b4, all] at a5
    refine ⟨?_, a5⟩
    show _ ++ (_ ++ (_ ++ _)) = _
    rw [a1, a2, a3]
    exact congrArg _ (congrArg _ (congrArg _ a4))
  | false =>
    obtain ⟨a4, b4⟩ := by_eq (t := 3) (f := fun s => ofSpace s.st.name) (fun h r hr => by rw [ofSpace_type hr]; decide) rs.length
      (pick (ofType (if false then 3 else 2)) (pick noPid (pick (ofType 1) (rs.map some)).2).2).2 (by rw [b3]; exact hlen)
    rw [b3] at a4 b4
    obtain ⟨a5, -⟩ := pick_eq (ofType 0) (by_ 3 (fun s => ofSpace s.st.name) rs.length
      (pick (ofType (if false then 3 else 2)) (pick noPid (pick (ofType 1) (rs.map some)).2).2).2).2
    rw [b4, all] at a5
    refine ⟨?_, a5⟩
    show _ ++ (_ ++ (_ ++ _)) = _
    rw [a1, a2, a3]
    exact congrArg _ (congrArg _ (congrArg _ a4))

theorem order_perm (byPid : Bool) (rs : List Rec) : ((order byPid rs).1 ++ (order byPid rs).2).Perm rs := by
  obtain ⟨h1, h2⟩ := order_eq byPid rs
  rw [h1, h2]
  simp only [List.append_assoc]
  refine ((List.Perm.refl _).append ?_).trans (perm_filter (ofType 1) rs)
  refine ((List.Perm.refl _).append ?_).trans (perm_filter noPid _)
  refine ((List.Perm.refl _).append ?_).trans (perm_filter (ofType (if byPid then 3 else 2)) _)
  refine (groups_perm _ _).trans ?_
  have : ∀ l : List Rec, (l.filter fun r => decide (r.st.type ≠ head byPid)) = l.filter fun r => !decide (r.st.type = head byPid) :=
    fun l => List.filter_congr fun r _ => by simp
  rw [this]
  exact perm_filter _ _

end Sanlock.Status
