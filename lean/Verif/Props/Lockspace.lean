import Verif.Lockspace
import Verif.Props.Verify

/-!
# Properties of the lockspace lists: C19, C20
-/

namespace Sanlock.Lockspace

open Verify

/-- The C string in a path array. -/
def pathStr (l : List UInt8) : List UInt8 := (l.take 1024).takeWhile (· ≠ 0)

/-- Two lockspaces do not get in each other's way. -/
structure Apart (a b : Space) : Prop where
  id : a.id ≠ b.id
  name : cstr a.name ≠ cstr b.name
  disk : ¬ (pathStr a.path = pathStr b.path ∧ a.offset = b.offset)

theorem Apart.symm {a b : Space} (h : Apart a b) : Apart b a :=
  ⟨Ne.symm h.id, Ne.symm h.name, fun ⟨h1, h2⟩ => h.disk ⟨h1.symm, h2.symm⟩⟩

/-- Every lockspace the daemon knows. -/
def State.all (s : State) : List Space := s.spaces ++ (s.add ++ s.rem)

structure Inv (s : State) : Prop where
  apart : s.all.Pairwise Apart
  fresh : ∀ sp ∈ s.all, sp.id < s.counter

theorem pairwise_perm {l l' : List Space} (h : l.Perm l') (hp : l.Pairwise Apart) : l'.Pairwise Apart :=
  (h.pairwise_iff (fun h => h.symm)).mp hp

/-- Fields that identify a lockspace. -/
def sameKey (a b : Space) : Prop := a.id = b.id ∧ a.name = b.name ∧ a.path = b.path ∧ a.offset = b.offset

theorem apart_map {f : Space → Space} (hf : ∀ sp, sameKey (f sp) sp) {a b : Space} (h : Apart a b) :
    Apart (f a) (f b) := by
  obtain ⟨h1, h2, h3, h4⟩ := hf a
  obtain ⟨g1, g2, g3, g4⟩ := hf b
  refine ⟨by rw [h1, g1]; exact h.id, by rw [h2, g2]; exact h.name, ?_⟩
  rw [h3, h4, g3, g4]; exact h.disk

theorem upd_key {id : Nat} {f : Space → Space} (hf : ∀ sp, sameKey (f sp) sp) (sp : Space) :
    sameKey (if sp.id = id then f sp else sp) sp := by
  split
  · exact hf sp
  · exact ⟨rfl, rfl, rfl, rfl⟩

/-- Changing flags keeps the invariant. -/
theorem inv_map {s s' : State} (hi : Inv s) {f g h : Space → Space}
    (hf : ∀ sp, sameKey (f sp) sp) (hg : ∀ sp, sameKey (g sp) sp) (hh : ∀ sp, sameKey (h sp) sp)
    (e1 : s'.spaces = s.spaces.map f) (e2 : s'.add = s.add.map g) (e3 : s'.rem = s.rem.map h)
    (e4 : s'.counter = s.counter) : Inv s' := by
  have hap : ∀ {u v : Space → Space}, (∀ sp, sameKey (u sp) sp) → (∀ sp, sameKey (v sp) sp) →
      ∀ {a b}, Apart a b → Apart (u a) (v b) := by
    intro u v hu hv a b hab
    obtain ⟨h1, h2, h3, h4⟩ := hu a
    obtain ⟨g1, g2, g3, g4⟩ := hv b
    refine ⟨by rw [h1, g1]; exact hab.id, by rw [h2, g2]; exact hab.name, ?_⟩
    rw [h3, h4, g3, g4]; exact hab.disk
  have hp := hi.apart
  unfold State.all at hp
  rw [List.pairwise_append, List.pairwise_append] at hp
  obtain ⟨p1, ⟨p2, p3, p4⟩, p5⟩ := hp
  refine ⟨?_, ?_⟩
  · unfold State.all
    rw [e1, e2, e3, List.pairwise_append, List.pairwise_append]
    refine ⟨List.pairwise_map.mpr (p1.imp fun h => hap hf hf h), ⟨List.pairwise_map.mpr (p2.imp fun h => hap hg hg h),
      List.pairwise_map.mpr (p3.imp fun h => hap hh hh h), ?_⟩, ?_⟩
    · intro a ha b hb
      obtain ⟨a', ha', rfl⟩ := List.mem_map.mp ha
      obtain ⟨b', hb', rfl⟩ := List.mem_map.mp hb
      exact hap hg hh (p4 a' ha' b' hb')
    · intro a ha b hb
      obtain ⟨a', ha', rfl⟩ := List.mem_map.mp ha
      rcases List.mem_append.mp hb with hb | hb
      · obtain ⟨b', hb', rfl⟩ := List.mem_map.mp hb
        exact hap hf hg (p5 a' ha' b' (List.mem_append_left _ hb'))
      · obtain ⟨b', hb', rfl⟩ := List.mem_map.mp hb
        exact hap hf hh (p5 a' ha' b' (List.mem_append_right _ hb'))
  · intro sp hsp
    unfold State.all at hsp
    rw [e1, e2, e3] at hsp
    rw [e4]
    have hfr := hi.fresh
    unfold State.all at hfr
    rcases List.mem_append.mp hsp with hsp | hsp
    · obtain ⟨a', ha', rfl⟩ := List.mem_map.mp hsp
      rw [(hf a').1]; exact hfr _ (List.mem_append_left _ ha')
    · rcases List.mem_append.mp hsp with hsp | hsp
      · obtain ⟨a', ha', rfl⟩ := List.mem_map.mp hsp
        rw [(hg a').1]; exact hfr _ (List.mem_append_right _ (List.mem_append_left _ ha'))
      · obtain ⟨a', ha', rfl⟩ := List.mem_map.mp hsp
        rw [(hh a').1]; exact hfr _ (List.mem_append_right _ (List.mem_append_right _ ha'))

theorem key_refl (sp : Space) : sameKey (id sp) sp := ⟨rfl, rfl, rfl, rfl⟩

theorem inv_upd_add {s : State} (hi : Inv s) {id : Nat} {f : Space → Space} (hf : ∀ sp, sameKey (f sp) sp) :
    Inv { s with add := upd id f s.add } :=
  inv_map hi key_refl (fun sp => upd_key (id := id) hf sp) key_refl (by simp) rfl (by simp) rfl

theorem inv_upd_spaces {s : State} (hi : Inv s) {id : Nat} {f : Space → Space} (hf : ∀ sp, sameKey (f sp) sp) :
    Inv { s with spaces := upd id f s.spaces } :=
  inv_map hi (fun sp => upd_key (id := id) hf sp) key_refl key_refl rfl (by simp) (by simp) rfl

/-- A state whose lockspaces are some of the old ones, rearranged. -/
theorem inv_sub {s s' : State} (hi : Inv s) {l : List Space} (hp : s'.all.Perm l) (hs : l.Sublist s.all)
    (e4 : s'.counter = s.counter) : Inv s' := by
  refine ⟨pairwise_perm hp.symm (hi.apart.sublist hs), fun sp hsp => ?_⟩
  rw [e4]
  exact hi.fresh sp (hs.subset (hp.mem_iff.mp hsp))

theorem find_perm {l : List Space} {id : Nat} {sp : Space} (hd : l.Pairwise (fun a b => a.id ≠ b.id))
    (h : l.find? (·.id == id) = some sp) : l.Perm (sp :: del id l) := by
  induction l with
  | nil => simp at h
  | cons a l ih =>
    rw [List.pairwise_cons] at hd
    rw [List.find?_cons] at h
    by_cases ha : a.id = id
    · simp only [ha, beq_self_eq_true, Option.some.injEq] at h
      subst h
      have : del id (a :: l) = l := by
        unfold del
        rw [List.filter_cons_of_neg (by simp [ha])]
        apply List.filter_eq_self.mpr
        intro b hb
        have := hd.1 b hb
        simp; omega
      rw [this]
    · have ha' : (a.id == id) = false := by simp [ha]
      rw [ha'] at h
      have : del id (a :: l) = a :: del id l := by
        unfold del; rw [List.filter_cons_of_pos (by simp [ha])]
      rw [this]
      exact (List.Perm.cons a (ih hd.2 h)).trans (List.Perm.swap sp a _)

theorem strncmpEq1024_iff (a b : List UInt8) : strncmpEq 1024 a b = true ↔ pathStr a = pathStr b :=
  strncmpEq_iff 1024 a b

theorem strncmpEq48_iff (a b : List UInt8) : strncmpEq 48 a b = true ↔ cstr a = cstr b :=
  strncmpEq_iff 48 a b

/-- The request describes this lockspace: same name, disk and host id (0 in a request: any). -/
structure Same (sp : Space) (r : Req) : Prop where
  name : cstr sp.name = cstr r.name
  path : pathStr sp.path = pathStr r.path
  offset : sp.offset = r.offset
  hostId : r.hostId = 0 ∨ sp.hostId = r.hostId

theorem matches_iff (sp : Space) (r : Req) :
    matches? (some r.name) (some (r.path, r.offset)) r.hostId sp = true ↔ Same sp r := by
  simp only [matches?, Bool.and_eq_true, strncmpEq48_iff, strncmpEq1024_iff, beq_iff_eq, Bool.or_eq_true]
  exact ⟨fun ⟨⟨a, b, c⟩, d⟩ => ⟨a, b, c, d⟩, fun ⟨a, b, c, d⟩ => ⟨⟨a, b, c⟩, d⟩⟩

instance (sp : Space) (r : Req) : Decidable (Same sp r) :=
  decidable_of_iff _ (matches_iff sp r)

theorem searchReq_isSome (r : Req) (l : List Space) :
    (searchReq r l).isSome = true ↔ ∃ sp ∈ l, Same sp r := by
  simp only [searchReq, search, List.find?_isSome, matches_iff]

theorem searchName_isSome (n : List UInt8) (l : List Space) :
    (search (some n) none 0 l).isSome = true ↔ ∃ sp ∈ l, cstr sp.name = cstr n := by
  simp only [search, List.find?_isSome, matches?, Bool.and_true, strncmpEq48_iff, beq_self_eq_true, Bool.true_or]

theorem searchDisk_isSome (p : List UInt8) (o : Nat) (l : List Space) :
    (search none (some (p, o)) 0 l).isSome = true ↔
      ∃ sp ∈ l, pathStr sp.path = pathStr p ∧ sp.offset = o := by
  simp only [search, List.find?_isSome, matches?, Bool.true_and, Bool.and_eq_true, strncmpEq1024_iff,
    beq_iff_eq, beq_self_eq_true, Bool.true_or, and_true]

theorem addStart_cases (s : State) (r : Req) :
    (addStart s r).2 = s ∨ ((addStart s r).1 = 0 ∧
      (addStart s r).2 = { s with
        add := ⟨s.counter, r.name, r.path, r.offset, r.hostId, false, false, false⟩ :: s.add
        counter := s.counter + 1 } ∧
      (∀ sp ∈ s.all, cstr sp.name ≠ cstr r.name) ∧
      ∀ sp ∈ s.all, ¬ (pathStr sp.path = pathStr r.path ∧ sp.offset = r.offset)) := by
  unfold addStart
  split; · exact Or.inl rfl
  split; · exact Or.inl rfl
  split; · exact Or.inl rfl
  split; · exact Or.inl rfl
  split; · exact Or.inl rfl
  rename_i h5
  split; · exact Or.inl rfl
  rename_i h6
  refine Or.inr ⟨rfl, rfl, ?_, ?_⟩
  · intro sp hsp he
    exact h5 ((searchName_isSome _ _).mpr ⟨sp, hsp, he⟩)
  · intro sp hsp he
    exact h6 ((searchDisk_isSome _ _ _).mpr ⟨sp, hsp, he⟩)

theorem inv_step {s : State} (hi : Inv s) (a : Act) : Inv (step s a) := by
  cases a with
  | addStart r =>
    simp only [step]
    rcases addStart_cases s r with h | ⟨_, h, hn, hd⟩
    · rw [h]; exact hi
    · rw [h]
      refine ⟨?_, ?_⟩
      · have hperm : (s.spaces ++ ((⟨s.counter, r.name, r.path, r.offset, r.hostId, false, false, false⟩ :: s.add) ++ s.rem)).Perm
            (⟨s.counter, r.name, r.path, r.offset, r.hostId, false, false, false⟩ :: s.all) := by
          rw [List.cons_append]; exact List.perm_middle
        refine pairwise_perm hperm.symm (List.pairwise_cons.mpr ⟨?_, hi.apart⟩)
        intro sp hsp
        exact ⟨Nat.ne_of_gt (hi.fresh sp hsp), Ne.symm (hn sp hsp),
          fun ⟨h1, h2⟩ => hd sp hsp ⟨h1.symm, h2.symm⟩⟩
      · intro sp hsp
        unfold State.all at hsp
        show sp.id < s.counter + 1
        have hfr := hi.fresh
        unfold State.all at hfr
        simp only [List.cons_append, List.mem_append, List.mem_cons] at hsp
        rcases hsp with hsp | rfl | hsp | hsp
        · exact Nat.lt_succ_of_lt (hfr sp (List.mem_append_left _ hsp))
        · exact Nat.lt_succ_self _
        · exact Nat.lt_succ_of_lt (hfr sp (List.mem_append_right _ (List.mem_append_left _ hsp)))
        · exact Nat.lt_succ_of_lt (hfr sp (List.mem_append_right _ (List.mem_append_right _ hsp)))
  | addWait id ok =>
    simp only [step, addWait]
    have hids : s.add.Pairwise (fun a b => a.id ≠ b.id) := by
      have := hi.apart
      unfold State.all at this
      rw [List.pairwise_append, List.pairwise_append] at this
      exact this.2.1.1.imp fun h => h.id
    have hdel : Inv { s with add := del id s.add } := by
      refine inv_sub hi (List.Perm.refl _) ?_ rfl
      exact List.Sublist.append (List.Sublist.refl _)
        (List.Sublist.append List.filter_sublist (List.Sublist.refl _))
    split
    · exact hi
    · rename_i sp hf
      split
      · exact hdel
      split
      · exact hdel
      · refine inv_sub hi (l := s.all) ?_ (List.Sublist.refl _) rfl
        have hp := find_perm hids hf
        show ((sp :: s.spaces) ++ (del id s.add ++ s.rem)).Perm (s.spaces ++ (s.add ++ s.rem))
        refine List.Perm.trans ?_ (List.Perm.append_left _ (List.Perm.append_right _ hp.symm))
        rw [List.cons_append, List.cons_append]
        exact List.perm_middle.symm
  | remStart r =>
    simp only [step, remStart]
    split
    · exact hi
    split
    · exact inv_upd_add hi fun _ => ⟨rfl, rfl, rfl, rfl⟩
    split
    · exact hi
    · split
      · exact hi
      · exact inv_upd_spaces hi fun _ => ⟨rfl, rfl, rfl, rfl⟩
  | mainRound d f =>
    simp only [step]
    have hm : Inv (mainRound s d f) := by
      have h1 : Inv { s with
          spaces := s.spaces.filter fun sp => !(sp.killing && d sp.id)
          rem := (s.spaces.filter fun sp => sp.killing && d sp.id).reverse ++ s.rem } := by
        refine inv_sub hi (l := s.all) ?_ (List.Sublist.refl _) rfl
        unfold State.all
        simp only
        have h2 : ((s.spaces.filter fun sp => sp.killing && d sp.id) ++
            (s.spaces.filter fun sp => !(sp.killing && d sp.id))).Perm s.spaces :=
          List.filter_append_perm _ _
        generalize s.spaces.filter (fun sp => sp.killing && d sp.id) = g at *
        generalize s.spaces.filter (fun sp => !(sp.killing && d sp.id)) = k at *
        calc k ++ (s.add ++ (g.reverse ++ s.rem))
            |>.Perm (k ++ (s.add ++ (g ++ s.rem))) :=
              List.Perm.append_left _ (List.Perm.append_left _ (List.Perm.append_right _ (List.reverse_perm g)))
          _ |>.Perm (k ++ (g ++ (s.add ++ s.rem))) := by
              refine List.Perm.append_left _ ?_
              rw [← List.append_assoc, ← List.append_assoc]
              exact List.Perm.append_right _ List.perm_append_comm
          _ |>.Perm ((g ++ k) ++ (s.add ++ s.rem)) := by
              rw [← List.append_assoc]
              exact List.Perm.append_right _ List.perm_append_comm
          _ |>.Perm (s.spaces ++ (s.add ++ s.rem)) := List.Perm.append_right _ h2
      refine inv_map h1 (f := fun sp => if !sp.killing && (f sp.id || sp.externalRemove || decide (s.shutdown > 1)) then
        { sp with killing := true } else sp) (fun sp => ?_) key_refl key_refl rfl (by simp [mainRound]) (by simp [mainRound]) rfl
      split <;> exact ⟨rfl, rfl, rfl, rfl⟩
    unfold shutdownIgnored
    split
    · exact ⟨hm.apart, hm.fresh⟩
    · exact hm
  | free d =>
    simp only [step]
    refine inv_sub hi (List.Perm.refl _) ?_ rfl
    exact List.Sublist.append (List.Sublist.refl _)
      (List.Sublist.append (List.Sublist.refl _) List.filter_sublist)
  | beginRindex n =>
    simp only [step, beginRindex]
    split
    · exact hi
    split
    · exact hi
    split
    · exact hi
    · exact inv_upd_spaces hi fun _ => ⟨rfl, rfl, rfl, rfl⟩
  | clearRindex n =>
    simp only [step, clearRindex]
    split
    · exact hi
    · exact inv_upd_spaces hi fun _ => ⟨rfl, rfl, rfl, rfl⟩
  | shutdown l => exact ⟨hi.apart, hi.fresh⟩

theorem inv_run {s : State} (hi : Inv s) (l : List Act) : Inv (run s l) := by
  induction l generalizing s with
  | nil => exact hi
  | cons a l ih => exact ih (inv_step hi a)

theorem inv_init : Inv init := ⟨List.Pairwise.nil, by simp [init, State.all]⟩

/-- **C19**.  Whatever sequence of calls, completions, failures and shutdowns occurred, any two entries among the
lockspaces being added, active or being removed have different names, and do not share a disk path and offset. -/
theorem lockspaces_unique (l : List Act) :
    ((run init l).spaces ++ ((run init l).add ++ (run init l).rem)).Pairwise fun a b =>
      cstr a.name ≠ cstr b.name ∧ ¬ (pathStr a.path = pathStr b.path ∧ a.offset = b.offset) :=
  (inv_run inv_init l).apart.imp fun h => ⟨h.name, h.disk⟩

/-- Two different lockspaces in use together. -/
def reqA : Req := ⟨[65], [47, 97], 0, 1⟩
def reqB : Req := ⟨[66], [47, 97], 1048576, 1⟩

example : (run init [.addStart reqA, .addWait 1 true, .addStart reqB]).spaces.length = 1 ∧
    (run init [.addStart reqA, .addWait 1 true, .addStart reqB]).add.length = 1 := by decide

/-- Two entries that share a name are the same entry. -/
theorem Inv.eq {s : State} (hi : Inv s) {a b : Space} (ha : a ∈ s.all) (hb : b ∈ s.all)
    (h : cstr a.name = cstr b.name) : a = b := by
  refine Classical.byContradiction fun hne => ?_
  exact (List.Pairwise.forall_of_forall_of_flip (R := fun a b => a ≠ b → cstr a.name ≠ cstr b.name)
    (by intro x _ hx; exact absurd rfl hx) (hi.apart.imp fun h _ => h.name)
    (hi.apart.imp fun h _ => Ne.symm h.name) ha hb) hne h

theorem Inv.cross {s : State} (hi : Inv s) :
    (∀ a ∈ s.spaces, ∀ b ∈ s.add, cstr a.name ≠ cstr b.name) ∧
    (∀ a ∈ s.spaces, ∀ b ∈ s.rem, cstr a.name ≠ cstr b.name) ∧
    (∀ a ∈ s.add, ∀ b ∈ s.rem, cstr a.name ≠ cstr b.name) := by
  have hp := hi.apart
  unfold State.all at hp
  rw [List.pairwise_append, List.pairwise_append] at hp
  obtain ⟨p1, ⟨p2, p3, p4⟩, p5⟩ := hp
  exact ⟨fun a ha b hb => (p5 a ha b (List.mem_append_left _ hb)).name,
    fun a ha b hb => (p5 a ha b (List.mem_append_right _ hb)).name, fun a ha b hb => (p4 a ha b hb).name⟩

/-- A request that names a lockspace, a disk and a host id. -/
def WellFormed (r : Req) : Prop := r.name.headD 0 ≠ 0 ∧ r.path.headD 0 ≠ 0 ∧ r.hostId ≠ 0

theorem not_bad {r : Req} (h : WellFormed r) :
    (emptyStr r.name || r.hostId == 0 || emptyStr r.path) = false := by
  obtain ⟨h1, h2, h3⟩ := h
  simp only [emptyStr, Bool.or_eq_false_iff, beq_eq_false_iff_ne]
  exact ⟨⟨h1, h3⟩, h2⟩

/-- **C20** (add).  In every reachable state and for every well formed request, the answer of add is determined by
where the identical lockspace is, and otherwise by a conflicting name or disk. -/
theorem add_codes (l : List Act) (r : Req) (hr : WellFormed r) :
    let s := run init l
    let rv := (addStart s r).1
    (rv = Rv.EEXIST ↔ ∃ sp ∈ s.spaces, Same sp r) ∧
    (rv = Rv.EINPROGRESS ↔ ∃ sp ∈ s.add, Same sp r) ∧
    (rv = Rv.EAGAIN ↔ ∃ sp ∈ s.rem, Same sp r) ∧
    (rv = Rv.EINVAL ↔ ∃ sp ∈ s.spaces ++ (s.add ++ s.rem), ¬ Same sp r ∧
      (cstr sp.name = cstr r.name ∨ (pathStr sp.path = pathStr r.path ∧ sp.offset = r.offset))) ∧
    (rv = 0 ↔ ∀ sp ∈ s.spaces ++ (s.add ++ s.rem), cstr sp.name ≠ cstr r.name ∧
      ¬ (pathStr sp.path = pathStr r.path ∧ sp.offset = r.offset)) := by
  intro s rv
  have hi : Inv s := inv_run inv_init l
  obtain ⟨hc1, hc2, hc3⟩ := hi.cross
  have hap := hi.apart
  have key : ∀ a ∈ s.all, ∀ b ∈ s.all, a = b ∨ Apart a b := by
    intro a ha b hb
    exact List.Pairwise.forall_of_forall_of_flip (R := fun a b => a = b ∨ Apart a b)
      (fun x _ => Or.inl rfl) (hap.imp fun h => Or.inr h) (hap.imp fun h => Or.inr h.symm) ha hb
  have excl : ∀ a ∈ s.all, Same a r → ¬ ∃ sp ∈ s.all, ¬ Same sp r ∧
      (cstr sp.name = cstr r.name ∨ (pathStr sp.path = pathStr r.path ∧ sp.offset = r.offset)) := by
    rintro a ha hs ⟨b, hb, hns, hor⟩
    rcases key a ha b hb with rfl | hab
    · exact hns hs
    · rcases hor with h | ⟨h1, h2⟩
      · exact hab.name (hs.name.trans h.symm)
      · exact hab.disk ⟨hs.path.trans h1.symm, hs.offset.trans h2.symm⟩
  have m1 : ∀ a ∈ s.spaces, a ∈ s.all := fun a h => List.mem_append_left _ h
  have m2 : ∀ a ∈ s.add, a ∈ s.all := fun a h => List.mem_append_right _ (List.mem_append_left _ h)
  have m3 : ∀ a ∈ s.rem, a ∈ s.all := fun a h => List.mem_append_right _ (List.mem_append_right _ h)
  have hrv : rv = (addStart s r).1 := rfl
  unfold addStart at hrv
  rw [not_bad hr] at hrv
  simp only [Bool.false_eq_true, if_false, searchReq_isSome, searchName_isSome, searchDisk_isSome] at hrv
  show _ ∧ _ ∧ _ ∧ (rv = Rv.EINVAL ↔ ∃ sp ∈ s.all, _) ∧ (rv = 0 ↔ ∀ sp ∈ s.all, _)
  rw [show s.spaces ++ (s.add ++ s.rem) = s.all from rfl] at hrv
  have e : Rv.EEXIST ≠ Rv.EINPROGRESS ∧ Rv.EEXIST ≠ Rv.EAGAIN ∧ Rv.EEXIST ≠ Rv.EINVAL ∧ Rv.EEXIST ≠ 0 ∧
    Rv.EINPROGRESS ≠ Rv.EAGAIN ∧ Rv.EINPROGRESS ≠ Rv.EINVAL ∧ Rv.EINPROGRESS ≠ 0 ∧ Rv.EAGAIN ≠ Rv.EINVAL ∧
    Rv.EAGAIN ≠ 0 ∧ Rv.EINVAL ≠ 0 := by decide
  obtain ⟨e1, e2, e3, e4, e5, e6, e7, e8, e9, e10⟩ := e
  clear_value rv
  by_cases h1 : ∃ sp ∈ s.spaces, Same sp r
  · rw [if_pos h1] at hrv
    obtain ⟨a, ha, hs⟩ := h1
    have n2 : ¬ ∃ sp ∈ s.add, Same sp r := fun ⟨b, hb, hb'⟩ => hc1 a ha b hb (hs.name.trans hb'.name.symm)
    have n3 : ¬ ∃ sp ∈ s.rem, Same sp r := fun ⟨b, hb, hb'⟩ => hc2 a ha b hb (hs.name.trans hb'.name.symm)
    have n4 := excl a (m1 a ha) hs
    have n5 := fun h : ∀ sp ∈ s.all, cstr sp.name ≠ cstr r.name ∧
      ¬ (pathStr sp.path = pathStr r.path ∧ sp.offset = r.offset) => (h a (m1 a ha)).1 hs.name
    rw [hrv]
    exact ⟨⟨fun _ => ⟨a, ha, hs⟩, fun _ => rfl⟩, iff_of_false e1 n2, iff_of_false e2 n3, iff_of_false e3 n4,
      iff_of_false e4 n5⟩
  rw [if_neg h1] at hrv
  by_cases h2 : ∃ sp ∈ s.add, Same sp r
  · rw [if_pos h2] at hrv
    obtain ⟨a, ha, hs⟩ := h2
    have n3 : ¬ ∃ sp ∈ s.rem, Same sp r := fun ⟨b, hb, hb'⟩ => hc3 a ha b hb (hs.name.trans hb'.name.symm)
    have n4 := excl a (m2 a ha) hs
    have n5 := fun h : ∀ sp ∈ s.all, cstr sp.name ≠ cstr r.name ∧
      ¬ (pathStr sp.path = pathStr r.path ∧ sp.offset = r.offset) => (h a (m2 a ha)).1 hs.name
    rw [hrv]
    exact ⟨iff_of_false (Ne.symm e1) h1, ⟨fun _ => ⟨a, ha, hs⟩, fun _ => rfl⟩, iff_of_false e5 n3,
      iff_of_false e6 n4, iff_of_false e7 n5⟩
  rw [if_neg h2] at hrv
  by_cases h3 : ∃ sp ∈ s.rem, Same sp r
  · rw [if_pos h3] at hrv
    obtain ⟨a, ha, hs⟩ := h3
    have n4 := excl a (m3 a ha) hs
    have n5 := fun h : ∀ sp ∈ s.all, cstr sp.name ≠ cstr r.name ∧
      ¬ (pathStr sp.path = pathStr r.path ∧ sp.offset = r.offset) => (h a (m3 a ha)).1 hs.name
    rw [hrv]
    exact ⟨iff_of_false (Ne.symm e2) h1, iff_of_false (Ne.symm e5) h2, ⟨fun _ => ⟨a, ha, hs⟩, fun _ => rfl⟩,
      iff_of_false e8 n4, iff_of_false e9 n5⟩
  rw [if_neg h3] at hrv
  have hns : ∀ sp ∈ s.all, ¬ Same sp r := by
    intro sp hsp hs
    unfold State.all at hsp
    rcases List.mem_append.mp hsp with h | h
    · exact h1 ⟨sp, h, hs⟩
    · rcases List.mem_append.mp h with h | h
      · exact h2 ⟨sp, h, hs⟩
      · exact h3 ⟨sp, h, hs⟩
  by_cases h4 : ∃ sp ∈ s.all, cstr sp.name = cstr r.name
  · rw [if_pos h4] at hrv
    obtain ⟨a, ha, hs⟩ := h4
    rw [hrv]
    exact ⟨iff_of_false (Ne.symm e3) h1, iff_of_false (Ne.symm e6) h2, iff_of_false (Ne.symm e8) h3,
      ⟨fun _ => ⟨a, ha, hns a ha, Or.inl hs⟩, fun _ => rfl⟩, iff_of_false e10 fun h => (h a ha).1 hs⟩
  rw [if_neg h4] at hrv
  by_cases h5 : ∃ sp ∈ s.all, pathStr sp.path = pathStr r.path ∧ sp.offset = r.offset
  · rw [if_pos h5] at hrv
    obtain ⟨a, ha, hs⟩ := h5
    rw [hrv]
    exact ⟨iff_of_false (Ne.symm e3) h1, iff_of_false (Ne.symm e6) h2, iff_of_false (Ne.symm e8) h3,
      ⟨fun _ => ⟨a, ha, hns a ha, Or.inr hs⟩, fun _ => rfl⟩, iff_of_false e10 fun h => (h a ha).2 hs⟩
  rw [if_neg h5] at hrv
  rw [hrv]
  refine ⟨iff_of_false (Ne.symm e4) h1, iff_of_false (Ne.symm e7) h2, iff_of_false (Ne.symm e9) h3,
    iff_of_false (Ne.symm e10) ?_, ⟨fun _ sp hsp => ⟨fun h => h4 ⟨sp, hsp, h⟩, fun h => h5 ⟨sp, hsp, h⟩⟩, fun _ => rfl⟩⟩
  rintro ⟨sp, hsp, _, h | h⟩
  · exact h4 ⟨sp, hsp, h⟩
  · exact h5 ⟨sp, hsp, h⟩

/-- A refused add changes nothing. -/
theorem add_refused_unchanged (s : State) (r : Req) (h : (addStart s r).1 ≠ 0) : (addStart s r).2 = s := by
  rcases addStart_cases s r with h' | ⟨h', _⟩
  · exact h'
  · exact absurd h' h

example : WellFormed reqA := by unfold WellFormed; decide

/-- Every code of add occurs. -/
example : (addStart init reqA).1 = 0 ∧ (addStart (run init [.addStart reqA]) reqA).1 = Rv.EINPROGRESS ∧
    (addStart (run init [.addStart reqA, .addWait 1 true]) reqA).1 = Rv.EEXIST ∧
    (addStart (run init [.addStart reqA, .addWait 1 true]) { reqA with hostId := 2 }).1 = Rv.EINVAL ∧
    (addStart (run init [.addStart reqA, .addWait 1 true, .remStart reqA, .mainRound (fun _ => true) (fun _ => false),
      .mainRound (fun _ => true) (fun _ => false)]) reqA).1 = Rv.EAGAIN := by decide

/-- **C20** (inquire).  0 exactly when an identical lockspace is on the active list, in progress when it is being
added or taken down, no entry otherwise.  Missing for the full claim: a lockspace on the active list may already be
shutting down, see `inq_dying_violated`. -/
theorem inq_codes_partial (s : State) (r : Req) :
    (inq s r = 0 ↔ ∃ sp ∈ s.spaces, Same sp r) ∧
    (inq s r = Rv.ENOENT ↔ ¬ ∃ sp ∈ s.spaces ++ (s.add ++ s.rem), Same sp r) := by
  have e : (0 : Int) ≠ Rv.ENOENT ∧ Rv.EINPROGRESS ≠ 0 ∧ Rv.EINPROGRESS ≠ Rv.ENOENT := by decide
  obtain ⟨e1, e2, e3⟩ := e
  unfold inq
  simp only [searchReq_isSome]
  have hsplit : (∃ sp ∈ s.spaces ++ (s.add ++ s.rem), Same sp r) ↔
      ((∃ sp ∈ s.spaces, Same sp r) ∨ ∃ sp ∈ s.add ++ s.rem, Same sp r) := by
    constructor
    · rintro ⟨sp, h, h'⟩
      rcases List.mem_append.mp h with h | h
      · exact Or.inl ⟨sp, h, h'⟩
      · exact Or.inr ⟨sp, h, h'⟩
    · rintro (⟨sp, h, h'⟩ | ⟨sp, h, h'⟩)
      · exact ⟨sp, List.mem_append_left _ h, h'⟩
      · exact ⟨sp, List.mem_append_right _ h, h'⟩
  rw [hsplit]
  by_cases h1 : ∃ sp ∈ s.spaces, Same sp r
  · rw [if_pos h1]
    exact ⟨iff_of_true rfl h1, iff_of_false e1 fun h => h (Or.inl h1)⟩
  · rw [if_neg h1]
    by_cases h2 : ∃ sp ∈ s.add ++ s.rem, Same sp r
    · rw [if_pos h2]
      exact ⟨iff_of_false e2 h1, iff_of_false e3 fun h => h (Or.inr h2)⟩
    · rw [if_neg h2]
      exact ⟨iff_of_false (Ne.symm e1) h1, iff_of_true rfl fun h => h.elim h1 h2⟩

/-- **C20** (remove).  No entry exactly when no identical lockspace exists in any stage; in progress exactly when one
is being taken down; any other answer is 0, or busy when a resource index operation runs on it. -/
theorem rem_codes (l : List Act) (r : Req) :
    let s := run init l
    ((remStart s r).1 = Rv.ENOENT ↔ ¬ ∃ sp ∈ s.spaces ++ (s.add ++ s.rem), Same sp r) ∧
    ((remStart s r).1 = Rv.EINPROGRESS ↔ ∃ sp ∈ s.rem, Same sp r) ∧
    ((remStart s r).1 = Rv.EBUSY ↔ ∃ sp ∈ s.spaces, Same sp r ∧ sp.rindexOp = true) := by
  intro s
  have hi : Inv s := inv_run inv_init l
  obtain ⟨hc1, hc2, hc3⟩ := hi.cross
  have m1 : ∀ a ∈ s.spaces, a ∈ s.all := fun a h => List.mem_append_left _ h
  have m2 : ∀ a ∈ s.add, a ∈ s.all := fun a h => List.mem_append_right _ (List.mem_append_left _ h)
  have m3 : ∀ a ∈ s.rem, a ∈ s.all := fun a h => List.mem_append_right _ (List.mem_append_right _ h)
  have e : Rv.EINPROGRESS ≠ Rv.ENOENT ∧ Rv.EINPROGRESS ≠ Rv.EBUSY ∧ (0 : Int) ≠ Rv.ENOENT ∧
    (0 : Int) ≠ Rv.EINPROGRESS ∧ (0 : Int) ≠ Rv.EBUSY ∧ Rv.ENOENT ≠ Rv.EBUSY := by decide
  obtain ⟨e1, e2, e3, e4, e5, e6⟩ := e
  have some_iff : ∀ (ls : List Space) (sp : Space), searchReq r ls = some sp → sp ∈ ls ∧ Same sp r := by
    intro ls sp h
    exact ⟨List.mem_of_find?_eq_some h, (matches_iff sp r).mp (List.find?_some h)⟩
  have none_iff : ∀ (ls : List Space), searchReq r ls = none → ¬ ∃ sp ∈ ls, Same sp r := by
    intro ls h hex
    have := (searchReq_isSome r ls).mpr hex
    rw [h] at this; simp at this
  show (_ ↔ ¬ ∃ sp ∈ s.all, Same sp r) ∧ _
  unfold remStart
  cases h3 : searchReq r s.rem with
  | some a =>
    obtain ⟨ha, hs⟩ := some_iff _ _ h3
    refine ⟨iff_of_false e1 fun h => h ⟨a, m3 a ha, hs⟩, iff_of_true rfl ⟨a, ha, hs⟩, iff_of_false e2 ?_⟩
    rintro ⟨b, hb, hb', _⟩
    exact hc2 b hb a ha (hb'.name.trans hs.name.symm)
  | none =>
    have n3 := none_iff _ h3
    cases h2 : searchReq r s.add with
    | some a =>
      obtain ⟨ha, hs⟩ := some_iff _ _ h2
      refine ⟨iff_of_false e3 fun h => h ⟨a, m2 a ha, hs⟩, iff_of_false e4 n3, iff_of_false e5 ?_⟩
      rintro ⟨b, hb, hb', _⟩
      exact hc1 b hb a ha (hb'.name.trans hs.name.symm)
    | none =>
      have n2 := none_iff _ h2
      cases h1 : searchReq r s.spaces with
      | none =>
        have n1 := none_iff _ h1
        refine ⟨iff_of_true rfl ?_, iff_of_false (Ne.symm e1) n3, iff_of_false e6 fun ⟨b, hb, hb', _⟩ => n1 ⟨b, hb, hb'⟩⟩
        rintro ⟨sp, hsp, hs⟩
        unfold State.all at hsp
        rcases List.mem_append.mp hsp with h | h
        · exact n1 ⟨sp, h, hs⟩
        · rcases List.mem_append.mp h with h | h
          · exact n2 ⟨sp, h, hs⟩
          · exact n3 ⟨sp, h, hs⟩
      | some a =>
        obtain ⟨ha, hs⟩ := some_iff _ _ h1
        dsimp only
        by_cases hx : a.rindexOp = true
        · rw [if_pos hx]
          exact ⟨iff_of_false (Ne.symm e6) fun h => h ⟨a, m1 a ha, hs⟩, iff_of_false (Ne.symm e2) n3,
            iff_of_true rfl ⟨a, ha, hs, hx⟩⟩
        · rw [if_neg hx]
          refine ⟨iff_of_false e3 fun h => h ⟨a, m1 a ha, hs⟩, iff_of_false e4 n3, iff_of_false e5 ?_⟩
          rintro ⟨b, hb, hb', hx'⟩
          rw [hi.eq (m1 b hb) (m1 a ha) (hb'.name.trans hs.name.symm)] at hx'
          exact hx hx'

example : (remStart init reqA).1 = Rv.ENOENT ∧
    (remStart (run init [.addStart reqA, .addWait 1 true]) reqA).1 = 0 ∧
    (remStart (run init [.addStart reqA, .addWait 1 true, .beginRindex [65]]) reqA).1 = Rv.EBUSY ∧
    (remStart (run init [.addStart reqA, .addWait 1 true, .remStart reqA, .mainRound (fun _ => true) (fun _ => false),
      .mainRound (fun _ => true) (fun _ => false)]) reqA).1 = Rv.EINPROGRESS := by decide

/-- An accepted removal of an active lockspace marks it, and only it. -/
theorem rem_marks (l : List Act) (r : Req) (sp : Space) (hsp : sp ∈ (run init l).spaces) (hs : Same sp r)
    (h0 : (remStart (run init l) r).1 = 0) :
    { sp with externalRemove := true } ∈ (remStart (run init l) r).2.spaces ∧
    ∀ x ∈ (run init l).spaces, x ≠ sp → x ∈ (remStart (run init l) r).2.spaces := by
  have hi : Inv (run init l) := inv_run inv_init l
  generalize run init l = s at *
  obtain ⟨hc1, hc2, hc3⟩ := hi.cross
  have none_of : ∀ ls : List Space, (∀ b ∈ ls, cstr sp.name ≠ cstr b.name) → searchReq r ls = none := by
    intro ls h
    rw [← Option.not_isSome_iff_eq_none, searchReq_isSome]
    rintro ⟨b, hb, hb'⟩
    exact h b hb (hs.name.trans hb'.name.symm)
  have h3 := none_of s.rem (hc2 sp hsp)
  have h2 := none_of s.add (hc1 sp hsp)
  have m1 : ∀ a ∈ s.spaces, a ∈ s.all := fun a h => List.mem_append_left _ h
  cases h1 : searchReq r s.spaces with
  | none =>
    have := (searchReq_isSome r s.spaces).mpr ⟨sp, hsp, hs⟩
    rw [h1] at this; simp at this
  | some a =>
    have ha : a ∈ s.spaces := List.mem_of_find?_eq_some h1
    have has : Same a r := (matches_iff a r).mp (List.find?_some h1)
    have : a = sp := hi.eq (m1 a ha) (m1 sp hsp) (has.name.trans hs.name.symm)
    subst this
    unfold remStart at h0 ⊢
    rw [h3, h2, h1] at h0 ⊢
    dsimp only at h0 ⊢
    by_cases hx : a.rindexOp = true
    · rw [if_pos hx] at h0; exact absurd h0 (show ¬ Rv.EBUSY = 0 by decide)
    · rw [if_neg hx]
      refine ⟨List.mem_map.mpr ⟨a, ha, by simp⟩, fun x hx' hne => List.mem_map.mpr ⟨x, hx', ?_⟩⟩
      rw [if_neg]
      intro hid
      refine hne ?_
      have := List.Pairwise.forall_of_forall_of_flip (R := fun a b => a = b ∨ Apart a b)
        (fun x _ => Or.inl rfl) (hi.apart.imp fun h => Or.inr h) (hi.apart.imp fun h => Or.inr h.symm) (m1 x hx') (m1 a ha)
      rcases this with h | h
      · exact h
      · exact absurd hid h.id

/-- **C20** (remove completes).  When the wait of a removal ends, the lockspace whose removal was requested is in no
stage any more. -/
theorem rem_done_gone (l : List Act) (r : Req) (id : Nat)
    (hm : ∀ sp ∈ (run init l).all, sp.id = id → Same sp r) (h : remDone (run init l) r id = true) :
    ∀ sp ∈ (run init l).all, sp.id ≠ id := by
  have hi : Inv (run init l) := inv_run inv_init l
  generalize run init l = s at *
  intro sp hsp hid
  have hs := hm sp hsp hid
  have hmem : ∀ x, x ∈ s.spaces ++ (s.rem ++ s.add) ↔ x ∈ s.all := by
    intro x; unfold State.all; simp only [List.mem_append]; grind
  unfold remDone at h
  cases h1 : searchReq r (s.spaces ++ (s.rem ++ s.add)) with
  | none =>
    have := (searchReq_isSome r (s.spaces ++ (s.rem ++ s.add))).mpr ⟨sp, (hmem sp).mpr hsp, hs⟩
    rw [h1] at this; simp at this
  | some a =>
    have ha := (hmem a).mp (List.mem_of_find?_eq_some h1)
    have has : Same a r := (matches_iff a r).mp (List.find?_some h1)
    rw [h1] at h
    have : a = sp := hi.eq ha hsp (has.name.trans hs.name.symm)
    subst this
    simp only [bne_iff_ne, ne_eq] at h
    exact h hid

/-- The history of a removal. -/
def dying : List Act := [.addStart reqA, .addWait 1 true, .remStart reqA, .mainRound (fun _ => false) (fun _ => false)]

example : ((run init dying).all.map fun sp => sp.id) = [1] ∧ remDone (run init dying) reqA 1 = false ∧
    remDone (run init (dying ++ [.mainRound (fun _ => true) (fun _ => false), .free (fun _ => true)])) reqA 1 = true := by
  decide

/-- **Finding**.  A lockspace that is being taken down (removal accepted, its processes being killed) is still
reported as held by inquire, as existing rather than try-again by add, and a second removal is accepted rather than
reported in progress (`src/sanlock_admin.h:33-66`). -/
theorem inq_dying_violated :
    ∃ l r, (∃ sp ∈ (run init l).spaces, Same sp r ∧ sp.externalRemove = true ∧ sp.killing = true) ∧
      inq (run init l) r = 0 ∧ (addStart (run init l) r).1 = Rv.EEXIST ∧ (remStart (run init l) r).1 = 0 := by
  refine ⟨dying, reqA, ⟨⟨1, [65], [47, 97], 0, 1, true, true, false⟩, by decide, ⟨rfl, rfl, rfl, Or.inr rfl⟩, rfl, rfl⟩,
    by decide, by decide, by decide⟩

/-- **Finding**.  The mark of a resource index operation is cleared by name: when the lockspace was failed, taken
down and added again while the operation ran, the end of the old operation clears the mark of a new one. -/
theorem clear_rindex_other_violated :
    ∃ l : List Act, ∃ sp ∈ (run init l).spaces, sp.id = 2 ∧ sp.rindexOp = true ∧
      ∃ sp' ∈ (run init (l ++ [.clearRindex [65]])).spaces, sp'.id = 2 ∧ sp'.rindexOp = false :=
  ⟨[.addStart reqA, .addWait 1 true, .beginRindex [65], .mainRound (fun _ => true) (fun _ => true),
      .mainRound (fun _ => true) (fun _ => false), .free (fun _ => true), .addStart reqA, .addWait 2 true, .beginRindex [65]],
    ⟨2, [65], [47, 97], 0, 1, false, false, true⟩, by decide, rfl, rfl,
    ⟨2, [65], [47, 97], 0, 1, false, false, false⟩, by decide, rfl, rfl⟩

/-- The entry with a given number is the only one in its list. -/
theorem find_id {l : List Space} (hd : l.Pairwise Apart) {sp : Space} (h : sp ∈ l) : l.find? (·.id == sp.id) = some sp := by
  induction l with
  | nil => cases h
  | cons a l ih =>
    rw [List.pairwise_cons] at hd
    rcases List.mem_cons.mp h with rfl | h
    · simp
    · have : (a.id == sp.id) = false := by simpa using (hd.1 sp h).id
      rw [List.find?_cons, this]
      exact ih hd.2 h

/-- **C20**.  A lockspace whose removal was asked for while it was being added does not become active, whatever the
outcome of joining. -/
theorem remove_during_add (l : List Act) {sp : Space} {r : Req} (h : sp ∈ (run init l).add) (hs : Same sp r) (ok : Bool) :
    (remStart (run init l) r).1 = 0 ∧
    (addWait (remStart (run init l) r).2 sp.id ok).1 = -1 ∧
    (addWait (remStart (run init l) r).2 sp.id ok).2.spaces = (run init l).spaces ∧
    (∀ x ∈ (addWait (remStart (run init l) r).2 sp.id ok).2.add, x.id ≠ sp.id) := by
  have hi : Inv (run init l) := inv_run inv_init l
  generalize run init l = s at h hi ⊢
  obtain ⟨_, _, hc3⟩ := hi.cross
  have hrem : searchReq r s.rem = none := by
    cases hx : searchReq r s.rem with
    | none => rfl
    | some x =>
      have : (searchReq r s.rem).isSome = true := by rw [hx]; rfl
      obtain ⟨y, hy, hy'⟩ := (searchReq_isSome r s.rem).mp this
      exact absurd (hs.name.trans hy'.name.symm) (hc3 sp h y hy)
  have hadd : searchReq r s.add = some sp := by
    have : (searchReq r s.add).isSome = true := (searchReq_isSome r s.add).mpr ⟨sp, h, hs⟩
    obtain ⟨x, hx⟩ := Option.isSome_iff_exists.mp this
    have hx1 : x ∈ s.add := List.mem_of_find?_eq_some hx
    have hx2 : Same x r := (matches_iff x r).mp (by simpa [searchReq, search] using List.find?_some hx)
    rw [hx, hi.eq (a := x) (b := sp) (by simp [State.all, hx1]) (by simp [State.all, h]) (hx2.name.trans hs.name.symm)]
  have hrs : remStart s r = (0, { s with add := upd sp.id (fun x => { x with externalRemove := true }) s.add }) := by
    simp only [remStart, hrem, hadd]
  have hi' : Inv { s with add := upd sp.id (fun x => { x with externalRemove := true }) s.add } :=
    inv_upd_add hi (fun _ => ⟨rfl, rfl, rfl, rfl⟩)
  have hap : (upd sp.id (fun x => { x with externalRemove := true }) s.add).Pairwise Apart := by
    have := hi'.apart
    unfold State.all at this
    exact (List.pairwise_append.mp (List.pairwise_append.mp this).2.1).1
  have hm : { sp with externalRemove := true } ∈ upd sp.id (fun x => { x with externalRemove := true }) s.add :=
    List.mem_map.mpr ⟨sp, h, by simp⟩
  have hf := find_id hap hm
  rw [hrs]
  refine ⟨rfl, ?_, ?_, ?_⟩
  all_goals
    simp only [addWait]
    rw [show (List.find? (fun x => x.id == sp.id) (upd sp.id (fun x => { x with externalRemove := true }) s.add)) =
      some { sp with externalRemove := true } from hf]
    cases ok <;> simp [del]

/-- Asked to be removed while joining. -/
example : (∃ sp ∈ (run init [.addStart reqA]).add, Same sp reqA) ∧
    (addWait (remStart (run init [.addStart reqA]) reqA).2 1 true).1 = -1 ∧ (addWait (run init [.addStart reqA]) 1 true).1 = 0 :=
  ⟨⟨⟨1, [65], [47, 97], 0, 1, false, false, false⟩, by decide, ⟨rfl, rfl, rfl, Or.inr rfl⟩⟩, by decide, by decide⟩

/-- **C20**.  An operation on the resource index of a lockspace starts exactly when the lockspace is active, is not being
taken down and has no other such operation; then a further one is refused as busy. -/
theorem rindex_one_at_a_time (l : List Act) {sp : Space} {n : List UInt8} (h : sp ∈ (run init l).spaces) (hn : cstr sp.name = cstr n) :
    ((beginRindex (run init l) n).1 = 0 ↔ sp.killing = false ∧ sp.rindexOp = false) ∧
    ((beginRindex (run init l) n).1 = Rv.EBUSY ↔ sp.killing = false ∧ sp.rindexOp = true) ∧
    ((beginRindex (run init l) n).1 = 0 → (beginRindex (beginRindex (run init l) n).2 n).1 = Rv.EBUSY) := by
  have hi : Inv (run init l) := inv_run inv_init l
  generalize run init l = s at h hi ⊢
  have found : ∀ (s : State) (sp : Space), Inv s → sp ∈ s.spaces → cstr sp.name = cstr n →
      search (some n) none 0 s.spaces = some sp := by
    intro s sp hi h hn
    have : (search (some n) none 0 s.spaces).isSome = true := (searchName_isSome n s.spaces).mpr ⟨sp, h, hn⟩
    obtain ⟨x, hx⟩ := Option.isSome_iff_exists.mp this
    have hx1 : x ∈ s.spaces := List.mem_of_find?_eq_some hx
    have hx2 : cstr x.name = cstr n := by
      have := List.find?_some hx
      simpa [matches?, strncmpEq48_iff] using this
    rw [hx, hi.eq (a := x) (b := sp) (by simp [State.all, hx1]) (by simp [State.all, h]) (hx2.trans hn.symm)]
  have hf := found s sp hi h hn
  have h1 : beginRindex s n = if sp.killing then (Rv.ENOSPC, s) else if sp.rindexOp then (Rv.EBUSY, s)
      else (0, { s with spaces := upd sp.id (fun x => { x with rindexOp := true }) s.spaces }) := by
    simp only [beginRindex, hf]
  rw [h1]
  cases hk : sp.killing <;> cases hr : sp.rindexOp <;> simp [Rv.ENOSPC, Rv.EBUSY]
  have hi' : Inv { s with spaces := upd sp.id (fun x => { x with rindexOp := true }) s.spaces } :=
    inv_upd_spaces hi (fun _ => ⟨rfl, rfl, rfl, rfl⟩)
  have hf' := found _ { sp with rindexOp := true } hi' (List.mem_map.mpr ⟨sp, h, by simp⟩) hn
  simp [beginRindex, hf', hk, Rv.EBUSY]

/-- Two operations on one index. -/
example : (beginRindex (run init [.addStart reqA, .addWait 1 true]) [65]).1 = 0 ∧
    (beginRindex (run init [.addStart reqA, .addWait 1 true, .beginRindex [65]]) [65]).1 = Rv.EBUSY := by decide

end Sanlock.Lockspace
