import Verif.Descr

/-!
# Lemmas about the descriptors of the daemon

`good` follows a tree with what each variable stands for; `good_prog` shows it for every call, `Inv` carries it through all
interleavings.
-/

namespace Sanlock.Descr

/-- What a variable stands for: -1, an open file of this call, or an old value. -/
inductive V where
  | unset | mine (f : Nat) | stale
deriving DecidableEq

/-- The tree closes what it opened, once, and uses only that.  `cl`: all variables are -1 at the end. -/
def good (cl : Bool) : Prog → (Nat → V) → Prop
  | .ret _, a => ∀ v, a v = .unset ∨ (cl = false ∧ a v = .stale)
  | .open v f ok err, a => (∀ g, a v ≠ .mine g) ∧ good cl ok (set a v (.mine f)) ∧ good cl err a
  | .io v f p, a => (a v = .mine f ∨ a v = .unset) ∧ good cl p a
  | .closeDisk v p, a => a v ≠ .stale ∧ good cl p (set a v .unset)
  | .close v p, a => (∃ f, a v = .mine f) ∧ good cl p (set a v .stale)
  | .move v w p, a => v ≠ w ∧ (∃ f, a v = .mine f) ∧ (∀ g, a w ≠ .mine g) ∧ good cl p (set (set a w (a v)) v .stale)
  | .ifSet v p q, a => (a v = .unset → good cl q a) ∧ (a v ≠ .unset → good cl p a)
  | .alt p q, a => good cl p a ∧ good cl q a
  | .fault _ _ q, a => good cl q a

/-- Some of `ds` are open, everything else is as in `a`. -/
def Ext (ds : List (Nat × Nat)) (a a' : Nat → V) : Prop := ∀ v, (∃ f, (v, f) ∈ ds ∧ a' v = .mine f) ∨ a' v = a v

/-- The disks `ds` are not open. -/
def Off (ds : List (Nat × Nat)) (a : Nat → V) : Prop := ∀ d ∈ ds, a d.1 = .unset

/-- No variable twice. -/
def Vars (ds : List (Nat × Nat)) : Prop := (ds.map (·.1)).Nodup

variable {cl : Bool} {p ok err fail : Prog} {a a' : Nat → V} {ds : List (Nat × Nat)} {h : Nat × Nat}

theorem Ext.refl : Ext ds a a := fun _ => .inr rfl

theorem Ext.cases (hv : Vars ds) (ho : Off ds a) (hx : Ext ds a a') {d} (hd : d ∈ ds) :
    a' d.1 = .mine d.2 ∨ a' d.1 = .unset := by
  rcases hx d.1 with ⟨f, hf, e⟩ | e
  · have : (d.1, f) = d := by
      have hn : ∀ (l : List (Nat × Nat)), (l.map (·.1)).Nodup → ∀ x ∈ l, ∀ y ∈ l, x.1 = y.1 → x = y := by
        intro l
        induction l with
        | nil => simp
        | cons z l ih =>
          intro hl x hx y hy hxy
          simp only [List.map_cons, List.nodup_cons, List.mem_map] at hl
          rcases List.mem_cons.1 hx with e1 | h1 <;> rcases List.mem_cons.1 hy with e2 | h2
          · rw [e1, e2]
          · exact absurd ⟨y, h2, by rw [← hxy, e1]⟩ hl.1
          · exact absurd ⟨x, h1, by rw [hxy, e2]⟩ hl.1
          · exact ih hl.2 x h1 y h2 hxy
      exact hn ds hv _ hf _ hd rfl
    left
    rw [e, ← this]
  · exact .inr (e.trans (ho d hd))

/-- `ds` closed. -/
def clr (ds : List (Nat × Nat)) (a : Nat → V) : Nat → V := fun v => if v ∈ ds.map (·.1) then .unset else a v

theorem good_closeDisks' (hs : ∀ d ∈ ds, a d.1 ≠ .stale) (hp : good cl p (clr ds a)) : good cl (closeDisks ds p) a := by
  induction ds generalizing a with
  | nil =>
    have : clr [] a = a := by funext v; simp [clr]
    rwa [this] at hp
  | cons d ds ih =>
    refine ⟨hs d (List.mem_cons_self ..), ih ?_ ?_⟩
    · intro e he
      simp only [set_apply]
      split
      · simp
      · exact hs e (List.mem_cons_of_mem _ he)
    · have : clr ds (set a d.1 .unset) = clr (d :: ds) a := by
        funext v
        simp only [clr, set_apply, List.map_cons, List.mem_cons]
        grind
      rwa [this]

theorem clr_ext (ho : Off ds a) (hx : Ext ds a a') : clr ds a' = a := by
  funext v
  unfold clr
  split
  · rename_i hm
    obtain ⟨d, hd, rfl⟩ := List.mem_map.1 hm
    exact (ho d hd).symm
  · rename_i hm
    rcases hx v with ⟨f, hf, _⟩ | e
    · exact absurd (List.mem_map.2 ⟨_, hf, rfl⟩) hm
    · exact e

theorem good_closeDisks (hv : Vars ds) (ho : Off ds a) (hx : Ext ds a a') (hp : good cl p a) :
    good cl (closeDisks ds p) a' := by
  refine good_closeDisks' (fun d hd => ?_) (by rwa [clr_ext ho hx])
  rcases hx.cases hv ho hd with e | e <;> simp [e]

theorem good_ioDisks (hm : ∀ d ∈ ds, a d.1 = .mine d.2 ∨ a d.1 = .unset) (hp : good cl p a) : good cl (ioDisks ds p) a := by
  induction ds with
  | nil => exact hp
  | cons d ds ih => exact ⟨hm d (List.mem_cons_self ..), ih fun e he => hm e (List.mem_cons_of_mem _ he)⟩

theorem good_openLoop (hv : Vars ds) (ho : Off ds a) (n : Nat)
    (hok : ∀ a', Ext ds a a' → good cl ok a') (hf : ∀ a', Ext ds a a' → good cl fail a') :
    ∀ (es : List (Nat × Nat)), (∃ pre, pre ++ es = ds) → ∀ a', Ext ds a a' → Off es a' → ∀ num,
      good cl (openLoop n ok fail es num) a' := by
  intro es
  induction es with
  | nil =>
    intro _ a' hx _ num
    unfold openLoop
    split
    · exact hok a' hx
    · exact hf a' hx
  | cons d es ih =>
    rintro ⟨pre, hpre⟩ a' hx he num
    have hd : a' d.1 = .unset := he d (List.mem_cons_self ..)
    have hin : d ∈ ds := hpre ▸ List.mem_append_right _ (List.mem_cons_self ..)
    have hnew : ∀ e ∈ es, e.1 ≠ d.1 := by
      intro e hes
      have : (d :: es).map (·.1) |>.Nodup := by
        have := hv
        rw [Vars, ← hpre, List.map_append] at this
        exact (List.nodup_append.1 this).2.1
      simp only [List.map_cons, List.nodup_cons, List.mem_map] at this
      exact fun e' => this.1 ⟨e, hes, e'⟩
    have hpre' : ∃ pre', pre' ++ es = ds := ⟨pre ++ [d], by simpa using hpre⟩
    show good cl (.ifSet d.1 fail (.open d.1 d.2 _ _)) a'
    refine ⟨fun _ => ⟨fun g => by simp [hd], ?_, ?_⟩, fun hne => absurd hd hne⟩
    · refine ih hpre' _ ?_ ?_ _
      · intro v
        by_cases hvd : v = d.1
        · subst hvd
          exact .inl ⟨d.2, hin, by simp [set_apply]⟩
        · rcases hx v with ⟨f, hf, e⟩ | e
          · exact .inl ⟨f, hf, by simp [set_apply, hvd, e]⟩
          · exact .inr (by simp [set_apply, hvd, e])
      · intro e hes
        simp only [set_apply, if_neg (hnew e hes)]
        exact he e (List.mem_cons_of_mem _ hes)
    · exact ih hpre' _ hx (fun e hes => he e (List.mem_cons_of_mem _ hes)) _

theorem good_openDisks (hv : Vars ds) (ho : Off ds a) (hok : ∀ a', Ext ds a a' → good cl ok a') (hf : good cl fail a) :
    good cl (openDisks ds ok fail) a :=
  good_openLoop hv ho _ hok (fun _ hx => good_closeDisks hv ho hx hf) ds ⟨[], rfl⟩ a Ext.refl ho 0

/-! ### The lease -/

theorem vars_one : Vars [h] := by simp [Vars]

theorem good_leaseOut (hh : a h.1 = .unset) (hx : Ext [h] a a') (hp : good cl p a) (o : Bool) (ho : o = false → a' = a) :
    good cl (leaseOut h o p) a' := by
  unfold leaseOut
  split
  · exact good_closeDisks vars_one (by simpa [Off] using hh) hx hp
  · rw [ho (by simpa using ‹¬ o = true›)]
    exact hp

/-- The disks of the token are open or -1. -/
def Half (ds : List (Nat × Nat)) (a : Nat → V) : Prop := ∀ d ∈ ds, a d.1 = .mine d.2 ∨ a d.1 = .unset

theorem Half.ext (hd : Half ds a) (hn : ∀ d ∈ ds, d.1 ≠ h.1) (hx : Ext [h] a a') : Half ds a' := by
  intro d hds
  rcases hx d.1 with ⟨f, hf, _⟩ | e
  · simp only [List.mem_singleton] at hf
    exact absurd (congrArg Prod.fst hf) (hn d hds)
  · rw [e]
    exact hd d hds

theorem good_acquireLease (hd : Half ds a) (hn : ∀ d ∈ ds, d.1 ≠ h.1) (hh : a h.1 = .unset)
    (hok : good cl ok a) (herr : good cl err a) (k : Nat) :
    ∀ (o : Bool) (a' : Nat → V), Ext [h] a a' → (o = false → a' = a) → good cl (acquireLease ds h ok err k o) a' := by
  induction k with
  | zero =>
    intro o a' hx ho
    exact good_leaseOut hh hx herr o ho
  | succ k ih =>
    intro o a' hx ho
    have wait : ∀ b, Ext [h] a b → good cl (leaseWait ds h ok err (acquireLease ds h ok err k true)) b := by
      intro b hb
      have hhalf := hd.ext hn hb
      refine ⟨?_, good_leaseOut hh hb herr true (by simp), ?_, ?_⟩
      · exact hb.cases vars_one (by simpa [Off] using hh) (List.mem_singleton_self _)
      · exact good_ioDisks hhalf ⟨good_leaseOut hh hb hok true (by simp), good_leaseOut hh hb herr true (by simp),
          ih true b hb (by simp)⟩
      · exact good_ioDisks hhalf ⟨good_leaseOut hh hb herr true (by simp), ih true b hb (by simp)⟩
    have hhalf := hd.ext hn hx
    unfold acquireLease
    refine good_ioDisks hhalf ⟨good_leaseOut hh hx herr o ho, ?_, ?_⟩
    · exact good_ioDisks hhalf ⟨good_leaseOut hh hx hok o ho, good_leaseOut hh hx herr o ho, ih o a' hx ho⟩
    · split
      · exact wait a' hx
      · rename_i hof
        have ea := ho (by simpa using hof)
        rw [ea]
        exact ⟨herr, good_openDisks vars_one (by simpa [Off] using hh) wait herr⟩

/-! ### Every call -/

/-- All variables -1. -/
def U : Nat → V := fun _ => .unset

theorem off_U : Off ds U := fun _ _ => rfl

theorem good_ret_U {r} : good cl (.ret r) U := fun _ => .inl rfl

theorem Ext.half (hv : Vars ds) (hx : Ext ds U a) : Half ds a := fun _ hd => hx.cases hv off_U hd

theorem good_release_opened (hv : Vars ds) (hx : Ext ds U a) (hp : good cl p U) : good cl (releaseToken ds true false p) a := by
  refine ⟨good_closeDisks hv off_U hx hp, ?_⟩
  simp only [Bool.false_eq_true, if_false, if_true]
  exact ⟨good_closeDisks hv off_U hx hp, good_ioDisks (hx.half hv) (good_closeDisks hv off_U hx hp)⟩

theorem good_release_closed (hv : Vars ds) (hp : good cl p U) : good cl (releaseToken ds false false p) U := by
  refine ⟨good_closeDisks hv off_U Ext.refl hp, ?_⟩
  simp only [Bool.false_eq_true, if_false]
  refine good_openDisks hv off_U (fun a' hx => ?_) hp
  exact ⟨good_closeDisks hv off_U hx hp, good_ioDisks (hx.half hv) (good_closeDisks hv off_U hx hp)⟩

theorem good_release_nodisk (hv : Vars ds) (hp : good cl p U) : good cl (releaseToken ds false true p) U := by
  refine ⟨good_closeDisks hv off_U Ext.refl hp, ?_⟩
  simpa using hp

theorem ext_not (hx : Ext ds U a) (hn : ∀ d ∈ ds, d.1 ≠ h.1) : a h.1 = .unset := by
  rcases hx h.1 with ⟨f, hf, _⟩ | e
  · exact absurd rfl (hn (h.1, f) hf)
  · exact e

theorem good_acquireLoop (hv : Vars ds) (hn : ∀ d ∈ ds, d.1 ≠ h.1) (k j : Nat) (hx : Ext ds U a) :
    good cl (acquireLoop ds h k j) a := by
  induction j with
  | zero => exact good_release_opened hv hx good_ret_U
  | succ j ih =>
    refine good_acquireLease (hx.half hv) hn (ext_not hx hn) ?_ ?_ k false a Ext.refl (fun _ => rfl)
    · exact ⟨good_ioDisks (hx.half hv) (good_release_opened hv hx good_ret_U),
        good_ioDisks (hx.half hv) (good_closeDisks hv off_U hx good_ret_U)⟩
    · exact ⟨good_release_opened hv hx good_ret_U, ih⟩

theorem number_mem {fs : List Nat} : ∀ {i : Nat} {d : Nat × Nat}, d ∈ number i fs → i ≤ d.1 ∧ d.1 < i + fs.length := by
  induction fs with
  | nil => intro i d hd; cases hd
  | cons f fs ih =>
    intro i d hd
    rcases List.mem_cons.1 hd with rfl | hd
    · exact ⟨Nat.le_refl _, by simp⟩
    · have := ih hd
      simp only [List.length_cons]
      omega

theorem number_vars (fs : List Nat) : ∀ i, Vars (number i fs) := by
  induction fs with
  | nil => intro i; simp [Vars, number]
  | cons f fs ih =>
    intro i
    simp only [Vars, number, List.map_cons, List.nodup_cons]
    refine ⟨fun hm => ?_, ih (i + 1)⟩
    obtain ⟨d, hd, e⟩ := List.mem_map.1 hm
    have := number_mem hd
    omega

theorem number_ne {fs : List Nat} {hf : Nat} : ∀ d ∈ number 0 fs, d.1 ≠ ((fs.length, hf) : Nat × Nat).1 := by
  intro d hd
  have := (number_mem hd).2
  simp only [Nat.zero_add] at this
  exact Nat.ne_of_lt this

theorem set_self {β} (f : Nat → β) (i : Nat) (v : β) (hv : f i = v) : set f i v = f := by
  funext j
  simp only [set_apply]
  split
  · rename_i e; rw [e, hv]
  · rfl

theorem set_set {β} (f : Nat → β) (i : Nat) (v w : β) : set (set f i v) i w = set f i w := by
  funext j
  simp only [set_apply]
  grind

theorem set_U (i : Nat) : set U i .unset = U := set_self _ _ _ rfl

theorem set_set_U (i : Nat) (x : V) : set (set U i x) i .unset = U := by rw [set_set, set_U]

theorem good_close0 {r} {f : Nat} : good cl (.closeDisk 0 (.ret r)) (set U 0 (.mine f)) :=
  ⟨by simp [set_apply], by rw [set_set_U]; exact good_ret_U⟩

theorem set_same {β} (f : Nat → β) (i : Nat) (v : β) : set f i v i = v := by simp [set_apply]

theorem good_useDisk (f : Nat) : good cl (useDisk f) U :=
  ⟨good_ret_U, fun g => by simp [U], ⟨good_close0, .inl (set_same ..), good_close0, .inl (set_same ..), good_close0⟩,
    good_ret_U⟩

theorem good_rindexFormat (f : Nat) : good cl (rindexFormat f) U :=
  ⟨fun g => by simp [U], ⟨good_close0, .inl (set_same ..), good_close0, .inl (set_same ..), good_close0⟩, good_ret_U⟩

theorem good_rindexChange (f hf k : Nat) : good cl (rindexChange f (1, hf) k) U := by
  refine ⟨fun g => by simp [U], ⟨good_close0, .inl (set_same ..), good_close0, ⟨.inl (set_same ..), good_close0⟩, ?_⟩, good_ret_U⟩
  have h1 : good cl (.io 0 f (.closeDisk 0 (.ret true))) (set U 0 (.mine f)) := ⟨.inl (set_same ..), good_close0⟩
  refine good_acquireLease ?_ ?_ ?_ h1 good_close0 k false _ Ext.refl (fun _ => rfl)
  · intro d hd
    rw [List.mem_singleton.1 hd]
    exact .inl (set_same ..)
  · intro d hd
    rw [List.mem_singleton.1 hd]
    exact (by decide : (0 : Nat) ≠ 1)
  · simp [set_apply, U]

theorem good_connection (f : Nat) : good cl (connection f) U :=
  ⟨fun g => by simp [U], ⟨.inl (set_same ..), good_close0⟩, good_ret_U⟩

/-! ### The thread of a lockspace -/

/-- Variables 0 to 3 of the thread. -/
def sv (a b c d : V) : Nat → V := fun v => if v = 0 then a else if v = 1 then b else if v = 2 then c else if v = 3 then d else .unset

theorem sv0 (a b c d x : V) : set (sv a b c d) 0 x = sv x b c d := by funext v; simp only [sv, set_apply]; grind
theorem sv1 (a b c d x : V) : set (sv a b c d) 1 x = sv a x c d := by funext v; simp only [sv, set_apply]; grind
theorem sv2 (a b c d x : V) : set (sv a b c d) 2 x = sv a b x d := by funext v; simp only [sv, set_apply]; grind
theorem sv3 (a b c d x : V) : set (sv a b c d) 3 x = sv a b c x := by funext v; simp only [sv, set_apply]; grind

/-- Not an open file. -/
def V.off (x : V) : Prop := x = .unset ∨ x = .stale

theorem good_spaceOut {f : Nat} {b c d : V} (hb : b.off) (hc : c.off) (hd : d.off) :
    good false spaceOut (sv (.mine f) b c d) := by
  refine ⟨⟨f, rfl⟩, ?_⟩
  rw [sv0]
  intro v
  show sv .stale b c d v = _ ∨ _
  unfold sv
  unfold V.off at hb hc hd
  grind

theorem good_sysfs {f y : Nat} {b c d : V} {p : Prog} (hd : d.off)
    (hp : ∀ d', V.off d' → good false p (sv (.mine f) b c d')) : good false (sysfs y p) (sv (.mine f) b c d) := by
  refine ⟨hp d hd, fun g => ?_, ?_, hp d hd⟩
  · show d ≠ _
    rcases hd with rfl | rfl <;> simp
  · rw [sv3]
    refine ⟨.inl rfl, ⟨y, rfl⟩, ?_⟩
    rw [sv3]
    exact hp _ (.inr rfl)

theorem good_renewals {f w : Nat} {wd : Bool} {p : Prog} {a : Nat → V} (h0 : a 0 = .mine f) (h2 : wd = true → a 2 = .mine w)
    (hp : good cl p a) (n : Nat) : good cl (renewals f w wd p n) a := by
  induction n with
  | zero => exact hp
  | succ n ih =>
    refine ⟨.inl h0, ?_⟩
    split
    · exact ⟨⟨.inl (h2 ‹_›), ih⟩, ih⟩
    · exact ih

theorem good_spaceThread (f w y : Nat) (wd : Bool) (n : Nat) :
    good false (spaceThread f w y wd n) (sv .unset .unset .stale .unset) := by
  have hs : V.off .stale := .inr rfl
  have hu : V.off .unset := .inl rfl
  refine ⟨fun g => by simp [sv], ?_, ?_⟩
  · rw [sv0]
    refine ⟨.inl rfl, good_spaceOut hu hs hu, ?_⟩
    refine good_sysfs hu fun d1 h1 => good_sysfs h1 fun d2 h2 => good_sysfs h2 fun d hd => ?_
    refine ⟨good_spaceOut hu hs hd, ?_⟩
    split
    · refine ⟨fun g => by simp [sv], ?_, good_spaceOut hu hs hd⟩
      rw [sv1]
      refine ⟨.inl rfl, .inl rfl, ⟨⟨w, rfl⟩, by rw [sv1]; exact good_spaceOut hs hs hd⟩, .inl rfl,
        ⟨⟨w, rfl⟩, by rw [sv1]; exact ⟨.inl rfl, good_spaceOut hs hs hd⟩⟩, by decide, ⟨w, rfl⟩, fun g => by simp [sv], ?_⟩
      rw [sv2, sv1]
      have h1 : good false (.close 2 (.io 0 f spaceOut)) (sv (.mine f) .stale (.mine w) d) := by
        refine ⟨⟨w, rfl⟩, ?_⟩
        rw [sv2]
        exact ⟨.inl rfl, good_spaceOut hs hs hd⟩
      exact good_renewals (a := sv (.mine f) .stale (.mine w) d) rfl (fun _ => rfl) h1 n
    · have h1 : good false (.io 0 f spaceOut) (sv (.mine f) .unset .stale d) := ⟨.inl rfl, good_spaceOut hu hs hd⟩
      exact ⟨.inl rfl, good_spaceOut hu hs hd, by
        exact good_renewals (a := sv (.mine f) .unset .stale d) (w := w) (wd := false) rfl (fun e => by cases e) h1 n⟩
  · intro v
    simp only [sv]
    grind

/-- What the variables stand for at the start of a call. -/
def Cmd.vars : Cmd → Nat → V
  | .space .. => sv .unset .unset .stale .unset
  | _ => U

/-- The thread of a lockspace. -/
def Cmd.isSpace : Cmd → Bool
  | .space .. => true
  | _ => false

theorem good_prog (c : Cmd) (hc : cl = true → c.isSpace = false) : good cl c.prog c.vars := by
  cases c with
  | acquire fs hf k j =>
    have hv := number_vars fs 0
    exact ⟨good_ret_U, good_ret_U,
      good_openDisks hv off_U (fun a' hx => good_closeDisks hv off_U hx good_ret_U) (good_release_nodisk hv good_ret_U),
      good_openDisks hv off_U (fun a' hx => good_acquireLoop hv number_ne k j hx) (good_release_nodisk hv good_ret_U)⟩
  | release fs => exact good_release_closed (number_vars fs 0) good_ret_U
  | convert fs hf k =>
    have hv := number_vars fs 0
    refine ⟨good_ret_U, good_openDisks hv off_U (fun a' hx => ?_) good_ret_U⟩
    have e : ∀ r, good cl (ioDisks (number 0 fs) (closeDisks (number 0 fs) (.ret r))) a' := fun r =>
      good_ioDisks (hx.half hv) (good_closeDisks hv off_U hx good_ret_U)
    exact ⟨e _, good_acquireLease (hx.half hv) number_ne (ext_not hx number_ne) (e _) (e _) k false a' Ext.refl (fun _ => rfl)⟩
  | disks fs =>
    have hv := number_vars fs 0
    exact ⟨good_ret_U, good_openDisks hv off_U (fun a' hx => ⟨good_closeDisks hv off_U hx good_ret_U,
      good_ioDisks (hx.half hv) (good_closeDisks hv off_U hx good_ret_U)⟩) good_ret_U⟩
  | disk f => exact good_useDisk f
  | format f => exact good_rindexFormat f
  | change f hf k => exact good_rindexChange f hf k
  | space f w y wd n =>
    cases cl with
    | false => exact good_spaceThread f w y wd n
    | true => exact absurd (hc rfl) (by simp [Cmd.isSpace])
  | client f => exact good_connection f

/-! ### Interleavings -/

/-- What the variables of call `t` stand for is so. -/
structure Corr (a : Nat → V) (σ : Nat → Int) (tab : Nat → Option Ent) (t : Nat) : Prop where
  unset : ∀ v, a v = .unset → σ v = -1
  mine : ∀ v f, a v = .mine f → ∃ n : Nat, σ v = n ∧ tab n = some ⟨t, f⟩
  stale : ∀ v, a v = .stale → 0 ≤ σ v
  inj : ∀ v w f g, a v = .mine f → a w = .mine g → σ v = σ w → v = w
  all : ∀ n f, tab n = some ⟨t, f⟩ → ∃ v, a v = .mine f ∧ σ v = (n : Int)

/-- `K t`: call `t` is not the thread of a lockspace. -/
structure Inv (K : Nat → Bool) (own : Nat → Option Nat) (s : State) : Prop where
  thr0 : s.thr 0 = none
  thr : ∀ t p σ, s.thr t = some (p, σ) → ∃ a, good (K t) p a ∧ Corr a σ s.tab t
  used : ∀ n t f, s.tab n = some ⟨t, f⟩ → t ≠ 0 → s.thr t ≠ none
  own : ∀ n f, s.tab n = some ⟨0, f⟩ ↔ own n = some f
  hits : ∀ x f g, (x, f, g) ∈ s.hits → (x = -1 ∧ g = none) ∨ g = some f
  closes : ∀ t o, (t, o) ∈ s.closes → o = some t

theorem lowest_free {lim : Nat} {tab : Nat → Option Ent} {n : Nat} (hl : lowest lim tab = some n) : tab n = none ∧ n < lim := by
  have h1 := List.find?_some hl
  have h2 := List.mem_of_find?_eq_some hl
  exact ⟨Option.isNone_iff_eq_none.1 h1, List.mem_range.1 h2⟩

theorem Corr.frame {a : Nat → V} {σ : Nat → Int} {tab tab' : Nat → Option Ent} {t : Nat} (hc : Corr a σ tab t)
    (hf : ∀ n f, tab' n = some ⟨t, f⟩ ↔ tab n = some ⟨t, f⟩) : Corr a σ tab' t where
  unset := hc.unset
  mine v f e := by
    obtain ⟨n, h1, h2⟩ := hc.mine v f e
    exact ⟨n, h1, (hf n f).2 h2⟩
  stale := hc.stale
  inj := hc.inj
  all n f e := hc.all n f ((hf n f).1 e)

/-- A step of call `t`: the table changes only at entries of `t`, `t` goes on with `p`, `σ`. -/
theorem Inv.goOn {K own} {s : State} {t : Nat} {p p' : Prog} {σ σ' : Nat → Int} {tab' : Nat → Option Ent} {hits' closes' lost' miss'} {a}
    (h : Inv K own s) (ht : s.thr t = some (p', σ'))
    (htab : ∀ n, tab' n ≠ s.tab n → (s.tab n = none ∨ ∃ f, s.tab n = some ⟨t, f⟩) ∧ (tab' n = none ∨ ∃ f, tab' n = some ⟨t, f⟩))
    (hg : good (K t) p a) (hc : Corr a σ tab' t)
    (hh : ∀ x f g, (x, f, g) ∈ hits' → (x = -1 ∧ g = none) ∨ g = some f)
    (hcl : ∀ u o, (u, o) ∈ closes' → o = some u) :
    Inv K own (goOn { s with tab := tab', hits := hits', closes := closes', lost := lost', miss := miss' } t p σ) := by
  have ht0 : t ≠ 0 := fun e => by rw [e, h.thr0] at ht; cases ht
  have other : ∀ u, u ≠ t → ∀ n f, tab' n = some ⟨u, f⟩ ↔ s.tab n = some ⟨u, f⟩ := by
    intro u hu n f
    by_cases e : tab' n = s.tab n
    · rw [e]
    · obtain ⟨h1, h2⟩ := htab n e
      constructor
      · intro e2
        rcases h2 with h2 | ⟨g, h2⟩
        · rw [h2] at e2; cases e2
        · rw [h2] at e2
          exact absurd (by simpa using e2 : t = u ∧ g = f).1.symm hu
      · intro e2
        rcases h1 with h1 | ⟨g, h1⟩
        · rw [h1] at e2; cases e2
        · rw [h1] at e2
          exact absurd (by simpa using e2 : t = u ∧ g = f).1.symm hu
  refine ⟨?_, ?_, ?_, ?_, hh, hcl⟩
  · simp only [Descr.goOn, set_apply, if_neg (Ne.symm ht0)]
    exact h.thr0
  · intro u q τ e
    simp only [Descr.goOn, set_apply] at e
    split at e
    · rename_i hu
      subst hu
      cases e
      exact ⟨a, hg, hc⟩
    · rename_i hu
      obtain ⟨b, hb, hcb⟩ := h.thr u q τ e
      exact ⟨b, hb, hcb.frame (other u hu)⟩
  · intro n u f e hu
    simp only [Descr.goOn, set_apply]
    split
    · simp
    · rename_i hut
      exact h.used n u f ((other u hut n f).1 e) hu
  · intro n f
    exact (other 0 (Ne.symm ht0) n f).trans (h.own n f)

theorem entry_nat (tab : Nat → Option Ent) (n : Nat) : entry tab (n : Int) = tab n := by
  unfold entry
  rw [if_neg (by omega)]
  simp

theorem shut_nat (tab : Nat → Option Ent) (n : Nat) : shut tab (n : Int) = set tab n none := by
  unfold shut
  rw [if_neg (by omega)]
  simp

/-- Closing an open file of the call. -/
theorem Corr.shut {a : Nat → V} {σ : Nat → Int} {tab : Nat → Option Ent} {t v : Nat} {f : Nat} (hc : Corr a σ tab t)
    (hv : a v = .mine f) (x : V) (y : Int) (hx : (x = .unset ∧ y = -1) ∨ (x = .stale ∧ y = σ v)) :
    Corr (set a v x) (set σ v y) (Descr.shut tab (σ v)) t := by
  obtain ⟨n, hn, htn⟩ := hc.mine v f hv
  rw [hn, shut_nat]
  have hx' : ∀ g, x ≠ .mine g := by rcases hx with ⟨rfl, _⟩ | ⟨rfl, _⟩ <;> simp
  refine ⟨?_, ?_, ?_, ?_, ?_⟩
  · intro w hw
    simp only [set_apply] at hw ⊢
    split at hw
    · rename_i e
      rw [if_pos e]
      rcases hx with ⟨_, e2⟩ | ⟨e2, _⟩
      · exact e2
      · rw [e2] at hw; cases hw
    · rename_i e
      rw [if_neg e]
      exact hc.unset w hw
  · intro w g hw
    simp only [set_apply] at hw ⊢
    split at hw
    · exact absurd hw (hx' g)
    · rename_i e
      rw [if_neg e]
      obtain ⟨m, hm, htm⟩ := hc.mine w g hw
      refine ⟨m, hm, ?_⟩
      have : m ≠ n := fun e2 => e (hc.inj w v g f hw hv (by rw [hm, hn, e2]))
      rw [if_neg this]
      exact htm
  · intro w hw
    simp only [set_apply] at hw ⊢
    split at hw
    · rename_i e
      rw [if_pos e]
      rcases hx with ⟨e2, _⟩ | ⟨_, e2⟩
      · rw [e2] at hw; cases hw
      · rw [e2, hn]; omega
    · rename_i e
      rw [if_neg e]
      exact hc.stale w hw
  · intro w u g1 g2 hw hu he
    simp only [set_apply] at hw hu he
    split at hw
    · exact absurd hw (hx' _)
    · split at hu
      · exact absurd hu (hx' _)
      · rename_i e1 e2
        rw [if_neg e1, if_neg e2] at he
        exact hc.inj w u g1 g2 hw hu he
  · intro m g hm
    simp only [set_apply] at hm ⊢
    split at hm
    · cases hm
    · rename_i hmn
      obtain ⟨w, hw, hwm⟩ := hc.all m g hm
      refine ⟨w, ?_⟩
      have : w ≠ v := by
        rintro rfl
        rw [hn] at hwm
        exact hmn (by omega)
      rw [if_neg this, if_neg this]
      exact ⟨hw, hwm⟩

theorem Corr.entry {a : Nat → V} {σ : Nat → Int} {tab : Nat → Option Ent} {t v f : Nat} (hc : Corr a σ tab t)
    (hv : a v = .mine f) : entry tab (σ v) = some ⟨t, f⟩ := by
  obtain ⟨n, hn, htn⟩ := hc.mine v f hv
  rw [hn, entry_nat, htn]

theorem shut_changes {tab : Nat → Option Ent} {x : Int} {e : Option Ent} (he : Descr.entry tab x = e) {n : Nat}
    (hne : shut tab x n ≠ tab n) : tab n = e ∧ shut tab x n = none := by
  unfold shut at hne ⊢
  unfold Descr.entry at he
  split at hne
  · exact absurd rfl hne
  · rename_i hx
    rw [if_neg hx] at he ⊢
    simp only [set_apply] at hne ⊢
    split at hne
    · rename_i e2
      rw [e2, if_pos rfl]
      exact ⟨he, rfl⟩
    · exact absurd rfl hne

theorem Inv.move {K own lim} {s : State} {t : Nat} {b : Bool} {p : Prog} {σ : Nat → Int} (h : Inv K own s)
    (ht : s.thr t = some (p, σ)) (hev : (Descr.move lim s t b p σ).ev = []) : Inv K own (Descr.move lim s t b p σ) := by
  obtain ⟨a, hg, hc⟩ := h.thr t p σ ht
  have same : ∀ (q : Prog) (a' : Nat → V) (σ' : Nat → Int), good (K t) q a' → Corr a' σ' s.tab t → Inv K own (Descr.goOn s t q σ') :=
    fun q a' σ' hq hc' => h.goOn ht (fun n e => absurd rfl e) hq hc' h.hits h.closes
  cases p with
  | ret r => exact h
  | «open» v f ok err =>
    obtain ⟨hv, hok, herr⟩ := hg
    simp only [Descr.move]
    split
    · rename_i n hl
      obtain ⟨hfree, -⟩ := lowest_free hl
      refine h.goOn (tab' := set s.tab n (some ⟨t, f⟩)) (hits' := s.hits) (closes' := s.closes) (lost' := s.lost) (miss' := s.miss) ht ?_ hok ?_ h.hits h.closes
      · intro m hm
        simp only [set_apply] at hm ⊢
        split at hm
        · rename_i e
          rw [if_pos e, e]
          exact ⟨.inl hfree, .inr ⟨f, rfl⟩⟩
        · exact absurd rfl hm
      · have hnot : ∀ w g, a w = .mine g → σ w ≠ (n : Int) := by
          intro w g hw e
          obtain ⟨m, hm, htm⟩ := hc.mine w g hw
          rw [hm] at e
          have : m = n := by omega
          rw [this, hfree] at htm
          cases htm
        refine ⟨?_, ?_, ?_, ?_, ?_⟩
        · intro w hw
          simp only [set_apply] at hw ⊢
          split at hw
          · cases hw
          · rename_i e; rw [if_neg e]; exact hc.unset w hw
        · intro w g hw
          simp only [set_apply] at hw ⊢
          split at hw
          · rename_i e
            cases hw
            rw [if_pos e]
            exact ⟨n, rfl, by simp⟩
          · rename_i e
            rw [if_neg e]
            obtain ⟨m, hm, htm⟩ := hc.mine w g hw
            refine ⟨m, hm, ?_⟩
            have : m ≠ n := fun e2 => by rw [e2, hfree] at htm; cases htm
            rw [if_neg this]
            exact htm
        · intro w hw
          simp only [set_apply] at hw ⊢
          split at hw
          · cases hw
          · rename_i e; rw [if_neg e]; exact hc.stale w hw
        · intro w u g1 g2 hw hu he
          simp only [set_apply] at hw hu he
          split at hw <;> split at hu
          · rename_i e1 e2; rw [e1, e2]
          · rename_i e1 e2
            rw [if_pos e1, if_neg e2] at he
            exact absurd he.symm (hnot u g2 hu)
          · rename_i e1 e2
            rw [if_neg e1, if_pos e2] at he
            exact absurd he (hnot w g1 hw)
          · rename_i e1 e2
            rw [if_neg e1, if_neg e2] at he
            exact hc.inj w u g1 g2 hw hu he
        · intro m g hm
          simp only [set_apply] at hm ⊢
          split at hm
          · rename_i e
            cases hm
            exact ⟨v, by simp, by simp [e]⟩
          · obtain ⟨w, hw, hwm⟩ := hc.all m g hm
            refine ⟨w, ?_⟩
            have : w ≠ v := fun e => hv g (e ▸ hw)
            rw [if_neg this, if_neg this]
            exact ⟨hw, hwm⟩
    · exact h.goOn ht (fun n e => absurd rfl e) herr hc h.hits h.closes
  | io v f p =>
    obtain ⟨hv, hp⟩ := hg
    refine h.goOn ht (fun n e => absurd rfl e) hp hc ?_ h.closes
    intro x g o hm
    rcases List.mem_cons.1 hm with e | hm
    · simp only [Prod.mk.injEq] at e
      obtain ⟨rfl, rfl, rfl⟩ := e
      rcases hv with hv | hv
      · right
        rw [hc.entry hv]
        rfl
      · left
        rw [hc.unset v hv]
        exact ⟨rfl, rfl⟩
    · exact h.hits x g o hm
  | closeDisk v p =>
    obtain ⟨hv, hp⟩ := hg
    simp only [Descr.move]
    split
    · rename_i e
      have hu : a v = .unset := by
        cases hav : a v with
        | unset => rfl
        | mine f =>
          obtain ⟨n, hn, _⟩ := hc.mine v f hav
          rw [e] at hn
          omega
        | stale => exact absurd hav hv
      exact same p a σ (by rwa [set_self a v .unset hu] at hp) hc
    · rename_i e
      cases hav : a v with
      | unset => exact absurd (hc.unset v hav) e
      | stale => exact absurd hav hv
      | mine f =>
        have he := hc.entry hav
        refine h.goOn (hits' := s.hits) (lost' := s.lost) (miss' := s.miss) ht ?_ hp (hc.shut hav .unset (-1) (.inl ⟨rfl, rfl⟩)) h.hits ?_
        · intro n hn
          obtain ⟨h1, h2⟩ := shut_changes he hn
          exact ⟨.inr ⟨f, h1⟩, .inl h2⟩
        · intro u o hm
          rcases List.mem_cons.1 hm with e | hm
          · simp only [Prod.mk.injEq] at e
            obtain ⟨rfl, rfl⟩ := e
            rw [he]
            rfl
          · exact h.closes u o hm
  | close v p =>
    obtain ⟨⟨f, hav⟩, hp⟩ := hg
    have he := hc.entry hav
    have hc' := hc.shut hav .stale (σ v) (.inr ⟨rfl, rfl⟩)
    rw [set_self σ v (σ v) rfl] at hc'
    refine h.goOn (hits' := s.hits) (lost' := s.lost) (miss' := s.miss) ht ?_ hp hc' h.hits ?_
    · intro n hn
      obtain ⟨h1, h2⟩ := shut_changes he hn
      exact ⟨.inr ⟨f, h1⟩, .inl h2⟩
    · intro u o hm
      rcases List.mem_cons.1 hm with e | hm
      · simp only [Prod.mk.injEq] at e
        obtain ⟨rfl, rfl⟩ := e
        rw [he]
        rfl
      · exact h.closes u o hm
  | move v w p =>
    obtain ⟨hvw, ⟨f, hav⟩, hw, hp⟩ := hg
    refine same p _ _ hp ⟨?_, ?_, ?_, ?_, ?_⟩
    · intro u hu
      simp only [set_apply] at hu ⊢
      split at hu
      · cases hu
      · split at hu
        · rw [hav] at hu; cases hu
        · rename_i e; rw [if_neg e]; exact hc.unset u hu
    · intro u g hu
      simp only [set_apply] at hu ⊢
      split at hu
      · cases hu
      · split at hu
        · rename_i e; rw [if_pos e]; exact hc.mine v g hu
        · rename_i e; rw [if_neg e]; exact hc.mine u g hu
    · intro u hu
      simp only [set_apply] at hu ⊢
      split at hu
      · rename_i e
        rw [if_neg (by rw [e]; exact hvw), e]
        obtain ⟨n, hn, _⟩ := hc.mine v f hav
        omega
      · split at hu
        · rw [hav] at hu; cases hu
        · rename_i e; rw [if_neg e]; exact hc.stale u hu
    · intro u1 u2 g1 g2 h1 h2 he
      simp only [set_apply] at h1 h2 he
      split at h1
      · cases h1
      · split at h2
        · cases h2
        · rename_i e1 e2
          split at h1 <;> split at h2
          · rename_i e3 e4; rw [e3, e4]
          · rename_i e3 e4
            rw [if_pos e3, if_neg e4] at he
            exact absurd (hc.inj v u2 g1 g2 h1 h2 he).symm e2
          · rename_i e3 e4
            rw [if_neg e3, if_pos e4] at he
            exact absurd (hc.inj u1 v g1 g2 h1 h2 he) e1
          · rename_i e3 e4
            rw [if_neg e3, if_neg e4] at he
            exact hc.inj u1 u2 g1 g2 h1 h2 he
    · intro n g hn
      obtain ⟨u, hu, hun⟩ := hc.all n g hn
      by_cases e : u = v
      · refine ⟨w, ?_, ?_⟩
        · simp only [set_apply, if_neg (Ne.symm hvw), if_pos]
          rw [← e, hu]
        · simp only [set_apply, if_pos]
          rw [← e, hun]
      · refine ⟨u, ?_, ?_⟩
        · have : u ≠ w := fun e2 => hw g (e2 ▸ hu)
          simp only [set_apply, if_neg e, if_neg this]
          exact hu
        · have : u ≠ w := fun e2 => hw g (e2 ▸ hu)
          simp only [set_apply, if_neg this]
          exact hun
  | ifSet v p q =>
    obtain ⟨h1, h2⟩ := hg
    simp only [Descr.move]
    split
    · rename_i e
      refine same q a σ (h1 ?_) hc
      cases hav : a v with
      | unset => rfl
      | mine f =>
        obtain ⟨n, hn, _⟩ := hc.mine v f hav
        rw [e] at hn
        omega
      | stale =>
        have := hc.stale v hav
        rw [e] at this
        omega
    · rename_i e
      exact same p a σ (h2 fun hu => e (hc.unset v hu)) hc
  | alt p q =>
    simp only [Descr.move]
    split
    · exact same p a σ hg.1 hc
    · exact same q a σ hg.2 hc
  | fault e p q =>
    simp only [Descr.move] at hev ⊢
    split at hev
    · simp [Descr.goOn] at hev
    · rename_i hb
      rw [if_neg hb]
      exact same q a σ hg hc

theorem move_ev {lim} {s : State} {t : Nat} {b : Bool} {p : Prog} {σ : Nat → Int} (hev : (move lim s t b p σ).ev = []) :
    s.ev = [] := by
  cases p <;> simp only [move] at hev
  case fault => split at hev <;> simp_all [goOn]
  case «open» => split at hev <;> simpa [goOn] using hev
  case closeDisk => split at hev <;> simpa [goOn, doClose] using hev
  all_goals simpa [goOn, doClose] using hev

theorem step_ev {lim} {s : State} {c : Choice} (hev : (step lim s c).ev = []) : s.ev = [] := by
  cases c with
  | start t c =>
    simp only [step] at hev
    split at hev
    · exact hev
    · simpa [goOn] using hev
  | go t b =>
    simp only [step] at hev
    split at hev
    · exact hev
    · exact move_ev hev

theorem corr_start (c : Cmd) {tab : Nat → Option Ent} {t : Nat} (hn : ∀ n f, tab n ≠ some ⟨t, f⟩) :
    Corr c.vars c.store tab t := by
  have key : (c.vars = U ∧ c.store = fun _ => -1) ∨
      (c.vars = sv .unset .unset .stale .unset ∧ c.store = set (fun _ => -1) 2 0) := by
    cases c <;> simp [Cmd.vars, Cmd.store]
  rcases key with ⟨e1, e2⟩ | ⟨e1, e2⟩
  · rw [e1, e2]
    exact ⟨fun _ _ => rfl, fun v f e => by simp [U] at e, fun v e => by simp [U] at e,
      fun v w f g e => by simp [U] at e, fun n f e => absurd e (hn n f)⟩
  · rw [e1, e2]
    refine ⟨?_, ?_, ?_, ?_, fun n f e => absurd e (hn n f)⟩
    · intro v hv
      simp only [sv] at hv
      simp only [set_apply]
      grind
    · intro v f hv
      simp only [sv] at hv
      grind
    · intro v hv
      simp only [sv] at hv
      simp only [set_apply]
      grind
    · intro v w f g hv
      simp only [sv] at hv
      grind

theorem Inv.start {K own} {s : State} {t : Nat} (c : Cmd) (h : Inv K own s) (ht0 : t ≠ 0) (ht : s.thr t = none)
    (hK : K t = true → c.isSpace = false) : Inv K own (Descr.goOn s t c.prog c.store) := by
  have hn : ∀ n f, s.tab n ≠ some ⟨t, f⟩ := fun n f e => h.used n t f e ht0 ht
  refine ⟨?_, ?_, ?_, h.own, h.hits, h.closes⟩
  · simp only [Descr.goOn, set_apply, if_neg (Ne.symm ht0)]
    exact h.thr0
  · intro u q τ e
    simp only [Descr.goOn, set_apply] at e
    split at e
    · rename_i hu
      subst hu
      cases e
      exact ⟨c.vars, good_prog c hK, corr_start c hn⟩
    · exact h.thr u q τ e
  · intro n u f e hu
    simp only [Descr.goOn, set_apply]
    split
    · simp
    · exact h.used n u f e hu

theorem Inv.step {K own lim} {s : State} {c : Choice} (h : Inv K own s)
    (hK : ∀ t d, c = .start t d → K t = true → d.isSpace = false)
    (hev : (Descr.step lim s c).ev = []) : Inv K own (Descr.step lim s c) := by
  cases c with
  | start t d =>
    simp only [Descr.step]
    split
    · exact h
    · rename_i hn
      rw [not_or] at hn
      exact h.start d hn.1 (by simpa using hn.2) (hK t d rfl)
  | go t b =>
    cases e : s.thr t with
    | none =>
      simp only [Descr.step, e]
      exact h
    | some q =>
      simp only [Descr.step, e] at hev ⊢
      exact h.move e hev

theorem inv_start (K) (own : Nat → Option Nat) : Inv K own (start own) where
  thr0 := rfl
  thr t p σ e := by cases e
  used n t f e ht := by
    simp only [start, Option.map_eq_some_iff, Ent.mk.injEq] at e
    obtain ⟨g, -, h0, -⟩ := e
    exact absurd h0.symm ht
  own n f := by simp [start]
  hits x f g e := by cases e
  closes t o e := by cases e

theorem run_ev {lim} {cs : List Choice} : ∀ {s : State}, (run lim s cs).ev = [] → s.ev = [] := by
  induction cs with
  | nil => intro s h; exact h
  | cons c cs ih => intro s h; exact step_ev (ih (s := step lim s c) h)

theorem inv_run {K own lim} (cs : List Choice) : ∀ {s : State}, Inv K own s →
    (∀ t d, .start t d ∈ cs → K t = true → d.isSpace = false) → (run lim s cs).ev = [] → Inv K own (run lim s cs) := by
  induction cs with
  | nil => intro s h _ _; exact h
  | cons c cs ih =>
    intro s h hK hev
    have hev' : (Descr.step lim s c).ev = [] := run_ev (cs := cs) hev
    refine ih (s := Descr.step lim s c) (h.step ?_ hev') ?_ hev
    · rintro t d rfl
      exact hK t d (List.mem_cons_self ..)
    · intro t d hd
      exact hK t d (List.mem_cons_of_mem _ hd)

end Sanlock.Descr
