import Verif.Locks

/-! Lemmas on mutexes, threads and the memory of lockspaces. -/

namespace Sanlock.Locks

/-! ### What a thread knows while it runs a program -/

/-- what a thread knows of a lockspace: nothing; it owns it (not on a list, on `spaces_add`, taken
off its list); it was seen on a list -/
inductive W
  | no
  | priv
  | add
  | off
  | seen (q : Lst)
  deriving DecidableEq

def W.owned : W → Bool
  | .priv => true
  | .add => true
  | .off => true
  | _ => false

/-- what a thread knows of the thread of a lockspace -/
inductive T
  | unk
  | fresh
  | started
  | joined
  deriving DecidableEq

structure K where
  held : List Lock
  w : Nat → W
  thr : Nat → T
  q : Thr → Bool

def k0 : K := ⟨[], fun _ => .no, fun _ => .unk, fun _ => false⟩

/-- the order of the mutexes -/
def rank : Lock → Nat
  | .spaces => 2
  | .sp _ => 4
  | .cl _ => 4
  | .res => 5
  | .pool => 5
  | .log => 6
  | .rand => 6

/-- the place of a join in the order -/
def jrank : Thr → Nat
  | .main => 0
  | .worker _ => 1
  | .resource => 1
  | .ls _ => 3
  | .logger => 5

def K.valid (k : K) (th : Thr) (i : Nat) : Bool := decide (th = .ls i) || decide (k.w i ≠ .no)

def K.validL (k : K) (th : Thr) : Lock → Bool
  | .sp i => k.valid th i
  | _ => true

/-- what is forgotten when `spaces_mutex` is unlocked -/
def drop (th : Thr) : W → W
  | .seen q => if th = .main ∧ q ≠ .add then .seen q else .no
  | w => w

theorem drop_owned (th : Thr) (w : W) : (drop th w).owned = w.owned := by
  cases w with
  | seen q => simp only [drop]; split <;> rfl
  | _ => rfl

def K.dropped (k : K) (th : Thr) : K := { k with w := fun i => drop th (k.w i) }

def K.rels (k : K) (th : Thr) (l : Lock) : K :=
  if l = .spaces then { k.dropped th with held := k.held.erase l }
  else { k with held := k.held.erase l }

/-- the rules -/
def chk (strict : Bool) (th : Thr) (k : K) : Op → Option K
  | .acq l =>
    if (∀ h ∈ k.held, rank h < rank l) ∧ jrank th < rank l ∧ k.validL th l = true then
      some { k with held := l :: k.held }
    else none
  | .rel l =>
    if l ∈ k.held ∧ k.validL th l = true ∧
        ∀ h ∈ k.held.erase l, (k.rels th l).validL th h = true then
      some (k.rels th l)
    else none
  | .use i => if k.valid th i = true then some k else none
  | .link i =>
    if .spaces ∈ k.held ∧ k.w i = .priv then some { k with w := upd k.w i .add } else none
  | .move i =>
    if .spaces ∈ k.held ∧ k.w i = .add ∧ k.thr i = .started then
      some { k with w := upd k.w i (.seen .on) } else none
  | .remove i =>
    if .spaces ∈ k.held ∧ th = .main ∧ k.w i = .seen .on then
      some { k with w := upd k.w i (.seen .rem) } else none
  | .unlink i =>
    if .spaces ∈ k.held ∧ (k.w i = .add ∨ (th = .main ∧ k.w i = .seen .rem)) then
      some { k with w := upd k.w i .off } else none
  | .free i =>
    if (k.w i = .priv ∨ k.w i = .off) ∧ (k.thr i = .fresh ∨ k.thr i = .joined) ∧
        .sp i ∉ k.held ∧ th ≠ .ls i then
      some { k with w := upd k.w i .no, thr := upd k.thr i .unk } else none
  | .start i =>
    if k.w i = .add ∧ k.thr i = .fresh then some { k with thr := upd k.thr i .started } else none
  | .quit t => some { k with q := upd k.q t true }
  | .join t =>
    if (∀ h ∈ k.held, rank h < jrank t) ∧ jrank th < jrank t ∧ k.q t = true then
      match t with
      | .ls i =>
        if k.w i = .seen .rem ∨ k.w i = .seen .on ∨ k.thr i = .started then
          some { k with thr := upd k.thr i .joined } else none
      | _ => some k
    else none
  | .io _ =>
    if strict = true → k.held = [] ∧ jrank th ≤ 1 then some k else none

/-- what is known after the answer yes -/
def K.yes (k : K) : Test → K
  | .onList q i => if (k.w i).owned then k else { k with w := upd k.w i (.seen q) }
  | .quits t => { k with q := upd k.q t true }
  | .alloc i => { k with w := upd k.w i .priv, thr := upd k.thr i .fresh }

/-- a question that may be asked -/
def may (k : K) : Test → Prop
  | .onList _ _ => .spaces ∈ k.held
  | .quits _ => True
  | .alloc i => k.w i = .no

/-- the program follows the rules, `Q` holds of what is known at its end -/
def wp (strict : Bool) (th : Thr) (k : K) : Prog → (K → Prop) → Prop
  | .ret, Q => Q k
  | .op o p, Q => ∃ k', chk strict th k o = some k' ∧ wp strict th k' p Q
  | .test t y n, Q => may k t ∧ wp strict th (k.yes t) y Q ∧ wp strict th k n Q

/-- at the end of a program: no mutex is held, no lockspace is owned -/
def Done (k : K) : Prop := k.held = [] ∧ ∀ i, (k.w i).owned = false

theorem wp_mono {strict th} {p : Prog} : ∀ {k : K} {Q Q' : K → Prop}, (∀ k, Q k → Q' k) →
    wp strict th k p Q → wp strict th k p Q' := by
  induction p with
  | ret => intro k Q Q' h hw; exact h _ hw
  | op o p ih => intro k Q Q' h hw; obtain ⟨k', hk, hw⟩ := hw; exact ⟨k', hk, ih h hw⟩
  | test t y n ihy ihn => intro k Q Q' h hw; exact ⟨hw.1, ihy h hw.2.1, ihn h hw.2.2⟩

theorem wp_seq {strict th} {p : Prog} : ∀ {q : Prog} {k : K} {Q : K → Prop},
    wp strict th k p (fun k => wp strict th k q Q) → wp strict th k (p ++ q) Q := by
  induction p with
  | ret => intro q k Q h; exact h
  | op o p ih => intro q k Q h; obtain ⟨k', hk, hw⟩ := h; exact ⟨k', hk, ih hw⟩
  | test t y n ihy ihn => intro q k Q h; exact ⟨h.1, ihy h.2.1, ihn h.2.2⟩

theorem wp_one {strict th} {o : Op} {k k' : K} {Q : K → Prop} (h : chk strict th k o = some k')
    (hq : Q k') : wp strict th k (one o) Q := ⟨k', h, hq⟩

theorem wp_each {strict th} {α : Type} {f : α → Prog} {J : K → Prop}
    (h : ∀ x k, J k → wp strict th k (f x) J) :
    ∀ (xs : List α) (k : K), J k → wp strict th k (each f xs) J := by
  intro xs
  induction xs with
  | nil => intro k hk; exact hk
  | cons x xs ih => intro k hk; exact wp_seq (wp_mono (fun k' hk' => ih k' hk') (h x k hk))

theorem wp_times {strict th} {p : Prog} {J : K → Prop} (h : ∀ k, J k → wp strict th k p J) :
    ∀ (n : Nat) (k : K), J k → wp strict th k (times p n) J := by
  intro n
  induction n with
  | zero => intro k hk; exact hk
  | succ n ih => intro k hk; exact wp_seq (wp_mono (fun k' hk' => ih k' hk') (h k hk))

theorem wp_found {strict th} {q i p} {k : K} {J : K → Prop} (hs : Lock.spaces ∈ k.held)
    (hy : wp strict th (k.yes (.onList q i)) p J) (hn : J k) :
    wp strict th k (found q i p) J := ⟨hs, hy, hn⟩

/-! ### The programs follow the rules -/

/-- the program gives back what it was given -/
def Keeps (strict : Bool) (th : Thr) (k : K) (p : Prog) : Prop :=
  ∀ Q : K → Prop, Q k → wp strict th k p Q

theorem keeps_ret {strict th k} : Keeps strict th k .ret := fun _ h => h

theorem keeps_seq {strict th k p q} (hp : Keeps strict th k p) (hq : Keeps strict th k q) :
    Keeps strict th k (p ++ q) := fun Q h => wp_seq (hp _ (hq Q h))

theorem keeps_wp {strict th k p} {Q : K → Prop} (hp : Keeps strict th k p) (h : Q k) :
    wp strict th k p Q := hp Q h

theorem keeps_each {strict th k} {α : Type} {f : α → Prog} (h : ∀ x, Keeps strict th k (f x)) :
    ∀ xs : List α, Keeps strict th k (each f xs) := by
  intro xs
  induction xs with
  | nil => exact keeps_ret
  | cons x xs ih => exact keeps_seq (h x) ih

theorem keeps_times {strict th k p} (h : Keeps strict th k p) :
    ∀ n, Keeps strict th k (times p n) := by
  intro n
  induction n with
  | zero => exact keeps_ret
  | succ n ih => exact keeps_seq h ih

/-- `k` with one more mutex -/
def K.with_ (k : K) (l : Lock) : K := { k with held := l :: k.held }

/-- every pointer to a mutex that is held is good -/
def K.okL (k : K) (th : Thr) : Prop := ∀ h ∈ k.held, k.validL th h = true

theorem validL_with {k : K} {l th x} : (k.with_ l).validL th x = k.validL th x := by
  cases x <;> rfl

/-- a section of a mutex that is not `spaces_mutex` -/
theorem keeps_sec {strict th k l p} (hl : l ≠ .spaces) (hr : ∀ h ∈ k.held, rank h < rank l)
    (hj : jrank th < rank l) (hv : k.validL th l = true) (ho : k.okL th)
    (hp : Keeps strict th (k.with_ l) p) : Keeps strict th k (sec l p) := by
  intro Q hQ
  refine wp_seq (wp_one (k' := k.with_ l) ?_ (wp_seq (hp _ (wp_one (k' := k) ?_ hQ))))
  · simp only [chk, K.with_]; rw [if_pos ⟨hr, hj, hv⟩]
  · have e : (k.with_ l).rels th l = k := by
      simp [K.rels, hl, K.with_]
    simp only [chk]
    rw [e, if_pos]
    refine ⟨by simp [K.with_], by rw [validL_with]; exact hv, ?_⟩
    intro h hh
    have : (k.with_ l).held.erase l = k.held := by simp [K.with_]
    rw [this] at hh
    exact ho h hh

theorem okL_with {k : K} {th l} (ho : k.okL th) (hv : k.validL th l = true) :
    (k.with_ l).okL th := by
  intro h hh
  rw [validL_with]
  rcases List.mem_cons.mp hh with rfl | hh
  · exact hv
  · exact ho h hh

/-- all mutexes held are below `n` -/
def K.below (k : K) (n : Nat) : Prop := ∀ h ∈ k.held, rank h < n

theorem below_with {k : K} {l n} (h : k.below n) (hl : rank l < n) : (k.with_ l).below n := by
  intro x hx
  rcases List.mem_cons.mp hx with rfl | hx
  · exact hl
  · exact h x hx

theorem below_mono {k : K} {m n} (h : k.below m) (hmn : m ≤ n) : k.below n :=
  fun x hx => Nat.lt_of_lt_of_le (h x hx) hmn

theorem jrank_lt (th : Thr) : jrank th < 6 := by cases th <;> simp [jrank]

theorem keeps_lg {strict th k} (hb : k.below 6) (ho : k.okL th) : Keeps strict th k lg :=
  keeps_sec (by decide) hb (jrank_lt th) rfl ho keeps_ret

theorem keeps_rnd {strict th k} (hb : k.below 6) (ho : k.okL th) : Keeps strict th k rnd :=
  keeps_sec (by decide) hb (jrank_lt th) rfl ho keeps_ret

theorem keeps_use {strict th k i} (hv : k.valid th i = true) : Keeps strict th k (one (.use i)) :=
  fun Q hQ => wp_one (k' := k) (by simp [chk, hv]) hQ

theorem keeps_lgs {strict th k i} (hv : k.valid th i = true) (hb : k.below 6) (ho : k.okL th) :
    Keeps strict th k (lgs i) := keeps_seq (keeps_use hv) (keeps_lg hb ho)

theorem keeps_client {strict th k c} (hb : k.below 4) (hj : jrank th < 4) (ho : k.okL th) :
    Keeps strict th k (sec (.cl c) lg) :=
  keeps_sec (by simp) hb hj rfl ho
    (keeps_lg (below_with (below_mono hb (by omega)) (by simp [rank])) (okL_with ho rfl))

theorem keeps_client0 {strict th k c} (hb : k.below 4) (hj : jrank th < 4) (ho : k.okL th) :
    Keeps strict th k (sec (.cl c) .ret) :=
  keeps_sec (by simp) hb hj rfl ho keeps_ret

theorem keeps_res {strict th k} (hb : k.below 5) (hj : jrank th < 5) (ho : k.okL th) :
    Keeps strict th k onRes :=
  keeps_sec (by simp) hb hj rfl ho
    (keeps_lg (below_with (below_mono hb (by omega)) (by simp [rank])) (okL_with ho rfl))

theorem valid_with {k : K} {l th i} : (k.with_ l).valid th i = k.valid th i := rfl

theorem keeps_sp {strict th k i} (hv : k.valid th i = true) (hb : k.below 4) (hj : jrank th < 4)
    (ho : k.okL th) : Keeps strict th k (sec (.sp i) (one (.use i))) :=
  keeps_sec (by simp) hb hj hv ho (keeps_use hv)

theorem keeps_spl {strict th k i} (hv : k.valid th i = true) (hb : k.below 4) (hj : jrank th < 4)
    (ho : k.okL th) : Keeps strict th k (sec (.sp i) (one (.use i) ++ lg)) :=
  keeps_sec (by simp) hb hj hv ho (keeps_seq (keeps_use hv)
    (keeps_lg (below_with (below_mono hb (by omega)) (by simp [rank])) (okL_with ho hv)))

theorem keeps_clients {strict th k} (hb : k.below 4) (hj : jrank th < 4) (ho : k.okL th)
    (cs : List Nat) : Keeps strict th k (clients cs) :=
  keeps_each (fun _ => keeps_client hb hj ho) cs

theorem keeps_allDead {strict th k i cs} (hv : k.valid th i = true) (hb : k.below 4)
    (hj : jrank th < 4) (ho : k.okL th) : Keeps strict th k (allDead i cs) :=
  keeps_seq (keeps_seq (keeps_seq (keeps_clients hb hj ho cs) (keeps_use hv))
    (keeps_res (below_mono hb (by omega)) (by omega) ho))
    (keeps_lgs hv (below_mono hb (by omega)) ho)

theorem keeps_kill {strict th k i cs} (hv : k.valid th i = true) (hb : k.below 4)
    (hj : jrank th < 4) (ho : k.okL th) : Keeps strict th k (killPids i cs) :=
  keeps_seq (keeps_seq (keeps_use hv) (keeps_sp hv hb hj ho)) (keeps_clients hb hj ho cs)

theorem keeps_io {strict th k c} (h : strict = true → k.held = [] ∧ jrank th ≤ 1) :
    Keeps strict th k (one (.io c)) :=
  fun Q hQ => wp_one (k' := k) (by simp only [chk]; rw [if_pos h]) hQ

/-- tell the thread of a lockspace to end, under the mutex of the lockspace -/
def K.told (k : K) (t : Thr) : K := { k with q := upd k.q t true }

theorem wp_tell {strict th} {k : K} {i} {Q : K → Prop} (hv : k.valid th i = true) (hb : k.below 4)
    (hj : jrank th < 4) (ho : k.okL th) (hQ : Q (k.told (.ls i))) :
    wp strict th k (sec (.sp i) (one (.use i) ++ one (.quit (.ls i)))) Q := by
  refine wp_seq (wp_one (k' := k.with_ (.sp i)) ?_ (wp_seq (wp_seq (wp_one (k' := k.with_ (.sp i)) ?_
    (wp_one (k' := (k.told (.ls i)).with_ (.sp i)) ?_ (wp_one (k' := k.told (.ls i)) ?_ hQ))))))
  · simp only [chk, K.with_]; rw [if_pos ⟨hb, hj, hv⟩]
  · simp only [chk]; rw [valid_with, if_pos hv]
  · simp [chk, K.with_, K.told]
  · have e : ((k.told (.ls i)).with_ (.sp i)).rels th (.sp i) = k.told (.ls i) := by
      simp [K.rels, K.with_]
    simp only [chk]
    rw [e, if_pos]
    refine ⟨by simp [K.with_], hv, ?_⟩
    intro h hh
    have : ((k.told (.ls i)).with_ (.sp i)).held.erase (.sp i) = k.held := by
      simp [K.with_, K.told]
    rw [this] at hh
    have := ho h hh
    cases h <;> exact this

/-- in the section of `spaces_mutex`, nothing owned -/
def J (k : K) : Prop := k.held = [.spaces] ∧ ∀ i, (k.w i).owned = false

theorem J.mem {k} (h : J k) : Lock.spaces ∈ k.held := by rw [h.1]; simp

theorem J.below {k} (h : J k) : k.below 4 := by
  intro x hx; rw [h.1] at hx; rcases List.mem_singleton.mp hx with rfl; simp [rank]

theorem J.below3 {k} (h : J k) : k.below 3 := by
  intro x hx; rw [h.1] at hx; rcases List.mem_singleton.mp hx with rfl; simp [rank]

theorem J.okL {k th} (h : J k) : k.okL th := by
  intro x hx; rw [h.1] at hx; rcases List.mem_singleton.mp hx with rfl; rfl

theorem J.yes {k q i} (h : J k) :
    J (k.yes (.onList q i)) ∧ (k.yes (.onList q i)).w i = .seen q := by
  have e : k.yes (.onList q i) = { k with w := upd k.w i (.seen q) } := by
    simp [K.yes, h.2 i]
  rw [e]
  refine ⟨⟨h.1, fun j => ?_⟩, by simp [upd]⟩
  simp only [upd]
  split
  · rfl
  · exact h.2 j

theorem valid_seen {k : K} {th i q} (h : k.w i = .seen q) : k.valid th i = true := by
  simp [K.valid, h]

theorem J.set {k : K} {i q} (h : J k) : J { k with w := upd k.w i (.seen q) } := by
  refine ⟨h.1, fun j => ?_⟩
  simp only [upd]
  split
  · rfl
  · exact h.2 j

theorem J.told {k : K} {t} (h : J k) : J (k.told t) := h

/-- a section of `spaces_mutex` in which nothing is owned, from nothing -/
theorem wp_spaces {strict th} {p : Prog} (hj : jrank th < 2)
    (h : ∀ k, J k → wp strict th k p J) : ∀ k, Done k → wp strict th k (sec .spaces p) Done := by
  intro k hk
  have hJ : J (k.with_ .spaces) := ⟨by simp [K.with_, hk.1], hk.2⟩
  refine wp_seq (wp_one (k' := k.with_ .spaces) ?_ (wp_seq (wp_mono ?_ (h _ hJ))))
  · simp only [chk, K.with_]; rw [if_pos ⟨by simp [hk.1], hj, rfl⟩]
  · intro k1 h1
    refine wp_one (k' := k1.rels th .spaces) ?_ ?_
    · simp only [chk]
      rw [if_pos]
      refine ⟨h1.mem, rfl, ?_⟩
      rw [h1.1]; simp
    · refine ⟨by simp [K.rels, h1.1], fun i => ?_⟩
      have := h1.2 i
      simp only [K.rels, if_true, K.dropped]
      rw [drop_owned]; exact this

theorem wp_done_seq {strict th} {p q : Prog} (hp : ∀ k, Done k → wp strict th k p Done)
    (hq : ∀ k, Done k → wp strict th k q Done) : ∀ k, Done k → wp strict th k (p ++ q) Done :=
  fun k hk => wp_seq (wp_mono hq (hp k hk))

theorem Done.below {k n} (h : Done k) : k.below n := by intro x hx; rw [h.1] at hx; simp at hx

theorem Done.okL {k th} (h : Done k) : k.okL th := by intro x hx; rw [h.1] at hx; simp at hx

theorem done_k0 : Done k0 := ⟨rfl, fun _ => rfl⟩

theorem wp_checkOne {strict} (x : Nat × Finding) (k : K) (hk : J k) :
    wp strict .main k (checkOne x) J := by
  obtain ⟨i, f⟩ := x
  have hj : jrank .main < 4 := by simp [jrank]
  cases f with
  | gone cs =>
    refine wp_found hk.mem ?_ hk
    obtain ⟨h1, hw⟩ := hk.yes (q := .on) (i := i)
    generalize k.yes (.onList .on i) = k1 at h1 hw
    have hv : k1.valid .main i = true := valid_seen hw
    refine wp_seq (wp_seq (wp_seq (wp_seq (keeps_wp (keeps_use hv)
      (keeps_wp (keeps_allDead hv h1.below hj h1.okL)
      (keeps_wp (keeps_lgs hv (below_mono h1.below (by omega)) h1.okL)
      (wp_tell hv h1.below hj h1.okL ?_)))))))
    refine wp_one (k' := { k1.told (.ls i) with w := upd k1.w i (.seen .rem) }) ?_ ?_
    · simp only [chk]
      rw [if_pos ⟨h1.mem, trivial, hw⟩]
      rfl
    · exact J.set (k := k1.told (.ls i)) h1.told
  | killing cs ds =>
    refine wp_found hk.mem ?_ hk
    obtain ⟨h1, hw⟩ := hk.yes (q := .on) (i := i)
    generalize k.yes (.onList .on i) = k1 at h1 hw
    have hv : k1.valid .main i = true := valid_seen hw
    exact keeps_wp (keeps_seq (keeps_seq (keeps_use hv) (keeps_allDead hv h1.below hj h1.okL))
      (keeps_kill hv h1.below hj h1.okL)) h1
  | lost cs =>
    refine wp_found hk.mem ?_ hk
    obtain ⟨h1, hw⟩ := hk.yes (q := .on) (i := i)
    generalize k.yes (.onList .on i) = k1 at h1 hw
    have hv : k1.valid .main i = true := valid_seen hw
    exact keeps_wp (keeps_seq (keeps_seq (keeps_seq (keeps_use hv) (keeps_sp hv h1.below hj h1.okL))
      (keeps_lgs hv (below_mono h1.below (by omega)) h1.okL))
      (keeps_kill hv h1.below hj h1.okL)) h1
  | fine n =>
    refine wp_found hk.mem ?_ hk
    obtain ⟨h1, hw⟩ := hk.yes (q := .on) (i := i)
    generalize k.yes (.onList .on i) = k1 at h1 hw
    have hv : k1.valid .main i = true := valid_seen hw
    have hl : Keeps strict .main k1 (lgs i) := keeps_lgs hv (below_mono h1.below (by omega)) h1.okL
    exact keeps_wp (keeps_seq (keeps_seq (keeps_seq (keeps_use hv) (keeps_sp hv h1.below hj h1.okL))
      hl) (keeps_times (keeps_seq hl (keeps_res (below_mono h1.below (by omega))
        (by simp [jrank]) h1.okL)) n)) h1

theorem wp_freeOne {strict} (x : Nat × Bool) (k : K) (hk : J k) :
    wp strict .main k (freeOne x) J := by
  obtain ⟨i, b⟩ := x
  have hj : jrank .main < 4 := by simp [jrank]
  cases b with
  | false =>
    refine wp_found hk.mem ?_ hk
    obtain ⟨h1, hw⟩ := hk.yes (q := .rem) (i := i)
    generalize k.yes (.onList .rem i) = k1 at h1 hw
    have hv : k1.valid .main i = true := valid_seen hw
    exact wp_tell hv h1.below hj h1.okL h1.told
  | true =>
    refine wp_found hk.mem ?_ hk
    obtain ⟨h1, hw⟩ := hk.yes (q := .rem) (i := i)
    generalize k.yes (.onList .rem i) = k1 at h1 hw
    have hv : k1.valid .main i = true := valid_seen hw
    refine wp_seq (wp_seq (wp_seq (wp_seq (wp_tell hv h1.below hj h1.okL
      (wp_one (k' := { k1.told (.ls i) with thr := upd k1.thr i .joined }) ?_ ?_)))))
    · simp only [chk]
      rw [if_pos, if_pos (show (k1.told (.ls i)).w i = _ ∨ _ from Or.inl hw)]
      · rfl
      · exact ⟨h1.below3, by simp [jrank], by simp [K.told, upd]⟩
    · have h2 : J { k1.told (.ls i) with thr := upd k1.thr i .joined } := h1
      have hv2 : K.valid { k1.told (.ls i) with thr := upd k1.thr i .joined } .main i = true := hv
      have hw2 : K.w { k1.told (.ls i) with thr := upd k1.thr i .joined } i = .seen .rem := hw
      have ht2 : K.thr { k1.told (.ls i) with thr := upd k1.thr i .joined } i = .joined := by
        simp [upd]
      generalize ({ k1.told (.ls i) with thr := upd k1.thr i .joined } : K) = k2 at h2 hv2 hw2 ht2 ⊢
      refine keeps_wp (keeps_lgs hv2 (below_mono h2.below (by omega)) h2.okL) ?_
      refine wp_one (k' := { k2 with w := upd k2.w i .off }) ?_ (wp_one (k' :=
        { k2 with w := upd (upd k2.w i .off) i .no, thr := upd k2.thr i .unk }) ?_ ?_)
      · simp only [chk]
        rw [if_pos ⟨h2.mem, Or.inr ⟨trivial, hw2⟩⟩]
      · simp only [chk]
        rw [if_pos]
        refine ⟨Or.inr (by simp [upd]), Or.inr ht2, ?_, by simp⟩
        show Lock.sp i ∉ k2.held
        rw [h2.1]; simp
      · refine ⟨h2.1, fun j => ?_⟩
        simp only [upd]
        split
        · rfl
        · exact h2.2 j

theorem wp_lookups {strict th} (hj : jrank th < 6) (qs : List (Lst × Nat)) (k : K) (hk : J k) :
    wp strict th k (each (fun x => found x.1 x.2 (one (.use x.2) ++ lg)) qs) J := by
  refine wp_each ?_ qs k hk
  rintro ⟨q, i⟩ k hk
  refine wp_found hk.mem ?_ hk
  obtain ⟨h1, hw⟩ := hk.yes (q := q) (i := i)
  exact keeps_wp (keeps_lgs (valid_seen hw) (below_mono h1.below (by omega)) h1.okL) h1

theorem wp_lookup {strict th} (hj : jrank th < 2) (qs : List (Lst × Nat)) :
    ∀ k, Done k → wp strict th k (lookup qs) Done :=
  wp_spaces hj (fun k hk => wp_lookups (by omega) qs k hk)

/-- the start of a function that finds a lockspace and unlocks, in the main thread -/
theorem wp_findThen {strict i p}
    (h : ∀ k, Done k → k.valid .main i = true → wp strict .main k p Done) :
    ∀ k, Done k → wp strict .main k (findThen i p) Done := by
  intro k hk
  have hJ : J (k.with_ .spaces) := ⟨by simp [K.with_, hk.1], hk.2⟩
  have hrel : ∀ k1, J k1 → chk strict .main k1 (.rel .spaces) = some (k1.rels .main .spaces) ∧
      Done (k1.rels .main .spaces) := by
    intro k1 h1
    refine ⟨?_, by simp [K.rels, h1.1], fun i => ?_⟩
    · simp only [chk]
      rw [if_pos]
      refine ⟨h1.mem, rfl, ?_⟩
      rw [h1.1]; simp
    · have := h1.2 i
      simp only [K.rels, if_true, K.dropped]
      rw [drop_owned]; exact this
  refine wp_seq (wp_one (k' := k.with_ .spaces) ?_ ⟨hJ.mem, ?_, ?_⟩)
  · simp only [chk, K.with_]; rw [if_pos ⟨by simp [hk.1], by simp [jrank, rank], rfl⟩]
  · obtain ⟨h1, hw⟩ := hJ.yes (q := .on) (i := i)
    generalize K.yes (k.with_ .spaces) (.onList .on i) = k1 at h1 hw ⊢
    obtain ⟨hc, hd⟩ := hrel _ h1
    refine wp_seq (wp_one hc (h _ hd ?_))
    simp [K.rels, K.dropped, K.valid, hw, drop]
  · obtain ⟨hc, hd⟩ := hrel _ hJ
    exact wp_one hc hd

theorem wp_io {strict th c} (hj : jrank th ≤ 1) :
    ∀ k, Done k → wp strict th k (one (.io c)) Done :=
  fun _ hk => keeps_wp (keeps_io (fun _ => ⟨hk.1, hj⟩)) hk

theorem wp_acquireEnd {strict} (k' c : Nat) (is : List Nat) :
    ∀ k, Done k → wp strict (.worker k') k (acquireEnd c is) Done := by
  have hjr : jrank (.worker k') = 1 := rfl
  refine wp_spaces (by omega) (fun k hk => ?_)
  -- inside both mutexes
  let J2 : K → Prop := fun k => k.held = [.cl c, .spaces] ∧ ∀ i, (k.w i).owned = false
  have b2 : ∀ {k}, J2 k → k.below 6 := by
    intro k h x hx; rw [h.1] at hx
    simp at hx; rcases hx with rfl | rfl <;> simp [rank]
  have o2 : ∀ {k}, J2 k → k.okL (.worker k') := by
    intro k h x hx; rw [h.1] at hx
    simp at hx; rcases hx with rfl | rfl <;> rfl
  have h2 : J2 (k.with_ (.cl c)) := ⟨by simp [K.with_, hk.1], hk.2⟩
  refine wp_seq (wp_one (k' := k.with_ (.cl c)) ?_ (wp_seq (wp_seq (wp_seq
    (keeps_wp (keeps_lg (b2 h2) (o2 h2)) (wp_mono (Q := J2) ?_ (wp_each ?_ is _ h2)))))))
  · simp only [chk, K.with_]
    rw [if_pos ⟨hk.below, by simp [rank, hjr], rfl⟩]
  · intro k1 h1
    refine keeps_wp (keeps_lg (b2 h1) (o2 h1)) (wp_one (k' := k1.rels (.worker k') (.cl c)) ?_ ?_)
    · simp only [chk]
      rw [if_pos]
      refine ⟨by simp [h1.1], rfl, ?_⟩
      rw [h1.1]; simp [K.validL]
    · refine ⟨by simp [K.rels, h1.1], ?_⟩
      simpa [K.rels] using h1.2
  · intro i k1 h1
    refine wp_found (by simp [h1.1]) ?_ h1
    have e : k1.yes (.onList .on i) = { k1 with w := upd k1.w i (.seen .on) } := by
      simp [K.yes, h1.2 i]
    rw [e]
    refine keeps_wp (keeps_use (by simp [K.valid, upd])) ⟨h1.1, fun j => ?_⟩
    simp only [upd]
    split
    · rfl
    · exact h1.2 j

theorem wp_status {c qs n} : ∀ k, Done k → wp false .main k (status c qs n) Done := by
  have hio : ∀ k, Keeps false .main k (one (.io c)) := fun k => keeps_io (by simp)
  refine wp_done_seq (wp_done_seq (fun k hk => keeps_wp (hio k) hk) ?_) ?_
  · refine wp_spaces (by simp [jrank]) (fun k hk => wp_each ?_ qs k hk)
    rintro ⟨q, i⟩ k hk
    refine wp_found hk.mem ?_ hk
    obtain ⟨h1, hw⟩ := hk.yes (q := q) (i := i)
    exact keeps_wp (keeps_seq (keeps_use (valid_seen hw)) (hio _)) h1
  · intro k hk
    exact keeps_wp (keeps_sec (by simp) hk.below (by simp [jrank, rank]) rfl hk.okL
      (keeps_times (hio _) n)) hk

/-- the thread owns lockspace `i` (and no other), mutexes `hs` are held -/
def Own (i : Nat) (w : W) (t : T) (hs : List Lock) (k : K) : Prop :=
  k.held = hs ∧ k.w i = w ∧ k.thr i = t ∧ w.owned = true ∧ ∀ j, j ≠ i → (k.w j).owned = false

theorem Own.valid {i w t hs k th} (h : Own i w t hs k) : k.valid th i = true := by
  have : k.w i ≠ .no := by
    intro e; rw [h.2.1] at e; rw [e] at h; have := h.2.2.2.1; simp [W.owned] at this
  simp [K.valid, this]

theorem Own.below {i w t k n} (h : Own i w t [] k) : k.below n := by
  intro x hx; rw [h.1] at hx; simp at hx

theorem Own.okL {i w t k th} (h : Own i w t [] k) : k.okL th := by
  intro x hx; rw [h.1] at hx; simp at hx

theorem wp_rel_own {strict th i w t} {k : K} {Q : K → Prop} (h : Own i w t [.spaces] k)
    (hQ : ∀ k, Own i w t [] k → Q k) : wp strict th k (one (.rel .spaces)) Q := by
  refine wp_one (k' := k.rels th .spaces) ?_ (hQ _ ⟨?_, ?_, ?_, h.2.2.2.1, ?_⟩)
  · simp only [chk]
    rw [if_pos]
    refine ⟨by simp [h.1], rfl, ?_⟩
    rw [h.1]; simp
  · simp [K.rels, h.1]
  · have := h.2.2.2.1
    simp only [K.rels, if_true, K.dropped, h.2.1]
    cases w <;> simp_all [drop, W.owned]
  · simp [K.rels, K.dropped, h.2.2.1]
  · intro j hj
    have := h.2.2.2.2 j hj
    simp only [K.rels, if_true, K.dropped]
    rw [drop_owned]; exact this

theorem wp_acq_own {strict th i w t} {k : K} {Q : K → Prop} (hj : jrank th < 2)
    (h : Own i w t [] k) (hQ : ∀ k, Own i w t [.spaces] k → Q k) :
    wp strict th k (one (.acq .spaces)) Q := by
  refine wp_one (k' := k.with_ .spaces) ?_ (hQ _ ⟨?_, h.2.1, h.2.2.1, h.2.2.2.1, h.2.2.2.2⟩)
  · simp only [chk, K.with_]; rw [if_pos ⟨by simp [h.1], hj, rfl⟩]
  · simp [K.with_, h.1]

/-- a section of `spaces_mutex` while a lockspace is owned -/
theorem wp_sec_own {strict th i w t w' t'} {p : Prog} {k : K} {Q : K → Prop} (hj : jrank th < 2)
    (h : Own i w t [] k) (hp : ∀ k, Own i w t [.spaces] k → wp strict th k p (Own i w' t' [.spaces]))
    (hQ : ∀ k, Own i w' t' [] k → Q k) : wp strict th k (sec .spaces p) Q :=
  wp_seq (wp_acq_own hj h fun k h => wp_seq (wp_mono (fun k h => wp_rel_own h hQ) (hp k h)))

theorem wp_search {strict th i w t} (qs : List (Lst × Nat)) (k : K) (hk : Own i w t [.spaces] k) :
    wp strict th k (each (fun x => found x.1 x.2 (one (.use x.2) ++ lg)) qs)
      (Own i w t [.spaces]) := by
  refine wp_each ?_ qs k hk
  rintro ⟨q, j⟩ k hk
  have hm : Lock.spaces ∈ k.held := by simp [hk.1]
  have hy : Own i w t [.spaces] (k.yes (.onList q j)) ∧
      (k.yes (.onList q j)).valid th j = true := by
    by_cases ho : (k.w j).owned = true
    · have e : k.yes (.onList q j) = k := by simp [K.yes, ho]
      rw [e]
      refine ⟨hk, ?_⟩
      have : k.w j ≠ .no := by intro e; rw [e] at ho; simp [W.owned] at ho
      simp [K.valid, this]
    · have e : k.yes (.onList q j) = { k with w := upd k.w j (.seen q) } := by
        simp [K.yes, ho]
      have hji : j ≠ i := by
        rintro rfl
        exact ho (by rw [hk.2.1]; exact hk.2.2.2.1)
      rw [e]
      refine ⟨⟨hk.1, ?_, hk.2.2.1, hk.2.2.2.1, ?_⟩, by simp [K.valid, upd]⟩
      · simp only [upd]; rw [if_neg (Ne.symm hji)]; exact hk.2.1
      · intro x hx
        simp only [upd]
        split
        · rfl
        · exact hk.2.2.2.2 x hx
  refine wp_found hm (keeps_wp (keeps_lgs hy.2 ?_ ?_) hy.1) hk
  · intro x hx; rw [hy.1.1] at hx; rcases List.mem_singleton.mp hx with rfl; simp [rank]
  · intro x hx; rw [hy.1.1] at hx; rcases List.mem_singleton.mp hx with rfl; rfl

theorem wp_free {strict th i w t} {k : K} (h : Own i w t [] k) (hw : w = .priv ∨ w = .off)
    (ht : t = .fresh ∨ t = .joined) (hth : th ≠ .ls i) :
    wp strict th k (one (.free i)) Done := by
  refine wp_one (k' := { k with w := upd k.w i .no, thr := upd k.thr i .unk }) ?_ ⟨h.1, fun j => ?_⟩
  · simp only [chk]
    rw [if_pos]
    rw [h.2.1, h.2.2.1, h.1]
    exact ⟨hw, ht, by simp, hth⟩
  · simp only [upd]
    split
    · rfl
    · rename_i hj; exact h.2.2.2.2 j hj

theorem wp_link {strict th i t} {k : K} (h : Own i .priv t [.spaces] k) :
    wp strict th k (one (.link i)) (Own i .add t [.spaces]) := by
  refine wp_one (k' := { k with w := upd k.w i .add }) ?_ ⟨h.1, by simp [upd], h.2.2.1, rfl, ?_⟩
  · simp only [chk]; rw [if_pos ⟨by simp [h.1], h.2.1⟩]
  · intro j hj; simp only [upd]; rw [if_neg hj]; exact h.2.2.2.2 j hj

theorem wp_addFail {strict k' i t} {k : K} (h : Own i .add t [] k)
    (ht : t = .fresh ∨ t = .joined) :
    wp strict (.worker k') k (addFail i) Done := by
  refine wp_seq (wp_sec_own (w' := .off) (t' := t) (by simp [jrank]) h ?_
    (fun k h => wp_free h (Or.inr rfl) ht (by simp)))
  intro k h
  refine wp_one (k' := { k with w := upd k.w i .off }) ?_ ⟨h.1, by simp [upd], h.2.2.1, rfl, ?_⟩
  · simp only [chk]; rw [if_pos ⟨by simp [h.1], Or.inl h.2.1⟩]
  · intro j hj; simp only [upd]; rw [if_neg hj]; exact h.2.2.2.2 j hj

theorem wp_join_own {strict k' i w} {k : K} {Q : K → Prop} (h : Own i w .started [] k)
    (hq : k.q (.ls i) = true) (hQ : ∀ k, Own i w .joined [] k → Q k) :
    wp strict (.worker k') k (one (.join (.ls i))) Q := by
  refine wp_one (k' := { k with thr := upd k.thr i .joined }) ?_
    (hQ _ ⟨h.1, h.2.1, by simp [upd], h.2.2.2.1, h.2.2.2.2⟩)
  simp only [chk]
  rw [if_pos, if_pos (Or.inr (Or.inr h.2.2.1))]
  exact ⟨by simp [h.1], by simp [jrank], hq⟩

theorem wp_addSpace {strict} (k' i : Nat) (qs : List (Lst × Nat)) (a : Adding) :
    wp strict (.worker k') k0 (addSpace i qs a) Done := by
  have hj2 : jrank (.worker k') < 2 := by simp [jrank]
  have hj4 : jrank (.worker k') < 4 := by simp [jrank]
  refine ⟨rfl, ?_, done_k0⟩
  have h0 : Own i .priv .fresh [] (k0.yes (.alloc i)) := by
    refine ⟨rfl, by simp [K.yes, upd], by simp [K.yes, upd], rfl, ?_⟩
    intro j hj; simp [K.yes, upd, hj, k0, W.owned]
  generalize k0.yes (.alloc i) = k1 at h0 ⊢
  refine wp_seq (keeps_wp (keeps_use h0.valid) ?_)
  cases a with
  | exists_ =>
    exact wp_seq (wp_sec_own hj2 h0 (fun k h => wp_search qs k h)
      (fun k h => wp_free h (Or.inl rfl) (Or.inl rfl) (by simp)))
  | noThread =>
    refine wp_seq (wp_seq (wp_sec_own (w' := .add) (t' := .fresh) hj2 h0
      (fun k h => wp_seq (wp_mono (fun k h => wp_link h) (wp_search qs k h))) ?_))
    intro k h
    exact keeps_wp (keeps_lgs h.valid h.below h.okL) (wp_addFail h (Or.inl rfl))
  | waited n undo =>
    refine wp_seq (wp_seq (wp_seq (wp_seq (wp_sec_own (w' := .add) (t' := .fresh) hj2 h0
      (fun k h => wp_seq (wp_mono (fun k h => wp_link h) (wp_search qs k h))) ?_))))
    intro k h
    refine keeps_wp (keeps_lgs h.valid h.below h.okL) ?_
    refine wp_one (k' := { k with thr := upd k.thr i .started }) ?_ ?_
    · simp only [chk]; rw [if_pos ⟨h.2.1, h.2.2.1⟩]
    have h2 : Own i .add .started [] { k with thr := upd k.thr i .started } :=
      ⟨h.1, h.2.1, by simp [upd], rfl, h.2.2.2.2⟩
    generalize ({ k with thr := upd k.thr i .started } : K) = k2 at h2 ⊢
    refine keeps_wp (keeps_times (keeps_sp h2.valid h2.below hj4 h2.okL) n) ⟨trivial, ?_, ?_⟩
    · have h3 : Own i .add .started [] (k2.yes (.quits (.ls i))) := h2
      have hq : (k2.yes (.quits (.ls i))).q (.ls i) = true := by simp [K.yes, upd]
      generalize k2.yes (.quits (.ls i)) = k3 at h3 hq ⊢
      refine wp_seq (wp_seq (wp_join_own h3 hq (fun k h => ?_)))
      exact keeps_wp (keeps_lgs h.valid h.below h.okL) (wp_addFail h (Or.inr rfl))
    · cases undo with
      | true =>
        simp only [if_true]
        refine wp_seq (wp_seq (wp_seq (wp_seq (wp_seq (wp_sec_own (w' := .add) (t' := .started)
          hj2 h2 (fun k h => keeps_wp (keeps_use h.valid) h) ?_)))))
        intro k h
        refine keeps_wp (keeps_lgs h.valid h.below h.okL) ?_
        refine wp_tell h.valid h.below hj4 h.okL ?_
        have h3 : Own i .add .started [] (k.told (.ls i)) := h
        refine wp_join_own h3 (by simp [K.told, upd]) (fun k h => ?_)
        exact keeps_wp (keeps_lgs h.valid h.below h.okL) (wp_addFail h (Or.inr rfl))
      | false =>
        simp only [Bool.false_eq_true, if_false]
        refine wp_seq (wp_acq_own hj2 h2 fun k h => wp_seq (wp_seq (wp_seq
          (keeps_wp (keeps_use h.valid) ?_))))
        refine wp_one (k' := { k with w := upd k.w i (.seen .on) }) ?_ ?_
        · simp only [chk]; rw [if_pos ⟨by simp [h.1], h.2.1, h.2.2.1⟩]
        have h3 : J { k with w := upd k.w i (.seen .on) } := by
          refine ⟨h.1, fun j => ?_⟩
          simp only [upd]
          split
          · rfl
          · rename_i hj; exact h.2.2.2.2 j hj
        have hv : K.valid { k with w := upd k.w i (.seen .on) } (.worker k') i = true := by
          simp [K.valid, upd]
        generalize ({ k with w := upd k.w i (.seen .on) } : K) = k3 at h3 hv ⊢
        refine keeps_wp (keeps_lgs hv (below_mono h3.below (by omega)) h3.okL) ?_
        refine wp_one (k' := k3.rels (.worker k') .spaces) ?_ ?_
        · simp only [chk]
          rw [if_pos]
          refine ⟨h3.mem, rfl, ?_⟩
          rw [h3.1]; simp
        · refine ⟨by simp [K.rels, h3.1], fun j => ?_⟩
          have := h3.2 j
          simp only [K.rels, if_true, K.dropped]
          rw [drop_owned]; exact this

theorem wp_quitSec {strict l t} {k : K} (hl : l ≠ .spaces) (hr : 0 < rank l)
    (hv : ∀ k : K, k.validL .main l = true) (hk : Done k) {Q : K → Prop} (hQ : Q (k.told t)) :
    wp strict .main k (sec l (one (.quit t))) Q := by
  refine wp_seq (wp_one (k' := k.with_ l) ?_ (wp_seq (wp_one (k' := (k.told t).with_ l) ?_
    (wp_one (k' := k.told t) ?_ hQ))))
  · simp only [chk, K.with_]; rw [if_pos ⟨by simp [hk.1], hr, hv k⟩]
  · simp [chk, K.with_, K.told]
  · have e : ((k.told t).with_ l).rels .main l = k.told t := by simp [K.rels, hl, K.with_]
    simp only [chk]
    rw [e, if_pos]
    refine ⟨by simp [K.with_], hv _, ?_⟩
    intro h hh
    have : ((k.told t).with_ l).held.erase l = [] := by simp [K.with_, K.told, hk.1]
    rw [this] at hh; simp at hh

theorem wp_stopAll {strict} (ks : List Nat) :
    ∀ k, Done k → wp strict .main k (stopAll ks) Done := by
  intro k hk
  -- the workers are told
  have h1 : wp strict .main k (sec .pool (each (fun k => one (.quit (.worker k))) ks))
      (fun k => Done k ∧ ∀ x ∈ ks, k.q (.worker x) = true) := by
    refine wp_seq (wp_one (k' := k.with_ .pool) ?_ (wp_seq ?_))
    · simp only [chk, K.with_]; rw [if_pos ⟨by simp [hk.1], by simp [jrank, rank], rfl⟩]
    · have key : ∀ (xs ys : List Nat) (k : K), k.held = [.pool] →
          (∀ i, (k.w i).owned = false) → (∀ x ∈ ys, k.q (.worker x) = true) →
          wp strict .main k (each (fun k => one (.quit (.worker k))) xs)
            (fun k => k.held = [.pool] ∧ (∀ i, (k.w i).owned = false) ∧
              ∀ x, x ∈ xs ∨ x ∈ ys → k.q (.worker x) = true) := by
        intro xs
        induction xs with
        | nil => intro ys k h1 h2 h3; exact ⟨h1, h2, fun x hx => h3 x (by simpa using hx)⟩
        | cons x xs ih =>
          intro ys k h1 h2 h3
          refine wp_seq (wp_one (k' := k.told (.worker x)) rfl ?_)
          refine wp_mono ?_ (ih (x :: ys) (k.told (.worker x)) h1 h2 ?_)
          · intro k ⟨a, b, c⟩
            refine ⟨a, b, fun y hy => c y ?_⟩
            simp only [List.mem_cons] at hy ⊢
            rcases hy with (h | h) | h
            · exact Or.inr (Or.inl h)
            · exact Or.inl h
            · exact Or.inr (Or.inr h)
          · intro y hy
            show upd k.q (.worker x) true (.worker y) = true
            simp only [upd]
            split
            · rfl
            · rename_i hne
              rcases List.mem_cons.mp hy with rfl | hy
              · exact absurd rfl hne
              · exact h3 y hy
      refine wp_mono ?_ (key ks [] (k.with_ .pool) (by simp [K.with_, hk.1]) hk.2 (by simp))
      intro k1 ⟨a, b, c⟩
      refine wp_one (k' := k1.rels .main .pool) ?_ ⟨⟨by simp [K.rels, a], ?_⟩, ?_⟩
      · simp only [chk]
        rw [if_pos]
        refine ⟨by simp [a], rfl, ?_⟩
        rw [a]; simp
      · simpa [K.rels] using b
      · intro x hx
        have := c x (Or.inl hx)
        simpa [K.rels] using this
  refine wp_seq (wp_seq (wp_seq (wp_seq (wp_seq (wp_seq (wp_mono ?_ h1))))))
  intro k1 ⟨d1, q1⟩
  have hjoin : ∀ (xs : List Nat), (∀ x ∈ xs, k1.q (.worker x) = true) →
      Keeps strict .main k1 (each (fun k => one (.join (.worker k))) xs) := by
    intro xs
    induction xs with
    | nil => intro _; exact keeps_ret
    | cons x xs ih =>
      intro hx
      refine keeps_seq ?_ (ih fun y hy => hx y (by simp [hy]))
      intro Q hQ
      refine wp_one (k' := k1) ?_ hQ
      simp only [chk]
      rw [if_pos ⟨by simp [d1.1], by simp [jrank], hx x (by simp)⟩]
  refine keeps_wp (hjoin ks q1) (wp_quitSec (by simp) (by simp [rank]) (fun _ => rfl) d1 ?_)
  have d2 : Done (k1.told .resource) := d1
  refine wp_one (k' := k1.told .resource) ?_ ?_
  · simp only [chk]
    rw [if_pos ⟨by simp [d2.1], by simp [jrank], by simp [K.told, upd]⟩]
  generalize k1.told .resource = k2 at d2 ⊢
  refine wp_quitSec (by simp) (by simp [rank]) (fun _ => rfl) d2 ?_
  have d3 : Done (k2.told .logger) := d2
  refine wp_one (k' := k2.told .logger) ?_ ?_
  · simp only [chk]
    rw [if_pos ⟨by simp [d3.1], by simp [jrank], by simp [K.told, upd]⟩]
  exact keeps_wp (keeps_lg d3.below d3.okL) d3

/-- all programs but the three follow the rules -/
theorem safe_wp {strict t p} (h : Safe strict t p) : wp strict t k0 p Done := by
  have d0 := done_k0
  have b : ∀ {n}, k0.below n := d0.below
  have o : ∀ {t}, k0.okL t := d0.okL
  cases h with
  | log => exact keeps_wp (keeps_lg b o) d0
  | rnd => exact keeps_wp (keeps_rnd b o) d0
  | client t c h => exact keeps_wp (keeps_client b (by cases t <;> simp_all [jrank]) o) d0
  | res t h => exact keeps_wp (keeps_res b (by cases t <;> simp_all [jrank]) o) d0
  | pidDead c n =>
    refine keeps_wp (keeps_seq (keeps_seq (keeps_client b (by simp [jrank]) o) (keeps_lg b o)) ?_) d0
    refine keeps_sec (by simp) b (by simp [jrank, rank]) rfl o (keeps_times ?_ n)
    exact keeps_res (below_with b (by simp [rank])) (by simp [jrank]) (okL_with o rfl)
  | checkAll xs => exact wp_spaces (by simp [jrank]) (fun k hk => wp_each wp_checkOne xs k hk) _ d0
  | freeSpaces xs => exact wp_spaces (by simp [jrank]) (fun k hk => wp_each wp_freeOne xs k hk) _ d0
  | addWork =>
    exact keeps_wp (keeps_sec (by simp) b (by simp [jrank, rank]) rfl o
      (keeps_lg (below_with b (by simp [rank])) (okL_with o rfl))) d0
  | registered cs c d fail =>
    have hc0 : ∀ c, Keeps strict .main k0 (sec (.cl c) .ret) :=
      fun c => keeps_client0 b (by simp [jrank]) o
    have hc : ∀ c, Keeps strict .main k0 (sec (.cl c) lg) :=
      fun c => keeps_client b (by simp [jrank]) o
    refine keeps_wp (keeps_seq (keeps_seq (keeps_seq (keeps_each hc0 cs) (hc c)) ?_) ?_) d0
    · exact keeps_sec (by simp) b (by simp [jrank, rank]) rfl o
        (keeps_lg (below_with b (by simp [rank])) (okL_with o rfl))
    · cases fail with
      | false => exact keeps_ret
      | true =>
        exact keeps_seq (keeps_seq (keeps_seq (hc0 c) (keeps_lg b o))
          (keeps_io (fun _ => ⟨rfl, by simp [jrank]⟩))) (hc d)
  | mainLookup qs => exact wp_lookup (by simp [jrank]) qs _ d0
  | mainIo c => exact wp_io (by simp [jrank]) _ d0
  | status c qs n h => subst h; exact wp_status _ d0
  | setConfig i =>
    exact wp_findThen (fun k hk hv => keeps_wp (keeps_sp hv hk.below (by simp [jrank]) hk.okL) hk) _ d0
  | endEvent i =>
    exact wp_findThen (fun k hk hv => keeps_wp (keeps_spl hv hk.below (by simp [jrank]) hk.okL) hk) _ d0
  | regEvent i a =>
    refine wp_findThen (fun k hk hv => ?_) _ d0
    have h1 : Keeps strict .main k (sec (.sp i) (one (.use i))) :=
      keeps_sp hv hk.below (by simp [jrank]) hk.okL
    have h2 : Keeps strict .main k (lgs i) := keeps_lgs hv hk.below hk.okL
    refine keeps_wp (keeps_seq (keeps_seq h1 h2) ?_) hk
    cases a with
    | false => exact keeps_ret
    | true =>
      exact keeps_seq (keeps_seq (keeps_spl hv hk.below (by simp [jrank]) hk.okL) h1) h2
  | stopAll ks => exact wp_stopAll ks _ d0
  | lookup k qs => exact wp_lookup (by simp [jrank]) qs _ d0
  | io k c => exact wp_io (by simp [jrank]) _ d0
  | acquireEnd k c is => exact wp_acquireEnd k c is _ d0
  | addSpace k i qs a => exact wp_addSpace k i qs a
  | resLookup qs => exact wp_lookup (by simp [jrank]) qs _ d0
  | lsStep i =>
    have hv : k0.valid (.ls i) i = true := by simp [K.valid]
    exact keeps_wp (keeps_seq (keeps_seq (keeps_use hv) (keeps_spl hv b (by simp [jrank]) o))
      (keeps_lgs hv b o)) d0
  | lsFail i =>
    exact wp_tell (by simp [K.valid]) b (by simp [jrank]) o d0
  | lsEnd i =>
    have hv : k0.valid (.ls i) i = true := by simp [K.valid]
    have hr : Keeps strict (.ls i) k0 onRes := keeps_res b (by simp [jrank]) o
    exact keeps_wp (keeps_seq (keeps_seq (keeps_seq (keeps_use hv) hr) hr)
      (keeps_sp hv b (by simp [jrank]) o)) d0

/-! ### The invariant -/

def WOk (st : St) : W → Prop
  | .no => True
  | .priv => st = .priv
  | .add => st = .listed .add
  | .off => st = .off
  | .seen q => st = .listed q

def TOk (life : Life) (w : W) : T → Prop
  | .unk => True
  | .fresh => life = .none ∧ w.owned = true
  | .started => life ≠ .none
  | .joined => life = .ended

/-- what the thread knows is true -/
structure Sound (s : State) (th : Thr) (k : K) : Prop where
  own : ∀ l, s.owner l = some th ↔ l ∈ k.held
  nd : k.held.Nodup
  spv : ∀ h ∈ k.held, k.validL th h = true
  wok : ∀ i, WOk (s.st i) (k.w i)
  seen : ∀ i q, k.w i = .seen q → .spaces ∈ k.held ∨ (th = .main ∧ q ≠ .add)
  thr : ∀ i, TOk (s.life (.ls i)) (k.w i) (k.thr i)
  quit : ∀ t, k.q t = true → s.quit t = true

structure Core (s : State) (κ : Thr → K) : Prop where
  sound : ∀ th, Sound s th (κ th)
  uniq : ∀ a b i, ((κ a).w i).owned = true → ((κ b).w i).owned = true → a = b
  bad : s.bad = false
  g1 : ∀ i q, s.st i = .listed q → q ≠ .add → s.life (.ls i) ≠ .none
  g2 : ∀ i, s.life (.ls i) = .alive → (∃ q, s.st i = .listed q) ∨ s.st i = .off
  g5 : ∀ t, s.life t = .none → ∃ i, t = .ls i
  /-- a lockspace that is on no list has an owner -/
  g6 : ∀ i, s.st i = .priv ∨ s.st i = .listed .add ∨ s.st i = .off →
    ∃ th, ((κ th).w i).owned = true
  g7 : ∀ th, s.life th ≠ .alive → (κ th).held = []
  g8 : ∀ i, s.st i = .none → s.life (.ls i) = .none

theorem Core.usable {s κ th i} (h : Core s κ) (ha : s.life th = .alive)
    (hv : (κ th).valid th i = true) : (s.st i).usable = true := by
  simp only [K.valid, Bool.or_eq_true, decide_eq_true_eq] at hv
  rcases hv with rfl | hv
  · rcases h.g2 i ha with ⟨q, e⟩ | e <;> rw [e] <;> rfl
  · have := (h.sound th).wok i
    generalize (κ th).w i = w at hv this
    cases w <;> simp_all [WOk, St.usable]

theorem Core.lockOk {s κ th l} (h : Core s κ) (ha : s.life th = .alive)
    (hv : (κ th).validL th l = true) : lockOk s l = true := by
  cases l with
  | sp i => exact h.usable ha hv
  | _ => rfl

theorem upd_same {α β : Type} [DecidableEq α] (f : α → β) (a : α) (b : β) : upd f a b a = b := by
  simp [upd]

theorem upd_ne {α β : Type} [DecidableEq α] (f : α → β) {a x : α} (b : β) (h : x ≠ a) :
    upd f a b x = f x := by simp [upd, h]

/-- what a thread knows stays true when others do not touch it -/
theorem Sound.other {s s' : State} {b k} (h : Sound s b k)
    (ho : ∀ l, s'.owner l = some b ↔ s.owner l = some b)
    (hw : ∀ i, WOk (s'.st i) (k.w i))
    (ht : ∀ i, TOk (s'.life (.ls i)) (k.w i) (k.thr i))
    (hq : ∀ t, s.quit t = true → s'.quit t = true) : Sound s' b k :=
  ⟨fun l => (ho l).trans (h.own l), h.nd, h.spv, hw, h.seen, ht, fun t e => hq t (h.quit t e)⟩

/-- `a` holds `spaces_mutex`: what others have seen on a list is kept by the main thread -/
theorem Core.seen_other {s κ a b i q} (h : Core s κ) (ha : Lock.spaces ∈ (κ a).held) (hab : b ≠ a)
    (hs : (κ b).w i = .seen q) : b = .main ∧ q ≠ .add := by
  rcases (h.sound b).seen i q hs with hb | hb
  · have h1 := ((h.sound a).own _).mpr ha
    have h2 := ((h.sound b).own _).mpr hb
    rw [h1] at h2
    exact absurd (Option.some.inj h2).symm hab
  · exact hb

theorem tok_mono {l l' : Life} {w t} (h : TOk l w t) (h1 : l = .none → l' = .none)
    (h2 : l ≠ .none → l' ≠ .none) (h3 : l = .ended → l' = .ended) : TOk l' w t := by
  cases t with
  | unk => trivial
  | fresh => exact ⟨h1 h.1, h.2⟩
  | started => exact h2 h
  | joined => exact h3 h

theorem g7_upd {s : State} {κ : Thr → K} {th : Thr} {k' : K} (h : Core s κ)
    (ha : s.life th = .alive) : ∀ b, s.life b ≠ .alive → (upd κ th k' b).held = [] := by
  intro b hb
  have hne : b ≠ th := by rintro rfl; exact hb ha
  rw [upd_ne _ _ hne]
  exact h.g7 b hb

/-- a change of the lists, or of the ownership, of lockspace `i` by thread `th` -/
theorem core_st {s : State} {κ : Thr → K} {th : Thr} {i : Nat} {y : St} {k' : K} (h : Core s κ)
    (ha : s.life th = .alive)
    (hh : k'.held = (κ th).held) (hkq : k'.q = (κ th).q)
    (hwj : ∀ j, j ≠ i → k'.w j = (κ th).w j) (htj : ∀ j, j ≠ i → k'.thr j = (κ th).thr j)
    (hwi : WOk y (k'.w i)) (hti : TOk (s.life (.ls i)) (k'.w i) (k'.thr i))
    (hseen : ∀ q, k'.w i = .seen q → Lock.spaces ∈ (κ th).held ∨ (th = .main ∧ q ≠ .add))
    (hval : Lock.sp i ∈ (κ th).held → k'.valid th i = true)
    (hoth : ∀ b, b ≠ th → (κ b).w i = .no)
    (hg1 : ∀ q, y = .listed q → q ≠ .add → s.life (.ls i) ≠ .none)
    (hg2 : s.life (.ls i) = .alive → (∃ q, y = .listed q) ∨ y = .off)
    (hg6 : y = .priv ∨ y = .listed .add ∨ y = .off → (k'.w i).owned = true)
    (hg8 : y ≠ .none)
    (bad : Bool) (hb : bad = false) :
    Core { s with st := upd s.st i y, bad := bad } (upd κ th k') := by
  subst hb
  refine ⟨?_, ?_, rfl, ?_, ?_, h.g5, ?_, fun b hb => g7_upd (s := s) h ha b hb, ?_⟩
  · intro b
    by_cases hbt : b = th
    · subst hbt
      rw [upd_same]
      have hs := h.sound b
      refine ⟨fun l => by rw [hh]; exact hs.own l, by rw [hh]; exact hs.nd, ?_, ?_, ?_, ?_, ?_⟩
      · intro l hl
        rw [hh] at hl
        cases l with
        | sp j =>
          by_cases hj : j = i
          · subst hj; exact hval hl
          · have := hs.spv _ hl
            simp only [K.validL, K.valid] at this ⊢
            rw [hwj j hj]; exact this
        | _ => rfl
      · intro j
        by_cases hj : j = i
        · subst hj; simp only [upd_same]; exact hwi
        · simp only [upd_ne _ _ hj]; rw [hwj j hj]; exact hs.wok j
      · intro j q hq
        rw [hh]
        by_cases hj : j = i
        · subst hj; exact hseen q hq
        · rw [hwj j hj] at hq; exact hs.seen j q hq
      · intro j
        by_cases hj : j = i
        · subst hj; exact hti
        · rw [hwj j hj, htj j hj]; exact hs.thr j
      · intro t; rw [hkq]; exact hs.quit t
    · rw [upd_ne _ _ hbt]
      refine (h.sound b).other (fun l => Iff.rfl) ?_ (h.sound b).thr (fun t e => e)
      intro j
      by_cases hj : j = i
      · subst hj; rw [hoth b hbt]; trivial
      · simp only [upd_ne _ _ hj]; exact (h.sound b).wok j
  · intro a b j ha hb
    by_cases hj : j = i
    · subst hj
      have key : ∀ x, ((upd κ th k' x).w j).owned = true → x = th := by
        intro x hx
        apply Classical.byContradiction
        intro hne
        rw [upd_ne _ _ hne, hoth x hne] at hx
        simp [W.owned] at hx
      rw [key a ha, key b hb]
    · have key : ∀ x, ((upd κ th k' x).w j) = (κ x).w j := by
        intro x
        by_cases hx : x = th
        · subst hx; rw [upd_same, hwj j hj]
        · rw [upd_ne _ _ hx]
      rw [key a] at ha
      rw [key b] at hb
      exact h.uniq a b j ha hb
  · intro j q
    by_cases hj : j = i
    · subst hj; simp only [upd_same]; exact hg1 q
    · simp only [upd_ne _ _ hj]; exact h.g1 j q
  · intro j
    by_cases hj : j = i
    · subst hj; simp only [upd_same]; exact hg2
    · simp only [upd_ne _ _ hj]; exact h.g2 j
  · intro j
    by_cases hj : j = i
    · subst hj; simp only [upd_same]
      intro hy; exact ⟨th, by rw [upd_same]; exact hg6 hy⟩
    · simp only [upd_ne _ _ hj]
      intro hy
      obtain ⟨x, hx⟩ := h.g6 j hy
      refine ⟨x, ?_⟩
      by_cases hxt : x = th
      · subst hxt; rw [upd_same, hwj j hj]; exact hx
      · rw [upd_ne _ _ hxt]; exact hx
  · intro j
    by_cases hj : j = i
    · subst hj; simp only [upd_same]; intro e; exact absurd e hg8
    · simp only [upd_ne _ _ hj]; exact h.g8 j

theorem Core.alone {s κ th i} (h : Core s κ) (ho : ((κ th).w i).owned = true)
    (hs : Lock.spaces ∈ (κ th).held ∨ ∀ q, s.st i ≠ .listed q) :
    ∀ b, b ≠ th → (κ b).w i = .no := by
  intro b hb
  have hwb := (h.sound b).wok i
  have hwt := (h.sound th).wok i
  cases hw : (κ b).w i with
  | no => rfl
  | seen q =>
    rw [hw] at hwb
    simp only [WOk] at hwb
    rcases hs with hs | hs
    · have := h.seen_other hs hb hw
      generalize (κ th).w i = v at ho hwt
      cases v <;> simp_all [WOk, W.owned]
    · exact absurd hwb (hs q)
  | priv => exact absurd (h.uniq b th i (by rw [hw]; rfl) ho) hb
  | add => exact absurd (h.uniq b th i (by rw [hw]; rfl) ho) hb
  | off => exact absurd (h.uniq b th i (by rw [hw]; rfl) ho) hb

theorem Core.aloneMain {s κ i q} (h : Core s κ) (hw : (κ .main).w i = .seen q) (hq : q ≠ .add)
    (hs : Lock.spaces ∈ (κ .main).held) : ∀ b, b ≠ .main → (κ b).w i = .no := by
  intro b hb
  have hwb := (h.sound b).wok i
  have hwt := (h.sound .main).wok i
  rw [hw] at hwt
  simp only [WOk] at hwt
  cases hv : (κ b).w i with
  | no => rfl
  | seen q' => exact absurd (h.seen_other hs hb hv).1 hb
  | priv => rw [hv, hwt] at hwb; simp [WOk] at hwb
  | add => rw [hv, hwt] at hwb; simp [WOk, hq] at hwb
  | off => rw [hv, hwt] at hwb; simp [WOk] at hwb

theorem eta_st (s : State) : ({ s with st := s.st, bad := s.bad } : State) = s := rfl

/-- what is known changes, the state does not -/
theorem core_know {s : State} {κ : Thr → K} {th : Thr} {k' : K} (h : Core s κ)
    (ha : s.life th = .alive)
    (hh : k'.held = (κ th).held) (hw : k'.w = (κ th).w)
    (ht : ∀ i, TOk (s.life (.ls i)) (k'.w i) (k'.thr i))
    (hq : ∀ t, k'.q t = true → s.quit t = true) : Core s (upd κ th k') := by
  have key : ∀ x, (upd κ th k' x).w = (κ x).w := by
    intro x
    by_cases hx : x = th
    · subst hx; rw [upd_same, hw]
    · rw [upd_ne _ _ hx]
  refine ⟨?_, ?_, h.bad, h.g1, h.g2, h.g5, ?_, fun b hb => g7_upd (s := s) h ha b hb, h.g8⟩
  · intro b
    by_cases hb : b = th
    · subst hb
      rw [upd_same]
      have hs := h.sound b
      refine ⟨fun l => by rw [hh]; exact hs.own l, by rw [hh]; exact hs.nd, ?_, ?_, ?_, ht, hq⟩
      · intro l hl
        rw [hh] at hl
        have := hs.spv l hl
        cases l <;> simp_all [K.validL, K.valid]
      · intro i; rw [hw]; exact hs.wok i
      · intro i q e; rw [hh]; rw [hw] at e; exact hs.seen i q e
    · rw [upd_ne _ _ hb]; exact h.sound b
  · intro a b i ha hb
    rw [key a] at ha; rw [key b] at hb
    exact h.uniq a b i ha hb
  · intro i hi
    obtain ⟨x, hx⟩ := h.g6 i hi
    exact ⟨x, by rw [key x]; exact hx⟩

theorem rels_w_owned (k : K) (th l i) : (((k.rels th l).w i).owned) = (k.w i).owned := by
  simp only [K.rels]
  split
  · simp only [K.dropped, drop_owned]
  · rfl

theorem upd_self {κ : Thr → K} {th : Thr} : upd κ th (κ th) = κ := by
  funext x; simp only [upd]; split
  · rename_i h; rw [h]
  · rfl

theorem core_exec {strict : Bool} {s s1 : State} {κ : Thr → K} {th : Thr} {o : Op} {k' : K}
    (h : Core s κ) (ha : s.life th = .alive) (hc : chk strict th (κ th) o = some k')
    (he : exec s th o = some s1) : Core s1 (upd κ th k') := by
  have hs := h.sound th
  cases o with
  | acq l =>
    simp only [chk] at hc
    split at hc <;> simp only [Option.some.injEq, reduceCtorEq] at hc
    rename_i hr
    subst hc
    simp only [exec] at he
    split at he <;> simp only [Option.some.injEq, reduceCtorEq] at he
    rename_i hn
    subst he
    have hlk := h.lockOk ha hr.2.2
    have hnot : l ∉ (κ th).held := by
      intro hm; have := (hs.own l).mpr hm; rw [hn] at this; simp at this
    have key : ∀ x, (upd κ th { κ th with held := l :: (κ th).held } x).w = (κ x).w := by
      intro x
      by_cases hx : x = th
      · subst hx; rw [upd_same]
      · rw [upd_ne _ _ hx]
    refine ⟨?_, ?_, by simp [h.bad, hlk], h.g1, h.g2, h.g5, ?_, fun b hb => g7_upd (s := s) h ha b hb, h.g8⟩
    · intro b
      by_cases hb : b = th
      · subst hb
        rw [upd_same]
        refine ⟨?_, List.nodup_cons.mpr ⟨hnot, hs.nd⟩, ?_, hs.wok, ?_, hs.thr, hs.quit⟩
        · intro x
          by_cases hx : x = l
          · subst hx; simp [upd_same]
          · simp only [upd_ne _ _ hx, List.mem_cons, hx, false_or]; exact hs.own x
        · intro x hx
          rcases List.mem_cons.mp hx with rfl | hx
          · have := hr.2.2; cases x <;> exact this
          · have := hs.spv x hx; cases x <;> exact this
        · intro i q e
          rcases hs.seen i q e with h1 | h1
          · exact Or.inl (List.mem_cons_of_mem _ h1)
          · exact Or.inr h1
      · rw [upd_ne _ _ hb]
        refine (h.sound b).other ?_ (h.sound b).wok (h.sound b).thr (fun t e => e)
        intro x
        by_cases hx : x = l
        · subst hx; simp [upd_same, hn, Ne.symm hb]
        · simp only [upd_ne _ _ hx]
    · intro a b i ha hb
      rw [key a] at ha; rw [key b] at hb
      exact h.uniq a b i ha hb
    · intro i hi
      obtain ⟨x, hx⟩ := h.g6 i hi
      exact ⟨x, by rw [key x]; exact hx⟩
  | rel l =>
    simp only [chk] at hc
    split at hc <;> simp only [Option.some.injEq, reduceCtorEq] at hc
    rename_i hr
    subst hc
    simp only [exec, Option.some.injEq] at he
    subst he
    have hlk := h.lockOk ha hr.2.1
    have hown := (hs.own l).mpr hr.1
    have hheld : ((κ th).rels th l).held = (κ th).held.erase l := by
      simp only [K.rels]; split <;> rfl
    have key : ∀ x i, ((upd κ th ((κ th).rels th l) x).w i).owned = ((κ x).w i).owned := by
      intro x i
      by_cases hx : x = th
      · subst hx; rw [upd_same, rels_w_owned]
      · rw [upd_ne _ _ hx]
    have hww : ∀ i, ((κ th).rels th l).w i = (κ th).w i ∨ ((κ th).rels th l).w i = .no ∧
        ((κ th).w i).owned = false := by
      intro i
      simp only [K.rels]
      split
      · simp only [K.dropped]
        cases hw : (κ th).w i with
        | seen q =>
          simp only [drop]
          split
          · exact Or.inl rfl
          · exact Or.inr ⟨rfl, rfl⟩
        | _ => exact Or.inl rfl
      · exact Or.inl rfl
    have htr : ((κ th).rels th l).thr = (κ th).thr := by simp only [K.rels]; split <;> rfl
    have hqr : ((κ th).rels th l).q = (κ th).q := by simp only [K.rels]; split <;> rfl
    refine ⟨?_, ?_, by simp [h.bad, hlk, hown], h.g1, h.g2, h.g5, ?_, fun b hb => g7_upd (s := s) h ha b hb, h.g8⟩
    · intro b
      by_cases hb : b = th
      · subst hb
        rw [upd_same]
        refine ⟨?_, by rw [hheld]; exact hs.nd.erase l, ?_, ?_, ?_, ?_, ?_⟩
        · intro x
          rw [hheld]
          by_cases hx : x = l
          · subst hx
            simp only [upd_same, reduceCtorEq, false_iff]
            exact hs.nd.not_mem_erase
          · simp only [upd_ne _ _ hx, List.mem_erase_of_ne hx]; exact hs.own x
        · rw [hheld]; exact hr.2.2
        · intro i
          rcases hww i with e | e
          · rw [e]; exact hs.wok i
          · rw [e.1]; trivial
        · intro i q e
          rw [hheld]
          by_cases hl : l = .spaces
          · subst hl
            right
            simp only [K.rels, if_true, K.dropped] at e
            cases hw : (κ b).w i with
            | seen q' =>
              rw [hw] at e
              simp only [drop] at e
              split at e
              · rename_i hc
                simp only [W.seen.injEq] at e
                subst e
                exact hc
              · simp at e
            | _ => rw [hw] at e; simp [drop] at e
          · have e' : (κ b).w i = .seen q := by simpa [K.rels, hl] using e
            rcases hs.seen i q e' with h1 | h1
            · left; exact (List.mem_erase_of_ne (Ne.symm hl)).mpr h1
            · exact Or.inr h1
        · intro i
          rw [htr]
          have ht := hs.thr i
          rcases hww i with e | e
          · rw [e]; exact ht
          · rw [e.1]
            generalize (κ b).thr i = t at ht
            cases t with
            | fresh => have := ht.2; rw [e.2] at this; simp at this
            | _ => exact ht
        · rw [hqr]; exact hs.quit
      · rw [upd_ne _ _ hb]
        refine (h.sound b).other ?_ (h.sound b).wok (h.sound b).thr (fun t e => e)
        intro x
        by_cases hx : x = l
        · subst hx; simp [upd_same, hown, Ne.symm hb]
        · simp only [upd_ne _ _ hx]
    · intro a b i ha hb
      rw [key a] at ha; rw [key b] at hb
      exact h.uniq a b i ha hb
    · intro i hi
      obtain ⟨x, hx⟩ := h.g6 i hi
      exact ⟨x, by rw [key x]; exact hx⟩
  | use i =>
    simp only [chk] at hc
    split at hc <;> simp only [Option.some.injEq, reduceCtorEq] at hc
    rename_i hv
    subst hc
    simp only [exec, Option.some.injEq] at he
    subst he
    have hu := h.usable ha hv
    rw [upd_self]
    have e : ({ s with bad := s.bad || !(s.st i).usable } : State) = s := by
      have hb := h.bad
      cases s; simp_all
    rw [e]; exact h
  | link i =>
    simp only [chk] at hc
    split at hc <;> simp only [Option.some.injEq, reduceCtorEq] at hc
    rename_i hr
    subst hc
    simp only [exec, Option.some.injEq, relist] at he
    subst he
    have hst : s.st i = .priv := by have := hs.wok i; rw [hr.2] at this; exact this
    have hth := hs.thr i
    rw [hr.2] at hth
    have hsp := (hs.own _).mpr hr.1
    have hna : s.life (.ls i) ≠ .alive := by
      intro e; rcases h.g2 i e with ⟨q, e⟩ | e <;> rw [hst] at e <;> simp at e
    refine core_st (i := i) (k' := { κ th with w := upd (κ th).w i .add }) (y := .listed .add) h ha rfl
      rfl ?_ (fun j _ => rfl) ?_ ?_ ?_ ?_ (h.alone (by rw [hr.2]; rfl) (Or.inl hr.1)) ?_ ?_ ?_ (by simp) _ ?_
    · intro j hj; simp only [upd_ne _ _ hj]
    · simp [upd_same, WOk]
    · simp only [upd_same]
      generalize (κ th).thr i = t at hth
      cases t <;> simp_all [TOk, W.owned]
    · intro q e; simp [upd_same] at e
    · intro _; simp [K.valid, upd_same]
    · intro q e hq; simp only [St.listed.injEq] at e; exact absurd e.symm hq
    · intro e; exact absurd e hna
    · intro _; simp [upd_same, W.owned]
    · simp [h.bad, hst, hsp]
  | move i =>
    simp only [chk] at hc
    split at hc <;> simp only [Option.some.injEq, reduceCtorEq] at hc
    rename_i hr
    subst hc
    simp only [exec, Option.some.injEq, relist] at he
    subst he
    have hst : s.st i = .listed .add := by have := hs.wok i; rw [hr.2.1] at this; exact this
    have hth := hs.thr i
    rw [hr.2.2] at hth
    have hsp := (hs.own _).mpr hr.1
    refine core_st (i := i) (k' := { κ th with w := upd (κ th).w i (.seen .on) })
      (y := .listed .on) h ha rfl
      rfl ?_ (fun j _ => rfl) ?_ ?_ ?_ ?_ (h.alone (by rw [hr.2.1]; rfl) (Or.inl hr.1)) ?_ ?_ ?_ (by simp) _ ?_
    · intro j hj; simp only [upd_ne _ _ hj]
    · simp [upd_same, WOk]
    · simp only [hr.2.2]; exact hth
    · intro q e; exact Or.inl hr.1
    · intro _; simp [K.valid, upd_same]
    · intro q e hq; exact hth
    · intro e; exact Or.inl ⟨_, rfl⟩
    · intro e; simp at e
    · simp [h.bad, hst, hsp]
  | remove i =>
    simp only [chk] at hc
    split at hc <;> simp only [Option.some.injEq, reduceCtorEq] at hc
    rename_i hr
    obtain ⟨hr1, rfl, hr3⟩ := hr
    subst hc
    simp only [exec, Option.some.injEq, relist] at he
    subst he
    have hst : s.st i = .listed .on := by have := hs.wok i; rw [hr3] at this; exact this
    have hth := hs.thr i
    rw [hr3] at hth
    have hsp := (hs.own _).mpr hr1
    refine core_st (i := i) (k' := { κ .main with w := upd (κ .main).w i (.seen .rem) })
      (y := .listed .rem) h ha rfl
      rfl ?_ (fun j _ => rfl) ?_ ?_ ?_ ?_ (h.aloneMain hr3 (by simp) hr1) ?_ ?_ ?_ (by simp) _ ?_
    · intro j hj; simp only [upd_ne _ _ hj]
    · simp [upd_same, WOk]
    · simp only [upd_same]
      generalize (κ .main).thr i = t at hth
      cases t <;> simp_all [TOk, W.owned]
    · intro q e; exact Or.inl hr1
    · intro _; simp [K.valid, upd_same]
    · intro q e hq; exact h.g1 i .on hst (by simp)
    · intro e; exact Or.inl ⟨_, rfl⟩
    · intro e; simp at e
    · simp [h.bad, hst, hsp]
  | unlink i =>
    simp only [chk] at hc
    split at hc <;> simp only [Option.some.injEq, reduceCtorEq] at hc
    rename_i hr
    subst hc
    simp only [exec, Option.some.injEq, relist] at he
    subst he
    have hsp := (hs.own _).mpr hr.1
    have hth := hs.thr i
    have hst : s.st i = .listed .add ∨ s.st i = .listed .rem := by
      have := hs.wok i
      rcases hr.2 with e | ⟨-, e⟩ <;> rw [e] at this
      · exact Or.inl this
      · exact Or.inr this
    have halone : ∀ b, b ≠ th → (κ b).w i = .no := by
      rcases hr.2 with e | ⟨e1, e⟩
      · exact h.alone (by rw [e]; rfl) (Or.inl hr.1)
      · subst e1; exact h.aloneMain e (by simp) hr.1
    refine core_st (i := i) (k' := { κ th with w := upd (κ th).w i .off })
      (y := .off) h ha rfl
      rfl ?_ (fun j _ => rfl) ?_ ?_ ?_ ?_ halone ?_ ?_ ?_ (by simp) _ ?_
    · intro j hj; simp only [upd_ne _ _ hj]
    · simp [upd_same, WOk]
    · simp only [upd_same]
      generalize (κ th).thr i = t at hth
      cases t <;> simp_all [TOk, W.owned]
    · intro q e; exact Or.inl hr.1
    · intro _; simp [K.valid, upd_same]
    · intro q e; simp at e
    · intro e; exact Or.inr rfl
    · intro e; simp [upd_same, W.owned]
    · rcases hst with e | e <;> simp [h.bad, e, hsp]
  | free i =>
    simp only [chk] at hc
    split at hc <;> simp only [Option.some.injEq, reduceCtorEq] at hc
    rename_i hr
    subst hc
    simp only [exec, Option.some.injEq] at he
    subst he
    have hth := hs.thr i
    have hst : s.st i = .priv ∨ s.st i = .off := by
      have := hs.wok i
      rcases hr.1 with e | e <;> rw [e] at this
      · exact Or.inl this
      · exact Or.inr this
    have hnl : ∀ q, s.st i ≠ .listed q := by
      intro q e; rcases hst with e' | e' <;> rw [e] at e' <;> simp at e'
    have hlife : s.life (.ls i) ≠ .alive := by
      rcases hr.2.1 with e | e <;> rw [e] at hth
      · intro e'; rw [hth.1] at e'; simp at e'
      · intro e'; rw [show s.life (.ls i) = .ended from hth] at e'; simp at e'
    have halone := h.alone (th := th) (i := i) (by rcases hr.1 with e | e <;> rw [e] <;> rfl)
      (Or.inr hnl)
    have hfree : s.owner (.sp i) = none := by
      cases ho : s.owner (.sp i) with
      | none => rfl
      | some b =>
        exfalso
        have hm := ((h.sound b).own _).mp ho
        have hv := (h.sound b).spv _ hm
        by_cases hb : b = th
        · subst hb; exact hr.2.2.1 hm
        · simp only [K.validL, K.valid, Bool.or_eq_true, decide_eq_true_eq] at hv
          rcases hv with rfl | hv
          · have := h.g7 _ hlife
            rw [this] at hm; simp at hm
          · exact hv (halone b hb)
    refine core_st (i := i) (k' := { κ th with w := upd (κ th).w i .no, thr := upd (κ th).thr i .unk })
      (y := .freed) h ha rfl
      rfl ?_ ?_ ?_ ?_ ?_ ?_ halone ?_ ?_ ?_ (by simp) _ ?_
    · intro j hj; simp only [upd_ne _ _ hj]
    · intro j hj; simp only [upd_ne _ _ hj]
    · simp [upd_same, WOk]
    · simp [upd_same, TOk]
    · intro q e; simp [upd_same] at e
    · intro hm; exact absurd hm hr.2.2.1
    · intro q e; simp at e
    · intro e; exact absurd e hlife
    · intro e; simp at e
    · rcases hst with e | e <;> simp [h.bad, e, hlife, hfree]
  | start i =>
    simp only [chk] at hc
    split at hc <;> simp only [Option.some.injEq, reduceCtorEq] at hc
    rename_i hr
    subst hc
    simp only [exec, Option.some.injEq] at he
    subst he
    have hst : s.st i = .listed .add := by have := hs.wok i; rw [hr.1] at this; exact this
    have hth := hs.thr i
    rw [hr.2] at hth
    have key : ∀ x, (upd κ th { κ th with thr := upd (κ th).thr i .started } x).w = (κ x).w := by
      intro x
      by_cases hx : x = th
      · subst hx; rw [upd_same]
      · rw [upd_ne _ _ hx]
    refine ⟨?_, ?_, by simp [h.bad, hth.1, hst, St.usable], ?_, ?_, ?_, ?_, ?_, ?_⟩
    · intro b
      by_cases hb : b = th
      · subst hb
        rw [upd_same]
        refine ⟨hs.own, hs.nd, hs.spv, hs.wok, hs.seen, ?_, hs.quit⟩
        intro j
        by_cases hj : j = i
        · subst hj; simp [upd_same, TOk]
        · simp only [upd_ne _ _ hj]
          rw [upd_ne _ _ (by simpa using hj)]
          exact hs.thr j
      · rw [upd_ne _ _ hb]
        refine (h.sound b).other (fun l => Iff.rfl) (h.sound b).wok ?_ (fun t e => e)
        intro j
        by_cases hj : j = i
        · subst hj
          simp only [upd_same]
          have htb := (h.sound b).thr j
          cases hv : (κ b).thr j with
          | unk => trivial
          | fresh =>
            rw [hv] at htb
            exact absurd (h.uniq b th j htb.2 (by rw [hr.1]; rfl)) hb
          | started => simp [TOk]
          | joined =>
            rw [hv, hth.1] at htb
            simp [TOk] at htb
        · simp only [upd_ne _ _ (show Thr.ls j ≠ Thr.ls i by simpa using hj)]
          exact (h.sound b).thr j
    · intro a b j ha hb
      rw [key a] at ha; rw [key b] at hb
      exact h.uniq a b j ha hb
    · intro j q e hq
      by_cases hj : j = i
      · subst hj; simp [upd_same]
      · simp only [upd_ne _ _ (show Thr.ls j ≠ Thr.ls i by simpa using hj)]; exact h.g1 j q e hq
    · intro j
      by_cases hj : j = i
      · subst hj; intro _; exact Or.inl ⟨_, hst⟩
      · simp only [upd_ne _ _ (show Thr.ls j ≠ Thr.ls i by simpa using hj)]; exact h.g2 j
    · intro t e
      by_cases hj : t = .ls i
      · exact ⟨i, hj⟩
      · simp only [upd_ne _ _ hj] at e; exact h.g5 t e
    · intro j hj
      obtain ⟨x, hx⟩ := h.g6 j hj
      exact ⟨x, by rw [key x]; exact hx⟩
    · intro b hb
      refine g7_upd h ha b ?_
      intro e
      apply hb
      simp only [upd]
      split
      · rfl
      · exact e
    · intro j e
      by_cases hj : j = i
      · subst hj; rw [show s.st j = .none from e] at hst; simp at hst
      · simp only [upd_ne _ _ (show Thr.ls j ≠ Thr.ls i by simpa using hj)]; exact h.g8 j e
  | quit t =>
    simp only [chk, Option.some.injEq] at hc
    subst hc
    simp only [exec, Option.some.injEq] at he
    subst he
    have h' : Core { s with quit := upd s.quit t true } κ := by
      refine ⟨?_, h.uniq, h.bad, h.g1, h.g2, h.g5, h.g6, h.g7, h.g8⟩
      intro b
      refine (h.sound b).other (fun l => Iff.rfl) (h.sound b).wok (h.sound b).thr ?_
      intro x hx; simp only [upd]; split
      · rfl
      · exact hx
    refine core_know h' ha rfl rfl ?_ ?_
    · exact hs.thr
    · intro x hx
      simp only [upd] at hx ⊢
      split at hx
      · rename_i e; rw [if_pos e]
      · rename_i e; rw [if_neg e]; exact hs.quit x hx
  | join t =>
    simp only [chk] at hc
    split at hc
    case isFalse => simp at hc
    rename_i hr
    have hne : s.life t ≠ .none := by
      intro e
      obtain ⟨i, rfl⟩ := h.g5 t e
      simp only at hc
      split at hc <;> simp only [Option.some.injEq, reduceCtorEq] at hc
      rename_i hw
      have hwok := hs.wok i
      have hth := hs.thr i
      rcases hw with hw | hw | hw
      · rw [hw] at hwok; exact h.g1 i .rem hwok (by simp) e
      · rw [hw] at hwok; exact h.g1 i .on hwok (by simp) e
      · rw [hw] at hth; exact hth e
    simp only [exec] at he
    rw [if_neg hne] at he
    split at he <;> simp only [Option.some.injEq, reduceCtorEq] at he
    rename_i hend
    subst he
    cases t with
    | ls i =>
      simp only at hc
      split at hc <;> simp only [Option.some.injEq, reduceCtorEq] at hc
      subst hc
      refine core_know h ha rfl rfl ?_ hs.quit
      intro j
      by_cases hj : j = i
      · subst hj; simp only [upd_same]; exact hend
      · simp only [upd_ne _ _ hj]; exact hs.thr j
    | main => simp only [Option.some.injEq] at hc; subst hc; rw [upd_self]; exact h
    | worker k => simp only [Option.some.injEq] at hc; subst hc; rw [upd_self]; exact h
    | resource => simp only [Option.some.injEq] at hc; subst hc; rw [upd_self]; exact h
    | logger => simp only [Option.some.injEq] at hc; subst hc; rw [upd_self]; exact h
  | io c =>
    simp only [chk] at hc
    split at hc <;> simp only [Option.some.injEq, reduceCtorEq] at hc
    subst hc
    simp only [exec] at he
    split at he <;> simp only [Option.some.injEq, reduceCtorEq] at he
    subst he
    rw [upd_self]; exact h

theorem core_ask {s : State} {κ : Thr → K} {th : Thr} {t : Test} (h : Core s κ)
    (ha : s.life th = .alive) (hm : may (κ th) t) :
    Core (ask s t).2 (upd κ th (if (ask s t).1 then (κ th).yes t else κ th)) := by
  have hs := h.sound th
  cases t with
  | onList q i =>
    simp only [ask]
    by_cases hst : s.st i = .listed q
    · simp only [hst, decide_true, if_true, K.yes]
      split
      · rw [upd_self]; exact h
      · rename_i hno
        simp only [may] at hm
        have hth := hs.thr i
        have key : ∀ x j, ((upd κ th { κ th with w := upd (κ th).w i (.seen q) } x).w j).owned =
            ((κ x).w j).owned := by
          intro x j
          by_cases hx : x = th
          · subst hx
            rw [upd_same]
            simp only [upd]
            split
            · rename_i e; subst e; rw [show ((κ x).w j).owned = false by simpa using hno]; rfl
            · rfl
          · rw [upd_ne _ _ hx]
        refine ⟨?_, ?_, h.bad, h.g1, h.g2, h.g5, ?_, fun b hb => g7_upd (s := s) h ha b hb, h.g8⟩
        · intro b
          by_cases hb : b = th
          · subst hb
            rw [upd_same]
            refine ⟨hs.own, hs.nd, ?_, ?_, ?_, ?_, hs.quit⟩
            · intro l hl
              have := hs.spv l hl
              cases l with
              | sp j =>
                simp only [K.validL, K.valid, upd] at this ⊢
                split
                · simp
                · exact this
              | _ => rfl
            · intro j
              simp only [upd]
              split
              · rename_i e; subst e; exact hst
              · exact hs.wok j
            · intro j q' e; exact Or.inl hm
            · intro j
              have ht := hs.thr j
              simp only [upd]
              split
              · rename_i e; subst e
                generalize (κ b).thr j = t at ht
                cases t with
                | fresh => have := ht.2; simp_all
                | _ => exact ht
              · exact ht
          · rw [upd_ne _ _ hb]; exact h.sound b
        · intro a b j ha hb
          rw [key a] at ha; rw [key b] at hb
          exact h.uniq a b j ha hb
        · intro j hj
          obtain ⟨x, hx⟩ := h.g6 j hj
          exact ⟨x, by rw [key x]; exact hx⟩
    · simp only [hst, decide_false, Bool.false_eq_true, if_false]
      rw [upd_self]; exact h
  | quits t =>
    simp only [ask]
    by_cases hq : s.quit t = true
    · simp only [hq, if_true, K.yes]
      refine core_know h ha rfl rfl hs.thr ?_
      intro x hx
      simp only [upd] at hx
      split at hx
      · rename_i e; subst e; exact hq
      · exact hs.quit x hx
    · simp only [hq, Bool.false_eq_true, if_false]
      rw [upd_self]; exact h
  | alloc i =>
    simp only [ask]
    split
    · rename_i hst
      simp only [if_true, K.yes]
      have hno : ∀ b, (κ b).w i = .no := by
        intro b
        have := (h.sound b).wok i
        rw [hst] at this
        generalize (κ b).w i = w at this
        cases w <;> simp_all [WOk]
      have hlife : s.life (.ls i) = .none ∨ s.life (.ls i) ≠ .none := Classical.em _
      have hna : s.life (.ls i) ≠ .alive := by
        intro e; rcases h.g2 i e with ⟨q, e⟩ | e <;> rw [hst] at e <;> simp at e
      have hb := h.bad
      have := core_st (i := i) (th := th) (y := .priv)
        (k' := { κ th with w := upd (κ th).w i .priv, thr := upd (κ th).thr i .fresh }) h ha rfl rfl
        (fun j hj => by simp only [upd_ne _ _ hj]) (fun j hj => by simp only [upd_ne _ _ hj])
        (by simp [upd_same, WOk]) (by simp only [upd_same, TOk]; exact ⟨h.g8 i hst, rfl⟩)
        (by intro q e; simp [upd_same] at e) (by intro _; simp [K.valid, upd_same])
        (fun b _ => hno b) (by intro q e; simp at e) (fun e => absurd e hna)
        (by intro _; simp [upd_same, W.owned]) (by simp) s.bad hb
      exact this
    · simp only [Bool.false_eq_true, if_false]
      rw [upd_self]; exact h

/-- the state, what each thread knows, and the rest of its program -/
structure Inv (strict : Bool) (s : State) (κ : Thr → K) : Prop where
  core : Core s κ
  prog : ∀ th, wp strict th (κ th) (s.rest th) Done
  idle : ∀ th, s.life th ≠ .alive → s.rest th = .ret

theorem Core.irrel {s s' : State} {κ} (h : Core s κ) (h1 : s'.owner = s.owner) (h2 : s'.st = s.st)
    (h3 : s'.life = s.life) (h4 : s'.quit = s.quit) (h5 : s'.bad = s.bad) : Core s' κ := by
  refine ⟨fun th => ?_, h.uniq, by rw [h5]; exact h.bad, by rw [h2, h3]; exact h.g1,
    by rw [h2, h3]; exact h.g2, by rw [h3]; exact h.g5, by rw [h2]; exact h.g6,
    by rw [h3]; exact h.g7, by rw [h2, h3]; exact h.g8⟩
  have hs := h.sound th
  exact ⟨by rw [h1]; exact hs.own, hs.nd, hs.spv, by rw [h2]; exact hs.wok, hs.seen,
    by rw [h3]; exact hs.thr, by rw [h4]; exact hs.quit⟩

theorem inv_init (strict : Bool) : Inv strict init (fun _ => k0) := by
  refine ⟨⟨fun th => ?_, ?_, rfl, ?_, ?_, ?_, ?_, fun _ _ => rfl, fun _ _ => rfl⟩,
    fun th => done_k0, fun _ _ => rfl⟩
  · refine ⟨fun l => by simp [init, k0], List.nodup_nil, by simp [k0], fun i => trivial, ?_,
      fun i => trivial, ?_⟩
    · intro i q e; simp [k0] at e
    · intro t e; simp [k0] at e
  · intro a b i h; simp [k0, W.owned] at h
  · intro i q e; simp [init] at e
  · intro i e; simp [init] at e
  · intro t e
    cases t <;> simp_all [init]
  · intro i e; simp [init] at e

theorem exec_rest {s s1 : State} {th o} (h : exec s th o = some s1) :
    s1.rest = s.rest ∧ s1.ready = s.ready ∧ ∀ t, s.life t = .alive → s1.life t = .alive := by
  cases o <;> simp only [exec, relist] at h <;> (try split at h) <;> (try split at h) <;>
    simp only [Option.some.injEq, reduceCtorEq] at h <;> subst h <;>
    refine ⟨by trivial, by trivial, fun t ht => ?_⟩ <;> first
      | exact ht
      | (simp only [upd]; split
         · rfl
         · exact ht)

theorem ask_rest (s : State) (t : Test) :
    (ask s t).2.rest = s.rest ∧ (ask s t).2.ready = s.ready ∧ (ask s t).2.life = s.life := by
  cases t <;> simp only [ask] <;> (try split) <;> exact ⟨by trivial, by trivial, by trivial⟩

/-- other threads go on knowing what they knew -/
theorem inv_upd {strict s s1 κ th k' p} (h : Inv strict s κ) (hc : Core s1 (upd κ th k'))
    (hr : s1.rest = upd s.rest th p) (hp : wp strict th k' p Done)
    (hl : ∀ t, s1.life t ≠ .alive → upd s.rest th p t = .ret) :
    Inv strict s1 (upd κ th k') := by
  refine ⟨hc, fun b => ?_, fun t ht => by rw [hr]; exact hl t ht⟩
  rw [hr]
  by_cases hb : b = th
  · subst hb; rw [upd_same, upd_same]; exact hp
  · rw [upd_ne _ _ hb, upd_ne _ _ hb]; exact h.prog b

theorem inv_step {strict s s' κ a} {P : Thr → Prog → Prop}
    (hP : ∀ t p, P t p → wp strict t k0 p Done) (h : Inv strict s κ) (ha : a.from_ P)
    (hs : step s a = some s') : ∃ κ', Inv strict s' κ' := by
  cases a with
  | call t p =>
    simp only [step] at hs
    split at hs <;> simp only [Option.some.injEq, reduceCtorEq] at hs
    rename_i hc
    subst hs
    have hd : Done (κ t) := by have := h.prog t; rw [hc.2] at this; exact this
    have hso := h.core.sound t
    have key : ∀ x i, ((upd κ t k0 x).w i).owned = ((κ x).w i).owned := by
      intro x i
      by_cases hx : x = t
      · subst hx; rw [upd_same, hd.2 i]; rfl
      · rw [upd_ne _ _ hx]
    have hcore : Core s (upd κ t k0) := by
      refine ⟨fun b => ?_, ?_, h.core.bad, h.core.g1, h.core.g2, h.core.g5, ?_,
        fun b hb => g7_upd (s := s) h.core hc.1 b hb, h.core.g8⟩
      · by_cases hb : b = t
        · subst hb
          rw [upd_same]
          refine ⟨fun l => by have := hso.own l; rw [hd.1] at this; exact this, List.nodup_nil,
            by simp [k0], fun i => trivial, ?_, fun i => trivial, ?_⟩
          · intro i q e; simp [k0] at e
          · intro t e; simp [k0] at e
        · rw [upd_ne _ _ hb]; exact h.core.sound b
      · intro a b i ha hb
        rw [key a] at ha; rw [key b] at hb
        exact h.core.uniq a b i ha hb
      · intro i hi
        obtain ⟨x, hx⟩ := h.core.g6 i hi
        exact ⟨x, by rw [key x]; exact hx⟩
    refine ⟨upd κ t k0, inv_upd (p := p) h (hcore.irrel rfl rfl rfl rfl rfl) rfl (hP t p ha) ?_⟩
    intro x hx
    have : x ≠ t := by rintro rfl; exact hx hc.1
    rw [upd_ne _ _ this]; exact h.idle x hx
  | op t =>
    simp only [step] at hs
    have hal : s.rest t ≠ .ret → s.life t = .alive := by
      intro hne
      apply Classical.byContradiction
      intro e; exact hne (h.idle t e)
    cases hr : s.rest t with
    | ret => rw [hr] at hs; simp at hs
    | op o k =>
      rw [hr] at hs
      simp only [Option.map_eq_some_iff] at hs
      obtain ⟨s1, he, rfl⟩ := hs
      have hw := h.prog t
      rw [hr] at hw
      obtain ⟨k', hc, hw⟩ := hw
      have halive := hal (by rw [hr]; simp)
      have hcore := core_exec h.core halive hc he
      obtain ⟨e1, e2, e3⟩ := exec_rest he
      refine ⟨upd κ t k', inv_upd (p := k) h (hcore.irrel rfl rfl rfl rfl rfl) rfl hw ?_⟩
      intro x hx
      have hx' : s.life x ≠ .alive := fun e => hx (e3 x e)
      have : x ≠ t := by rintro rfl; exact hx' halive
      rw [upd_ne _ _ this]; exact h.idle x hx'
    | test q y n =>
      rw [hr] at hs
      simp only [Option.some.injEq] at hs
      subst hs
      have hw := h.prog t
      rw [hr] at hw
      have halive := hal (by rw [hr]; simp)
      have hcore := core_ask h.core halive hw.1
      obtain ⟨e1, e2, e3⟩ := ask_rest s q
      refine ⟨_, inv_upd (p := if (ask s q).1 then y else n) h
        (hcore.irrel rfl rfl rfl rfl rfl) rfl ?_ ?_⟩
      · split
        · exact hw.2.1
        · exact hw.2.2
      · intro x hx
        have hx' : s.life x ≠ .alive := fun e => hx (by show (ask s q).2.life x = _; rw [e3]; exact e)
        have : x ≠ t := by rintro rfl; exact hx' halive
        rw [upd_ne _ _ this]; exact h.idle x hx'
  | fin t =>
    simp only [step] at hs
    split at hs <;> simp only [Option.some.injEq, reduceCtorEq] at hs
    rename_i hc
    subst hs
    have hd : Done (κ t) := by have := h.prog t; rw [hc.2.1] at this; exact this
    have hmono : ∀ x w v, TOk (s.life x) w v → TOk (upd s.life t .ended x) w v := by
      intro x w v hv
      by_cases hx : x = t
      · subst hx
        rw [upd_same]
        rw [hc.1] at hv
        exact tok_mono hv (by simp) (by simp) (by simp)
      · rw [upd_ne _ _ hx]; exact hv
    refine ⟨κ, ⟨fun b => ?_, h.core.uniq, h.core.bad, ?_, ?_, ?_, h.core.g6, ?_, ?_⟩, h.prog, ?_⟩
    · exact (h.core.sound b).other (fun l => Iff.rfl) (h.core.sound b).wok
        (fun i => hmono _ _ _ ((h.core.sound b).thr i)) (fun t e => e)
    · intro i q e hq
      have := h.core.g1 i q e hq
      simp only [upd]
      split
      · simp
      · exact this
    · intro i e
      simp only [upd] at e
      split at e
      · simp at e
      · exact h.core.g2 i e
    · intro x e
      simp only [upd] at e
      split at e
      · simp at e
      · exact h.core.g5 x e
    · intro x hx
      by_cases he : x = t
      · subst he; exact hd.1
      · exact h.core.g7 x (by simpa [upd_ne _ _ he] using hx)
    · intro i e
      have := h.core.g8 i e
      have hne : (Thr.ls i) ≠ t := by rintro rfl; rw [this] at hc; simp at hc
      simp only [upd_ne _ _ hne]; exact this
    · intro x hx
      by_cases he : x = t
      · subst he; exact hc.2.1
      · exact h.idle x (by simpa [upd_ne _ _ he] using hx)
  | client c b =>
    simp only [step, Option.some.injEq] at hs
    subst hs
    exact ⟨κ, h.core.irrel rfl rfl rfl rfl rfl, h.prog, h.idle⟩

theorem inv_run {strict} {P : Thr → Prog → Prop} (hP : ∀ t p, P t p → wp strict t k0 p Done) :
    ∀ (as : List Act) {s s' κ}, Inv strict s κ → (∀ a ∈ as, a.from_ P) → run s as = some s' →
      ∃ κ', Inv strict s' κ' := by
  intro as
  induction as with
  | nil =>
    intro s s' κ h _ hr
    simp only [run, Option.some.injEq] at hr
    subst hr; exact ⟨κ, h⟩
  | cons a as ih =>
    intro s s' κ h ha hr
    simp only [run, Option.bind_eq_some_iff] at hr
    obtain ⟨s1, h1, h2⟩ := hr
    obtain ⟨κ1, h1⟩ := inv_step hP h (ha a (by simp)) h1
    exact ih h1 (fun b hb => ha b (by simp [hb])) h2

theorem inv_reach {strict s} (h : Reach (Safe strict) s) : ∃ κ, Inv strict s κ := by
  obtain ⟨as, ha, hr⟩ := h
  exact inv_run (fun t p h => safe_wp h) as (inv_init strict) ha hr

/-! ### Nobody waits for ever -/

/-- what a thread waits for, in the order of the mutexes -/
def level : Prog → Nat
  | .op (.acq l) _ => rank l
  | .op (.join t) _ => jrank t
  | _ => 7

/-- a thread can go on, or a thread that somebody joins can end -/
def Moves (s : State) : Prop :=
  (∃ t s', step s (.op t) = some s') ∨
  (∃ t u k, s.rest t = .op (.join u) k ∧ s.life u = .alive ∧ s.rest u = .ret ∧ s.quit u = true)

theorem rank_le (l : Lock) : rank l ≤ 6 := by cases l <;> simp [rank]

theorem jrank_le (t : Thr) : jrank t ≤ 5 := by cases t <;> simp [jrank]

theorem exec_other {s : State} {t o} (h1 : ∀ l, o ≠ .acq l) (h2 : ∀ u, o ≠ .join u)
    (h3 : ∀ c, o = .io c → s.ready c = true) : ∃ s1, exec s t o = some s1 := by
  cases o with
  | acq l => exact absurd rfl (h1 l)
  | join u => exact absurd rfl (h2 u)
  | io c => simp only [exec, h3 c rfl, if_true]; exact ⟨_, rfl⟩
  | _ => exact ⟨_, rfl⟩

/-- the thread does not wait for a client -/
def NoIo (s : State) (t : Thr) : Prop := ∀ c k, s.rest t = .op (.io c) k → s.ready c = true

theorem moves {strict s κ} (h : Inv strict s κ) (hio : strict = true ∨ ∀ c, s.ready c = true) :
    ∀ (n : Nat) (t : Thr), s.rest t ≠ .ret → NoIo s t → 7 ≤ level (s.rest t) + n →
      (level (s.rest t) = 1 → ∀ c, s.ready c = true) → Moves s := by
  intro n
  induction n with
  | zero =>
    intro t hne hno hl _
    left
    refine ⟨t, ?_⟩
    cases hr : s.rest t with
    | ret => exact absurd hr hne
    | test q y m => simp only [step, hr]; exact ⟨_, rfl⟩
    | op o k =>
      rw [hr] at hl
      have : ∃ s1, exec s t o = some s1 := by
        refine exec_other ?_ ?_ ?_
        · rintro l rfl; have := rank_le l; simp only [level] at hl; omega
        · rintro u rfl; have := jrank_le u; simp only [level] at hl; omega
        · rintro c rfl; exact hno c k hr
      obtain ⟨s1, h1⟩ := this
      exact ⟨{ s1 with rest := upd s.rest t k }, by simp only [step, hr, h1, Option.map_some]⟩
  | succ n ih =>
    intro t hne hno hl h1
    have hw := h.prog t
    cases hr : s.rest t with
    | ret => exact absurd hr hne
    | test q y m => left; exact ⟨t, by simp only [step, hr]; exact ⟨_, rfl⟩⟩
    | op o k =>
      rw [hr] at hw hl h1
      obtain ⟨k', hc, hw⟩ := hw
      -- the next thread in the chain
      have next : ∀ u, s.rest u ≠ .ret → NoIo s u → level (.op o k) < level (s.rest u) →
          (level (s.rest u) = 1 → ∀ c, s.ready c = true) → Moves s := by
        intro u hu hn hlt h1
        exact ih u hu hn (by omega) h1
      cases o with
      | acq l =>
        cases ho : s.owner l with
        | none =>
          left
          refine ⟨t, { s with owner := upd s.owner l (some t), bad := s.bad || !lockOk s l,
                              rest := upd s.rest t k }, ?_⟩
          simp only [step, hr, exec, ho, if_true, Option.map_some]
        | some u =>
          have hm := ((h.core.sound u).own l).mp ho
          have hwu := h.prog u
          have hl2 : 2 ≤ rank l := by cases l <;> simp [rank]
          refine next u ?_ ?_ ?_ ?_
          · intro e; rw [e] at hwu; have := hwu.1; rw [this] at hm; simp at hm
          · intro c p e
            rcases hio with rfl | hio
            · rw [e] at hwu
              obtain ⟨k2, hc2, -⟩ := hwu
              simp only [chk] at hc2
              split at hc2
              case isFalse => simp at hc2
              rename_i hx
              rw [(hx trivial).1] at hm; simp at hm
            · exact hio c
          · have h6 := rank_le l
            simp only [level]
            split
            · rename_i l' p e
              rw [e] at hwu
              obtain ⟨k2, hc2, -⟩ := hwu
              simp only [chk] at hc2
              split at hc2
              case isFalse => simp at hc2
              rename_i hx
              exact hx.1 l hm
            · rename_i t' p e
              rw [e] at hwu
              obtain ⟨k2, hc2, -⟩ := hwu
              simp only [chk] at hc2
              split at hc2
              case isFalse => simp at hc2
              rename_i hx
              exact hx.1 l hm
            · omega
          · intro e
            exfalso
            revert e
            simp only [level]
            split
            · rename_i l' p e; cases l' <;> simp [rank]
            · rename_i t' p e
              rw [e] at hwu
              obtain ⟨k2, hc2, -⟩ := hwu
              simp only [chk] at hc2
              split at hc2
              case isFalse => simp at hc2
              rename_i hx
              have := hx.1 l hm
              omega
            · simp
      | join u =>
        simp only [chk] at hc
        split at hc
        case isFalse => simp at hc
        rename_i hx
        have hq := (h.core.sound t).quit u hx.2.2
        cases hlu : s.life u with
        | none =>
          left
          exact ⟨t, { s with bad := true, rest := upd s.rest t k },
            by simp only [step, hr, exec, hlu, if_true, Option.map_some]⟩
        | ended =>
          left
          refine ⟨t, { s with rest := upd s.rest t k }, ?_⟩
          simp [step, hr, exec, hlu]
        | alive =>
          cases hru : s.rest u with
          | ret => right; exact ⟨t, u, k, hr, hlu, hru, hq⟩
          | test q y m => left; exact ⟨u, by simp only [step, hru]; exact ⟨_, rfl⟩⟩
          | op o' p' =>
            have hwu := h.prog u
            rw [hru] at hwu
            obtain ⟨k2, hc2, -⟩ := hwu
            refine next u (by rw [hru]; simp) ?_ ?_ ?_
            · intro c p e
              rcases hio with rfl | hio
              · rw [hru] at e
                simp only [Prog.op.injEq] at e
                obtain ⟨rfl, -⟩ := e
                simp only [chk] at hc2
                split at hc2
                case isFalse => simp at hc2
                rename_i hy
                have hju := (hy trivial).2
                have hlev : level (.op (.join u) k) = 1 := by
                  simp only [level]
                  have := hx.2.1
                  omega
                exact h1 hlev c
              · exact hio c
            · rw [hru]
              have h5 := jrank_le u
              cases o' <;> simp only [level] <;> first
                | omega
                | (simp only [chk] at hc2
                   split at hc2
                   case isFalse => simp at hc2
                   rename_i hy
                   exact hy.2.1)
            · rw [hru]
              intro e
              cases o' with
              | acq l => cases l <;> simp [level, rank] at e
              | join u' =>
                simp only [chk] at hc2
                split at hc2
                case isFalse => simp at hc2
                rename_i hy
                simp only [level] at e
                have h2 := hy.2.1
                have h3 := hx.2.1
                omega
              | _ => simp [level] at e
      | io c =>
        left
        have := hno c k hr
        exact ⟨t, { s with rest := upd s.rest t k }, by simp [step, hr, exec, this]⟩
      | _ => left; exact ⟨t, _, by simp only [step, hr, exec, Option.map_some]; rfl⟩

/-! ### All programs come to an end -/

def Prog.size : Prog → Nat
  | .ret => 0
  | .op _ k => k.size + 1
  | .test _ y n => y.size + n.size + 1

def total (f : Thr → Prog) : List Thr → Nat
  | [] => 0
  | t :: ts => (f t).size + total f ts

theorem total_le {f : Thr → Prog} {t p} (hp : p.size ≤ (f t).size) :
    ∀ ts, total (upd f t p) ts ≤ total f ts := by
  intro ts
  induction ts with
  | nil => exact Nat.le_refl _
  | cons x xs ih =>
    simp only [total]
    by_cases hx : x = t
    · subst hx; rw [upd_same]; omega
    · rw [upd_ne _ _ hx]; omega

theorem total_lt {f : Thr → Prog} {t p} (hp : p.size < (f t).size) :
    ∀ ts, t ∈ ts → total (upd f t p) ts < total f ts := by
  intro ts
  induction ts with
  | nil => intro h; simp at h
  | cons x xs ih =>
    intro hm
    simp only [total]
    by_cases hx : x = t
    · subst hx
      rw [upd_same]
      have := total_le (f := f) (t := x) (p := p) (Nat.le_of_lt hp) xs
      omega
    · rw [upd_ne _ _ hx]
      have := ih (by rcases List.mem_cons.mp hm with e | e
                     · exact absurd e.symm hx
                     · exact e)
      omega

theorem step_op_rest {s s' : State} {t} (h : step s (.op t) = some s') :
    ∃ p, s'.rest = upd s.rest t p ∧ p.size < (s.rest t).size ∧ s.rest t ≠ .ret ∧
      s'.ready = s.ready := by
  simp only [step] at h
  cases hr : s.rest t with
  | ret => rw [hr] at h; simp at h
  | op o k =>
    rw [hr] at h
    simp only [Option.map_eq_some_iff] at h
    obtain ⟨s1, he, rfl⟩ := h
    exact ⟨k, rfl, by simp [Prog.size], by simp, (exec_rest he).2.1⟩
  | test q y n =>
    rw [hr] at h
    simp only [Option.some.injEq] at h
    subst h
    refine ⟨_, rfl, ?_, by simp, (ask_rest s q).2.1⟩
    simp only [Prog.size]
    split <;> omega

/-- only finitely many threads have something to do -/
def Fin (s : State) : Prop := ∃ ts : List Thr, ∀ t, s.rest t ≠ .ret → t ∈ ts

theorem fin_step {s s' : State} {a} (h : Fin s) (hs : step s a = some s') : Fin s' := by
  obtain ⟨ts, ht⟩ := h
  cases a with
  | call t p =>
    simp only [step] at hs
    split at hs <;> simp only [Option.some.injEq, reduceCtorEq] at hs
    subst hs
    refine ⟨t :: ts, fun x hx => ?_⟩
    by_cases e : x = t
    · simp [e]
    · simp only [upd_ne _ _ e] at hx; exact List.mem_cons_of_mem _ (ht x hx)
  | op t =>
    obtain ⟨p, e, -, hne, -⟩ := step_op_rest hs
    refine ⟨ts, fun x hx => ?_⟩
    rw [e] at hx
    by_cases e : x = t
    · subst e; exact ht x hne
    · simp only [upd_ne _ _ e] at hx; exact ht x hx
  | fin t =>
    simp only [step] at hs
    split at hs <;> simp only [Option.some.injEq, reduceCtorEq] at hs
    subst hs
    exact ⟨ts, ht⟩
  | client c b =>
    simp only [step, Option.some.injEq] at hs
    subst hs
    exact ⟨ts, ht⟩

theorem fin_run : ∀ (as : List Act) {s s'}, Fin s → run s as = some s' → Fin s' := by
  intro as
  induction as with
  | nil => intro s s' h hr; simp only [run, Option.some.injEq] at hr; subst hr; exact h
  | cons a as ih =>
    intro s s' h hr
    simp only [run, Option.bind_eq_some_iff] at hr
    obtain ⟨s1, h1, h2⟩ := hr
    exact ih (fin_step h h1) h2

/-- an act that starts nothing new -/
def Act.old : Act → Bool
  | .op _ => true
  | .fin _ => true
  | _ => false

theorem finish {strict} : ∀ (n : Nat) {s : State} {κ} (ts : List Thr),
    Inv strict s κ → (∀ c, s.ready c = true) → (∀ t, s.rest t ≠ .ret → t ∈ ts) →
    total s.rest ts ≤ n → ∃ as s', (∀ a ∈ as, a.old = true) ∧ run s as = some s' ∧
      ∀ t, s'.rest t = .ret := by
  intro n
  induction n using Nat.strongRecOn with
  | _ n ih =>
    intro s κ ts h hrd hts hn
    by_cases hall : ∀ t, s.rest t = .ret
    · exact ⟨[], s, by simp, rfl, hall⟩
    · obtain ⟨t, ht⟩ := Classical.not_forall.mp hall
      have hP : ∀ (t : Thr) (p : Prog), False → wp strict t k0 p Done := fun _ _ h => h.elim
      have go : ∀ {s1 s2 : State} {κ1 : Thr → K} {u : Thr}, Inv strict s1 κ1 → s1.rest = s.rest →
          s1.ready = s.ready → step s1 (.op u) = some s2 →
          ∃ as s', (∀ a ∈ as, a.old = true) ∧ run s2 as = some s' ∧ ∀ t, s'.rest t = .ret := by
        intro s1 s2 κ1 u hi e1 e2 h2
        obtain ⟨κ2, hi2⟩ := inv_step (a := .op u) (P := fun _ _ => False) hP hi trivial h2
        obtain ⟨p, ep, hp, hne, er⟩ := step_op_rest h2
        have hlt := total_lt (f := s1.rest) hp ts (hts u (by rw [← e1]; exact hne))
        refine ih (total s2.rest ts) (by rw [ep]; rw [e1] at hlt ⊢; omega) ts hi2
          (by rw [er, e2]; exact hrd) ?_ (Nat.le_refl _)
        intro x hx
        rw [ep] at hx
        by_cases e : x = u
        · subst e; exact hts x (by rw [← e1]; exact hne)
        · rw [upd_ne _ _ e, e1] at hx; exact hts x hx
      rcases moves h (Or.inr hrd) 7 t ht (fun c _ _ => hrd c) (by omega) (fun _ => hrd) with
        ⟨u, s2, h2⟩ | ⟨x, u, k, h1, h2, h3, h4⟩
      · obtain ⟨as, s', ha, hr, hd⟩ := go h rfl rfl h2
        refine ⟨.op u :: as, s', ?_, ?_, hd⟩
        · intro a hm
          rcases List.mem_cons.mp hm with rfl | hm
          · rfl
          · exact ha a hm
        · simp only [run, h2, Option.bind_some]; exact hr
      · have hf : step s (.fin u) = some { s with life := upd s.life u .ended } := by
          simp only [step]; rw [if_pos ⟨h2, h3, h4⟩]
        obtain ⟨κ1, hi1⟩ := inv_step (a := .fin u) (P := fun _ _ => False) hP h trivial hf
        have hj : step { s with life := upd s.life u .ended } (.op x) =
            some { s with life := upd s.life u .ended, rest := upd s.rest x k } := by
          simp [step, h1, exec, upd_same]
        obtain ⟨as, s', ha, hr, hd⟩ := go hi1 rfl rfl hj
        refine ⟨.fin u :: .op x :: as, s', ?_, ?_, hd⟩
        · intro a hm
          rcases List.mem_cons.mp hm with rfl | hm
          · rfl
          rcases List.mem_cons.mp hm with rfl | hm
          · rfl
          · exact ha a hm
        · simp only [run, hf, Option.bind_some, hj]; exact hr

/-- whoever holds a mutex waits only for something that comes later, and not for a client -/
theorem owner_waits {s κ l u} (h : Inv true s κ) (ho : s.owner l = some u) :
    s.rest u ≠ .ret ∧ NoIo s u ∧ level (s.rest u) ≠ 1 := by
  have hm := ((h.core.sound u).own l).mp ho
  have hwu := h.prog u
  have hl2 : 2 ≤ rank l := by cases l <;> simp [rank]
  refine ⟨?_, ?_, ?_⟩
  · intro e; rw [e] at hwu; have := hwu.1; rw [this] at hm; simp at hm
  · intro c p e
    rw [e] at hwu
    obtain ⟨k2, hc2, -⟩ := hwu
    simp only [chk] at hc2
    split at hc2
    case isFalse => simp at hc2
    rename_i hx
    rw [(hx trivial).1] at hm; simp at hm
  · simp only [level]
    split
    · rename_i l' p e; cases l' <;> simp [rank]
    · rename_i t' p e
      rw [e] at hwu
      obtain ⟨k2, hc2, -⟩ := hwu
      simp only [chk] at hc2
      split at hc2
      case isFalse => simp at hc2
      rename_i hx
      have := hx.1 l hm
      omega
    · simp

theorem free_lock (l : Lock) : ∀ (n : Nat) {s : State} {κ} (ts : List Thr),
    Inv true s κ → (∀ t, s.rest t ≠ .ret → t ∈ ts) →
    total s.rest ts ≤ n → ∃ as s', (∀ a ∈ as, a.old = true) ∧ run s as = some s' ∧
      s'.owner l = none := by
  intro n
  induction n using Nat.strongRecOn with
  | _ n ih =>
    intro s κ ts h hts hn
    cases ho : s.owner l with
    | none => exact ⟨[], s, by simp, rfl, ho⟩
    | some t =>
      obtain ⟨ht, hno, hl1⟩ := owner_waits h ho
      have hP : ∀ (t : Thr) (p : Prog), False → wp true t k0 p Done := fun _ _ h => h.elim
      have go : ∀ {s1 s2 : State} {κ1 : Thr → K} {u : Thr}, Inv true s1 κ1 → s1.rest = s.rest →
          step s1 (.op u) = some s2 →
          ∃ as s', (∀ a ∈ as, a.old = true) ∧ run s2 as = some s' ∧ s'.owner l = none := by
        intro s1 s2 κ1 u hi e1 h2
        obtain ⟨κ2, hi2⟩ := inv_step (a := .op u) (P := fun _ _ => False) hP hi trivial h2
        obtain ⟨p, ep, hp, hne, er⟩ := step_op_rest h2
        have hlt := total_lt (f := s1.rest) hp ts (hts u (by rw [← e1]; exact hne))
        refine ih (total s2.rest ts) (by rw [ep]; rw [e1] at hlt ⊢; omega) ts hi2 ?_
          (Nat.le_refl _)
        intro x hx
        rw [ep] at hx
        by_cases e : x = u
        · subst e; exact hts x (by rw [← e1]; exact hne)
        · rw [upd_ne _ _ e, e1] at hx; exact hts x hx
      rcases moves h (Or.inl rfl) 7 t ht hno (by omega) (fun e => absurd e hl1) with
        ⟨u, s2, h2⟩ | ⟨x, u, k, h1, h2, h3, h4⟩
      · obtain ⟨as, s', ha, hr, hd⟩ := go h rfl h2
        refine ⟨.op u :: as, s', ?_, ?_, hd⟩
        · intro a hm
          rcases List.mem_cons.mp hm with rfl | hm
          · rfl
          · exact ha a hm
        · simp only [run, h2, Option.bind_some]; exact hr
      · have hf : step s (.fin u) = some { s with life := upd s.life u .ended } := by
          simp only [step]; rw [if_pos ⟨h2, h3, h4⟩]
        obtain ⟨κ1, hi1⟩ := inv_step (a := .fin u) (P := fun _ _ => False) hP h trivial hf
        have hj : step { s with life := upd s.life u .ended } (.op x) =
            some { s with life := upd s.life u .ended, rest := upd s.rest x k } := by
          simp [step, h1, exec, upd_same]
        obtain ⟨as, s', ha, hr, hd⟩ := go hi1 rfl hj
        refine ⟨.fin u :: .op x :: as, s', ?_, ?_, hd⟩
        · intro a hm
          rcases List.mem_cons.mp hm with rfl | hm
          · rfl
          rcases List.mem_cons.mp hm with rfl | hm
          · rfl
          · exact ha a hm
        · simp only [run, hf, Option.bind_some, hj]; exact hr

theorem run_append {s : State} : ∀ (as bs : List Act),
    run s (as ++ bs) = (run s as).bind fun s' => run s' bs := by
  intro as
  induction as generalizing s with
  | nil => intro bs; rfl
  | cons a as ih =>
    intro bs
    simp only [List.cons_append, run]
    cases step s a with
    | none => rfl
    | some s1 => simp only [Option.bind_some]; exact ih bs

theorem reach_run {P : Thr → Prog → Prop} {s s' : State} {as} (h : Reach P s)
    (ha : ∀ a ∈ as, a.from_ P) (hr : run s as = some s') : Reach P s' := by
  obtain ⟨bs, hb, hr0⟩ := h
  refine ⟨bs ++ as, ?_, ?_⟩
  · intro a hm
    rcases List.mem_append.mp hm with hm | hm
    · exact hb a hm
    · exact ha a hm
  · rw [run_append, hr0]; exact hr

theorem reach_step {P : Thr → Prog → Prop} {s s' : State} {a} (h : Reach P s)
    (ha : a.from_ P) (hs : step s a = some s') : Reach P s' :=
  reach_run (as := [a]) h (by simpa using ha) (by simp [run, hs])

theorem old_from {P : Thr → Prog → Prop} {a : Act} (h : a.old = true) : a.from_ P := by
  cases a <;> simp_all [Act.old, Act.from_]

theorem reach_fin {P : Thr → Prog → Prop} {s : State} (h : Reach P s) : Fin s := by
  obtain ⟨as, -, hr⟩ := h
  exact fin_run as ⟨[], fun t ht => absurd rfl ht⟩ hr

/-- what a stuck client leaves: main waits for client `c` and holds `spaces_mutex`, a worker waits
for the mutex -/
def Stalled (c k : Nat) (p p' : Prog) (s : State) : Prop :=
  s.owner .spaces = some .main ∧ s.rest .main = .op (.io c) p ∧ s.ready c = false ∧
  s.rest (.worker k) = .op (.acq .spaces) p' ∧ s.life (.worker k) = .alive

theorem stalled_step {s s' κ c k p p' a} (h : Inv false s κ) (hst : Stalled c k p p' s)
    (ha : a ≠ .client c true) (hs : step s a = some s') : Stalled c k p p' s' := by
  obtain ⟨h1, h2, h3, h4, h5⟩ := hst
  cases a with
  | call t q =>
    simp only [step] at hs
    split at hs <;> simp only [Option.some.injEq, reduceCtorEq] at hs
    rename_i hc
    subst hs
    have n1 : Thr.main ≠ t := by rintro rfl; rw [h2] at hc; simp at hc
    have n2 : Thr.worker k ≠ t := by rintro rfl; rw [h4] at hc; simp at hc
    exact ⟨h1, by simp only [upd_ne _ _ n1]; exact h2, h3,
      by simp only [upd_ne _ _ n2]; exact h4, h5⟩
  | op t =>
    have n1 : Thr.main ≠ t := by
      rintro rfl
      simp [step, h2, exec, h3] at hs
    have n2 : Thr.worker k ≠ t := by
      rintro rfl
      simp [step, h4, exec, h1] at hs
    simp only [step] at hs
    cases hr : s.rest t with
    | ret => rw [hr] at hs; simp at hs
    | op o q =>
      rw [hr] at hs
      simp only [Option.map_eq_some_iff] at hs
      obtain ⟨s1, he, rfl⟩ := hs
      obtain ⟨e1, e2, e3⟩ := exec_rest he
      refine ⟨?_, by simp only [upd_ne _ _ n1]; exact h2, by simp only [e2]; exact h3,
        by simp only [upd_ne _ _ n2]; exact h4, e3 _ h5⟩
      show s1.owner .spaces = _
      cases o with
      | acq l =>
        simp only [exec] at he
        split at he <;> simp only [Option.some.injEq, reduceCtorEq] at he
        rename_i hx
        subst he
        have : Lock.spaces ≠ l := by rintro rfl; rw [h1] at hx; simp at hx
        simp only [upd_ne _ _ this]; exact h1
      | rel l =>
        simp only [exec, Option.some.injEq] at he
        subst he
        have : Lock.spaces ≠ l := by
          rintro rfl
          have hw := h.prog t
          rw [hr] at hw
          obtain ⟨k', hc, -⟩ := hw
          simp only [chk] at hc
          split at hc
          case isFalse => simp at hc
          rename_i hx
          have := ((h.core.sound t).own _).mpr hx.1
          rw [h1] at this
          simp only [Option.some.injEq] at this
          exact n1 this
        simp only [upd_ne _ _ this]; exact h1
      | join u =>
        simp only [exec] at he
        split at he
        · simp only [Option.some.injEq] at he; subst he; exact h1
        · split at he <;> simp only [Option.some.injEq, reduceCtorEq] at he
          subst he; exact h1
      | io d =>
        simp only [exec] at he
        split at he <;> simp only [Option.some.injEq, reduceCtorEq] at he
        subst he; exact h1
      | _ => simp only [exec, relist, Option.some.injEq] at he; subst he; exact h1
    | test q y n =>
      rw [hr] at hs
      simp only [Option.some.injEq] at hs
      subst hs
      obtain ⟨e1, e2, e3⟩ := ask_rest s q
      refine ⟨?_, by simp only [upd_ne _ _ n1]; exact h2, by simp only [e2]; exact h3,
        by simp only [upd_ne _ _ n2]; exact h4, by simp only [e3]; exact h5⟩
      show (ask s q).2.owner .spaces = _
      cases q <;> simp only [ask] <;> (try split) <;> exact h1
  | fin t =>
    simp only [step] at hs
    split at hs <;> simp only [Option.some.injEq, reduceCtorEq] at hs
    rename_i hc
    subst hs
    have n2 : Thr.worker k ≠ t := by rintro rfl; rw [h4] at hc; simp at hc
    exact ⟨h1, h2, h3, h4, by simp only [upd_ne _ _ n2]; exact h5⟩
  | client d b =>
    simp only [step, Option.some.injEq] at hs
    subst hs
    refine ⟨h1, h2, ?_, h4, h5⟩
    by_cases e : c = d
    · subst e
      simp only [upd_same]
      cases b
      · rfl
      · exact absurd rfl ha
    · simp only [upd_ne _ _ e]; exact h3

theorem stalled_run {c k p p'} : ∀ (as : List Act) {s s' κ}, Inv false s κ → Stalled c k p p' s →
    (∀ a ∈ as, a.from_ (Safe false) ∧ a ≠ .client c true) → run s as = some s' →
    Stalled c k p p' s' := by
  intro as
  induction as with
  | nil =>
    intro s s' κ _ h _ hr
    simp only [run, Option.some.injEq] at hr; subst hr; exact h
  | cons a as ih =>
    intro s s' κ h hst ha hr
    simp only [run, Option.bind_eq_some_iff] at hr
    obtain ⟨s1, h1, h2⟩ := hr
    obtain ⟨κ1, hi⟩ := inv_step (fun t p h => safe_wp h) h (ha a (by simp)).1 h1
    exact ih hi (stalled_step h hst (ha a (by simp)).2 h1) (fun b hb => ha b (by simp [hb])) h2

end Sanlock.Locks
