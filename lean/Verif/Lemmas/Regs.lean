import Verif.Regs

/-!
# What holds of the registered programs at all times
-/

namespace Sanlock.Regs

/-! ## The words -/

theorem length_msg (n : Note) : (msg n).length = 20 := rfl

theorem length_reply (rv : Int) (fl : Nat) : (reply rv fl).length = 8 := rfl

theorem join64 (v : UInt64) : UInt64.ofNat (v.toNat % 4294967296 + v.toNat / 4294967296 * 4294967296) = v := by
  have : v.toNat % 4294967296 + v.toNat / 4294967296 * 4294967296 = v.toNat := by omega
  rw [this, UInt64.ofNat_toNat]

theorem decode_msg (n : Note) (t : List Nat) : decode ((msg n ++ t).take 20) = n := by
  have h : (msg n ++ t).take 20 = msg n := by
    rw [List.take_append_of_le_length (by rw [length_msg]; exact Nat.le_refl _), List.take_of_length_le (by rw [length_msg]; exact Nat.le_refl _)]
  rw [h]
  cases n with
  | mk a b c d e f =>
    show Note.mk (UInt64.ofNat (a.toNat % 4294967296 + a.toNat / 4294967296 * 4294967296)) _ _ _ _ _ = _
    rw [join64]
    show Note.mk a (UInt64.ofNat (b.toNat % 4294967296 + b.toNat / 4294967296 * 4294967296))
      (UInt64.ofNat (c.toNat % 4294967296 + c.toNat / 4294967296 * 4294967296))
      (UInt64.ofNat (d.toNat % 4294967296 + d.toNat / 4294967296 * 4294967296))
      (UInt64.ofNat (e.toNat % 4294967296 + e.toNat / 4294967296 * 4294967296))
      (UInt64.ofNat (f.toNat % 4294967296 + f.toNat / 4294967296 * 4294967296)) = _
    rw [join64, join64, join64, join64, join64]

/-- A result the daemon gives. -/
def Code (r : Int) : Prop := r = 0 ∨ r = Rv.EINVAL ∨ r = Rv.ENOENT ∨ r = ENOCSI

theorem ofWord_word {r : Int} (h : Code r) : ofWord (word r) = r := by
  rcases h with h | h | h | h <;> subst h <;> decide

theorem code_neg {r : Int} (h : Code r) (h2 : ¬ r < 0) : r = 0 := by
  rcases h with h | h | h | h <;> subst h
  · rfl
  all_goals exact absurd (by decide) h2

/-! ## One connection -/

/-- What holds of a connection. -/
structure SockOk (x : Sock) : Prop where
  code : Code x.rv
  fresh : x.early = false → x.busy = true → x.res = none ∧ x.down = [] ∧ x.sent = [] ∧ x.got = []
  answered : x.early = false → x.op = true → x.busy = false → x.res = none →
    x.down = reply x.rv x.fl ++ x.sent.flatMap msg ∧ x.got = []
  told : ∀ r, x.res = some r → r = x.rv
  flow : x.early = false → x.op = true → x.busy = false → x.res ≠ none →
    ∃ pend, x.sent = x.got ++ pend ∧ x.down = pend.flatMap msg
  pref : x.early = false → x.got <+: x.sent
  nogot : x.res = none → x.got = []
  head : x.early = true → x.op = true → x.res = none → ∃ n t, x.down = msg n ++ t
  zero : x.early = true → x.rv = 0

theorem SockOk.close {x : Sock} (h : SockOk x) (g : Bool) (u : List UInt8) : SockOk { x with op := false, sig := g, up := u } where
  code := h.code
  fresh := h.fresh
  answered := fun _ h2 => absurd h2 Bool.false_ne_true
  told := h.told
  flow := fun _ h2 => absurd h2 Bool.false_ne_true
  pref := h.pref
  nogot := h.nogot
  head := fun _ h2 => absurd h2 Bool.false_ne_true
  zero := h.zero

theorem SockOk.up {x : Sock} (h : SockOk x) (u : List UInt8) : SockOk { x with up := u } :=
  ⟨h.code, h.fresh, h.answered, h.told, h.flow, h.pref, h.nogot, h.head, h.zero⟩

theorem SockOk.new {r : Int} (h : Code r) (fl : Nat) : SockOk ⟨[], [], true, true, r, fl, none, [], [], false, false⟩ where
  code := h
  fresh := fun _ _ => ⟨rfl, rfl, rfl, rfl⟩
  answered := fun _ _ h2 => absurd h2 Bool.false_ne_true.symm
  told := fun _ h2 => nomatch h2
  flow := fun _ _ h2 => absurd h2 Bool.false_ne_true.symm
  pref := fun _ => List.prefix_refl _
  nogot := fun _ => rfl
  head := fun h2 => absurd h2 Bool.false_ne_true
  zero := fun h2 => absurd h2 Bool.false_ne_true

theorem SockOk.answer {x : Sock} (h : SockOk x) (hb : x.busy = true) :
    SockOk { x with down := if x.op then x.down ++ reply x.rv x.fl else x.down, busy := false } where
  code := h.code
  fresh := fun _ h2 => absurd h2 Bool.false_ne_true
  answered := by
    intro h1 h2 _ _
    obtain ⟨_, b, c, d⟩ := h.fresh h1 hb
    refine ⟨?_, d⟩
    show (if x.op = true then x.down ++ reply x.rv x.fl else x.down) = reply x.rv x.fl ++ x.sent.flatMap msg
    rw [if_pos h2, b, c]; rfl
  told := h.told
  flow := fun h1 _ _ h3 => absurd (h.fresh h1 hb).1 h3
  pref := h.pref
  nogot := h.nogot
  head := by
    intro h1 h2 h3
    obtain ⟨n, t, e⟩ := h.head h1 h2 h3
    refine ⟨n, t ++ reply x.rv x.fl, ?_⟩
    show (if x.op = true then x.down ++ reply x.rv x.fl else x.down) = _
    rw [if_pos h2, e, List.append_assoc]
  zero := h.zero

theorem SockOk.deliver {x : Sock} (h : SockOk x) (hr : x.rv = 0) (ho : x.op = true) (n : Note) :
    SockOk { x with down := x.down ++ msg n, sent := x.sent ++ [n], early := x.early || x.busy } where
  code := h.code
  fresh := by
    intro h1 h2
    have : (x.early || x.busy) = false := h1
    rw [show x.busy = true from h2, Bool.or_true] at this
    exact absurd this Bool.false_ne_true.symm
  answered := by
    intro h1 h2 h3 h4
    have h1' : x.early = false := (Bool.or_eq_false_iff.mp h1).1
    obtain ⟨a, b⟩ := h.answered h1' h2 h3 h4
    refine ⟨?_, b⟩
    show x.down ++ msg n = _ ++ (x.sent ++ [n]).flatMap msg
    rw [a, List.flatMap_append, List.append_assoc]
    simp only [List.flatMap_cons, List.flatMap_nil, List.append_nil]
  told := h.told
  flow := by
    intro h1 h2 h3 h4
    have h1' : x.early = false := (Bool.or_eq_false_iff.mp h1).1
    obtain ⟨p, a, b⟩ := h.flow h1' h2 h3 h4
    refine ⟨p ++ [n], ?_, ?_⟩
    · show x.sent ++ [n] = x.got ++ (p ++ [n])
      rw [a, List.append_assoc]
    · show x.down ++ msg n = _
      rw [b, List.flatMap_append]
      simp only [List.flatMap_cons, List.flatMap_nil, List.append_nil]
  pref := fun h1 => (h.pref (Bool.or_eq_false_iff.mp h1).1).trans (List.prefix_append _ _)
  nogot := h.nogot
  head := by
    intro h1 h2 h3
    cases he : x.early with
    | true =>
      obtain ⟨m, t, e⟩ := h.head he h2 h3
      exact ⟨m, t ++ msg n, by show x.down ++ msg n = _; rw [e, List.append_assoc]⟩
    | false =>
      have h1' : (x.early || x.busy) = true := h1
      rw [he, Bool.false_or] at h1'
      exact ⟨n, [], by show x.down ++ msg n = _; rw [(h.fresh he h1').2.1, List.nil_append, List.append_nil]⟩
  zero := fun _ => hr

theorem SockOk.wait {s : State} {c : Nat} {x : Sock} (h : SockOk x) (ho : x.op = true) (hr : x.res = none) :
    SockOk (Regs.wait s c x) := by
  cases he : x.early with
  | true =>
    obtain ⟨n, t, e⟩ := h.head he ho hr
    have hw : Regs.wait s c x = { x with down := x.down.drop 8, res := some 0 } := by
      unfold Regs.wait
      rw [if_pos (by rw [e, List.length_append, length_msg]; omega)]
      have : x.down.getD 6 0 = 0 := by rw [e]; rfl
      simp only [this]
      rfl
    rw [hw]
    exact {
      code := h.code
      fresh := fun h1 => absurd (he.symm.trans h1) Bool.false_ne_true.symm
      answered := fun h1 => absurd (he.symm.trans h1) Bool.false_ne_true.symm
      told := fun r hh => by rw [h.zero he]; exact (Option.some.inj hh).symm
      flow := fun h1 => absurd (he.symm.trans h1) Bool.false_ne_true.symm
      pref := fun h1 => absurd (he.symm.trans h1) Bool.false_ne_true.symm
      nogot := fun h1 => nomatch h1
      head := fun _ _ h3 => nomatch h3
      zero := h.zero }
  | false =>
    cases hb : x.busy with
    | true =>
      have : Regs.wait s c x = x := by
        unfold Regs.wait
        rw [(h.fresh he hb).2.1]
        rw [if_neg (by decide), if_pos (by unfold dopen; rw [hb, Bool.true_or])]
      rw [this]; exact h
    | false =>
      obtain ⟨e, g⟩ := h.answered he ho hb hr
      have h8 : 8 ≤ x.down.length := by rw [e, List.length_append, length_reply]; omega
      have h6 : x.down.getD 6 0 = word x.rv := by rw [e]; rfl
      have hd : x.down.drop 8 = x.sent.flatMap msg := by rw [e]; rfl
      unfold Regs.wait
      rw [if_pos h8]
      simp only [h6, ofWord_word h.code]
      by_cases hn : x.rv < 0
      · rw [if_pos hn]
        exact {
          code := h.code
          fresh := fun _ h1 => absurd (hb.symm.trans h1) Bool.false_ne_true
          answered := fun _ h2 => absurd h2 Bool.false_ne_true
          told := fun r hh => (Option.some.inj hh).symm
          flow := fun _ h2 => absurd h2 Bool.false_ne_true
          pref := h.pref
          nogot := fun h1 => nomatch h1
          head := fun _ h2 => absurd h2 Bool.false_ne_true
          zero := h.zero }
      · rw [if_neg hn]
        exact {
          code := h.code
          fresh := fun _ h1 => absurd (hb.symm.trans h1) Bool.false_ne_true
          answered := fun _ _ _ h2 => nomatch h2
          told := fun r hh => by rw [code_neg h.code hn]; exact (Option.some.inj hh).symm
          flow := fun _ _ _ _ => ⟨x.sent, by show x.sent = x.got ++ x.sent; rw [g]; rfl, hd⟩
          pref := h.pref
          nogot := fun h1 => nomatch h1
          head := fun _ _ h3 => nomatch h3
          zero := h.zero }

theorem flat_length (l : List Note) : (l.flatMap msg).length = 20 * l.length := by
  induction l with
  | nil => rfl
  | cons a t ih => rw [List.flatMap_cons, List.length_append, ih, length_msg, List.length_cons]; omega

theorem SockOk.get {s : State} {c : Nat} {x : Sock} (h : SockOk x) (ho : x.op = true) (hr : x.res = some 0) :
    SockOk (Regs.get s c x).1 := by
  have hne : x.res ≠ none := by rw [hr]; exact Option.some_ne_none _
  have hb : x.early = false → x.busy = false := fun he => by
    cases hb : x.busy with
    | false => rfl
    | true => exact absurd (h.fresh he hb).1 hne
  unfold Regs.get
  by_cases h0 : x.down.length = 0
  · rw [if_pos h0]; exact h
  rw [if_neg h0]
  by_cases h2 : x.down.length < 20
  · rw [if_pos h2]
    have hf : x.early = false → False := fun he => by
      obtain ⟨p, _, e⟩ := h.flow he ho (hb he) hne
      rw [e, flat_length] at h0 h2
      omega
    exact {
      code := h.code
      fresh := fun h1 => (hf h1).elim
      answered := fun h1 => (hf h1).elim
      told := h.told
      flow := fun h1 => (hf h1).elim
      pref := fun h1 => (hf h1).elim
      nogot := h.nogot
      head := fun _ _ h3 => absurd h3 hne
      zero := h.zero }
  · rw [if_neg h2]
    have key : x.early = false → ∃ n p, x.sent = x.got ++ n :: p ∧ x.down = msg n ++ p.flatMap msg := fun he => by
      obtain ⟨p, a, e⟩ := h.flow he ho (hb he) hne
      cases p with
      | nil => rw [e] at h0; exact absurd rfl h0
      | cons n p => exact ⟨n, p, a, e⟩
    exact {
      code := h.code
      fresh := fun h1 h3 => absurd ((hb h1).symm.trans h3) Bool.false_ne_true
      answered := fun _ _ _ h3 => absurd h3 hne
      told := h.told
      flow := fun h1 _ _ _ => by
        obtain ⟨n, p, a, e⟩ := key h1
        refine ⟨p, ?_, ?_⟩
        · show x.sent = (x.got ++ [decode (x.down.take 20)]) ++ p
          rw [e, decode_msg, a, List.append_assoc]; rfl
        · show x.down.drop 20 = _
          rw [e]; rfl
      pref := fun h1 => by
        obtain ⟨n, p, a, e⟩ := key h1
        show x.got ++ [decode (x.down.take 20)] <+: x.sent
        rw [e, decode_msg, a]
        exact ⟨p, by rw [List.append_assoc]; rfl⟩
      nogot := fun h1 => absurd h1 hne
      head := fun _ _ h3 => absurd h3 hne
      zero := h.zero }

/-! ## The places -/

/-- Connection `c` is in place `a` of lockspace `i`. -/
def At (s : State) (c i a : Nat) : Prop := ∃ p, s.spaces[i]? = some p ∧ p.slots[a]? = some (some c)

/-- What holds at all times. -/
structure Inv (s : State) : Prop where
  sock : ∀ (c : Nat) (x : Sock), s.socks[c]? = some x → SockOk x
  len : ∀ (i : Nat) (p : Space), s.spaces[i]? = some p → p.slots.length = 32
  reg : ∀ c i a, At s c i a → ∃ x, s.socks[c]? = some x ∧ x.rv = 0
  uniq : ∀ c i j a b, At s c i a → At s c j b → i = j ∧ a = b

theorem inv_init : Inv init :=
  ⟨fun _ _ h => (nomatch h), fun _ _ h => (nomatch h), fun _ _ _ h => (by obtain ⟨p, h, _⟩ := h; exact nomatch h),
   fun _ _ _ _ _ h => (by obtain ⟨p, h, _⟩ := h; exact nomatch h)⟩

/-- The connections keep their results. -/
def Keeps (k k' : List Sock) : Prop := ∀ (c : Nat) (x : Sock), k[c]? = some x → ∃ y, k'[c]? = some y ∧ y.rv = x.rv

theorem Inv.sub {s s' : State} (h : Inv s) (h1 : ∀ (c : Nat) (x : Sock), s'.socks[c]? = some x → SockOk x)
    (h2 : ∀ (i : Nat) (p : Space), s'.spaces[i]? = some p → p.slots.length = 32) (h3 : Keeps s.socks s'.socks)
    (h4 : ∀ c i a, At s' c i a → At s c i a) : Inv s' where
  sock := h1
  len := h2
  reg := fun c i a ha => by
    obtain ⟨x, e, r⟩ := h.reg c i a (h4 c i a ha)
    obtain ⟨y, e', r'⟩ := h3 c x e
    exact ⟨y, e', r'.trans r⟩
  uniq := fun c i j a b ha hb => h.uniq c i j a b (h4 c i a ha) (h4 c j b hb)

theorem keeps_refl (k : List Sock) : Keeps k k := fun _ x h => ⟨x, h, rfl⟩

theorem keeps_mapIdx (k : List Sock) (f : Nat → Sock → Sock) (hf : ∀ c x, (f c x).rv = x.rv) : Keeps k (k.mapIdx f) := by
  intro c x h
  exact ⟨f c x, by rw [List.getElem?_mapIdx, h]; rfl, hf c x⟩

theorem set_get {α : Type} {l : List α} {i j : Nat} {v w : α} (h : (l.set i v)[j]? = some w) :
    (i = j ∧ w = v) ∨ (i ≠ j ∧ l[j]? = some w) := by
  rw [List.getElem?_set] at h
  by_cases e : i = j
  · rw [if_pos e] at h
    split at h
    · exact .inl ⟨e, (Option.some.inj h).symm⟩
    · exact nomatch h
  · rw [if_neg e] at h; exact .inr ⟨e, h⟩

/-- A change of one connection. -/
theorem Inv.upd {s : State} (h : Inv s) {c : Nat} {x y : Sock} (hx : s.socks[c]? = some x) (hy : SockOk y) (hr : y.rv = x.rv) :
    Inv (upd s c y) := by
  refine h.sub ?_ h.len ?_ (fun _ _ _ ha => ha)
  · intro d z hz
    rcases set_get hz with ⟨_, e⟩ | ⟨_, e⟩
    · rw [e]; exact hy
    · exact h.sock d z e
  · intro d z hz
    by_cases e : c = d
    · subst e
      refine ⟨y, ?_, ?_⟩
      · show (s.socks.set c y)[c]? = some y
        rw [List.getElem?_set, if_pos rfl, if_pos (List.getElem?_eq_some_iff.mp hx).1]
      · rw [hx] at hz; cases hz; exact hr
    · refine ⟨z, ?_, rfl⟩
      show (s.socks.set c y)[d]? = some z
      rw [List.getElem?_set, if_neg e]; exact hz

/-- A lockspace with some of its places cleared. -/
theorem at_set {s : State} {i : Nat} {p q : Space} {k : List Sock} (hp : s.spaces[i]? = some p)
    (hq : ∀ a c : Nat, q.slots[a]? = some (some c) → p.slots[a]? = some (some c)) {c j a : Nat}
    (h : At ⟨s.spaces.set i q, k⟩ c j a) : At s c j a := by
  obtain ⟨r, h1, h2⟩ := h
  rcases set_get h1 with ⟨e, e2⟩ | ⟨_, e⟩
  · subst e; subst e2; exact ⟨p, hp, hq a c h2⟩
  · exact ⟨r, e, h2⟩

theorem len_set {s : State} (h : Inv s) {i : Nat} {q : Space} (hq : q.slots.length = 32) (j : Nat) (p : Space)
    (hp : (s.spaces.set i q)[j]? = some p) : p.slots.length = 32 := by
  rcases set_get hp with ⟨_, e⟩ | ⟨_, e⟩
  · rw [e]; exact hq
  · exact h.len j p e

theorem map_slot {l : List (Option Nat)} {f : Nat → Bool} {a c : Nat}
    (h : (l.map fun o => o.bind fun c => if f c then none else some c)[a]? = some (some c)) : l[a]? = some (some c) ∧ f c = false := by
  rw [List.getElem?_map] at h
  cases hl : l[a]? with
  | none => rw [hl] at h; exact nomatch h
  | some o =>
    rw [hl] at h
    cases o with
    | none => exact nomatch (Option.some.inj h)
    | some d =>
      have h' : (if f d then none else some d) = some c := Option.some.inj h
      cases hf : f d with
      | true => rw [hf] at h'; exact nomatch h'
      | false => rw [hf] at h'; cases h'; exact ⟨rfl, hf⟩

theorem map_slot_of {l : List (Option Nat)} {f : Nat → Bool} {a c : Nat} (h : l[a]? = some (some c)) (hf : f c = false) :
    (l.map fun o => o.bind fun c => if f c then none else some c)[a]? = some (some c) := by
  rw [List.getElem?_map, h]
  show some (if f c then none else some c) = _
  rw [hf]; rfl

theorem slots_deliver (l : List (Option Nat)) (full : List Nat) (k : List Sock) :
    (l.map fun o => o.bind fun c => if takes full k c then some c else none) =
      l.map fun o => o.bind fun c => if (!takes full k c) then none else some c := by
  congr 1
  funext o
  cases o with
  | none => rfl
  | some c =>
    show (if takes full k c then some c else none) = if (!takes full k c) then none else some c
    cases takes full k c <;> rfl

theorem Inv.clean {s : State} (h : Inv s) {i : Nat} {p : Space} (hp : s.spaces[i]? = some p) : Inv (clean s i p) := by
  refine h.sub ?_ ?_ ?_ ?_
  · intro c x hx
    have hx' : (s.socks.mapIdx fun c x => if p.slots.contains (some c) && odd x then { x with up := x.up.drop 4 } else x)[c]? = some x := hx
    rw [List.getElem?_mapIdx] at hx'
    cases hc : s.socks[c]? with
    | none => rw [hc] at hx'; exact nomatch hx'
    | some y =>
      rw [hc] at hx'
      have := Option.some.inj hx'
      dsimp only at this
      rw [← this]
      split
      · exact (h.sock c y hc).up _
      · exact h.sock c y hc
  · intro j q hq
    exact len_set h (by show (cleanSlots s.socks p.slots).length = 32; unfold cleanSlots; rw [List.length_map]; exact h.len i p hp) j q hq
  · exact keeps_mapIdx _ _ fun c x => by split <;> rfl
  · intro c j a ha
    exact at_set hp (fun a c hh => (map_slot hh).1) ha

theorem Inv.deliver {s : State} (h : Inv s) {i : Nat} {p : Space} (hp : s.spaces[i]? = some p) (n : Note) (full : List Nat) :
    Inv (deliver s i p n full) := by
  refine h.sub ?_ ?_ ?_ ?_
  · intro c x hx
    unfold Regs.deliver at hx
    rw [List.getElem?_mapIdx] at hx
    cases hc : s.socks[c]? with
    | none => rw [hc] at hx; exact nomatch hx
    | some y =>
      rw [hc] at hx
      have := Option.some.inj hx
      dsimp only at this
      rw [← this]
      split
      · next ht =>
        rw [Bool.and_eq_true] at ht
        obtain ⟨h1, h2⟩ := ht
        have hm : some c ∈ p.slots := List.contains_iff_mem.mp h1
        obtain ⟨a, ha⟩ := List.mem_iff_getElem?.mp hm
        obtain ⟨z, hz, hr⟩ := h.reg c i a ⟨p, hp, ha⟩
        rw [hc] at hz; cases hz
        unfold takes at h2
        rw [hc, Bool.and_eq_true] at h2
        exact (h.sock c y hc).deliver hr h2.1 n
      · exact h.sock c y hc
  · intro j q hq
    exact len_set h (by rw [List.length_map]; exact h.len i p hp) j q hq
  · exact keeps_mapIdx _ _ fun c x => by split <;> rfl
  · intro c j a ha
    refine at_set hp (fun a c hh => ?_) ha
    have hh' : (p.slots.map fun o => o.bind fun c => if takes full s.socks c then some c else none)[a]? = some (some c) := hh
    rw [slots_deliver] at hh'
    exact (map_slot hh').1

theorem put_spec (c : Nat) : ∀ (l l' : List (Option Nat)), put c l = some l' → ∃ b, l[b]? = some none ∧ l' = l.set b (some c) := by
  intro l
  induction l with
  | nil => intro l' h; exact nomatch h
  | cons o t ih =>
    intro l' h
    cases o with
    | none => exact ⟨0, rfl, (Option.some.inj h).symm⟩
    | some d =>
      have h' : (put c t).map (some d :: ·) = some l' := h
      cases hp : put c t with
      | none => rw [hp] at h'; exact nomatch h'
      | some m =>
        rw [hp] at h'
        obtain ⟨b, h1, h2⟩ := ih m hp
        exact ⟨b + 1, h1, by rw [← Option.some.inj h', h2]; rfl⟩

theorem put_none (c : Nat) : ∀ (l : List (Option Nat)), put c l = none ↔ ∀ o ∈ l, o ≠ none := by
  intro l
  induction l with
  | nil => exact ⟨fun _ _ h => (by cases h), fun _ => rfl⟩
  | cons o t ih =>
    cases o with
    | none => exact ⟨fun h => (nomatch h), fun h => absurd rfl (h none List.mem_cons_self)⟩
    | some d =>
      show (put c t).map (some d :: ·) = none ↔ _
      rw [Option.map_eq_none_iff, ih]
      constructor
      · intro h o ho
        rcases List.mem_cons.mp ho with e | e
        · rw [e]; exact Option.some_ne_none _
        · exact h o e
      · intro h o ho
        exact h o (List.mem_cons_of_mem _ ho)

/-- The state after a registration in place `b` of lockspace `i`. -/
theorem attempt_spec {s s' : State} {i c : Nat} {d : Bool} (h : attempt s i c d = some s') :
    d = true ∧ ∃ p b, s.spaces[i]? = some p ∧ p.slots[b]? = some none ∧
      s' = { s with spaces := s.spaces.set i { p with slots := p.slots.set b (some c) } } := by
  unfold attempt at h
  cases hp : s.spaces[i]? with
  | none => rw [hp] at h; exact nomatch h
  | some p =>
    rw [hp] at h
    cases d with
    | false => exact nomatch h
    | true =>
      refine ⟨rfl, p, ?_⟩
      have h' : (put c p.slots).map (fun l => { s with spaces := s.spaces.set i { p with slots := l } }) = some s' := h
      cases hl : put c p.slots with
      | none => rw [hl] at h'; exact nomatch h'
      | some l =>
        rw [hl] at h'
        obtain ⟨b, e1, e2⟩ := put_spec c _ _ hl
        exact ⟨b, rfl, e1, by rw [← Option.some.inj h', ← e2]⟩

theorem attempt_none {s : State} {i c : Nat} {p : Space} (hp : s.spaces[i]? = some p) :
    attempt s i c true = none ↔ ∀ o ∈ p.slots, o ≠ none := by
  unfold attempt
  rw [hp]
  show (put c p.slots).map _ = none ↔ _
  rw [Option.map_eq_none_iff, put_none]

/-- A new connection, registered in a free place. -/
theorem Inv.attempt {s s' : State} (h : Inv s) {i : Nat} {d : Bool} (ha : attempt s i s.socks.length d = some s') (fl : Nat) :
    Inv { s' with socks := s'.socks ++ [⟨[], [], true, true, 0, fl, none, [], [], false, false⟩] } := by
  obtain ⟨_, p, b, hp, hb, rfl⟩ := attempt_spec ha
  have key : ∀ c j a,
      At ⟨s.spaces.set i { p with slots := p.slots.set b (some s.socks.length) },
        s.socks ++ [⟨[], [], true, true, 0, fl, none, [], [], false, false⟩]⟩ c j a →
      (c = s.socks.length ∧ j = i ∧ a = b) ∨ (c ≠ s.socks.length ∧ At s c j a) := by
    intro c j a hh
    obtain ⟨q, h1, h2⟩ := hh
    have hne : At s c j a → c ≠ s.socks.length := fun ht e => by
      obtain ⟨x, hx, _⟩ := h.reg c j a ht
      rw [e, List.getElem?_eq_none (Nat.le_refl _)] at hx
      exact nomatch hx
    rcases set_get h1 with ⟨e, e2⟩ | ⟨_, e⟩
    · subst e; subst e2
      rcases set_get h2 with ⟨e3, e4⟩ | ⟨_, e3⟩
      · exact .inl ⟨Option.some.inj e4, rfl, e3.symm⟩
      · exact .inr ⟨hne ⟨p, hp, e3⟩, ⟨p, hp, e3⟩⟩
    · exact .inr ⟨hne ⟨q, e, h2⟩, ⟨q, e, h2⟩⟩
  refine ⟨?_, ?_, ?_, ?_⟩
  · intro c x hx
    by_cases hc : c < s.socks.length
    · rw [List.getElem?_append_left hc] at hx; exact h.sock c x hx
    · rw [List.getElem?_append_right (Nat.le_of_not_lt hc)] at hx
      cases hk : c - s.socks.length with
      | zero => rw [hk] at hx; rw [← Option.some.inj hx]; exact SockOk.new (.inl rfl) fl
      | succ k => rw [hk] at hx; exact nomatch hx
  · intro j q hq
    exact len_set h (by show (p.slots.set b _).length = 32; rw [List.length_set]; exact h.len i p hp) j q hq
  · intro c j a hh
    rcases key c j a hh with ⟨e, _, _⟩ | ⟨_, ht⟩
    · exact ⟨_, by rw [e]; show (s.socks ++ [_])[s.socks.length]? = _; rw [List.getElem?_append_right (Nat.le_refl _), Nat.sub_self]; rfl, rfl⟩
    · obtain ⟨x, hx, hr⟩ := h.reg c j a ht
      exact ⟨x, by show (s.socks ++ [_])[c]? = _; rw [List.getElem?_append_left (List.getElem?_eq_some_iff.mp hx).1]; exact hx, hr⟩
  · intro c j j' a a' h1 h2
    rcases key c j a h1 with ⟨e, e1, e2⟩ | ⟨n, ht⟩ <;> rcases key c j' a' h2 with ⟨f, f1, f2⟩ | ⟨m, ht'⟩
    · exact ⟨e1.trans f1.symm, e2.trans f2.symm⟩
    · exact absurd e m
    · exact absurd f n
    · exact h.uniq c j j' a a' ht ht'

/-- A new connection that is not registered. -/
theorem Inv.fail {s : State} (h : Inv s) {r : Int} (hr : Code r) (fl : Nat) :
    Inv { s with socks := s.socks ++ [⟨[], [], true, true, r, fl, none, [], [], false, false⟩] } := by
  refine h.sub ?_ h.len ?_ (fun _ _ _ ha => ha)
  · intro c x hx
    by_cases hc : c < s.socks.length
    · rw [List.getElem?_append_left hc] at hx; exact h.sock c x hx
    · rw [List.getElem?_append_right (Nat.le_of_not_lt hc)] at hx
      cases hk : c - s.socks.length with
      | zero => rw [hk] at hx; rw [← Option.some.inj hx]; exact SockOk.new hr fl
      | succ k => rw [hk] at hx; exact nomatch hx
  · intro c x hx
    exact ⟨x, by show (s.socks ++ [_])[c]? = _; rw [List.getElem?_append_left (List.getElem?_eq_some_iff.mp hx).1]; exact hx, rfl⟩

theorem length_clean (s : State) (i : Nat) (p : Space) : (clean s i p).socks.length = s.socks.length := by
  unfold clean cleanSocks; rw [List.length_mapIdx]

/-- What `lockspace_reg_event` does. -/
inductive RegCase (s : State) (n c : Nat) (d1 d2 : Bool) : State × Int → Prop
  | bad (h : n = 0) : RegCase s n c d1 d2 (s, Rv.EINVAL)
  | unknown (h : n ≠ 0) (hl : look s n = none) : RegCase s n c d1 d2 (s, Rv.ENOENT)
  | first (i : Nat) (s' : State) (h : n ≠ 0) (hl : look s n = some i) (ha : attempt s i c d1 = some s') : RegCase s n c d1 d2 (s', 0)
  | none (i : Nat) (p : Space) (h : n ≠ 0) (hl : look s n = some i) (hp : s.spaces[i]? = some p) (ha : attempt s i c d1 = none)
      (hc : cleaned s.socks p.slots = 0) : RegCase s n c d1 d2 (clean s i p, ENOCSI)
  | second (i : Nat) (p : Space) (s' : State) (h : n ≠ 0) (hl : look s n = some i) (hp : s.spaces[i]? = some p)
      (ha : attempt s i c d1 = none) (hc : cleaned s.socks p.slots ≠ 0) (ha2 : attempt (clean s i p) i c d2 = some s') :
      RegCase s n c d1 d2 (s', 0)
  | again (i : Nat) (p : Space) (h : n ≠ 0) (hl : look s n = some i) (hp : s.spaces[i]? = some p)
      (ha : attempt s i c d1 = none) (hc : cleaned s.socks p.slots ≠ 0) (ha2 : attempt (clean s i p) i c d2 = none) :
      RegCase s n c d1 d2 (clean s i p, ENOCSI)

theorem look_some {s : State} {n i : Nat} (h : look s n = some i) : ∃ p, s.spaces[i]? = some p ∧ p.live = true ∧ p.name = n := by
  unfold look at h
  obtain ⟨hi, h1, _⟩ := List.findIdx?_eq_some_iff_getElem.mp h
  rw [Bool.and_eq_true, beq_iff_eq] at h1
  exact ⟨s.spaces[i], List.getElem?_eq_getElem hi, h1⟩

theorem regEvent_case (s : State) (n c : Nat) (d1 d2 : Bool) : RegCase s n c d1 d2 (regEvent s n c d1 d2) := by
  unfold regEvent
  by_cases hn : n = 0
  · rw [if_pos hn]; exact .bad hn
  rw [if_neg hn]
  cases hl : look s n with
  | none => exact .unknown hn hl
  | some i =>
    dsimp only
    obtain ⟨p, hp, _⟩ := look_some hl
    cases ha : attempt s i c d1 with
    | some s' => exact .first i s' hn hl ha
    | none =>
      dsimp only
      rw [hp]
      dsimp only
      by_cases hc : cleaned s.socks p.slots = 0
      · rw [if_pos hc]; exact .none i p hn hl hp ha hc
      · rw [if_neg hc]
        cases ha2 : attempt (clean s i p) i c d2 with
        | some s' => exact .second i p s' hn hl hp ha hc ha2
        | none => exact .again i p hn hl hp ha hc ha2

theorem step_inv {s : State} (h : Inv s) (e : Ev) : Inv (step s e).1 := by
  cases e with
  | add n =>
    simp only [step]
    split
    · refine h.sub h.sock ?_ (keeps_refl _) ?_
      · intro i p hp
        by_cases hi : i < s.spaces.length
        · rw [List.getElem?_append_left hi] at hp; exact h.len i p hp
        · rw [List.getElem?_append_right (Nat.le_of_not_lt hi)] at hp
          cases hk : i - s.spaces.length with
          | zero => rw [hk] at hp; rw [← Option.some.inj hp]; exact List.length_replicate
          | succ k => rw [hk] at hp; exact nomatch hp
      · intro c i a ha
        obtain ⟨p, hp, hs⟩ := ha
        by_cases hi : i < s.spaces.length
        · rw [List.getElem?_append_left hi] at hp; exact ⟨p, hp, hs⟩
        · rw [List.getElem?_append_right (Nat.le_of_not_lt hi)] at hp
          cases hk : i - s.spaces.length with
          | zero =>
            rw [hk] at hp; rw [← Option.some.inj hp] at hs
            have hs' : (List.replicate 32 (none : Option Nat))[a]? = some (some c) := hs
            rw [List.getElem?_replicate] at hs'
            split at hs'
            · exact nomatch (Option.some.inj hs')
            · exact nomatch hs'
          | succ k => rw [hk] at hp; exact nomatch hp
    · exact h
  | leave i =>
    simp only [step]
    split
    · next p hp =>
      exact h.sub h.sock (fun j q hq => len_set h (q := { p with live := false }) (h.len i p hp) j q hq) (keeps_refl _)
        (fun c j a ha => at_set (q := { p with live := false }) hp (fun _ _ hh => hh) ha)
    · exact h
  | shut i =>
    simp only [step]
    split
    · next p hp =>
      split
      · exact h
      · refine h.sub h.sock (fun j q hq => len_set h List.length_replicate j q hq) (keeps_refl _)
          (fun c j a ha => at_set hp (fun a c hs => ?_) ha)
        have hs' : (List.replicate 32 (none : Option Nat))[a]? = some (some c) := hs
        rw [List.getElem?_replicate] at hs'
        split at hs'
        · exact nomatch (Option.some.inj hs')
        · exact nomatch hs'
    · exact h
  | reg n fl d1 d2 =>
    simp only [step]
    generalize hr : regEvent s n s.socks.length d1 d2 = r
    have hc := regEvent_case s n s.socks.length d1 d2
    rw [hr] at hc
    cases hc with
    | bad => exact h.fail (.inr (.inl rfl)) fl
    | unknown => exact h.fail (.inr (.inr (.inl rfl))) fl
    | first i s' _ _ ha => exact h.attempt ha fl
    | none i p _ _ hp => exact (h.clean hp).fail (.inr (.inr (.inr rfl))) fl
    | second i p s' _ _ hp _ _ ha2 =>
      rw [← length_clean s i p] at ha2
      exact (h.clean hp).attempt ha2 fl
    | again i p _ _ hp => exact (h.clean hp).fail (.inr (.inr (.inr rfl))) fl
  | answer c =>
    simp only [step]
    split
    · next x hx =>
      split
      · next hb => exact h.upd hx ((h.sock c x hx).answer hb) rfl
      · exact h
    · exact h
  | wait c =>
    simp only [step]
    split
    · next x hx =>
      split
      · next hb =>
        refine h.upd hx ((h.sock c x hx).wait hb.1 hb.2) ?_
        unfold wait
        dsimp only
        repeat' (first | rfl | split)
      · exact h
    · exact h
  | get c =>
    simp only [step]
    split
    · next x hx =>
      split
      · next hb =>
        refine h.upd hx ((h.sock c x hx).get hb.1 hb.2) ?_
        unfold get
        repeat' (first | rfl | split)
      · exact h
    · exact h
  | write c b =>
    simp only [step]
    split
    · next x hx =>
      split
      · exact h.upd hx ((h.sock c x hx).up _) rfl
      · exact h
    · exact h
  | bye c =>
    simp only [step]
    split
    · next x hx =>
      split
      · unfold bye
        split
        · exact h.upd hx ((h.sock c x hx).close x.sig _) rfl
        · exact h.upd hx ((h.sock c x hx).close true x.up) rfl
      · exact h
    · exact h
  | endCmd n =>
    simp only [step]
    unfold endEvent
    split
    · exact h
    · split
      · exact h
      · split
        · exact h
        · next p hp => exact h.clean hp
  | quit c =>
    simp only [step]
    split
    · next x hx => exact h.upd hx ((h.sock c x hx).close x.sig x.up) rfl
    · exact h
  | deliver i n full =>
    simp only [step]
    split
    · next p hp =>
      split
      · exact h.deliver hp n full
      · exact h
    · exact h

theorem foldl_inv (l : List Ev) (s : State) (h : Inv s) : Inv (l.foldl (fun s e => (step s e).1) s) := by
  induction l generalizing s with
  | nil => exact h
  | cons e t ih => exact ih _ (step_inv h e)

theorem run_inv (l : List Ev) : Inv (run l) := foldl_inv l init inv_init

end Sanlock.Regs
