import Verif.Delta
import Verif.Props.Verify

/-!
# Properties of host id leases: C12, C13, C14
-/

namespace Sanlock.Delta

open OnDisk Crc Verify

/-! ## Facts about the functions -/

/-- The name a host puts on disk. -/
def key (c : Cfg) (p : Nat) : List UInt8 := ((c.name p).takeWhile (· ≠ 0)).take 47

/-- Host name in a record. -/
def hostOf (l : Leader) : List UInt8 := cstr l.resourceName.bytes

theorem takeWhile_append_nul (t r : List UInt8) (h : ∀ x ∈ t, x ≠ 0) :
    (t ++ 0 :: r).takeWhile (· ≠ 0) = t := by
  induction t with
  | nil => simp
  | cons a t ih =>
    simp only [List.cons_append]
    rw [List.takeWhile_cons_of_pos (by simpa using h a List.mem_cons_self),
      ih (fun x hx => h x (List.mem_cons_of_mem _ hx))]

theorem mem_takeWhile_ne (l : List UInt8) (x : UInt8) (h : x ∈ l.takeWhile (· ≠ 0)) : x ≠ 0 := by
  induction l with
  | nil => simp at h
  | cons a l ih =>
    rw [List.takeWhile_cons] at h
    split at h
    · rename_i ha
      rcases List.mem_cons.mp h with rfl | h
      · simpa using ha
      · exact ih h
    · simp at h

theorem cstr_snprintf (old : Name) (s : List UInt8) :
    cstr (snprintfName old s).bytes = (s.takeWhile (· ≠ 0)).take 47 := by
  unfold cstr
  rw [List.take_of_length_le (by rw [(snprintfName old s).len]; exact Nat.le_refl _)]
  unfold snprintfName
  apply takeWhile_append_nul
  intro x hx
  exact mem_takeWhile_ne _ _ (List.mem_of_mem_take hx)

theorem hostOf_new (sum io hid name l ts) :
    hostOf (newLeader sum io hid name l ts) = (name.takeWhile (· ≠ 0)).take 47 := cstr_snprintf _ _

/-- Taking at most 48 characters of a C string. -/
theorem takeWhile_take (n : Nat) (l : List UInt8) :
    (l.take n).takeWhile (· ≠ 0) = (l.takeWhile (· ≠ 0)).take n := by
  induction l generalizing n with
  | nil => simp
  | cons a l ih =>
    cases n with
    | zero => simp
    | succ n =>
      rw [List.take_succ_cons, List.takeWhile_cons, List.takeWhile_cons]
      split
      · rw [List.take_succ_cons, ih]
      · simp

/-- A host recognises a record as its own only if it wrote that name. -/
theorem first_own (c : Cfg) (p q : Nat) (l : Leader) (hk : hostOf l = key c q)
    (h : strncmpEq 48 l.resourceName.bytes (c.name p) = true) : key c p = key c q := by
  rw [strncmpEq_iff] at h
  unfold hostOf cstr at hk
  rw [hk, takeWhile_take] at h
  unfold key at *
  have h2 := congrArg (List.take 47) h
  rw [List.take_take, List.take_take] at h2
  simp only [Nat.min_eq_left (by omega : (47:Nat) ≤ 48), Nat.min_self] at h2
  exact h2.symm

theorem clk_mono (c : Cfg) (p : Nat) {a b : Nat} (h : a ≤ b) : clk c p a ≤ clk c p b :=
  Nat.div_le_div_right (by omega)

theorem clk_add (c : Cfg) (p t n : Nat) (h : 0 < c.hz) : clk c p (t + n * c.hz) = clk c p t + n := by
  unfold clk
  rw [show t + n * c.hz + c.off p = (t + c.off p) + n * c.hz by omega, Nat.add_mul_div_right _ _ h]

theorem renew_ok {sum space io prevOk last l ck ts ex new}
    (h : renew sum space io prevOk last l ck ts ex = .ok new) :
    l.ownerId = last.ownerId ∧ l.ownerGeneration = last.ownerGeneration ∧
      l.resourceName = last.resourceName ∧ (prevOk = true → l = last) ∧
      new.ownerGeneration = l.ownerGeneration ∧ new.resourceName = l.resourceName ∧
      new.ownerId = l.ownerId ∧ new.timestamp = ts ∧
      (new.ioTimeout = (io &&& 0xFF).toUInt16 ∨ (l.ioTimeout.toUInt32 = io ∧ new.ioTimeout = l.ioTimeout)) := by
  unfold renew at h
  split at h
  · simp at h
  split at h
  · simp at h
  rename_i h2
  split at h
  · simp at h
  rename_i h3
  simp only [not_or, ne_eq, Decidable.not_not] at h2
  simp only [not_and, ne_eq, Decidable.not_not] at h3
  injection h with h
  subst h
  refine ⟨h2.1, h2.2.1, h2.2.2, h3, ?_⟩
  cases ex <;> by_cases hio : l.ioTimeout.toUInt32 = io <;> simp [hio]

/-! ## The invariant -/

/-- Hypotheses on the hosts: clocks run, I/O timeouts fit their one-byte field and are long enough for
`slack`, host names are distinct (in the 47 characters that are stored). -/
structure Sane (c : Cfg) (s0 : State) : Prop where
  hz : 0 < c.hz
  io : ∀ p, 0 < (c.io p).toNat ∧ (c.io p).toNat ≤ 255
  slack : ∀ p, c.slack ≤ 2 * (c.io p).toNat * c.hz
  names : ∀ p q, p < c.hosts → q < c.hosts → key c p = key c q → p = q
  diskIo : s0.disk.ioTimeout = 0 ∨ c.slack ≤ 2 * s0.disk.ioTimeout.toNat * c.hz
  fresh : ∀ p, s0.pc p = .idle
  nowins : s0.wins = []

theorem io_store {io : UInt32} (h : io.toNat ≤ 255) : ((io &&& 0xFF).toUInt16).toNat = io.toNat := by
  have h1 : io &&& 0xFF = io := by
    rw [← UInt32.toNat_inj, UInt32.toNat_and]
    have : (0xFF : UInt32).toNat = 2 ^ 8 - 1 := by decide
    rw [this, Nat.and_two_pow_sub_one_eq_mod, Nat.mod_eq_of_lt (by omega)]
  rw [h1, UInt32.toNat_toUInt16, Nat.mod_eq_of_lt (by omega)]

/-- A record seen at time `t`: the initial one, or one whose timestamp is not ahead of its writer's
clock and which carries its writer's I/O timeout. -/
def RecOk (c : Cfg) (s0 : State) (t : Nat) (l : Leader) : Prop :=
  l = s0.disk ∨ ∃ p, (p < c.hosts ∧ hostOf l = key c p) ∧ l.timestamp.toNat ≤ clk c p t ∧ l.ioTimeout.toNat = (c.io p).toNat

/-- Generations of the joins that have succeeded, and the initial one, are at most `g`. -/
def Best (s0 s : State) (g : Nat) : Prop :=
  s0.disk.ownerGeneration.toNat ≤ g ∧ ∀ w ∈ s.wins, w.2.toNat ≤ g

/-- `g` is more than all of them. -/
def Above (s0 s : State) (g : Nat) : Prop :=
  s0.disk.ownerGeneration.toNat < g ∧ ∀ w ∈ s.wins, w.2.toNat < g

/-- What holds of a host in `delta_lease_acquire`. -/
def PcOk (c : Cfg) (s0 s : State) (q : Nat) : Pc → Prop
  | .idle => True
  | .wait1 seen oio r1 => RecOk c s0 r1 seen ∧ r1 ≤ s.now ∧ oio = otherIo seen (c.io q)
  | .writing base oio r => r ≤ s.now ∧ c.slack ≤ 2 * oio * c.hz ∧
      (Best s0 s base.ownerGeneration.toNat ∨ r + c.slack ≤ s.now)
  | .wait2 new oio b => b ≤ s.now ∧ c.slack ≤ 2 * oio * c.hz ∧ hostOf new = key c q ∧
      new.timestamp.toNat ≤ clk c q b ∧ 0 < new.timestamp.toNat ∧ new.ioTimeout.toNat = (c.io q).toNat ∧
      (s.disk = new → Above s0 s new.ownerGeneration.toNat ∧
        ∀ r, r ≠ q → ∀ base o a, s.pc r = .writing base o a →
          a ≤ b ∨ (base = new ∧ ¬ live c s q new))
  | .holding last _ => (hostOf last = key c q ∧ last.ioTimeout.toNat = (c.io q).toNat) ∧ s0.disk.ownerGeneration.toNat < last.ownerGeneration.toNat ∧
      (live c s q last → hostOf s.disk = key c q ∧ s.disk.ownerGeneration = last.ownerGeneration ∧
        0 < s.disk.timestamp.toNat ∧ last.timestamp.toNat ≤ s.disk.timestamp.toNat ∧
        s.disk.timestamp.toNat ≤ clk c q s.now ∧
        s.disk.ioTimeout.toNat = (c.io q).toNat ∧
        ∀ r, r ≠ q → ∀ base o a, s.pc r = .writing base o a → a + c.slack ≤ s.now)
  | .renewing last cur _ readAt => (hostOf last = key c q ∧ last.ioTimeout.toNat = (c.io q).toNat) ∧
      s0.disk.ownerGeneration.toNat < last.ownerGeneration.toNat ∧
      readAt ≤ s.now ∧
      hostOf cur = key c q ∧ cur.ownerGeneration = last.ownerGeneration ∧
      (live c s q last → hostOf s.disk = key c q ∧ s.disk.ownerGeneration = last.ownerGeneration ∧
        0 < s.disk.timestamp.toNat ∧ last.timestamp.toNat ≤ s.disk.timestamp.toNat ∧
        s.disk.timestamp.toNat ≤ clk c q readAt ∧
        s.disk.ioTimeout.toNat = (c.io q).toNat ∧ s.disk = cur ∧
        ∀ r, r ≠ q → ∀ base o a, s.pc r = .writing base o a → a + c.slack ≤ s.now)

structure Inv (c : Cfg) (s0 s : State) : Prop where
  act : ∀ q, s.pc q ≠ .idle → q < c.hosts
  diskOk : RecOk c s0 s.now s.disk
  best : Best s0 s s.disk.ownerGeneration.toNat
  pcs : ∀ q, PcOk c s0 s q (s.pc q)

theorem recOk_mono {c s0 t t' l} (h : t ≤ t') (hr : RecOk c s0 t l) : RecOk c s0 t' l := by
  rcases hr with h0 | ⟨p, h1, h2, h3⟩
  · exact Or.inl h0
  · exact Or.inr ⟨p, h1, Nat.le_trans h2 (clk_mono c p h), h3⟩

theorem otherIo_slack {c s0} (h : Sane c s0) {t l} (hr : RecOk c s0 t l) (q : Nat) :
    c.slack ≤ 2 * otherIo l (c.io q) * c.hz := by
  unfold otherIo
  split
  · exact h.slack q
  · rename_i hne
    rcases hr with h0 | ⟨p, _, _, h3⟩
    · subst h0
      exact h.diskIo.resolve_left hne
    · rw [h3]; exact h.slack p

theorem inv_init {c s0} (h : Sane c s0) : Inv c s0 s0 where
  act := fun q hq => absurd (h.fresh q) hq
  diskOk := Or.inl rfl
  best := ⟨Nat.le_refl _, by rw [h.nowins]; simp⟩
  pcs := fun q => by rw [h.fresh q]; trivial

/-- The disk record of a live holder. -/
theorem live_disk {c s0 s q last} (hp : PcOk c s0 s q (s.pc q))
    (hpc : (∃ b, s.pc q = .holding last b) ∨ (∃ cur b r, s.pc q = .renewing last cur b r))
    (hl : live c s q last) :
    hostOf s.disk = key c q ∧ s.disk.ownerGeneration = last.ownerGeneration ∧
      0 < s.disk.timestamp.toNat ∧ last.timestamp.toNat ≤ s.disk.timestamp.toNat ∧
      s.disk.ioTimeout.toNat = (c.io q).toNat ∧
      (s0.disk.ownerGeneration.toNat < last.ownerGeneration.toNat) ∧
      ∀ r, r ≠ q → ∀ base o a, s.pc r = .writing base o a → a + c.slack ≤ s.now := by
  rcases hpc with ⟨b, hb⟩ | ⟨cur, b, r, hb⟩
  · rw [hb] at hp
    obtain ⟨_, h2, h3⟩ := hp
    obtain ⟨a1, a2, a3, a4, _, a5, a6⟩ := h3 hl
    exact ⟨a1, a2, a3, a4, a5, h2, a6⟩
  · rw [hb] at hp
    obtain ⟨_, h2, _, _, _, h3⟩ := hp
    obtain ⟨a1, a2, a3, a4, _, a5, _, a6⟩ := h3 hl
    exact ⟨a1, a2, a3, a4, a5, h2, a6⟩

/-- A host that decides to write at this moment has read a record whose owner, if it is `q`, is dead. -/
def NewWriter (c : Cfg) (s0 s : State) (q : Nat) (base : Leader) : Prop :=
  base = s.disk ∧ ∀ last : Leader, q < c.hosts → hostOf s.disk = key c q → 0 < s.disk.timestamp.toNat →
    last.timestamp.toNat ≤ s.disk.timestamp.toNat → s.disk.ioTimeout.toNat = (c.io q).toNat →
    s0.disk.ownerGeneration.toNat < s.disk.ownerGeneration.toNat → ¬ live c s q last

theorem pcOk_frame {c s0 s s'} (q : Nat) (hnow : s'.now = s.now) (hdisk : s'.disk = s.disk)
    (hwins : s'.wins = s.wins)
    (hW : ∀ r base o a, r ≠ q → s'.pc r = .writing base o a →
      s.pc r = .writing base o a ∨ NewWriter c s0 s q base)
    {pc : Pc} (hq : pc ≠ .idle → q < c.hosts) (h : PcOk c s0 s q pc) : PcOk c s0 s' q pc := by
  have hl : ∀ l, live c s' q l ↔ live c s q l := fun l => by simp only [live, hnow]
  cases pc with
  | idle => trivial
  | wait1 seen oio r1 => simpa only [PcOk, hnow] using h
  | writing base oio r => simpa only [PcOk, hnow, Best, hwins] using h
  | wait2 new oio b =>
    obtain ⟨h1, h2, h3, h4, h5, h6, h7⟩ := h
    refine ⟨by rw [hnow]; exact h1, h2, h3, h4, h5, h6, fun hd => ?_⟩
    rw [hdisk] at hd
    obtain ⟨h8, h9⟩ := h7 hd
    refine ⟨⟨h8.1, by rw [hwins]; exact h8.2⟩, fun r hr base o a hpc => ?_⟩
    rcases hW r base o a hr hpc with h10 | ⟨h10, h11⟩
    · rcases h9 r hr base o a h10 with h | ⟨h, h'⟩
      · exact Or.inl h
      · exact Or.inr ⟨h, by rw [hl]; exact h'⟩
    · refine Or.inr ⟨h10.trans hd, ?_⟩
      rw [hl]
      apply h11
      · exact hq (by simp)
      · rw [hd]; exact h3
      · rw [hd]; exact h5
      · rw [hd]; exact Nat.le_refl _
      · rw [hd]; exact h6
      · rw [hd]; exact h8.1
  | holding last ok =>
    obtain ⟨h1, h2, h3⟩ := h
    refine ⟨h1, h2, fun hlv => ?_⟩
    rw [hl] at hlv
    obtain ⟨a1, a2, a3, a4, a5, a6, a7⟩ := h3 hlv
    rw [hdisk, hnow]
    refine ⟨a1, a2, a3, a4, a5, a6, fun r hr base o a hpc => ?_⟩
    rcases hW r base o a hr hpc with h10 | ⟨h10, h11⟩
    · exact a7 r hr base o a h10
    · exact absurd hlv (h11 last (hq (by simp)) a1 a3 a4 a6 (by rw [a2]; exact h2))
  | renewing last cur ok readAt =>
    obtain ⟨h1, h2, hr1, hr2, hr3, h3⟩ := h
    refine ⟨h1, h2, by rw [hnow]; exact hr1, hr2, hr3, fun hlv => ?_⟩
    rw [hl] at hlv
    obtain ⟨a1, a2, a3, a4, a5, a6, a6', a7⟩ := h3 hlv
    rw [hdisk, hnow]
    refine ⟨a1, a2, a3, a4, a5, a6, a6', fun r hr base o a hpc => ?_⟩
    rcases hW r base o a hr hpc with h10 | ⟨h10, h11⟩
    · exact a7 r hr base o a h10
    · exact absurd hlv (h11 last (hq (by simp)) a1 a3 a4 a6 (by rw [a2]; exact h2))

theorem set_pc_self (s : State) (p : Nat) (pc : Pc) : (s.set p pc).pc p = pc := by simp [State.set]

theorem set_pc_ne (s : State) {p q : Nat} (pc : Pc) (h : q ≠ p) : (s.set p pc).pc q = s.pc q := by
  simp [State.set, h]

theorem act_set {c s0 s} (hi : Inv c s0 s) (p : Nat) (pc : Pc) (hact : pc ≠ .idle → p < c.hosts) (q : Nat)
    (hq : (s.set p pc).pc q ≠ .idle) : q < c.hosts := by
  by_cases h : q = p
  · subst h; rw [set_pc_self] at hq; exact hact hq
  · rw [set_pc_ne _ _ h] at hq; exact hi.act q hq

/-- A step that only changes the program point of `p`, not to `writing`. -/
theorem inv_set {c s0 s} (hi : Inv c s0 s) (p : Nat) (pc : Pc) (hact : pc ≠ .idle → p < c.hosts)
    (hnw : ∀ base o a, pc ≠ .writing base o a) (hp : PcOk c s0 s p pc) : Inv c s0 (s.set p pc) := by
  refine ⟨act_set hi p pc hact, hi.diskOk, hi.best, fun q => ?_⟩
  have hW : ∀ r base o a, r ≠ q → (s.set p pc).pc r = .writing base o a →
      s.pc r = .writing base o a ∨ NewWriter c s0 s q base := by
    intro r base o a _ h
    by_cases hrp : r = p
    · rw [hrp, set_pc_self] at h
      exact absurd h (hnw _ _ _)
    · rw [set_pc_ne _ _ hrp] at h; exact Or.inl h
  by_cases hq : q = p
  · subst hq
    rw [set_pc_self]
    exact pcOk_frame (s := s) (s' := s.set q pc) q rfl rfl rfl hW hact hp
  · rw [set_pc_ne _ _ hq]
    exact pcOk_frame (s := s) (s' := s.set p pc) q rfl rfl rfl hW (hi.act q) (hi.pcs q)

/-- A step in which `p` decides to write. -/
theorem inv_decide {c s0 s} (h : Sane c s0) (hi : Inv c s0 s) (p oio : Nat) (hact : p < c.hosts)
    (hs : c.slack ≤ 2 * oio * c.hz)
    (hn : ∀ q, q ≠ p → NewWriter c s0 s q s.disk) :
    Inv c s0 (s.set p (.writing s.disk oio s.now)) := by
  refine ⟨act_set hi p _ fun _ => hact, hi.diskOk, hi.best, fun q => ?_⟩
  have hW : ∀ r base o a, r ≠ q → (s.set p (.writing s.disk oio s.now)).pc r = .writing base o a →
      s.pc r = .writing base o a ∨ NewWriter c s0 s q base := by
    intro r base o a hrq h
    by_cases hrp : r = p
    · rw [hrp, set_pc_self] at h
      injection h with h1 h2 h3
      subst h1
      exact Or.inr (hn q (fun hqp => hrq (hrp.trans hqp.symm)))
    · rw [set_pc_ne _ _ hrp] at h; exact Or.inl h
  by_cases hq : q = p
  · subst hq
    rw [set_pc_self]
    exact ⟨Nat.le_refl _, hs, Or.inl hi.best⟩
  · rw [set_pc_ne _ _ hq]
    exact pcOk_frame (s := s) (s' := s.set p (.writing s.disk oio s.now)) q rfl rfl rfl hW (hi.act q) (hi.pcs q)

theorem second_new {c s0 s} (h : Sane c s0) (p : Nat) {seen : Leader} {oio r1 : Nat}
    (hr : RecOk c s0 r1 seen) (hoio : oio = otherIo seen (c.io p))
    (hw : r1 + largeDelay c.wd oio * c.hz ≤ s.now) (hsec : second seen s.disk = true) (q : Nat) :
    NewWriter c s0 s q s.disk := by
  refine ⟨rfl, fun last h0q h1 h2 h3 h4 h5 hl => ?_⟩
  simp only [second, Bool.or_eq_true, decide_eq_true_eq] at hsec
  rcases hsec with hsec | hsec
  · subst hsec
    rcases hr with h0 | ⟨p', ⟨h0', hp'⟩, hts, _⟩
    · rw [h0] at h5; exact absurd h5 (Nat.lt_irrefl _)
    · have : p' = q := h.names _ _ h0' h0q (by rw [← hp', h1])
      subst this
      have hne : s.disk.ioTimeout ≠ 0 := fun h0 => by
        rw [h0] at h4
        have := (h.io p').1
        simp at h4
        omega
      have hoio' : oio = (c.io p').toNat := by rw [hoio, otherIo, if_neg hne, h4]
      have hc := clk_mono c p' hw
      rw [clk_add _ _ _ _ h.hz, hoio'] at hc
      unfold live at hl
      unfold largeDelay at hc
      omega
  · rw [hsec] at h2
    simp at h2

/-- Changing the record on disk: fine for everyone but the writer unless somebody else holds the id. -/
theorem pcOk_disk {c s0 s s'} (h : Sane c s0) {p q : Nat} (hqp : q ≠ p) (hp0 : p < c.hosts) (hq0 : s.pc q ≠ .idle → q < c.hosts) (hnow : s'.now = s.now)
    (hwins : s'.wins = s.wins) (hk : hostOf s'.disk = key c p)
    (hnl : ∀ last, ((∃ b, s.pc q = .holding last b) ∨ (∃ cur b r, s.pc q = .renewing last cur b r)) →
      ¬ live c s q last)
    (hp : PcOk c s0 s q (s.pc q)) : PcOk c s0 s' q (s.pc q) := by
  have hl : ∀ l, live c s' q l ↔ live c s q l := fun l => by simp only [live, hnow]
  cases hpc : s.pc q with
  | idle => trivial
  | wait1 seen oio r1 => rw [hpc] at hp; simpa only [PcOk, hnow] using hp
  | writing base oio r => rw [hpc] at hp; simpa only [PcOk, hnow, Best, hwins] using hp
  | wait2 new oio b =>
    rw [hpc] at hp
    obtain ⟨h1, h2, h3, h4, h5, h6, h7⟩ := hp
    refine ⟨by rw [hnow]; exact h1, h2, h3, h4, h5, h6, fun hd => ?_⟩
    rw [hd, h3] at hk
    exact absurd (h.names _ _ (hq0 (by rw [hpc]; simp)) hp0 hk) hqp
  | holding last ok =>
    rw [hpc] at hp
    obtain ⟨h1, h2, h3⟩ := hp
    exact ⟨h1, h2, fun hlv => absurd ((hl _).mp hlv) (hnl last (Or.inl ⟨ok, hpc⟩))⟩
  | renewing last cur ok readAt =>
    rw [hpc] at hp
    obtain ⟨h1, h2, hr1, hr2, hr3, h3⟩ := hp
    exact ⟨h1, h2, by rw [hnow]; exact hr1, hr2, hr3,
      fun hlv => absurd ((hl _).mp hlv) (hnl last (Or.inr ⟨cur, ok, readAt, hpc⟩))⟩

theorem toNat_ofNat {n : Nat} (h : n < 2 ^ 64) : (UInt64.ofNat n).toNat = n := by
  rw [UInt64.toNat_ofNat', Nat.mod_eq_of_lt h]

/-- The owner on disk rules out any other live holder. -/
theorem not_live_other {c s0 s} (h : Sane c s0) (hi : Inv c s0 s) {p q : Nat} (hqp : q ≠ p)
    (hp0 : p < c.hosts) (hk : hostOf s.disk = key c p) (last : Leader)
    (hpc : (∃ b, s.pc q = .holding last b) ∨ (∃ cur b r, s.pc q = .renewing last cur b r)) :
    ¬ live c s q last := by
  intro hl
  have := (live_disk (hi.pcs q) hpc hl).1
  have hq0 : q < c.hosts := hi.act q (by rcases hpc with ⟨b, hb⟩ | ⟨cur, b, r, hb⟩ <;> rw [hb] <;> simp)
  exact hqp (h.names _ _ hq0 hp0 (by rw [← this, hk]))

theorem inv_tick {c s0 s} (hi : Inv c s0 s) (d : Nat) : Inv c s0 { s with now := s.now + d } := by
  have hl : ∀ q l, live c { s with now := s.now + d } q l → live c s q l := by
    intro q l hlv
    unfold live at *
    exact Nat.lt_of_le_of_lt (clk_mono c q (Nat.le_add_right _ _)) hlv
  refine ⟨hi.act, recOk_mono (Nat.le_add_right _ _) hi.diskOk, hi.best, fun q => ?_⟩
  have hp := hi.pcs q
  show PcOk c s0 _ q (s.pc q)
  cases hpc : s.pc q with
  | idle => trivial
  | wait1 seen oio r1 =>
    rw [hpc] at hp
    exact ⟨hp.1, Nat.le_add_right_of_le hp.2.1, hp.2.2⟩
  | writing base oio r =>
    rw [hpc] at hp
    exact ⟨Nat.le_add_right_of_le hp.1, hp.2.1, hp.2.2.imp id Nat.le_add_right_of_le⟩
  | wait2 new oio b =>
    rw [hpc] at hp
    obtain ⟨h1, h2, h3, h4, h5, h6, h7⟩ := hp
    refine ⟨Nat.le_add_right_of_le h1, h2, h3, h4, h5, h6, fun hd => ?_⟩
    obtain ⟨h8, h9⟩ := h7 hd
    exact ⟨h8, fun r hr base o a hw => (h9 r hr base o a hw).imp id fun ⟨x, y⟩ => ⟨x, fun z => y (hl _ _ z)⟩⟩
  | holding last ok =>
    rw [hpc] at hp
    obtain ⟨h1, h2, h3⟩ := hp
    refine ⟨h1, h2, fun hlv => ?_⟩
    obtain ⟨a1, a2, a3, a4, a5, a6, a7⟩ := h3 (hl _ _ hlv)
    exact ⟨a1, a2, a3, a4, Nat.le_trans a5 (clk_mono c q (Nat.le_add_right _ _)), a6,
      fun r hr base o a hw => Nat.le_add_right_of_le (a7 r hr base o a hw)⟩
  | renewing last cur ok readAt =>
    rw [hpc] at hp
    obtain ⟨h1, h2, hr1, hr2, hr3, h3⟩ := hp
    refine ⟨h1, h2, Nat.le_add_right_of_le hr1, hr2, hr3, fun hlv => ?_⟩
    obtain ⟨a1, a2, a3, a4, a5, a6, a6', a7⟩ := h3 (hl _ _ hlv)
    exact ⟨a1, a2, a3, a4, a5, a6, a6', fun r hr base o a hw => Nat.le_add_right_of_le (a7 r hr base o a hw)⟩

theorem writing_set {s : State} {p : Nat} {pc : Pc} (hnw : ∀ base o a, pc ≠ .writing base o a)
    {r base o a} (h : (s.set p pc).pc r = .writing base o a) : r ≠ p ∧ s.pc r = .writing base o a := by
  by_cases hrp : r = p
  · rw [hrp, set_pc_self] at h; exact absurd h (hnw _ _ _)
  · rw [set_pc_ne _ _ hrp] at h; exact ⟨hrp, h⟩

/-- A step in which `p` writes a record carrying its name, and nobody else holds the id. -/
theorem inv_write {c s0 s} (h : Sane c s0) (hi : Inv c s0 s) (p : Nat) (pc : Pc) (new : Leader)
    (hp0 : p < c.hosts)
    (hnw : ∀ base o a, pc ≠ .writing base o a) (hk : hostOf new = key c p)
    (hnl : ∀ q, q ≠ p → ∀ last, ((∃ b, s.pc q = .holding last b) ∨
      (∃ cur b r, s.pc q = .renewing last cur b r)) → ¬ live c s q last)
    (hts : new.timestamp.toNat ≤ clk c p s.now) (hio : new.ioTimeout.toNat = (c.io p).toNat)
    (hbest : Best s0 s new.ownerGeneration.toNat)
    (hp : PcOk c s0 ({ s with disk := new }.set p pc) p pc) :
    Inv c s0 ({ s with disk := new }.set p pc) := by
  refine ⟨act_set (s := s) hi p _ fun _ => hp0, Or.inr ⟨p, ⟨hp0, hk⟩, hts, hio⟩, hbest, fun q => ?_⟩
  by_cases hq : q = p
  · subst hq; rw [set_pc_self]; exact hp
  · rw [set_pc_ne _ _ hq]
    exact pcOk_disk (s := s) h hq hp0 (hi.act q) rfl rfl hk (hnl q hq) (hi.pcs q)

theorem inv_step {c s0 s s' a} (h : Sane c s0) (hi : Inv c s0 s) (ha : Allowed c s a)
    (hs : step c s a = some s') : Inv c s0 s' := by
  cases a with
  | tick d =>
    simp only [step, Option.some.injEq] at hs
    subst hs
    exact inv_tick hi d
  | «begin» p =>
    simp only [step] at hs
    split at hs
    case h_2 => simp at hs
    split at hs
    case isFalse => simp at hs
    rename_i hp0
    split at hs
    · rename_i hf
      simp only [Option.some.injEq] at hs
      subst hs
      refine inv_decide h hi p _ hp0 (otherIo_slack h hi.diskOk p) fun q hq => ⟨rfl, fun last h0 h1 h2 _ _ _ _ => ?_⟩
      unfold first at hf
      split at hf
      · rename_i h00; rw [h00] at h2; simp at h2
      · split at hf
        · rename_i h3
          exact hq (h.names _ _ hp0 h0 (first_own c p q _ h1 h3)).symm
        · simp at hf
    · simp only [Option.some.injEq] at hs
      subst hs
      exact inv_set hi p _ (fun _ => hp0) (by simp) ⟨hi.diskOk, Nat.le_refl _, rfl⟩
  | reread p =>
    simp only [step] at hs
    split at hs
    case h_2 => simp at hs
    rename_i seen oio r1 hpc
    have hp0 := hi.act p (by rw [hpc]; simp)
    have hp := hi.pcs p
    rw [hpc] at hp
    obtain ⟨h1, h2, h3⟩ := hp
    split at hs
    · simp at hs
    rename_i hw
    split at hs
    · rename_i hsec
      simp only [Option.some.injEq] at hs
      subst hs
      refine inv_decide h hi p _ hp0 (by rw [h3]; exact otherIo_slack h h1 p) fun q _ => ?_
      exact second_new h p h1 h3 (by omega) hsec q
    · simp only [Option.some.injEq] at hs
      subst hs
      exact inv_set hi p _ (by simp) (by simp) trivial
  | land p t ok =>
    simp only [step] at hs
    split at hs
    case h_2 => simp at hs
    rename_i base oio r hpc
    have hp0 := hi.act p (by rw [hpc]; simp)
    have hp := hi.pcs p
    rw [hpc] at hp
    obtain ⟨h1, h2, h3⟩ := hp
    simp only [Allowed, hpc] at ha
    obtain ⟨a1, a2, a3, a4, a5, a6⟩ := ha
    have hb := h3.resolve_right (by omega)
    have hgen : (base.ownerGeneration + 1).toNat = base.ownerGeneration.toNat + 1 := by
      rw [UInt64.toNat_add]; simp only [UInt64.toNat_one]; omega
    have hts : (newLeader c.sum (c.io p) c.hostId (c.name p) base (UInt64.ofNat (clk c p t))).timestamp.toNat
        = clk c p t := toNat_ofNat a5
    have hio : (newLeader c.sum (c.io p) c.hostId (c.name p) base (UInt64.ofNat (clk c p t))).ioTimeout.toNat
        = (c.io p).toNat := io_store (h.io p).2
    have hgen' : (newLeader c.sum (c.io p) c.hostId (c.name p) base
        (UInt64.ofNat (clk c p t))).ownerGeneration.toNat = base.ownerGeneration.toNat + 1 := hgen
    have hkey : hostOf (newLeader c.sum (c.io p) c.hostId (c.name p) base (UInt64.ofNat (clk c p t))) = key c p :=
      hostOf_new _ _ _ _ _ _
    generalize newLeader c.sum (c.io p) c.hostId (c.name p) base (UInt64.ofNat (clk c p t)) = new at *
    simp only [Option.some.injEq] at hs
    have hnl : ∀ q, q ≠ p → ∀ last, ((∃ b, s.pc q = .holding last b) ∨
        (∃ cur b r, s.pc q = .renewing last cur b r)) → ¬ live c s q last := by
      intro q hq last hh hlv
      have := (live_disk (hi.pcs q) hh hlv).2.2.2.2.2.2 p (Ne.symm hq) _ _ _ hpc
      omega
    have hbest : Best s0 s new.ownerGeneration.toNat := by
      rw [hgen']
      exact ⟨Nat.le_succ_of_le hb.1, fun w hw => Nat.le_succ_of_le (hb.2 w hw)⟩
    have hclk := clk_mono c p a2
    cases ok
    · simp only [Bool.false_eq_true, if_false] at hs
      subst hs
      exact inv_write h hi p _ _ hp0 (by simp) hkey hnl (by rw [hts]; exact hclk) hio hbest trivial
    · simp only [if_true] at hs
      subst hs
      refine inv_write h hi p _ _ hp0 (by simp) hkey hnl (by rw [hts]; exact hclk) hio hbest ?_
      refine ⟨Nat.le_refl _, h2, hkey, by rw [hts]; exact hclk, by rw [hts]; exact a4, hio, fun _ => ⟨?_, ?_⟩⟩
      · rw [hgen']
        exact ⟨Nat.lt_succ_of_le hb.1, fun w hw => Nat.lt_succ_of_le (hb.2 w hw)⟩
      · intro r hr base' o a hw
        have := (writing_set (by simp) hw).2
        have hpr := hi.pcs r
        have e : s.pc r = .writing base' o a := this
        rw [e] at hpr
        exact Or.inl hpr.1
  | check p =>
    simp only [step] at hs
    split at hs
    case h_2 => simp at hs
    rename_i new oio b hpc
    have hp0 := hi.act p (by rw [hpc]; simp)
    have hp := hi.pcs p
    rw [hpc] at hp
    obtain ⟨h1, h2, h3, h4, h5, h6, h7⟩ := hp
    split at hs
    · simp at hs
    rename_i hw
    split at hs
    · rename_i hf
      simp only [final, decide_eq_true_eq] at hf
      obtain ⟨h8, h9⟩ := h7 hf.symm
      simp only [Option.some.injEq] at hs
      subst hs
      refine ⟨act_set (s := s) hi p _ fun _ => hp0, hi.diskOk, ⟨hi.best.1, ?_⟩, fun q => ?_⟩
      · intro w hw'
        simp only [List.mem_cons] at hw'
        rcases hw' with rfl | hw'
        · exact Nat.le_refl _
        · exact hi.best.2 w hw'
      have hd' : hostOf s.disk = key c p := by rw [← hf]; exact h3
      by_cases hq : q = p
      · subst hq
        show PcOk c s0 _ q ((s.set q (.holding s.disk true)).pc q)
        rw [set_pc_self]
        refine ⟨⟨hd', by show s.disk.ioTimeout.toNat = _; rw [← hf]; exact h6⟩, by rw [← hf]; exact h8.1, fun hlv => ⟨hd', rfl, by show 0 < s.disk.timestamp.toNat; rw [← hf]; exact h5, Nat.le_refl _, ?_, by show s.disk.ioTimeout.toNat = _; rw [← hf]; exact h6, ?_⟩⟩
        · show s.disk.timestamp.toNat ≤ clk c q s.now
          rw [← hf]; exact Nat.le_trans h4 (clk_mono c q h1)
        · intro r hr base o a hwr
          have hwr' := (writing_set (s := s) (by simp) hwr).2
          rcases h9 r hr base o a hwr' with hab | ⟨_, hnl⟩
          · show a + c.slack ≤ s.now
            have : a + c.slack ≤ b + 2 * oio * c.hz := by omega
            omega
          · exact absurd (by rw [hf]; exact hlv) hnl
      · show PcOk c s0 _ q ((s.set p (.holding s.disk true)).pc q)
        rw [set_pc_ne _ _ hq]
        have hp := hi.pcs q
        cases hpq : s.pc q with
        | idle => trivial
        | wait1 seen oio r1 => rw [hpq] at hp; exact hp
        | writing base o r =>
          rw [hpq] at hp
          refine ⟨hp.1, hp.2.1, ?_⟩
          rcases h9 q hq base o r hpq with hab | ⟨hb, _⟩
          · exact Or.inr (by show r + c.slack ≤ s.now; have : r + c.slack ≤ b + 2 * oio * c.hz := by omega
                             omega)
          · refine Or.inl ⟨by rw [hb]; exact Nat.le_of_lt h8.1, ?_⟩
            intro w hw'
            simp only [List.mem_cons] at hw'
            rcases hw' with rfl | hw'
            · rw [hb, hf]; exact Nat.le_refl _
            · rw [hb]; exact Nat.le_of_lt (h8.2 w hw')
        | wait2 new' o b' =>
          rw [hpq] at hp
          obtain ⟨k1, k2, k3, k4, k5, k6, _⟩ := hp
          refine ⟨k1, k2, k3, k4, k5, k6, fun hd => ?_⟩
          have hd2 : s.disk = new' := hd
          rw [hd2, k3] at hd'
          exact absurd (h.names _ _ (hi.act q (by rw [hpq]; simp)) hp0 hd') hq
        | holding last ok =>
          have hnl := not_live_other h hi hq hp0 hd' last (Or.inl ⟨ok, hpq⟩)
          rw [hpq] at hp
          exact ⟨hp.1, hp.2.1, fun hlv => absurd hlv hnl⟩
        | renewing last cur ok readAt =>
          have hnl := not_live_other h hi hq hp0 hd' last (Or.inr ⟨cur, ok, readAt, hpq⟩)
          rw [hpq] at hp
          exact ⟨hp.1, hp.2.1, hp.2.2.1, hp.2.2.2.1, hp.2.2.2.2.1, fun hlv => absurd hlv hnl⟩
    · simp only [Option.some.injEq] at hs
      subst hs
      exact inv_set hi p _ (by simp) (by simp) trivial
  | renewRead p =>
    simp only [step] at hs
    split at hs
    case h_2 => simp at hs
    rename_i last ok hpc
    have hp0 := hi.act p (by rw [hpc]; simp)
    have hp := hi.pcs p
    rw [hpc] at hp
    obtain ⟨h1, h2, h3⟩ := hp
    split at hs
    · simp only [Option.some.injEq] at hs
      subst hs
      exact inv_set hi p _ (fun _ => hp0) (by simp) ⟨h1, h2, h3⟩
    · rename_i new hren
      simp only [Option.some.injEq] at hs
      subst hs
      obtain ⟨_, r2, r3, _⟩ := renew_ok hren
      refine inv_set hi p _ (fun _ => hp0) (by simp) ⟨h1, h2, Nat.le_refl _, by rw [hostOf, r3]; exact h1.1, r2, fun hlv => ?_⟩
      obtain ⟨b1, b2, b3, b4, b5, b6, b7⟩ := h3 hlv
      exact ⟨b1, b2, b3, b4, b5, b6, rfl, b7⟩
  | renewLand p t ex res =>
    simp only [step] at hs
    split at hs
    case h_2 => simp at hs
    rename_i last cur ok readAt hpc
    have hp0 := hi.act p (by rw [hpc]; simp)
    have hp := hi.pcs p
    rw [hpc] at hp
    obtain ⟨h1, h2, hr1, hr2, hr3, h3⟩ := hp
    simp only [Allowed, hpc] at ha
    obtain ⟨hlv, a2, a3, a4, a5⟩ := ha
    obtain ⟨b1, b2, b3, b4, b5, b6, b6', b7⟩ := h3 hlv
    split at hs
    · simp at hs
    rename_i new hren
    obtain ⟨_, r2, r3, _, r5, r6, _, r8, r9⟩ := renew_ok hren
    have hkey : hostOf new = key c p := by rw [hostOf, r6]; exact hr2
    have hts : new.timestamp.toNat = clk c p t := by rw [r8]; exact toNat_ofNat a5
    have hio : new.ioTimeout.toNat = (c.io p).toNat := by
      rcases r9 with r9 | ⟨r9, r10⟩
      · rw [r9]; exact io_store (h.io p).2
      · rw [r10, ← b6']; exact b6
    have hbest : Best s0 s new.ownerGeneration.toNat := by rw [r5, hr3, ← b2]; exact hi.best
    have hnl : ∀ q, q ≠ p → ∀ last, ((∃ b, s.pc q = .holding last b) ∨
        (∃ cur b r, s.pc q = .renewing last cur b r)) → ¬ live c s q last :=
      fun q hq last hh => not_live_other h hi hq hp0 b1 last hh
    have hclk := clk_mono c p a2
    have hclk2 := clk_mono c p a3
    cases res
    · simp only [Option.some.injEq] at hs
      subst hs
      refine inv_write h hi p _ _ hp0 (by simp) hkey hnl (by rw [hts]; exact hclk) hio hbest ?_
      refine ⟨⟨hkey, hio⟩, by rw [r5, hr3]; exact h2, fun _ => ⟨hkey, rfl, by show 0 < new.timestamp.toNat; omega,
        Nat.le_refl _, by show new.timestamp.toNat ≤ clk c p s.now; omega, hio, ?_⟩⟩
      intro r hr base o a hw
      exact b7 r hr base o a (writing_set (s := { s with disk := new }) (by simp) hw).2
    · simp only [Option.some.injEq] at hs
      subst hs
      refine inv_write h hi p _ _ hp0 (by simp) hkey hnl (by rw [hts]; exact hclk) hio hbest ?_
      refine ⟨h1, h2, fun _ => ⟨hkey, by show new.ownerGeneration = _; rw [r5, hr3], by show 0 < new.timestamp.toNat; omega,
        by show last.timestamp.toNat ≤ new.timestamp.toNat; omega, by show new.timestamp.toNat ≤ clk c p s.now; omega, hio, ?_⟩⟩
      intro r hr base o a hw
      exact b7 r hr base o a (writing_set (s := { s with disk := new }) (by simp) hw).2
    · simp only [Option.some.injEq] at hs
      subst hs
      refine inv_set hi p _ (fun _ => hp0) (by simp) ⟨h1, h2, fun _ => ⟨b1, b2, b3, b4, Nat.le_trans b5 (clk_mono c p hr1), b6, b7⟩⟩
  | release p =>
    simp only [step] at hs
    split at hs
    case h_2 => simp at hs
    rename_i last hpc
    have hp0 := hi.act p (by rw [hpc]; simp)
    have hp := hi.pcs p
    rw [hpc] at hp
    obtain ⟨h1, h2, h3⟩ := hp
    simp only [Allowed, hpc] at ha
    obtain ⟨b1, b2, b3, b4, b5, b6, b7⟩ := h3 ha
    simp only [Option.some.injEq] at hs
    subst hs
    exact inv_write h hi p _ _ hp0 (by simp) h1.1
      (fun q hq last hh => not_live_other h hi hq hp0 b1 last hh) (Nat.zero_le _) h1.2
      (by rw [show (releaseLeader c.sum last).ownerGeneration = last.ownerGeneration from rfl, ← b2]; exact hi.best) trivial
  | quit p =>
    simp only [step, Option.some.injEq] at hs
    subst hs
    exact inv_set hi p _ (by simp) (by simp) trivial

theorem inv_reach {c s0 s} (h : Sane c s0) (hr : Reach c s0 s) : Inv c s0 s := by
  induction hr with
  | refl => exact inv_init h
  | step _ ha hs ih => exact inv_step h ih ha hs

/-! ## C12 -/

theorem holds_iff {c s p} : Holds c s p ↔
    ∃ last, ((∃ b, s.pc p = .holding last b) ∨ (∃ cur b r, s.pc p = .renewing last cur b r)) ∧
      live c s p last := by
  unfold Holds
  cases h : s.pc p <;> simp

/-- **C12.** At no time do two hosts hold the same host id: whatever the hosts and the interleaving and
timing of their steps, a host that has been told it joined is the only one, until it releases the id or its
watchdog has reset it. -/
theorem one_holder {c s0 s} (h : Sane c s0) (hr : Reach c s0 s) {p q : Nat}
    (hp : Holds c s p) (hq : Holds c s q) : p = q := by
  have hi := inv_reach h hr
  obtain ⟨l1, h1, h2⟩ := holds_iff.mp hp
  obtain ⟨l2, h3, h4⟩ := holds_iff.mp hq
  have e1 := (live_disk (hi.pcs p) h1 h2).1
  have e2 := (live_disk (hi.pcs q) h3 h4).1
  have b1 : p < c.hosts := hi.act p (by rcases h1 with ⟨b, hb⟩ | ⟨cur, b, r, hb⟩ <;> rw [hb] <;> simp)
  have b2 : q < c.hosts := hi.act q (by rcases h3 with ⟨b, hb⟩ | ⟨cur, b, r, hb⟩ <;> rw [hb] <;> simp)
  exact h.names _ _ b1 b2 (by rw [← e1, ← e2])

/-- **C12**, at the moment a host is told it joined: no other host holds the id, and no other host has a
write under way that could still reach the disk and overwrite the winner's record while it is alive. -/
theorem winner_excludes {c s0 s s'} (h : Sane c s0) (hr : Reach c s0 s) {p : Nat}
    (hs : step c s (.check p) = some s') (hw : Holds c s' p) {q : Nat} (hqp : q ≠ p) :
    ¬ Holds c s' q ∧ ∀ t ok, (∃ s'', step c s' (.land q t ok) = some s'') → ¬ Allowed c s' (.land q t ok) := by
  have hr' : Reach c s0 s' := hr.step (a := .check p) trivial hs
  refine ⟨fun hq => hqp (one_holder h hr' hq hw), fun t ok ⟨s'', hl⟩ ha => ?_⟩
  have hi := inv_reach h hr'
  obtain ⟨l1, h1, h2⟩ := holds_iff.mp hw
  simp only [step] at hl
  split at hl
  case h_2 => simp at hl
  rename_i base o a hpc
  have := (live_disk (hi.pcs p) h1 h2).2.2.2.2.2.2 q hqp _ _ _ hpc
  simp only [Allowed, hpc] at ha
  omega

/-! ## C13 -/

theorem wins_step {c s s' a} (hs : step c s a = some s') :
    s'.wins = s.wins ∨ ∃ p new oio b, a = .check p ∧ s.pc p = .wait2 new oio b ∧ s.disk = new ∧
      s'.wins = (p, s.disk.ownerGeneration) :: s.wins ∧ s'.pc p = .holding s.disk true := by
  cases a with
  | check p =>
    simp only [step] at hs
    split at hs
    case h_2 => simp at hs
    rename_i new oio b hpc
    split at hs
    · simp at hs
    split at hs
    · rename_i hf
      simp only [final, decide_eq_true_eq] at hf
      simp only [Option.some.injEq] at hs
      subst hs
      exact Or.inr ⟨p, new, oio, b, rfl, hpc, hf.symm, rfl, by simp [State.set]⟩
    · simp only [Option.some.injEq] at hs
      subst hs; exact Or.inl rfl
  | land p t ok =>
    simp only [step] at hs
    split at hs
    · simp only [Option.some.injEq] at hs
      subst hs
      left; split <;> rfl
    · simp at hs
  | renewLand p t ex res =>
    simp only [step] at hs
    split at hs
    · split at hs
      · simp at hs
      · split at hs <;> · simp only [Option.some.injEq] at hs; subst hs; exact Or.inl rfl
    · simp at hs
  | reread p =>
    simp only [step] at hs
    split at hs
    · split at hs
      · simp at hs
      · split at hs <;> · simp only [Option.some.injEq] at hs; subst hs; exact Or.inl rfl
    · simp at hs
  | renewRead p =>
    simp only [step] at hs
    split at hs
    · split at hs <;> · simp only [Option.some.injEq] at hs; subst hs; exact Or.inl rfl
    · simp at hs
  | «begin» p =>
    simp only [step] at hs
    split at hs
    · split at hs
      case isFalse => simp at hs
      split at hs <;> · simp only [Option.some.injEq] at hs; subst hs; exact Or.inl rfl
    · simp at hs
  | release p =>
    simp only [step] at hs
    split at hs
    · simp only [Option.some.injEq] at hs; subst hs; exact Or.inl rfl
    · simp at hs
  | tick d => simp only [step, Option.some.injEq] at hs; subst hs; exact Or.inl rfl
  | quit p => simp only [step, Option.some.injEq] at hs; subst hs; exact Or.inl rfl

/-- **C13.** The generations returned by the successful joins of a host id grow strictly, and are all
larger than the one found at the beginning. -/
theorem generations_grow {c s0 s} (h : Sane c s0) (hr : Reach c s0 s) :
    s.wins.Pairwise (fun a b => b.2.toNat < a.2.toNat) ∧
      ∀ w ∈ s.wins, s0.disk.ownerGeneration.toNat < w.2.toNat := by
  induction hr with
  | refl => rw [h.nowins]; simp
  | step hr ha hs ih =>
    rcases wins_step hs with hw | ⟨p, new, oio, b, rfl, hpc, hd, hw, _⟩
    · rw [hw]; exact ih
    · have hp := (inv_reach h hr).pcs p
      rw [hpc] at hp
      have hab := (hp.2.2.2.2.2.2 hd).1
      rw [hw, hd]
      refine ⟨List.pairwise_cons.mpr ⟨hab.2, ih.1⟩, ?_⟩
      intro w hw'
      rcases List.mem_cons.mp hw' with rfl | hw'
      · exact hab.1
      · exact ih.2 w hw'

/-- **C13.** What a join writes is the record it read with the generation one larger (and the caller's id,
name, clock and I/O timeout); what it returns when it succeeds is that record. -/
theorem join_generation {c s s' p t} (hs : step c s (.land p t true) = some s') :
    ∃ base oio r new, s.pc p = .writing base oio r ∧ s'.disk = new ∧
      s'.pc p = .wait2 new oio s.now ∧ new.ownerGeneration = base.ownerGeneration + 1 ∧
      new.ownerId = c.hostId ∧ hostOf new = key c p ∧ new.timestamp = UInt64.ofNat (clk c p t) := by
  simp only [step] at hs
  split at hs
  · rename_i base oio r hpc
    simp only [if_true, Option.some.injEq] at hs
    subst hs
    exact ⟨base, oio, r, _, hpc, rfl, by simp [State.set], rfl, rfl, hostOf_new _ _ _ _ _ _, rfl⟩
  · simp at hs

theorem joined_generation {c s s' p b last} (hs : step c s (.check p) = some s')
    (h : s'.pc p = .holding last b) : s.disk = last ∧ s'.disk = last ∧
      ∃ oio r, s.pc p = .wait2 last oio r := by
  simp only [step] at hs
  split at hs
  case h_2 => simp at hs
  rename_i new oio r hpc
  split at hs
  · simp at hs
  split at hs
  · rename_i hf
    simp only [final, decide_eq_true_eq] at hf
    simp only [Option.some.injEq] at hs
    subst hs
    simp [State.set] at h
    exact ⟨h.1, h.1, oio, r, by rw [hpc, hf, h.1]⟩
  · simp only [Option.some.injEq] at hs
    subst hs
    simp [State.set] at h

/-- **C13.** Renewals and releases keep the generation on disk; only joins change it. -/
theorem generation_kept {c s0 s s' a} (h : Sane c s0) (hr : Reach c s0 s) (ha : Allowed c s a)
    (hs : step c s a = some s') (hj : ∀ p t ok, a ≠ .land p t ok) :
    s'.disk.ownerGeneration = s.disk.ownerGeneration := by
  have hi := inv_reach h hr
  cases a with
  | land p t ok => exact absurd rfl (hj p t ok)
  | renewLand p t ex res =>
    simp only [step] at hs
    split at hs
    case h_2 => simp at hs
    rename_i last cur ok readAt hpc
    have hp0 := hi.act p (by rw [hpc]; simp)
    have hp := hi.pcs p
    rw [hpc] at hp
    obtain ⟨h1, h2, hr1, hr2, hr3, h3⟩ := hp
    simp only [Allowed, hpc] at ha
    obtain ⟨b1, b2, _⟩ := h3 ha.1
    split at hs
    · simp at hs
    rename_i new hren
    obtain ⟨_, r2, r3, _, r5, _⟩ := renew_ok hren
    split at hs <;> (simp only [Option.some.injEq] at hs; subst hs)
    · exact r5.trans (hr3.trans b2.symm)
    · exact r5.trans (hr3.trans b2.symm)
    · rfl
  | release p =>
    simp only [step] at hs
    split at hs
    case h_2 => simp at hs
    rename_i last hpc
    have hp := hi.pcs p
    rw [hpc] at hp
    simp only [Allowed, hpc] at ha
    simp only [Option.some.injEq] at hs
    subst hs
    exact (hp.2.2 ha).2.1.symm
  | check p =>
    simp only [step] at hs
    split at hs
    · split at hs
      · simp at hs
      · split at hs <;> · simp only [Option.some.injEq] at hs; subst hs; rfl
    · simp at hs
  | reread p =>
    simp only [step] at hs
    split at hs
    · split at hs
      · simp at hs
      · split at hs <;> · simp only [Option.some.injEq] at hs; subst hs; rfl
    · simp at hs
  | renewRead p =>
    simp only [step] at hs
    split at hs
    · split at hs <;> · simp only [Option.some.injEq] at hs; subst hs; rfl
    · simp at hs
  | «begin» p =>
    simp only [step] at hs
    split at hs
    · split at hs
      case isFalse => simp at hs
      split at hs <;> · simp only [Option.some.injEq] at hs; subst hs; rfl
    · simp at hs
  | tick d => simp only [step, Option.some.injEq] at hs; subst hs; rfl
  | quit p => simp only [step, Option.some.injEq] at hs; subst hs; rfl

/-! ## C14 -/

theorem verifyDelta_ok_or_neg (space : List UInt8) (l : Leader) (ck : UInt32) :
    verifyDelta space l ck = Rv.OK ∨ verifyDelta space l ck < 0 := by
  unfold verifyDelta
  repeat' split
  all_goals first | (left; rfl) | (right; decide)

/-- **C14.** A renewal that finds another owner, generation or host name fails with the documented error
(or, if the record is not even a valid record of the lockspace, with the corresponding one), so that
nothing is written. -/
theorem renew_other_owner (sum space io prevOk last l ck ts ex)
    (h : l.ownerId ≠ last.ownerId ∨ l.ownerGeneration ≠ last.ownerGeneration ∨
      l.resourceName ≠ last.resourceName) :
    renew sum space io prevOk last l ck ts ex =
      .error (if verifyDelta space l ck = Rv.OK then Rv.RENEW_OWNER else verifyDelta space l ck) := by
  unfold renew
  rcases verifyDelta_ok_or_neg space l ck with h1 | h1
  · rw [h1, if_neg (by decide), if_pos h, if_pos rfl]
  · rw [if_pos h1, if_neg (fun h2 => by rw [h2] at h1; exact absurd h1 (by decide))]

/-- **C14.** After a successful renewal any change of the record is an error. -/
theorem renew_changed (sum space io last l ck ts ex) (h : l ≠ last) :
    ∃ rv, renew sum space io true last l ck ts ex = .error rv ∧
      (verifyDelta space l ck = Rv.OK → rv = Rv.RENEW_OWNER ∨ rv = Rv.RENEW_DIFF) ∧
      (verifyDelta space l ck ≠ Rv.OK → rv = verifyDelta space l ck) := by
  unfold renew
  rcases verifyDelta_ok_or_neg space l ck with h1 | h1
  · rw [h1, if_neg (by decide)]
    by_cases h2 : l.ownerId ≠ last.ownerId ∨ l.ownerGeneration ≠ last.ownerGeneration ∨
        l.resourceName ≠ last.resourceName
    · rw [if_pos h2]; exact ⟨_, rfl, fun _ => Or.inl rfl, fun h => absurd rfl h⟩
    · rw [if_neg h2, if_pos ⟨rfl, h⟩]; exact ⟨_, rfl, fun _ => Or.inr rfl, fun h => absurd rfl h⟩
  · rw [if_pos h1]
    exact ⟨_, rfl, fun h2 => by rw [h2] at h1; exact absurd h1 (by decide), fun _ => rfl⟩

/-- **C14**, conversely: an unchanged record is renewed, keeping everything but the timestamp, the
I/O timeout, the three fields reserved for the main loop and the checksum. -/
theorem renew_unchanged (sum space io prevOk last ck ts ex) (h : verifyDelta space last ck = Rv.OK) :
    ∃ new, renew sum space io prevOk last last ck ts ex = .ok new ∧ new.timestamp = ts ∧
      new.ownerId = last.ownerId ∧ new.ownerGeneration = last.ownerGeneration ∧
      new.resourceName = last.resourceName ∧ new.spaceName = last.spaceName ∧ new.magic = last.magic ∧
      new.version = last.version := by
  unfold renew
  rw [h, if_neg (by decide), if_neg (by simp), if_neg (by simp)]
  refine ⟨_, rfl, ?_⟩
  cases ex <;> by_cases hio : last.ioTimeout.toUInt32 = io <;> simp [hio]

/-- **C14.** In the system: a holder that finds such a record writes nothing and stays without a successful
renewal. -/
theorem renew_refused {c s s' p last prevOk} (hpc : s.pc p = .holding last prevOk)
    (hs : step c s (.renewRead p) = some s')
    (h : s.disk.ownerId ≠ last.ownerId ∨ s.disk.ownerGeneration ≠ last.ownerGeneration ∨
      s.disk.resourceName ≠ last.resourceName ∨ (prevOk = true ∧ s.disk ≠ last)) :
    s'.disk = s.disk ∧ s'.pc p = .holding last false := by
  have herr : ∃ rv, renew c.sum c.space (c.io p) prevOk last s.disk s.disk.checksum 0 none = .error rv := by
    by_cases h1 : s.disk.ownerId ≠ last.ownerId ∨ s.disk.ownerGeneration ≠ last.ownerGeneration ∨
        s.disk.resourceName ≠ last.resourceName
    · exact ⟨_, renew_other_owner _ _ _ _ _ _ _ _ _ h1⟩
    · have h2 : prevOk = true ∧ s.disk ≠ last := by
        rcases h with h | h | h | h
        · exact absurd (Or.inl h) h1
        · exact absurd (Or.inr (Or.inl h)) h1
        · exact absurd (Or.inr (Or.inr h)) h1
        · exact h
      rw [h2.1]
      obtain ⟨rv, h3, _⟩ := renew_changed c.sum c.space (c.io p) last s.disk s.disk.checksum 0 none h2.2
      exact ⟨rv, h3⟩
  obtain ⟨rv, herr⟩ := herr
  simp only [step, hpc, herr, Option.some.injEq] at hs
  subst hs
  exact ⟨rfl, set_pc_self _ _ _⟩

/-! ## Examples and violations -/

instance (c : Cfg) (s : State) (p : Nat) : Decidable (Holds c s p) := by
  unfold Holds; split <;> infer_instance

instance (c : Cfg) (s : State) (a : Act) : Decidable (Allowed c s a) := by
  cases a <;> simp only [Allowed] <;> (try split) <;> infer_instance

/-- Execute with the assumptions checked. -/
def runAllowed (c : Cfg) (s : State) : List Act → Option State
  | [] => some s
  | a :: rest => if Allowed c s a then (step c s a).bind fun s' => runAllowed c s' rest else none

theorem reach_run {c s0 s s'} (hr : Reach c s0 s) (l : List Act) (h : runAllowed c s l = some s') :
    Reach c s0 s' := by
  induction l generalizing s with
  | nil => simp only [runAllowed, Option.some.injEq] at h; subst h; exact hr
  | cons a l ih =>
    simp only [runAllowed] at h
    split at h
    · rename_i ha
      cases hs : step c s a with
      | none => rw [hs] at h; simp at h
      | some s1 => rw [hs] at h; exact ih (hr.step ha hs) h
    · simp at h

/-- Three hosts with I/O timeout 10, watchdog timeout 60; clocks in seconds. -/
def exCfg : Cfg where
  hosts := 3
  hz := 1
  off := fun p => 5 * p + 1
  io := fun _ => 10
  name := fun p => [UInt8.ofNat (p + 65)]
  wd := 60
  hostId := 7
  sum := fun _ => 0
  space := [76]
  slack := 20

/-- A host lease as initialised (`delta_lease_init`) with I/O timeout `io`. -/
def exDisk (io : UInt16) : Leader :=
  { exLeader with
    magic := deltaMagic
    version := 0x00030004
    spaceName := getName 0 [76]
    resourceName := getName 0 []
    timestamp := 0
    ownerGeneration := 0
    ioTimeout := io
    checksum := 0 }

def exInit (io : UInt16) : State := ⟨0, exDisk io, fun _ => .idle, []⟩

/-- The hypotheses of the theorems can be met. -/
example : Sane exCfg (exInit 10) where
  hz := by decide
  io := fun _ => by show 0 < (10 : UInt32).toNat ∧ (10 : UInt32).toNat ≤ 255; decide
  slack := fun _ => by show 20 ≤ 2 * (10 : UInt32).toNat * 1; decide
  names := by
    intro p q hp hq
    have h3 : exCfg.hosts = 3 := rfl
    rw [h3] at hp hq
    have : p = 0 ∨ p = 1 ∨ p = 2 := by omega
    have : q = 0 ∨ q = 1 ∨ q = 2 := by omega
    rcases ‹p = 0 ∨ _› with rfl | rfl | rfl <;> rcases ‹q = 0 ∨ _› with rfl | rfl | rfl <;> decide
  diskIo := by decide
  fresh := fun _ => rfl
  nowins := rfl

/-- Both hosts read the free lease; host 1 writes last; only host 1 gets it, then renews twice. -/
def exRace : List Act :=
  [.begin 0, .begin 1, .tick 5, .land 0 4 true, .tick 10, .land 1 15 true, .tick 10, .check 0, .tick 11,
   .check 1, .tick 5, .renewRead 1, .renewLand 1 41 none .ok, .tick 20, .renewRead 1,
   .renewLand 1 61 (some ⟨1, 2, 3⟩) .ok]

/-- An execution under the assumptions in which a host wins against another and renews. -/
example : (runAllowed exCfg (exInit 10) exRace).any (fun s =>
    decide (Holds exCfg s 1 ∧ ¬ Holds exCfg s 0 ∧ s.wins = [(1, 1)] ∧ s.disk.ownerGeneration = 1)) = true := by
  decide +kernel

/-- Host 1 takes over the id after host 0 has died; the generation grows. -/
example : (runAllowed exCfg (exInit 10)
    [.begin 0, .land 0 0 true, .tick 20, .check 0, .tick 5, .begin 1, .tick 140, .reread 1, .land 1 165 true,
     .tick 20, .check 1]).any (fun s =>
    decide (Holds exCfg s 1 ∧ ¬ Holds exCfg s 0 ∧ s.wins = [(1, 2), (0, 1)])) = true := by
  decide +kernel

/-- Renewal of a record taken over by another host. -/
example : renew (fun _ => 0) [76] 10 true (exDisk 10) { exDisk 10 with ownerGeneration := 5 } 0 3 none =
    .error Rv.RENEW_OWNER := by rfl

example : renew (fun _ => 0) [76] 10 true (exDisk 10) { exDisk 10 with timestamp := 5 } 0 3 none =
    .error Rv.RENEW_DIFF := by rfl

/-- **The condition on `slack` is needed and the code does not ensure it.** The short delay is twice the
I/O timeout found on disk, not that of the competing hosts.  With 1 on disk and 10 configured on both
hosts, a write that takes nine seconds (less than the I/O timeout) makes both hosts succeed. -/
theorem mixed_io_timeouts_violated :
    (run exCfg (exInit 1)
      [.begin 0, .begin 1, .land 0 0 true, .tick 2, .check 0, .tick 7, .land 1 9 true, .tick 2, .check 1]).any
      (fun s => decide (Holds exCfg s 0 ∧ Holds exCfg s 1)) = true := by decide +kernel

/-- **Release does not check ownership.** `delta_lease_release` writes without reading.  If the write of a
host that has stopped being watched (the watchdog connection is closed before, lockspace.c:990-996) is
delayed until another host has taken the id, it frees that host's lease: a third host joins at once. -/
theorem late_release_violated :
    (run exCfg (exInit 10)
      [.begin 0, .land 0 0 true, .tick 20, .check 0, .tick 5, .begin 1, .tick 140, .reread 1, .land 1 165 true,
       .tick 20, .check 1, .release 0, .begin 2, .land 2 185 true, .tick 20, .check 2]).any
      (fun s => decide (Holds exCfg s 1 ∧ Holds exCfg s 2 ∧ s.wins = [(2, 2), (1, 2), (0, 1)])) = true := by
  decide +kernel

end Sanlock.Delta
