import Verif.Lemmas.LeaseInv

/-!
# Invariant: no host holds the lease exclusively while another shares it
-/

namespace Sanlock.Lease

open Sanlock.Ballot (Blk Cfg WriteRes Pc Vote Done)

/-- What is known of a host `p` that shares the lease with record `l`. -/
structure ShrOk (s : State) (p : Nat) (l : Rec) : Prop where
  mark : s.mark p = some (s.host p).gen
  ok : RecOk s.B.log l
  pos : 0 < l.lver
  owner : l.owner = p + 1
  le : l.lver ≤ s.ldr.lver

/-- The counter of shared markers. -/
def CntOk (h : Host) (q : Nat) : Prop :=
  (∀ p, h.saw p = true → 0 < h.cnt) ∧ (∀ l, h.ph.mode? = some (.conv l) → ∀ p, p ≠ q → h.saw p = true → 2 ≤ h.cnt)

/-- Every other host sharing the lease with a version up to `v` has been seen. -/
def SawAll (s : State) (q v : Nat) : Prop :=
  ∀ p l, p ≠ q → (s.host p).ph.shares? = some l → l.lver ≤ v → (s.host q).saw p = true

/-- Markers in the buffer being read. -/
def BufOk (s : State) (q v : Nat) (buf : Nat → Option Blk) : Prop :=
  ∀ p l, (s.host p).ph.shares? = some l → (p = q ∨ l.lver ≤ v) → buf p ≠ none → (s.host q).mbuf p = true

/-- Where a ballot is. -/
def PcOk (s : State) (q v : Nat) : Pc → Prop
  | .read1 0 _ r buf _ => r = [] ∧ BufOk s q v buf
  | .read1 (_ + 1) _ r _ _ => r ≠ [] → SawAll s q v
  | .write2 .. => (s.host q).voted = true
  | .read2 .. => (s.host q).voted = true
  | .won .. => (s.host q).voted = true
  | _ => True

/-- Nobody but `q` with an index below `i` shares the lease. -/
def NoneBelow (s : State) (q i : Nat) : Prop := ∀ p, p < i → p ≠ q → (s.host p).ph.shares? = none

def OthersSeen (s : State) (q : Nat) : Prop := ∀ p, p ≠ q → (s.host p).ph.shares? ≠ none → (s.host q).saw p = true

def NoOther (s : State) (q : Nat) : Prop := ∀ p, p ≠ q → (s.host p).ph.shares? = none

def SPhOk (s : State) (q : Nat) : Ph → Prop
  | .wait _ _ _ => (s.host q).voted = false
  | .run _ cur _ _ => (s.host q).voted = true → SawAll s q cur.lver
  | .ballot _ cur _ => ((s.host q).voted = true → SawAll s q cur.lver) ∧ PcOk s q cur.lver (s.B.proc q).pc
  | .granted _ _ => OthersSeen s q
  | .clear _ _ i live => OthersSeen s q ∧ (live = false → NoneBelow s q i)
  | .clearW _ _ i live => OthersSeen s q ∧ (s.host i).ph.shares? = none ∧ (live = false → NoneBelow s q i)
  | .doMb _ => NoOther s q
  | .heldX _ => NoOther s q
  | _ => True

structure HS (s : State) (q : Nat) : Prop where
  ph : SPhOk s q (s.host q).ph
  own : ∀ l, (s.host q).ph.own? = some l → RecOk s.B.log l ∧ l.owner = q + 1
  cnt : CntOk (s.host q) q

structure Inv2 (s : State) : Prop where
  gen : ∀ p, (s.host p).alive = true → 0 < (s.host p).gen
  shr : ∀ p l, (s.host p).ph.shares? = some l → ShrOk s p l
  host : ∀ q, HS s q

theorem inv2_init : Inv2 init := by
  refine ⟨?_, ?_, fun q => ⟨?_, ?_, ?_, ?_⟩⟩ <;> simp [init, Ph.shares?, SPhOk, Ph.mode?, Ph.own?]

/-- A host that takes no part in a step. -/
structure Same (s s' : State) (q : Nat) : Prop where
  ph : (s'.host q).ph = (s.host q).ph
  voted : (s'.host q).voted = (s.host q).voted
  saw : (s'.host q).saw = (s.host q).saw
  mbuf : (s'.host q).mbuf = (s.host q).mbuf
  cnt : (s'.host q).cnt = (s.host q).cnt
  gen : (s'.host q).gen = (s.host q).gen
  alive : (s'.host q).alive = (s.host q).alive
  pc : (s'.B.proc q).pc = (s.B.proc q).pc

/-- A host that begins to share the lease with version `v`: nobody owns it, and no ballot is based on a version that large. -/
def Fresh (s : State) (a v : Nat) : Prop :=
  ∀ q, q ≠ a → (s.host q).ph.own? = none ∧ ∀ m cur, ((∃ mb cp, (s.host q).ph = .run m cur mb cp) ∨ (∃ mb, (s.host q).ph = .ballot m cur mb)) →
    cur.lver < v

theorem hs_mono {s s' : State} {q a : Nat} (hq : q ≠ a) (hs : Same s s' q) (hlog : ∀ e ∈ s.B.log, e ∈ s'.B.log)
    (hsh : ∀ p l, (s'.host p).ph.shares? = some l → (s.host p).ph.shares? = some l ∨ (p = a ∧ Fresh s a l.lver))
    (h : HS s q) : HS s' q := by
  refine ⟨?_, fun l hl => ?_, ?_⟩
  · have hp := h.ph
    have hno : (s.host q).ph.own? ≠ none → ∀ p l, (s'.host p).ph.shares? = some l → (s.host p).ph.shares? = some l := by
      intro ho p l hpl
      rcases hsh p l hpl with h1 | ⟨_, h1⟩
      · exact h1
      · exact absurd (h1 q hq).1 ho
    have hnone : (s.host q).ph.own? ≠ none → ∀ p, (s.host p).ph.shares? = none → (s'.host p).ph.shares? = none := by
      intro ho p hp
      cases hx : (s'.host p).ph.shares? with
      | none => rfl
      | some l => rw [hno ho p l hx] at hp; simp at hp
    have hsaw : ∀ m cur, ((∃ mb cp, (s.host q).ph = .run m cur mb cp) ∨ (∃ mb, (s.host q).ph = .ballot m cur mb)) →
        SawAll s q cur.lver → SawAll s' q cur.lver := by
      intro m cur hc h1 p l hpq hpl hle
      rw [hs.saw]
      rcases hsh p l hpl with h2 | ⟨_, h2⟩
      · exact h1 p l hpq h2 hle
      · have := (h2 q hq).2 m cur hc; omega
    have hoth : (s.host q).ph.own? ≠ none → OthersSeen s q → OthersSeen s' q := by
      intro ho h1 p hpq hpl
      rw [hs.saw]
      cases hx : (s'.host p).ph.shares? with
      | none => exact absurd hx hpl
      | some l => exact h1 p hpq (by rw [hno ho p l hx]; simp)
    have hbelow : (s.host q).ph.own? ≠ none → ∀ i, NoneBelow s q i → NoneBelow s' q i :=
      fun ho i h1 p hpi hpq => hnone ho p (h1 p hpi hpq)
    have hother : (s.host q).ph.own? ≠ none → NoOther s q → NoOther s' q :=
      fun ho h1 p hpq => hnone ho p (h1 p hpq)
    rw [hs.ph]
    have hv := hs.voted
    have hpc := hs.pc
    generalize hph : (s.host q).ph = ph at hp hno hnone hsaw hoth hbelow hother
    cases ph with
    | wait m cur mx => simp only [SPhOk] at hp ⊢; rw [hv]; exact hp
    | run m cur mb cp => simp only [SPhOk] at hp ⊢; rw [hv]; exact fun h1 => hsaw m cur (.inl ⟨_, _, rfl⟩) (hp h1)
    | ballot m cur mb =>
      obtain ⟨h1, h2⟩ := hp
      have hsaw := hsaw m cur (.inr ⟨_, rfl⟩)
      refine ⟨by rw [hv]; exact fun h3 => hsaw (h1 h3), ?_⟩
      rw [hpc]
      generalize (s.B.proc q).pc = pc at h2
      cases pc with
      | read1 d w r buf mx =>
        cases d with
        | zero =>
          refine ⟨h2.1, ?_⟩
          intro p l hpl hor hb
          rw [hs.mbuf]
          rcases hsh p l hpl with h3 | ⟨h3, h4⟩
          · exact h2.2 p l h3 hor hb
          · exfalso
            rcases hor with h5 | h5
            · exact hq (by rw [← h5, h3])
            · have := (h4 q hq).2 m cur (.inr ⟨_, hph⟩); omega
        | succ d => exact fun h3 => hsaw (h2 h3)
      | write2 d w1 w => simp only [PcOk] at h2 ⊢; rw [hv]; exact h2
      | read2 d w1 w r buf => simp only [PcOk] at h2 ⊢; rw [hv]; exact h2
      | won w1 w => simp only [PcOk] at h2 ⊢; rw [hv]; exact h2
      | _ => trivial
    | granted m l => exact hoth (by simp [Ph.own?]) hp
    | clear m l i live =>
      exact ⟨hoth (by simp [Ph.own?]) hp.1, fun h1 => hbelow (by simp [Ph.own?]) i (hp.2 h1)⟩
    | clearW m l i live =>
      exact ⟨hoth (by simp [Ph.own?]) hp.1, hnone (by simp [Ph.own?]) i hp.2.1, fun h1 => hbelow (by simp [Ph.own?]) i (hp.2.2 h1)⟩
    | doMb l => exact hother (by simp [Ph.own?]) hp
    | heldX l => exact hother (by simp [Ph.own?]) hp
    | _ => trivial
  · rw [hs.ph] at hl
    exact ⟨recOk_mono hlog (h.own l hl).1, (h.own l hl).2⟩
  · obtain ⟨h1, h2⟩ := h.cnt
    refine ⟨?_, ?_⟩
    · rw [hs.saw, hs.cnt]; exact h1
    · rw [hs.saw, hs.cnt, hs.ph]; exact h2

/-- A step of host `a`. -/
theorem inv2_of {s s' : State} {a : Nat} (h : Inv2 s) (hsame : ∀ q, q ≠ a → Same s s' q)
    (hmark : ∀ q, q ≠ a → (s.host q).ph.shares? ≠ none → s'.mark q = s.mark q)
    (hlog : ∀ e ∈ s.B.log, e ∈ s'.B.log) (hlver : s.ldr.lver ≤ s'.ldr.lver)
    (hgen : (s'.host a).alive = true → 0 < (s'.host a).gen)
    (hsh : ∀ l, (s'.host a).ph.shares? = some l →
      ((s.host a).ph.shares? = some l ∧ s'.mark a = some (s'.host a).gen) ∨ (Fresh s a l.lver ∧ ShrOk s' a l))
    (ha : HS s' a) : Inv2 s' := by
  have hshr : ∀ p l, (s'.host p).ph.shares? = some l → (s.host p).ph.shares? = some l ∨ (p = a ∧ Fresh s a l.lver) := by
    intro p l hpl
    by_cases hp : p = a
    · subst hp
      rcases hsh l hpl with h1 | h1
      · exact .inl h1.1
      · exact .inr ⟨rfl, h1.1⟩
    · rw [(hsame p hp).ph] at hpl; exact .inl hpl
  refine ⟨?_, ?_, ?_⟩
  · intro p hp
    by_cases hpa : p = a
    · rw [hpa] at hp ⊢; exact hgen hp
    · rw [(hsame p hpa).alive] at hp
      rw [(hsame p hpa).gen]; exact h.gen p hp
  · intro p l hpl
    have keep : ∀ mk, (s.host p).ph.shares? = some l → s'.mark p = mk → mk = some (s'.host p).gen → ShrOk s' p l := by
      intro mk h1 h2 h3
      have h4 := h.shr p l h1
      exact ⟨by rw [h2, h3], recOk_mono hlog h4.ok, h4.pos, h4.owner, Nat.le_trans h4.le hlver⟩
    by_cases hpa : p = a
    · subst hpa
      rcases hsh l hpl with h1 | h1
      · exact keep _ h1.1 rfl h1.2
      · exact h1.2
    · rw [(hsame p hpa).ph] at hpl
      refine keep _ hpl (hmark p hpa (by rw [hpl]; simp)) ?_
      rw [(h.shr p l hpl).mark, (hsame p hpa).gen]
  · intro q
    by_cases hqa : q = a
    · rw [hqa]; exact ha
    · exact hs_mono hqa (hsame q hqa) hlog hshr (h.host q)

/-! ## Frames -/

theorem sawAll_oth {s s' : State} {a v : Nat} (ho : ∀ p, p ≠ a → (s'.host p).ph = (s.host p).ph)
    (hs : (s'.host a).saw = (s.host a).saw) (h : SawAll s a v) : SawAll s' a v := by
  intro p l hp hl hv; rw [hs]; rw [ho p hp] at hl; exact h p l hp hl hv

theorem othersSeen_oth {s s' : State} {a : Nat} (ho : ∀ p, p ≠ a → (s'.host p).ph = (s.host p).ph)
    (hs : (s'.host a).saw = (s.host a).saw) (h : OthersSeen s a) : OthersSeen s' a := by
  intro p hp hl; rw [hs]; rw [ho p hp] at hl; exact h p hp hl

theorem noneBelow_oth {s s' : State} {a i : Nat} (ho : ∀ p, p ≠ a → (s'.host p).ph = (s.host p).ph)
    (h : NoneBelow s a i) : NoneBelow s' a i := by
  intro p hp hl; rw [ho p hl]; exact h p hp hl

theorem noOther_oth {s s' : State} {a : Nat} (ho : ∀ p, p ≠ a → (s'.host p).ph = (s.host p).ph)
    (h : NoOther s a) : NoOther s' a := by
  intro p hp; rw [ho p hp]; exact h p hp

/-- A step of host `a` that does not begin sharing and does not change what it has seen. -/
theorem inv2_move {s s' : State} {a : Nat} {ph : Ph} (h : Inv2 s) (hsame : ∀ q, q ≠ a → Same s s' q)
    (hmark : ∀ q, q ≠ a → (s.host q).ph.shares? ≠ none → s'.mark q = s.mark q)
    (hlog : ∀ e ∈ s.B.log, e ∈ s'.B.log) (hlver : s.ldr.lver ≤ s'.ldr.lver)
    (hph : (s'.host a).ph = ph) (hgen : (s'.host a).gen = (s.host a).gen) (hal : (s'.host a).alive = (s.host a).alive)
    (hsaw : (s'.host a).saw = (s.host a).saw) (hcnt : (s'.host a).cnt = (s.host a).cnt)
    (hmode : ∀ l, ph.mode? = some (.conv l) → ∃ l', (s.host a).ph.mode? = some (.conv l'))
    (hsh : ∀ l, ph.shares? = some l → (s.host a).ph.shares? = some l ∧ s'.mark a = s.mark a)
    (hown : ∀ l, ph.own? = some l → (s.host a).ph.own? = some l ∨ (RecOk s'.B.log l ∧ l.owner = a + 1))
    (hp : SPhOk s' a ph) : Inv2 s' := by
  refine inv2_of h hsame hmark hlog hlver (by rw [hal, hgen]; exact h.gen a) ?_ ⟨by rw [hph]; exact hp, ?_, ?_, ?_⟩
  · intro l hl
    rw [hph] at hl
    obtain ⟨h1, h2⟩ := hsh l hl
    exact .inl ⟨h1, by rw [h2, hgen]; exact (h.shr a l h1).mark⟩
  · intro l hl
    rw [hph] at hl
    rcases hown l hl with h1 | h1
    · exact ⟨recOk_mono hlog ((h.host a).own l h1).1, ((h.host a).own l h1).2⟩
    · exact h1
  · rw [hsaw, hcnt]; exact (h.host a).cnt.1
  · rw [hsaw, hcnt, hph]
    intro l hl
    obtain ⟨l', hl'⟩ := hmode l hl
    exact (h.host a).cnt.2 l' hl'

theorem same_setHost (s : State) (a : Nat) (h' : Host) (q : Nat) (hq : q ≠ a) : Same s (s.setHost a h') q := by
  constructor <;> simp [State.setHost, upd_apply, hq]

theorem inv2_setPh {s : State} {a : Nat} {ph : Ph} (h : Inv2 s)
    (hmode : ∀ l, ph.mode? = some (.conv l) → ∃ l', (s.host a).ph.mode? = some (.conv l'))
    (hsh : ∀ l, ph.shares? = some l → (s.host a).ph.shares? = some l)
    (hown : ∀ l, ph.own? = some l → (s.host a).ph.own? = some l)
    (hp : SPhOk (s.setPh a ph) a ph) : Inv2 (s.setPh a ph) :=
  inv2_move h (fun q hq => same_setHost s a _ q hq) (fun _ _ _ => rfl) (fun _ h => h) (Nat.le_refl _) (by simp [State.setPh, State.setHost])
    (by simp [State.setPh, State.setHost]) (by simp [State.setPh, State.setHost]) (by simp [State.setPh, State.setHost])
    (by simp [State.setPh, State.setHost]) hmode (fun l hl => ⟨hsh l hl, rfl⟩) (fun l hl => .inl (hown l hl)) hp

theorem setPh_oth (s : State) (a : Nat) (ph : Ph) (p : Nat) (hp : p ≠ a) : ((s.setPh a ph).host p).ph = (s.host p).ph := by
  simp [State.setPh, State.setHost, upd_apply, hp]

theorem setPh_self (s : State) (a : Nat) (ph : Ph) : (s.setPh a ph).host a = { s.host a with ph := ph } := by
  simp [State.setPh, State.setHost]

/-- Leaving a ballot. -/
theorem inv2_leave {s : State} {a : Nat} {ph : Ph} (h : Inv2 s)
    (hmode : ∀ l, ph.mode? = some (.conv l) → ∃ l', (s.host a).ph.mode? = some (.conv l'))
    (hsh : ∀ l, ph.shares? = some l → (s.host a).ph.shares? = some l) (hown : ph.own? = none)
    (hp : SPhOk ({ s with B := s.B.setPc a .idle }.setPh a ph) a ph) : Inv2 ({ s with B := s.B.setPc a .idle }.setPh a ph) := by
  refine inv2_move h (fun q hq => ?_) (fun _ _ _ => rfl) (fun _ h => h) (Nat.le_refl _) (by simp [State.setPh, State.setHost])
    (by simp [State.setPh, State.setHost]) (by simp [State.setPh, State.setHost]) (by simp [State.setPh, State.setHost])
    (by simp [State.setPh, State.setHost]) hmode (fun l hl => ⟨hsh l hl, rfl⟩) (fun l hl => by rw [hown] at hl; simp at hl) hp
  constructor <;> simp [State.setPh, State.setHost, upd_apply, hq, Ballot.State.setPc, Ballot.State.setProc]

theorem ownWrite_facts (s : State) (p v : Nat) (fl : Bool) (mk : Option Nat) (w : Wr) (ph : Ph) :
    (∀ q, q ≠ p → Same s (ownWrite s p v fl mk w ph) q) ∧ (∀ q, q ≠ p → (ownWrite s p v fl mk w ph).mark q = s.mark q) ∧
    (ownWrite s p v fl mk w ph).B.log = s.B.log ∧ (ownWrite s p v fl mk w ph).ldr = s.ldr ∧
    ((ownWrite s p v fl mk w ph).host p).ph = ph ∧
    ((ownWrite s p v fl mk w ph).host p).gen = (s.host p).gen ∧ ((ownWrite s p v fl mk w ph).host p).alive = (s.host p).alive ∧
    ((ownWrite s p v fl mk w ph).host p).saw = (s.host p).saw ∧ ((ownWrite s p v fl mk w ph).host p).cnt = (s.host p).cnt := by
  simp only [ownWrite, State.putOwn, State.raise, setHost_host, if_true]
  refine ⟨fun q hq => ?_, fun q hq => ?_, ?_, ?_, ?_, ?_, ?_, ?_, ?_⟩
  · split
    · split <;> constructor <;> simp [State.setPh, State.setHost, State.putBlk, Ballot.State.setDisk, upd_apply, hq]
    · constructor <;> simp [State.setPh, State.setHost, upd_apply, hq]
  all_goals
    split
    · split <;> simp +contextual [State.setPh, State.setHost, State.putBlk, Ballot.State.setDisk, upd_apply, *]
    · simp [State.setPh, State.setHost, upd_apply]

/-- A host writes its own block and does not share the lease any more, or never did. -/
theorem inv2_ownWrite {s : State} {p v : Nat} {fl : Bool} {mk : Option Nat} {w : Wr} {ph : Ph} (h : Inv2 s)
    (hmode : ph.mode? = none) (hsh : ph.shares? = none) (hown : ∀ l, ph.own? = some l → (s.host p).ph.own? = some l)
    (hp : SPhOk (ownWrite s p v fl mk w ph) p ph) : Inv2 (ownWrite s p v fl mk w ph) := by
  obtain ⟨h1, h2, h3, h4, h5, h6, h7, h8, h9⟩ := ownWrite_facts s p v fl mk w ph
  exact inv2_move h h1 (fun q hq _ => h2 q hq) (by rw [h3]; exact fun _ h => h) (by rw [h4]; exact Nat.le_refl _) h5 h6 h7 h8 h9
    (fun l hl => by rw [hmode] at hl; simp at hl) (fun l hl => by rw [hsh] at hl; simp at hl) (fun l hl => .inl (hown l hl)) hp

/-- While a host owns the lease, no ballot is based on its version. -/
theorem fresh_of_own {c : Cfg} {s : State} {low a : Nat} {l : Rec} (hc : c.hosts ≤ c.maxHosts) (hd : c.disks = 1)
    (h : Inv c s low) (ho : (s.host a).ph.own? = some l) : Fresh s a l.lver := by
  obtain ⟨O, hal⟩ := ownOk_of_inv h ho
  obtain ⟨g, hg, hsim⟩ := h.glob.sim
  have F := bf_of_sim hc hd hg hsim
  intro q hq
  refine ⟨?_, ?_⟩
  · cases hx : (s.host q).ph.own? with
    | none => rfl
    | some l' => exact absurd (own_unique (ownOk_of_inv h hx).1 O) hq
  · intro m cur hcur
    have hp := (h.host q).ph
    have hCC : CurOk s low q cur ∧ Cert s q cur := by
      rcases hcur with ⟨mb, cp, hx⟩ | ⟨mb, hx⟩
      · rw [hx] at hp; exact ⟨hp.1, hp.2.1⟩
      · rw [hx] at hp; exact ⟨hp.1, hp.2.1⟩
    obtain ⟨hcu, hcert⟩ := hCC
    have h1 := hcu.le
    have h2 := O.lver
    refine Classical.byContradiction fun hn => ?_
    have hv : cur.lver = s.ldr.lver := by omega
    have hr := O.relv
    have hO2 := O.owner
    have hO3 := O.gen
    rcases h.glob.ldrOk with h3 | ⟨e1, he1, a1, a2, a3⟩
    · exact O.ts h3.2
    · rcases hcu.ok with h3 | ⟨e2, he2, b1, b2, b3⟩
      · omega
      · have := F.logAgree e1 he1 e2 he2 (by omega)
        have hco : cur.owner - 1 = a := by omega
        rcases hcert with h4 | h4 | h4 | h4
        · omega
        · omega
        · rw [hco] at h4
          rcases h4 with h4 | ⟨_, h4⟩
          · omega
          · rw [hal] at h4; simp at h4
        · rw [hco] at h4; omega

/-- A host that has seen all sharers up to the version before the one it owns has seen all others. -/
theorem othersSeen_of_sawAll {c : Cfg} {s s' : State} {low low' a v : Nat} (hc : c.hosts ≤ c.maxHosts) (hd : c.disks = 1)
    (h2 : Inv2 s) (h' : Inv c s' low') (hsame : ∀ q, q ≠ a → (s'.host q).ph = (s.host q).ph)
    (hlog : ∀ e ∈ s.B.log, e ∈ s'.B.log) (hsaw : (s'.host a).saw = (s.host a).saw)
    (hlv : s.ldr.lver ≤ s'.ldr.lver) (hv : s'.ldr.lver = v + 1) (ho : s'.ldr.owner = a + 1) (hts : s'.ldr.ts ≠ 0)
    (hs : SawAll s a v) : OthersSeen s' a := by
  intro p hp hpl
  rw [hsame p hp] at hpl
  rw [hsaw]
  cases hx : (s.host p).ph.shares? with
  | none => exact absurd hx hpl
  | some l =>
    have S := h2.shr p l hx
    refine hs p l hp hx ?_
    have h3 := S.le
    refine Classical.byContradiction fun hn => ?_
    obtain ⟨g, hg, hsim⟩ := h'.glob.sim
    have F := bf_of_sim hc hd hg hsim
    have hpos := S.pos
    have hso := S.owner
    rcases h'.glob.ldrOk with h4 | ⟨e1, he1, a1, a2, a3⟩
    · exact hts h4.2
    · rcases S.ok with h4 | ⟨e2, he2, b1, b2, b3⟩
      · omega
      · have := F.logAgree e1 he1 e2 (hlog e2 he2) (by omega)
        omega

end Sanlock.Lease
