import Verif.Lemmas.LeaseShare
import Verif.Lemmas.LeaseMine

/-!
# Every step keeps the invariant for shared leases
-/

namespace Sanlock.Lease

open Sanlock.Ballot (Blk Cfg WriteRes Pc Vote Done)

theorem countMarks_pos {mbuf : Nat → Bool} {n x : Nat} (hx : x < n) (h : mbuf x = true) : 0 < countMarks mbuf n := by
  unfold countMarks
  refine List.length_pos_of_mem (a := x) ?_
  simp [hx, h]

theorem countMarks_two {mbuf : Nat → Bool} {n x y : Nat} (hx : x < n) (hy : y < n) (hxy : x ≠ y) (h : mbuf x = true)
    (h' : mbuf y = true) : 2 ≤ countMarks mbuf n := by
  unfold countMarks
  have hxm : x ∈ (List.range n).filter mbuf := by simp [hx, h]
  have hym : y ∈ (List.range n).filter mbuf := by simp [hy, h']
  match hl : (List.range n).filter mbuf with
  | [] => rw [hl] at hxm; simp at hxm
  | [z] => rw [hl] at hxm hym; simp at hxm hym; omega
  | _ :: _ :: _ => simp

theorem countMarks_le {mbuf : Nat → Bool} {n : Nat} : countMarks mbuf n ≤ n := by
  unfold countMarks
  have := List.length_filter_le mbuf (List.range n)
  simpa using this

/-- A step of the ballot that changes neither what the host has seen nor its marker. -/
theorem inv2_balKeep {s s' : State} {p : Nat} {m : Mode} {cur : Rec} {mbal : Nat} (h2 : Inv2 s)
    (hph : (s.host p).ph = .ballot m cur mbal) (hoth : ∀ q, q ≠ p → Same s s' q)
    (hmark : ∀ q, q ≠ p → s'.mark q = s.mark q)
    (hmp : ∀ l, m.shared? = some l → s'.mark p = s.mark p)
    (hlog : s'.B.log = s.B.log) (hldr : s'.ldr = s.ldr)
    (hph' : (s'.host p).ph = .ballot m cur mbal)
    (hg : (s'.host p).gen = (s.host p).gen) (hal : (s'.host p).alive = (s.host p).alive) (hsaw : (s'.host p).saw = (s.host p).saw)
    (hcnt : (s'.host p).cnt = (s.host p).cnt)
    (hv : (s'.host p).voted = true → SawAll s p cur.lver)
    (hpc : PcOk s' p cur.lver (s'.B.proc p).pc) : Inv2 s' := by
  refine inv2_move h2 hoth (fun q hq _ => hmark q hq) (by rw [hlog]; exact fun _ h => h) (by rw [hldr]; exact Nat.le_refl _) hph' hg hal
    hsaw hcnt ?_ ?_ ?_ ⟨?_, hpc⟩
  · intro l hl; rw [hph]; exact ⟨l, hl⟩
  · intro l hl; rw [hph]; exact ⟨hl, hmp l hl⟩
  · intro l hl; simp [Ph.own?] at hl
  · intro h1; exact sawAll_oth (fun q hq => (hoth q hq).ph) hsaw (hv h1)

theorem same_bal {s : State} {p : Nat} {B' : Ballot.State} (hpr : ∀ x, x ≠ p → B'.proc x = s.B.proc x) (q : Nat) (hq : q ≠ p) :
    Same s { s with B := B' } q := by
  constructor <;> simp [hpr q hq]

theorem same_bal_set {s : State} {p : Nat} {B' : Ballot.State} {h' : Host} (hpr : ∀ x, x ≠ p → B'.proc x = s.B.proc x) (q : Nat)
    (hq : q ≠ p) : Same s ({ s with B := B' }.setHost p h') q := by
  constructor <;> simp [hpr q hq, State.setHost, upd_apply, hq]

theorem proc_setPc (B : Ballot.State) (p : Nat) (pc : Pc) (x : Nat) (hx : x ≠ p) : (B.setPc p pc).proc x = B.proc x := by
  simp [Ballot.State.setPc, Ballot.State.setProc, hx]

theorem inv2_balPc {s : State} {p : Nat} {m : Mode} {cur : Rec} {mbal : Nat} {pc : Pc} (h2 : Inv2 s)
    (hph : (s.host p).ph = .ballot m cur mbal)
    (hpc : PcOk { s with B := s.B.setPc p pc } p cur.lver pc) : Inv2 { s with B := s.B.setPc p pc } := by
  have hp := (h2.host p).ph
  rw [hph] at hp
  refine inv2_balKeep h2 hph (fun q hq => same_bal (proc_setPc _ _ _) q hq) (fun _ _ => rfl) (fun _ _ => rfl) rfl rfl hph rfl rfl rfl rfl
    hp.1 ?_
  simpa using hpc

theorem inv2_bal {c : Cfg} {s : State} {low p : Nat} {m : Mode} {cur : Rec} {mbal : Nat} {a : Ballot.Act} {B' : Ballot.State}
    (hd : c.disks = 1) (h : Inv c s low) (h2 : Inv2 s) (hph : (s.host p).ph = .ballot m cur mbal)
    (ha : balHost a = some p) (hs : Ballot.step c s.B a = some B') : Inv2 (effects c s m p a B') := by
  have hp := (h2.host p).ph
  rw [hph] at hp
  obtain ⟨hv, hpc⟩ := hp
  have hmk : ∀ l, m.shared? = some l → s.mark p = some (s.host p).gen := by
    intro l hl
    exact (h2.shr p l (by rw [hph]; exact hl)).mark
  cases a with
  | write p' res =>
    simp only [balHost, Option.some.injEq] at ha
    subst ha
    have hw : ∀ (d : Nat) (pc : Pc) (k : Blk), PcOk s p' cur.lver pc → (∀ w r buf mx, pc ≠ .read1 0 w r buf mx) →
        (∀ n w r buf mx, pc ≠ .read1 (n + 1) w r buf mx) → lands res = true →
        Inv2 { s with B := (s.B.setDisk d p' k).setPc p' pc, flag := upd s.flag p' false,
                      mark := upd s.mark p' (if m.shared?.isSome then some (s.host p').gen else none) } := by
      intro d pc k hk1 hk2 hk3 _
      refine inv2_balKeep h2 hph (fun q hq => ?_) (fun q hq => by simp [upd_apply, hq]) ?_ rfl rfl hph rfl rfl rfl rfl hv ?_
      · constructor <;> simp [Ballot.State.setPc, Ballot.State.setProc, Ballot.State.setDisk, hq]
      · intro l hl
        simp [upd_apply, hl, hmk l hl]
      · simp only [Ballot.setPc_pc, if_true]
        cases pc with
        | read1 d w r buf mx =>
          cases d with
          | zero => exact absurd rfl (hk2 w r buf mx)
          | succ n => exact absurd rfl (hk3 n w r buf mx)
        | _ => exact hk1
    have hw' : ∀ (pc : Pc), PcOk s p' cur.lver pc → (∀ w r buf mx, pc ≠ .read1 0 w r buf mx) →
        (∀ n w r buf mx, pc ≠ .read1 (n + 1) w r buf mx) → Inv2 { s with B := s.B.setPc p' pc } := by
      intro pc hk1 hk2 hk3
      refine inv2_balPc h2 hph ?_
      cases pc with
      | read1 d w r buf mx =>
        cases d with
        | zero => exact absurd rfl (hk2 w r buf mx)
        | succ n => exact absurd rfl (hk3 n w r buf mx)
      | _ => exact hk1
    simp only [Ballot.step] at hs
    split at hs
    · rename_i d w hpc0
      split at hs
      · cases res <;> simp only [Option.some.injEq] at hs <;> subst hs <;>
          simp only [effects, lands, Bool.false_eq_true, if_true, if_false]
        · exact hw d (.write1 (d + 1) (d :: w)) _ trivial (by simp) (by simp) rfl
        · exact hw d (.write1 (d + 1) w) _ trivial (by simp) (by simp) rfl
        · exact hw' (.write1 (d + 1) w) trivial (by simp) (by simp)
      · simp at hs
    · rename_i d w1 w hpc0
      rw [hpc0] at hpc
      split at hs
      · cases res <;> simp only [Option.some.injEq] at hs <;> subst hs <;>
          simp only [effects, lands, Bool.false_eq_true, if_true, if_false]
        · exact hw d (.write2 (d + 1) w1 (d :: w)) _ hpc (by simp) (by simp) rfl
        · exact hw d (.write2 (d + 1) w1 w) _ hpc (by simp) (by simp) rfl
        · exact hw' (.write2 (d + 1) w1 w) hpc (by simp) (by simp)
      · simp at hs
    · simp at hs
  | writesDone p' =>
    simp only [balHost, Option.some.injEq] at ha
    subst ha
    simp only [Ballot.step] at hs
    split at hs
    · split at hs
      · simp at hs
      · split at hs
        · simp only [Option.some.injEq] at hs
          subst hs
          simp only [effects, Ballot.setPc_pc, if_true]
          refine inv2_balPc h2 hph ⟨rfl, ?_⟩
          intro q l _ _ hb; exact absurd rfl hb
        · simp only [Option.some.injEq] at hs
          subst hs
          simp only [effects, Ballot.setPc_pc, if_true]
          exact inv2_balPc h2 hph trivial
    · rename_i hpc0
      rw [hpc0] at hpc
      split at hs
      · simp at hs
      · split at hs
        · simp only [Option.some.injEq] at hs
          subst hs
          simp only [effects, Ballot.setPc_pc, if_true]
          refine inv2_balKeep h2 hph (fun q hq => same_bal_set (proc_setPc _ _ _) q hq) (fun _ _ => rfl) (fun _ _ => rfl) rfl rfl
            (by simp [State.setHost, hph]) (by simp [State.setHost]) (by simp [State.setHost]) (by simp [State.setHost])
            (by simp [State.setHost]) (by simpa [State.setHost] using hv) ?_
          simpa [State.setHost, PcOk] using hpc
        · simp only [Option.some.injEq] at hs
          subst hs
          simp only [effects, Ballot.setPc_pc, if_true]
          exact inv2_balPc h2 hph trivial
    · simp at hs
  | readSector p' x =>
    simp only [balHost, Option.some.injEq] at ha
    subst ha
    simp only [effects]
    simp only [Ballot.step] at hs
    split at hs
    · rename_i d w r buf mx hpc0
      rw [hpc0] at hpc
      split at hs
      · rename_i hdl
        have hd0 : d = 0 := by omega
        subst hd0
        simp only [Option.some.injEq] at hs
        subst hs
        refine inv2_balKeep h2 hph (fun q hq => same_bal_set (proc_setPc _ _ _) q hq) (fun _ _ => rfl) (fun _ _ => rfl) rfl rfl
          (by simp [State.setHost, hph]) (by simp [State.setHost]) (by simp [State.setHost]) (by simp [State.setHost])
          (by simp [State.setHost]) (by simpa [State.setHost] using hv) ?_
        simp only [State.setHost, Ballot.setPc_pc, if_true]
        refine ⟨hpc.1, ?_⟩
        intro q l hq hor hb
        have hq' : (s.host q).ph.shares? = some l := by
          simp only [upd_apply] at hq
          split at hq
          · rename_i e; rw [e]; exact hq
          · exact hq
        simp only [upd_same]
        simp only [upd_apply]
        split
        · rename_i e
          rw [← e, (h2.shr q l hq').mark]; rfl
        · rename_i e
          simp only [e, if_false] at hb
          exact hpc.2 q l hq' hor hb
      · simp at hs
    · rename_i d w1 w r buf hpc0
      rw [hpc0] at hpc
      split at hs
      · simp only [Option.some.injEq] at hs
        subst hs
        refine inv2_balKeep h2 hph (fun q hq => same_bal_set (proc_setPc _ _ _) q hq) (fun _ _ => rfl) (fun _ _ => rfl) rfl rfl
          (by simp [State.setHost, hph]) (by simp [State.setHost]) (by simp [State.setHost]) (by simp [State.setHost])
          (by simp [State.setHost]) (by simpa [State.setHost] using hv) ?_
        simp only [State.setHost, Ballot.setPc_pc, if_true, PcOk, upd_same]
        exact hpc
      · simp at hs
    · simp at hs
  | readFail p' =>
    simp only [balHost, Option.some.injEq] at ha
    subst ha
    simp only [effects]
    simp only [Ballot.step] at hs
    split at hs
    · rename_i d w r buf mx hpc0
      rw [hpc0] at hpc
      split at hs
      · rename_i hdl
        have hd0 : d = 0 := by omega
        subst hd0
        simp only [Option.some.injEq] at hs
        subst hs
        exact inv2_balPc h2 hph (fun hr => absurd hpc.1 hr)
      · simp at hs
    · rename_i d w1 w r buf hpc0
      rw [hpc0] at hpc
      split at hs
      · simp only [Option.some.injEq] at hs
        subst hs
        exact inv2_balPc h2 hph hpc
      · simp at hs
    · simp at hs
  | readDone p' =>
    simp only [balHost, Option.some.injEq] at ha
    subst ha
    simp only [Ballot.step] at hs
    split at hs
    · rename_i d w r buf mx hpc0
      have hpc := hpc
      rw [hpc0] at hpc
      split at hs
      · rename_i hdl
        have hd0 : d = 0 := by omega
        subst hd0
        split at hs
        · simp at hs
        · rename_i l hcol
          split at hs
          · simp only [Option.some.injEq] at hs
            subst hs
            simp only [effects, hpc0, Ballot.setPc_pc, if_true]
            exact inv2_balPc h2 hph trivial
          · rename_i mx' _
            simp only [Option.some.injEq] at hs
            subst hs
            simp only [effects, hpc0, Ballot.setPc_pc, if_true]
            have hbuf := Ballot.collect_some hcol
            have hfull : ∀ x, x < c.hosts → buf x ≠ none := by
              intro x hx hn
              obtain ⟨b, _, hb⟩ := hbuf.1 x hx
              rw [hn] at hb; simp at hb
            have hmb : ∀ q l, (s.host q).ph.shares? = some l → (q = p' ∨ l.lver ≤ cur.lver) →
                q < c.hosts ∧ (s.host p').mbuf q = true := by
              intro q l hq hor
              have h1 : q < c.hosts := ((h.host q).alive (by intro h4; rw [h4] at hq; simp [Ph.shares?] at hq)).2
              exact ⟨h1, hpc.2 q l hq hor (hfull q h1)⟩
            have hoth : ∀ (h' : Host) q, q ≠ p' → Same s
                ({ s with B := s.B.setPc p' (.read1 (0 + 1) w (0 :: r) Ballot.emptyBuf mx') }.setHost p' h') q :=
              fun h' q hq => same_bal_set (proc_setPc _ _ _) q hq
            refine inv2_of h2 (hoth _) (fun _ _ _ => rfl) (fun _ h => h) (Nat.le_refl _) ?_ ?_ ⟨?_, ?_, ?_, ?_⟩
            · simp only [State.setHost, upd_same]; exact h2.gen p'
            · intro l hl
              simp only [State.setHost, upd_same] at hl ⊢
              exact .inl ⟨hl, (h2.shr p' l hl).mark⟩
            · simp only [State.setHost, upd_same, hph]
              have hall : ∀ q l, q ≠ p' → (s.host q).ph.shares? = some l → l.lver ≤ cur.lver →
                  ((s.host p').saw q || (decide (q < c.hosts) && (s.host p').mbuf q)) = true := by
                intro q l hq hl hle
                obtain ⟨h1, h3⟩ := hmb q l hl (.inr hle)
                simp [h1, h3]
              refine ⟨?_, ?_⟩
              · intro _ q l hq hl hle
                simp only [upd_apply, hq, if_false] at hl
                simp only [upd_same]
                exact hall q l hq hl hle
              · simp only [Ballot.setPc_pc, if_true]
                intro _ q l hq hl hle
                simp only [upd_apply, hq, if_false] at hl
                simp only [upd_same]
                exact hall q l hq hl hle
            · simp only [State.setHost, upd_same]; exact (h2.host p').own
            · simp only [State.setHost, upd_same]
              intro q hq
              simp only [Bool.or_eq_true, Bool.and_eq_true, decide_eq_true_eq] at hq
              rcases hq with hq | ⟨hq, hq'⟩
              · have := (h2.host p').cnt.1 q hq; omega
              · have := countMarks_pos hq hq'; omega
            · simp only [State.setHost, upd_same]
              intro l hl q hqp hq
              simp only [Bool.or_eq_true, Bool.and_eq_true, decide_eq_true_eq] at hq
              rcases hq with hq | ⟨hq, hq'⟩
              · have := (h2.host p').cnt.2 l hl q hqp hq; omega
              · have hm : m = .conv l := by rw [hph] at hl; simpa [Ph.mode?] using hl
                obtain ⟨h3, h4⟩ := hmb p' l (by rw [hph]; simp [Ph.shares?, hm, Mode.shared?]) (.inl rfl)
                have := countMarks_two hq h3 hqp hq' h4
                omega
      · simp at hs
    · rename_i d w1 w r buf hpc0
      rw [hpc0] at hpc
      split at hs
      · split at hs
        · simp at hs
        · split at hs
          · simp only [Option.some.injEq] at hs
            subst hs
            simp only [effects, hpc0]
            exact inv2_balPc h2 hph trivial
          · simp only [Option.some.injEq] at hs
            subst hs
            simp only [effects, hpc0]
            exact inv2_balPc h2 hph hpc
      · simp at hs
    · simp at hs
  | readsDone p' now =>
    simp only [balHost, Option.some.injEq] at ha
    subst ha
    simp only [Ballot.step] at hs
    split at hs
    · rename_i d w r buf mx hpc0
      rw [hpc0] at hpc
      split at hs
      · simp at hs
      · rename_i hdl
        split at hs
        · rename_i hmaj
          obtain ⟨d', rfl⟩ : ∃ d', d = d' + 1 := ⟨d - 1, by omega⟩
          have hr : r ≠ [] := by
            intro hr
            have := Ballot.majority_gt hmaj
            rw [hr] at this; simp at this
          have hsa := hpc hr
          simp only [Option.some.injEq] at hs
          subst hs
          simp only [effects, Ballot.State.setProc, if_true]
          refine inv2_balKeep h2 hph (fun q hq => ?_) (fun _ _ => rfl) (fun _ _ => rfl) rfl rfl
            (by simp [State.setHost, hph]) (by simp [State.setHost]) (by simp [State.setHost]) (by simp [State.setHost])
            (by simp [State.setHost]) (fun _ => hsa) ?_
          · constructor <;> simp [State.setHost, upd_apply, hq]
          · simp [State.setHost, PcOk]
        · simp only [Option.some.injEq] at hs
          subst hs
          simp only [effects, Ballot.setPc_pc, if_true]
          exact inv2_balPc h2 hph trivial
    · rename_i d w1 w r buf hpc0
      rw [hpc0] at hpc
      split at hs
      · simp at hs
      · split at hs
        · simp only [Option.some.injEq] at hs
          subst hs
          simp only [effects, Ballot.setPc_pc, if_true]
          exact inv2_balPc h2 hph hpc
        · simp only [Option.some.injEq] at hs
          subst hs
          simp only [effects, Ballot.setPc_pc, if_true]
          exact inv2_balPc h2 hph trivial
    · simp at hs
  | _ => simp [balHost] at ha

/-! ## The other steps -/

/-- A change of phase that concerns nothing the invariant speaks of. -/
theorem inv2_plain {s : State} {a : Nat} {ph : Ph} (h : Inv2 s)
    (hmode : ∀ l, ph.mode? = some (.conv l) → ∃ l', (s.host a).ph.mode? = some (.conv l'))
    (hsh : ∀ l, ph.shares? = some l → (s.host a).ph.shares? = some l)
    (hp : ∀ s', SPhOk s' a ph) (hown : ph.own? = none) : Inv2 (s.setPh a ph) :=
  inv2_setPh h hmode hsh (fun l hl => by rw [hown] at hl; simp at hl) (hp _)

theorem inv2_failed {s : State} {a : Nat} {m : Mode} (h : Inv2 s) (hm : (s.host a).ph.shares? = m.shared?) :
    Inv2 (s.setPh a (failed m)) := by
  cases m with
  | conv l0 =>
    refine inv2_plain h ?_ ?_ (fun _ => trivial) rfl
    · simp [failed, Ph.mode?]
    · intro l hl; rw [hm]; exact hl
  | _ => exact inv2_plain h (by simp [failed, Ph.mode?]) (by simp [failed, Ph.shares?]) (fun _ => trivial) rfl

theorem inv2_read {c : Cfg} {s s' : State} {p max : Nat} (h : Inv2 s)
    (hs : step c s (.read p max) = some s') : Inv2 s' := by
  simp only [step] at hs
  split at hs
  · rename_i m hph
    have key : ∀ ph, (ph.mode? = some m) → ph.shares? = m.shared? → ph.own? = none →
        (∀ x : State, (x.host p).voted = false → SPhOk x p ph) →
        Inv2 (s.setHost p { s.host p with voted := false, ph := ph }) := by
      intro ph h1 h2 h3 h4
      refine inv2_move h (fun q hq => same_setHost s p _ q hq) (fun _ _ _ => rfl) (fun _ h => h) (Nat.le_refl _)
        (by simp [State.setHost]; rfl) (by simp [State.setHost]) (by simp [State.setHost]) (by simp [State.setHost])
        (by simp [State.setHost]) ?_ ?_ ?_ ?_
      · intro l hl; rw [hph]; exact ⟨l, by rw [h1] at hl; exact hl⟩
      · intro l hl; rw [hph]; exact ⟨by rw [h2] at hl; exact hl, rfl⟩
      · intro l hl; rw [h3] at hl; simp at hl
      · exact h4 _ (by simp [State.setHost])
    split at hs
    · split at hs
      · simp only [Option.some.injEq] at hs
        subst hs
        exact key _ rfl rfl rfl (fun x hx => by simp only [SPhOk, hx]; simp)
      · simp only [Option.some.injEq] at hs
        subst hs
        exact key _ rfl rfl rfl (fun x hx => hx)
    · simp at hs
  · simp at hs

theorem inv2_toRun {s : State} {p : Nat} {m : Mode} {cur : Rec} {max mb : Nat} {cp : Bool} (h : Inv2 s)
    (hph : (s.host p).ph = .wait m cur max) : Inv2 (s.setPh p (.run m cur mb cp)) := by
  have hp := (h.host p).ph
  rw [hph] at hp
  refine inv2_setPh h ?_ ?_ ?_ ?_
  · intro l hl; rw [hph]; exact ⟨l, hl⟩
  · intro l hl; rw [hph]; exact hl
  · intro l hl; simp [Ph.own?] at hl
  · simp only [SPhOk, setPh_self]
    intro h1
    simp only [SPhOk] at hp
    rw [hp] at h1; simp at h1

theorem inv2_check {c : Cfg} {s s' : State} {low low' p : Nat} (hc : c.hosts ≤ c.maxHosts) (hd : c.disks = 1) (h : Inv c s low)
    (h' : Inv c s' low') (h2 : Inv2 s) (ha : AllowedX c s (.check p)) (hs : step c s (.check p) = some s') : Inv2 s' := by
  have hs0 := hs
  simp only [step] at hs
  split at hs
  · rename_i m cur mbal copy hph
    have hp := (h2.host p).ph
    rw [hph] at hp
    have hp1 := (h.host p).ph
    rw [hph] at hp1
    generalize htmp : (if copy = true then cur else s.ldr) = tmp at hs
    split at hs
    · rename_i hl
      have hcopy : tmp = s.ldr := by
        rw [← htmp] at hl ⊢
        cases copy
        · simp
        · simp only [if_true] at hl; omega
      rw [hcopy] at hl hs
      split at hs
      · rename_i ho
        simp only [Option.some.injEq] at hs
        subst hs
        have hv : (s.host p).voted = true := by
          have := ha.2
          simp only [hph] at this
          exact this hl ho.1
        have hts : s.ldr.ts ≠ 0 := by
          intro ht
          have := h.glob.free ht (by omega)
          have hho : s.ldr.owner - 1 = p := by omega
          rw [hho] at this
          have := hp1.1.relv
          omega
        have hoth : ∀ q, q ≠ p → ((grant s p m s.ldr false).host q).ph = (s.host q).ph := by
          intro q hq; simp [grant, State.setHost, upd_apply, hq]
        refine inv2_move h2 (fun q hq => same_setHost s p _ q hq) (fun _ _ _ => rfl) (fun _ h => h) (Nat.le_refl _)
          (by simp [grant, State.setHost]; rfl) (by simp [grant, State.setHost]) (by simp [grant, State.setHost])
          (by simp [grant, State.setHost]) (by simp [grant, State.setHost]) ?_ ?_ ?_ ?_
        · intro l hl; rw [hph]; exact ⟨l, hl⟩
        · intro l hl; rw [hph]; exact ⟨hl, rfl⟩
        · intro l hl'
          simp only [Ph.own?, Option.some.injEq] at hl'
          subst hl'
          exact .inr ⟨h.glob.ldrOk, ho.1⟩
        · exact othersSeen_of_sawAll hc hd h2 h' hoth (fun _ h => h) (by simp [grant, State.setHost]) (Nat.le_refl _) hl ho.1 hts
            (hp hv) (low := low)
      · simp only [Option.some.injEq] at hs
        subst hs
        refine inv2_plain h2 ?_ ?_ (fun _ => trivial) rfl
        · intro l hl; rw [hph]; exact ⟨l, hl⟩
        · intro l hl; rw [hph]; exact hl
    · split at hs
      · simp only [Option.some.injEq] at hs
        subst hs
        refine inv2_plain h2 ?_ ?_ (fun _ => trivial) rfl
        · intro l hl; rw [hph]; exact ⟨l, hl⟩
        · intro l hl; rw [hph]; exact hl
      · split at hs
        · simp at hs
        · rename_i B' hB
          simp only [Option.some.injEq] at hs
          subst hs
          simp only [Ballot.step] at hB
          split at hB
          · split at hB
            · simp only [Option.some.injEq] at hB
              subst hB
              refine inv2_move (a := p) (ph := .ballot m cur mbal) h2 (fun q hq => ?_) (fun _ _ _ => rfl) (fun _ h => h) (Nat.le_refl _)
                (by simp [State.setHost]) (by simp [State.setHost]) (by simp [State.setHost])
                (by simp [State.setHost]) (by simp [State.setHost]) ?_ ?_ ?_ ⟨?_, ?_⟩
              · constructor <;> simp [State.setHost, upd_apply, Ballot.State.setProc, hq]
              · intro l hl; rw [hph]; exact ⟨l, hl⟩
              · intro l hl; rw [hph]; exact ⟨hl, rfl⟩
              · intro l hl; simp [Ph.own?] at hl
              · intro hv
                refine sawAll_oth ?_ ?_ (hp ?_)
                · intro q hq; simp [State.setHost, upd_apply, hq]
                · simp [State.setHost]
                · simpa [State.setHost] using hv
              · simp [State.setHost, Ballot.State.setProc, PcOk]
            · simp at hB
          · simp at hB
  · simp at hs

theorem inv2_commit {c : Cfg} {s s' : State} {low low' p : Nat} {res : WriteRes} {now : Nat} (hc : c.hosts ≤ c.maxHosts)
    (hd : c.disks = 1) (h : Inv c s low) (h' : Inv c s' low') (h2 : Inv2 s) (ha : Allowed0 c s (.commit p res now))
    (hs : step c s (.commit p res now) = some s') : Inv2 s' := by
  simp only [step] at hs
  split at hs
  · rename_i m cur mbal w1 w hph hpc
    have hp := (h2.host p).ph
    rw [hph] at hp
    have hp1 := (h.host p).ph
    rw [hph] at hp1
    have hl1 := (hp1.2.2.2.2 (by simp [hpc])).1
    have hvs : SawAll s p cur.lver := by
      obtain ⟨h1, h3⟩ := hp
      rw [hpc] at h3
      exact h1 h3
    obtain ⟨ha1, ha2⟩ := ha
    have hend : ∀ (s1 : State) ph, s1.host = s.host → s1.mark = s.mark → (∀ e ∈ s.B.log, e ∈ s1.B.log) →
        s.ldr.lver ≤ s1.ldr.lver → (∀ q, q ≠ p → (s1.B.proc q).pc = (s.B.proc q).pc) →
        (∀ l, ph.mode? = some (.conv l) → m = .conv l) →
        (∀ l, ph.shares? = some l → m.shared? = some l) → (∀ x, SPhOk x p ph) → ph.own? = none → Inv2 (s1.setPh p ph) := by
      intro s1 ph e1 e2 e3 e4 e5 e6 e7 e8 e9
      refine inv2_move (a := p) (ph := ph) h2 (fun q hq => ?_) (fun q _ _ => by simp [State.setPh, State.setHost, e2]) e3 e4
        (by simp [State.setPh, State.setHost]) (by simp [State.setPh, State.setHost, e1]) (by simp [State.setPh, State.setHost, e1])
        (by simp [State.setPh, State.setHost, e1]) (by simp [State.setPh, State.setHost, e1]) ?_ ?_ ?_ (e8 _)
      · constructor <;> simp [State.setPh, State.setHost, upd_apply, hq, e1, e5 q hq]
      · intro l hl; rw [hph]; exact ⟨l, by simp [Ph.mode?, e6 l hl]⟩
      · intro l hl; rw [hph]; exact ⟨e7 l hl, by simp [State.setPh, State.setHost, e2]⟩
      · intro l hl; rw [e9] at hl; simp at hl
    have hpr : ∀ q, q ≠ p → ((s.B.setPc p .idle).proc q).pc = (s.B.proc q).pc := by
      intro q hq; simp [Ballot.State.setPc, Ballot.State.setProc, hq]
    split at hs
    · rename_i hres
      have hl : lands res = true := by rw [hres]; rfl
      simp only [hl, if_true] at hs
      split at hs
      · simp only [Option.some.injEq] at hs
        subst hs
        refine hend _ _ rfl rfl (fun _ h => List.mem_cons_of_mem _ h) (ha1 hl) hpr ?_ ?_ (fun _ => trivial) rfl
        · intro l hl; simpa [Ph.mode?] using hl
        · intro l hl; exact hl
      · rename_i ho
        simp only [newLeader, ne_eq, Decidable.not_not] at ho
        simp only [Option.some.injEq] at hs
        subst hs
        refine inv2_move (a := p) (ph := .granted m _) h2 (fun q hq => ?_) (fun _ _ _ => rfl) (fun _ h => List.mem_cons_of_mem _ h) (ha1 hl)
          (by simp [grant, State.setHost]; rfl) (by simp [grant, State.setHost]) (by simp [grant, State.setHost])
          (by simp [grant, State.setHost]) (by simp [grant, State.setHost]) ?_ ?_ ?_ ?_
        · constructor <;> simp [grant, State.setHost, upd_apply, hq, hpr q hq]
        · intro l hl; rw [hph]; exact ⟨l, hl⟩
        · intro l hl; rw [hph]; exact ⟨hl, rfl⟩
        · intro l hl'
          simp only [Ph.own?, Option.some.injEq] at hl'
          subst hl'
          exact .inr ⟨.inr ⟨_, List.mem_cons_self, rfl, rfl, rfl⟩, ho⟩
        · have O := (ownOk_of_inv (p := p) (l := newLeader (s.B.proc p).dblock p (s.host p).gen now) h'
            (by simp [grant, State.setHost, Ph.own?])).1
          refine othersSeen_of_sawAll hc hd h2 h' ?_ (fun _ h => List.mem_cons_of_mem _ h) (by simp [grant, State.setHost])
            (ha1 hl) hl1 O.owner O.ts hvs (low := low)
          intro q hq; simp [grant, State.setHost, upd_apply, hq]
    · simp only [Option.some.injEq] at hs
      subst hs
      have hm : ∀ ph, ph = (match m with
          | .conv l0 => Ph.rel (some (newLeader (s.B.proc p).dblock p (s.host p).gen now)) (.back l0)
          | _ => Ph.retract (some (newLeader (s.B.proc p).dblock p (s.host p).gen now))) →
          (∀ l, ph.mode? = some (.conv l) → m = .conv l) ∧ (∀ l, ph.shares? = some l → m.shared? = some l) ∧
          (∀ x, SPhOk x p ph) ∧ ph.own? = none := by
        intro ph hph
        subst hph
        cases m <;> refine ⟨?_, ?_, fun _ => trivial, rfl⟩ <;> simp [Ph.mode?, Ph.shares?, Next.shared?, Mode.shared?]
      obtain ⟨m1, m2, m3, m4⟩ := hm _ rfl
      cases hl : lands res
      · simp only [Bool.false_eq_true, if_false]
        exact hend _ _ rfl rfl (fun _ h => h) (Nat.le_refl _) hpr m1 m2 m3 m4
      · simp only [if_true]
        exact hend _ _ rfl rfl (fun _ h => List.mem_cons_of_mem _ h) (ha1 hl) hpr m1 m2 m3 m4
  · simp at hs

theorem inv2_decide {c : Cfg} {s s' : State} {p : Nat} (h2 : Inv2 s) (hs : step c s (.decide p) = some s') : Inv2 s' := by
  simp only [step] at hs
  split at hs
  · rename_i l hph
    have hp := (h2.host p).ph
    rw [hph] at hp
    simp only [Option.some.injEq] at hs
    subst hs
    split
    · rename_i hc0
      refine inv2_setPh h2 (by simp [Ph.mode?]) (by simp [Ph.shares?]) (by simp [hph, Ph.own?]) ?_
      refine noOther_oth (setPh_oth _ _ _) ?_
      intro q hq
      refine Classical.byContradiction fun hn => ?_
      have := (h2.host p).cnt.1 q (hp q hq hn)
      omega
    · refine inv2_setPh h2 (by simp [Ph.mode?]) (by simp [Ph.shares?, Mode.shared?]) (by simp [hph, Ph.own?]) ⟨?_, ?_⟩
      · exact othersSeen_oth (setPh_oth _ _ _) (by rw [setPh_self]) hp
      · intro _ q hq; omega
  · rename_i l0 l hph
    have hp := (h2.host p).ph
    rw [hph] at hp
    simp only [Option.some.injEq] at hs
    subst hs
    split
    · rename_i hc0
      refine inv2_setPh h2 (by simp [Ph.mode?]) (by simp [Ph.shares?]) (by simp [hph, Ph.own?]) ?_
      refine noOther_oth (setPh_oth _ _ _) ?_
      intro q hq
      refine Classical.byContradiction fun hn => ?_
      have := (h2.host p).cnt.2 l0 (by rw [hph]; rfl) q hq (hp q hq hn)
      omega
    · refine inv2_setPh h2 (by simp [hph, Ph.mode?]) (by simp [hph, Ph.shares?, Mode.shared?]) (by simp [hph, Ph.own?]) ⟨?_, ?_⟩
      · exact othersSeen_oth (setPh_oth _ _ _) (by rw [setPh_self]) hp
      · intro _ q hq; omega
  · simp at hs

theorem inv2_clearStep {c : Cfg} {s s' : State} {low p : Nat} {dead : Bool} (h : Inv c s low) (h2 : Inv2 s)
    (ha : AllowedX c s (.clearStep p dead)) (hs : step c s (.clearStep p dead) = some s') : Inv2 s' := by
  simp only [step] at hs
  split at hs
  · rename_i m l i live hph
    have hp := (h2.host p).ph
    rw [hph] at hp
    obtain ⟨hseen, hbel⟩ := hp
    have hnone : ∀ q, q ≠ p → (∀ l, (s.host q).ph.shares? = some l → False) → (s.host q).ph.shares? = none := by
      intro q _ hq
      cases hx : (s.host q).ph.shares? with
      | none => rfl
      | some l => exact absurd (hq l hx) id
    have hnext : ∀ live', (live' = false → live = false ∧ (i ≠ p → (s.host i).ph.shares? = none)) →
        Inv2 (s.setPh p (.clear m l (i + 1) live')) := by
      intro live' hlv
      refine inv2_setPh h2 (fun l hl => by rw [hph]; exact ⟨l, hl⟩) (by simp [hph, Ph.shares?]) (by simp [hph, Ph.own?]) ⟨?_, ?_⟩
      · exact othersSeen_oth (setPh_oth _ _ _) (by rw [setPh_self]) hseen
      · intro h1
        refine noneBelow_oth (setPh_oth _ _ _) ?_
        intro q hq hqp
        by_cases hqi : q = i
        · subst hqi; exact (hlv h1).2 hqp
        · exact hbel (hlv h1).1 q (by omega) hqp
    split at hs
    · rename_i hi
      split at hs
      · rename_i hor
        simp only [Option.some.injEq] at hs
        subst hs
        refine hnext live fun h1 => ⟨h1, fun hip => ?_⟩
        rcases hor with h3 | h3
        · exact absurd h3 hip
        · refine Classical.byContradiction fun hn => ?_
          have := hseen i hip hn
          rw [this] at h3; simp at h3
      · rename_i hor
        have hip : i ≠ p := fun h1 => hor (.inl h1)
        split at hs
        · rename_i hmk
          simp only [Option.some.injEq] at hs
          subst hs
          refine hnext live fun h1 => ⟨h1, fun hip => hnone i hip ?_⟩
          intro l' hl'
          have := (h2.shr i l' hl').mark
          rw [hmk] at this; simp at this
        · rename_i g hmk
          have hgen : ∀ l', (s.host i).ph.shares? = some l' → g = (s.host i).gen ∧ (s.host i).alive = true := by
            intro l' hl'
            have h3 := (h2.shr i l' hl').mark
            rw [hmk] at h3
            simp only [Option.some.injEq] at h3
            exact ⟨h3, ((h.host i).alive (by intro h4; rw [h4] at hl'; simp [Ph.shares?] at hl')).1⟩
          split at hs
          · rename_i hg0
            simp only [Option.some.injEq] at hs
            subst hs
            refine hnext live fun h1 => ⟨h1, fun hip => hnone i hip ?_⟩
            intro l' hl'
            obtain ⟨h3, h4⟩ := hgen l' hl'
            have := h2.gen i h4
            omega
          · split at hs
            · rename_i hdead
              simp only [Option.some.injEq] at hs
              subst hs
              subst hdead
              have hex : Expired s i g := by
                have := ha.2
                simp only [hph] at this
                exact this g (by rw [hmk]; rfl)
              have hni : (s.host i).ph.shares? = none := by
                refine hnone i hip ?_
                intro l' hl'
                obtain ⟨h3, h4⟩ := hgen l' hl'
                rcases hex with h5 | ⟨_, h5⟩
                · omega
                · rw [h4] at h5; simp at h5
              refine inv2_setPh h2 (fun l hl => by rw [hph]; exact ⟨l, hl⟩) (by simp [hph, Ph.shares?]) (by simp [hph, Ph.own?]) ⟨?_, ?_, ?_⟩
              · exact othersSeen_oth (setPh_oth _ _ _) (by rw [setPh_self]) hseen
              · rw [setPh_oth _ _ _ i hip]; exact hni
              · intro h1; exact noneBelow_oth (setPh_oth _ _ _) (hbel h1)
            · simp only [Option.some.injEq] at hs
              subst hs
              exact hnext true (by simp)
    · rename_i hi
      simp only [Option.some.injEq] at hs
      subst hs
      have hno : live = false → NoOther s p := by
        intro h1 q hq
        refine hnone q hq ?_
        intro l' hl'
        have : q < c.hosts := ((h.host q).alive (by intro h4; rw [h4] at hl'; simp [Ph.shares?] at hl')).2
        rw [hbel h1 q (by omega) hq] at hl'; simp at hl'
      cases live
      · have := noOther_oth (setPh_oth s p (clearEnd m l false)) (hno rfl)
        cases m
        · exact inv2_setPh h2 (by simp [clearEnd, Ph.mode?]) (by simp [clearEnd, Ph.shares?]) (by simp [hph, clearEnd, Ph.own?]) this
        · exact inv2_setPh h2 (by simp [clearEnd, Ph.mode?]) (by simp [clearEnd, Ph.shares?]) (by simp [hph, clearEnd, Ph.own?]) this
        · exact inv2_setPh h2 (by simp [clearEnd, Ph.mode?]) (by simp [clearEnd, Ph.shares?]) (by simp [hph, clearEnd, Ph.own?]) this
      · cases m
        · exact inv2_setPh h2 (by simp [clearEnd, Ph.mode?]) (by simp [clearEnd, Ph.shares?]) (by simp [hph, clearEnd, Ph.own?]) trivial
        · exact inv2_setPh h2 (by simp [clearEnd, Ph.mode?]) (by simp [clearEnd, Ph.shares?]) (by simp [hph, clearEnd, Ph.own?]) trivial
        · exact inv2_setPh h2 (by simp [clearEnd, Ph.mode?]) (by simp [hph, clearEnd, Ph.shares?, Mode.shared?, Next.shared?])
            (by simp [clearEnd, Ph.own?]) trivial
  · simp at hs

theorem inv2_clearFail {s : State} {p : Nat} {m : Mode} {l : Rec} (h2 : Inv2 s) (hsh : (s.host p).ph.shares? = m.shared?)
    (hown : (s.host p).ph.own? = some l) : Inv2 (s.setPh p (clearFail m l)) := by
  cases m
  · exact inv2_setPh h2 (by simp [clearFail, Ph.mode?]) (by simp [clearFail, Ph.shares?]) (fun l' hl' => by rw [hown]; exact hl') trivial
  · exact inv2_setPh h2 (by simp [clearFail, Ph.mode?]) (by simp [clearFail, Ph.shares?]) (fun l' hl' => by rw [hown]; exact hl') trivial
  · exact inv2_setPh h2 (by simp [clearFail, Ph.mode?]) (fun l' hl' => by rw [hsh]; exact hl')
      (by simp [clearFail, Ph.own?]) trivial

theorem inv2_clearWrite {c : Cfg} {s s' : State} {low p : Nat} {res : WriteRes} (h : Inv c s low) (h2 : Inv2 s)
    (hs : step c s (.clearWrite p res) = some s') : Inv2 s' := by
  simp only [step] at hs
  split at hs
  · rename_i m l i live hph
    have hp1 := (h.host p).ph
    rw [hph] at hp1
    have hip := hp1.2
    have hp := (h2.host p).ph
    rw [hph] at hp
    have hsi := hp.2.1
    have hend : ∀ s1 : State, Inv2 s1 → (s1.host p).ph = .clearW m l i live →
        Inv2 (s1.setPh p (if res = .ok then .clear m l (i + 1) live else clearFail m l)) := by
      intro s1 h1 hph1
      have hp1 := (h1.host p).ph
      rw [hph1] at hp1
      obtain ⟨hseen, hni, hbel⟩ := hp1
      split
      · refine inv2_setPh h1 (fun l hl => by rw [hph1]; exact ⟨l, hl⟩) (by simp [hph1, Ph.shares?]) (by simp [hph1, Ph.own?]) ⟨?_, ?_⟩
        · exact othersSeen_oth (setPh_oth _ _ _) (by rw [setPh_self]) hseen
        · intro h3
          refine noneBelow_oth (setPh_oth _ _ _) ?_
          intro q hq hqp
          by_cases hqi : q = i
          · subst hqi; exact hni
          · exact hbel h3 q (by omega) hqp
      · exact inv2_clearFail h1 (by rw [hph1]; rfl) (by rw [hph1]; rfl)
    simp only [Option.some.injEq] at hs
    subst hs
    cases hl : lands res
    · simp only [Bool.false_eq_true, if_false]
      exact hend s h2 hph
    · simp only [if_true]
      have hsm : ∀ q, Same s ((s.raise i (s.B.disk 0 i).lver).putBlk i Blk.zero false none) q := by
        intro q
        by_cases hq : q = i
        · subst hq; constructor <;> simp [State.raise, State.putBlk, State.setHost, upd_apply, Ballot.State.setDisk]
        · constructor <;> simp [State.raise, State.putBlk, State.setHost, upd_apply, Ballot.State.setDisk, hq]
      refine hend _ ?_ (by rw [(hsm p).ph]; exact hph)
      have hpk := (h2.host p)
      refine inv2_of (a := p) h2 (fun q _ => hsm q) ?_ (fun _ h => h) (Nat.le_refl _) (by rw [(hsm p).alive, (hsm p).gen]; exact h2.gen p) ?_ ?_
      · intro q hq hsh
        have hqi : q ≠ i := by intro e; rw [e] at hsh; exact hsh hsi
        simp [State.raise, State.putBlk, State.setHost, upd_apply, hqi]
      · intro l' hl'
        rw [(hsm p).ph] at hl'
        refine .inl ⟨hl', ?_⟩
        have hpi : p ≠ i := fun e => hip e.symm
        rw [(hsm p).gen, ← (h2.shr p l' hl').mark]
        simp [State.raise, State.putBlk, State.setHost, upd_apply, hpi]
      · refine hs_mono (a := p + 1) (by omega) (hsm p) (fun _ h => h) ?_ hpk
        intro q l' hl'
        rw [(hsm q).ph] at hl'; exact .inl hl'
  · simp at hs

/-- A host that owns the lease begins to share it. -/
theorem inv2_share {c : Cfg} {s : State} {low p v : Nat} {w : Wr} {ph : Ph} {l : Rec} (hc : c.hosts ≤ c.maxHosts) (hd : c.disks = 1)
    (h : Inv c s low) (h2 : Inv2 s) (hown : (s.host p).ph.own? = some l) (hgood : GoodRel c s p) (hok : w.res = .ok)
    (hsh : ph.shares? = some l) (hno : ph.own? = none) (hm : ph.mode? = none) (hp : ∀ x, SPhOk x p ph) :
    Inv2 (ownWrite s p v true (some (s.host p).gen) w ph) := by
  obtain ⟨h1, h2', h3, h4, h5, h6, h7, h8, h9⟩ := ownWrite_facts s p v true (some (s.host p).gen) w ph
  obtain ⟨_, _, _, _, _, hmk, _⟩ := own_put (s := s) (p := p) (v := v) (fl := true) (mk := some (s.host p).gen) (w := w) (ph := ph)
    hgood.1.1
  have O := (ownOk_of_inv h hown).1
  have hL := (h2.host p).own l hown
  have hlv := O.lver
  have hrv := O.relv
  refine inv2_of h2 h1 (fun q hq _ => h2' q hq) (by rw [h3]; exact fun _ h => h) (by rw [h4]; exact Nat.le_refl _) (by rw [h7, h6]; exact h2.gen p) ?_
    ⟨by rw [h5]; exact hp _, ?_, ?_, ?_⟩
  · intro l' hl'
    rw [h5, hsh] at hl'
    simp only [Option.some.injEq] at hl'
    subst hl'
    refine .inr ⟨fresh_of_own hc hd h hown, ?_, by rw [h3]; exact hL.1, by omega, hL.2, by rw [h4]; omega⟩
    rw [hmk, h6, hok]; rfl
  · intro l' hl'; rw [h5, hno] at hl'; simp at hl'
  · rw [h8, h9]; exact (h2.host p).cnt.1
  · intro l' hl'; rw [h5, hm] at hl'; simp at hl'

theorem inv2_relRead {c : Cfg} {s s' : State} {low p : Nat} (h : Inv c s low) (h2 : Inv2 s)
    (hs : step c s (.relRead p) = some s') : Inv2 s' := by
  simp only [step] at hs
  split at hs
  · rename_i last k hph
    have hp1 := (h.host p).ph
    rw [hph] at hp1
    have hpl : ∀ ph, ph.mode? = none → (∀ l, ph.shares? = some l → k.shared? = some l) → (∀ x, SPhOk x p ph) → ph.own? = none →
        Inv2 (s.setPh p ph) := by
      intro ph e1 e2 e3 e4
      refine inv2_plain h2 (fun l hl => by rw [e1] at hl; simp at hl) ?_ e3 e4
      intro l hl; rw [hph]; exact e2 l hl
    have hfail : (∀ l, k ≠ .down l) → Inv2 (s.setPh p (relFailed k)) := by
      intro hk
      cases k with
      | down l => exact absurd rfl (hk l)
      | _ => exact hpl _ rfl (by simp [relFailed, Ph.shares?, Next.shared?]) (fun _ => trivial) rfl
    split at hs
    · simp only [Option.some.injEq] at hs
      subst hs
      cases k <;> exact hpl _ rfl (by simp [relDone, Ph.shares?, Next.shared?]) (fun _ => trivial) rfl
    · rename_i hw
      have hw : s.ldr.wid = p + 1 := by omega
      have hdn : ∀ l, k = .down l → s.ldr = l ∧ last = some l ∧ l.ts ≠ 0 ∧ l.owner = p + 1 ∧ l.gen = (s.host p).gen := by
        intro l hk
        subst hk
        obtain ⟨h1, h3⟩ := hp1
        rcases h3 with h3 | ⟨h3, h4, h5, h6⟩
        · exact absurd hw h3
        · exact ⟨h3, h1, h4, h5, h6⟩
      have hfin : ∀ (hs' : s.setPh p (relFailed k) = s'), (∀ l, k = .down l → False) → Inv2 s' := by
        intro hs' hk; rw [← hs']; exact hfail fun l hl => hk l hl
      split at hs
      · rename_i hv
        simp only [Option.some.injEq] at hs
        refine hfin hs fun l hk => hv ?_
        obtain ⟨a1, a2, _⟩ := hdn l hk
        rw [a2, a1]; rfl
      · split at hs
        · rename_i hv
          simp only [Option.some.injEq] at hs
          refine hfin hs fun l hk => ?_
          obtain ⟨a1, _, a3, _⟩ := hdn l hk
          rw [a1] at hv; exact a3 hv
        · split at hs
          · rename_i hv
            simp only [Option.some.injEq] at hs
            refine hfin hs fun l hk => ?_
            obtain ⟨a1, _, _, a4, a5⟩ := hdn l hk
            rw [a1] at hv; omega
          · split at hs
            · rename_i hv
              simp only [Option.some.injEq] at hs
              refine hfin hs fun l hk => hv ?_
              obtain ⟨a1, a2, _⟩ := hdn l hk
              rw [a2, a1]; rfl
            · simp only [Option.some.injEq] at hs
              subst hs
              refine inv2_move (a := p) (ph := .relW s.ldr k) h2 (fun q hq => ?_) (fun _ _ _ => rfl) (fun _ h => h) (Nat.le_refl _)
                (by simp [State.setPh, State.setHost, State.raise]) (by simp [State.setPh, State.setHost, State.raise])
                (by simp [State.setPh, State.setHost, State.raise]) (by simp [State.setPh, State.setHost, State.raise])
                (by simp [State.setPh, State.setHost, State.raise]) (by simp [Ph.mode?]) ?_ (by simp [Ph.own?]) trivial
              · constructor <;> simp [State.setPh, State.setHost, State.raise, upd_apply, hq]
              · intro l hl; rw [hph]; exact ⟨hl, rfl⟩
  · simp at hs

theorem inv2_relWrite {c : Cfg} {s s' : State} {p : Nat} {res : WriteRes} {now : Nat} (h2 : Inv2 s)
    (ha : Allowed0 c s (.relWrite p res now)) (hs : step c s (.relWrite p res now) = some s') : Inv2 s' := by
  simp only [step] at hs
  split at hs
  · rename_i l k hph
    simp only [Option.some.injEq] at hs
    subst hs
    have hst : lands res = true → s.ldr.lver ≤ l.lver := by
      intro hl
      cases k <;> simp only [Allowed0, hph] at ha <;> first | exact ha hl | exact ha.1
    have hend : ∀ (s1 : State) ph, s1.host = s.host → s1.mark = s.mark → s1.B = s.B → s.ldr.lver ≤ s1.ldr.lver →
        ph.mode? = none → (∀ l, ph.shares? = some l → k.shared? = some l) → (∀ x, SPhOk x p ph) → ph.own? = none →
        Inv2 (s1.setPh p ph) := by
      intro s1 ph e1 e2 e3 e4 e5 e6 e7 e8
      refine inv2_move (a := p) (ph := ph) h2 (fun q hq => ?_) (fun q _ _ => by simp [State.setPh, State.setHost, e2])
        (by simp [State.setPh, State.setHost, e3]) e4
        (by simp [State.setPh, State.setHost]) (by simp [State.setPh, State.setHost, e1]) (by simp [State.setPh, State.setHost, e1])
        (by simp [State.setPh, State.setHost, e1]) (by simp [State.setPh, State.setHost, e1]) ?_ ?_ ?_ (e7 _)
      · constructor <;> simp [State.setPh, State.setHost, upd_apply, hq, e1, e3]
      · intro l hl; rw [e5] at hl; simp at hl
      · intro l hl; rw [hph]; exact ⟨e6 l hl, by simp [State.setPh, State.setHost, e2]⟩
      · intro l hl; rw [e8] at hl; simp at hl
    have hk : ∀ ph, ph = (if res = .ok then relDone k else relRetry l k) →
        ph.mode? = none ∧ (∀ l, ph.shares? = some l → k.shared? = some l) ∧ (∀ x, SPhOk x p ph) ∧ ph.own? = none := by
      intro ph hph
      subst hph
      split <;> cases k <;> refine ⟨rfl, ?_, fun _ => trivial, rfl⟩ <;> simp [relDone, relRetry, Ph.shares?, Next.shared?]
    obtain ⟨k1, k2, k3, k4⟩ := hk _ rfl
    cases hl : lands res
    · simp only [Bool.false_eq_true, if_false]
      exact hend s _ rfl rfl rfl (Nat.le_refl _) k1 k2 k3 k4
    · simp only [if_true]
      exact hend _ _ rfl rfl rfl (hst hl) k1 k2 k3 k4
  · simp at hs

theorem inv2_step {c : Cfg} {s s' : State} {low : Nat} {a : Act} (hc : c.hosts ≤ c.maxHosts) (hd : c.disks = 1) (h : Inv c s low)
    (h2 : Inv2 s) (ha : Allowed0 c s a) (hax : AllowedX c s a) (hs : step c s a = some s') : Inv2 s' := by
  obtain ⟨low', h'⟩ := inv_step hc hd h ha hs
  cases a with
  | begin p shared =>
    simp only [step] at hs
    split at hs
    · rename_i hph
      split at hs
      · simp only [Option.some.injEq] at hs
        subst hs
        refine inv2_of h2 (fun q hq => same_setHost s p _ q hq) (fun _ _ _ => rfl) (fun _ h => h) (Nat.le_refl _) ?_ ?_ ⟨?_, ?_, ?_, ?_⟩
        · simp only [State.setHost, upd_same]; exact h2.gen p
        · intro l hl
          cases shared <;> simp [State.setHost, Ph.shares?, Mode.shared?] at hl
        · simp only [State.setHost, upd_same]; trivial
        · simp [State.setHost, Ph.own?]
        · simp [State.setHost]
        · simp [State.setHost]
      · simp at hs
    · simp at hs
  | convert p =>
    simp only [step] at hs
    split at hs
    · rename_i l hph
      simp only [Option.some.injEq] at hs
      subst hs
      refine inv2_of h2 (fun q hq => same_setHost s p _ q hq) (fun _ _ _ => rfl) (fun _ h => h) (Nat.le_refl _) ?_ ?_ ⟨?_, ?_, ?_, ?_⟩
      · simp only [State.setHost, upd_same]; exact h2.gen p
      · intro l' hl'
        simp only [State.setHost, upd_same, Ph.shares?, Mode.shared?, Option.some.injEq] at hl'
        subst hl'
        have hsh : (s.host p).ph.shares? = some l := by rw [hph]; rfl
        refine .inl ⟨hsh, ?_⟩
        simp only [State.setHost, upd_same]
        exact (h2.shr p l hsh).mark
      · simp only [State.setHost, upd_same]; trivial
      · simp [State.setHost, Ph.own?]
      · simp [State.setHost]
      · simp [State.setHost]
    · simp at hs
  | read p max => exact inv2_read h2 hs
  | ownerGone p =>
    simp only [step] at hs
    split at hs
    · rename_i hph
      simp only [Option.some.injEq] at hs
      subst hs
      exact inv2_toRun h2 hph
    · simp at hs
  | ownerReleased p =>
    simp only [step] at hs
    split at hs
    · rename_i hph
      split at hs
      · simp only [Option.some.injEq] at hs
        subst hs
        exact inv2_toRun h2 hph
      · simp at hs
    · simp at hs
  | ownerLive p =>
    simp only [step] at hs
    split at hs
    · rename_i hph
      simp only [Option.some.injEq] at hs
      subst hs
      exact inv2_plain h2 (fun l hl => by rw [hph]; exact ⟨l, hl⟩) (fun l hl => by rw [hph]; exact hl) (fun _ => trivial) rfl
    · simp at hs
  | restart p =>
    simp only [step] at hs
    split at hs
    · rename_i hph
      simp only [Option.some.injEq] at hs
      subst hs
      exact inv2_plain h2 (fun l hl => by rw [hph]; exact ⟨l, hl⟩) (fun l hl => by rw [hph]; exact hl) (fun _ => trivial) rfl
    · simp at hs
  | check p => exact inv2_check hc hd h h' h2 hax hs
  | bal p a =>
    simp only [step] at hs
    split at hs
    · rename_i m cur mbal hph
      split at hs
      · rename_i hb
        split at hs
        · simp at hs
        · rename_i B' hB
          simp only [Option.some.injEq] at hs
          subst hs
          exact inv2_bal hd h h2 hph hb hB
      · simp at hs
    · simp at hs
  | retry p =>
    simp only [step] at hs
    split at hs
    · rename_i m cur mbal hph hpc
      have hp := (h2.host p).ph
      rw [hph] at hp
      simp only [Option.some.injEq] at hs
      subst hs
      refine inv2_setPh h2 (fun l hl => by rw [hph]; exact ⟨l, hl⟩) (fun l hl => by rw [hph]; exact hl) (by simp [Ph.own?]) ?_
      intro hv
      refine sawAll_oth (setPh_oth _ _ _) (by rw [setPh_self]) (hp.1 ?_)
      rw [setPh_self] at hv; exact hv
    · simp at hs
  | abort p =>
    simp only [step] at hs
    split at hs
    · rename_i m hph
      simp only [Option.some.injEq] at hs
      subst hs
      exact inv2_failed h2 (by rw [hph]; rfl)
    · rename_i m _ _ hph
      simp only [Option.some.injEq] at hs
      subst hs
      exact inv2_failed h2 (by rw [hph]; rfl)
    · rename_i m _ _ _ hph
      simp only [Option.some.injEq] at hs
      subst hs
      exact inv2_failed h2 (by rw [hph]; rfl)
    · rename_i m _ _ hph
      simp only [Option.some.injEq] at hs
      subst hs
      cases m <;> refine inv2_leave h2 (by simp [failed, Ph.mode?]) ?_ rfl trivial <;>
        simp [failed, Ph.shares?, hph, Mode.shared?]
    · simp at hs
  | retract p =>
    simp only [step] at hs
    split at hs
    · rename_i m _ _ hph
      simp only [Option.some.injEq] at hs
      subst hs
      cases m <;> refine inv2_leave h2 (by simp [Ph.mode?]) ?_ rfl trivial <;>
        simp [Ph.shares?, hph, Mode.shared?, Next.shared?]
    · simp at hs
  | commit p res now => exact inv2_commit hc hd h h' h2 ha hs
  | lostDone p w =>
    simp only [step] at hs
    split at hs
    · rename_i hph
      simp only [Option.some.injEq] at hs
      subst hs
      exact inv2_plain h2 (by simp [Ph.mode?]) (by simp [Ph.shares?]) (fun _ => trivial) rfl
    · rename_i l0 hph
      simp only [Option.some.injEq] at hs
      subst hs
      exact inv2_plain h2 (by simp [Ph.mode?]) (by simp [Ph.shares?, hph, Mode.shared?]) (fun _ => trivial) rfl
    · simp only [Option.some.injEq] at hs
      subst hs
      exact inv2_ownWrite h2 rfl rfl (by simp [Ph.own?]) trivial
    · simp at hs
  | lostRetry p =>
    simp only [step] at hs
    split at hs
    · simp only [Option.some.injEq] at hs
      subst hs
      exact inv2_plain h2 (by simp [Ph.mode?]) (by simp [Ph.shares?, Mode.shared?]) (fun _ => trivial) rfl
    · simp at hs
  | eraseSelf p w =>
    simp only [step] at hs
    split at hs
    · simp only [Option.some.injEq] at hs
      subst hs
      exact inv2_ownWrite h2 rfl rfl (by simp [Ph.own?]) trivial
    · simp at hs
  | decide p => exact inv2_decide h2 hs
  | share p w =>
    simp only [step] at hs
    split at hs
    · rename_i l hph
      simp only [Option.some.injEq] at hs
      subst hs
      by_cases hok : w.res = .ok
      · simp only [hok, if_true]
        exact inv2_share hc hd h h2 (by rw [hph]; rfl) ha hok rfl rfl rfl (fun _ => trivial)
      · simp only [hok, if_false]
        exact inv2_ownWrite h2 rfl rfl (by simp [Ph.own?]) trivial
    · simp at hs
  | clearStep p dead => exact inv2_clearStep h h2 hax hs
  | clearErr p =>
    simp only [step] at hs
    split at hs
    · rename_i m l i live hph
      simp only [Option.some.injEq] at hs
      subst hs
      exact inv2_clearFail h2 (by rw [hph]; rfl) (by rw [hph]; rfl)
    · simp at hs
  | clearWrite p res => exact inv2_clearWrite h h2 hs
  | mb p w =>
    simp only [step] at hs
    split at hs
    · rename_i l hph
      have hp := (h2.host p).ph
      rw [hph] at hp
      simp only [Option.some.injEq] at hs
      subst hs
      have e : (s.putOwn p false none w).setPh p (.heldX l) = ownWrite s p 0 false none w (.heldX l) := by
        simp [ownWrite, raise_zero]
      rw [e]
      refine inv2_ownWrite h2 rfl rfl (by simp [hph, Ph.own?]) ?_
      exact noOther_oth (fun q hq => ((ownWrite_facts s p 0 false none w (.heldX l)).1 q hq).ph) hp
    · simp at hs
  | undoWrite p w =>
    simp only [step] at hs
    split at hs
    · simp only [Option.some.injEq] at hs
      subst hs
      exact inv2_ownWrite h2 rfl rfl (by simp [Ph.own?]) trivial
    · simp at hs
  | releaseX p w =>
    simp only [step] at hs
    split at hs
    · simp only [Option.some.injEq] at hs
      subst hs
      exact inv2_ownWrite h2 rfl rfl (by simp [Ph.own?]) trivial
    · simp only [Option.some.injEq] at hs
      subst hs
      exact inv2_ownWrite h2 rfl rfl (by simp [Ph.own?]) trivial
    · simp at hs
  | ex2sh p w =>
    simp only [step] at hs
    split at hs
    · rename_i l hph
      split at hs
      · rename_i hok
        simp only [Option.some.injEq] at hs
        subst hs
        exact inv2_share hc hd h h2 (by rw [hph]; rfl) ha.1 hok rfl rfl rfl (fun _ => trivial)
      · rename_i hres
        have hlw := ha.2
        simp only [hres, decide_false] at hlw
        simp only [State.putOwn, hlw, Bool.false_eq_true, if_false, Option.some.injEq] at hs
        subst hs
        exact h2
    · simp at hs
  | dropX p =>
    simp only [step] at hs
    split at hs
    · simp only [Option.some.injEq] at hs
      subst hs
      exact inv2_plain h2 (by simp [Ph.mode?]) (by simp [Ph.shares?]) (fun _ => trivial) rfl
    · simp only [Option.some.injEq] at hs
      subst hs
      exact inv2_plain h2 (by simp [Ph.mode?]) (by simp [Ph.shares?]) (fun _ => trivial) rfl
    · simp at hs
  | relRead p => exact inv2_relRead h h2 hs
  | relErr p =>
    simp only [step] at hs
    split at hs
    · rename_i last k hph
      simp only [Option.some.injEq] at hs
      subst hs
      cases k with
      | down l => simp [Allowed0, hph] at ha
      | _ =>
        exact inv2_plain h2 (by simp [relFailed, Ph.mode?]) (by simp [relFailed, Ph.shares?, hph, Next.shared?]) (fun _ => trivial) rfl
    · simp at hs
  | relAgain p =>
    simp only [step] at hs
    split at hs
    · simp only [Option.some.injEq] at hs
      subst hs
      exact inv2_plain h2 (by simp [Ph.mode?]) (by simp [Ph.shares?]) (fun _ => trivial) rfl
    · simp only [Option.some.injEq] at hs
      subst hs
      exact inv2_plain h2 (by simp [Ph.mode?]) (by simp [Ph.shares?]) (fun _ => trivial) rfl
    · simp at hs
  | relWrite p res now => exact inv2_relWrite h2 ha hs
  | releaseS p w erase =>
    simp only [step] at hs
    split at hs
    · simp only [Option.some.injEq] at hs
      subst hs
      cases erase
      · exact inv2_ownWrite h2 rfl rfl (by simp [Ph.own?]) trivial
      · exact inv2_ownWrite h2 rfl rfl (by simp [Ph.own?]) trivial
    · simp at hs
  | dropS p =>
    simp only [step] at hs
    split at hs
    · simp only [Option.some.injEq] at hs
      subst hs
      exact inv2_plain h2 (by simp [Ph.mode?]) (by simp [Ph.shares?]) (fun _ => trivial) rfl
    · simp at hs
  | die p =>
    simp only [step, Option.some.injEq] at hs
    subst hs
    refine inv2_of (a := p) h2 (fun q hq => ?_) (fun _ _ _ => rfl) (fun _ h => h) (Nat.le_refl _) (by simp [State.setHost]) (by simp [State.setHost, Ph.shares?])
      ⟨?_, ?_, ?_, ?_⟩
    · constructor <;> simp [State.setHost, upd_apply, hq, Ballot.State.setPc, Ballot.State.setProc]
    · simp only [State.setHost, upd_same]; trivial
    · simp [State.setHost, Ph.own?]
    · simpa [State.setHost] using (h2.host p).cnt.1
    · simp [State.setHost, Ph.mode?]
  | join p =>
    simp only [step] at hs
    split at hs
    · simp at hs
    · rename_i hal
      simp only [Option.some.injEq] at hs
      subst hs
      have hid : (s.host p).ph = .idle := by
        refine Classical.byContradiction fun hn => ?_
        exact hal ((h.host p).alive hn).1
      refine inv2_of h2 (fun q hq => same_setHost s p _ q hq) (fun _ _ _ => rfl) (fun _ h => h) (Nat.le_refl _) (by simp [State.setHost])
        (by simp [State.setHost, Ph.shares?, hid]) ⟨?_, ?_, ?_, ?_⟩
      · simp only [State.setHost, upd_same, hid]; trivial
      · simp [State.setHost, hid, Ph.own?]
      · simpa [State.setHost] using (h2.host p).cnt.1
      · simp [State.setHost, hid, Ph.mode?]

theorem reach_of_reachX {c : Cfg} {s : State} (h : ReachX c s) : Reach c s := by
  induction h with
  | init => exact .init
  | step _ ha hs ih => exact .step ih ha.1 hs

theorem inv2_reach {c : Cfg} {s : State} (hc : c.hosts ≤ c.maxHosts) (hd : c.disks = 1) (h : ReachX c s) : Inv2 s := by
  induction h with
  | init => exact inv2_init
  | step hr ha hs ih =>
    obtain ⟨low, hi, w⟩ := inv_reach hc hd (reach_of_reachX hr)
    exact inv2_step hc hd hi ih (allowed0_of hi w ha.1 hs) ha hs

end Sanlock.Lease
