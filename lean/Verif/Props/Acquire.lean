import Verif.Acquire
import Verif.Props.Verify

/-!
# C03 (a live owner is not displaced), C04 (lease versions), C05 (release)
-/

namespace Sanlock.Acquire

open OnDisk Liveness Verify Crc

/-- The results obtained since the last (re)start of the acquire, newest first: everything after the latest
`paxos_lease_read`. -/
def seg : List In → List In
  | [] => []
  | .lease _ :: _ => []
  | i :: rest => i :: seg rest

/-- What the latest `paxos_lease_read` returned. -/
def lastLease : List In → Option (Leader × UInt64)
  | [] => none
  | .lease (.ok r) :: _ => some r
  | .lease (.error _) :: _ => none
  | _ :: rest => lastLease rest

/-- `l` was read as the owner's host lease at time `t` in this attempt. -/
def SawDelta (ins : List In) (t : UInt64) (l : Leader) : Prop := .delta t (.ok l) ∈ seg ins

/-- The renewal thread's table entry was consulted at time `t` in this attempt. -/
def SawStatus (ins : List In) (t : UInt64) (e : Option HostStatus) : Prop := ∃ g, .hostInfo t e g ∈ seg ins

/-! ## C03 -/

/-- What the wait loop knows. `δ` bounds the time from one operation to the next. -/
structure WInv (P : Par) (ins : List In) (w : Wait) : Prop where
  same : w.lastTs ≠ 0 → ∀ t l, SawDelta ins t l → l.timestamp = w.lastTs
  none' : w.lastTs = 0 → ∀ t l, ¬ SawDelta ins t l
  start : (∃ t e hs, SawStatus ins t e ∧ hostInfo P.ownIo e = some hs ∧ w.hs = hs ∧ hs.ownerId = w.cur.ownerId ∧
        hs.ownerGeneration = w.cur.ownerGeneration ∧ w.waitStart = hs.lastLive ∧ hs.lastLive ≠ 0 ∧
        (hs.timestamp ≠ 0 → w.lastTs = hs.timestamp)) ∨
      (∃ t e, SawStatus ins t e ∧ w.waitStart = t ∧
        ((∃ hs, hostInfo P.ownIo e = some hs ∧ w.hs = hs) ∨ hostInfo P.ownIo e = none) ∧
        (w.lastTs = 0 → ∃ g rest, seg ins = .hostInfo t e g :: rest) ∧
        (w.lastTs ≠ 0 → ∃ post t1 l1 g rest,
          seg ins = post ++ .delta t1 (.ok l1) :: .hostInfo t e g :: rest))

/-- The reasons for which acquire goes ahead although the record names another owner. -/
inductive Reason (P : Par) (ins : List In) (cur : Leader) : Prop
  | freed (t : UInt64) (l : Leader) : SawDelta ins t l → l.timestamp = 0 → Reason P ins cur
  | takenOver (t : UInt64) (l : Leader) : SawDelta ins t l → l.ownerId ≠ cur.ownerId → Reason P ins cur
  | rejoined (t : UInt64) (l : Leader) : SawDelta ins t l → l.ownerGeneration > cur.ownerGeneration → Reason P ins cur
  | released : .ownerBlk (some true) ∈ seg ins → cur.writeId ≠ cur.ownerId → Reason P ins cur
  | dead (w : Wait) (now r : UInt64) (l : Leader) (pre post : List In) :
      w.cur = cur → seg ins = post ++ .clock now :: .delta r (.ok l) :: pre →
      (∀ i ∈ post, ∀ t e g, i ≠ .hostInfo t e g) →
      WInv P ins w → w.lastTs ≠ 0 →
      now - w.waitStart > deadSecs P.wd w.hs.ioTimeout → Reason P ins cur

/-- The record may be taken without asking anybody. -/
def Free (P : Par) (cur : Leader) : Prop :=
  P.force = true ∨ cur.timestamp = 0 ∨ cur.ownerId = P.hostId

structure Inv (P : Par) (ins : List In) (s : St) : Prop where
  lockspace : ∀ cur m, s.pc = .lockspace cur m → lastLease ins = some (cur, m) ∧ seg ins = []
  hostInfo : ∀ cur m, s.pc = .hostInfo cur m → lastLease ins = some (cur, m) ∧
    ∀ i ∈ seg ins, ∃ r, i = .lockspace r
  delta : ∀ w, s.pc = .delta w → lastLease ins = some (w.cur, w.maxMbal) ∧ WInv P ins w
  ownerBlk : ∀ w, s.pc = .ownerBlk w → lastLease ins = some (w.cur, w.maxMbal) ∧ w.cur.writeId ≠ w.cur.ownerId
  clock : ∀ w, s.pc = .clock w → lastLease ins = some (w.cur, w.maxMbal) ∧ WInv P ins w ∧ w.lastTs ≠ 0 ∧
    ∃ r l pre, seg ins = .delta r (.ok l) :: pre
  sleep : ∀ w, s.pc = .sleep w → lastLease ins = some (w.cur, w.maxMbal) ∧ WInv P ins w ∧ w.lastTs ≠ 0
  reread : ∀ w, s.pc = .reread w → lastLease ins = some (w.cur, w.maxMbal) ∧ WInv P ins w ∧ w.lastTs ≠ 0
  retry : ∀ cur m c, s.pc = .retry cur m c → (∃ x, lastLease ins = some (cur, x)) ∧ (Free P cur ∨ Reason P ins cur)
  ballot : ∀ cur m, s.pc = .ballot cur m → (∃ x, lastLease ins = some (cur, x)) ∧ (Free P cur ∨ Reason P ins cur)
  write : ∀ cur, s.pc = .write cur → (∃ x, lastLease ins = some (cur, x)) ∧ (Free P cur ∨ Reason P ins cur)

/-- An input that is neither a lease read nor a delta read. -/
def Plain : In → Prop
  | .lease _ => False
  | .delta _ _ => False
  | _ => True

theorem seg_plain {i : In} (ins : List In) (h : Plain i) : seg (i :: ins) = i :: seg ins := by
  cases i <;> simp_all [Plain, seg]

theorem lastLease_plain {i : In} (ins : List In) (h : Plain i) : lastLease (i :: ins) = lastLease ins := by
  cases i <;> simp_all [Plain, lastLease]

theorem sawDelta_plain {i : In} (ins : List In) (h : Plain i) (t : UInt64) (l : Leader) :
    SawDelta (i :: ins) t l ↔ SawDelta ins t l := by
  unfold SawDelta
  rw [seg_plain ins h]
  cases i <;> simp_all [Plain]

theorem sawStatus_mono {i : In} {ins : List In} (h : seg (i :: ins) = i :: seg ins) {t : UInt64}
    {e : Option HostStatus} (hs : SawStatus ins t e) : SawStatus (i :: ins) t e := by
  obtain ⟨g, hg⟩ := hs
  exact ⟨g, by rw [h]; exact List.mem_cons_of_mem _ hg⟩

theorem winv_plain {P : Par} {ins : List In} {w : Wait} {i : In} (h : WInv P ins w) (hi : Plain i)
    (hts : w.lastTs ≠ 0) : WInv P (i :: ins) w := by
  have hs := seg_plain ins hi
  constructor
  · intro h0 t l hl; exact h.same h0 t l ((sawDelta_plain ins hi t l).mp hl)
  · intro h0 t l hl; exact h.none' h0 t l ((sawDelta_plain ins hi t l).mp hl)
  · rcases h.start with ⟨t, e, hs', g1, g2⟩ | ⟨t, e, g1, g2, g3, g4⟩
    · exact Or.inl ⟨t, e, hs', sawStatus_mono hs g1, g2⟩
    · refine Or.inr ⟨t, e, sawStatus_mono hs g1, g2, g3, fun h0 => absurd h0 hts, fun h0 => ?_⟩
      obtain ⟨post, t1, l1, g, rest, h1⟩ := g4.2 h0
      exact ⟨i :: post, t1, l1, g, rest, by rw [hs, h1]; rfl⟩

theorem reason_plain {P : Par} {ins : List In} {cur : Leader} {i : In} (h : Reason P ins cur) (hi : Plain i)
    (hn : ∀ t e g, i ≠ .hostInfo t e g) : Reason P (i :: ins) cur := by
  have hs := seg_plain ins hi
  cases h with
  | freed t l h1 h2 => exact .freed t l ((sawDelta_plain ins hi t l).mpr h1) h2
  | takenOver t l h1 h2 => exact .takenOver t l ((sawDelta_plain ins hi t l).mpr h1) h2
  | rejoined t l h1 h2 => exact .rejoined t l ((sawDelta_plain ins hi t l).mpr h1) h2
  | released h1 h2 => exact .released (by rw [hs]; exact List.mem_cons_of_mem _ h1) h2
  | dead w now r l pre post h1 h2 h3 h4 h5 h6 =>
    refine .dead w now r l pre (i :: post) h1 (by rw [hs, h2]; rfl) ?_ (winv_plain h4 hi h5) h5 h6
    intro j hj
    rcases List.mem_cons.mp hj with rfl | hj
    · exact hn
    · exact h3 j hj

theorem inv_settle {P : Par} {ins : List In} {s : St} (h : Inv P ins s) : Inv P ins (settle P s) := by
  unfold settle
  split
  · rename_i cur mbal hpc
    have hr := h.retry _ _ _ hpc
    unfold beforeBallot
    repeat' split
    all_goals constructor <;> intros <;> simp_all
  · exact h

theorem winv_delta {P : Par} {ins : List In} {w : Wait} {t : UInt64} {l : Leader} (h : WInv P ins w)
    (h0 : w.lastTs ≠ 0) (hl : l.timestamp = w.lastTs) : WInv P (.delta t (.ok l) :: ins) w := by
  have hs : seg (.delta t (.ok l) :: ins) = .delta t (.ok l) :: seg ins := rfl
  constructor
  · intro _ t' l' hl'
    rw [SawDelta, hs] at hl'
    rcases List.mem_cons.mp hl' with he | hm
    · simp only [In.delta.injEq, Except.ok.injEq] at he; rw [he.2]; exact hl
    · exact h.same h0 t' l' hm
  · intro h1; exact absurd h1 h0
  · rcases h.start with ⟨t', e, hs', g1, g2⟩ | ⟨t', e, g1, g2, g3, g4⟩
    · exact Or.inl ⟨t', e, hs', sawStatus_mono hs g1, g2⟩
    · refine Or.inr ⟨t', e, sawStatus_mono hs g1, g2, g3, fun h1 => absurd h1 h0, fun _ => ?_⟩
      obtain ⟨post, t1, l1, g, rest, h1⟩ := g4.2 h0
      exact ⟨.delta t (.ok l) :: post, t1, l1, g, rest, by rw [hs, h1]; rfl⟩

theorem winv_delta_first {P : Par} {ins : List In} {w : Wait} {t : UInt64} {l : Leader} (h : WInv P ins w)
    (h0 : w.lastTs = 0) (hl : l.timestamp ≠ 0) :
    WInv P (.delta t (.ok l) :: ins) { w with lastTs := l.timestamp } := by
  have hs : seg (.delta t (.ok l) :: ins) = .delta t (.ok l) :: seg ins := rfl
  constructor
  · intro _ t' l' hl'
    rw [SawDelta, hs] at hl'
    rcases List.mem_cons.mp hl' with he | hm
    · simp only [In.delta.injEq, Except.ok.injEq] at he; rw [he.2]
    · exact absurd hm (h.none' h0 t' l')
  · intro h1; exact absurd h1 hl
  · rcases h.start with ⟨t', e, hs', g1, g2, g3, g4, g5, g6, g6', g7⟩ | ⟨t', e, g1, g2, g3, g4⟩
    · refine Or.inl ⟨t', e, hs', sawStatus_mono hs g1, g2, g3, g4, g5, g6, g6', fun hh => ?_⟩
      exact absurd ((g7 hh).symm.trans h0) hh
    · refine Or.inr ⟨t', e, sawStatus_mono hs g1, g2, g3, fun h1 => absurd h1 hl, fun _ => ?_⟩
      obtain ⟨g, rest, h1⟩ := g4.1 h0
      exact ⟨[], t, l, g, rest, by rw [hs, h1]; rfl⟩

theorem inv_of_done {P : Par} {ins : List In} {s : St} {rv : Int} {a b} (h : s.pc = .done rv a b) :
    Inv P ins s := by
  constructor <;> intros <;> simp_all

theorem inv_of_restart {P : Par} {ins : List In} {s : St} (h : s.pc = .restart) : Inv P ins s := by
  constructor <;> intros <;> simp_all

theorem inv_of_retry {P : Par} {ins : List In} {s : St} {cur m c} (h : s.pc = .retry cur m c)
    (h1 : ∃ x, lastLease ins = some (cur, x)) (h2 : Free P cur ∨ Reason P ins cur) : Inv P ins s := by
  constructor <;> intros <;> simp_all

theorem inv_of_ballot {P : Par} {ins : List In} {s : St} {cur m} (h : s.pc = .ballot cur m)
    (h1 : ∃ x, lastLease ins = some (cur, x)) (h2 : Free P cur ∨ Reason P ins cur) : Inv P ins s := by
  constructor <;> intros <;> simp_all

theorem inv_of_write {P : Par} {ins : List In} {s : St} {cur} (h : s.pc = .write cur)
    (h1 : ∃ x, lastLease ins = some (cur, x)) (h2 : Free P cur ∨ Reason P ins cur) : Inv P ins s := by
  constructor <;> intros <;> simp_all

theorem inv_of_delta {P : Par} {ins : List In} {s : St} {w : Wait} (h : s.pc = .delta w)
    (h1 : lastLease ins = some (w.cur, w.maxMbal)) (h2 : WInv P ins w) : Inv P ins s := by
  constructor <;> intros <;> simp_all

theorem inv_of_sleep {P : Par} {ins : List In} {s : St} {w : Wait} (h : s.pc = .sleep w)
    (h1 : lastLease ins = some (w.cur, w.maxMbal)) (h2 : WInv P ins w) (h3 : w.lastTs ≠ 0) : Inv P ins s := by
  constructor <;> intros <;> simp_all

theorem inv_step {P : Par} {sum : Leader → UInt32} {ins : List In} {s s' : St} {i : In} (h : Inv P ins s)
    (hs : step P sum s i = some s') : Inv P (i :: ins) s' := by
  cases i with
  | lease r =>
    simp only [step] at hs
    split at hs
    · split at hs
      · simp only [Option.some.injEq] at hs; subst hs; exact inv_of_done rfl
      · rename_i cur m
        simp only [Option.some.injEq] at hs
        subst hs
        have h1 : lastLease (.lease (.ok (cur, m)) :: ins) = some (cur, m) := rfl
        have h2 : seg (.lease (.ok (cur, m)) :: ins) = [] := rfl
        unfold afterRead
        split
        · exact inv_of_restart rfl
        · split
          · rename_i hf; exact inv_of_retry rfl ⟨m, h1⟩ (Or.inl (Or.inl hf))
          · split
            · exact inv_of_done rfl
            · split
              · rename_i ht; exact inv_of_retry rfl ⟨m, h1⟩ (Or.inl (Or.inr (Or.inl ht)))
              · split
                · rename_i ht; exact inv_of_retry rfl ⟨m, h1⟩ (Or.inl (Or.inr (Or.inr ht.1)))
                · split
                  · rename_i ht; exact inv_of_retry rfl ⟨m, h1⟩ (Or.inl (Or.inr (Or.inr ht.1)))
                  · split
                    · constructor <;> intros <;> simp_all
                    · constructor <;> intros <;> simp_all
    · simp at hs
  | lockspace r =>
    have hp : Plain (.lockspace r) := trivial
    simp only [step] at hs
    split at hs
    · rename_i cur m hpc
      have h1 := h.lockspace _ _ hpc
      split at hs
      · simp only [Option.some.injEq] at hs; subst hs; exact inv_of_done rfl
      · simp only [Option.some.injEq] at hs
        subst hs
        constructor <;> intros <;> simp_all [lastLease, seg]
    · simp at hs
  | hostInfo t e g =>
    have hp : Plain (.hostInfo t e g) := trivial
    simp only [step] at hs
    split at hs
    · rename_i cur m hpc
      obtain ⟨h1, h2⟩ := h.hostInfo _ _ hpc
      simp only [Option.some.injEq] at hs
      subst hs
      have hl : lastLease (.hostInfo t e g :: ins) = some (cur, m) := by rw [lastLease_plain ins hp, h1]
      have hst : SawStatus (.hostInfo t e g :: ins) t e := ⟨g, by rw [seg_plain ins hp]; simp⟩
      have hnd : ∀ t' l', ¬ SawDelta (.hostInfo t e g :: ins) t' l' := by
        intro t' l' hl'
        rw [sawDelta_plain ins hp] at hl'
        obtain ⟨r, hr⟩ := h2 _ hl'
        simp at hr
      unfold afterHostInfo
      split
      · rename_i hs' he
        split
        · rename_i hc
          refine inv_of_delta rfl hl ⟨fun _ t' l' hl' => absurd hl' (hnd t' l'), fun _ => hnd, ?_⟩
          exact Or.inl ⟨t, e, hs', hst, he, rfl, hc.2.2.1, hc.2.2.2, rfl, hc.2.1, fun _ => rfl⟩
        · refine inv_of_delta rfl hl ⟨fun hh => absurd rfl hh, fun _ => hnd, ?_⟩
          exact Or.inr ⟨t, e, hst, rfl, Or.inl ⟨hs', he, rfl⟩, fun _ => ⟨g, seg ins, rfl⟩, fun hh => absurd rfl hh⟩
      · rename_i he
        refine inv_of_delta rfl hl ⟨fun hh => absurd rfl hh, fun _ => hnd, ?_⟩
        exact Or.inr ⟨t, e, hst, rfl, Or.inr he, fun _ => ⟨g, seg ins, rfl⟩, fun hh => absurd rfl hh⟩
    · simp at hs
  | delta t r =>
    simp only [step] at hs
    split at hs
    · rename_i w hpc
      obtain ⟨h1, h2⟩ := h.delta _ hpc
      split at hs
      · simp only [Option.some.injEq] at hs; subst hs; exact inv_of_done rfl
      · rename_i l
        simp only [Option.some.injEq] at hs
        subst hs
        have hl : lastLease (.delta t (.ok l) :: ins) = some (w.cur, w.maxMbal) := h1
        have hsd : SawDelta (.delta t (.ok l) :: ins) t l := by simp [SawDelta, seg]
        unfold afterDelta
        split
        · rename_i h0
          exact inv_of_retry rfl ⟨_, hl⟩ (Or.inr (.freed t l hsd h0))
        · rename_i h0
          split
          · rename_i hd
            rcases hd with hd | hd
            · exact inv_of_retry rfl ⟨_, hl⟩ (Or.inr (.takenOver t l hsd hd))
            · exact inv_of_retry rfl ⟨_, hl⟩ (Or.inr (.rejoined t l hsd hd))
          · split
            · rename_i hz
              exact inv_of_sleep rfl hl (winv_delta_first h2 hz h0) h0
            · rename_i hz
              split
              · split
                · constructor <;> intros <;> simp_all
                · exact inv_of_done rfl
              · rename_i hal
                have hts : l.timestamp = w.lastTs := by
                  refine Classical.byContradiction fun hh => hal (Or.inl hh)
                have hw := winv_delta (t := t) h2 hz hts
                constructor <;> intros <;> simp_all [seg]
    · simp at hs
  | ownerBlk r =>
    have hp : Plain (.ownerBlk r) := trivial
    simp only [step] at hs
    split at hs
    · rename_i w hpc
      obtain ⟨h1, h2⟩ := h.ownerBlk _ hpc
      have hl : lastLease (.ownerBlk r :: ins) = some (w.cur, w.maxMbal) := h1
      split at hs
      · rename_i hr
        simp only [Option.some.injEq] at hs
        subst hs
        exact inv_of_retry rfl ⟨_, hl⟩ (Or.inr (.released (by rw [seg_plain ins hp, hr]; simp) h2))
      · simp only [Option.some.injEq] at hs; subst hs; exact inv_of_done rfl
    · simp at hs
  | clock now =>
    have hp : Plain (.clock now) := trivial
    simp only [step] at hs
    split at hs
    · rename_i w hpc
      obtain ⟨h1, h2, h3, r, l, pre, h4⟩ := h.clock _ hpc
      have hl : lastLease (.clock now :: ins) = some (w.cur, w.maxMbal) := h1
      have hw := winv_plain h2 hp h3
      simp only [Option.some.injEq] at hs
      subst hs
      unfold afterClock
      split
      · rename_i hd
        refine inv_of_retry rfl ⟨_, hl⟩ (Or.inr (.dead w now r l pre [] rfl ?_ (by simp) hw h3 hd))
        rw [seg_plain ins hp, h4]; rfl
      · split
        · exact inv_of_done rfl
        · exact inv_of_sleep rfl hl hw h3
    · simp at hs
  | slept sh =>
    have hp : Plain (.slept sh) := trivial
    simp only [step] at hs
    split at hs
    · rename_i w hpc
      obtain ⟨h1, h2, h3⟩ := h.sleep _ hpc
      have hw := winv_plain h2 hp h3
      split at hs
      · simp only [Option.some.injEq] at hs; subst hs; exact inv_of_done rfl
      · simp only [Option.some.injEq] at hs
        subst hs
        constructor <;> intros <;> simp_all [lastLease]
    · simp at hs
  | leader r =>
    have hp : Plain (.leader r) := trivial
    simp only [step] at hs
    split at hs
    · rename_i w hpc
      obtain ⟨h1, h2, h3⟩ := h.reread _ hpc
      have hw := winv_plain h2 hp h3
      split at hs
      · simp only [Option.some.injEq] at hs; subst hs; exact inv_of_done rfl
      · split at hs
        · simp only [Option.some.injEq] at hs; subst hs; exact inv_of_restart rfl
        · simp only [Option.some.injEq] at hs; subst hs; exact inv_of_delta rfl h1 hw
    · rename_i cur mbal hpc
      obtain ⟨⟨x, h1⟩, h2⟩ := h.retry _ _ _ hpc
      split at hs
      · simp only [Option.some.injEq] at hs; subst hs; exact inv_of_done rfl
      · simp only [Option.some.injEq] at hs
        subst hs
        unfold beforeBallot
        split
        · split <;> exact inv_of_done rfl
        · split
          · exact inv_of_restart rfl
          · split
            · exact inv_of_restart rfl
            · exact inv_of_ballot rfl ⟨x, h1⟩ (h2.imp id (fun hh => reason_plain hh hp (by simp)))
    · simp at hs
  | ballot rv db rt =>
    have hp : Plain (.ballot rv db rt) := trivial
    simp only [step] at hs
    split at hs
    · rename_i cur mbal hpc
      obtain ⟨⟨x, h1⟩, h2⟩ := h.ballot _ _ hpc
      have h2' := h2.imp id (fun hh => reason_plain hh hp (by simp))
      split at hs
      · simp only [Option.some.injEq] at hs; subst hs; exact inv_of_retry rfl ⟨x, h1⟩ h2'
      · split at hs
        · simp only [Option.some.injEq] at hs; subst hs; exact inv_of_done rfl
        · simp only [Option.some.injEq] at hs; subst hs; exact inv_of_write rfl ⟨x, h1⟩ h2'
    · simp at hs
  | written now rv =>
    simp only [step] at hs
    split at hs
    · split at hs
      · simp only [Option.some.injEq] at hs; subst hs; exact inv_of_done rfl
      · split at hs <;> (simp only [Option.some.injEq] at hs; subst hs; exact inv_of_done rfl)
    · simp at hs

theorem inv_exec {P : Par} {sum : Leader → UInt32} {sec al : Nat} {ins : List In} {s : St}
    (h : Exec P sum (St.init sec al) ins s) : Inv P ins s := by
  induction h with
  | nil => exact inv_of_restart rfl
  | step _ hs ih => exact inv_settle (inv_step ih hs)

/-- The owner's host lease showed timestamp `T` at time `a`: it was read then in this attempt, or that is when
the host's own renewal thread last saw it change, to `T`. -/
def Observed (ins : List In) (cur : Leader) (T a : UInt64) : Prop :=
  (∃ l, SawDelta ins a l ∧ l.timestamp = T) ∨
  (∃ t hs, SawStatus ins t (some hs) ∧ hs.lastLive = a ∧ hs.timestamp = T ∧ hs.ownerId = cur.ownerId ∧
    hs.ownerGeneration = cur.ownerGeneration)

/-- The property C03 for what was read in this attempt: the owner's host id is free, is taken by another host,
has a newer generation, the owner released the lease, or the owner's host lease showed the same timestamp at two
times further apart than the host-dead time `8 * io_timeout + watchdog timeout` for the I/O timeout in that
lease.  `slack` (seconds) is subtracted from the latter. -/
inductive Justified (slack wd : Nat) (ins : List In) (cur : Leader) : Prop
  | freed (t : UInt64) (l : Leader) : SawDelta ins t l → l.timestamp = 0 → Justified slack wd ins cur
  | takenOver (t : UInt64) (l : Leader) : SawDelta ins t l → l.ownerId ≠ cur.ownerId → Justified slack wd ins cur
  | rejoined (t : UInt64) (l : Leader) : SawDelta ins t l → l.ownerGeneration > cur.ownerGeneration →
      Justified slack wd ins cur
  | released : .ownerBlk (some true) ∈ seg ins → cur.writeId ≠ cur.ownerId → Justified slack wd ins cur
  | notRenewed (T a b : UInt64) (l : Leader) : Observed ins cur T a → SawDelta ins b l → l.timestamp = T →
      a.toNat + (8 * l.ioTimeout.toNat + wd) < b.toNat + slack → Justified slack wd ins cur

/-- Time between operations: the first read of the owner's lease is at most `δ` seconds after the clock was read,
and the clock is read at most `δ` seconds after each read of the owner's lease. -/
def Prompt (δ : Nat) (ins : List In) : Prop :=
  (∀ post pre t1 x t e g, ins = post ++ .delta t1 x :: .hostInfo t e g :: pre → t1.toNat ≤ t.toNat + δ) ∧
  (∀ post pre now r x, ins = post ++ .clock now :: .delta r x :: pre → now.toNat ≤ r.toNat + δ)

/-- The clock does not go backwards: later readings are not before earlier ones, nor before the times recorded by
the renewal thread. -/
def Clocked (ins : List In) : Prop :=
  ∀ post pre now t e g, ins = post ++ .clock now :: pre → .hostInfo t e g ∈ pre →
    t.toNat ≤ now.toNat ∧ ∀ hs, e = some hs → hs.lastLive.toNat ≤ t.toNat

/-- The renewal thread's table has the owner, with the I/O timeout of the owner's lease; if it has seen the lease
change then to a held state. -/
def Table (P : Par) (ins : List In) : Prop :=
  ∀ t e t' l, SawStatus ins t e → SawDelta ins t' l → ∃ hs, e = some hs ∧
    (if hs.ioTimeout = 0 then P.ownIo else hs.ioTimeout) = l.ioTimeout ∧ (hs.lastLive ≠ 0 → hs.timestamp ≠ 0)

theorem seg_prefix (ins : List In) : ∃ rest, ins = seg ins ++ rest := by
  induction ins with
  | nil => exact ⟨[], rfl⟩
  | cons i ins ih =>
    obtain ⟨rest, hr⟩ := ih
    cases i with
    | lease r => exact ⟨.lease r :: ins, rfl⟩
    | _ => exact ⟨rest, by simp only [seg, List.cons_append]; rw [← hr]⟩

theorem dead_toNat (wd : Nat) (io : UInt16) (hw : wd < 2 ^ 31) :
    (deadSecs wd io).toNat = 8 * io.toNat + wd := by
  have := io.toNat_lt
  unfold deadSecs
  rw [UInt64.toNat_ofNat', Nat.mod_eq_of_lt (by omega)]

theorem sub_gt {now start : UInt64} {d : UInt64} (h : now - start > d) (hle : start.toNat ≤ now.toNat) :
    start.toNat + d.toNat < now.toNat := by
  have h1 := UInt64.toNat_sub_of_le now start (UInt64.le_iff_toNat_le.mpr hle)
  have h2 := UInt64.lt_iff_toNat_lt.mp h
  omega

theorem hostInfo_some {P : Par} {e : Option HostStatus} {hs : HostStatus} (h : hostInfo P.ownIo e = some hs) :
    ∃ h0, e = some h0 ∧ hs.ioTimeout = (if h0.ioTimeout = 0 then P.ownIo else h0.ioTimeout) ∧
      hs.lastLive = h0.lastLive ∧ hs.timestamp = h0.timestamp ∧ hs.ownerId = h0.ownerId ∧
      hs.ownerGeneration = h0.ownerGeneration := by
  cases e with
  | none => simp [hostInfo] at h
  | some h0 =>
    simp only [hostInfo, Option.map_some, Option.some.injEq] at h
    refine ⟨h0, rfl, ?_⟩
    subst h
    split <;> simp

theorem reason_justified {P : Par} {δ : Nat} {ins : List In} {cur : Leader} (hw : P.wd < 2 ^ 31)
    (hp : Prompt δ ins) (hc : Clocked ins) (ht : Table P ins) (h : Reason P ins cur) :
    Justified (2 * δ) P.wd ins cur := by
  obtain ⟨rest0, hpre⟩ := seg_prefix ins
  cases h with
  | freed t l h1 h2 => exact .freed t l h1 h2
  | takenOver t l h1 h2 => exact .takenOver t l h1 h2
  | rejoined t l h1 h2 => exact .rejoined t l h1 h2
  | released h1 h2 => exact .released h1 h2
  | dead w now r l pre post h1 h2 h3 h4 h5 h6 =>
    have hfull : ins = post ++ .clock now :: .delta r (.ok l) :: (pre ++ rest0) := by
      rw [h2] at hpre; simpa using hpre
    have hr := hp.2 _ _ _ _ _ hfull
    have hsd : SawDelta ins r l := by rw [SawDelta, h2]; simp
    have hls := h4.same h5 r l hsd
    have hmem : ∀ t e g, In.hostInfo t e g ∈ seg ins →
        In.hostInfo t e g ∈ In.delta r (.ok l) :: (pre ++ rest0) := by
      intro t e g hm
      rw [h2] at hm
      rcases List.mem_append.mp hm with hm | hm
      · exact absurd rfl (h3 _ hm t e g)
      · simp only [List.mem_cons, reduceCtorEq, false_or] at hm
        simp [hm]
    rcases h4.start with ⟨t, e, hs, g1, g2, g3, g4, g5, g6, hll, g7⟩ | ⟨t, e, g1, g2, g3, _, g5⟩
    · obtain ⟨h0, e0, e1, e2, e3, e4, e5⟩ := hostInfo_some g2
      obtain ⟨g, hg⟩ := g1
      obtain ⟨c1, c2⟩ := hc _ _ _ _ _ _ hfull (hmem t e g hg)
      obtain ⟨hs1, k0, k1, k2⟩ := ht t e r l ⟨g, hg⟩ hsd
      rw [e0] at k0
      simp only [Option.some.injEq] at k0
      subst k0
      have c3 := c2 _ e0
      have htn : hs.timestamp ≠ 0 := by rw [e3]; exact k2 (by rw [← e2]; exact hll)
      have h8 := sub_gt h6 (by rw [g6, e2]; omega)
      rw [dead_toNat _ _ hw, g3, e1, k1, g6] at h8
      refine .notRenewed hs.timestamp hs.lastLive r l (Or.inr ⟨t, h0, ⟨g, e0 ▸ hg⟩, e2.symm, e3.symm, ?_, ?_⟩)
        hsd (by rw [hls, g7 htn]) (by omega)
      · rw [← e4, g4, h1]
      · rw [← e5, g5, h1]
    · obtain ⟨post', t1, l1, g, rest, hseg⟩ := g5 h5
      have hg : In.hostInfo t e g ∈ seg ins := by rw [hseg]; simp
      obtain ⟨hs1, k0, k1, k2⟩ := ht t e r l ⟨g, hg⟩ hsd
      have hs : hostInfo P.ownIo e = some (if hs1.ioTimeout = 0 then { hs1 with ioTimeout := P.ownIo } else hs1) := by
        rw [k0]; rfl
      have hio : w.hs.ioTimeout = l.ioTimeout := by
        rcases g3 with ⟨hs', m1, m2⟩ | m1
        · obtain ⟨h0, e0, e1, _⟩ := hostInfo_some m1
          rw [k0] at e0
          simp only [Option.some.injEq] at e0
          rw [m2, e1, ← e0, k1]
        · rw [hs] at m1; simp at m1
      obtain ⟨c1, _⟩ := hc _ _ _ _ _ _ hfull (hmem t e g hg)
      have h8 := sub_gt h6 (by rw [g2]; exact c1)
      rw [dead_toNat _ _ hw, hio, g2] at h8
      have hfull2 : ins = post' ++ .delta t1 (.ok l1) :: .hostInfo t e g :: (rest ++ rest0) := by
        rw [hseg] at hpre; simpa using hpre
      have h9 := hp.1 _ _ _ _ _ _ _ hfull2
      have hsd1 : SawDelta ins t1 l1 := by rw [SawDelta, hseg]; simp
      have := h4.same h5 t1 l1 hsd1
      exact .notRenewed w.lastTs t1 r l (Or.inl ⟨l1, hsd1, this⟩) hsd hls (by omega)

/-- **C03.** When acquire (without force) runs a ballot, the record it starts from is free, names the host itself,
or what was read in this attempt justifies taking the lease from its owner; the time without a renewal falls
short of the host-dead time by at most twice the delay `δ` between operations. -/
theorem displace_justified_partial {P : Par} {sum : Leader → UInt32} {sec al δ : Nat} {ins : List In} {s : St}
    (hw : P.wd < 2 ^ 31) (hf : P.force = false) (h : Exec P sum (St.init sec al) ins s)
    (hp : Prompt δ ins) (hc : Clocked ins) (ht : Table P ins) {cur : Leader} {mbal : UInt64}
    (hb : s.pc = .ballot cur mbal) :
    (∃ m, lastLease ins = some (cur, m)) ∧
    (cur.timestamp = 0 ∨ cur.ownerId = P.hostId ∨ Justified (2 * δ) P.wd ins cur) := by
  obtain ⟨h1, h2⟩ := (inv_exec h).ballot _ _ hb
  refine ⟨h1, ?_⟩
  rcases h2 with (h2 | h2 | h2) | h2
  · rw [hf] at h2; simp at h2
  · exact Or.inl h2
  · exact Or.inr (Or.inl h2)
  · exact Or.inr (Or.inr (reason_justified hw hp hc ht h2))

theorem exec_run {P : Par} {sum : Leader → UInt32} {s0 : St} {done todo : List In} {s s' : St}
    (h : Exec P sum s0 done s) (hr : run P sum s todo = some s') : Exec P sum s0 (todo.reverse ++ done) s' := by
  induction todo generalizing s done with
  | nil => simp only [run, Option.some.injEq] at hr; subst hr; exact h
  | cons i rest ih =>
    simp only [run] at hr
    cases hs : step P sum s i with
    | none => simp [hs] at hr
    | some s1 =>
      simp only [hs, Option.bind_some] at hr
      have := ih (.step h hs) hr
      simpa using this

/-- A lease record: version 5, owned by host 2 in generation 3, written by that host. -/
def exCur : Leader :=
  { exLeader with
    ownerId := 2, ownerGeneration := 3, lver := 5, timestamp := 700, writeId := 2, writeGeneration := 3
    sectorSize := 512, flags := 0x10, maxHosts := 2000, numHosts := 2000 }

/-- The host lease of host 2, generation 3, I/O timeout `io`, timestamp `ts`. -/
def exDelta (io : UInt16) (ts : UInt64) : Leader :=
  { exLeader with ownerId := 2, ownerGeneration := 3, timestamp := ts, ioTimeout := io }

/-- Host 1, generation 1, I/O timeout 10. -/
def exPar : Par :=
  { hostId := 1, hostGen := 1, acquireLver := 0, newNumHosts := 0, force := false, nowait := false, shared := false,
    ownIo := 10, wd := 60 }

def exStatus (io : UInt16) (check live ts : UInt64) : HostStatus :=
  { firstCheck := 100, lastCheck := check, lastLive := live, ownerId := 2, ownerGeneration := 3, timestamp := ts,
    ioTimeout := io, leaseBad := 0 }

def isBallot (s : St) : Bool := match s.pc with | .ballot .. => true | _ => false

/-- Non-vacuity: the renewal thread saw the owner change last at 1000 and not at 1020; a read at 1141 shows the same
timestamp. -/
def exDead : List In :=
  [.lease (.ok (exCur, 0)), .lockspace (.ok ()), .hostInfo 1141 (some (exStatus 10 1020 1000 980)) .zero,
    .delta 1141 (.ok (exDelta 10 980)), .clock 1141, .leader (.ok exCur)]

example : ((run exPar (fun _ => 0) (St.init 512 1048576) exDead).map isBallot) = some true := by decide

/-- The owner is found alive: no ballot. -/
example : ((run exPar (fun _ => 0) (St.init 512 1048576)
    [.lease (.ok (exCur, 0)), .lockspace (.ok ()), .hostInfo 1041 (some (exStatus 10 1020 1000 980)) .zero,
    .delta 1041 (.ok (exDelta 10 1040))]).map fun s => match s.pc with | .done rv _ _ => rv | _ => 0) =
    some Rv.ACQUIRE_IDLIVE := by decide

/-- The first read of the owner's lease takes nine seconds: the wait is counted from before that read. -/
def exSlow : List In :=
  [.lease (.ok (exCur, 0)), .lockspace (.ok ()), .hostInfo 1000 (some (exStatus 10 0 0 0)) .zero,
    .delta 1009 (.ok (exDelta 10 1008)), .slept false, .leader (.ok exCur),
    .delta 1141 (.ok (exDelta 10 1008)), .clock 1141, .leader (.ok exCur)]

theorem exec_of_isBallot {ins : List In} (h : ((run exPar (fun _ => 0) (St.init 512 1048576) ins).map isBallot) = some true) :
    ∃ s cur mbal, Exec exPar (fun _ => 0) (St.init 512 1048576) ins.reverse s ∧ s.pc = .ballot cur mbal := by
  cases hr : run exPar (fun _ => 0) (St.init 512 1048576) ins with
  | none => rw [hr] at h; simp at h
  | some s =>
    rw [hr] at h
    simp only [Option.map_some, Option.some.injEq, isBallot] at h
    split at h
    · rename_i cur mbal hpc
      have := exec_run (.nil) hr
      rw [List.append_nil] at this
      exact ⟨s, cur, mbal, this, hpc⟩
    · simp at h

/-- The record of the latest lease read is that of the state. -/
theorem ballot_cur {ins : List In} {s : St} (h : Exec exPar (fun _ => 0) (St.init 512 1048576) ins s)
    {cur : Leader} {mbal : UInt64} (hb : s.pc = .ballot cur mbal) {m : UInt64}
    (hl : lastLease ins = some (exCur, m)) : cur = exCur := by
  obtain ⟨⟨x, h1⟩, _⟩ := (inv_exec h).ballot _ _ hb
  rw [hl] at h1
  simp only [Option.some.injEq, Prod.mk.injEq] at h1
  exact h1.1.symm

/-- What can be observed in an attempt with two reads of the owner's lease and an empty table entry. -/
theorem two_reads {ins : List In} {a b : UInt64} {la lb cur : Leader} {wd : Nat}
    (hd : ∀ t l, SawDelta ins t l → (t = a ∧ l = la) ∨ (t = b ∧ l = lb))
    (hs : ∀ t hs, SawStatus ins t (some hs) → hs.timestamp = 0)
    (ho : ∀ x, .ownerBlk x ∉ seg ins)
    (ha : la.timestamp ≠ 0 ∧ la.ownerId = cur.ownerId ∧ ¬ la.ownerGeneration > cur.ownerGeneration)
    (hb : lb.timestamp ≠ 0 ∧ lb.ownerId = cur.ownerId ∧ ¬ lb.ownerGeneration > cur.ownerGeneration)
    (hab : a.toNat ≤ b.toNat)
    (hio : la.ioTimeout = lb.ioTimeout) (hlt : b.toNat ≤ a.toNat + (8 * la.ioTimeout.toNat + wd)) :
    ¬ Justified 0 wd ins cur := by
  intro h
  cases h with
  | freed t l h1 h2 => rcases hd t l h1 with ⟨_, rfl⟩ | ⟨_, rfl⟩ <;> simp_all
  | takenOver t l h1 h2 => rcases hd t l h1 with ⟨_, rfl⟩ | ⟨_, rfl⟩ <;> simp_all
  | rejoined t l h1 h2 =>
    rcases hd t l h1 with ⟨_, rfl⟩ | ⟨_, rfl⟩
    · exact ha.2.2 h2
    · exact hb.2.2 h2
  | released h1 h2 => exact ho _ h1
  | notRenewed T x y l h1 h2 h3 h4 =>
    have hx : x = a ∨ x = b := by
      rcases h1 with ⟨l', h1, _⟩ | ⟨t, hs', h1, _, h6, _⟩
      · rcases hd _ _ h1 with ⟨h, _⟩ | ⟨h, _⟩
        · exact Or.inl h
        · exact Or.inr h
      · rw [hs t hs' h1] at h6
        rcases hd _ _ h2 with ⟨_, rfl⟩ | ⟨_, rfl⟩
        · exact absurd (h3.trans h6.symm) ha.1
        · exact absurd (h3.trans h6.symm) hb.1
    rcases hd _ _ h2 with ⟨rfl, rfl⟩ | ⟨rfl, rfl⟩ <;> rcases hx with rfl | rfl <;> (try rw [← hio] at h4) <;> omega

/-- **C03 is violated when the first read of the owner's lease is slow.** The wait is counted from before that
read: an owner whose last renewal was seen at 1009 is displaced at 1141, although its watchdog may fire as late as
140 seconds after 1008. -/
theorem slow_first_read_violated :
    ∃ ins s cur mbal, Exec exPar (fun _ => 0) (St.init 512 1048576) ins s ∧ s.pc = .ballot cur mbal ∧
      cur.ownerId ≠ exPar.hostId ∧ cur.timestamp ≠ 0 ∧ ¬ Justified 0 60 ins cur := by
  obtain ⟨s, cur, mbal, he, hb⟩ := exec_of_isBallot (ins := exSlow) (by decide)
  have hc : cur = exCur := ballot_cur he hb (m := 0) rfl
  subst hc
  refine ⟨_, s, _, mbal, he, hb, by decide, by decide,
    two_reads (a := 1009) (b := 1141) (la := exDelta 10 1008) (lb := exDelta 10 1008) ?_ ?_ ?_ (by decide) (by decide)
      (by decide) rfl (by decide)⟩
  · intro t l h
    simp only [SawDelta, exSlow, List.reverse_cons, List.reverse_nil, List.nil_append, List.cons_append, seg,
      List.mem_cons, In.delta.injEq, Except.ok.injEq, reduceCtorEq, false_or, or_false, List.not_mem_nil] at h
    exact h.symm
  · rintro t hs ⟨g, h⟩
    simp only [exSlow, List.reverse_cons, List.reverse_nil, List.nil_append, List.cons_append, seg,
      List.mem_cons, In.hostInfo.injEq, Option.some.injEq, reduceCtorEq, false_or, or_false, List.not_mem_nil] at h
    rw [h.2.1]; rfl
  · intro x h
    simp [exSlow, seg] at h

/-- The renewal thread has not looked at the owner yet; the owner's I/O timeout is 30. -/
def exMixed : List In :=
  [.lease (.ok (exCur, 0)), .lockspace (.ok ()), .hostInfo 1000 (some (exStatus 0 0 0 0)) .zero,
    .delta 1000 (.ok (exDelta 30 990)), .slept false, .leader (.ok exCur),
    .delta 1141 (.ok (exDelta 30 990)), .clock 1141, .leader (.ok exCur)]

/-- **C03 is violated for an owner with a larger I/O timeout that the renewal thread has not recorded yet**: the
acquiring host's own timeout (10, host-dead time 140 seconds) is used although the lease just read says 30
(host-dead time 300 seconds). -/
theorem mixed_timeout_violated :
    ∃ ins s cur mbal, Exec exPar (fun _ => 0) (St.init 512 1048576) ins s ∧ s.pc = .ballot cur mbal ∧
      cur.ownerId ≠ exPar.hostId ∧ cur.timestamp ≠ 0 ∧ Prompt 0 ins ∧ ¬ Justified 0 60 ins cur := by
  obtain ⟨s, cur, mbal, he, hb⟩ := exec_of_isBallot (ins := exMixed) (by decide)
  have hc : cur = exCur := ballot_cur he hb (m := 0) rfl
  subst hc
  refine ⟨_, s, _, mbal, he, hb, by decide, by decide, ⟨?_, ?_⟩,
    two_reads (a := 1000) (b := 1141) (la := exDelta 30 990) (lb := exDelta 30 990) ?_ ?_ ?_ (by decide) (by decide)
      (by decide) rfl (by decide)⟩
  · intro post pre t1 x t e g h
    simp only [exMixed, List.reverse_cons, List.reverse_nil, List.nil_append, List.cons_append] at h
    rcases post with _ | ⟨_, _ | ⟨_, _ | ⟨_, _ | ⟨_, _ | ⟨_, _ | ⟨_, _ | ⟨_, _ | ⟨_, _ | ⟨_, _⟩⟩⟩⟩⟩⟩⟩⟩⟩ <;>
      simp at h
    all_goals grind
  · intro post pre now r x h
    simp only [exMixed, List.reverse_cons, List.reverse_nil, List.nil_append, List.cons_append] at h
    rcases post with _ | ⟨_, _ | ⟨_, _ | ⟨_, _ | ⟨_, _ | ⟨_, _ | ⟨_, _ | ⟨_, _ | ⟨_, _ | ⟨_, _⟩⟩⟩⟩⟩⟩⟩⟩⟩ <;>
      simp at h
    all_goals grind
  · intro t l h
    simp only [SawDelta, exMixed, List.reverse_cons, List.reverse_nil, List.nil_append, List.cons_append, seg,
      List.mem_cons, In.delta.injEq, Except.ok.injEq, reduceCtorEq, false_or, or_false, List.not_mem_nil] at h
    exact h.symm
  · rintro t hs ⟨g, h⟩
    simp only [exMixed, List.reverse_cons, List.reverse_nil, List.nil_append, List.cons_append, seg,
      List.mem_cons, In.hostInfo.injEq, Option.some.injEq, reduceCtorEq, false_or, or_false, List.not_mem_nil] at h
    rw [h.2.1]; rfl
  · intro x h
    simp [exMixed, seg] at h

/-! ## C04 -/

/-- What `run_ballot` guarantees when it succeeds (see `Verif/Ballot.lean`): the block it returns has the version it
was called with, and a ballot won for the host itself was won for its current generation. -/
def Honest (P : Par) (ins : List In) : Prop :=
  ∀ post pre rv db rt, ins = post ++ .ballot rv db rt :: pre → 0 ≤ rv → ∃ b cur x, db = some b ∧
    lastLease pre = some (cur, x) ∧ b.lver = cur.lver + 1 ∧ (b.inp = P.hostId → b.inp2 = P.hostGen)

/-- Reads that fail return negative values. -/
def Codes (ins : List In) : Prop :=
  ∀ i ∈ ins, match i with
    | .lease (.error e) => e < 0
    | .lockspace (.error e) => e < 0
    | .delta _ (.error e) => e < 0
    | .leader (.error e) => e < 0
    | _ => True

/-- The outcome of a successful acquire, from what it read and wrote. -/
def Granted (P : Par) (ins : List In) (s : St) (ret : Option Leader) : Prop :=
  ∃ l cur x, ret = some l ∧ lastLease ins = some (cur, x) ∧
    l.lver = cur.lver + 1 ∧ l.ownerId = P.hostId ∧ l.ownerGeneration = P.hostGen ∧
    (s.written = some l ∨ .leader (.ok l) ∈ seg ins)

structure VInv (P : Par) (ins : List In) (s : St) : Prop where
  write : ∀ cur, s.pc = .write cur → s.dblock.lver = cur.lver + 1 ∧ (s.dblock.inp = P.hostId → s.dblock.inp2 = P.hostGen)
  done : ∀ rv ret db, s.pc = .done rv ret db → rv = Rv.OK → Granted P ins s ret
  written : ∀ l, s.written = some l → ∃ cur x, lastLease ins = some (cur, x) ∧ l.lver = cur.lver + 1
  fin : s.written ≠ none → ∃ rv ret db, s.pc = .done rv ret db

theorem honest_tail {P : Par} {ins : List In} {i : In} (h : Honest P (i :: ins)) : Honest P ins := by
  intro post pre rv db rt he hrv
  exact h (i :: post) pre rv db rt (by rw [he]; rfl) hrv

theorem codes_tail {ins : List In} {i : In} (h : Codes (i :: ins)) : Codes ins :=
  fun j hj => h j (List.mem_cons_of_mem _ hj)

theorem vinv_other {P : Par} {ins : List In} {s : St} (h1 : ∀ cur, s.pc ≠ .write cur)
    (h2 : ∀ ret db, s.pc ≠ .done Rv.OK ret db) (h3 : s.written = none) : VInv P ins s := by
  constructor
  · intro cur h; exact absurd h (h1 cur)
  · intro rv ret db h hr; subst hr; exact absurd h (h2 ret db)
  · intro l h; rw [h3] at h; simp at h
  · intro h; exact absurd h3 h

theorem vinv_settle {P : Par} {ins : List In} {s : St} (h : VInv P ins s) : VInv P ins (settle P s) := by
  unfold settle
  split
  · rename_i cur mbal hpc
    have hw : s.written = none := by
      refine Classical.byContradiction fun hh => ?_
      obtain ⟨rv, ret, db, hd⟩ := h.fin hh
      rw [hpc] at hd; simp at hd
    have hne : cur.lver ≠ cur.lver + 1 := by
      intro hh
      have := congrArg UInt64.toNat hh
      simp only [UInt64.toNat_add, UInt64.toNat_one] at this
      omega
    unfold beforeBallot
    rw [if_neg hne]
    repeat' split
    all_goals exact vinv_other (by simp) (by simp) hw
  · exact h

theorem not_written {P : Par} {ins : List In} {s : St} (h : VInv P ins s) (hp : ∀ rv ret db, s.pc ≠ .done rv ret db) :
    s.written = none := by
  refine Classical.byContradiction fun hh => ?_
  obtain ⟨rv, ret, db, hd⟩ := h.fin hh
  exact hp _ _ _ hd

theorem vinv_step {P : Par} {sum : Leader → UInt32} {ins : List In} {s s' : St} {i : In} (h : VInv P ins s)
    (hinv : Inv P ins s) (hh : Honest P (i :: ins)) (hc : Codes (i :: ins))
    (hs : step P sum s i = some s') : VInv P (i :: ins) s' := by
  have hok : ∀ e : Int, e < 0 → e ≠ Rv.OK := by intro e he h; rw [h] at he; exact absurd he (by decide)
  cases i with
  | lease r =>
    have hci := hc _ (List.mem_cons_self ..)
    simp only [step] at hs
    split at hs
    · rename_i hpc
      have hw := not_written h (by rw [hpc]; simp)
      split at hs
      · simp only [Option.some.injEq] at hs; subst hs
        exact vinv_other (by simp) (by simp; exact hok _ hci) hw
      · simp only [Option.some.injEq] at hs; subst hs
        unfold afterRead toRun
        repeat' split
        all_goals exact vinv_other (by simp) (by simp <;> decide) hw
    · simp at hs
  | lockspace r =>
    have hci := hc _ (List.mem_cons_self ..)
    simp only [step] at hs
    split at hs
    · rename_i hpc
      have hw := not_written h (by rw [hpc]; simp)
      split at hs
      · simp only [Option.some.injEq] at hs; subst hs
        exact vinv_other (by simp) (by simp; exact hok _ hci) hw
      · simp only [Option.some.injEq] at hs; subst hs
        exact vinv_other (by simp) (by simp) hw
    · simp at hs
  | hostInfo t e g =>
    simp only [step] at hs
    split at hs
    · rename_i hpc
      have hw := not_written h (by rw [hpc]; simp)
      simp only [Option.some.injEq] at hs; subst hs
      unfold afterHostInfo
      repeat' split
      all_goals exact vinv_other (by simp) (by simp) hw
    · simp at hs
  | delta t r =>
    have hci := hc _ (List.mem_cons_self ..)
    simp only [step] at hs
    split at hs
    · rename_i hpc
      have hw := not_written h (by rw [hpc]; simp)
      split at hs
      · simp only [Option.some.injEq] at hs; subst hs
        exact vinv_other (by simp) (by simp; exact hok _ hci) hw
      · simp only [Option.some.injEq] at hs; subst hs
        unfold afterDelta toRun
        repeat' split
        all_goals exact vinv_other (by simp) (by simp <;> decide) hw
    · simp at hs
  | ownerBlk r =>
    simp only [step] at hs
    split at hs
    · rename_i hpc
      have hw := not_written h (by rw [hpc]; simp)
      unfold toRun at hs
      split at hs <;> simp only [Option.some.injEq] at hs <;> subst hs <;>
        exact vinv_other (by simp) (by simp <;> decide) hw
    · simp at hs
  | clock now =>
    simp only [step] at hs
    split at hs
    · rename_i hpc
      have hw := not_written h (by rw [hpc]; simp)
      simp only [Option.some.injEq] at hs; subst hs
      unfold afterClock toRun
      repeat' split
      all_goals exact vinv_other (by simp) (by simp <;> decide) hw
    · simp at hs
  | slept b =>
    simp only [step] at hs
    split at hs
    · rename_i hpc
      have hw := not_written h (by rw [hpc]; simp)
      split at hs <;> simp only [Option.some.injEq] at hs <;> subst hs <;>
        exact vinv_other (by simp) (by simp <;> decide) hw
    · simp at hs
  | leader r =>
    have hci := hc _ (List.mem_cons_self ..)
    simp only [step] at hs
    split at hs
    · rename_i hpc
      have hw := not_written h (by rw [hpc]; simp)
      split at hs
      · simp only [Option.some.injEq] at hs; subst hs
        exact vinv_other (by simp) (by simp; exact hok _ hci) hw
      · split at hs <;> simp only [Option.some.injEq] at hs <;> subst hs <;>
          exact vinv_other (by simp) (by simp) hw
    · rename_i cur mbal hpc
      have hw := not_written h (by rw [hpc]; simp)
      obtain ⟨⟨x, hx⟩, -⟩ := hinv.retry _ _ _ hpc
      split at hs
      · simp only [Option.some.injEq] at hs; subst hs
        exact vinv_other (by simp) (by simp; exact hok _ hci) hw
      · rename_i tmp
        simp only [Option.some.injEq] at hs; subst hs
        unfold beforeBallot
        split
        · rename_i hl
          split
          · rename_i ho
            refine ⟨by simp, ?_, by simp [hw], by simp [hw]⟩
            intro rv ret db hd hr
            simp only [Pc.done.injEq] at hd
            exact ⟨tmp, cur, x, hd.2.1.symm, hx, hl, ho.1, ho.2, Or.inr (by simp [seg])⟩
          · exact vinv_other (by simp) (by simp <;> decide) hw
        · repeat' split
          all_goals exact vinv_other (by simp) (by simp) hw
    · simp at hs
  | ballot rv db rt =>
    simp only [step] at hs
    split at hs
    · rename_i cur mbal hpc
      have hw := not_written h (by rw [hpc]; simp)
      split at hs
      · simp only [Option.some.injEq] at hs; subst hs
        exact vinv_other (by simp) (by simp) hw
      · split at hs
        · rename_i hrv
          simp only [Option.some.injEq] at hs; subst hs
          exact vinv_other (by simp) (by simp; exact hok _ hrv) hw
        · rename_i hrv
          simp only [Option.some.injEq] at hs; subst hs
          obtain ⟨⟨x, hx⟩, -⟩ := hinv.ballot _ _ hpc
          obtain ⟨b, cur', x', hb, hl, hv, hg⟩ := hh [] ins rv db rt rfl (by omega)
          rw [hx] at hl
          simp only [Option.some.injEq, Prod.mk.injEq] at hl
          refine ⟨?_, by simp, by simp [hw], by simp [hw]⟩
          intro c hcc
          simp only [Pc.write.injEq] at hcc
          subst hcc
          rw [hb]
          exact ⟨by rw [hl.1]; exact hv, hg⟩
    · simp at hs
  | written now rv =>
    simp only [step] at hs
    split at hs
    · rename_i cur hpc
      have hw := not_written h (by rw [hpc]; simp)
      obtain ⟨⟨x, hx⟩, -⟩ := hinv.write _ hpc
      obtain ⟨hv, hg⟩ := h.write _ hpc
      have hx' : lastLease (.written now rv :: ins) = some (cur, x) := hx
      have hlv : (newLeader P sum cur s.dblock now).lver = s.dblock.lver := rfl
      split at hs
      · rename_i hrv
        simp only [Option.some.injEq] at hs; subst hs
        exact vinv_other (by simp) (by simp; intro h; exact absurd h (hok _ hrv)) hw
      · split at hs
        · simp only [Option.some.injEq] at hs; subst hs
          refine ⟨by simp, ?_, ?_, by simp⟩
          · intro rv' ret db hd hr
            simp only [Pc.done.injEq] at hd
            rw [← hd.1] at hr
            exact absurd hr (by decide)
          · intro l hl
            simp only [Option.some.injEq] at hl
            exact ⟨cur, x, hx', by rw [← hl, hlv, hv]⟩
        · rename_i ho
          simp only [Option.some.injEq] at hs; subst hs
          have ho' : s.dblock.inp = P.hostId := Classical.byContradiction fun hh => ho hh
          refine ⟨by simp, ?_, ?_, by simp⟩
          · intro rv' ret db hd hr
            simp only [Pc.done.injEq] at hd
            exact ⟨_, cur, x, hd.2.1.symm, hx', by rw [hlv, hv], ho', hg ho', Or.inl rfl⟩
          · intro l hl
            simp only [Option.some.injEq] at hl
            exact ⟨cur, x, hx', by rw [← hl, hlv, hv]⟩
    · simp at hs

theorem vinv_exec {P : Par} {sum : Leader → UInt32} {sec al : Nat} {ins : List In} {s : St}
    (h : Exec P sum (St.init sec al) ins s) (hh : Honest P ins) (hc : Codes ins) : VInv P ins s := by
  induction h with
  | nil => exact vinv_other (by simp [St.init]) (by simp [St.init]) rfl
  | step he hs ih =>
    exact vinv_settle (vinv_step (ih (honest_tail hh) (codes_tail hc)) (inv_exec he) hh hc hs)

/-- **C04.**  A successful acquire returns a record whose version is exactly one larger than that of the record it was
computed from, naming the caller with its generation; this record is the one it wrote, or the one it read back
from the disk because another host wrote it on its behalf. -/
theorem acquire_version_partial {P : Par} {sum : Leader → UInt32} {sec al : Nat} {ins : List In} {s : St}
    {ret : Option Leader} {db : Option Dblock} (h : Exec P sum (St.init sec al) ins s) (hh : Honest P ins)
    (hc : Codes ins) (hd : s.pc = .done Rv.OK ret db) :
    ∃ l cur x, ret = some l ∧ lastLease ins = some (cur, x) ∧ l.lver = cur.lver + 1 ∧ l.ownerId = P.hostId ∧
      l.ownerGeneration = P.hostGen ∧ (s.written = some l ∨ .leader (.ok l) ∈ seg ins) :=
  (vinv_exec h hh hc).done _ _ _ hd rfl

/-- **C04.**  Whatever the number of retries, a record written by acquire (also on behalf of another host) has a version
exactly one larger than that of the record read. -/
theorem written_version_partial {P : Par} {sum : Leader → UInt32} {sec al : Nat} {ins : List In} {s : St}
    {l : Leader} (h : Exec P sum (St.init sec al) ins s) (hh : Honest P ins)
    (hc : Codes ins) (hd : s.written = some l) :
    ∃ cur x, lastLease ins = some (cur, x) ∧ l.lver = cur.lver + 1 :=
  (vinv_exec h hh hc).written _ hd

/-- A free record of version 5. -/
def exFree : Leader := { exCur with timestamp := 0 }

/-- First ballot aborted by a larger number, second one ends with `rv` and `db`. -/
def exRetry (db : Option Dblock) (rv : Int) : List In :=
  [.lease (.ok (exFree, 0)), .ballot Rv.DBLOCK_MBAL none false, .leader (.ok exFree), .ballot rv db false,
    .written 50 0]

/-- The block of a ballot of version 6 won for host 1 in generation `gen`. -/
def exBlock (gen : UInt64) : Dblock := ⟨2001, 2001, 1, gen, 9, 6, 0, 0⟩

/-- The hypotheses of the two theorems are met by an acquire that succeeds at the second ballot. -/
example : Honest exPar (exRetry (some (exBlock 1)) Rv.OK).reverse ∧ Codes (exRetry (some (exBlock 1)) Rv.OK).reverse ∧
    ((run exPar (fun _ => 0) (St.init 512 1048576) (exRetry (some (exBlock 1)) Rv.OK)).map fun s =>
      match s.pc with
      | .done rv (some l) _ => (rv, l.lver, l.ownerId, l.ownerGeneration)
      | _ => (0, 0, 0, 0)) = some (Rv.OK, 6, 1, 1) := by
  refine ⟨?_, ?_, by decide⟩
  · intro post pre rv db rt h hrv
    simp only [exRetry, List.reverse_cons, List.reverse_nil, List.nil_append, List.cons_append] at h
    rcases post with _ | ⟨_, _ | ⟨_, _ | ⟨_, _ | ⟨_, _ | ⟨_, _⟩⟩⟩⟩⟩ <;> simp at h
    · obtain ⟨-, ⟨rfl, rfl, rfl⟩, rfl⟩ := h
      exact ⟨exBlock 1, exFree, 0, rfl, rfl, rfl, fun _ => rfl⟩
    · obtain ⟨-, -, -, ⟨rfl, rfl, rfl⟩, rfl⟩ := h
      exact absurd hrv (by decide)
  · intro i hi
    simp [exRetry] at hi
    rcases hi with rfl | rfl | rfl | rfl | rfl <;> trivial

/-- **C04 is violated for a host that re-joined**: acquire compares only the host id of the winning ballot with its own,
so a ballot that adopted the host's own proposal of an earlier generation (made before it crashed, and repeated by
another host) is reported as success, and the record written names the earlier generation.  The other hosts then
regard the owner as dead and take the lease. -/
theorem old_generation_violated :
    ∃ ins s l db, Exec { exPar with hostGen := 2 } (fun _ => 0) (St.init 512 1048576) ins s ∧ Codes ins ∧
      s.pc = .done Rv.OK (some l) db ∧ s.written = some l ∧ l.ownerId = 1 ∧ l.ownerGeneration = 1 := by
  cases hr : run { exPar with hostGen := 2 } (fun _ => 0) (St.init 512 1048576) (exRetry (some (exBlock 1)) Rv.OK) with
  | none => exact absurd (congrArg Option.isSome hr) (by decide)
  | some s =>
    have hd : ((run { exPar with hostGen := 2 } (fun _ => 0) (St.init 512 1048576)
        (exRetry (some (exBlock 1)) Rv.OK)).any fun s =>
          match s.pc with
          | .done rv (some l) _ => rv == Rv.OK && s.written == some l && l.ownerId == 1 && l.ownerGeneration == 1
          | _ => false) = true := by decide
    rw [hr] at hd
    simp only [Option.any_some] at hd
    split at hd
    · rename_i rv l db hpc
      simp only [Bool.and_eq_true, beq_iff_eq] at hd
      refine ⟨_, s, l, db, exec_run .nil hr, ?_, by rw [hpc, hd.1.1.1], hd.1.1.2, hd.1.2, hd.2⟩
      intro i hi
      simp [exRetry] at hi
      rcases hi with rfl | rfl | rfl | rfl | rfl <;> trivial
    · simp at hd

/-- **C04 is violated when memory runs out in the ballot**: `run_ballot` then returns the positive value 12, which is not
taken for an error; the record is overwritten with version 0 and no owner. -/
theorem ballot_enomem_violated :
    ∃ ins s l cur x, Exec exPar (fun _ => 0) (St.init 512 1048576) ins s ∧ Codes ins ∧
      lastLease ins = some (cur, x) ∧ cur.lver = 5 ∧ s.written = some l ∧ l.lver = 0 ∧ l.ownerId = 0 := by
  cases hr : run exPar (fun _ => 0) (St.init 512 1048576) (exRetry none 12) with
  | none => exact absurd (congrArg Option.isSome hr) (by decide)
  | some s =>
    have hd : ((run exPar (fun _ => 0) (St.init 512 1048576) (exRetry none 12)).any fun s =>
        s.written.any fun l => l.lver == 0 && l.ownerId == 0) = true := by decide
    rw [hr] at hd
    simp only [Option.any_some] at hd
    cases hw : s.written with
    | none => rw [hw] at hd; simp at hd
    | some l =>
      rw [hw] at hd
      simp only [Option.any_some, Bool.and_eq_true, beq_iff_eq] at hd
      refine ⟨_, s, l, exFree, 0, exec_run .nil hr, ?_, rfl, rfl, hw, hd.1, hd.2⟩
      intro i hi
      simp [exRetry] at hi
      rcases hi with rfl | rfl | rfl | rfl | rfl <;> trivial

/-! ## C05 -/

/-- **C05.**  Release changes the record only if the record read is at the version the caller acquired, names the caller
with its generation as owner, was written by the caller, is not free, and is in every field the record the caller last
saw. -/
theorem release_only_own {hostId hostGen : UInt64} {sum : Leader → UInt32} {disk : Except Int Leader}
    {last : Leader} {rename : Option Name} {now : UInt64} {w : Leader}
    (h : release hostId hostGen sum disk (some last) rename now = .ok w) :
    ∃ l, disk = .ok l ∧ l = last ∧ l.ownerId = hostId ∧ l.ownerGeneration = hostGen ∧ l.timestamp ≠ 0 ∧
      l.writeId = hostId := by
  unfold release at h
  split at h
  · simp at h
  · rename_i l
    simp only [Option.getD_some] at h
    repeat' split at h
    all_goals first
      | (simp at h; done)
      | exact ⟨l, rfl, by simp_all, by simp_all, by simp_all, by simp_all, by simp_all⟩

/-- **C05.**  Without the record last seen (a release that cleans up after a failed acquire) the record must still name
the caller with its generation as owner and writer. -/
theorem release_only_own_erase {hostId hostGen : UInt64} {sum : Leader → UInt32} {disk : Except Int Leader}
    {rename : Option Name} {now : UInt64} {w : Leader}
    (h : release hostId hostGen sum disk none rename now = .ok w) :
    ∃ l, disk = .ok l ∧ l.ownerId = hostId ∧ l.ownerGeneration = hostGen ∧ l.timestamp ≠ 0 ∧ l.writeId = hostId := by
  unfold release at h
  split at h
  · simp at h
  · rename_i l
    simp only [Option.getD_none] at h
    repeat' split at h
    all_goals first
      | (simp at h; done)
      | exact ⟨l, rfl, by simp_all, by simp_all, by simp_all, by simp_all⟩

/-- **C05.**  The record written is free and keeps the version and the owner; the name changes only if a new one is given;
the sizes, flags other than the short-hold flag, and all other fields are unchanged. -/
theorem release_result {hostId hostGen : UInt64} {sum : Leader → UInt32} {l : Leader}
    {last : Option Leader} {rename : Option Name} {now : UInt64} {w : Leader}
    (h : release hostId hostGen sum (.ok l) last rename now = .ok w) :
    w.timestamp = 0 ∧ w.lver = l.lver ∧ w.ownerId = l.ownerId ∧ w.ownerGeneration = l.ownerGeneration ∧
      w.numHosts = l.numHosts ∧ w.maxHosts = l.maxHosts ∧ w.sectorSize = l.sectorSize ∧ w.magic = l.magic ∧
      w.version = l.version ∧ w.spaceName = l.spaceName ∧ w.resourceName = rename.getD l.resourceName ∧
      w.writeId = hostId ∧ w.writeGeneration = hostGen ∧ w.writeTimestamp = now ∧
      w.checksum = sum { w with checksum := 0 } := by
  unfold release at h
  simp only at h
  repeat' split at h
  all_goals first
    | (simp at h; done)
    | (simp only [Except.ok.injEq] at h; subst h; simp)

/-- **C05.**  A holder whose record is unchanged on disk does release it. -/
theorem release_succeeds {hostId hostGen : UInt64} {sum : Leader → UInt32} {last : Leader}
    {rename : Option Name} {now : UInt64} (h1 : last.writeId = hostId) (h2 : last.timestamp ≠ 0)
    (h3 : last.ownerId = hostId) (h4 : last.ownerGeneration = hostGen) :
    ∃ w, release hostId hostGen sum (.ok last) (some last) rename now = .ok w := by
  simp [release, h1, h2, h3, h4]

/-- Non-vacuity: host 2 releases `exCur`; host 1 does not. -/
example : (match release 2 3 (fun _ => 0) (.ok exCur) (some exCur) none 9 with
    | .ok w => some (w.timestamp, w.lver) | _ => none) = some (0, 5) := by decide
example : (match release 1 3 (fun _ => 0) (.ok exCur) (some exCur) none 9 with
    | .ok _ => none | .error e => some e) = some 0 := by decide
example : (match release 2 3 (fun _ => 0) (.ok exCur) (some { exCur with numHosts := 1 }) none 9 with
    | .ok _ => none | .error e => some e) = some Rv.RELEASE_OWNER := by decide

end Sanlock.Acquire
