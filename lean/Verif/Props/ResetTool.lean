import Verif.Lemmas.ResetTool
import Verif.Props.ResetHost

/-!
# C53: a reset reported as done has happened

`Heard`, `SeenDead`, `SeenFree`, `lastTs`, `changes` and `Usable` (in `Verif.Lemmas.ResetTool`) speak about what the
passes brought, not about the variables of the program.
-/

namespace Sanlock.ResetTool

open Liveness (Flag)
open Reset (mono)

theorem start_reg {ids : List UInt64} {n r : Bool} {b : UInt64} {i : Nat} :
    ((start ids n r b).ls i).reg = true ↔ ∃ id, ids[i]? = some id := by
  simp only [start]
  cases ids[i]? with
  | none => simp [Ls.none]
  | some x => simp [Ls.start]

theorem start_id {ids : List UInt64} {n r : Bool} {b : UInt64} {i : Nat} {id : UInt64} (h : ids[i]? = some id) :
    ((start ids n r b).ls i).hostId = id := by
  simp only [start, h, Ls.start]

/-- The count has started once it is looked at. -/
theorem passed_begun {s : St} {p : Pass} {i : Nat} (hn : nat' s p = true) (h : passed p.now (mid s p i) = true) :
    (mid s p i).beginLocal ≠ 0 := by
  intro h0
  simp only [passed, Bool.and_eq_true, decide_eq_true_eq] at h
  have hm : mid s p i = note p.now (refresh (s.ls i) (p.hosts i)) := by simp only [mid, hn, if_true]
  rw [hm] at h h0
  obtain ⟨n1, _, n3, _⟩ := note_keeps p.now (refresh (s.ls i) (p.hosts i))
  by_cases hc : ((refresh (s.ls i) (p.hosts i)).reg && (refresh (s.ls i) (p.hosts i)).isResetting &&
      (refresh (s.ls i) (p.hosts i)).beginLocal == 0) = true
  · simp only [note, hc, if_true] at h0
    simp only [note, hc, if_true] at h
    rw [h0] at h
    exact absurd h.2 (by decide)
  · apply hc
    rw [n1, n3] at h
    have h0' : (refresh (s.ls i) (p.hosts i)).beginLocal = 0 := by
      unfold note at h0
      rw [if_neg hc] at h0
      exact h0
    simp [h.1.1, h.1.2, h0']

/-- The program noted the reply in pass `b` and waited 90 seconds: what it then knows. -/
def Waited (i : Nat) (id : UInt64) (p : Pass) (h h2 : List Pass) (b : Pass) : Prop :=
  (∃ h1, p :: h = h1 ++ b :: h2) ∧ (∃ q ∈ h2, Heard i id q) ∧ p.now - b.now > 90

/-- Every answer about the host in a lockspace still watched has the io timeout that the 90 seconds are made for. -/
def Standard (ids : List UInt64) (p : Pass) (h : List Pass) : Prop :=
  ∀ j id, j < 64 → ids[j]? = some id → Usable j h → ∀ q ∈ p :: h, ∀ x, q.hosts j = some x → x.timestamp ≠ 0 →
    x.ioTimeout = 10

theorem disables_not {s : St} {p : Pass} {j : Nat} {x : Host} (hn : nat' s p = true) (hj : j < 64)
    (hr : (s.ls j).reg = true) (hx : p.hosts j = some x) (ht : x.timestamp ≠ 0) : x.ioTimeout = 10 := by
  simp only [nat', Bool.and_eq_true, Bool.not_eq_true'] at hn
  apply Classical.byContradiction
  intro hio
  have : (anyLs fun i => disables (s.ls i) (p.hosts i)) = true :=
    (anyLs_iff _).2 ⟨j, hj, by simp [disables, hr, hx, ht, hio]⟩
  rw [hn.2] at this; cases this

theorem exec_native {s0 s : St} {h : List Pass} (he : Exec s0 h s)
    (h0 : ∀ i, s0.ls i = Ls.none ∨ ∃ x, s0.ls i = Ls.start x) (hn : s.native = true) :
    s0.native = true ∧ ∀ j, j < 64 → (s0.ls j).reg = true → Usable j h → ∀ q ∈ h, ∀ x, q.hosts j = some x →
      x.timestamp ≠ 0 → x.ioTimeout = 10 := by
  induction he with
  | nil => exact ⟨hn, fun j _ _ _ q hq => by cases hq⟩
  | cons p he hp ih =>
    rename_i h s s'
    obtain ⟨_, _, rfl⟩ := pass_waiting hp
    have hn1 : s.native = true := by
      have hn' : nat' s p = true := hn
      simp only [nat', Bool.and_eq_true] at hn'
      exact hn'.1
    obtain ⟨a1, a2⟩ := ih hn1
    refine ⟨a1, fun j hj hr hu q hq x hx ht => ?_⟩
    have hu' : Usable j h := fun q hq => hu q (List.mem_cons_of_mem _ hq)
    rcases List.mem_cons.1 hq with rfl | hq
    · exact disables_not hn hj ((exec_knows he h0 j).reg.2 ⟨hr, hu'⟩) hx ht
    · exact a2 j hj hr hu' q hq x hx ht

/-- **What "done" means.** The program reports a reset only if, in one of the lockspaces asked for, either the host's
reply came, more than 90 seconds have passed on the local clock since a later pass, no renewal with a timestamp
more than 70 seconds after the one then known has been seen, and the host uses the io timeout of 10 seconds in all
lockspaces watched; or the daemon reported the host dead, and the host's
reply came or the program was told that resource leases are used. -/
theorem done_cases {ids : List UInt64} {native rm : Bool} {b0 : UInt64} {h : List Pass} {s : St}
    (he : Exec (start ids native rm b0) h s) (p : Pass) (hp : (pass s p).2 = .done) :
    ∃ i id, ids[i]? = some id ∧ Usable i h ∧
      ((∃ b h2, Waited i id p h h2 b ∧ lastTs i (p :: h) - lastTs i (b :: h2) ≤ 70 ∧ native = true ∧
          Standard ids p h) ∨
       ((∃ q ∈ p :: h, SeenDead i q) ∧ (rm = true ∨ ∃ q ∈ h, Heard i id q))) := by
  have hk := exec_knows he (start_entries ids native rm b0)
  have hrm : s.resourceMode = rm := (exec_fixed he).1
  unfold pass at hp
  simp only [resetDone_eq] at hp
  cases hn : (nat' s p && wd' s p)
  · simp only [hn, Bool.false_eq_true, if_false] at hp
    split at hp
    · rename_i hd
      rw [Bool.or_eq_true] at hd
      rcases hd with hd | hd
      · rw [Bool.and_eq_true, anyLs_iff] at hd
        obtain ⟨hnat, i, _, hi⟩ := hd
        rw [Bool.and_eq_true] at hi
        have m := knows_mid (hk i) p
        have hb := passed_begun hnat hi.1
        obtain ⟨h1, b, h2, e1, e2, e3, e4⟩ := m.beg hb
        have hi1 := hi.1
        simp only [passed, Bool.and_eq_true, decide_eq_true_eq] at hi1
        obtain ⟨hreg, hus⟩ := m.reg.1 hi1.1.1
        obtain ⟨id, hid⟩ := start_reg.1 hreg
        rw [start_id hid] at e2
        refine ⟨i, id, hid, hus, Or.inl ⟨b, h2, ⟨⟨h1, e1⟩, e2, ?_⟩, ?_⟩⟩
        · rw [← e3]; exact hi1.2
        · have := hi.2
          simp only [late, Bool.not_eq_true', decide_eq_false_iff_not] at this
          rw [← e4, ← m.ts hi1.1.1]
          refine ⟨UInt64.not_lt.1 this, ?_⟩
          have hsn : s.native = true := by
            have := hnat
            simp only [nat', Bool.and_eq_true] at this
            exact this.1
          obtain ⟨a1, a2⟩ := exec_native he (start_entries ids native rm b0) hsn
          refine ⟨a1, fun j idj hj hidj hu q hq x hx ht => ?_⟩
          have hrj : ((start ids native rm b0).ls j).reg = true := start_reg.2 ⟨idj, hidj⟩
          rcases List.mem_cons.1 hq with rfl | hq
          · exact disables_not hnat hj ((hk j).reg.2 ⟨hrj, hu⟩) hx ht
          · exact a2 j hj hrj hu q hq x hx ht
      · rw [anyLs_iff] at hd
        obtain ⟨i, _, hi⟩ := hd
        simp only [deadDone, Bool.and_eq_true, Bool.or_eq_true] at hi
        have m := mid_look (knows_mid (hk i) p)
        obtain ⟨hreg, hus⟩ := m.reg.1 hi.1.1
        obtain ⟨id, hid⟩ := start_reg.1 hreg
        refine ⟨i, id, hid, hus, Or.inr ⟨m.dead hi.1.2, ?_⟩⟩
        rcases hi.2 with e | e
        · exact Or.inl (hrm.symm.trans e)
        · right
          have := m.res e
          rw [start_id hid] at this
          exact this
    · split at hp <;> cases hp
  · simp only [hn, if_true, Bool.false_eq_true, if_false] at hp
    split at hp <;> cases hp

theorem mem_of_givesUp {now b0 : UInt64} {l : Ls} (h : givesUp now b0 l = true) :
    (l.isResetting = true → now - b0 > 300) ∧
      (l.isResetting = false → l.isDead = true ∨ l.isFree = true ∨ l.renewals ≥ 4) := by
  unfold givesUp at h
  cases hr : l.isResetting
  · simp only [hr, Bool.false_eq_true, if_false, Bool.or_eq_true, decide_eq_true_eq] at h
    refine ⟨fun e => (by cases e), fun _ => ?_⟩
    rcases h with (h | h) | h
    · exact Or.inl h
    · exact Or.inr (Or.inl h)
    · exact Or.inr (Or.inr h)
  · simp only [hr, if_true, decide_eq_true_eq] at h
    exact ⟨fun _ => h, fun e => (by cases e)⟩

/-- **What "failed" means.** The program reports a failure only if a timestamp more than 70 seconds away from the one
known when the reply had come was seen (as an unsigned difference); or some lockspace is still watched and in every
such lockspace either the reply came and more than 300 seconds have passed since the start, or no reply came and the
host was reported dead or free or has renewed four times. -/
theorem failed_cases {ids : List UInt64} {native rm : Bool} {b0 : UInt64} {h : List Pass} {s : St}
    (hlen : ids.length ≤ 64)
    (he : Exec (start ids native rm b0) h s) (p : Pass) (hp : (pass s p).2 = .failed) :
    (∃ i id b h2, ids[i]? = some id ∧ Waited i id p h h2 b ∧ lastTs i (p :: h) - lastTs i (b :: h2) > 70) ∨
    ((∃ i id, ids[i]? = some id ∧ Usable i h) ∧ ∀ i id, ids[i]? = some id → Usable i h →
      ((∃ q ∈ h, Heard i id q) → p.now - b0 > 300) ∧
      ((¬ ∃ q ∈ h, Heard i id q) →
        (∃ q ∈ p :: h, SeenDead i q) ∨ (∃ q ∈ p :: h, SeenFree i q) ∨ changes i (p :: h) ≥ 4)) := by
  have hk := exec_knows he (start_entries ids native rm b0)
  have hfix := exec_fixed he
  have hb0 : s.begin = b0 := hfix.2.1
  have hwd0 : s.wdFailed = false := hfix.2.2 rfl
  by_cases hw : wd' s p = true
  · left
    simp only [wd', hwd0, Bool.false_or, Bool.and_eq_true, anyLs_iff] at hw
    obtain ⟨hnat, i, _, hi⟩ := hw
    have m := knows_mid (hk i) p
    have hb := passed_begun hnat hi.1
    obtain ⟨h1, b, h2, e1, e2, e3, e4⟩ := m.beg hb
    have hi1 := hi.1
    simp only [passed, Bool.and_eq_true, decide_eq_true_eq] at hi1
    obtain ⟨hreg, _⟩ := m.reg.1 hi1.1.1
    obtain ⟨id, hid⟩ := start_reg.1 hreg
    rw [start_id hid] at e2
    refine ⟨i, id, b, h2, hid, ⟨⟨h1, e1⟩, e2, ?_⟩, ?_⟩
    · rw [← e3]; exact hi1.2
    · have := hi.2
      simp only [late, decide_eq_true_eq] at this
      rw [← e4, ← m.ts hi1.1.1]
      exact this
  · right
    have hw' : wd' s p = false := by simpa using hw
    unfold pass at hp
    simp only [resetDone_eq, hw', Bool.and_false, Bool.false_eq_true, if_false] at hp
    split at hp
    · cases hp
    · split at hp
      · rename_i _ hf
        simp only [resetFail, Bool.false_or, Bool.and_eq_true, Bool.not_eq_true', hb0] at hf
        obtain ⟨hf1, hf2⟩ := hf
        rw [anyLs_iff] at hf1
        obtain ⟨j, _, hj⟩ := hf1
        rw [Bool.and_eq_true] at hj
        have mj := mid_look (knows_mid (hk j) p)
        obtain ⟨hreg, hus⟩ := mj.reg.1 hj.1
        obtain ⟨id, hid⟩ := start_reg.1 hreg
        refine ⟨⟨j, id, hid, hus⟩, ?_⟩
        intro i id hid hus
        have m := mid_look (knows_mid (hk i) p)
        have hreg : (look (mid s p i)).reg = true := m.reg.2 ⟨start_reg.2 ⟨id, hid⟩, hus⟩
        have hlt : i < maxLs := by
          have : i < ids.length := by
            cases Nat.lt_or_ge i ids.length with
            | inl h => exact h
            | inr h => rw [List.getElem?_eq_none h] at hid; cases hid
          exact Nat.lt_of_lt_of_le this hlen
        have hg : givesUp p.now b0 (look (mid s p i)) = true := by
          cases hg : givesUp p.now b0 (look (mid s p i))
          · have : (anyLs fun i => (look (mid s p i)).reg && !givesUp p.now b0 (look (mid s p i))) = true :=
              (anyLs_iff _).2 ⟨i, hlt, by simp [hreg, hg]⟩
            rw [hf2] at this; cases this
          · rfl
        obtain ⟨g1, g2⟩ := mem_of_givesUp hg
        refine ⟨fun hh => g1 (m.heard hreg (by rw [start_id hid]; exact hh)), fun hh => ?_⟩
        have hnr : (look (mid s p i)).isResetting = false := by
          cases hr : (look (mid s p i)).isResetting
          · rfl
          · have := m.res hr
            rw [start_id hid] at this
            exact absurd this hh
        rcases g2 hnr with e | e | e
        · exact Or.inl (m.dead e)
        · exact Or.inr (Or.inl (m.free e))
        · rw [m.cnt hreg] at e
          exact Or.inr (Or.inr e)
      · cases hp

/-! ## On a common time line -/

/-- `sanlk-resetd` on the host read its clock at real time `x0` and told wdmd that its connection has expired; wdmd
took the message at its own time `Tw` with the device armed, and the device's watchdog of 60 seconds fires at `xf`.
`Tw + D` is at most 29 seconds after the clock reading: with tests every ten seconds that leaves 19 seconds for slow
scripts and for the message. -/
def Replied (hz offH x0 xf : Nat) : Prop :=
  ∃ s ci Tw D ended es xp, ResetHost.Expired s ci Tw D ended ∧ Tw + D ≤ mono hz offH x0 + 29 ∧ s.fire = 60 ∧
    (∀ e ∈ es, ResetHost.Kept ci ended e) ∧ ResetHost.WithinRun D s es ∧
    mono hz offH xp = (Wdmd.run s es).dev.lastPing ∧ xf = xp + (Wdmd.run s es).fire * hz

/-- The watchdog fires less than 90 seconds after the daemon acted. -/
theorem reply_deadline {hz offH x0 xf : Nat} (hhz : 0 < hz) (h : Replied hz offH x0 xf) : xf < x0 + 90 * hz := by
  obtain ⟨s, ci, Tw, D, ended, es, xp, h1, h2, h3, h4, h5, h6, rfl⟩ := h
  have hd := (ResetHost.expired_fires h1 es h4 h5).2.2
  rw [h3] at hd
  unfold mono at h2 h6
  have e1 : (x0 + offH) / hz * hz ≤ x0 + offH := Nat.div_mul_le_self _ _
  have e2 : xp + offH < ((xp + offH) / hz + 1) * hz := by
    have := Nat.lt_div_mul_add (a := xp + offH) hhz
    rw [Nat.add_mul, Nat.one_mul]; exact this
  have e3 : ((xp + offH) / hz + 1 + (Wdmd.run s es).fire) * hz ≤ ((x0 + offH) / hz + 90) * hz :=
    Nat.mul_le_mul_right _ (by rw [h6]; omega)
  simp only [Nat.add_mul] at *
  omega

/-- The local daemon reports the host dead at real time `x` on the strength of a renewal read at or after `x0`. -/
def DeadSince (hz offR x0 x : Nat) : Prop :=
  ∃ (hs : Liveness.HostStatus) (own now : UInt64) (x1 : Nat), Liveness.getHostFlag 60 own hs now = some .dead ∧
    now.toNat = mono hz offR x ∧ hs.lastLive.toNat = mono hz offR x1 ∧ hs.lastLive ≠ 0 ∧ x0 ≤ x1 ∧ x1 ≤ x ∧
    4 ≤ hs.ioTimeout.toNat

theorem dead_since_time {hz offR x0 x : Nat} (hhz : 0 < hz) (h : DeadSince hz offR x0 x) : x0 + 90 * hz < x := by
  obtain ⟨hs, own, now, x1, h1, h2, h3, h4, h5, h6, h7⟩ := h
  unfold Liveness.getHostFlag at h1
  simp only [h4, if_false] at h1
  have hcmp : now - hs.lastLive > Liveness.deadSecs 60 hs.ioTimeout := by
    by_cases hc : now - hs.lastLive > Liveness.deadSecs 60 hs.ioTimeout
    · exact hc
    · simp only [hc, if_false] at h1
      repeat' split at h1
      all_goals cases h1
  rw [gt_iff_lt, UInt64.lt_iff_toNat_lt, Liveness.deadSecs, UInt64.toNat_ofNat',
    Nat.mod_eq_of_lt (by have := hs.ioTimeout.toNat_lt; omega)] at hcmp
  have hle : hs.lastLive ≤ now := by
    rw [UInt64.le_iff_toNat_le, h2, h3]
    exact Nat.div_le_div_right (by omega)
  rw [UInt64.toNat_sub_of_le _ _ hle, h2, h3] at hcmp
  unfold mono at hcmp
  have e1 : x1 + offR < ((x1 + offR) / hz + 1) * hz := by
    have := Nat.lt_div_mul_add (a := x1 + offR) hhz
    rw [Nat.add_mul, Nat.one_mul]; exact this
  have e2 : (x + offR) / hz * hz ≤ x + offR := Nat.div_mul_le_self _ _
  have e3 : ((x1 + offR) / hz + 1 + 90) * hz ≤ (x + offR) / hz * hz := Nat.mul_le_mul_right _ (by omega)
  simp only [Nat.add_mul] at *
  omega

/-- **C53, partial.** Without resource leases: when the program reports that the host was reset, the host's watchdog has
fired.  What is assumed: every reply that came was set after the daemon on the host acted at real time `x0`; the
passes are given their real times, in order; and the daemon's reports of a dead host rest on a renewal read after
`x0`.  Missing for the full claim: the last assumption does not hold of a host that was dead before and has
come back (`dead_before_violated`). -/
theorem done_is_reset_partial {ids : List UInt64} {native : Bool} {b0 : UInt64} {h : List Pass} {s : St}
    (he : Exec (start ids native false b0) h s) (p : Pass) (hp : (pass s p).2 = .done)
    {hz offH offR x0 xf : Nat} (hhz : 0 < hz) (time : Pass → Nat)
    (hclock : ∀ q ∈ p :: h, q.now.toNat = mono hz offR (time q))
    (horder : ∀ h1 b h2, p :: h = h1 ++ b :: h2 → ∀ q ∈ h2, time q ≤ time b)
    (hrep : Replied hz offH x0 xf)
    (hheard : ∀ i id q, ids[i]? = some id → q ∈ h → Heard i id q → x0 ≤ time q)
    (hdead : ∀ i q, q ∈ p :: h → SeenDead i q → DeadSince hz offR x0 (time q)) :
    xf < time p := by
  have hdl := reply_deadline hhz hrep
  obtain ⟨i, id, hid, _, hc⟩ := done_cases he p hp
  rcases hc with ⟨b, h2, ⟨⟨h1, e1⟩, ⟨q, hq, hh⟩, e3⟩, _⟩ | ⟨⟨q, hq, hd⟩, _⟩
  · have hqb : time q ≤ time b := horder h1 b h2 e1 q hq
    have hbm : b ∈ p :: h := by rw [e1]; simp
    have hqm : q ∈ h := by
      cases h1 with
      | nil => injection e1 with _ e; rw [e]; exact hq
      | cons c h1 => injection e1 with _ e; rw [e]; exact List.mem_append_right _ (List.mem_cons_of_mem _ hq)
    have hx := hheard i id q hid hqm hh
    have hbp : time b ≤ time p := by
      rcases List.mem_cons.1 hbm with rfl | hb
      · exact Nat.le_refl _
      · exact horder [] p h rfl b hb
    have c1 := hclock b hbm
    have c2 := hclock p List.mem_cons_self
    have hle : b.now ≤ p.now := by
      rw [UInt64.le_iff_toNat_le, c1, c2]
      exact Nat.div_le_div_right (by omega)
    rw [gt_iff_lt, UInt64.lt_iff_toNat_lt, UInt64.toNat_sub_of_le _ _ hle, c1, c2] at e3
    have e90 : (90 : UInt64).toNat = 90 := rfl
    rw [e90] at e3
    unfold mono at e3
    have f1 : time b + offR < ((time b + offR) / hz + 1) * hz := by
      have := Nat.lt_div_mul_add (a := time b + offR) hhz
      rw [Nat.add_mul, Nat.one_mul]; exact this
    have f2 : (time p + offR) / hz * hz ≤ time p + offR := Nat.div_mul_le_self _ _
    have f3 : ((time b + offR) / hz + 1 + 90) * hz ≤ (time p + offR) / hz * hz := Nat.mul_le_mul_right _ (by omega)
    simp only [Nat.add_mul] at *
    omega
  · have := dead_since_time hhz (hdead i q hq hd)
    have hqp : time q ≤ time p := by
      rcases List.mem_cons.1 hq with rfl | hb
      · exact Nat.le_refl _
      · exact horder [] p h rfl q hb
    omega

/-! ## The program run as a whole -/

/-- `run` and `Exec` agree: a run that ends does so after passes that did not end it. -/
theorem run_exec {s0 s : St} {o : Outcome} (ho : o ≠ .waiting) (ps : List Pass) : ∀ {h : List Pass},
    Exec s0 h s → run s ps = o →
    ∃ h' s' p, Exec s0 h' s' ∧ (pass s' p).2 = o ∧ (p :: h').reverse <+: h.reverse ++ ps := by
  induction ps generalizing s with
  | nil => intro h _ hr; exact absurd hr.symm ho
  | cons q ps ih =>
    intro h he hr
    simp only [run] at hr
    rcases hq : pass s q with ⟨s1, o1⟩
    rw [hq] at hr
    cases o1 with
    | waiting =>
      simp only at hr
      obtain ⟨h', s', p, a1, a2, a3⟩ := ih (.cons q he hq) hr
      exact ⟨h', s', p, a1, a2, by simpa using a3⟩
    | done =>
      simp only at hr
      exact ⟨h, s, q, he, by rw [hq]; exact hr, by simp⟩
    | failed =>
      simp only at hr
      exact ⟨h, s, q, he, by rw [hq]; exact hr, by simp⟩

/-- The other way round. -/
theorem exec_of_run {s0 s : St} {o : Outcome} (p : Pass) (ho : o ≠ .waiting) (ps : List Pass) : ∀ {h : List Pass},
    Exec s0 h s → run s ps = .waiting → run s (ps ++ [p]) = o →
    ∃ s', Exec s0 (ps.reverse ++ h) s' ∧ (pass s' p).2 = o := by
  induction ps generalizing s with
  | nil =>
    intro h he _ hr
    refine ⟨s, he, ?_⟩
    simp only [List.nil_append, run] at hr
    rcases hq : pass s p with ⟨s1, o1⟩
    rw [hq] at hr
    cases o1
    · exact absurd hr.symm ho
    · exact hr
    · exact hr
  | cons q ps ih =>
    intro h he hw hr
    simp only [List.cons_append, run] at hw hr
    rcases hq : pass s q with ⟨s1, o1⟩
    rw [hq] at hw hr
    cases o1 with
    | waiting =>
      simp only at hw hr
      obtain ⟨s', a1, a2⟩ := ih (.cons q he hq) hw hr
      exact ⟨s', by simpa using a1, a2⟩
    | done => cases hw
    | failed => cases hw

/-- A pass at time `now` in which the host is reported in the lockspaces as given. -/
def mk (now : UInt64) (hosts : List (Option Host)) (got : List (List Got)) : Pass :=
  { now := now, hosts := fun i => (hosts[i]?).getD none, got := fun i => (got[i]?).getD [], hup := fun _ => false }

def live (ts : UInt64) : Option Host := some ⟨ts, 10, some .live⟩
def dead (ts : UInt64) : Option Host := some ⟨ts, 10, some .dead⟩

/-- Example: the reply comes at 1040; the host renews up to 5060 and is gone; "done" at 1134. -/
def exPasses : List Pass :=
  [mk 1000 [live 5000] [], mk 1040 [live 5040] [[.event 7 true false]], mk 1042 [live 5040] [],
   mk 1080 [live 5060] [], mk 1132 [live 5060] [], mk 1134 [live 5060] []]

example : run (start [7] true false 1000) exPasses = .done := by decide +kernel
example : run (start [7] true false 1000) (exPasses.take 5) = .waiting := by decide +kernel

/-- Example for the hypotheses about the host: the daemon of `ResetHost.exBefore` acted at 104 seconds on its clock and
the watchdog fires at 170 (with a clock of one tick per second). -/
theorem exReplied : Replied 1 0 104 170 := by
  refine ⟨_, 2, 104, 10, false, ResetHost.exRun, 110, ResetHost.live_expires (s := ResetHost.exBefore)
    (c := { Wdmd.Client.empty with used := true, isOpen := true, refcount := true }) (x := 104) (by decide) rfl rfl rfl
    rfl (by decide) (by decide) (by decide) (by decide) (by decide) (by decide), by decide, by decide, ?_, ?_,
    by decide, by decide⟩
  · intro e he
    simp only [ResetHost.exRun, List.mem_cons, List.not_mem_nil, or_false] at he
    rcases he with rfl | rfl | rfl | rfl | rfl | rfl | rfl | rfl <;> first | trivial | (simp [ResetHost.Kept])
  · unfold ResetHost.exRun
    simp only [ResetHost.WithinRun, ResetHost.Within, true_and, and_true]
    decide

/-- Example for all hypotheses of `done_is_reset_partial` together: the two examples above on one time line, on which the
local clock runs 930 seconds ahead of the host's. -/
example : ∃ s, Exec (start [7] true false 1000) (exPasses.take 5).reverse s ∧
    (pass s (mk 1134 [live 5060] [])).2 = .done ∧ 170 < (1134 : Nat) - 930 := by
  obtain ⟨s, h1, h2⟩ := exec_of_run (s0 := start [7] true false 1000) (mk 1134 [live 5060] []) (o := .done) (by decide)
    (exPasses.take 5) .nil (by decide +kernel) (by decide +kernel)
  rw [List.append_nil] at h1
  refine ⟨s, h1, h2, ?_⟩
  have hl : ∀ q ∈ mk 1134 [live 5060] [] :: (exPasses.take 5).reverse,
      q.now.toNat = mono 1 930 (q.now.toNat - 930) ∧ (∀ i, ¬ SeenDead i q) ∧
      (∀ i id, Heard i id q → q.now = 1040) := by
    intro q hq
    simp only [exPasses, List.take, List.reverse_cons, List.reverse_nil, List.nil_append, List.cons_append,
      List.mem_cons, List.not_mem_nil, or_false] at hq
    rcases hq with rfl | rfl | rfl | rfl | rfl | rfl
    all_goals
      refine ⟨by decide, fun i => ?_, fun i id => ?_⟩
      · rintro ⟨x, hx, hd⟩
        cases i with
        | zero =>
          simp only [mk, List.getElem?_cons_zero, Option.getD_some, live, Option.some.injEq] at hx
          subst hx; cases hd
        | succ i => simp [mk] at hx
      · first
        | (intro _; rfl)
        | (rintro ⟨rb, h⟩; simp [mk] at h)
  have hpw : (mk 1134 [live 5060] [] :: (exPasses.take 5).reverse).Pairwise
      (fun b q => q.now.toNat - 930 ≤ b.now.toNat - 930) := by
    simp only [exPasses, List.take, List.reverse_cons, List.reverse_nil, List.nil_append, List.cons_append]
    simp [mk]
  have := done_is_reset_partial h1 _ h2 (hz := 1) (offH := 0) (offR := 930) (x0 := 104) (xf := 170) (by decide)
    (fun q => q.now.toNat - 930) (fun q hq => (hl q hq).1)
    (fun h1 b h2 e q hq => by
      rw [e, List.pairwise_append] at hpw
      exact (List.pairwise_cons.1 hpw.2.1).1 q hq)
    exReplied
    (fun i id q _ hq hh => by rw [(hl q (List.mem_cons_of_mem _ hq)).2.2 i id hh]; decide)
    (fun i q hq hd => absurd hd ((hl q hq).2.1 i))
  exact this

/-- Example: a host last read at 500 is reported dead at 641. -/
example : DeadSince 1 0 480 641 :=
  ⟨⟨100, 640, 500, 7, 1, 5000, 10, 0⟩, 1, 641, 500, by decide, by decide, by decide,
    by decide, by decide, by decide, by decide⟩

/-- **C53 is violated** for a host that was dead and has come back.  Asked through two lockspaces, the host is reported
dead in the first and alive in the second.  It joins the first one again, and its reply comes there at 1040.  The
state "dead" is remembered: two seconds after the reply the program reports that the host was reset, although the
watchdog has been started only just now. -/
theorem dead_before_violated : ∃ ps, run (start [7, 7] true false 1000) ps = .done ∧
    (∀ q ∈ ps, Heard 0 7 q ∨ Heard 1 7 q → q.now = 1040) ∧ (∀ q ∈ ps, q.now ≤ 1042) ∧
    (∀ q ∈ ps, SeenDead 0 q → q.now = 1000) := by
  refine ⟨[mk 1000 [dead 4000, live 5000] [], mk 1040 [live 100, live 5040] [[.event 7 true false]],
    mk 1042 [live 100, live 5040] []], by decide +kernel, ?_, ?_, ?_⟩
  · intro q hq
    simp only [List.mem_cons, List.not_mem_nil, or_false] at hq
    rcases hq with rfl | rfl | rfl
    · simp [Heard, mk]
    · intro _; rfl
    · simp [Heard, mk]
  · intro q hq
    simp only [List.mem_cons, List.not_mem_nil, or_false] at hq
    rcases hq with rfl | rfl | rfl <;> decide
  · intro q hq
    simp only [List.mem_cons, List.not_mem_nil, or_false] at hq
    rcases hq with rfl | rfl | rfl
    · intro _; rfl
    · rintro ⟨x, h1, h2⟩
      simp only [mk, List.getElem?_cons_zero, Option.getD_some, live, Option.some.injEq] at h1
      subst h1; cases h2
    · rintro ⟨x, h1, h2⟩
      simp only [mk, List.getElem?_cons_zero, Option.getD_some, live, Option.some.injEq] at h1
      subst h1; cases h2

/-- **A reset that worked can be reported as failed.** The host replies, is reset, and joins again within the 90
seconds: its timestamp starts anew, the unsigned difference is huge, and the program says that the watchdog failed to
fire. -/
theorem rejoined_reported_failed_violated :
    run (start [7] true false 1000)
      [mk 1000 [live 5000] [], mk 1040 [live 5040] [[.event 7 true false]], mk 1042 [live 5040] [],
       mk 1100 [live 5060] [], mk 1134 [live 30] []] = .failed := by decide +kernel

/-- **No news counts as good news.** After the reply the local daemon no longer answers (every `sanlock_get_hosts`
fails): the program compares the last timestamp with itself and reports that the host was reset.  So the check meant
to detect a watchdog that did not fire detects nothing. -/
theorem no_news_done_violated :
    run (start [7] true false 1000)
      [mk 1000 [live 5000] [], mk 1040 [live 5040] [[.event 7 true false]], mk 1042 [live 5040] [],
       mk 1134 [none] []] = .done := by decide +kernel

/-- **The program need not end.** When the connections of all lockspaces are closed (the local daemon has stopped), no
lockspace is left to wait for, and no pass ever ends the program. -/
theorem never_ends_violated {s : St} (hw : s.wdFailed = false) (h : ∀ i, (s.ls i).reg = false) (ps : List Pass) :
    run s ps = .waiting := by
  induction ps generalizing s with
  | nil => rfl
  | cons p ps ih =>
    have hm : ∀ i, (mid s p i).reg = false := fun i => (mid_keeps s p i).1.trans (h i)
    have hwd : wd' s p = false := by
      have : (anyLs fun i => passed p.now (mid s p i) && late (mid s p i)) = false := by
        rw [Bool.eq_false_iff]
        intro hc
        rw [anyLs_iff] at hc
        obtain ⟨i, _, hi⟩ := hc
        simp [passed, hm i] at hi
      simp [wd', hw, this]
    have hl : ∀ i, (look (mid s p i)).reg = false := fun i => (look_keeps _).1.trans (hm i)
    have hnone : ∀ f : Nat → Bool, (∀ i, f i = false) → anyLs f = false := by
      intro f hf
      rw [Bool.eq_false_iff]
      intro hc
      rw [anyLs_iff] at hc
      obtain ⟨i, _, hi⟩ := hc
      rw [hf i] at hi; cases hi
    have hpass : pass s p = (⟨fun i => readLs (look (mid s p i)) (p.got i) (p.hup i), nat' s p, s.resourceMode, wd' s p,
        s.begin⟩, .waiting) := by
      unfold pass
      simp only [resetDone_eq, hwd, Bool.and_false, Bool.false_eq_true, if_false]
      rw [hnone _ (fun i => by simp [passed, hm i]), hnone _ (fun i => by simp [deadDone, hl i])]
      simp only [Bool.and_false, Bool.or_false, Bool.false_eq_true, if_false, resetFail, Bool.false_or]
      rw [hnone _ (fun i => by simp [hl i])]
      simp
    simp only [run, hpass]
    refine ih hwd fun i => ?_
    have := readLs_reg (look (mid s p i)) (p.got i) (p.hup i)
    rw [hl i] at this
    cases hr : (readLs (look (mid s p i)) (p.got i) (p.hup i)).reg
    · rfl
    · exact absurd (this.1 hr).1 (by simp)

/-- The state is reached: one pass in which the connection is found closed. -/
def exClosed : Pass := { now := 1000, hosts := fun _ => none, got := fun _ => [], hup := fun _ => true }

example (ps : List Pass) : run (start [7] true false 1000) (exClosed :: ps) = .waiting := by
  have e : (pass (start [7] true false 1000) exClosed).2 = .waiting := by decide +kernel
  have hp : pass (start [7] true false 1000) exClosed = ((pass (start [7] true false 1000) exClosed).1, .waiting) :=
    Prod.ext rfl e
  have h3 : ∀ i, ((pass (start [7] true false 1000) exClosed).1.ls i).reg = false := by
    intro i
    have k := (knows_step hp i (knows_start _ i (start_entries _ _ _ _ i))).reg
    cases hr : ((pass (start [7] true false 1000) exClosed).1.ls i).reg with
    | false => rfl
    | true =>
      have := (k.1 hr).2 _ List.mem_cons_self
      cases this.1
  have h2 : (pass (start [7] true false 1000) exClosed).1.wdFailed = false := by decide +kernel
  simp only [run]
  rw [hp]
  exact never_ends_violated h2 h3 ps

/-! ## The daemon -/

namespace Daemon

/-- The watchdog has been told to fire. -/
def Armed (d : D) : Prop := d.resetting = true ∧ d.wdFailed = false

theorem handle_out (d : D) (r : Req) : (handle d r).2 =
    (if r.reset && !d.resourceMode then [Out.used r.ls r.cfgOk] else []) ++
    (if r.reset && !d.resetting && d.useWatchdog then [Out.live r.now r.liveOk] else []) ++
    (if ((handle d r).1.resetting && !(handle d r).1.wdFailed || (handle d r).1.rebooting) &&
        !(r.reset && !d.resourceMode && !r.cfgOk) then
      [Out.reply r.ls ((handle d r).1.resetting && !(handle d r).1.wdFailed) (handle d r).1.rebooting] else []) := rfl

/-- One request: what it makes true and what the reply means. -/
theorem handle_spec (d : D) (r : Req) :
    (handle d r).1.useWatchdog = d.useWatchdog ∧
    (d.useWatchdog = true → Armed (handle d r).1 → Armed d ∨ (r.reset = true ∧ Out.live r.now true ∈ (handle d r).2)) ∧
    (∀ ls re rb, Out.reply ls re rb ∈ (handle d r).2 → ls = r.ls ∧ (re = true → Armed (handle d r).1) ∧
      ∃ t, (handle d r).2 = t ++ [Out.reply ls re rb]) := by
  obtain ⟨w, sy, rm, re, wf, rb⟩ := d
  obtain ⟨ls, fr, g, rs, rbt, now, cfg, lv⟩ := r
  refine ⟨?_, ?_, ?_⟩
  · cases rs <;> cases re <;> cases rbt <;> cases sy <;> rfl
  · intro hw
    simp only at hw; subst hw
    cases rs
    · intro h; left; revert h
      cases rbt <;> cases sy <;> exact id
    · cases re
      · cases lv
        · cases rbt <;> cases sy <;> simp [handle, Armed]
        · intro _; right
          exact ⟨rfl, by cases rm <;> simp [handle]⟩
      · intro h; left; revert h
        cases rbt <;> cases sy <;> exact id
  · intro ls' re' rb' h
    rw [handle_out] at h ⊢
    simp only [List.mem_append] at h
    rcases h with (h | h) | h
    · exfalso; revert h; split <;> simp
    · exfalso; revert h; split <;> simp
    · split at h
      · rename_i hc
        simp only [List.mem_cons, Out.reply.injEq, List.not_mem_nil, or_false] at h
        obtain ⟨h1, h2, h3⟩ := h
        refine ⟨h1, fun e => ?_, _, by rw [if_pos hc, h1, h2, h3]⟩
        rw [e] at h2
        have h2' := h2.symm
        simp only [Bool.and_eq_true, Bool.not_eq_true'] at h2'
        exact h2'
      · cases h

theorem handleAll_append (d : D) (rs : List Req) (r : Req) :
    handleAll d (rs ++ [r]) = ((handle (handleAll d rs).1 r).1, (handleAll d rs).2 ++ (handle (handleAll d rs).1 r).2) := by
  induction rs generalizing d with
  | nil => simp [handleAll]
  | cons q rs ih =>
    simp only [List.cons_append, handleAll, ih, List.append_assoc]

theorem handleAll_armed {d : D} (hw : d.useWatchdog = true) (h0 : d.resetting = false) (rs : List Req) :
    (handleAll d rs).1.useWatchdog = true ∧
      (Armed (handleAll d rs).1 → ∃ r ∈ rs, r.reset = true ∧ Out.live r.now true ∈ (handleAll d rs).2) := by
  induction hrs : rs.reverse generalizing rs with
  | nil =>
    rw [List.reverse_eq_nil_iff] at hrs
    subst hrs
    exact ⟨hw, fun h => by have := h.1; rw [show (handleAll d []).1 = d from rfl, h0] at this; cases this⟩
  | cons r rt ih =>
    have hrs' : rs = rt.reverse ++ [r] := by
      have := congrArg List.reverse hrs
      simpa using this
    have ih := ih rt.reverse (List.reverse_reverse rt)
    revert ih hrs'
    generalize rt.reverse = rs
    intro hrs' ih
    subst hrs'
    rw [handleAll_append]
    obtain ⟨s1, s2, _⟩ := handle_spec (handleAll d rs).1 r
    refine ⟨s1.trans ih.1, fun h => ?_⟩
    rcases s2 ih.1 h with h' | ⟨h1, h2⟩
    · obtain ⟨q, q1, q2, q3⟩ := ih.2 h'
      exact ⟨q, List.mem_append_left _ q1, q2, List.mem_append_left _ q3⟩
    · exact ⟨r, by simp, h1, List.mem_append_right _ h2⟩

/-- **A reply is a promise kept.** A daemon that uses the watchdog answers "resetting" only after it has told wdmd that
its connection expires at the time just read; whatever requests came before, through whatever lockspaces.  `rs` are the
requests before the one answered. -/
theorem reply_after_live {sy rm : Bool} (rs : List Req) (r : Req) {ls : Nat} {rb : Bool}
    (h : Out.reply ls true rb ∈ (handle (handleAll (D.start true sy rm) rs).1 r).2) :
    ∃ t, (handleAll (D.start true sy rm) (rs ++ [r])).2 = t ++ [Out.reply ls true rb] ∧
      ∃ q ∈ rs ++ [r], q.reset = true ∧ Out.live q.now true ∈ t := by
  obtain ⟨_, _, s3⟩ := handle_spec (handleAll (D.start true sy rm) rs).1 r
  obtain ⟨_, h2, t, ht⟩ := s3 _ _ _ h
  have ha := (handleAll_armed (d := D.start true sy rm) rfl rfl (rs ++ [r])).2
  rw [handleAll_append] at ha ⊢
  obtain ⟨q, q1, q2, q3⟩ := ha (h2 rfl)
  refine ⟨(handleAll (D.start true sy rm) rs).2 ++ t, by rw [ht, List.append_assoc], q, q1, q2, ?_⟩
  simp only [ht, List.mem_append, List.mem_cons, reduceCtorEq, List.not_mem_nil, or_false] at q3 ⊢
  exact q3

/-- **A request is answered.** A request to reset that reaches a daemon which has not failed before, when the calls it
makes succeed, is answered in the same lockspace, and the connection has expired. -/
theorem request_answered (d : D) (r : Req) (hr : r.reset = true) (hc : r.cfgOk = true) (hl : r.liveOk = true)
    (hd : d.resetting = true → d.wdFailed = false) :
    (∃ rb, Out.reply r.ls true rb ∈ (handle d r).2) ∧ Armed (handle d r).1 ∧
      (d.resetting = false → d.useWatchdog = true → Out.live r.now true ∈ (handle d r).2) := by
  obtain ⟨w, sy, rm, re, wf, rb⟩ := d
  obtain ⟨ls, fr, g, rs, rbt, now, cfg, lv⟩ := r
  simp only at hr hc hl hd
  subst hr hc hl
  cases re
  · refine ⟨?_, ?_, ?_⟩
    · cases rbt <;> cases sy <;> cases w <;> cases rm <;> simp [handle]
    · cases rbt <;> cases sy <;> cases w <;> simp [handle, Armed]
    · intro _ h
      simp only at h; subst h
      simp [handle]
  · have := hd rfl
    subst this
    refine ⟨?_, ?_, fun h => by cases h⟩
    · cases rbt <;> cases sy <;> cases w <;> cases rm <;> simp [handle]
    · cases rbt <;> cases sy <;> cases w <;> simp [handle, Armed]

/-- Example: two lockspaces, the second request only gets an answer. -/
example : (handleAll (D.start true false false)
    [⟨0, 1, 1, true, false, 104, true, true⟩, ⟨1, 1, 1, true, false, 110, true, true⟩]).2 =
    [.used 0 true, .live 104 true, .reply 0 true false, .used 1 true, .reply 1 true false] := by decide

/-- **With the watchdog switched off** (`-w 0`) the daemon answers "resetting" all the same, and nothing resets the
host. -/
theorem no_watchdog_violated : ∃ r, handle (D.start false false false) r =
    (⟨false, false, false, true, false, false⟩, [.used 0 true, .reply 0 true false]) :=
  ⟨⟨0, 1, 1, true, false, 104, true, true⟩, by decide⟩

/-- **A failure is final.** If the message to wdmd could not be sent for the first request, no later request makes the
daemon try again. -/
theorem never_retried_violated {d : D} (h1 : d.resetting = true) (rs : List Req) :
    ∀ x ok, Out.live x ok ∉ (handleAll d rs).2 := by
  induction rs generalizing d with
  | nil => intro x ok h; cases h
  | cons r rs ih =>
    intro x ok h
    simp only [handleAll, List.mem_append] at h
    rcases h with h | h
    · simp only [handle, h1, Bool.not_true, Bool.and_false, Bool.false_and, Bool.false_eq_true, if_false,
        List.append_nil, List.mem_append] at h
      rcases h with h | h <;> (revert h; split <;> simp)
    · refine ih ?_ x ok h
      simp only [handle, h1, Bool.not_true, Bool.and_false, Bool.false_eq_true, if_false]
      split
      · rfl
      · exact h1

example : (handle (D.start true false false) ⟨0, 1, 1, true, false, 104, true, false⟩).1.resetting = true := by decide

end Daemon

end Sanlock.ResetTool
