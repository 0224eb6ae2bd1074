import Verif.Hosts
import Verif.Props.Liveness
import Verif.Props.OwnerTest

/-!
# C76: the list of hosts
-/

namespace Sanlock.Hosts

open OnDisk Verify Liveness

/-! ## What is remembered -/

theorem after_name (reads : List (UInt64 × (Nat → Leader))) : ∀ p : Space, (p.after reads).name = p.name ∧ (p.after reads).own = p.own := by
  induction reads with
  | nil => intro p; exact ⟨rfl, rfl⟩
  | cons r t ih => intro p; exact ih (p.check r.1 r.2)

/-- The entry of a host depends only on its own sector. -/
theorem after_get (reads : List (UInt64 × (Nat → Leader))) : ∀ (p : Space) (i : Nat),
    (p.after reads).status[i]? = (p.status[i]?).map fun hs => checkAll p.name hs (reads.map fun r => (r.1, r.2 i)) := by
  induction reads with
  | nil =>
    intro p i
    show p.status[i]? = _
    cases p.status[i]? <;> rfl
  | cons r t ih =>
    intro p i
    show ((p.check r.1 r.2).after t).status[i]? = _
    rw [ih]
    show Option.map _ ((p.status.mapIdx _)[i]?) = _
    rw [List.getElem?_mapIdx]
    cases p.status[i]? <;> rfl

theorem after_len (reads : List (UInt64 × (Nat → Leader))) : ∀ p : Space, (p.after reads).status.length = p.status.length := by
  induction reads with
  | nil => intro p; rfl
  | cons r t ih =>
    intro p
    show ((p.check r.1 r.2).after t).status.length = _
    rw [ih]
    exact List.length_mapIdx

theorem fresh_get (name : List UInt8) (own : UInt64) (n : Nat) (reads : List (UInt64 × (Nat → Leader))) (i : Nat) (h : i < n) :
    ((Space.fresh name own n).after reads).status[i]? =
      some (checkAll name .zero (reads.map fun r => (r.1, r.2 i))) := by
  rw [after_get]
  show Option.map _ ((List.replicate n HostStatus.zero)[i]?) = _
  rw [List.getElem?_replicate, if_pos h]
  rfl

/-- A host lease with the right magic number and lockspace. -/
def GoodLease (name : List UInt8) (l : Leader) : Prop := l.magic = deltaMagic ∧ strncmpEq 48 l.spaceName.bytes name = true

theorem check_timestamp (name : List UInt8) (hs : HostStatus) (now : UInt64) (l : Leader) :
    (checkOther name hs now l).timestamp = l.timestamp := by
  by_cases h0 : hs.firstCheck = 0 <;>
    by_cases hb : l.magic ≠ deltaMagic ∨ strncmpEq 48 l.spaceName.bytes name = false <;>
    simp only [checkOther, h0, hb, ↓reduceIte] <;>
    split
  all_goals first | rfl | (rename_i h; exact h.2.2)

theorem check_time (name : List UInt8) (hs : HostStatus) (now : UInt64) (l : Leader) : (checkOther name hs now l).lastCheck = now := by
  by_cases h0 : hs.firstCheck = 0 <;>
    by_cases hb : l.magic ≠ deltaMagic ∨ strncmpEq 48 l.spaceName.bytes name = false <;>
    simp only [checkOther, h0, hb, ↓reduceIte] <;>
    repeat' split
  all_goals rfl

theorem check_gen {name : List UInt8} (hs : HostStatus) (now : UInt64) {l : Leader} (h : GoodLease name l) :
    (checkOther name hs now l).ownerGeneration = l.ownerGeneration := by
  have hb : ¬ (l.magic ≠ deltaMagic ∨ strncmpEq 48 l.spaceName.bytes name = false) := by
    rintro (h1 | h1)
    · exact h1 h.1
    · rw [h.2] at h1; exact absurd h1 (by decide)
  by_cases h0 : hs.firstCheck = 0
  all_goals
    simp only [checkOther, h0, hb, ↓reduceIte]
    split
    · next h => exact h.2.1
    · rfl

/-- A good lease that is not what was remembered counts as a sign of life at this time. -/
theorem check_new {name : List UInt8} {hs : HostStatus} (now : UInt64) {l : Leader} (h : GoodLease name l)
    (hn : hs.timestamp ≠ l.timestamp) :
    (checkOther name hs now l).lastLive = now ∧ (checkOther name hs now l).ioTimeout = l.ioTimeout ∧
      (checkOther name hs now l).ownerId = l.ownerId := by
  have hb : ¬ (l.magic ≠ deltaMagic ∨ strncmpEq 48 l.spaceName.bytes name = false) := by
    rintro (h1 | h1)
    · exact h1 h.1
    · rw [h.2] at h1; exact absurd h1 (by decide)
  unfold checkOther
  dsimp only
  rw [if_neg hb]
  by_cases h0 : hs.firstCheck = 0
  · rw [if_pos h0, if_neg (fun h => hn h.2.2)]
    exact ⟨rfl, rfl, rfl⟩
  · rw [if_neg h0, if_neg (fun h => hn h.2.2)]
    exact ⟨rfl, rfl, rfl⟩

/-- Reading the same lease again changes nothing that the state depends on. -/
theorem check_same {name : List UInt8} {hs : HostStatus} (now : UInt64) {l : Leader} (h : GoodLease name l)
    (h1 : hs.ownerId = l.ownerId) (h2 : hs.ownerGeneration = l.ownerGeneration) (h3 : hs.timestamp = l.timestamp)  :
    (checkOther name hs now l).lastLive = hs.lastLive ∧ (checkOther name hs now l).ioTimeout = hs.ioTimeout ∧
      (checkOther name hs now l).ownerId = hs.ownerId := by
  have hb : ¬ (l.magic ≠ deltaMagic ∨ strncmpEq 48 l.spaceName.bytes name = false) := by
    rintro (h1 | h1)
    · exact h1 h.1
    · rw [h.2] at h1; exact absurd h1 (by decide)
  unfold checkOther
  dsimp only
  rw [if_neg hb]
  by_cases h0 : hs.firstCheck = 0
  · rw [if_pos h0, if_pos ⟨h1, h2, h3⟩]
    exact ⟨rfl, rfl, rfl⟩
  · rw [if_neg h0, if_pos ⟨h1, h2, h3⟩]
    exact ⟨rfl, rfl, rfl⟩

/-- What a lease that has changed at time `t` and not since leaves behind. -/
structure Shows (hs : HostStatus) (t : UInt64) (l : Leader) : Prop where
  ts : hs.timestamp = l.timestamp
  gen : hs.ownerGeneration = l.ownerGeneration
  id : hs.ownerId = l.ownerId
  io : hs.ioTimeout = l.ioTimeout
  live : hs.lastLive = t

theorem shows_all {name : List UInt8} {l : Leader} {t : UInt64} (h : GoodLease name l) (times : List UInt64) :
    ∀ hs, Shows hs t l → Shows (checkAll name hs (times.map fun x => (x, l))) t l := by
  induction times with
  | nil => intro hs hh; exact hh
  | cons x xs ih =>
    intro hs hh
    refine ih _ ?_
    obtain ⟨a, b, c⟩ := check_same (hs := hs) x h hh.id hh.gen hh.ts
    exact ⟨check_timestamp _ _ _ _, check_gen _ _ h, c.trans hh.id, b.trans hh.io, a.trans hh.live⟩

/-! ## The answer -/

/-- The hosts that go into the answer. -/
def Wanted (ask i : Nat) (hs : HostStatus) : Prop := if ask = 0 then hs.timestamp ≠ 0 else ask = i + 1

theorem walk_spec (wd : Nat) (own : UInt64) (clk : Nat → UInt64) (ask room : Nat) : ∀ (st : List HostStatus) (i len : Nat),
    len + 32 * st.length ≤ room →
    (walk wd own clk ask room i st len).2.2 = false ∧
    (walk wd own clk ask room i st len).2.1 = (walk wd own clk ask room i st len).1.length ∧
    (∀ h, h ∈ (walk wd own clk ask room i st len).1 ↔
      ∃ j hs, st[j]? = some hs ∧ Wanted ask (i + j) hs ∧ h = entry wd own clk (i + j) hs) ∧
    (walk wd own clk ask room i st len).1.Pairwise (fun a b => a.id < b.id) := by
  intro st
  induction st with
  | nil =>
    intro i len _
    refine ⟨rfl, rfl, fun h => ⟨fun h => (by cases h), fun ⟨j, hs, h, _⟩ => (by cases h)⟩, List.Pairwise.nil⟩
  | cons hs t ih =>
    intro i len hroom
    rw [List.length_cons] at hroom
    have shift : ∀ (P : Nat → HostStatus → Prop), (∃ j x, (hs :: t)[j]? = some x ∧ P (i + j) x) ↔
        P i hs ∨ ∃ j x, t[j]? = some x ∧ P (i + 1 + j) x := by
      intro P
      constructor
      · rintro ⟨j, x, h1, h2⟩
        cases j with
        | zero => cases h1; exact .inl h2
        | succ j => exact .inr ⟨j, x, h1, by rw [show i + 1 + j = i + (j + 1) by omega]; exact h2⟩
      · rintro (h | ⟨j, x, h1, h2⟩)
        · exact ⟨0, hs, rfl, h⟩
        · exact ⟨j + 1, x, h1, by rw [show i + (j + 1) = i + 1 + j by omega]; exact h2⟩
    have skip : ¬ Wanted ask i hs → ∀ h, ((∃ j x, (hs :: t)[j]? = some x ∧ Wanted ask (i + j) x ∧ h = entry wd own clk (i + j) x) ↔
        ∃ j x, t[j]? = some x ∧ Wanted ask (i + 1 + j) x ∧ h = entry wd own clk (i + 1 + j) x) := by
      intro hw h
      rw [shift (fun k x => Wanted ask k x ∧ h = entry wd own clk k x)]
      exact ⟨fun hh => hh.elim (fun hh => absurd hh.1 hw) id, .inr⟩
    unfold walk
    split
    · next h1 =>
      obtain ⟨a, b, c, d⟩ := ih (i + 1) len (by omega)
      refine ⟨a, b, fun h => ?_, d⟩
      rw [skip (by unfold Wanted; rw [if_neg h1.1]; exact h1.2)]
      exact c h
    · next h1 =>
      split
      · next h2 =>
        obtain ⟨a, b, c, d⟩ := ih (i + 1) len (by omega)
        refine ⟨a, b, fun h => ?_, d⟩
        rw [skip (by unfold Wanted; rw [if_pos h2.1]; exact fun hh => hh h2.2)]
        exact c h
      · next h2 =>
        have hw : Wanted ask i hs := by
          unfold Wanted
          split
          · next h0 => exact fun hh => h2 ⟨h0, hh⟩
          · next h0 => exact Classical.byContradiction fun hh => h1 ⟨h0, hh⟩
        rw [if_neg (by omega)]
        obtain ⟨a, b, c, d⟩ := ih (i + 1) (len + 32) (by omega)
        refine ⟨a, by show _ + 1 = _; rw [b]; rfl, fun h => ?_, ?_⟩
        · rw [shift (fun k x => Wanted ask k x ∧ h = entry wd own clk k x), ← c h]
          show h ∈ entry wd own clk i hs :: _ ↔ _
          rw [List.mem_cons]
          constructor
          · rintro (e | e)
            · exact .inl ⟨hw, e⟩
            · exact .inr e
          · rintro (e | e)
            · exact .inl e.2
            · exact .inr e
        · refine List.pairwise_cons.mpr ⟨?_, d⟩
          intro x hx
          obtain ⟨j, y, _, _, e⟩ := (c x).mp hx
          rw [e]
          show i + 1 < i + 1 + j + 1
          omega

/-- At least one read has been looked at. -/
def Checked (p : Space) : Prop := ∃ hs, p.status.head? = some hs ∧ hs.lastCheck ≠ 0

theorem call_checked {wd : Nat} {clk : Nat → UInt64} {p : Space} {ask : Nat} (hc : Checked p) (hn : p.status.length ≤ 2000) :
    call wd clk (some p) ask = (0, some (walk wd p.own clk ask 1048576 0 p.status 0).1) := by
  obtain ⟨hs, h1, h2⟩ := hc
  obtain ⟨a, b, _, _⟩ := walk_spec wd p.own clk ask 1048576 p.status 0 0 (by omega)
  unfold call getHosts
  have : ¬ ((p.status.head?).all (fun hs => hs.lastCheck = 0)) = true := by
    rw [h1]
    show ¬ decide (hs.lastCheck = 0) = true
    rw [decide_eq_true_eq]; exact h2
  dsimp only
  rw [if_neg this]
  dsimp only
  rw [a, b]
  rw [if_neg Bool.false_ne_true, if_neg (fun h => absurd h.1 (by decide)), if_neg (Nat.lt_irrefl _)]

/-- `sanlock_get_hosts` for all hosts returns every host with a lease that is not free, once, in the order of the host
ids, and no other. -/
theorem all_hosts {wd : Nat} {clk : Nat → UInt64} {p : Space} (hc : Checked p) (hn : p.status.length ≤ 2000) :
    ∃ l, call wd clk (some p) 0 = (0, some l) ∧ l.Pairwise (fun a b => a.id < b.id) ∧
      ∀ h, h ∈ l ↔ ∃ i hs, p.status[i]? = some hs ∧ hs.timestamp ≠ 0 ∧
        h = ⟨i + 1, hs.ownerGeneration, hs.timestamp, hs.ioTimeout, code (getHostFlag wd p.own hs (clk i))⟩ := by
  obtain ⟨_, _, c, d⟩ := walk_spec wd p.own clk 0 1048576 p.status 0 0 (by omega)
  refine ⟨_, call_checked hc hn, d, fun h => ?_⟩
  rw [c h]
  constructor
  · rintro ⟨j, hs, h1, h2, h3⟩
    rw [Nat.zero_add] at h2 h3
    exact ⟨j, hs, h1, h2, h3⟩
  · rintro ⟨j, hs, h1, h2, h3⟩
    exact ⟨j, hs, h1, by rw [Nat.zero_add]; exact h2, by rw [Nat.zero_add]; exact h3⟩

theorem sorted_one {l : List Host} (hp : l.Pairwise (fun a b => a.id < b.id)) {e : Host} (h : ∀ x, x ∈ l ↔ x = e) : l = [e] := by
  cases l with
  | nil => exact nomatch ((h e).mpr rfl)
  | cons a t =>
    have ha := (h a).mp List.mem_cons_self
    subst ha
    cases t with
    | nil => rfl
    | cons b t =>
      have hb := (h b).mp (List.mem_cons_of_mem _ List.mem_cons_self)
      have := (List.pairwise_cons.mp hp).1 b List.mem_cons_self
      rw [hb] at this
      exact absurd this (Nat.lt_irrefl _)

/-- `sanlock_get_hosts` for one host returns this host, free or not; for a host id that the lockspace does not have, an
empty list. -/
theorem one_host {wd : Nat} {clk : Nat → UInt64} {p : Space} (hc : Checked p) (hn : p.status.length ≤ 2000) (k : Nat) :
    call wd clk (some p) (k + 1) = (0, some (match p.status[k]? with
      | some hs => [⟨k + 1, hs.ownerGeneration, hs.timestamp, hs.ioTimeout, code (getHostFlag wd p.own hs (clk k))⟩]
      | none => [])) := by
  obtain ⟨_, _, c, d⟩ := walk_spec wd p.own clk (k + 1) 1048576 p.status 0 0 (by omega)
  rw [call_checked hc hn]
  congr 2
  have hw : ∀ i hs, Wanted (k + 1) i hs ↔ i = k := by
    intro i hs
    unfold Wanted
    rw [if_neg (by omega)]
    omega
  cases hk : p.status[k]? with
  | none =>
    dsimp only
    refine List.eq_nil_iff_forall_not_mem.mpr fun x hx => ?_
    obtain ⟨j, hs, h1, h2, _⟩ := (c x).mp hx
    rw [hw, Nat.zero_add] at h2
    rw [h2, hk] at h1
    exact nomatch h1
  | some hs =>
    dsimp only
    refine sorted_one d fun x => ?_
    rw [c x]
    constructor
    · rintro ⟨j, y, h1, h2, h3⟩
      rw [hw, Nat.zero_add] at h2
      subst h2
      rw [hk] at h1; cases h1
      rw [h3, Nat.zero_add]; rfl
    · intro e
      exact ⟨k, hs, hk, (hw _ _).mpr (Nat.zero_add k), by rw [e, Nat.zero_add]; rfl⟩

/-- The other results: `-ENOENT` without the lockspace, `-EAGAIN` exactly before the first read. -/
theorem results {wd : Nat} {clk : Nat → UInt64} {ask : Nat} : call wd clk none ask = (Rv.ENOENT, none) ∧
    ∀ p : Space, p.status.length ≤ 2000 → (call wd clk (some p) ask = (Rv.EAGAIN, none) ↔ ¬ Checked p) := by
  refine ⟨rfl, fun p hn => ⟨fun h hc => ?_, fun hc => ?_⟩⟩
  · rw [call_checked hc hn] at h
    have h0 : (0 : Int) = Rv.EAGAIN := congrArg Prod.fst h
    exact absurd h0 (by decide)
  · have : ((p.status.head?).all (fun hs => hs.lastCheck = 0)) = true := by
      cases h : p.status.head? with
      | none => rfl
      | some hs =>
        show decide (hs.lastCheck = 0) = true
        rw [decide_eq_true_eq]
        exact Classical.byContradiction fun h2 => hc ⟨hs, h, h2⟩
    unfold call getHosts
    dsimp only
    rw [if_pos this]
    rfl

/-! ## From the leases to the list -/

theorem checked_after {name : List UInt8} {own : UInt64} {n : Nat} {reads : List (UInt64 × (Nat → Leader))} {t : UInt64}
    {secs : Nat → Leader} (hn : 0 < n) (ht : t ≠ 0) : Checked ((Space.fresh name own n).after (reads ++ [(t, secs)])) := by
  have := fresh_get name own n (reads ++ [(t, secs)]) 0 hn
  refine ⟨_, by rw [List.head?_eq_getElem?]; exact this, ?_⟩
  rw [List.map_append]
  show (checkAll name .zero (_ ++ [(t, secs 0)])).lastCheck ≠ 0
  unfold checkAll
  rw [List.foldl_append]
  show (checkOther name _ t (secs 0)).lastCheck ≠ 0
  rw [check_time]
  exact ht

/-- After any reads, a host is on the list exactly if its lease, as last read, has a time, and its generation is the one
last read if the lease is good. -/
theorem listed {wd : Nat} {clk : Nat → UInt64} {name : List UInt8} {own : UInt64} {n : Nat} {reads : List (UInt64 × (Nat → Leader))}
    {t : UInt64} {secs : Nat → Leader} (hn : n ≤ 2000) (h0 : 0 < n) (ht : t ≠ 0) :
    ∃ l, call wd clk (some ((Space.fresh name own n).after (reads ++ [(t, secs)]))) 0 = (0, some l) ∧
      ∀ i, i < n → ((∃ h ∈ l, h.id = i + 1) ↔ (secs i).timestamp ≠ 0) ∧
        ∀ h ∈ l, h.id = i + 1 → h.ts = (secs i).timestamp ∧ (GoodLease name (secs i) → h.gen = (secs i).ownerGeneration) ∧
          1 ≤ h.flags ∧ h.flags ≤ 5 := by
  obtain ⟨l, h1, h2, h3⟩ := all_hosts (wd := wd) (clk := clk) (checked_after (name := name) (own := own) (reads := reads) (secs := secs) h0 ht)
    (by rw [after_len]; show (List.replicate n HostStatus.zero).length ≤ 2000; rw [List.length_replicate]; exact hn)
  refine ⟨l, h1, fun i hi => ?_⟩
  have hg := fresh_get name own n (reads ++ [(t, secs)]) i hi
  have hl : checkAll name .zero ((reads ++ [(t, secs)]).map fun r => (r.1, r.2 i)) =
      checkOther name (checkAll name .zero (reads.map fun r => (r.1, r.2 i))) t (secs i) := by
    rw [List.map_append]
    unfold checkAll
    rw [List.foldl_append]
    rfl
  rw [hl] at hg
  constructor
  · constructor
    · rintro ⟨h, hm, he⟩
      obtain ⟨j, hs, a, b, c⟩ := (h3 h).mp hm
      have : j = i := by rw [c] at he; exact Nat.succ.inj he
      subst this
      rw [hg] at a; cases a
      rw [check_timestamp] at b; exact b
    · intro hs
      exact ⟨_, (h3 _).mpr ⟨i, _, hg, by rw [check_timestamp]; exact hs, rfl⟩, rfl⟩
  · intro h hm he
    obtain ⟨j, hs, a, b, c⟩ := (h3 h).mp hm
    have : j = i := by rw [c] at he; exact Nat.succ.inj he
    subst this
    rw [hg] at a; cases a
    rw [c]
    refine ⟨check_timestamp _ _ _ _, fun h => check_gen _ _ h, ?_, ?_⟩
    all_goals
      obtain ⟨f, hf⟩ := flag_documented wd ((Space.fresh name own n).after (reads ++ [(t, secs)])).own
        (checkOther name (checkAll name .zero (reads.map fun r => (r.1, r.2 j))) t (secs j)) (clk j)
      dsimp only
      rw [hf]
      cases f <;> decide

/-- A host that has been seen to renew its lease and has not been silent for long since is not reported as free or dead. -/
theorem shows_flag {wd : Nat} {own : UInt64} {hs : HostStatus} {t now : UInt64} {l : Leader} (h : Shows hs t l) (ht : t ≠ 0)
    (hz : l.timestamp ≠ 0) (hd : now - t ≤ deadSecs wd l.ioTimeout) :
    code (getHostFlag wd own hs now) = 1 ∨ code (getHostFlag wd own hs now) = 3 ∨ code (getHostFlag wd own hs now) = 4 := by
  unfold getHostFlag
  dsimp only
  rw [if_neg (by rw [h.ts]; exact hz), h.live, h.io]
  rw [if_neg ht]
  by_cases h1 : own = hs.ownerId
  · rw [if_pos h1]; exact .inr (.inl rfl)
  rw [if_neg h1]
  by_cases h2 : now - t ≤ failSecs l.ioTimeout
  · by_cases h3 : hs.firstCheck = t
    · rw [if_pos ⟨h2, h3⟩]; exact .inl rfl
    · rw [if_neg (fun h => h3 h.2), if_pos h2]; exact .inr (.inl rfl)
  · rw [if_neg (fun h => h2 h.1), if_neg h2, if_neg (UInt64.not_lt.mpr hd), if_pos (UInt64.not_le.mp h2)]
    exact .inr (.inr rfl)

/-- **From the leases to the decision of the program.**  If the lease of host `i + 1` was seen to change at time `t`, has not
changed since, then the host is listed with this lease, neither free nor dead, and if host and generation own a resource, then `sanlock_test_resource_owners` with the list of hosts does not
say that the resource is free, until the host has been silent for eight I/O timeouts and the watchdog timeout `wd`. -/
theorem owner_seen {wd : Nat} {clk : Nat → UInt64} {name : List UInt8} {own : UInt64} {n i : Nat} {pre : List (UInt64 × (Nat → Leader))}
    {t : UInt64} {l : Leader} {secs : Nat → Leader} {post : List (UInt64 × (Nat → Leader))} {owners : List OwnerTest.Host} {flags : Nat}
    (hn : n ≤ 2000) (hi : i < n) (ht : t ≠ 0) (hp : ∀ r ∈ post, r.1 ≠ 0) (hl : secs i = l) (hpost : ∀ r ∈ post, r.2 i = l)
    (hg : GoodLease name l) (hz : l.timestamp ≠ 0)
    (hc : (checkAll name .zero (pre.map fun r => (r.1, r.2 i))).timestamp ≠ l.timestamp)
    (hwd : wd < 2 ^ 32) (hd : (clk i - t).toNat ≤ 8 * l.ioTimeout.toNat + wd) (ho : ⟨i + 1, l.ownerGeneration.toNat, flags⟩ ∈ owners) :
    ∃ hosts, call wd clk (some ((Space.fresh name own n).after (pre ++ (t, secs) :: post))) 0 = (0, some hosts) ∧
      (∃ f, ⟨i + 1, l.ownerGeneration, l.timestamp, l.ioTimeout, f⟩ ∈ hosts ∧ (f = 1 ∨ f = 3 ∨ f = 4)) ∧
      OwnerTest.test owners (hosts.map Host.test) ≠ (0, 0) := by
  have hd : clk i - t ≤ deadSecs wd l.ioTimeout := by
    have := l.ioTimeout.toNat_lt
    unfold deadSecs
    rw [UInt64.le_iff_toNat_le, UInt64.toNat_ofNat', Nat.mod_eq_of_lt (by omega)]
    exact hd
  have hch : Checked ((Space.fresh name own n).after (pre ++ (t, secs) :: post)) := by
    rcases List.eq_nil_or_concat post with e | ⟨q, r, e⟩
    · rw [e]; exact checked_after (by omega) ht
    · have hr := hp r (by rw [e]; simp)
      rw [show pre ++ (t, secs) :: post = (pre ++ (t, secs) :: q) ++ [(r.1, r.2)] by rw [e]; simp]
      exact checked_after (by omega) hr
  obtain ⟨hosts, h1, h2, h3⟩ := all_hosts (wd := wd) (clk := clk) hch
    (by rw [after_len]; show (List.replicate n HostStatus.zero).length ≤ 2000; rw [List.length_replicate]; exact hn)
  refine ⟨hosts, h1, ?_⟩
  have hget := fresh_get name own n (pre ++ (t, secs) :: post) i hi
  have hsh : Shows (checkAll name .zero ((pre ++ (t, secs) :: post).map fun r => (r.1, r.2 i))) t l := by
    have : (pre ++ (t, secs) :: post).map (fun r => (r.1, r.2 i)) =
        pre.map (fun r => (r.1, r.2 i)) ++ (t, l) :: (post.map fun r => r.1).map fun x => (x, l) := by
      rw [List.map_append, List.map_cons, List.map_map]
      show _ ++ (t, secs i) :: _ = _
      rw [hl]
      congr 2
      refine List.map_congr_left fun r hr => ?_
      show (r.1, r.2 i) = (r.1, l)
      rw [hpost r hr]
    rw [this]
    unfold checkAll
    rw [List.foldl_append, List.foldl_cons]
    refine shows_all hg _ _ ?_
    obtain ⟨a, b, c⟩ := check_new t hg hc
    exact ⟨check_timestamp _ _ _ _, check_gen _ _ hg, c, b, a⟩
  generalize hst : checkAll name .zero ((pre ++ (t, secs) :: post).map fun r => (r.1, r.2 i)) = st at hget hsh
  have hm := (h3 _).mpr ⟨i, st, hget, by rw [hsh.ts]; exact hz, rfl⟩
  refine ⟨⟨_, by rw [← hsh.gen, ← hsh.ts, ← hsh.io]; exact hm, shows_flag hsh ht hz hd⟩, ?_⟩
  rw [Ne, OwnerTest.test_clear_iff]
  · intro hgone
    have := hgone _ ho _ (List.mem_map.mpr ⟨_, hm, rfl⟩) rfl
    dsimp only [Host.test] at this
    rw [hsh.gen] at this
    rcases shows_flag (wd := wd) (own := ((Space.fresh name own n).after (pre ++ (t, secs) :: post)).own) hsh ht hz hd with e | e | e <;>
      rw [e] at this <;> omega
  · rw [List.pairwise_map]
    exact h2.imp fun h => Nat.ne_of_lt h

/-- If the last read shows a zero time in the lease of a host, a bad lease included, the program is told that a resource of
this host is free, no matter when the host was last seen alive. -/
theorem zero_clear {wd : Nat} {clk : Nat → UInt64} {name : List UInt8} {own : UInt64} {n i : Nat}
    {reads : List (UInt64 × (Nat → Leader))} {t : UInt64} {secs : Nat → Leader} {g flags : Nat} (hn : n ≤ 2000) (hi : i < n) (ht : t ≠ 0)
    (hz : (secs i).timestamp = 0) :
    ∃ hosts, call wd clk (some ((Space.fresh name own n).after (reads ++ [(t, secs)]))) 0 = (0, some hosts) ∧
      OwnerTest.test [⟨i + 1, g, flags⟩] (hosts.map Host.test) = (0, 0) := by
  have hlen : ((Space.fresh name own n).after (reads ++ [(t, secs)])).status.length ≤ 2000 := by
    rw [after_len]; show (List.replicate n HostStatus.zero).length ≤ 2000; rw [List.length_replicate]; exact hn
  obtain ⟨hosts, h1, h2, _⟩ := all_hosts (wd := wd) (clk := clk)
    (checked_after (name := name) (own := own) (reads := reads) (secs := secs) (by omega : 0 < n) ht) hlen
  obtain ⟨l, e1, e2⟩ := listed (wd := wd) (clk := clk) (name := name) (own := own) (reads := reads) (secs := secs) hn (by omega : 0 < n) ht
  have : l = hosts := by
    rw [e1] at h1
    exact Option.some.inj (congrArg Prod.snd h1)
  subst this
  refine ⟨l, h1, ?_⟩
  rw [OwnerTest.test_clear_iff (by rw [List.pairwise_map]; exact h2.imp fun h => Nat.ne_of_lt h)]
  intro o ho h hh he
  rw [List.mem_singleton] at ho
  subst ho
  obtain ⟨x, hx, rfl⟩ := List.mem_map.mp hh
  exact absurd hz (((e2 i hi).1).mp ⟨x, hx, he⟩)

/-! ## Examples and witnesses -/

/-- Leases of a lockspace "A…A" in which host 2 alone has one. -/
def exSecs (l : Leader) : Nat → Leader := fun i => if i = 1 then l else exLease 10 0

/-- Host 2 seen at 1000 and with a new time at 1020; the list at 1050, for all hosts, for host 3, for a host too many. -/
def exSp : Space := (Space.fresh exSpace 1 3).after [(1000, exSecs (exLease 10 500)), (1020, exSecs (exLease 10 520))]

example : call 60 (fun _ => 1050) (some exSp) 0 = (0, some [⟨2, 3, 520, 10, 3⟩]) := by decide +kernel
example : call 60 (fun _ => 1050) (some exSp) 3 = (0, some [⟨3, 3, 0, 10, 2⟩]) := by decide +kernel
example : call 60 (fun _ => 1050) (some exSp) 4 = (0, some []) := by decide +kernel
example : call 60 (fun _ => 1050) (some (Space.fresh exSpace 1 3)) 0 = (Rv.EAGAIN, none) := by decide +kernel
example : Checked exSp := ⟨_, rfl, by decide +kernel⟩

/-- `owner_seen` with all its hypotheses: read again at 1040, asked at 1159. -/
example : ∃ hosts, call 60 (fun _ => 1159) (some ((Space.fresh exSpace 1 3).after ([(1000, exSecs (exLease 10 500))] ++
      (1020, exSecs (exLease 10 520)) :: [(1040, exSecs (exLease 10 520))]))) 0 = (0, some hosts) ∧
    (∃ f, ⟨2, 3, 520, 10, f⟩ ∈ hosts ∧ (f = 1 ∨ f = 3 ∨ f = 4)) ∧ OwnerTest.test [⟨2, 3, 0⟩] (hosts.map Host.test) ≠ (0, 0) :=
  owner_seen (i := 1) (flags := 0) (l := exLease 10 520) (by decide) (by decide) (by decide) (by simp) rfl (by simp [exSecs])
    ⟨rfl, by decide +kernel⟩ (by decide) (by decide +kernel) (by decide) (by decide +kernel) (by decide)

/-- At 1161 the same owner is dead and the resource free. -/
example : ((call 60 (fun _ => 1161) (some ((Space.fresh exSpace 1 3).after [(1000, exSecs (exLease 10 500)),
    (1020, exSecs (exLease 10 520)), (1040, exSecs (exLease 10 520))])) 0).2.map fun l =>
      OwnerTest.test [⟨2, 3, 0⟩] (l.map Host.test)) = some (0, 0) := by decide +kernel

/-- `src/sanlock_admin.h:88-89`: with host id 0 "all hosts that have been seen alive".  A host that died years ago and was
never seen alive is returned; a host that was seen alive and has left is not. -/
theorem seen_alive_violated :
    call 60 (fun _ => 9000) (some ((Space.fresh exSpace 1 3).after [(1000, exSecs (exLease 10 500)), (8990, exSecs (exLease 10 500))])) 0 =
      (0, some [⟨2, 3, 500, 10, 5⟩]) ∧
    call 60 (fun _ => 1050) (some ((Space.fresh exSpace 1 3).after [(1000, exSecs (exLease 10 500)), (1020, exSecs (exLease 10 520)),
      (1040, exSecs (exLease 10 0))])) 0 = (0, some []) := by decide +kernel

/-- A sector that was overwritten with zeros is not a lease (`src/lockspace.c:461-477` keeps the values of the last good
one), but its time is taken, so a host seen alive twenty seconds ago vanishes from the list and its resource is free. -/
theorem damaged_violated : ∃ bad : Leader, ¬ GoodLease exSpace bad ∧
    call 60 (fun _ => 1041) (some ((Space.fresh exSpace 1 3).after [(1000, exSecs (exLease 10 500)), (1020, exSecs (exLease 10 520)),
      (1040, exSecs bad)])) 2 = (0, some [⟨2, 3, 0, 10, 2⟩]) ∧
    ∃ hosts, call 60 (fun _ => 1041) (some ((Space.fresh exSpace 1 3).after ([(1000, exSecs (exLease 10 500)),
      (1020, exSecs (exLease 10 520))] ++ [(1040, exSecs bad)]))) 0 = (0, some hosts) ∧
      OwnerTest.test [⟨2, 3, 0⟩] (hosts.map Host.test) = (0, 0) := by
  refine ⟨{ exLease 0 0 with magic := 0 }, fun h => absurd h.1 (by decide), by decide +kernel, ?_⟩
  exact zero_clear (i := 1) (by decide) (by decide) (by decide) rfl

end Sanlock.Hosts
