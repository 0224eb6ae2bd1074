import Verif.Liveness
import Verif.Props.Verify

/-!
# C18: host status reports and lease takeover
-/

namespace Sanlock.Liveness

open OnDisk Verify Crc

theorem fail_lt_dead (wd : Nat) (io : UInt16) (h1 : 0 < wd) (h2 : wd < 2 ^ 31) :
    failSecs io < deadSecs wd io := by
  have := io.toNat_lt
  unfold failSecs deadSecs
  rw [UInt64.lt_iff_toNat_lt, UInt64.toNat_ofNat', UInt64.toNat_ofNat', Nat.mod_eq_of_lt (by omega),
    Nat.mod_eq_of_lt (by omega)]
  omega

/-- Facts about a status built from any sequence of reads at non-zero times. -/
structure Inv (hs : HostStatus) : Prop where
  seen : hs.timestamp ≠ 0 → hs.lastLive ≠ 0
  chk : hs.timestamp ≠ 0 → hs.lastCheck ≠ 0

theorem inv_zero : Inv HostStatus.zero := by constructor <;> simp [HostStatus.zero]

theorem inv_check (space : List UInt8) (hs : HostStatus) (now : UInt64) (l : Leader) (hn : now ≠ 0)
    (h : Inv hs) : Inv (checkOther space hs now l) := by
  have hc : (checkOther space hs now l).lastCheck = now := by
    unfold checkOther
    simp only
    repeat' split
    all_goals rfl
  refine ⟨?_, fun _ => by rw [hc]; exact hn⟩
  unfold checkOther
  simp only
  have := h.seen
  repeat' split
  all_goals first | exact fun _ => hn | exact this

theorem inv_all (space : List UInt8) (reads : List (UInt64 × Leader)) :
    ∀ hs, (∀ r ∈ reads, r.1 ≠ 0) → Inv hs → Inv (checkAll space hs reads) := by
  induction reads with
  | nil => intro hs _ h; exact h
  | cons r rs ih =>
    intro hs hr h
    exact ih _ (fun x hx => hr x (List.mem_cons_of_mem _ hx)) (inv_check _ _ _ _ (hr r List.mem_cons_self) h)

/-- **C18.** The reported state is always exactly one of the five documented values. -/
theorem flag_documented (wd : Nat) (own : UInt64) (hs : HostStatus) (now : UInt64) :
    ∃ f, getHostFlag wd own hs now = some f := by
  unfold getHostFlag
  simp only
  by_cases h0 : hs.timestamp = 0
  · simp [h0]
  by_cases h1 : own = hs.ownerId
  · simp [h0, h1]
  generalize (now - if hs.lastLive = 0 then hs.firstCheck else hs.lastLive) = d
  by_cases h2 : d ≤ failSecs hs.ioTimeout
  · by_cases h3 : hs.firstCheck = hs.lastLive <;> simp [h0, h1, h2, h3]
  · have h2' : d > failSecs hs.ioTimeout := UInt64.not_le.mp h2
    by_cases h4 : d > deadSecs wd hs.ioTimeout <;> simp [h0, h1, h2, h2', h4]

/-- **C18.** For every history of what was read from the lease of another host that recorded an I/O
timeout: the state shown for it and the decision whether it is alive (in its current generation) agree. -/
theorem flag_consistent_partial (space : List UInt8) (reads : List (UInt64 × Leader))
    (hreads : ∀ r ∈ reads, r.1 ≠ 0) (hne : reads ≠ []) (wd : Nat) (hwd : 0 < wd) (hwd2 : wd < 2 ^ 31)
    (own : UInt64) (ownIo : UInt16) (now : UInt64) (hs : HostStatus)
    (hhs : hs = checkAll space HostStatus.zero reads)
    (hio : hs.ioTimeout ≠ 0) (hother : own ≠ hs.ownerId) :
    (hostLive wd ownIo (some hs) hs.ownerGeneration now = true ↔
      getHostFlag wd own hs now = some .live ∨ getHostFlag wd own hs now = some .fail ∨
      getHostFlag wd own hs now = some .unknown) ∧
    (hostLive wd ownIo (some hs) hs.ownerGeneration now = false ↔
      getHostFlag wd own hs now = some .dead ∨ getHostFlag wd own hs now = some .free) := by
  have hinv : Inv hs := hhs ▸ inv_all space reads _ hreads inv_zero
  have hchk : hs.lastCheck ≠ 0 := by
    rw [hhs]
    obtain ⟨r, rs, rfl⟩ : ∃ r rs, reads = rs ++ [r] := by
      rcases List.eq_nil_or_concat reads with h | ⟨rs, r, h⟩
      · exact absurd h hne
      · exact ⟨r, rs, by simpa using h⟩
    unfold checkAll
    rw [List.foldl_append]
    simp only [List.foldl_cons, List.foldl_nil]
    have : ∀ hs, (checkOther space hs r.1 r.2).lastCheck = r.1 := by
      intro hs
      unfold checkOther
      simp only
      repeat' split
      all_goals rfl
    rw [this]
    exact hreads r (by simp)
  have hlt := fail_lt_dead wd hs.ioTimeout hwd hwd2
  unfold hostLive hostInfo getHostFlag
  simp only [Option.map_some, hio, if_false, hchk]
  by_cases h0 : hs.timestamp = 0
  · simp [h0]
  have hll := hinv.seen h0
  have hgt : ¬ hs.ownerGeneration > hs.ownerGeneration := UInt64.lt_irrefl _
  simp only [h0, if_false, hgt, hll, false_and, hother, ne_eq, not_false_eq_true, true_and]
  by_cases h2 : now - hs.lastLive ≤ failSecs hs.ioTimeout
  · have h4 : ¬ now - hs.lastLive > deadSecs wd hs.ioTimeout := by
      rw [gt_iff_lt, UInt64.not_lt]
      exact UInt64.le_trans h2 (UInt64.le_of_lt hlt)
    by_cases h3 : hs.firstCheck = hs.lastLive <;> simp [h2, h3, h4]
  · have h2' : now - hs.lastLive > failSecs hs.ioTimeout := UInt64.not_le.mp h2
    by_cases h4 : now - hs.lastLive > deadSecs wd hs.ioTimeout <;> simp [h2, h2', h4]

/-- An older generation is never alive. -/
theorem old_generation_dead (wd : Nat) (ownIo : UInt16) (hs : HostStatus) (gen now : UInt64)
    (hc : hs.lastCheck ≠ 0) (hg : hs.ownerGeneration > gen) :
    hostLive wd ownIo (some hs) gen now = false := by
  unfold hostLive hostInfo
  by_cases hio : hs.ioTimeout = 0
  · simp only [Option.map_some, hio, if_true, hc, if_false, hg]; split <;> rfl
  · simp only [Option.map_some, hio, hc, if_false, hg]; split <;> simp

/-- A host about which nothing is known, or whose lease has never been read, is not judged dead, whatever the
generation asked about and the time. -/
theorem unknown_host_live (wd : Nat) (ownIo : UInt16) (gen now : UInt64) :
    hostLive wd ownIo none gen now = true ∧
    ∀ hs : HostStatus, hs.lastCheck = 0 → hostLive wd ownIo (some hs) gen now = true := by
  refine ⟨by simp [hostLive, hostInfo], fun hs h => ?_⟩
  unfold hostLive hostInfo
  by_cases hio : hs.ioTimeout = 0 <;> simp [hio, h]

example : HostStatus.zero.lastCheck = 0 := rfl

/-- A host judged dead in its current generation either gave its lease back or has not been seen renewing for longer
than the time after which its own watchdog has reset it, counted with its I/O timeout or, if it recorded none, with
the own one. -/
theorem dead_only_when_silent (wd : Nat) (ownIo : UInt16) (hs : HostStatus) (now : UInt64)
    (h : hostLive wd ownIo (some hs) hs.ownerGeneration now = false) :
    hs.timestamp = 0 ∨
    let io := if hs.ioTimeout = 0 then ownIo else hs.ioTimeout
    let last := if hs.lastLive = 0 then hs.firstCheck else hs.lastLive
    (now - last).toNat > (8 * io.toNat + wd) % 2 ^ 64 := by
  have hirr : ¬ hs.ownerGeneration > hs.ownerGeneration := UInt64.lt_irrefl _
  unfold hostLive hostInfo deadSecs at h
  simp only [gt_iff_lt, UInt64.lt_iff_toNat_lt, UInt64.toNat_ofNat'] at h ⊢
  by_cases hio : hs.ioTimeout = 0 <;> by_cases hl : hs.lastLive = 0 <;> by_cases ht : hs.timestamp = 0 <;>
    by_cases hc : hs.lastCheck = 0 <;> simp_all <;> omega

/-- The lease of host 7 with I/O timeout `io`, generation 3, timestamp `ts`, in lockspace "A". -/
def exLease (io : UInt16) (ts : UInt64) : Leader :=
  { exLeader with magic := deltaMagic, ownerId := 7, ownerGeneration := 3, timestamp := ts, ioTimeout := io }

def exSpace : List UInt8 := List.replicate 48 65

/-- Example: seen at 1000 and with a new timestamp at 1020, now 1050. -/
example : getHostFlag 60 1 (checkAll exSpace .zero [(1000, exLease 10 500), (1020, exLease 10 520)]) 1050 = some .live ∧
    (checkAll exSpace .zero [(1000, exLease 10 500), (1020, exLease 10 520)]).ioTimeout ≠ 0 := by decide

/-- **C18 is violated for a host without a recorded I/O timeout**: it is reported dead while the takeover
code, which substitutes its own timeout, treats it as alive. -/
theorem flag_consistent_violated :
    ∃ reads now, (∀ r ∈ reads, r.1 ≠ 0) ∧
      getHostFlag 60 1 (checkAll exSpace .zero reads) now = some .dead ∧
      hostLive 60 10 (some (checkAll exSpace .zero reads)) 3 now = true :=
  ⟨[(1000, exLease 0 500), (1020, exLease 0 520)], 1100, by decide, by decide, by decide⟩

/-- **A damaged lease makes a live host dead at once.** A read that fails the magic check (here all zero)
still overwrites the remembered timestamp; a zero there means "lease free", so the host, seen alive 20
seconds ago, is treated as dead. -/
theorem damaged_lease_violated :
    ∃ reads now, (∀ r ∈ reads, r.1 ≠ 0) ∧
      hostLive 60 10 (some (checkAll exSpace .zero reads)) 3 now = true ∧
      hostLive 60 10 (some (checkAll exSpace .zero
        (reads ++ [(now, { exLease 0 0 with magic := 0, ownerId := 0, ownerGeneration := 0 })]))) 3 now = false :=
  ⟨[(1000, exLease 10 500), (1020, exLease 10 520)], 1040, by decide, by decide, by decide⟩

end Sanlock.Liveness
