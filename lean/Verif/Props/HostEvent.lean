import Verif.HostEvent

/-!
# Properties of the host event bitmap: C36
-/

namespace Sanlock.HostEvent

/-- Independent reading of the bitmap: bit `(h-1) % 8` of byte `(h-1) / 8`. -/
def bit (h : Nat) (bm : List UInt8) : Bool := (bm.getD ((h - 1) / 8) 0).toNat.testBit ((h - 1) % 8)

theorem mask_bit (k : Nat) (hk : k < 8) (b : UInt8) :
    (b &&& ((1 : UInt8) <<< UInt8.ofNat k) != 0) = b.toNat.testBit k := by
  have hb := b.toNat_lt
  have : ∀ k < 8, ∀ n < 256, ((UInt8.ofNat n) &&& ((1 : UInt8) <<< UInt8.ofNat k) != 0) = n.testBit k := by
    decide +kernel
  have h := this k hk b.toNat (by simpa using hb)
  rwa [UInt8.ofNat_toNat] at h

theorem mask_or (k j : Nat) (hk : k < 8) (hj : j < 8) (b : UInt8) :
    (b ||| ((1 : UInt8) <<< UInt8.ofNat k)).toNat.testBit j = (b.toNat.testBit j || decide (k = j)) := by
  have hb := b.toNat_lt
  have : ∀ k < 8, ((1 : UInt8) <<< UInt8.ofNat k).toNat = 2 ^ k := by decide +kernel
  rw [UInt8.toNat_or, Nat.testBit_or, this k hk, Nat.testBit_two_pow]

theorem byteIdx_lt {h : Nat} (hh : h ≤ 2048) (h1 : 1 ≤ h) : byteIdx h < 256 := by
  unfold byteIdx; omega

/-- Reading: `testBit` looks at the host's own bit, inside the bitmap. -/
theorem testBit_eq {h : Nat} {bm : List UInt8} (hl : bm.length = 256) (h1 : 1 ≤ h) (hh : h ≤ 2048) :
    testBit h bm = some (bit h bm) := by
  have hi := byteIdx_lt hh h1
  unfold testBit
  rw [List.getElem?_eq_getElem (by omega)]
  show some _ = some _
  unfold mask
  rw [mask_bit _ (Nat.mod_lt _ (by omega))]
  unfold bit
  rw [List.getD_eq_getElem?_getD]
  show _ = some ((bm[byteIdx h]?.getD 0).toNat.testBit _)
  rw [List.getElem?_eq_getElem (by omega)]
  rfl

/-- **C36** (no interference).  Setting a host's bit stays inside the bitmap, sets that bit and changes no other. -/
theorem setBit_exact {h : Nat} {bm : List UInt8} (hl : bm.length = 256) (h1 : 1 ≤ h) (hh : h ≤ 2048) :
    ∃ bm', setBit h bm = some bm' ∧ bm'.length = 256 ∧
      ∀ j, 1 ≤ j → bit j bm' = (bit j bm || decide (h = j)) := by
  have hi := byteIdx_lt hh h1
  refine ⟨bm.set (byteIdx h) (bm[byteIdx h]'(by omega) ||| mask h), ?_, by simp [hl], ?_⟩
  · unfold setBit; rw [List.getElem?_eq_getElem (by omega)]
  · intro j hj
    unfold bit
    rw [List.getD_eq_getElem?_getD, List.getD_eq_getElem?_getD, List.getElem?_set]
    by_cases he : byteIdx h = (j - 1) / 8
    · rw [if_pos he, if_pos (by omega)]
      have : bm[(j - 1) / 8]?.getD 0 = bm[byteIdx h]'(by omega) := by
        rw [← he, List.getElem?_eq_getElem (by omega)]; rfl
      rw [this]
      show (_ ||| mask h).toNat.testBit _ = _
      unfold mask
      rw [mask_or _ _ (Nat.mod_lt _ (by omega)) (Nat.mod_lt _ (by omega))]
      congr 1
      unfold byteIdx at he
      simp only [decide_eq_decide]
      omega
    · rw [if_neg he]
      have : h ≠ j := by intro e; subst e; exact he rfl
      simp [this]

example : setBit 9 (List.replicate 256 0) = some ((List.replicate 256 0).set 1 1) := by decide +kernel

/-- The bits and times after the loop. -/
theorem createLoop_spec {own now secs : Nat} :
    ∀ {ts : List Nat} {i : Nat} {bm : List UInt8}, bm.length = 256 → i + ts.length ≤ 2048 →
    ∃ ts' bm', createLoop own now secs i ts bm = some (ts', bm') ∧ bm'.length = 256 ∧ ts'.length = ts.length ∧
      (∀ k, ts'.getD k 0 = if i + k + 1 ≠ own ∧ sub64 now (ts.getD k 0) > secs then 0 else ts.getD k 0) ∧
      ∀ j, 1 ≤ j → bit j bm' = (bit j bm ||
        decide (i < j ∧ j ≤ i + ts.length ∧ j ≠ own ∧ ts.getD (j - 1 - i) 0 ≠ 0 ∧
          sub64 now (ts.getD (j - 1 - i) 0) ≤ secs)) := by
  intro ts
  induction ts with
  | nil =>
    intro i bm hl _
    refine ⟨[], bm, rfl, hl, rfl, by simp, fun j _ => ?_⟩
    have : ¬ (i < j ∧ j ≤ i + ([] : List Nat).length ∧ j ≠ own ∧ ([] : List Nat).getD (j - 1 - i) 0 ≠ 0 ∧
          sub64 now (([] : List Nat).getD (j - 1 - i) 0) ≤ secs) := by
      simp
    rw [decide_eq_false this, Bool.or_false]
  | cons t ts ih =>
    intro i bm hl hi
    rw [List.length_cons] at hi
    have shift : ∀ j, i + 1 < j → (t :: ts).getD (j - 1 - i) 0 = ts.getD (j - 1 - (i + 1)) 0 := by
      intro j hj
      have : j - 1 - i = (j - 1 - (i + 1)) + 1 := by omega
      rw [this, List.getD_cons_succ]
    have timesOk : ∀ (t' : Nat) (ts' : List Nat),
        (t' = if i + 1 ≠ own ∧ sub64 now t > secs then 0 else t) →
        (∀ k, ts'.getD k 0 = if i + 1 + k + 1 ≠ own ∧ sub64 now (ts.getD k 0) > secs then 0 else ts.getD k 0) →
        ∀ k, (t' :: ts').getD k 0 =
          if i + k + 1 ≠ own ∧ sub64 now ((t :: ts).getD k 0) > secs then 0 else (t :: ts).getD k 0 := by
      intro t' ts' h0 h1 k
      cases k with
      | zero => simpa using h0
      | succ k =>
        rw [List.getD_cons_succ, List.getD_cons_succ, h1 k]
        have : i + 1 + k + 1 = i + (k + 1) + 1 := by omega
        rw [this]
    have bitsOk : ∀ (bm1 bm' : List UInt8),
        (∀ j, 1 ≤ j → bit j bm1 = (bit j bm || decide (j = i + 1 ∧ j ≠ own ∧ t ≠ 0 ∧ sub64 now t ≤ secs))) →
        (∀ j, 1 ≤ j → bit j bm' = (bit j bm1 ||
          decide (i + 1 < j ∧ j ≤ i + 1 + ts.length ∧ j ≠ own ∧ ts.getD (j - 1 - (i + 1)) 0 ≠ 0 ∧
            sub64 now (ts.getD (j - 1 - (i + 1)) 0) ≤ secs))) →
        ∀ j, 1 ≤ j → bit j bm' = (bit j bm ||
          decide (i < j ∧ j ≤ i + (t :: ts).length ∧ j ≠ own ∧ (t :: ts).getD (j - 1 - i) 0 ≠ 0 ∧
            sub64 now ((t :: ts).getD (j - 1 - i) 0) ≤ secs)) := by
      intro bm1 bm' h0 h1 j hj
      rw [h1 j hj, h0 j hj, Bool.or_assoc]
      congr 1
      rw [List.length_cons]
      rcases Nat.lt_trichotomy j (i + 1) with h | h | h
      · rw [decide_eq_false (by omega), decide_eq_false (by omega), decide_eq_false (by omega)]; rfl
      · subst h
        have hz : (t :: ts).getD (i + 1 - 1 - i) 0 = t := by
          have : i + 1 - 1 - i = 0 := by omega
          rw [this]; rfl
        rw [hz, decide_eq_false (p := i + 1 < i + 1 ∧ _) (by omega), Bool.or_false]
        simp only [decide_eq_decide]
        constructor
        · rintro ⟨_, a, b, c⟩; exact ⟨by omega, by omega, a, b, c⟩
        · rintro ⟨_, _, a, b, c⟩; exact ⟨trivial, a, b, c⟩
      · rw [shift j h, decide_eq_false (p := j = i + 1 ∧ _) (by omega), Bool.false_or]
        simp only [decide_eq_decide]
        constructor
        · rintro ⟨_, _, a⟩; exact ⟨by omega, by omega, a⟩
        · rintro ⟨_, _, a⟩; exact ⟨by omega, by omega, a⟩
    unfold createLoop
    by_cases h0 : i + 1 = own ∨ t = 0
    · rw [if_pos h0]
      obtain ⟨ts', bm', e, e1, e2, e3, e4⟩ := ih (i := i + 1) hl (by omega)
      rw [e]
      refine ⟨t :: ts', bm', rfl, e1, by simp [e2], timesOk t ts' ?_ e3, bitsOk bm bm' ?_ e4⟩
      · split
        · rename_i h
          rcases h0 with h0 | h0
          · exact absurd h0 h.1
          · exact h0
        · rfl
      · intro j hj
        rw [decide_eq_false, Bool.or_false]
        rintro ⟨rfl, a, b, _⟩
        rcases h0 with h0 | h0
        · exact a h0
        · exact b h0
    · rw [if_neg h0]
      by_cases h1 : sub64 now t > secs
      · rw [if_pos h1]
        obtain ⟨ts', bm', e, e1, e2, e3, e4⟩ := ih (i := i + 1) hl (by omega)
        rw [e]
        refine ⟨0 :: ts', bm', rfl, e1, by simp [e2], timesOk 0 ts' ?_ e3, bitsOk bm bm' ?_ e4⟩
        · rw [if_pos ⟨fun h => h0 (Or.inl h), h1⟩]
        · intro j hj
          rw [decide_eq_false, Bool.or_false]
          rintro ⟨_, _, _, c⟩
          omega
      · rw [if_neg h1]
        obtain ⟨bm1, f, f1, f2⟩ := setBit_exact hl (h := i + 1) (by omega) (by omega)
        rw [f]
        obtain ⟨ts', bm', e, e1, e2, e3, e4⟩ := ih (i := i + 1) f1 (by omega)
        simp only [e]
        refine ⟨t :: ts', bm', rfl, e1, by simp [e2], timesOk t ts' ?_ e3, bitsOk bm1 bm' ?_ e4⟩
        · rw [if_neg]; rintro ⟨_, h⟩; exact h1 h
        · intro j hj
          rw [f2 j hj]
          congr 1
          simp only [decide_eq_decide]
          constructor
          · rintro rfl
            exact ⟨rfl, fun h => h0 (Or.inl h), fun h => h0 (Or.inr h), by omega⟩
          · rintro ⟨h, _⟩; exact h.symm

theorem bit_zero (j : Nat) : bit j (List.replicate 256 (0 : UInt8)) = false := by
  unfold bit
  rw [List.getD_eq_getElem?_getD, List.getElem?_replicate]
  split <;> simp

theorem sub64_eq {a b : Nat} (h : b ≤ a) (ha : a < 2 ^ 64) : sub64 a b = a - b := by
  unfold sub64; omega

/-- **C36** (published bitmap).  For at most 2048 host ids and clock values in range, every renewal publishes a bitmap
in which exactly the bits of those other hosts are set whose attention was asked for within the display period;
requests past the display period are forgotten, the others kept. -/
theorem published {own now secs : Nat} {times : List Nat} (hn : times.length ≤ 2048) (hnow : now < 2 ^ 64)
    (ht : ∀ t ∈ times, t ≤ now) :
    ∃ times' bm, createBitmap own now secs times = some (times', bm) ∧ bm.length = 256 ∧
      times'.length = times.length ∧
      (∀ j, 1 ≤ j → (bit j bm = true ↔ j ≤ times.length ∧ j ≠ own ∧ times.getD (j - 1) 0 ≠ 0 ∧
        now - times.getD (j - 1) 0 ≤ secs)) ∧
      (∀ j, 1 ≤ j → j ≠ own → times'.getD (j - 1) 0 =
        if now - times.getD (j - 1) 0 ≤ secs then times.getD (j - 1) 0 else 0) := by
  have hle : ∀ k, times.getD k 0 ≤ now := by
    intro k
    rw [List.getD_eq_getElem?_getD]
    cases h : times[k]? with
    | none => simp
    | some t => simpa using ht t (List.mem_of_getElem? h)
  obtain ⟨ts', bm', e, e1, e2, e3, e4⟩ := createLoop_spec (own := own) (now := now) (secs := secs) (ts := times)
    (i := 0) (bm := List.replicate BITMAP_SIZE 0) List.length_replicate (by omega)
  refine ⟨ts', bm', e, e1, e2, ?_, ?_⟩
  · intro j hj
    rw [e4 j hj]
    unfold BITMAP_SIZE
    rw [bit_zero, Bool.false_or, decide_eq_true_iff, Nat.sub_zero, sub64_eq (hle _) hnow]
    constructor
    · rintro ⟨_, a, b⟩; exact ⟨by omega, b⟩
    · rintro ⟨a, b⟩; exact ⟨by omega, by omega, b⟩
  · intro j hj hown
    rw [e3, sub64_eq (hle _) hnow]
    by_cases h : now - times.getD (j - 1) 0 ≤ secs
    · rw [if_pos h, if_neg]; rintro ⟨_, h'⟩; omega
    · rw [if_neg h, if_pos ⟨by omega, by omega⟩]

example : (createBitmap 1 100 20 [0, 90, 50]).map (fun x => (x.1, bit 2 x.2, bit 3 x.2)) = some ([0, 90, 0], true, false) := by
  decide +kernel

/-- **C36** (asking).  Asking for a host's attention is remembered for that host alone. -/
theorem setHostBit_exact {maxHosts now h : Nat} {times : List Nat} (hl : times.length = maxHosts)
    (h0 : (setHostBit maxHosts now times h).1 = 0) :
    1 ≤ h ∧ h ≤ maxHosts ∧ (setHostBit maxHosts now times h).2.getD (h - 1) 0 = now ∧
      ∀ j, 1 ≤ j → j ≠ h → (setHostBit maxHosts now times h).2.getD (j - 1) 0 = times.getD (j - 1) 0 := by
  unfold setHostBit at h0 ⊢
  split at h0
  · exact absurd h0 (show ¬ Rv.EINVAL = 0 by decide)
  rename_i h1
  split at h0
  · exact absurd h0 (show ¬ Rv.EINVAL = 0 by decide)
  rename_i h2
  rw [if_neg h1, if_neg h2]
  refine ⟨by omega, by omega, ?_, ?_⟩
  · show (times.set (h - 1) now).getD (h - 1) 0 = now
    rw [List.getD_eq_getElem?_getD, List.getElem?_set, if_pos rfl, if_pos (by omega)]; rfl
  · intro j hj hne
    show (times.set (h - 1) now).getD (j - 1) 0 = _
    rw [List.getD_eq_getElem?_getD, List.getD_eq_getElem?_getD, List.getElem?_set, if_neg (by omega)]

example : (setHostBit 3 7 [0, 0, 0] 2) = (0, [0, 7, 0]) := by decide

/-- **C36** (delivery).  A host that reads the sector of another host notices an event or a request only if the record
was renewed since the last look and its own bit is set there; and when it was renewed and the bit is set it notices
every non zero event. -/
theorem notice_iff {own now secs i : Nat} {hs : Seen} {sec : Sector} (hl : sec.bitmap.length = 256)
    (h1 : 1 ≤ own) (h2 : own ≤ 2048) :
    ∃ n, look own now secs i hs sec = some n ∧
      (n.event = true ↔ (hs.ownerId ≠ sec.ownerId ∨ hs.ownerGen ≠ sec.ownerGen ∨ hs.timestamp ≠ sec.timestamp) ∧
        i + 1 ≠ own ∧ bit own sec.bitmap = true ∧ sec.event ≠ 0) ∧
      (n.request = true ↔ (hs.ownerId ≠ sec.ownerId ∨ hs.ownerGen ≠ sec.ownerGen ∨ hs.timestamp ≠ sec.timestamp) ∧
        i + 1 ≠ own ∧ bit own sec.bitmap = true ∧ sub64 now hs.lastReq ≥ secs) ∧
      n.seen.timestamp = sec.timestamp ∧ (n.request = true → n.seen.lastReq = now) ∧
      (n.request = false → n.seen.lastReq = hs.lastReq) := by
  unfold look
  by_cases hc : hs.ownerId = sec.ownerId ∧ hs.ownerGen = sec.ownerGen ∧ hs.timestamp = sec.timestamp
  · rw [if_pos hc]
    refine ⟨_, rfl, ?_, ?_, hc.2.2, by simp, by simp⟩
    · simp only [Bool.false_eq_true, false_iff]; omega
    · simp only [Bool.false_eq_true, false_iff]; omega
  · rw [if_neg hc]
    simp only
    by_cases ho : i + 1 = own
    · rw [if_pos ho]
      exact ⟨_, rfl, by simp [ho], by simp [ho], rfl, by simp, by simp⟩
    · rw [if_neg ho, testBit_eq hl h1 h2]
      cases hb : bit own sec.bitmap with
      | false => exact ⟨_, rfl, by simp, by simp, rfl, by simp, by simp⟩
      | true =>
        simp only
        split
        · rename_i hlt
          refine ⟨_, rfl, ?_, ?_, rfl, by simp, by simp⟩
          · simp only [bne_iff_ne, ne_eq, true_and]; omega
          · simp only [Bool.false_eq_true, false_iff]; omega
        · rename_i hlt
          refine ⟨_, rfl, ?_, ?_, rfl, by simp, by simp⟩
          · simp only [bne_iff_ne, ne_eq, true_and]; omega
          · simp only [true_iff]; exact ⟨by omega, ho, trivial, by omega⟩

/-- **C36** end to end.  Host `w` publishes its bitmap with a renewed record.  A host `r` that then reads it notices
the event exactly if somebody on `w` asked for `r`'s attention within the display period. -/
theorem delivered {w r maxHosts now secs rnow : Nat} {times : List Nat} {hs : Seen} {ownerId ownerGen ts ev : Nat}
    (hlen : times.length = maxHosts) (hmax : maxHosts ≤ 2048) (hnow : now < 2 ^ 64) (ht : ∀ t ∈ times, t ≤ now)
    (hr : 1 ≤ r) (hr2 : r ≤ maxHosts) (hne : w ≠ r) (hw : 1 ≤ w) (hev : ev ≠ 0)
    (hren : hs.ownerId ≠ ownerId ∨ hs.ownerGen ≠ ownerGen ∨ hs.timestamp ≠ ts) :
    ∃ times' bm n, createBitmap w now secs times = some (times', bm) ∧
      look r rnow secs (w - 1) hs ⟨ownerId, ownerGen, ts, ev, bm⟩ = some n ∧
      (n.event = true ↔ times.getD (r - 1) 0 ≠ 0 ∧ now - times.getD (r - 1) 0 ≤ secs) := by
  obtain ⟨times', bm, e, e1, _, e3, _⟩ := published (own := w) (secs := secs) (times := times) (by omega) hnow ht
  obtain ⟨n, f, f1, _⟩ := notice_iff (own := r) (now := rnow) (secs := secs) (i := w - 1) (hs := hs)
    (sec := ⟨ownerId, ownerGen, ts, ev, bm⟩) e1 hr (by omega)
  refine ⟨times', bm, n, e, f, ?_⟩
  rw [f1]
  simp only
  rw [e3 r hr]
  constructor
  · rintro ⟨_, _, ⟨_, _, a, b⟩, _⟩; exact ⟨a, b⟩
  · rintro ⟨a, b⟩; exact ⟨hren, by omega, ⟨by omega, by omega, a, b⟩, hev⟩

example : ∃ (times : List Nat) (hs : Seen), times.length = 3 ∧ (∀ t ∈ times, t ≤ 100) ∧ times.getD 1 0 ≠ 0 ∧
    100 - times.getD 1 0 ≤ 20 ∧ (hs.ownerId ≠ 1 ∨ hs.ownerGen ≠ 1 ∨ hs.timestamp ≠ 100) :=
  ⟨[0, 90, 0], ⟨1, 1, 80, 0⟩, by decide⟩

end Sanlock.HostEvent
