import Verif.Lemmas.Rindex

/-!
# Properties of the resource index: C25, C26, C27, C28
-/

namespace Sanlock.Rindex

open OnDisk

/-- Any header written by the format command for a supported size combination is well formed. -/
theorem format_ok {sector align want : Nat}
    (hs : (sector = 512 ∧ align = 1048576) ∨ (sector = 4096 ∧ align = 1048576) ∨ (sector = 4096 ∧ align = 2097152) ∨
      (sector = 4096 ∧ align = 4194304) ∨ (sector = 4096 ∧ align = 8388608)) : Ok (format sector align want) := by
  refine ⟨hs, ?_⟩
  simp only [format]
  split <;> split <;> omega

example : Ok (format 512 1048576 0) := format_ok (Or.inl ⟨rfl, rfl⟩)

/-! ## C25 -/

/-- C25: whenever a search (for a free entry or for a name) succeeds, it designates the first matching entry `k`, the
lease location is the start of the index plus `k + 2` alignments, and this holds for every entry number for which the
computation has a defined result. -/
theorem search_location {e : Endian} {h : Hdr} {off : Nat} {buf : List UInt8} {f : Find} {ent res : Nat}
    (hs : search e h off buf f = some (some (ent, res))) :
    ∃ k, k < h.max ∧ ent = h.sector + k * 64 ∧ res = off + (k + 2) * h.align ∧
      hit f (entryAt e h buf k) = true ∧ ∀ j, j < k → hit f (entryAt e h buf j) = false := by
  obtain ⟨k, _, h2, h3, h4, _, h6, h7⟩ := searchLoop_some hs
  exact ⟨k, by omega, h3, h4, h6, fun j hj => h7 j (by omega) hj⟩

/-- C25: a search that reports that there is no such entry is right. -/
theorem search_complete {e : Endian} {h : Hdr} {off : Nat} {buf : List UInt8} {f : Find}
    (hs : search e h off buf f = some none) : ∀ j, j < h.max → hit f (entryAt e h buf j) = false :=
  fun j hj => searchLoop_none hs j (by omega) (by omega)

/-- C25, part: the computation is defined when all lease areas lie within 2 GiB.  Missing: larger indexes, see
`location_overflow_violated`. -/
theorem search_defined_partial {e : Endian} {h : Hdr} (ok : Ok h) {off : Nat} {buf : List UInt8} {f : Find}
    (hl : buf.length = h.align) (hm : h.max * h.align ≤ 2 ^ 31) : search e h off buf f ≠ none := by
  obtain ⟨f1, f2, f3, f4, f5, f6⟩ := ok.fits
  refine searchLoop_defined (by rw [Nat.zero_add]; omega) (by omega) ?_
  rw [Nat.zero_add, Nat.sub_mul]
  omega

example : Ok (format 512 1048576 2048) ∧ (format 512 1048576 2048).max * 1048576 ≤ 2 ^ 31 :=
  ⟨format_ok (Or.inl ⟨rfl, rfl⟩), by decide⟩

/-- C25: distinct entries have disjoint lease areas, none of which overlaps the index or its internal lease. -/
theorem areas_disjoint {h : Hdr} {off i j x : Nat} (hij : i ≠ j)
    (hi : off + (i + 2) * h.align ≤ x ∧ x < off + (i + 2) * h.align + h.align) :
    ¬ (off + (j + 2) * h.align ≤ x ∧ x < off + (j + 2) * h.align + h.align) ∧ off + 2 * h.align ≤ x := by
  have hmul : ∀ a b : Nat, a < b → a * h.align + h.align ≤ b * h.align := fun a b hab => by
    have := Nat.mul_le_mul_right h.align (show a + 1 ≤ b from hab)
    rw [Nat.add_mul] at this; omega
  have e1 : ∀ a, (a + 2) * h.align = a * h.align + 2 * h.align := fun a => Nat.add_mul ..
  rw [e1] at hi ⊢
  refine ⟨fun hj => ?_, by omega⟩
  rcases Nat.lt_or_gt_of_ne hij with hlt | hgt
  · have := hmul _ _ hlt; omega
  · have := hmul _ _ hgt; omega

/-- Entry number for the location of entry `k`. -/
theorem entryNum_location {h : Hdr} {off k : Nat} (ha : 0 < h.align) (hk : k < 2 ^ 31)
    (hr : off + (k + 2) * h.align < 2 ^ 64) : entryNum h off (off + (k + 2) * h.align) = k := by
  unfold entryNum
  have e1 : off + (k + 2) * h.align + 2 ^ 65 - off - 2 * h.align = k * h.align + 2 ^ 65 := by
    rw [Nat.add_mul]; omega
  have e2 : (k * h.align + 2 ^ 65) % 2 ^ 64 = k * h.align := by
    rw [Nat.add_mul] at hr
    omega
  rw [e1, e2, Nat.mul_div_cancel _ ha, Nat.mod_eq_of_lt (by omega)]
  simp only
  rw [if_pos hk]

theorem entOffset_nat {h : Hdr} {k : Nat} (hk : h.sector + k * 64 < 2 ^ 64) : entOffset h (k : Int) = h.sector + k * 64 := by
  unfold entOffset
  omega

/-- C25: looking up the location of entry `k` reads entry `k`. -/
theorem lookup_location {e : Endian} {h : Hdr} (ok : Ok h) {off k : Nat} {buf : List UInt8} (hl : buf.length = h.align)
    (hk : k < h.max) (hoff : off % h.align = 0) (hr : off + (k + 2) * h.align < 2 ^ 64) :
    lookupOffset e h off buf (off + (k + 2) * h.align) = some (some (entryAt e h buf k)) := by
  obtain ⟨f1, f2, f3, f4, f5, f6⟩ := ok.fits
  unfold lookupOffset
  rw [if_neg (by omega), if_neg, entryNum_location (by omega) (by omega) hr, entOffset_nat (by omega),
    slice?_eq (by rw [show ENTRY = 64 from rfl]; omega)]
  · rfl
  · rw [Nat.add_mod, hoff, Nat.mul_mod_left]; simp

example : ∃ (h : Hdr) (off k : Nat), Ok h ∧ 100 ≤ k ∧ k < h.max ∧ off % h.align = 0 ∧ off + (k + 2) * h.align < 2 ^ 64 :=
  ⟨format 512 1048576 0, 1048576, 4000, format_ok (Or.inl ⟨rfl, rfl⟩), by decide, by decide, by decide, by decide⟩

/-- A name of ones. -/
def oneName : Name := ⟨List.replicate 48 1, by simp⟩

/-- An index in which the first `n` entries are taken. -/
def filled (h : Hdr) (n : Nat) : List UInt8 :=
  List.replicate h.sector 0 ++ (List.replicate (n * 64) 1 ++ List.replicate (h.align - h.sector - n * 64) 0)

theorem filled_length {h : Hdr} {n : Nat} (hn : h.sector + n * 64 ≤ h.align) : (filled h n).length = h.align := by
  simp [filled]; omega

theorem slice_replicate (n m o : Nat) (c : UInt8) (h : o + m ≤ n) : slice (List.replicate n c) o m = List.replicate m c := by
  unfold slice
  rw [List.drop_replicate, List.take_replicate, Nat.min_eq_left (by omega)]

theorem slice_append_right (l m : List UInt8) (o n : Nat) (h : l.length ≤ o) : slice (l ++ m) o n = slice m (o - l.length) n := by
  unfold slice
  rw [List.drop_append, List.drop_eq_nil_of_le h, List.nil_append]

theorem slice_append_left (l m : List UInt8) (o n : Nat) (h : o + n ≤ l.length) : slice (l ++ m) o n = slice l o n := by
  unfold slice
  rw [List.drop_append_of_le_length (by omega), List.take_append_of_le_length (by simp; omega)]

theorem filled_taken {e : Endian} {h : Hdr} {n j : Nat} (hj : j < n) : hit .free (entryAt e h (filled h n) j) = false := by
  unfold entryAt filled
  rw [slice_append_right _ _ _ _ (by simp), slice_append_left _ _ _ _ (by simp; omega), slice_replicate _ _ _ _ (by simp; omega)]
  cases e <;> decide +kernel

theorem filled_free {e : Endian} {h : Hdr} {n : Nat} (hn : h.sector + n * 64 + 64 ≤ h.align) :
    hit .free (entryAt e h (filled h n) n) = true := by
  unfold entryAt filled
  rw [slice_append_right _ _ _ _ (by simp), slice_append_right _ _ _ _ (by simp), slice_replicate _ _ _ _ (by simp; omega)]
  cases e <;> decide +kernel

theorem searchLoop_skip {e : Endian} {h : Hdr} {off : Nat} {buf : List UInt8} {f : Find} :
    ∀ {n i : Nat}, h.sector + (i + n) * 64 ≤ buf.length → (∀ j, i ≤ j → j < i + n → hit f (entryAt e h buf j) = false) →
    ∀ m, searchLoop e h off buf f (n + m) i = searchLoop e h off buf f m (i + n) := by
  intro n
  induction n with
  | zero => intro i _ _ m; simp
  | succ n ih =>
    intro i hl hj m
    rw [show n + 1 + m = (n + m) + 1 by omega]
    conv => lhs; unfold searchLoop
    rw [slice?_eq (by rw [show ENTRY = 64 from rfl]; omega)]
    have hi := hj i (Nat.le_refl _) (by omega)
    simp only [show rindexEntryIn e (slice buf (h.sector + i * ENTRY) ENTRY) = entryAt e h buf i from rfl, hi]
    simp only [Bool.false_eq_true, if_false]
    have e1 : i + 1 + n = i + (n + 1) := by omega
    rw [ih (by rw [e1]; exact hl) (fun j h1 h2 => hj j (by omega) (by omega)) m, e1]

/-- A search for a free entry in an index whose first `n` entries are taken. -/
theorem search_filled {e : Endian} {h : Hdr} {off n : Nat} (hn : n < h.max) (hl : h.sector + n * 64 + 64 ≤ h.align) :
    search e h off (filled h n) .free = (resOffset h off n).map fun r => some (h.sector + n * 64, r) := by
  have hlen := filled_length (h := h) (n := n) (by omega)
  unfold search
  obtain ⟨m, hm⟩ : ∃ m, h.max = n + (m + 1) := ⟨h.max - n - 1, by omega⟩
  rw [hm, searchLoop_skip (by rw [hlen]; omega) (fun j _ h => filled_taken (by omega)), Nat.zero_add]
  unfold searchLoop
  rw [slice?_eq (by rw [hlen, show ENTRY = 64 from rfl]; omega)]
  have hf := filled_free (e := e) hl
  unfold entryAt at hf
  simp only [show ENTRY = 64 from rfl, hf, if_true]
  cases resOffset h off n <;> rfl

/-- C25 is false of the code: in an index formatted with the default options for 1 MiB areas (4096 entries), once the
first 2048 entries are taken, the computation of the location of the next one overflows a C `int`, which is undefined
behaviour.  The same happens for 8 MiB areas at entry 256. -/
theorem location_overflow_violated :
    search .little (format 512 1048576 0) 0 (filled (format 512 1048576 0) 2048) .free = none ∧
    search .little (format 4096 8388608 0) 0 (filled (format 4096 8388608 0) 256) .free = none := by
  constructor
  · rw [search_filled (by decide) (by decide), show resOffset (format 512 1048576 0) 0 2048 = none by decide]; rfl
  · rw [search_filled (by decide) (by decide), show resOffset (format 4096 8388608 0) 0 256 = none by decide]; rfl

theorem wrap_congr {h : Hdr} {off i j : Nat} (hm : (i * h.align) % 2 ^ 32 = (j * h.align) % 2 ^ 32) :
    resOffsetWrap h off i = resOffsetWrap h off j := by
  simp only [resOffsetWrap, hm]

/-- The consequence of the overflow where multiplication wraps: with 8 MiB areas and the default number of entries,
entry 512 is given the lease area of entry 0, so creating it overwrites a lease that is in use.  With 1 MiB areas this
happens at entry 4096, with 2 MiB areas at 2048, with 4 MiB areas at 1024. -/
theorem location_alias_violated (off : Nat) :
    resOffsetWrap (format 4096 8388608 0) off 512 = resOffsetWrap (format 4096 8388608 0) off 0 ∧
    512 < (format 4096 8388608 0).max ∧
    resOffsetWrap (format 4096 4194304 0) off 1024 = resOffsetWrap (format 4096 4194304 0) off 0 ∧
    1024 < (format 4096 4194304 0).max ∧
    resOffsetWrap (format 4096 2097152 0) off 2048 = resOffsetWrap (format 4096 2097152 0) off 0 ∧
    2048 < (format 4096 2097152 0).max ∧
    resOffsetWrap (format 512 1048576 16000) off 4096 = resOffsetWrap (format 512 1048576 16000) off 0 ∧
    4096 < (format 512 1048576 16000).max := by
  exact ⟨wrap_congr (by decide), by decide, wrap_congr (by decide), by decide, wrap_congr (by decide), by decide,
    wrap_congr (by decide), by decide⟩

/-! ## C26 -/

/-- Every name in the index points to an initialised lease of that name in the lockspace. -/
def IndexOk (e : Endian) (h : Hdr) (off : Nat) (space : List UInt8) (d : Disk) : Prop :=
  d.index.length = h.align ∧
  ∀ i, i < h.max → (entryAt e h d.index i).name.bytes.headD 0 ≠ 0 →
    d.area (off + (i + 2) * h.align) = .lease (cstr48 space) (cstr48 (entryAt e h d.index i).name.bytes)

theorem hit_free {re : RindexEntry} (h : hit .free re = true) : re.name.bytes.headD 0 = 0 := by
  simp only [hit, Bool.and_eq_true, beq_iff_eq] at h
  exact h.2

theorem loc_ne {h : Hdr} {off i j : Nat} (ha : 0 < h.align) (hij : i ≠ j) : off + (i + 2) * h.align ≠ off + (j + 2) * h.align := by
  intro hh
  have : (i + 2) * h.align = (j + 2) * h.align := by omega
  have := Nat.eq_of_mul_eq_mul_right ha this
  omega

/-- Writing an area whose entry has no name keeps the index good. -/
theorem indexOk_area {e : Endian} {h : Hdr} (ha : 0 < h.align) {off k : Nat} {space : List UInt8} {d : Disk} {a : Area}
    (hd : IndexOk e h off space d) (hk : (entryAt e h d.index k).name.bytes.headD 0 = 0) :
    IndexOk e h off space (apply d (.area (off + (k + 2) * h.align) a)) := by
  refine ⟨hd.1, fun i hi hn => ?_⟩
  have hik : i ≠ k := fun hh => by subst hh; exact hn hk
  show (if off + (i + 2) * h.align = off + (k + 2) * h.align then a else _) = _
  rw [if_neg (loc_ne ha hik)]
  exact hd.2 i hi hn

/-- C26: at every point during the creation of a resource, and so after a crash there, every name in the index points
to an initialised lease of that name, and every entry is as before except that one entry which was free may hold the
new name with the returned location. -/
theorem create_crash {e : Endian} {h : Hdr} (ok : Ok h) {off : Nat} {space : List UInt8} {d d' : Disk} {n : Name}
    {ws : List Write} {res : Nat} (hd : IndexOk e h off space d)
    (hc : create e h off space d n = some (some (ws, res))) (hx : Crash d ws d') :
    IndexOk e h off space d' ∧ ∃ k, k < h.max ∧ res = off + (k + 2) * h.align ∧
      hit .free (entryAt e h d.index k) = true ∧
      (∀ j, j < h.max → j ≠ k → entryAt e h d'.index j = entryAt e h d.index j) ∧
      (entryAt e h d'.index k = entryAt e h d.index k ∨ entryAt e h d'.index k = mkEntry n res) := by
  unfold create at hc
  split at hc
  · simp at hc
  · simp at hc
  rename_i ent res' hs
  obtain ⟨k, k1, k2, k3, k4, -⟩ := search_location hs
  obtain ⟨so, bs, u1, u2, u3, u4, u5, u6⟩ := updateIndex_spec (e := e) ok (re := mkEntry n res') hd.1 k1
  rw [k2, u1] at hc
  simp only [Option.some.injEq, Prod.mk.injEq] at hc
  obtain ⟨hw, hr⟩ := hc
  subst hr k3
  subst hw
  have ha : 0 < h.align := by have := ok.fits; omega
  have hk0 := hit_free k4
  cases hx with
  | here => exact ⟨hd, k, k1, rfl, k4, fun _ _ _ => rfl, Or.inl rfl⟩
  | torn x => exact ⟨indexOk_area ha hd hk0, k, k1, rfl, k4, fun _ _ _ => rfl, Or.inl rfl⟩
  | next hx =>
    cases hx with
    | here => exact ⟨indexOk_area ha hd hk0, k, k1, rfl, k4, fun _ _ _ => rfl, Or.inl rfl⟩
    | next hx =>
      cases hx
      refine ⟨⟨?_, fun i hi hn => ?_⟩, k, k1, rfl, k4, fun j hj hjk => ?_, Or.inr ?_⟩
      · show (splice d.index so bs).length = _
        rw [splice_length (by rw [hd.1]; omega)]; exact hd.1
      · show (if off + (i + 2) * h.align = off + (k + 2) * h.align then _ else d.area _) = _
        have hn' : (entryAt e h (splice d.index so bs) i).name.bytes.headD 0 ≠ 0 := hn
        show _ = Area.lease _ (cstr48 (entryAt e h (splice d.index so bs) i).name.bytes)
        rw [u5 i hi] at hn' ⊢
        by_cases hik : i = k
        · subst hik; rw [if_pos rfl, if_pos rfl]; rfl
        · rw [if_neg (loc_ne ha hik), if_neg hik]
          rw [if_neg hik] at hn'
          exact hd.2 i hi hn'
      · show entryAt e h (splice d.index so bs) j = _
        rw [u5 j hj, if_neg hjk]
      · show entryAt e h (splice d.index so bs) k = _
        rw [u5 k k1, if_pos rfl]

/-- All the writes done. -/
def applyAll (d : Disk) (ws : List Write) : Disk := ws.foldl apply d

theorem crash_all (d : Disk) (ws : List Write) : Crash d ws (applyAll d ws) := by
  induction ws generalizing d with
  | nil => exact .here
  | cons w ws ih => exact .next (ih (apply d w))

/-- C26: when the creation completes, an entry which was free holds the new name and its location holds the lease. -/
theorem create_done {e : Endian} {h : Hdr} (ok : Ok h) {off : Nat} {space : List UInt8} {d : Disk} {n : Name}
    {ws : List Write} {res : Nat} (hd : IndexOk e h off space d)
    (hc : create e h off space d n = some (some (ws, res))) :
    (applyAll d ws).area res = .lease (cstr48 space) (cstr48 n.bytes) ∧
    ∃ k, k < h.max ∧ res = off + (k + 2) * h.align ∧ entryAt e h (applyAll d ws).index k = mkEntry n res := by
  unfold create at hc
  split at hc
  · simp at hc
  · simp at hc
  rename_i ent res' hs
  obtain ⟨k, k1, k2, k3, k4, -⟩ := search_location hs
  obtain ⟨so, bs, u1, u2, u3, u4, u5, u6⟩ := updateIndex_spec (e := e) ok (re := mkEntry n res') hd.1 k1
  rw [k2, u1] at hc
  simp only [Option.some.injEq, Prod.mk.injEq] at hc
  obtain ⟨hw, hr⟩ := hc
  subst hr
  subst hw
  refine ⟨by simp [applyAll, apply], k, k1, k3, ?_⟩
  show entryAt e h (splice d.index so bs) k = _
  rw [u5 k k1, if_pos rfl]

/-- C26: at every point during the deletion of a resource every name in the index points to an initialised lease of
that name, and every entry is as before except that one entry of the given name may be cleared. -/
theorem delete_crash {e : Endian} {h : Hdr} (ok : Ok h) {off : Nat} {space : List UInt8} {d d' : Disk} {n : Name}
    {ws : List Write} (hd : IndexOk e h off space d)
    (hc : delete e h off d n = some (some ws)) (hx : Crash d ws d') :
    IndexOk e h off space d' ∧ ∃ k, k < h.max ∧
      cstr48 (entryAt e h d.index k).name.bytes = cstr48 n.bytes ∧
      (∀ j, j < h.max → j ≠ k → entryAt e h d'.index j = entryAt e h d.index j ∧
        d'.area (off + (j + 2) * h.align) = d.area (off + (j + 2) * h.align)) ∧
      (entryAt e h d'.index k = entryAt e h d.index k ∨ entryAt e h d'.index k = zeroEntry) := by
  unfold delete at hc
  split at hc
  · simp at hc
  · simp at hc
  rename_i ent res' hs
  obtain ⟨k, k1, k2, k3, k4, -⟩ := search_location hs
  obtain ⟨so, bs, u1, u2, u3, u4, u5, u6⟩ := updateIndex_spec (e := e) ok (re := zeroEntry) hd.1 k1
  rw [k2, u1] at hc
  simp only [Option.some.injEq] at hc
  subst k3
  subst hc
  have ha : 0 < h.align := by have := ok.fits; omega
  have hname : cstr48 (entryAt e h d.index k).name.bytes = cstr48 n.bytes := by
    simp only [hit, Bool.and_eq_true] at k4
    exact (Verify.strncmpEq_iff 48 _ _).mp k4.2
  have hd1 : IndexOk e h off space (apply d (.sector so bs)) := by
    refine ⟨?_, fun i hi hn => ?_⟩
    · show (splice d.index so bs).length = _
      rw [splice_length (by rw [hd.1]; omega)]; exact hd.1
    · have hn' : (entryAt e h (splice d.index so bs) i).name.bytes.headD 0 ≠ 0 := hn
      show d.area _ = Area.lease _ (cstr48 (entryAt e h (splice d.index so bs) i).name.bytes)
      rw [u5 i hi] at hn' ⊢
      by_cases hik : i = k
      · rw [if_pos hik] at hn'; exact absurd rfl hn'
      · rw [if_neg hik] at hn' ⊢; exact hd.2 i hi hn'
  have hk0 : (entryAt e h (apply d (.sector so bs)).index k).name.bytes.headD 0 = 0 := by
    show (entryAt e h (splice d.index so bs) k).name.bytes.headD 0 = 0
    rw [u5 k k1, if_pos rfl]; rfl
  have hz : entryAt e h (splice d.index so bs) k = zeroEntry := by rw [u5 k k1, if_pos rfl]
  have hoth : ∀ j, j < h.max → j ≠ k → entryAt e h (splice d.index so bs) j = entryAt e h d.index j := fun j hj hjk => by
    rw [u5 j hj, if_neg hjk]
  have harea : ∀ (a : Area) j, j ≠ k → (apply (apply d (.sector so bs)) (.area (off + (k + 2) * h.align) a)).area (off + (j + 2) * h.align) =
      d.area (off + (j + 2) * h.align) := fun a j hjk => by
    show (if off + (j + 2) * h.align = off + (k + 2) * h.align then a else _) = _
    rw [if_neg (loc_ne ha hjk)]; rfl
  cases hx with
  | here => exact ⟨hd, k, k1, hname, fun _ _ _ => ⟨rfl, rfl⟩, Or.inl rfl⟩
  | next hx =>
    cases hx with
    | here => exact ⟨hd1, k, k1, hname, fun j hj hjk => ⟨hoth j hj hjk, rfl⟩, Or.inr hz⟩
    | torn x => exact ⟨indexOk_area ha hd1 hk0, k, k1, hname, fun j hj hjk => ⟨hoth j hj hjk, harea _ j hjk⟩, Or.inr hz⟩
    | next hx =>
      cases hx
      exact ⟨indexOk_area ha hd1 hk0, k, k1, hname, fun j hj hjk => ⟨hoth j hj hjk, harea _ j hjk⟩, Or.inr hz⟩

theorem filled_zero {e : Endian} {h : Hdr} {i : Nat} (hi : h.sector + i * 64 + 64 ≤ h.align) :
    (entryAt e h (filled h 0) i).name.bytes.headD 0 = 0 := by
  unfold entryAt filled
  rw [slice_append_right _ _ _ _ (by simp), slice_append_right _ _ _ _ (by simp), slice_replicate _ _ _ _ (by simp; omega)]
  cases e <;> decide +kernel

/-- An index without entries, and creating a resource there. -/
theorem create_first {e : Endian} {h : Hdr} (ok : Ok h) (hm : 0 < h.max) (off : Nat) (space : List UInt8) (n : Name) :
    ∃ (d : Disk) (ws : List Write), IndexOk e h off space d ∧
    create e h off space d n = some (some (ws, off + 2 * h.align)) ∧ Crash d ws (applyAll d ws) := by
  obtain ⟨f1, f2, f3, f4, f5, f6⟩ := ok.fits
  have hlen : (filled h 0).length = h.align := filled_length (by omega)
  have hsearch := search_filled (e := e) (off := off) hm (by omega)
  rw [resOffset_ok (by omega) (by omega)] at hsearch
  obtain ⟨so, bs, hu, -⟩ := updateIndex_spec (e := e) ok (re := mkEntry n (off + (0 + 2) * h.align)) (k := 0) hlen hm
  refine ⟨⟨filled h 0, fun _ => .other⟩,
    [.area (off + 2 * h.align) (.lease (cstr48 space) (cstr48 n.bytes)), .sector so bs],
    ⟨hlen, fun i hi hn => absurd (filled_zero (by omega)) hn⟩, ?_, crash_all _ _⟩
  unfold create
  simp only [hsearch, Option.map_some, hu]

example : ∃ (d : Disk) (ws : List Write), IndexOk .little (format 512 1048576 0) 1048576 [120] d ∧
    create .little (format 512 1048576 0) 1048576 [120] d oneName = some (some (ws, 1048576 + 2 * (format 512 1048576 0).align)) ∧
    Crash d ws (applyAll d ws) :=
  create_first (format_ok (Or.inl ⟨rfl, rfl⟩)) (by decide) _ _ _

/-- A created resource can be looked up and deleted by its name: the search does not report that there is none. -/
theorem create_found {e : Endian} {h : Hdr} (ok : Ok h) {off : Nat} {space : List UInt8} {d : Disk} {n : Name}
    {ws : List Write} {res : Nat} (hd : IndexOk e h off space d)
    (hc : create e h off space d n = some (some (ws, res))) (hn : n.bytes.headD 0 ≠ 0)
    (hm : h.max * h.align ≤ 2 ^ 31) :
    ∃ ent res', search e h off (applyAll d ws).index (.name n.bytes) = some (some (ent, res')) := by
  obtain ⟨-, k, k1, k2, k3⟩ := create_done ok hd hc
  obtain ⟨hd', -⟩ := create_crash ok hd hc (crash_all d ws)
  have hdef := search_defined_partial (e := e) ok (off := off) (f := .name n.bytes) hd'.1 hm
  have hcomp := search_complete (e := e) (h := h) (off := off) (buf := (applyAll d ws).index) (f := .name n.bytes)
  cases hs : search e h off (applyAll d ws).index (.name n.bytes) with
  | none => exact absurd hs hdef
  | some o =>
    cases o with
    | some x => exact ⟨x.1, x.2, rfl⟩
    | none =>
      have := hcomp hs k k1
      rw [k3] at this
      simp only [hit, mkEntry, Bool.and_eq_false_iff] at this
      rcases this with h1 | h1
      · simp only [bne_eq_false_iff_eq] at h1; exact absurd h1 hn
      · rw [(Verify.strncmpEq_iff 48 _ _).mpr rfl] at h1; simp at h1

/-- A deletion that takes place. -/
example : ∃ (d : Disk) (ws : List Write), IndexOk .little (format 512 1048576 2048) 0 [120] d ∧
    delete .little (format 512 1048576 2048) 0 d oneName = some (some ws) := by
  have ok : Ok (format 512 1048576 2048) := format_ok (Or.inl ⟨rfl, rfl⟩)
  obtain ⟨d, ws, h1, h2, h3⟩ := create_first (e := .little) ok (by decide) 0 [120] oneName
  obtain ⟨ent, res, h4⟩ := create_found ok h1 h2 (by decide) (by decide)
  obtain ⟨h5, -⟩ := create_crash ok h1 h2 h3
  obtain ⟨k, k1, k2, -⟩ := search_location h4
  obtain ⟨so, bs, u1, -⟩ := updateIndex_spec (e := .little) ok (re := zeroEntry) h5.1 k1
  refine ⟨applyAll d ws, [.sector so bs, .area res .cleared], h5, ?_⟩
  unfold delete
  rw [h4]
  simp only [k2, u1]

/-! ## C27 -/

open Classical in
/-- What the rebuild loop does to the entries. -/
theorem rebuildLoop_spec {e : Endian} {h : Hdr} {rd : Nat → Read} :
    ∀ {n i res : Nat} {buf : List UInt8}, h.sector + (i + n) * 64 ≤ buf.length →
    ∃ buf', rebuildLoop e h rd n i res buf = some buf' ∧ buf'.length = buf.length ∧
      slice buf' 0 h.sector = slice buf 0 h.sector ∧
      (∀ j, (j < i ∨ i + n ≤ j) → entryAt e h buf' j = entryAt e h buf j) ∧
      ∀ j, i ≤ j → j < i + n → entryAt e h buf' j =
        match rd (res + (j - i) * h.align) with
        | .found _ nm =>
          if ∀ m, i ≤ m → m ≤ j → rd (res + (m - i) * h.align) ≠ .endOfDevice then mkEntry nm (res + (j - i) * h.align)
          else entryAt e h buf j
        | _ => entryAt e h buf j := by
  intro n
  induction n with
  | zero => intro i res buf hl; exact ⟨buf, rfl, rfl, rfl, fun _ _ => rfl, fun j h1 h2 => absurd h1 (by omega)⟩
  | succ n ih =>
    intro i res buf hl
    have hshift : ∀ j, i < j → res + h.align + (j - (i + 1)) * h.align = res + (j - i) * h.align := fun j hj => by
      have : j - i = j - (i + 1) + 1 := by omega
      rw [this, Nat.add_mul]; omega
    have hrange : ∀ j, i < j → (rd res ≠ .endOfDevice) →
        ((∀ m, i + 1 ≤ m → m ≤ j → rd (res + h.align + (m - (i + 1)) * h.align) ≠ .endOfDevice) ↔
         (∀ m, i ≤ m → m ≤ j → rd (res + (m - i) * h.align) ≠ .endOfDevice)) := fun j hj hne => by
      constructor
      · intro hh m h1 h2
        by_cases hm : m = i
        · subst hm; simpa using hne
        · have := hh m (by omega) h2
          rwa [hshift m (by omega)] at this
      · intro hh m h1 h2
        have := hh m (by omega) h2
        rwa [hshift m (by omega)]
    unfold rebuildLoop
    cases hrd : rd res with
    | endOfDevice =>
      refine ⟨buf, rfl, rfl, rfl, fun _ _ => rfl, fun j h1 h2 => ?_⟩
      cases hj : rd (res + (j - i) * h.align) with
      | found sp nm =>
        simp only
        rw [if_neg]
        intro hh
        have := hh i (Nat.le_refl _) h1
        simp [hrd] at this
      | endOfDevice => rfl
      | nothing => rfl
    | nothing =>
      simp only
      obtain ⟨b, b1, b2, b3, b4, b5⟩ := ih (i := i + 1) (res := res + h.align) (buf := buf) (by rw [show i + 1 + n = i + (n + 1) by omega]; exact hl)
      refine ⟨b, b1, b2, b3, fun j hj => b4 j (by omega), fun j h1 h2 => ?_⟩
      by_cases hji : j = i
      · subst hji
        rw [b4 j (by omega)]
        simp [hrd]
      · have := b5 j (by omega) (by omega)
        rw [hshift j (by omega)] at this
        simp only [hrange j (by omega) (by rw [hrd]; simp)] at this
        exact this
    | found sp nm =>
      simp only
      have hlen := entryOut_length e (mkEntry nm res)
      rw [if_pos (by rw [show ENTRY = 64 from rfl]; omega)]
      have hsl : (splice buf (h.sector + i * ENTRY) (rindexEntryOut e (mkEntry nm res))).length = buf.length :=
        splice_length (by rw [show ENTRY = 64 from rfl]; omega)
      obtain ⟨b, b1, b2, b3, b4, b5⟩ := ih (i := i + 1) (res := res + h.align)
        (buf := splice buf (h.sector + i * ENTRY) (rindexEntryOut e (mkEntry nm res)))
        (by rw [hsl, show i + 1 + n = i + (n + 1) by omega]; exact hl)
      have hother : ∀ j, j ≠ i → entryAt e h (splice buf (h.sector + i * ENTRY) (rindexEntryOut e (mkEntry nm res))) j = entryAt e h buf j :=
        fun j hj => by
          unfold entryAt
          rw [slice_splice_other (by rw [show ENTRY = 64 from rfl]; omega) (by rw [show ENTRY = 64 from rfl]; omega)]
      refine ⟨b, b1, by rw [b2, hsl], ?_, fun j hj => ?_, fun j h1 h2 => ?_⟩
      · rw [b3, slice_splice_other (by rw [show ENTRY = 64 from rfl]; omega) (Or.inl (by omega))]
      · rw [b4 j (by omega), hother j (by omega)]
      · by_cases hji : j = i
        · subst hji
          rw [b4 j (by omega)]
          simp only [Nat.sub_self, Nat.zero_mul, Nat.add_zero, hrd]
          rw [if_pos]
          · unfold entryAt
            have := slice_splice_same (buf := buf) (bs := rindexEntryOut e (mkEntry nm res)) (off := h.sector + j * ENTRY)
              (by rw [show ENTRY = 64 from rfl]; omega)
            rw [hlen] at this
            rw [show h.sector + j * 64 = h.sector + j * ENTRY from rfl, this, entryIn_out]
          · intro m h3 h4
            have : m = j := by omega
            subst this
            simp [hrd]
        · have := b5 j (by omega) (by omega)
          rw [hshift j (by omega)] at this
          simp only [hrange j (by omega) (by rw [hrd]; simp), hother j hji] at this
          exact this

/-- C27, part: the rebuild always completes, keeps the header sector, and makes entry `i` name `r` with the location of
the `i`-th area exactly when that area starts with the magic number of a lease named `r` and the device did not end
before; all other entries become zero.  Missing: whether the lease is valid and belongs to the lockspace is not
looked at (`rebuild_foreign_violated`), and an area that cannot be read is treated like one without a lease
(`rebuild_error_violated`). -/
theorem rebuild_exact_partial {e : Endian} {h : Hdr} (ok : Ok h) {off : Nat} {rd : Nat → Read} {buf : List UInt8}
    (hl : buf.length = h.align) :
    ∃ buf', rebuild e h off rd buf = some buf' ∧ buf'.length = h.align ∧ slice buf' 0 h.sector = slice buf 0 h.sector ∧
      ∀ i, i < h.max →
        (∀ sp nm, rd (off + (i + 2) * h.align) = .found sp nm →
          (∀ m, m ≤ i → rd (off + (m + 2) * h.align) ≠ .endOfDevice) →
          entryAt e h buf' i = mkEntry nm (off + (i + 2) * h.align)) ∧
        ((∀ sp nm, rd (off + (i + 2) * h.align) = .found sp nm → ∃ m, m ≤ i ∧ rd (off + (m + 2) * h.align) = .endOfDevice) →
          entryAt e h buf' i = zeroEntry) := by
  obtain ⟨f1, f2, f3, f4, f5, f6⟩ := ok.fits
  unfold rebuild
  have hbl : (buf.take h.sector ++ List.replicate (h.align - h.sector) 0).length = h.align := by simp; omega
  obtain ⟨b, b1, b2, b3, -, b5⟩ := rebuildLoop_spec (e := e) (h := h) (rd := rd) (n := h.max) (i := 0) (res := off + 2 * h.align)
    (buf := buf.take h.sector ++ List.replicate (h.align - h.sector) 0) (by rw [hbl, Nat.zero_add]; exact f1)
  have eloc : ∀ i, off + 2 * h.align + (i - 0) * h.align = off + (i + 2) * h.align := fun i => by
    rw [Nat.add_mul]; simp only [Nat.sub_zero]; omega
  have hz : ∀ i, i < h.max → entryAt e h (buf.take h.sector ++ List.replicate (h.align - h.sector) 0) i = zeroEntry := fun i hi => by
    unfold entryAt
    have ht : (buf.take h.sector).length = h.sector := by simp; omega
    rw [slice_append_right _ _ _ _ (by rw [ht]; omega), ht, slice_replicate _ _ _ _ (by omega)]
    have : List.replicate 64 (0 : UInt8) = rindexEntryOut e zeroEntry := by cases e <;> decide +kernel
    rw [this, entryIn_out]
  refine ⟨b, b1, by rw [b2, hbl], ?_, fun i hi => ⟨fun sp nm hf hm => ?_, fun hn => ?_⟩⟩
  · have ht : (buf.take h.sector).length = h.sector := by simp; omega
    rw [b3, slice_append_left _ _ _ _ (by rw [ht]; omega)]
    unfold slice
    simp [List.take_take]
  · have := b5 i (Nat.zero_le _) (by omega)
    simp only [eloc, hf] at this
    rw [this, if_pos (fun m _ h2 => by rw [eloc]; exact hm m h2)]
  · have := b5 i (Nat.zero_le _) (by omega)
    simp only [eloc] at this
    cases hr : rd (off + (i + 2) * h.align) with
    | endOfDevice => rw [hr] at this; rw [this]; exact hz i hi
    | nothing => rw [hr] at this; rw [this]; exact hz i hi
    | found sp nm =>
      rw [hr] at this
      simp only at this
      rw [this, if_neg]
      · exact hz i hi
      · intro hh
        obtain ⟨m, m1, m2⟩ := hn sp nm hr
        have := hh m (Nat.zero_le _) m1
        rw [eloc] at this
        exact this m2

example : ∃ (h : Hdr) (buf : List UInt8), Ok h ∧ buf.length = h.align :=
  ⟨format 512 1048576 0, filled (format 512 1048576 0) 0, format_ok (Or.inl ⟨rfl, rfl⟩), filled_length (by decide)⟩

/-- C27 is false of the code: a lease of any other lockspace found in an area gets an entry. -/
theorem rebuild_foreign_violated {e : Endian} {h : Hdr} (ok : Ok h) {off : Nat} {buf : List UInt8}
    (hl : buf.length = h.align) (hm : 0 < h.max) (foreign nm : Name) :
    ∃ buf', rebuild e h off (fun _ => .found foreign nm) buf = some buf' ∧
      entryAt e h buf' 0 = mkEntry nm (off + 2 * h.align) := by
  obtain ⟨b, b1, -, -, b4⟩ := rebuild_exact_partial (e := e) ok (off := off) (rd := fun _ => .found foreign nm) hl
  exact ⟨b, b1, by simpa using (b4 0 hm).1 foreign nm rfl (fun _ _ => by simp)⟩

/-- C27 is false of the code: if reading an area fails with an I/O error, its entry is erased although the lease is
there, and the rebuild goes on and succeeds. -/
theorem rebuild_error_violated {e : Endian} {h : Hdr} (ok : Ok h) {off : Nat} {buf : List UInt8}
    (hl : buf.length = h.align) (hm : 0 < h.max) :
    ∃ buf', rebuild e h off (fun _ => .nothing) buf = some buf' ∧ entryAt e h buf' 0 = zeroEntry := by
  obtain ⟨b, b1, -, -, b4⟩ := rebuild_exact_partial (e := e) ok (off := off) (rd := fun _ => .nothing) hl
  exact ⟨b, b1, (b4 0 hm).2 (fun _ _ h => by simp at h)⟩

/-! ## C28 -/

/-- C28, part: for an offset that is the location of one of the entries, an update writes one sector of the index that
is not the header sector, and changes that entry only.  Missing: other offsets, see the theorems below. -/
theorem update_inside_partial {e : Endian} {h : Hdr} (ok : Ok h) {off k : Nat} {buf : List UInt8} {re : RindexEntry}
    (hl : buf.length = h.align) (hk : k < h.max) (hoff : off % h.align = 0) (hr : off + (k + 2) * h.align < 2 ^ 64) :
    ∃ so bs, update e h off buf re (off + (k + 2) * h.align) = some (some (so, bs)) ∧ bs.length = h.sector ∧
      h.sector ≤ so ∧ so + h.sector ≤ h.align ∧
      ∀ j, j < h.max → entryAt e h (splice buf so bs) j = if j = k then re else entryAt e h buf j := by
  obtain ⟨f1, f2, f3, f4, f5, f6⟩ := ok.fits
  obtain ⟨so, bs, u1, u2, u3, u4, u5, u6⟩ := updateIndex_spec (e := e) ok (re := re) hl hk
  refine ⟨so, bs, ?_, u2, u3, u4, u5⟩
  unfold update
  rw [if_neg (by omega), if_neg, entryNum_location (by omega) (by omega) hr, entOffset_nat (by omega), u1]
  rw [Nat.add_mod, hoff, Nat.mul_mod_left]; simp

/-- C28, part: an offset that is not a multiple of the alignment is refused. -/
theorem misaligned_refused {e : Endian} {h : Hdr} {off res : Nat} {buf : List UInt8} {re : RindexEntry} (ha : 0 < h.align)
    (hm : res % h.align ≠ 0) : lookupOffset e h off buf res = some none ∧ update e h off buf re res = some none := by
  constructor
  · unfold lookupOffset; rw [if_neg (by omega), if_pos hm]
  · unfold update; rw [if_neg (by omega), if_pos hm]

example : (0 < (format 512 1048576 0).align) ∧ 5 % (format 512 1048576 0).align ≠ 0 := by decide

/-- C28 is false of the code: a client request to look up or to update an aligned offset far behind the index makes the
daemon access memory outside the index buffer. -/
theorem outside_memory_violated {e : Endian} {buf : List UInt8} {re : RindexEntry} (hl : buf.length = 1048576) :
    lookupOffset e (format 512 1048576 0) 1048576 buf (20000 * 1048576) = none ∧
    update e (format 512 1048576 0) 1048576 buf re (20000 * 1048576) = none := by
  have h1 : entOffset (format 512 1048576 0) (entryNum (format 512 1048576 0) 1048576 (20000 * 1048576)) = 1280320 := by decide +kernel
  constructor
  · unfold lookupOffset
    rw [if_neg (by decide), if_neg (by decide), h1]
    unfold slice?
    rw [if_neg (by rw [hl]; decide)]
  · unfold update
    rw [if_neg (by decide), if_neg (by decide), h1]
    unfold updateIndex
    rw [if_neg (by decide)]
    unfold slice?
    simp only
    rw [if_neg (by rw [hl]; decide)]

/-- C28 is false of the code: an update with an offset six alignments before the index replaces the start of the header
sector by the entry given by the client, after which the index is not recognised any more. -/
theorem header_overwrite_violated {e : Endian} {buf : List UInt8} {re : RindexEntry} (hl : buf.length = 1048576) :
    ∃ bs, update e (format 512 1048576 0) (10 * 1048576) buf re (4 * 1048576) = some (some (0, bs)) ∧
      slice (splice buf 0 bs) 0 64 = rindexEntryOut e re := by
  have h1 : entOffset (format 512 1048576 0) (entryNum (format 512 1048576 0) (10 * 1048576) (4 * 1048576)) = 0 := by decide +kernel
  have hlen := entryOut_length e re
  have hsl : (slice buf 0 512).length = 512 := slice_length (by omega)
  refine ⟨splice (slice buf 0 512) 0 (rindexEntryOut e re), ?_, ?_⟩
  · unfold update
    rw [if_neg (by decide), if_neg (by decide), h1]
    unfold updateIndex
    rw [if_neg (by decide)]
    simp only [show (format 512 1048576 0).sector = 512 by decide]
    rw [show (0 / 512 * 512 % 2 ^ 32 : Nat) = 0 by decide, slice?_eq (by omega)]
    rfl
  · have := splice_length (buf := slice buf 0 512) (bs := rindexEntryOut e re) (off := 0) (by omega)
    rw [slice_splice_inner (by omega) (by omega) (by omega)]
    have := slice_splice_same (buf := slice buf 0 512) (bs := rindexEntryOut e re) (off := 0) (by omega)
    rw [hlen] at this
    exact this

example : ∃ buf : List UInt8, buf.length = 1048576 := ⟨List.replicate 1048576 0, List.length_replicate⟩

end Sanlock.Rindex
