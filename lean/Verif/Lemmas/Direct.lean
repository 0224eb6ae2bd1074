import Verif.Direct

/-!
# Lemmas about the direct commands
-/

namespace Sanlock.Direct

open OnDisk Crc Verify SizeFlags Owners

/-- The blocks of lines of the first areas. -/
def blocks (c : Cfg) (start : Nat) (buf : Nat → List UInt8) : Nat → List Line
  | 0 => []
  | n + 1 => blocks c start buf n ++ ((area c (start + n * c.align) (buf n)).getD none).getD []

theorem count_mul {c : Cfg} (hm : c.align % c.sector = 0) : c.count * c.sector = c.align := by
  unfold Cfg.count
  exact Nat.div_mul_cancel (Nat.dvd_of_mod_eq_zero hm)

theorem readSectors_ok {dev : Dev} {s off len : Nat} (h : s = 512 ∨ s = 4096) : readSectors dev s off len = dev off len := by
  unfold readSectors
  rw [if_neg (by omega)]

/-- The loop over areas that are read, defined, and (without a size) recognised. -/
theorem loop_areas {c : Cfg} {dev : Dev} {start endNr : Nat} {buf : Nat → List UInt8} {n : Nat}
    (hs : c.sector = 512 ∨ c.sector = 4096) (hm : c.align % c.sector = 0)
    (hr : ∀ j, j < n → dev (start + j * c.align) c.align = .ok (buf j))
    (hd : ∀ j, j < n → area c (start + j * c.align) (buf j) ≠ none)
    (hk : ∀ j, j < n → endNr = 0 → area c (start + j * c.align) (buf j) ≠ some none)
    (he : ∀ j, j < n → endNr ≠ 0 → j * c.count < endNr) (fuel : Nat) (data : List UInt8) :
    ∃ data', loop c dev start endNr (fuel + n) 0 data [] = loop c dev start endNr fuel (n * c.count) data' (blocks c start buf n) := by
  suffices h : ∀ m, m ≤ n → ∃ data', loop c dev start endNr (fuel + n) 0 data [] =
      loop c dev start endNr (fuel + (n - m)) (m * c.count) data' (blocks c start buf m) by
    obtain ⟨d, h⟩ := h n (Nat.le_refl _)
    exact ⟨d, by simpa using h⟩
  intro m
  induction m with
  | zero => intro _; exact ⟨data, by simp [blocks]⟩
  | succ m ih =>
    intro hmn
    obtain ⟨d, h⟩ := ih (by omega)
    have hlt : m < n := by omega
    have e1 : fuel + (n - m) = (fuel + (n - (m + 1))) + 1 := by omega
    rw [e1] at h
    have off : start + m * c.count * c.sector = start + m * c.align := by rw [Nat.mul_assoc, count_mul hm]
    rw [loop, off, readSectors_ok hs, hr m hlt] at h
    have c1 : ¬ (endNr ≠ 0 ∧ endNr ≤ m * c.count) := by
      rintro ⟨h1, h2⟩
      have := he m hlt h1
      omega
    rw [if_neg c1] at h
    simp only [fill] at h
    have e2 : m * c.count + c.count = (m + 1) * c.count := by rw [Nat.add_mul, Nat.one_mul]
    cases ha : area c (start + m * c.align) (buf m) with
    | none => exact absurd ha (hd m hlt)
    | some o =>
      cases o with
      | none =>
        have h0 : endNr ≠ 0 := fun h0 => hk m hlt h0 ha
        simp only [ha, if_neg h0, e2] at h
        exact ⟨buf m, by rw [h]; simp [blocks, ha]⟩
      | some ls =>
        simp only [ha, e2] at h
        exact ⟨buf m, by rw [h]; simp [blocks, ha]⟩

/-- The lines of one area among all. -/
theorem blocks_split {c : Cfg} {start : Nat} {buf : Nat → List UInt8} {n j : Nat} (h : j < n) :
    ∃ pre, ∃ rest : List (List Line), blocks c start buf n = pre ++ ((area c (start + j * c.align) (buf j)).getD none).getD [] ++ rest.flatten ∧
      ∀ b ∈ rest, ∃ k, k < n ∧ b = ((area c (start + k * c.align) (buf k)).getD none).getD [] := by
  induction n with
  | zero => omega
  | succ n ih =>
    by_cases hj : j = n
    · subst hj
      exact ⟨blocks c start buf j, [], by simp [blocks], by simp⟩
    · obtain ⟨pre, rest, h1, h2⟩ := ih (by omega)
      refine ⟨pre, rest ++ [((area c (start + n * c.align) (buf n)).getD none).getD []], ?_, ?_⟩
      · rw [blocks, h1]; simp
      · intro b hb
        rcases List.mem_append.mp hb with hb | hb
        · obtain ⟨k, hk, e⟩ := h2 b hb
          exact ⟨k, by omega, e⟩
        · exact ⟨n, by omega, by simpa using hb⟩

theorem mem_blocks {c : Cfg} {start : Nat} {buf : Nat → List UInt8} {n : Nat} {x : Line} (h : x ∈ blocks c start buf n) :
    ∃ j, j < n ∧ ∃ ls, area c (start + j * c.align) (buf j) = some (some ls) ∧ x ∈ ls := by
  induction n with
  | zero => simp [blocks] at h
  | succ n ih =>
    rcases List.mem_append.mp h with h | h
    · obtain ⟨j, hj, r⟩ := ih h
      exact ⟨j, by omega, r⟩
    · refine ⟨n, by omega, ?_⟩
      cases ha : area c (start + n * c.align) (buf n) with
      | none => simp [ha] at h
      | some o =>
        cases o with
        | none => simp [ha] at h
        | some ls => exact ⟨ls, rfl, by simpa [ha] using h⟩

/-- Is this the line of a host that shares a lease? -/
def isSh : Line → Bool
  | .sh .. => true
  | _ => false

theorem entryLines_mem {c : Cfg} {off : Nat} {sp : List UInt8} {data : List UInt8} : ∀ {ps ls}, entryLines c off sp data ps = some ls →
    ∀ x, x ∈ ls ↔ ∃ p ∈ ps, entryLine c off sp data p.1 p.2 = some (some x) := by
  intro ps
  induction ps with
  | nil => intro ls h x; simp only [entryLines, Option.some.injEq] at h; subst h; simp
  | cons p ps ih =>
    intro ls h x
    rw [entryLines] at h
    cases h1 : entryLine c off sp data p.1 p.2 with
    | none => simp [h1] at h
    | some o =>
      cases h2 : entryLines c off sp data ps with
      | none => simp [h1, h2] at h
      | some l2 =>
        simp only [h1, h2, Option.some.injEq] at h
        subst h
        rw [List.mem_append, ih h2 x]
        constructor
        · rintro (h | ⟨q, hq, h⟩)
          · refine ⟨p, List.mem_cons_self, ?_⟩
            rw [h1]
            cases o with
            | none => simp at h
            | some y => simp at h; rw [h]
          · exact ⟨q, List.mem_cons_of_mem _ hq, h⟩
        · rintro ⟨q, hq, h⟩
          rcases List.mem_cons.mp hq with rfl | hq
          · rw [h1] at h
            left
            cases h
            simp
          · exact Or.inr ⟨q, hq, h⟩

theorem entryLines_some {c : Cfg} {off : Nat} {sp : List UInt8} {data : List UInt8} : ∀ {ps},
    (∀ p ∈ ps, entryLine c off sp data p.1 p.2 ≠ none) → entryLines c off sp data ps ≠ none := by
  intro ps
  induction ps with
  | nil => intro _; simp [entryLines]
  | cons p ps ih =>
    intro h
    rw [entryLines]
    cases h1 : entryLine c off sp data p.1 p.2 with
    | none => exact absurd h1 (h p List.mem_cons_self)
    | some o =>
      cases h2 : entryLines c off sp data ps with
      | none => exact absurd h2 (ih fun q hq => h q (List.mem_cons_of_mem _ hq))
      | some l2 => simp

theorem mem_entryPos {c : Cfg} {p : Nat × Nat} : p ∈ entryPos c ↔ 1 ≤ p.1 ∧ p.1 < c.count ∧ p.2 < c.sector / 64 := by
  obtain ⟨i, j⟩ := p
  simp only [entryPos, List.mem_flatMap, List.mem_range, List.mem_map, Prod.mk.injEq]
  constructor
  · rintro ⟨a, ha, b, hb, rfl, rfl⟩
    omega
  · rintro ⟨h1, h2, h3⟩
    exact ⟨i - 1, by omega, j, h3, by omega, rfl⟩

theorem entryLine_entry {c : Cfg} {off : Nat} {sp : List UInt8} {data : List UInt8} {i j : Nat} {x : Line}
    (h : entryLine c off sp data i j = some (some x)) :
    ((rindexEntryIn c.e (data.drop (i * c.sector + j * 64))).resOffset ≠ 0 ∨
      (rindexEntryIn c.e (data.drop (i * c.sector + j * 64))).name.bytes.headD 0 ≠ 0) ∧
    x = .entry (off + (i * c.sector + j * 64)) sp (cstr (rindexEntryIn c.e (data.drop (i * c.sector + j * 64))).name)
      (rindexEntryIn c.e (data.drop (i * c.sector + j * 64))).resOffset := by
  unfold entryLine at h
  dsimp only at h
  split at h
  · cases h
  · rename_i h1
    split at h
    · cases h
    · cases h
      refine ⟨?_, rfl⟩
      by_cases h2 : (rindexEntryIn c.e (data.drop (i * c.sector + j * 64))).resOffset = 0
      · exact Or.inr fun h3 => h1 ⟨h2, h3⟩
      · exact Or.inl h2

theorem hostLines_mem {c : Cfg} {data : List UInt8} {i : Nat} {x : Line} : x ∈ hostLines c data i ↔
    (c.force > 1 ∧ ((dblockIn c.e (data.drop ((2 + i) * c.sector))).mbal ≠ 0 ∨ (dblockIn c.e (data.drop ((2 + i) * c.sector))).inp ≠ 0 ∨
      (dblockIn c.e (data.drop ((2 + i) * c.sector))).lver ≠ 0) ∧ x = .dblock i (dblockIn c.e (data.drop ((2 + i) * c.sector)))) ∨
    (shared (blockAt c.e data c.sector i) = true ∧ x = .sh (i + 1) (blockAt c.e data c.sector i).generation) := by
  unfold hostLines
  dsimp only
  rw [List.mem_append]
  constructor
  · rintro (h | h)
    · split at h
      · rename_i hc
        exact Or.inl ⟨hc.1, hc.2, List.mem_singleton.mp h⟩
      · cases h
    · split at h
      · rename_i hc
        exact Or.inr ⟨hc, List.mem_singleton.mp h⟩
      · cases h
  · rintro (⟨h1, h2, h3⟩ | ⟨h1, h2⟩)
    · left
      rw [if_pos ⟨h1, h2⟩]
      exact List.mem_singleton.mpr h3
    · right
      rw [if_pos h1]
      exact List.mem_singleton.mpr h2

theorem hostLines_sh {c : Cfg} {data : List UInt8} (l : List Nat) :
    (l.flatMap (hostLines c data)).filter isSh =
      (l.filter fun i => shared (blockAt c.e data c.sector i)).map fun i => .sh (i + 1) (blockAt c.e data c.sector i).generation := by
  induction l with
  | nil => rfl
  | cons i l ih =>
    rw [List.flatMap_cons, List.filter_append, ih]
    have : (hostLines c data i).filter isSh =
        if shared (blockAt c.e data c.sector i) then [.sh (i + 1) (blockAt c.e data c.sector i).generation] else [] := by
      unfold hostLines
      dsimp only
      rw [List.filter_append]
      split <;> split <;> rfl
    rw [this]
    by_cases hsh : shared (blockAt c.e data c.sector i) = true
    · simp [hsh]
    · simp [hsh]

/-- The lines of an area begin with a line that is not a sharer. -/
theorem area_head {c : Cfg} {off : Nat} {data : List UInt8} {x : Line}
    (h : (((area c off data).getD none).getD []).head? = some x) : isSh x = false := by
  unfold area at h
  dsimp only at h
  split at h
  · simp only [Option.getD_some] at h
    have hx := List.mem_of_mem_head? (Option.mem_def.mpr h)
    obtain ⟨i, -, hi⟩ := List.mem_filterMap.mp hx
    unfold deltaLine at hi
    dsimp only at hi
    split at hi
    · cases hi
    · split at hi
      · cases hi
      · cases hi; rfl
  · split at h
    · split at h
      · simp at h
      · simp only [Option.getD_some, List.head?_cons, Option.some.injEq] at h
        subst h; rfl
    · split at h
      · split at h
        · simp only [Option.getD_some, List.head?_cons, Option.some.injEq] at h
          subst h; rfl
        · split at h
          · simp at h
          · simp only [Option.getD_some, List.head?_cons, Option.some.injEq] at h
            subst h; rfl
      · simp at h

theorem flatten_head {bs : List (List Line)} (h : ∀ b ∈ bs, ∀ x, b.head? = some x → isSh x = false) :
    ∀ x, bs.flatten.head? = some x → isSh x = false := by
  induction bs with
  | nil => intro x hx; simp at hx
  | cons b bs ih =>
    intro x hx
    cases b with
    | nil => exact ih (fun b hb => h b (List.mem_cons_of_mem _ hb)) x (by simpa using hx)
    | cons y b => exact h (y :: b) List.mem_cons_self x (by simpa using hx)

end Sanlock.Direct
