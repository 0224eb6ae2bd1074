import Verif.Lemmas.Direct
import Verif.Props.OnDisk
import Verif.Props.Strings

/-!
# C68: the direct commands show what is on the disk and do what they report
-/

namespace Sanlock.Direct

open OnDisk Crc Verify SizeFlags Owners

/-- The magic number at the start of a buffer. -/
abbrev magicOf (c : Cfg) (b : List UInt8) : UInt32 := (leaderIn c.e b).magic

/-- One of the three kinds of area. -/
def Known (c : Cfg) (b : List UInt8) : Prop := magicOf c b = deltaMagic ∨ magicOf c b = paxosMagic ∨ magicOf c b = rindexMagic

instance (c : Cfg) (b : List UInt8) : Decidable (Known c b) := by unfold Known; infer_instance

/-- The `n` areas from `start` on are readable and `buf` is what they hold; they are what the user asked for, either by a size or because
the next area holds nothing or is past the end of the device; the number of hosts of a resource fits into its area; with `-f` the names
in an index end with a NUL. -/
structure Span (c : Cfg) (dev : Dev) (start size n : Nat) (buf : Nat → List UInt8) : Prop where
  sector : c.sector = 512 ∨ c.sector = 4096
  mult : c.align % c.sector = 0
  room : 2 * c.sector ≤ c.align
  read : ∀ j, j < n → dev (start + j * c.align) c.align = .ok (buf j)
  hosts : ∀ j, j < n → magicOf c (buf j) = paxosMagic → (leaderIn c.e (buf j)).numHosts ≠ 0 →
    (1 + (leaderIn c.e (buf j)).numHosts.toNat) * c.sector + 144 ≤ c.align
  names : c.force ≠ 0 → ∀ j, j < n → magicOf c (buf j) = rindexMagic → ∀ i, 1 ≤ i → i < c.align / c.sector → ∀ k, k < c.sector / 64 →
    0 ∈ (rindexEntryIn c.e ((buf j).drop (i * c.sector + k * 64))).name.bytes
  range : (0 < n ∧ size = n * c.align) ∨
    (size = 0 ∧ (∀ j, j < n → Known c (buf j)) ∧
      match dev (start + n * c.align) c.align with
      | .ok b => ¬ Known c b
      | .error _ => True)

theorem area_some {c : Cfg} {off : Nat} {b : List UInt8} (hs : c.sector = 512 ∨ c.sector = 4096) (room : 2 * c.sector ≤ c.align)
    (hosts : magicOf c b = paxosMagic → (leaderIn c.e b).numHosts ≠ 0 → (1 + (leaderIn c.e b).numHosts.toNat) * c.sector + 144 ≤ c.align)
    (names : c.force ≠ 0 → magicOf c b = rindexMagic → ∀ i, 1 ≤ i → i < c.align / c.sector → ∀ k, k < c.sector / 64 →
      0 ∈ (rindexEntryIn c.e (b.drop (i * c.sector + k * 64))).name.bytes) :
    area c off b ≠ none ∧ (Known c b → area c off b ≠ some none) ∧ (¬ Known c b → area c off b = some none) := by
  have hlines : c.force ≠ 0 → magicOf c b = rindexMagic → ∀ sp, entryLines c off sp b (entryPos c) ≠ none := by
    intro hf hm sp
    apply entryLines_some
    intro p hp
    have ⟨h1, h2, h3⟩ := mem_entryPos.mp hp
    unfold entryLine
    dsimp only
    split
    · exact nofun
    · rw [if_neg (fun h => h (names hf hm p.1 h1 h2 p.2 h3))]
      exact nofun
  by_cases h1 : magicOf c b = deltaMagic
  · simp [area, h1, Known]
  · by_cases h2 : magicOf c b = paxosMagic
    · have hb : ¬ (((leaderIn c.e b).numHosts ≠ 0 ∧ c.align < (1 + (leaderIn c.e b).numHosts.toNat) * c.sector + 144) ∨
          (c.force ≠ 0 ∧ c.align < c.sector + 20)) := by
        rintro (⟨ha, hb⟩ | ⟨_, hb⟩)
        · have := hosts h2 ha
          omega
        · omega
      have ne : paxosMagic ≠ deltaMagic := by decide
      have : area c off b = some (some (.paxos off (cstr (leaderIn c.e b).spaceName) (cstr (leaderIn c.e b).resourceName)
          (leaderIn c.e b).timestamp (leaderIn c.e b).ownerId (leaderIn c.e b).ownerGeneration (leaderIn c.e b).lver (request c b)
          :: (List.range (leaderIn c.e b).numHosts.toNat).flatMap (hostLines c b))) := by
        unfold area
        rw [if_neg h1, if_pos h2, if_neg hb]
      rw [this]
      exact ⟨nofun, fun _ => nofun, fun h => absurd (Or.inr (Or.inl h2)) h⟩
    · by_cases h3 : magicOf c b = rindexMagic
      · unfold area
        rw [if_neg h1, if_neg h2, if_pos h3]
        dsimp only
        by_cases hf : c.force = 0
        · rw [if_pos hf]
          exact ⟨nofun, fun _ => nofun, fun h => absurd (Or.inr (Or.inr h3)) h⟩
        · rw [if_neg hf]
          cases h4 : entryLines c off (cstr (rindexHeaderIn c.e b).lockspaceName) b (entryPos c) with
          | none => exact absurd h4 (hlines hf h3 _)
          | some ls => exact ⟨nofun, fun _ => nofun, fun h => absurd (Or.inr (Or.inr h3)) h⟩
      · unfold area
        rw [if_neg h1, if_neg h2, if_neg h3]
        exact ⟨nofun, fun h => by rcases h with h | h | h <;> contradiction, fun _ => rfl⟩

theorem magic_zeros (c : Cfg) (data : List UInt8) (hs : c.sector = 512 ∨ c.sector = 4096) :
    magicOf c (List.replicate c.sector 0 ++ data) = 0 := by
  have : getField c.e 0 4 (List.replicate c.sector 0 ++ data) = 0 := by
    unfold getField
    have : ((List.replicate c.sector (0 : UInt8) ++ data).drop 0).take 4 = List.replicate 4 0 := by
      obtain ⟨m, hm⟩ : ∃ m, c.sector = 4 + m := ⟨c.sector - 4, by omega⟩
      rw [hm, ← List.replicate_append_replicate, List.drop_zero, List.append_assoc, List.take_append_of_le_length (by simp)]
      simp
    rw [this]
    cases c.e <;> decide
  show UInt32.ofNat (getField c.e 0 4 _) = 0
  rw [this]
  rfl

/-- What the dump prints. -/
theorem dump_eq {c : Cfg} {dev : Dev} {start size n : Nat} {buf : Nat → List UInt8} (h : Span c dev start size n buf) (fuel : Nat) :
    dump c.e dev c.force start size c.sector c.align (fuel + 1 + n) = .done 0 (blocks c start buf n) := by
  obtain ⟨hs, hm, room, hr, hh, hn, hrange⟩ := h
  have ha := fun j hj => area_some (c := c) (off := start + j * c.align) (b := buf j) hs room (hh j hj) (fun hf => hn hf j hj)
  have hc : 0 < c.count := by
    have := count_mul hm
    rcases Nat.eq_zero_or_pos c.count with h0 | h0
    · rw [h0] at this; omega
    · exact h0
  have hsize : size / c.sector = 0 ∧ size = 0 ∨ size / c.sector = n * c.count ∧ 0 < n := by
    rcases hrange with ⟨h1, h2⟩ | ⟨h1, _⟩
    · right
      refine ⟨?_, h1⟩
      rw [h2, ← count_mul hm, ← Nat.mul_assoc]
      exact Nat.mul_div_cancel _ (by omega)
    · left
      rw [h1]
      exact ⟨Nat.zero_div _, rfl⟩
  have hL := loop_areas (c := c) (dev := dev) (start := start) (endNr := size / c.sector) (buf := buf) (n := n) hs hm hr
    (fun j hj => (ha j hj).1)
    (fun j hj h0 => by
      rcases hsize with ⟨_, hz⟩ | ⟨h1, h2⟩
      · rcases hrange with ⟨h1, h2⟩ | ⟨_, hk, _⟩
        · have : 0 < n * c.align := Nat.mul_pos h1 (by omega)
          omega
        · exact (ha j hj).2.1 (hk j hj)
      · have : 0 < n * c.count := Nat.mul_pos h2 hc
        omega)
    (fun j hj h0 => by
      rcases hsize with ⟨h1, _⟩ | ⟨h1, h2⟩
      · exact absurd h1 h0
      · rw [h1]
        exact (Nat.mul_lt_mul_right hc).mpr hj)
    (fuel + 1) (List.replicate c.align 0)
  obtain ⟨d, hL⟩ := hL
  have hdump : dump c.e dev c.force start size c.sector c.align (fuel + 1 + n) =
      loop c dev start (size / c.sector) (fuel + 1 + n) 0 (List.replicate c.align 0) [] := by
    have hg : ¬ (c.sector = 0 ∨ c.align = 0) := by omega
    simp only [dump, if_neg hg]
    rw [if_neg (by omega), if_neg (by omega), if_neg (by omega)]
    rfl
  rw [hdump, hL, loop]
  rcases hsize with ⟨h1, hz⟩ | ⟨h1, h2⟩
  · rw [if_neg (by omega)]
    rcases hrange with ⟨h2, h3⟩ | ⟨_, _, hlast⟩
    · have : 0 < n * c.align := Nat.mul_pos h2 (by omega)
      omega
    · have off : start + n * c.count * c.sector = start + n * c.align := by rw [Nat.mul_assoc, count_mul hm]
      rw [off, readSectors_ok hs]
      have unknown : ∀ b, ¬ Known c b → area c (start + n * c.align) b = some none := by
        intro b hb
        unfold area
        rw [if_neg fun h => hb (Or.inl h), if_neg fun h => hb (Or.inr (Or.inl h)), if_neg fun h => hb (Or.inr (Or.inr h))]
      cases hl : dev (start + n * c.align) c.align with
      | ok b =>
        rw [hl] at hlast
        simp only [fill, unknown b hlast, h1, if_true]
      | error rv =>
        have : ¬ Known c (List.replicate c.sector 0 ++ d.drop c.sector) := by
          unfold Known
          rw [magic_zeros c _ hs]
          decide
        simp only [fill, unknown _ this, h1, if_true]
  · have : 0 < n * c.count := Nat.mul_pos h2 hc
    rw [if_pos ⟨by omega, by omega⟩]

/-- Every resource lease in the range is printed, with the values on the disk, and right after it exactly the hosts whose block says that
they hold it shared; with `-f` twice also their ballot blocks that are in use. -/
theorem dump_resources_partial {c : Cfg} {dev : Dev} {start size n : Nat} {buf : Nat → List UInt8} (h : Span c dev start size n buf)
    (fuel : Nat) :
    ∃ out, dump c.e dev c.force start size c.sector c.align (fuel + 1 + n) = .done 0 out ∧
      ∀ j, j < n → magicOf c (buf j) = paxosMagic → ∃ pre hs post req,
        out = pre ++ .paxos (start + j * c.align) ((leaderIn c.e (buf j)).spaceName.bytes.takeWhile (· != 0))
            ((leaderIn c.e (buf j)).resourceName.bytes.takeWhile (· != 0)) (leaderIn c.e (buf j)).timestamp (leaderIn c.e (buf j)).ownerId
            (leaderIn c.e (buf j)).ownerGeneration (leaderIn c.e (buf j)).lver req :: hs ++ post ∧
        hs.filter isSh =
          ((List.range (leaderIn c.e (buf j)).numHosts.toNat).filter fun i =>
            (modeBlockIn c.e ((buf j).drop ((2 + i) * c.sector + 128))).flags &&& 1 != 0).map (fun i =>
              .sh (i + 1) (modeBlockIn c.e ((buf j).drop ((2 + i) * c.sector + 128))).generation) ∧
        (∀ x ∈ hs, isSh x = false → c.force > 1 ∧
          ∃ i, i < (leaderIn c.e (buf j)).numHosts.toNat ∧ x = .dblock i (dblockIn c.e ((buf j).drop ((2 + i) * c.sector)))) ∧
        (c.force > 1 → ∀ i, i < (leaderIn c.e (buf j)).numHosts.toNat → ∀ d, d = dblockIn c.e ((buf j).drop ((2 + i) * c.sector)) →
          (d.mbal ≠ 0 ∨ d.inp ≠ 0 ∨ d.lver ≠ 0) → .dblock i d ∈ hs) ∧
        (∀ x, post.head? = some x → ∀ a g, x ≠ .sh a g) ∧
        (c.force = 0 → req = none) ∧
        (c.force ≠ 0 → req = some ((requestIn c.e ((buf j).drop c.sector)).lver, (requestIn c.e ((buf j).drop c.sector)).forceMode)) := by
  refine ⟨_, dump_eq h fuel, ?_⟩
  intro j hj hmag
  obtain ⟨pre, rest, h1, h2⟩ := blocks_split (c := c) (start := start) (buf := buf) hj
  refine ⟨pre, (List.range (leaderIn c.e (buf j)).numHosts.toNat).flatMap (hostLines c (buf j)), rest.flatten, request c (buf j),
    ?_, hostLines_sh _, ?_, ?_, ?_, ?_, ?_⟩
  · rw [h1]
    have : area c (start + j * c.align) (buf j) = some (some (.paxos (start + j * c.align) (cstr (leaderIn c.e (buf j)).spaceName)
        (cstr (leaderIn c.e (buf j)).resourceName) (leaderIn c.e (buf j)).timestamp (leaderIn c.e (buf j)).ownerId
        (leaderIn c.e (buf j)).ownerGeneration (leaderIn c.e (buf j)).lver (request c (buf j))
        :: (List.range (leaderIn c.e (buf j)).numHosts.toNat).flatMap (hostLines c (buf j)))) := by
      unfold area
      have ne : ¬ (leaderIn c.e (buf j)).magic = deltaMagic := by
        intro hd
        rw [show (leaderIn c.e (buf j)).magic = paxosMagic from hmag] at hd
        exact absurd hd (by decide)
      rw [if_neg ne, if_pos hmag, if_neg]
      rintro (⟨ha, hb⟩ | ⟨_, hb⟩)
      · have := h.hosts j hj hmag ha
        omega
      · have := h.room
        have := h.sector
        omega
    rw [this]
    simp only [Option.getD_some, List.append_assoc, List.cons_append]
    rfl
  · intro x hx hns
    obtain ⟨i, hi, hx⟩ := List.mem_flatMap.mp hx
    rcases hostLines_mem.mp hx with ⟨h1, _, h2⟩ | ⟨_, h2⟩
    · exact ⟨h1, i, List.mem_range.mp hi, h2⟩
    · rw [h2] at hns
      cases hns
  · intro h1 i hi d hd hu
    subst hd
    exact List.mem_flatMap.mpr ⟨i, List.mem_range.mpr hi, hostLines_mem.mpr (Or.inl ⟨h1, hu, rfl⟩)⟩
  · intro x hx a g e
    have hh := flatten_head (bs := rest) (fun b hb y hy => by
      obtain ⟨k, _, hk⟩ := h2 b hb
      rw [hk] at hy
      exact area_head hy) x hx
    rw [e] at hh
    cases hh
  · intro h1
    unfold request
    rw [if_pos h1]
  · intro h1
    unfold request
    rw [if_neg h1]

theorem byte_bit : ∀ (b : UInt8) (k : Fin 8), (b &&& (1 : UInt8) <<< UInt8.ofNat k.val != 0) = b.toNat.testBit k.val := by
  intro b
  obtain ⟨n, rfl⟩ : ∃ n : Fin 256, b = UInt8.ofNat n.val := ⟨⟨b.toNat, b.toNat_lt⟩, by simp⟩
  revert n
  decide +kernel

theorem mem_bits {c : Cfg} {b : List UInt8} {x : Nat} : x ∈ bits c b ↔ 1 ≤ x ∧ x ≤ sizeToMaxHosts c.sector c.align ∧
    (b.getD (256 + (x - 1) / 8) 0).toNat.testBit ((x - 1) % 8) = true := by
  have key : ∀ i, (HostEvent.testBit (i + 1) (b.drop 256)).getD false = (b.getD (256 + i / 8) 0).toNat.testBit (i % 8) := by
    intro i
    unfold HostEvent.testBit HostEvent.byteIdx HostEvent.mask
    rw [Nat.add_sub_cancel, List.getElem?_drop, List.getD_eq_getElem?_getD]
    cases b[256 + i / 8]? with
    | none => simp
    | some y => exact byte_bit y ⟨i % 8, Nat.mod_lt _ (by omega)⟩
  unfold bits
  simp only [List.mem_map, List.mem_filter, List.mem_range, key]
  constructor
  · rintro ⟨i, ⟨h1, h2⟩, rfl⟩
    exact ⟨by omega, by omega, h2⟩
  · rintro ⟨h1, h2, h3⟩
    exact ⟨x - 1, ⟨by omega, h3⟩, by omega⟩

/-- Every host id in the range that has had an owner is printed with the values on the disk, with `-f` also the hosts whose bit is set. -/
theorem dump_hosts_partial {c : Cfg} {dev : Dev} {start size n : Nat} {buf : Nat → List UInt8} (h : Span c dev start size n buf) (fuel : Nat) :
    ∃ out, dump c.e dev c.force start size c.sector c.align (fuel + 1 + n) = .done 0 out ∧
      ∀ j, j < n → magicOf c (buf j) = deltaMagic → ∀ i, i < c.align / c.sector →
        ∀ l, l = leaderIn c.e ((buf j).drop (i * c.sector)) → l.magic ≠ 0 → (l.ownerId ≠ 0 ∨ l.ownerGeneration ≠ 0) →
        ∃ bs, Line.delta (start + j * c.align + i * c.sector) (l.spaceName.bytes.takeWhile (· != 0)) (l.resourceName.bytes.takeWhile (· != 0))
          l.timestamp l.ownerId l.ownerGeneration bs ∈ out ∧
          (c.force = 0 → bs = []) ∧
          (c.force ≠ 0 → ∀ x, x ∈ bs ↔ 1 ≤ x ∧ x ≤ sizeToMaxHosts c.sector c.align ∧
            ((buf j).getD (i * c.sector + 256 + (x - 1) / 8) 0).toNat.testBit ((x - 1) % 8) = true) := by
  refine ⟨_, dump_eq h fuel, ?_⟩
  intro j hj hmag i hi l hl h0 ho
  obtain ⟨pre, rest, h1, -⟩ := blocks_split (c := c) (start := start) (buf := buf) hj
  subst hl
  refine ⟨if c.force = 0 then [] else bits c ((buf j).drop (i * c.sector)), ?_, fun h => if_pos h, fun h x => by
    rw [if_neg h, mem_bits, List.getD_eq_getElem?_getD, List.getD_eq_getElem?_getD, List.getElem?_drop, Nat.add_assoc]⟩
  rw [h1]
  apply List.mem_append_left
  apply List.mem_append_right
  unfold area
  rw [if_pos hmag]
  simp only [Option.getD_some]
  refine List.mem_filterMap.mpr ⟨i, List.mem_range.mpr hi, ?_⟩
  unfold deltaLine
  dsimp only
  rw [if_neg h0, if_neg (by
    rintro ⟨ha, hb⟩
    rcases ho with ho | ho
    · exact ho ha
    · exact ho hb)]
  rfl

/-- Every index in the range is printed, with `-f` also every entry in use. -/
theorem dump_index_partial {c : Cfg} {dev : Dev} {start size n : Nat} {buf : Nat → List UInt8} (h : Span c dev start size n buf) (fuel : Nat) :
    ∃ out, dump c.e dev c.force start size c.sector c.align (fuel + 1 + n) = .done 0 out ∧
      ∀ j, j < n → magicOf c (buf j) = rindexMagic → ∀ hd, hd = rindexHeaderIn c.e (buf j) →
        Line.header (start + j * c.align) (hd.lockspaceName.bytes.takeWhile (· != 0)) hd.flags hd.sectorSize hd.maxResources hd.rxOffset ∈ out ∧
        (c.force ≠ 0 → ∀ i, 1 ≤ i → i < c.align / c.sector → ∀ k, k < c.sector / 64 →
          ∀ r, r = rindexEntryIn c.e ((buf j).drop (i * c.sector + k * 64)) → (r.resOffset ≠ 0 ∨ r.name.bytes.headD 0 ≠ 0) →
          Line.entry (start + j * c.align + (i * c.sector + k * 64)) (hd.lockspaceName.bytes.takeWhile (· != 0))
            (r.name.bytes.takeWhile (· != 0)) r.resOffset ∈ out) := by
  refine ⟨_, dump_eq h fuel, ?_⟩
  intro j hj hmag hd hhd
  subst hhd
  obtain ⟨pre, rest, h1, -⟩ := blocks_split (c := c) (start := start) (buf := buf) hj
  have hne := (area_some (c := c) (off := start + j * c.align) (b := buf j) h.sector h.room (h.hosts j hj) (fun hf => h.names hf j hj)).1
  have n1 : ¬ (leaderIn c.e (buf j)).magic = deltaMagic := by
    intro hd
    rw [show (leaderIn c.e (buf j)).magic = rindexMagic from hmag] at hd
    exact absurd hd (by decide)
  have n2 : ¬ (leaderIn c.e (buf j)).magic = paxosMagic := by
    intro hd
    rw [show (leaderIn c.e (buf j)).magic = rindexMagic from hmag] at hd
    exact absurd hd (by decide)
  unfold area at h1 hne
  rw [if_neg n1, if_neg n2, if_pos hmag] at h1 hne
  dsimp only at h1 hne
  rw [h1]
  by_cases hf : c.force = 0
  · rw [if_pos hf]
    refine ⟨?_, fun h => absurd hf h⟩
    apply List.mem_append_left
    apply List.mem_append_right
    simp [cstr]
  · rw [if_neg hf] at hne ⊢
    cases h4 : entryLines c (start + j * c.align) (cstr (rindexHeaderIn c.e (buf j)).lockspaceName) (buf j) (entryPos c) with
    | none => rw [h4] at hne; exact absurd rfl hne
    | some ls =>
      dsimp only
      refine ⟨?_, ?_⟩
      · apply List.mem_append_left
        apply List.mem_append_right
        simp [cstr]
      · intro _ i hi1 hi2 k hk r hr hu
        subst hr
        apply List.mem_append_left
        apply List.mem_append_right
        simp only [Option.getD_some]
        apply List.mem_cons_of_mem
        rw [entryLines_mem h4]
        refine ⟨(i, k), mem_entryPos.mpr ⟨hi1, hi2, hk⟩, ?_⟩
        unfold entryLine
        dsimp only
        rw [if_neg (by
          rintro ⟨ha, hb⟩
          rcases hu with hu | hu
          · exact hu ha
          · exact hu hb), if_neg (fun hc => hc (h.names hf j hj hmag i hi1 hi2 k hk))]
        rfl

/-- Nothing is printed that is not on the disk. -/
theorem dump_sound_partial {c : Cfg} {dev : Dev} {start size n : Nat} {buf : Nat → List UInt8} (h : Span c dev start size n buf) (fuel : Nat) :
    ∃ out, dump c.e dev c.force start size c.sector c.align (fuel + 1 + n) = .done 0 out ∧
      (∀ off sp rn ts o g v rq, Line.paxos off sp rn ts o g v rq ∈ out → ∃ j, j < n ∧ off = start + j * c.align ∧
        magicOf c (buf j) = paxosMagic ∧ sp = (leaderIn c.e (buf j)).spaceName.bytes.takeWhile (· != 0) ∧
        rn = (leaderIn c.e (buf j)).resourceName.bytes.takeWhile (· != 0) ∧ ts = (leaderIn c.e (buf j)).timestamp ∧
        o = (leaderIn c.e (buf j)).ownerId ∧ g = (leaderIn c.e (buf j)).ownerGeneration ∧ v = (leaderIn c.e (buf j)).lver) ∧
      (∀ off sp rn ts o g bs, Line.delta off sp rn ts o g bs ∈ out → ∃ j i, j < n ∧ i < c.align / c.sector ∧
        off = start + j * c.align + i * c.sector ∧ magicOf c (buf j) = deltaMagic ∧
        sp = (leaderIn c.e ((buf j).drop (i * c.sector))).spaceName.bytes.takeWhile (· != 0) ∧
        rn = (leaderIn c.e ((buf j).drop (i * c.sector))).resourceName.bytes.takeWhile (· != 0) ∧
        ts = (leaderIn c.e ((buf j).drop (i * c.sector))).timestamp ∧ o = (leaderIn c.e ((buf j).drop (i * c.sector))).ownerId ∧
        g = (leaderIn c.e ((buf j).drop (i * c.sector))).ownerGeneration ∧ (o ≠ 0 ∨ g ≠ 0)) ∧
      (∀ off sp nm ro, Line.entry off sp nm ro ∈ out → c.force ≠ 0 ∧ ∃ j i k, j < n ∧ 1 ≤ i ∧ i < c.align / c.sector ∧ k < c.sector / 64 ∧
        magicOf c (buf j) = rindexMagic ∧ off = start + j * c.align + (i * c.sector + k * 64) ∧
        ro = (rindexEntryIn c.e ((buf j).drop (i * c.sector + k * 64))).resOffset ∧
        nm = (rindexEntryIn c.e ((buf j).drop (i * c.sector + k * 64))).name.bytes.takeWhile (· != 0)) ∧
      (∀ host g, Line.sh host g ∈ out → ∃ j i, j < n ∧ magicOf c (buf j) = paxosMagic ∧ i < (leaderIn c.e (buf j)).numHosts.toNat ∧
        host = i + 1 ∧ (modeBlockIn c.e ((buf j).drop ((2 + i) * c.sector + 128))).flags &&& 1 ≠ 0 ∧
        g = (modeBlockIn c.e ((buf j).drop ((2 + i) * c.sector + 128))).generation) := by
  refine ⟨_, dump_eq h fuel, ?_⟩
  -- what the lines of one area can be
  have key : ∀ x, x ∈ blocks c start buf n → ∃ j, j < n ∧
      ((magicOf c (buf j) = deltaMagic ∧ ∃ i, i < c.count ∧ deltaLine c (start + j * c.align) (buf j) i = some x) ∨
       (magicOf c (buf j) = paxosMagic ∧ (x = .paxos (start + j * c.align) (cstr (leaderIn c.e (buf j)).spaceName)
          (cstr (leaderIn c.e (buf j)).resourceName) (leaderIn c.e (buf j)).timestamp (leaderIn c.e (buf j)).ownerId
          (leaderIn c.e (buf j)).ownerGeneration (leaderIn c.e (buf j)).lver (request c (buf j)) ∨
          ∃ i, i < (leaderIn c.e (buf j)).numHosts.toNat ∧ x ∈ hostLines c (buf j) i)) ∨
       (magicOf c (buf j) = rindexMagic ∧ ((∃ a b d f g h, x = .header a b d f g h) ∨
          c.force ≠ 0 ∧ ∃ sp p, p ∈ entryPos c ∧ entryLine c (start + j * c.align) sp (buf j) p.1 p.2 = some (some x)))) := by
    intro x hx
    obtain ⟨j, hj, ls, ha, hx⟩ := mem_blocks hx
    refine ⟨j, hj, ?_⟩
    unfold area at ha
    dsimp only at ha
    split at ha
    · rename_i hm
      simp only [Option.some.injEq] at ha
      subst ha
      obtain ⟨i, hi, hl⟩ := List.mem_filterMap.mp hx
      exact Or.inl ⟨hm, i, List.mem_range.mp hi, hl⟩
    · split at ha
      · rename_i hm
        split at ha
        · cases ha
        · simp only [Option.some.injEq] at ha
          subst ha
          rcases List.mem_cons.mp hx with hx | hx
          · exact Or.inr (Or.inl ⟨hm, Or.inl hx⟩)
          · obtain ⟨i, hi, hl⟩ := List.mem_flatMap.mp hx
            exact Or.inr (Or.inl ⟨hm, Or.inr ⟨i, List.mem_range.mp hi, hl⟩⟩)
      · split at ha
        · rename_i hm
          split at ha
          · simp only [Option.some.injEq] at ha
            subst ha
            exact Or.inr (Or.inr ⟨hm, Or.inl ⟨_, _, _, _, _, _, List.mem_singleton.mp hx⟩⟩)
          · rename_i hf
            split at ha
            · cases ha
            · rename_i ls' hl
              simp only [Option.some.injEq] at ha
              subst ha
              rcases List.mem_cons.mp hx with hx | hx
              · exact Or.inr (Or.inr ⟨hm, Or.inl ⟨_, _, _, _, _, _, hx⟩⟩)
              · obtain ⟨p, hp, hq⟩ := (entryLines_mem hl x).mp hx
                exact Or.inr (Or.inr ⟨hm, Or.inr ⟨hf, _, p, hp, hq⟩⟩)
        · cases ha
  have hostKind : ∀ j i x, x ∈ hostLines c (buf j) i → (∃ d, x = .dblock i d) ∨
      (x = .sh (i + 1) (blockAt c.e (buf j) c.sector i).generation ∧ shared (blockAt c.e (buf j) c.sector i) = true) := by
    intro j i x hx
    unfold hostLines at hx
    dsimp only at hx
    rcases List.mem_append.mp hx with hx | hx
    · split at hx
      · exact Or.inl ⟨_, List.mem_singleton.mp hx⟩
      · cases hx
    · split at hx
      · rename_i hs
        exact Or.inr ⟨List.mem_singleton.mp hx, hs⟩
      · cases hx
  have deltaKind : ∀ off j i x, deltaLine c off (buf j) i = some x →
      ((leaderIn c.e ((buf j).drop (i * c.sector))).ownerId ≠ 0 ∨ (leaderIn c.e ((buf j).drop (i * c.sector))).ownerGeneration ≠ 0) ∧
      x = .delta (off + i * c.sector) (cstr (leaderIn c.e ((buf j).drop (i * c.sector))).spaceName)
        (cstr (leaderIn c.e ((buf j).drop (i * c.sector))).resourceName) (leaderIn c.e ((buf j).drop (i * c.sector))).timestamp
        (leaderIn c.e ((buf j).drop (i * c.sector))).ownerId (leaderIn c.e ((buf j).drop (i * c.sector))).ownerGeneration
        (if c.force = 0 then [] else bits c ((buf j).drop (i * c.sector))) := by
    intro off j i x hx
    unfold deltaLine at hx
    dsimp only at hx
    split at hx
    · cases hx
    · split at hx
      · cases hx
      · rename_i ho
        cases hx
        refine ⟨?_, rfl⟩
        by_cases h2 : (leaderIn c.e ((buf j).drop (i * c.sector))).ownerId = 0
        · exact Or.inr fun h3 => ho ⟨h2, h3⟩
        · exact Or.inl h2
  refine ⟨?_, ?_, ?_, ?_⟩
  · intro off sp rn ts o g v rq hx
    obtain ⟨j, hj, h1 | h1 | h1⟩ := key _ hx
    · obtain ⟨_, i, _, h2⟩ := h1
      exact nomatch (deltaKind _ _ _ _ h2).2
    · obtain ⟨hm, h2 | ⟨i, _, h2⟩⟩ := h1
      · injection h2 with a1 a2 a3 a4 a5 a6 a7
        exact ⟨j, hj, a1, hm, a2, a3, a4, a5, a6, a7⟩
      · rcases hostKind _ _ _ h2 with ⟨_, h3⟩ | ⟨h3, _⟩ <;> exact nomatch h3
    · obtain ⟨hm, ⟨_, _, _, _, _, _, h2⟩ | ⟨_, _, p, _, h2⟩⟩ := h1
      · exact nomatch h2
      · exact nomatch (entryLine_entry h2).2
  · intro off sp rn ts o g bs hx
    obtain ⟨j, hj, h1 | h1 | h1⟩ := key _ hx
    · obtain ⟨hm, i, hi, h2⟩ := h1
      obtain ⟨h3, h4⟩ := deltaKind _ _ _ _ h2
      injection h4 with a1 a2 a3 a4 a5 a6 a7
      refine ⟨j, i, hj, hi, a1, hm, a2, a3, a4, a5, a6, ?_⟩
      rw [a5, a6]; exact h3
    · obtain ⟨hm, h2 | ⟨i, _, h2⟩⟩ := h1
      · exact nomatch h2
      · rcases hostKind _ _ _ h2 with ⟨_, h3⟩ | ⟨h3, _⟩ <;> exact nomatch h3
    · obtain ⟨hm, ⟨_, _, _, _, _, _, h2⟩ | ⟨_, _, p, _, h2⟩⟩ := h1
      · exact nomatch h2
      · exact nomatch (entryLine_entry h2).2
  · intro off sp nm ro hx
    obtain ⟨j, hj, h1 | h1 | h1⟩ := key _ hx
    · obtain ⟨_, i, _, h2⟩ := h1
      exact nomatch (deltaKind _ _ _ _ h2).2
    · obtain ⟨hm, h2 | ⟨i, _, h2⟩⟩ := h1
      · exact nomatch h2
      · rcases hostKind _ _ _ h2 with ⟨_, h3⟩ | ⟨h3, _⟩ <;> exact nomatch h3
    · obtain ⟨hm, ⟨_, _, _, _, _, _, h2⟩ | ⟨hf, _, p, hp, h2⟩⟩ := h1
      · exact nomatch h2
      · obtain ⟨_, h3⟩ := entryLine_entry h2
        injection h3 with a1 a2 a3 a4
        obtain ⟨b1, b2, b3⟩ := mem_entryPos.mp hp
        exact ⟨hf, j, p.1, p.2, hj, b1, b2, b3, hm, a1, a4, a3⟩
  · intro host g hx
    obtain ⟨j, hj, h1 | h1 | h1⟩ := key _ hx
    · obtain ⟨_, i, _, h2⟩ := h1
      exact nomatch (deltaKind _ _ _ _ h2).2
    · obtain ⟨hm, h2 | ⟨i, hi, h2⟩⟩ := h1
      · exact nomatch h2
      · rcases hostKind _ _ _ h2 with ⟨_, h3⟩ | ⟨h3, h4⟩
        · exact nomatch h3
        · injection h3 with a1 a2
          refine ⟨j, i, hj, hm, hi, a1, ?_, a2⟩
          simpa [shared, blockAt] using h4
    · obtain ⟨hm, ⟨_, _, _, _, _, _, h2⟩ | ⟨_, _, p, _, h2⟩⟩ := h1
      · exact nomatch h2
      · exact nomatch (entryLine_entry h2).2

/-! ## The argument -/

theorem cut_enc {w v : List UInt8} (h : Strings.Enc w v) :
    (∀ r, cut (w ++ Strings.COLON :: r) = (w, some r)) ∧ cut w = (w, none) := by
  unfold cut
  induction h with
  | nil => exact ⟨fun r => by simp [cutAt, Strings.COLON, Strings.BACKSLASH], rfl⟩
  | plain h1 h2 _ ih =>
    refine ⟨fun r => ?_, ?_⟩
    · rw [List.cons_append, cutAt, if_neg Bool.false_ne_true, if_neg h1, if_neg h2, ih.1 r]
    · rw [cutAt, if_neg Bool.false_ne_true, if_neg h1, if_neg h2, ih.2]
  | esc _ ih =>
    refine ⟨fun r => ?_, ?_⟩
    · rw [List.cons_append, List.cons_append, cutAt, if_neg Bool.false_ne_true, if_pos rfl, cutAt, if_pos rfl, ih.1 r]
    · rw [cutAt, if_neg Bool.false_ne_true, if_pos rfl, cutAt, if_pos rfl, ih.2]

theorem atoll_dec {n : Nat} (h : n < 2 ^ 63) : atoll (Strings.dec n) = n := by
  obtain ⟨c, cs, h1, h2, h3, h4⟩ := Strings.dec_cons n
  obtain ⟨s1, s2, s3, -⟩ := Strings.digit_not_space h2 h3
  unfold atoll
  rw [h1, List.dropWhile_cons_of_neg (by simp [s1]), Strings.sign_other s2 s3, ← h1]
  simp only
  rw [Strings.dec_eq, Strings.digits_map (by omega) (Strings.digs_lt n), Strings.valOf_digs]
  simp only [Bool.false_eq_true, if_false]
  omega

theorem dec_no_M (n : Nat) : 77 ∉ Strings.dec n := by
  intro h
  have := Strings.dec_digit h
  have e : (77 : UInt8).toNat = 77 := rfl
  omega

/-- A number in decimal, or a number of MiB with an M behind it. -/
theorem number_dec {n : Nat} : (n < 2 ^ 63 → number (Strings.dec n) = n) ∧
    (n * 1048576 < 2 ^ 63 → number (Strings.dec n ++ [77]) = n * 1048576) := by
  refine ⟨fun h => ?_, fun h => ?_⟩
  · unfold number
    rw [if_neg (dec_no_M n), atoll_dec h]
  · unfold number
    rw [if_pos (by simp)]
    have : (Strings.dec n ++ [77]).takeWhile (· ≠ 77) = Strings.dec n := by
      rw [List.takeWhile_append_of_pos]
      · simp
      · intro c hc
        simp only [ne_eq, decide_not, Bool.not_eq_eq_eq_not, Bool.not_true, decide_eq_false_iff_not]
        intro e
        exact dec_no_M n (e ▸ hc)
    rw [this, atoll_dec (by omega)]
    omega

/-- The argument `path`, `path:offset` or `path:offset:size`, with a backslash before spaces and colons of the path, and numbers with or
without M. -/
theorem dump_argument {w : List UInt8} (hw : ∀ c ∈ w, c ≠ Strings.BACKSLASH) (hl : w.length < 1024) (o s : Nat) :
    parsePath (Strings.esc w) = (some w, 0, 0) ∧
    (o < 2 ^ 63 → parsePath (Strings.esc w ++ Strings.COLON :: Strings.dec o) = (some w, o, 0)) ∧
    (o < 2 ^ 63 → s < 2 ^ 63 →
      parsePath (Strings.esc w ++ Strings.COLON :: (Strings.dec o ++ Strings.COLON :: Strings.dec s)) = (some w, o, s)) ∧
    (o * 1048576 < 2 ^ 63 → s * 1048576 < 2 ^ 63 →
      parsePath (Strings.esc w ++ Strings.COLON :: ((Strings.dec o ++ [77]) ++ Strings.COLON :: (Strings.dec s ++ [77]))) =
        (some w, o * 1048576, s * 1048576)) := by
  have he := Strings.enc_esc hw
  have hi : Strings.pathImport 1024 (Strings.esc w) = some w := by
    unfold Strings.pathImport
    rw [Strings.importLoop_esc hw (by simpa using hl)]
    rfl
  have hM : Strings.Enc (Strings.dec o ++ [77]) (Strings.dec o ++ [77]) := Strings.enc_plain fun c hc => by
    rcases List.mem_append.mp hc with hc | hc
    · obtain ⟨h1, h2⟩ := Strings.dec_digit hc
      exact ⟨(Strings.digit_not_space h1 h2).2.2.2.1, (Strings.digit_not_space h1 h2).2.2.2.2.1⟩
    · simp only [List.mem_singleton] at hc
      subst hc
      decide
  refine ⟨?_, fun ho => ?_, fun ho hs => ?_, fun ho hs => ?_⟩
  · simp only [parsePath, (cut_enc he).2, hi]
  · simp only [parsePath, (cut_enc he).1, (cut_enc (Strings.enc_dec o)).2, hi, number_dec.1 ho]
  · simp only [parsePath, (cut_enc he).1, (cut_enc (Strings.enc_dec o)).1, hi, number_dec.1 ho, number_dec.1 hs]
  · simp only [parsePath, (cut_enc he).1, (cut_enc hM).1, hi, number_dec.2 ho, number_dec.2 hs]

example : (∀ c ∈ ([47, 97, 58, 51] : List UInt8), c ≠ Strings.BACKSLASH) ∧ ([47, 97, 58, 51] : List UInt8).length < 1024 := by decide

/-- A size smaller than a sector is taken as no size: the dump goes on behind it. -/
theorem dump_small_size_violated (e : Endian) (dev : Dev) (force start size gs ga fuel : Nat) (hg : gs ≠ 0 ∧ ga ≠ 0) (h : size < gs) :
    dump e dev force start size gs ga fuel = dump e dev force start 0 gs ga fuel := by
  have hg' : ¬ (gs = 0 ∨ ga = 0) := by omega
  simp only [dump, if_neg hg', Int.toNat_natCast, Nat.div_eq_of_lt h, Nat.zero_div]

/-! ## The sizes -/

theorem search_eq {e : Endian} {dev : Dev} {start size : Nat} {s a : Int} (hs : s ≠ 0) (ha : a ≠ 0) :
    ∀ (k n : Nat) (off : Nat) (gs ga : Int), (gs = 0 ∨ ga = 0) → k < n →
      (∀ i, i < k → ∃ rv, leaderSizes e dev (off + i * 1048576) = .error rv) →
      leaderSizes e dev (off + k * 1048576) = .ok (s, a) →
      (size ≠ 0 → off + k * 1048576 < start + size) → search e dev start size n off gs ga = (0, s, a) := by
  intro k
  induction k with
  | zero =>
    intro n off gs ga _ hn _ hk _
    obtain ⟨m, rfl⟩ : ∃ m, n = m + 1 := ⟨n - 1, by omega⟩
    rw [Nat.zero_mul, Nat.add_zero] at hk
    simp only [search, hk]
    rw [if_pos ⟨hs, ha⟩]
  | succ k ih =>
    intro n off gs ga hg hn he hk hsz
    obtain ⟨m, rfl⟩ : ∃ m, n = m + 1 := ⟨n - 1, by omega⟩
    obtain ⟨rv, h0⟩ := he 0 (by omega)
    rw [Nat.zero_mul, Nat.add_zero] at h0
    simp only [search, h0]
    rw [if_neg (by rintro ⟨h1, h2⟩; rcases hg with hg | hg <;> contradiction), if_neg (by
      rintro (⟨h1, h2⟩ | h1)
      · have := hsz h1
        omega
      · omega)]
    refine ih m (off + 1048576) gs ga hg (by omega) (fun i hi => ?_) ?_ (fun h => ?_)
    · have := he (i + 1) (by omega)
      rwa [show off + (i + 1) * 1048576 = off + 1048576 + i * 1048576 by omega] at this
    · rwa [show off + (k + 1) * 1048576 = off + 1048576 + k * 1048576 by omega] at hk
    · have := hsz h
      omega

/-- Without `-Z` or `-A` the sizes are those of the first host id or resource found at a whole number of MiB, and the dump is the one for
these sizes. -/
theorem dump_sizes {e : Endian} {dev : Dev} {force start size gs ga k : Nat} {b : List UInt8} (fuel : Nat)
    (hg : gs = 0 ∨ ga = 0) (hk : k < 1024) (hsz : size ≠ 0 → k * 1048576 < size)
    (hb : dev (start + k * 1048576) 4096 = .ok b)
    (hm : (leaderIn e b).magic = deltaMagic ∨ (leaderIn e b).magic = paxosMagic)
    (hsec : (leaderIn e b).sectorSize = 512 ∨ (leaderIn e b).sectorSize = 4096)
    (hno : ∀ i, i < k → match dev (start + i * 1048576) 4096 with
      | .ok b => (leaderIn e b).magic ≠ deltaMagic ∧ (leaderIn e b).magic ≠ paxosMagic
      | .error _ => True) :
    dump e dev force start size gs ga fuel =
      dump e dev force start size (leaderIn e b).sectorSize.toNat
        (if alignOfFlags (leaderIn e b).flags ≠ 0 then alignOfFlags (leaderIn e b).flags
          else if (leaderIn e b).sectorSize = 512 then 1048576 else 8388608) fuel := by
  have hsi : asInt (leaderIn e b).sectorSize = ((leaderIn e b).sectorSize.toNat : Int) := by
    rcases hsec with h | h <;> rw [h] <;> decide
  have hs0 : (leaderIn e b).sectorSize.toNat ≠ 0 := by
    rcases hsec with h | h <;> rw [h] <;> decide
  have hal : (if alignOfFlags (leaderIn e b).flags ≠ 0 then (alignOfFlags (leaderIn e b).flags : Int)
        else alignOldInt (asInt (leaderIn e b).sectorSize)) =
      ((if alignOfFlags (leaderIn e b).flags ≠ 0 then alignOfFlags (leaderIn e b).flags
          else if (leaderIn e b).sectorSize = 512 then 1048576 else 8388608 : Nat) : Int) := by
    split
    · rfl
    · rcases hsec with h | h <;> rw [h] <;> decide
  have hal0 : (if alignOfFlags (leaderIn e b).flags ≠ 0 then alignOfFlags (leaderIn e b).flags
          else if (leaderIn e b).sectorSize = 512 then 1048576 else 8388608 : Nat) ≠ 0 := by
    split
    · assumption
    · split <;> exact nofun
  have hsearch := search_eq (e := e) (dev := dev) (start := start) (size := size)
    (s := ((leaderIn e b).sectorSize.toNat : Int))
    (a := ((if alignOfFlags (leaderIn e b).flags ≠ 0 then alignOfFlags (leaderIn e b).flags
          else if (leaderIn e b).sectorSize = 512 then 1048576 else 8388608 : Nat) : Int))
    (by omega) (by omega) k 1024 start gs ga (by omega) hk
    (fun i hi => by
      have := hno i hi
      unfold leaderSizes
      rw [readSectors_ok (Or.inr rfl)]
      cases hd : dev (start + i * 1048576) 4096 with
      | error rv => exact ⟨rv, rfl⟩
      | ok b' =>
        rw [hd] at this
        refine ⟨-1, ?_⟩
        dsimp only
        rw [if_neg]
        rintro (h | h)
        · exact this.1 h
        · exact this.2 h)
    (by
      unfold leaderSizes
      rw [readSectors_ok (Or.inr rfl), hb]
      dsimp only
      rw [if_pos hm, ← hal, hsi])
    (fun h => by have := hsz h; omega)
  have hg' : ¬ ((leaderIn e b).sectorSize.toNat = 0 ∨ (if alignOfFlags (leaderIn e b).flags ≠ 0 then alignOfFlags (leaderIn e b).flags
          else if (leaderIn e b).sectorSize = 512 then 1048576 else 8388608 : Nat) = 0) := by
    rintro (h | h)
    · exact hs0 h
    · exact hal0 h
  simp only [dump, if_pos hg, if_neg hg', hsearch]

/-! ## next_free -/

theorem freeLoop_sound {e : Endian} {dev : Dev} {sector count base : Nat} : ∀ {fuel nr m}, freeLoop e dev sector count base fuel nr = some m →
    ∃ k, m = (nr + k * count) * sector ∧
      (∀ i, i < k → ∃ b, readSectors dev sector (base + (nr + i * count) * sector) sector = .ok b ∧
        ((leaderIn e b).magic = deltaMagic ∨ (leaderIn e b).magic = paxosMagic ∨ (leaderIn e b).magic = rindexMagic) ∨
        ∃ rv, readSectors dev sector (base + (nr + i * count) * sector) sector = .error rv ∧ sector < 4) ∧
      ∀ b, readSectors dev sector (base + m) sector = .ok b →
        (leaderIn e b).magic ≠ deltaMagic ∧ (leaderIn e b).magic ≠ paxosMagic ∧ (leaderIn e b).magic ≠ rindexMagic := by
  intro fuel
  induction fuel with
  | zero => intro nr m h; simp [freeLoop] at h
  | succ fuel ih =>
    intro nr m h
    rw [freeLoop] at h
    split at h
    · rename_i hm
      simp only [Option.some.injEq] at h
      subst h
      refine ⟨0, by simp, by omega, ?_⟩
      intro b hb
      unfold sectorOrZero at hm
      rw [hb] at hm
      exact hm
    · rename_i hm
      obtain ⟨k, h1, h2, h3⟩ := ih h
      refine ⟨k + 1, ?_, ?_, h3⟩
      · rw [h1, Nat.add_mul k 1 count, Nat.one_mul]
        congr 1
        omega
      · intro i hi
        cases i with
        | zero =>
          rw [Nat.zero_mul, Nat.add_zero]
          cases hr : readSectors dev sector (base + nr * sector) sector with
          | ok b =>
            unfold sectorOrZero at hm
            rw [hr] at hm
            dsimp only at hm
            refine ⟨b, Or.inl ⟨rfl, ?_⟩⟩
            by_cases a1 : (leaderIn e b).magic = deltaMagic
            · exact Or.inl a1
            · by_cases a2 : (leaderIn e b).magic = paxosMagic
              · exact Or.inr (Or.inl a2)
              · by_cases a3 : (leaderIn e b).magic = rindexMagic
                · exact Or.inr (Or.inr a3)
                · exact absurd ⟨a1, a2, a3⟩ hm
          | error rv =>
            refine ⟨[], Or.inr ⟨rv, rfl, ?_⟩⟩
            apply Classical.byContradiction
            intro h4
            unfold sectorOrZero at hm
            rw [hr] at hm
            dsimp only at hm
            apply hm
            have : (leaderIn e (List.replicate sector 0)).magic = 0 := by
              show UInt32.ofNat (getField e 0 4 _) = 0
              have : getField e 0 4 (List.replicate sector 0) = 0 := by
                unfold getField
                rw [List.drop_zero, List.take_replicate, Nat.min_eq_left (by omega)]
                cases e <;> decide
              rw [this]; rfl
            rw [this]
            decide
        | succ i =>
          have := h2 i (by omega)
          rwa [show nr + count + i * count = nr + (i + 1) * count by rw [Nat.add_mul, Nat.one_mul]; omega] at this

/-- With both sizes given, no offset in the path and no failing read: the number printed is the offset of an area that holds no record,
and every area before it holds one. -/
theorem next_free_partial {e : Endian} {dev : Dev} {gs ga fuel m : Nat} (hs : gs = 512 ∨ gs = 4096) (hm : ga % gs = 0)
    (h : nextFree e dev 0 gs ga fuel = .printed m) :
    ∃ k, m = k * ga ∧
      (∀ i, i < k → ∃ b, dev (i * ga) gs = .ok b ∧
        ((leaderIn e b).magic = deltaMagic ∨ (leaderIn e b).magic = paxosMagic ∨ (leaderIn e b).magic = rindexMagic)) ∧
      ∀ b, dev m gs = .ok b →
        (leaderIn e b).magic ≠ deltaMagic ∧ (leaderIn e b).magic ≠ paxosMagic ∧ (leaderIn e b).magic ≠ rindexMagic := by
  unfold nextFree at h
  split at h
  · cases h
  · split at h
    · rename_i r hr
      cases h
      obtain ⟨k, h1, h2, h3⟩ := freeLoop_sound hr
      have hd : ga / gs * gs = ga := Nat.div_mul_cancel (Nat.dvd_of_mod_eq_zero hm)
      have hd' : ∀ i, (0 + i * (ga / gs)) * gs = i * ga := fun i => by rw [Nat.zero_add, Nat.mul_assoc, hd]
      refine ⟨k, by rw [h1, hd'], ?_, ?_⟩
      · intro i hi
        obtain ⟨b, hb⟩ := h2 i hi
        rw [readSectors_ok hs, hd', Nat.zero_add] at hb
        rcases hb with hb | ⟨_, _, hb⟩
        · exact ⟨b, hb⟩
        · omega
      · intro b hb
        apply h3
        rw [readSectors_ok hs, Nat.zero_add]
        exact hb
    · cases h

/-! ## release, release_id -/

/-- release never writes to a resource that has an owner. -/
theorem release_writes_nothing (sum : Leader → UInt32) (l again : Leader) (now : UInt64) (h : again.ownerId ≠ 0) (r : Leader) :
    release sum (.ok l) (.ok again) now ≠ .ok r := by
  unfold release Acquire.release
  dsimp only
  intro hr
  split at hr
  · cases hr
  · split at hr
    · cases hr
    · split at hr
      · cases hr
      · split at hr
        · cases hr
        · rename_i h4
          exact h4 (Or.inl h)

/-- A resource that any host has acquired: the command reports success, and the lease stays as it is. -/
theorem release_violated (sum : Leader → UInt32) (l again : Leader) (now : UInt64) (h : again.writeId ≠ 0) :
    release sum (.ok l) (.ok again) now = .error 0 := by
  unfold release Acquire.release
  dsimp only
  rw [if_pos h]

/-- release_id frees the host id whatever host has it: the timestamp is 0 and the other fields but the checksum are as read. -/
theorem release_id_frees (sum : Leader → UInt32) (l : Leader) :
    ∃ r, releaseId sum (.ok l) = .ok r ∧ r.timestamp = 0 ∧ r.ownerId = l.ownerId ∧ r.ownerGeneration = l.ownerGeneration ∧
      r.spaceName = l.spaceName ∧ r.resourceName = l.resourceName ∧ r.magic = l.magic ∧ r.version = l.version :=
  ⟨_, rfl, rfl, rfl, rfl, rfl, rfl, rfl, rfl⟩

/-! ## read_leader, write_leader -/

/-- read_leader shows the record on the disk, also if it does not pass the verification. -/
theorem read_leader_shows (e : Endian) (space : List UInt8) (want : Want) (zero : Leader) (l : Leader) (ck : UInt32) (rest : List UInt8) :
    (readDelta e space zero (.ok (leaderOut e l ck ++ rest))).2 = { l with checksum := ck } ∧
    (readPaxos e want (.ok (leaderOut e l ck ++ rest))).2 = some { l with checksum := ck } := by
  have h := leader_roundtrip e e l ck rest
  exact ⟨h, congrArg some h⟩

/-- For a resource whose record cannot be read, what is printed was never set. -/
theorem read_leader_violated (e : Endian) (want : Want) (rv : Int) : (readPaxos e want (.error rv)).2 = none := rfl

theorem fold_field {β : Type} (get : Leader → β) (pick : SetField → Option β)
    (h : ∀ s f, get (apply s f).1 = (pick f).getD (get s.1)) (fs : List SetField) :
    ∀ s : Leader × UInt32, get (fs.foldl apply s).1 = ((fs.filterMap pick).getLast?).getD (get s.1) := by
  induction fs with
  | nil => intro s; rfl
  | cons f fs ih =>
    intro s
    rw [List.foldl_cons, ih, h]
    cases hp : pick f with
    | none => simp [hp]
    | some v =>
      rw [List.filterMap_cons_some hp, List.getLast?_cons]
      simp

/-- The record written for a host id (read succeeded): owner, generation, timestamp, version and names are those in the file, the last one
counting, or else those on the disk. -/
theorem write_leader_fields (e : Endian) (force : Bool) (space : List UInt8) (zero : Leader) (l : Leader) (ck : UInt32) (rest : List UInt8)
    (fs : List SetField) :
    let w := leaderIn e (writeDelta e force space zero (.ok (leaderOut e l ck ++ rest)) fs)
    w.ownerId = ((fs.filterMap fun | .ownerId v => some v | _ => none).getLast?).getD l.ownerId ∧
    w.ownerGeneration = ((fs.filterMap fun | .ownerGeneration v => some v | _ => none).getLast?).getD l.ownerGeneration ∧
    w.timestamp = ((fs.filterMap fun | .timestamp v => some v | _ => none).getLast?).getD l.timestamp ∧
    w.spaceName = ((fs.filterMap fun | .spaceName v => some v | _ => none).getLast?).getD l.spaceName ∧
    w.resourceName = ((fs.filterMap fun | .resourceName v => some v | _ => none).getLast?).getD l.resourceName ∧
    w.magic = ((fs.filterMap fun | .magic v => some v | _ => none).getLast?).getD l.magic ∧
    w.writeId = ((fs.filterMap fun | .writeId v => some v | _ => none).getLast?).getD l.writeId ∧
    w.unused1 = l.unused1 := by
  intro w
  have hw : w = { fileLeader e force { l with checksum := ck } fs with
      checksum := (fileLeader e force { l with checksum := ck } fs).checksum } := by
    have h1 := (read_leader_shows e space ⟨[], [], 0⟩ zero l ck rest).1
    show leaderIn e (clobberDelta e (fileLeader e force (readDelta e space zero (.ok (leaderOut e l ck ++ rest))).2 fs)) = _
    rw [h1]
    have := leader_roundtrip e e (fileLeader e force { l with checksum := ck } fs) (fileLeader e force { l with checksum := ck } fs).checksum []
    rw [List.append_nil] at this
    exact this
  rw [hw]
  refine ⟨?_, ?_, ?_, ?_, ?_, ?_, ?_, ?_⟩
  · exact fold_field (·.ownerId) _ (fun s f => by cases f <;> rfl) fs _
  · exact fold_field (·.ownerGeneration) _ (fun s f => by cases f <;> rfl) fs _
  · exact fold_field (·.timestamp) _ (fun s f => by cases f <;> rfl) fs _
  · exact fold_field (·.spaceName) _ (fun s f => by cases f <;> rfl) fs _
  · exact fold_field (·.resourceName) _ (fun s f => by cases f <;> rfl) fs _
  · exact fold_field (·.magic) _ (fun s f => by cases f <;> rfl) fs _
  · exact fold_field (·.writeId) _ (fun s f => by cases f <;> rfl) fs _
  · have := fold_field (·.unused1) (fun _ => none) (fun s f => by cases f <;> rfl) fs ({ l with checksum := ck }, 0)
    have hn : fs.filterMap (fun _ => (none : Option UInt64)) = [] := by simp
    rw [hn] at this
    exact this

theorem nativeHead_little (l : Leader) : nativeHead .little l = leaderHead .little l := rfl

/-- On a little endian host, without `-f`, the record written for a host id has a good checksum. -/
theorem write_leader_valid_partial (space : List UInt8) (zero : Leader) (disk : Except Int (List UInt8)) (fs : List SetField) :
    leaderChecksumOk .little (writeDelta .little false space zero disk fs) = true := by
  unfold leaderChecksumOk writeDelta clobberDelta
  generalize hL : fileLeader .little false (readDelta .little space zero disk).2 fs = L
  have h1 : L.checksum = leaderChecksum (leaderHead .little L) := by
    rw [← hL]
    rfl
  have h2 := leader_roundtrip .little .little L L.checksum []
  rw [List.append_nil] at h2
  rw [h2]
  show (L.checksum == leaderChecksum (leaderOut .little L L.checksum)) = true
  have h3 : leaderChecksum (leaderOut .little L L.checksum) = leaderChecksum (leaderHead .little L) := by
    unfold leaderChecksum leaderOut
    have hlen : (leaderHead .little L).length = 168 := by
      simp [leaderHead, L.spaceName.len, L.resourceName.len]
    rw [List.take_append_of_le_length (by omega)]
  rw [h3, ← h1]
  exact beq_self_eq_true _

/-- The record written for a resource has a good checksum on any host. -/
theorem write_leader_resource_valid (e : Endian) (force : Bool) (want : Want) (junk : Leader) (disk : Except Int (List UInt8))
    (fs : List SetField) : leaderChecksumOk e (writePaxos e force want junk disk fs) = true := by
  unfold leaderChecksumOk writePaxos clobberPaxos
  generalize fileLeader e force ((readPaxos e want disk).2.getD junk) fs = L
  have h2 := leader_roundtrip e e L (leaderChecksum (leaderHead e L)) []
  rw [List.append_nil] at h2
  rw [h2]
  show (leaderChecksum (leaderHead e L) == leaderChecksum (leaderOut e L (leaderChecksum (leaderHead e L)))) = true
  have h3 : leaderChecksum (leaderOut e L (leaderChecksum (leaderHead e L))) = leaderChecksum (leaderHead e L) := by
    generalize hk : leaderChecksum (leaderHead e L) = k
    rw [← hk]
    unfold leaderChecksum leaderOut
    have hlen : (leaderHead e L).length = 168 := by
      simp [leaderHead, L.spaceName.len, L.resourceName.len]
    rw [List.take_append_of_le_length (by omega)]
  rw [h3]
  exact beq_self_eq_true _

/-! ## Examples and violations -/

/-- The name `s`, padded with zeros. -/
def nm (s : List UInt8) : Name := ⟨(s ++ List.replicate 48 0).take 48, by simp⟩

/-- A record. -/
def rec0 (magic : UInt32) (num owner ts : UInt64) : Leader :=
  ⟨magic, 0x60004, 0x10, 512, num, 2000, owner, 1, 3, nm [76, 83], nm [82], ts, 0, 0, 0, 10, owner, 1, ts⟩

/-- `b` and zeros up to 1 MiB. -/
def pad (b : List UInt8) : List UInt8 := b ++ List.replicate (1048576 - b.length) 0

/-- A resource with 3 hosts, held shared by host 2. -/
def resArea (ts : UInt64) : List UInt8 :=
  pad (leaderOut .little (rec0 paxosMagic 3 1 ts) 0 ++ List.replicate 824 0 ++ List.replicate 640 0 ++ modeBlockOut .little ⟨1, 7⟩)

/-- A host id area with host 1. -/
def idArea : List UInt8 := pad (leaderOut .little (rec0 deltaMagic 0 1 100) 0)

/-- An index with one entry. -/
def indexArea (name : Name) : List UInt8 :=
  pad (rindexHeaderOut .little ⟨rindexMagic, 1, 1, 512, 100, 0, 0x100000, nm [76, 83]⟩ ++ List.replicate 432 0 ++
    rindexEntryOut .little ⟨0x200000, 0, 0, name⟩)

/-- A device with three areas: host ids, an index and a resource. -/
def dev3 : Dev := fun off _ =>
  if off = 0 then .ok idArea else if off = 1048576 then .ok (indexArea (nm [82])) else if off = 2097152 then .ok (resArea 100) else .error (-5)

/-- The areas of `dev3`. -/
def buf3 : Nat → List UInt8 := fun j => if j = 0 then idArea else if j = 1 then indexArea (nm [82]) else resArea 100

/-- `dev3` meets the conditions of the theorems about the dump. -/
example : Span ⟨.little, 512, 1048576, 0⟩ dev3 0 0 3 buf3 where
  sector := Or.inl rfl
  mult := by decide
  room := by decide
  read := by
    intro j hj
    have : j = 0 ∨ j = 1 ∨ j = 2 := by omega
    rcases this with rfl | rfl | rfl <;> rfl
  hosts := by
    intro j hj
    have : j = 0 ∨ j = 1 ∨ j = 2 := by omega
    rcases this with rfl | rfl | rfl <;> decide +kernel
  names := fun h => absurd rfl h
  range := by
    right
    refine ⟨rfl, ?_, ?_⟩
    · intro j hj
      have : j = 0 ∨ j = 1 ∨ j = 2 := by omega
      rcases this with rfl | rfl | rfl <;> decide +kernel
    · trivial

/-- The lines of the index and the resource of `dev3`. -/
example : dump .little dev3 0 1048576 2097152 512 1048576 5 =
    .done 0 [.header 1048576 [76, 83] 1 512 100 0x100000, .paxos 2097152 [76, 83] [82] 100 1 1 3 none, .sh 2 7] := by decide +kernel

/-- The sizes are found in the second MiB if the first holds an index. -/
example : dump .little dev3 0 1048576 2097152 0 0 5 =
    .done 0 [.header 1048576 [76, 83] 1 512 100 0x100000, .paxos 2097152 [76, 83] [82] 100 1 1 3 none, .sh 2 7] := by decide +kernel

/-- A device with resources in the first and the third area; the second cannot be read. -/
def devBad : Dev := fun off _ =>
  if off = 0 then .ok (resArea 0) else if off = 2097152 then .ok (resArea 100) else .error (-5)

/-- An area that cannot be read ends the dump, with success: a held lease behind it is not shown.  With a size, the area is left out, also
with success. -/
theorem dump_read_error_violated :
    devBad 1048576 1048576 = .error (-5) ∧
    (∃ b, devBad 2097152 1048576 = .ok b ∧ (leaderIn .little b).magic = paxosMagic ∧ (leaderIn .little b).timestamp ≠ 0) ∧
    dump .little devBad 0 0 0 512 1048576 9 = .done 0 [.paxos 0 [76, 83] [82] 0 1 1 3 none, .sh 2 7] ∧
    dump .little devBad 0 0 3145728 512 1048576 9 =
      .done 0 [.paxos 0 [76, 83] [82] 0 1 1 3 none, .sh 2 7, .paxos 2097152 [76, 83] [82] 100 1 1 3 none, .sh 2 7] := by
  refine ⟨rfl, ⟨resArea 100, rfl, ?_, ?_⟩, ?_, ?_⟩ <;> decide +kernel

/-- A record that says more hosts than its area has room for makes the dump read outside of its buffer. -/
theorem dump_hosts_violated :
    dump .little (fun _ _ => .ok (pad (leaderOut .little (rec0 paxosMagic 4000 1 100) 0))) 0 0 0 512 1048576 9 = .outside := by
  decide +kernel

/-- So does, with `-f`, an index with a name of 48 characters. -/
theorem dump_name_violated :
    dump .little (fun _ _ => .ok (indexArea ⟨List.replicate 48 65, by decide⟩)) 1 0 0 512 1048576 9 = .outside := by
  decide +kernel

/-- And, if the sizes are not given, a record that says a sector is larger than its area. -/
theorem dump_sector_violated :
    dump .little (fun _ _ => .ok (pad (leaderOut .little { rec0 paxosMagic 1 1 100 with sectorSize := 0x40000000 } 0))) 0 0 0 0 0 9 =
      .outside := by
  decide +kernel

/-- next_free on a device whose first area is in use and whose second is not. -/
example : nextFree .little (fun off _ => if off = 1048576 then .ok (pad []) else .ok (resArea 0)) 0 512 1048576 5 = .printed 1048576 := by
  decide +kernel

/-- If the first area cannot be read, it is printed as free although the rest of it may be in use. -/
theorem next_free_read_violated (rv : Int) : nextFree .little (fun _ _ => .error rv) 0 512 1048576 1 = .printed 0 := by
  have : ((leaderIn .little (List.replicate 512 0)).magic ≠ deltaMagic ∧ (leaderIn .little (List.replicate 512 0)).magic ≠ paxosMagic ∧
      (leaderIn .little (List.replicate 512 0)).magic ≠ rindexMagic) := by decide +kernel
  have h2 : freeLoop .little (fun _ _ => .error rv) 512 (1048576 / 512) 0 1 0 = some 0 := by
    rw [freeLoop, sectorOrZero, readSectors_ok (Or.inl rfl)]
    dsimp only
    rw [if_pos this, Nat.zero_mul]
  unfold nextFree
  rw [if_neg (by decide), h2]

/-- With an offset in the path the number printed is counted from there: here the area at that number from the start of the device, 0, is in
use, and the free one is at 1048576. -/
theorem next_free_offset_violated :
    ∃ dev : Dev, nextFree .little dev 1048576 512 1048576 5 = .printed 0 ∧
      ∃ b, dev 0 512 = .ok b ∧ (leaderIn .little b).magic = paxosMagic ∧ (leaderIn .little b).timestamp ≠ 0 :=
  ⟨fun off _ => if off = 0 then .ok (resArea 100) else .ok (pad []), by decide +kernel, resArea 100, rfl, by decide +kernel, by decide +kernel⟩

/-- Without `-Z` or without `-A` a variable is used that was not set. -/
theorem next_free_sizes_violated (e : Endian) (dev : Dev) (base gs ga fuel : Nat) (h : gs = 0 ∨ ga = 0) :
    nextFree e dev base gs ga fuel = .undefined := by
  unfold nextFree
  rw [if_pos h]

/-- A held lease meets the conditions of `release_violated` and `release_writes_nothing`. -/
example : (rec0 paxosMagic 3 1 100).writeId ≠ 0 ∧ (rec0 paxosMagic 3 1 100).ownerId ≠ 0 ∧ (rec0 paxosMagic 3 1 100).timestamp ≠ 0 := by
  decide

/-- On a big endian host the record written for a host id has a wrong checksum. -/
theorem write_leader_endian_violated :
    leaderChecksumOk .big (writeDelta .big false [76, 83] (rec0 0 0 0 0) (.ok (leaderOut .big (rec0 deltaMagic 0 1 100) 0)) []) = false := by
  decide +kernel

/-- With `-f` the checksum in the file is not used for a resource. -/
theorem write_leader_force_violated :
    (leaderIn .little (writePaxos .little true ⟨[], [], 0⟩ (rec0 0 0 0 0) (.ok (leaderOut .little (rec0 paxosMagic 3 1 100) 0)) [.checksum 5])).checksum
      ≠ 5 := by
  decide +kernel

/-- If the record of a resource cannot be read, fields not in the file are written from memory that was never set. -/
theorem write_leader_unread_violated (e : Endian) (force : Bool) (want : Want) (rv : Int) (junk : Leader) :
    (leaderIn e (writePaxos e force want junk (.error rv) [])).ownerId = junk.ownerId := by
  have h2 := leader_roundtrip e e (fileLeader e force junk []) (leaderChecksum (leaderHead e (fileLeader e force junk []))) []
  rw [List.append_nil] at h2
  show (leaderIn e (clobberPaxos e (fileLeader e force junk []))).ownerId = _
  unfold clobberPaxos
  rw [h2]
  rfl

/-- Freeing a host id with a file. -/
example : (leaderIn .little (writeDelta .little false [76, 83] (rec0 0 0 0 0) (.ok (leaderOut .little (rec0 deltaMagic 0 1 100) 0))
    [.timestamp 7, .timestamp 0])).timestamp = 0 := by decide +kernel

end Sanlock.Direct
