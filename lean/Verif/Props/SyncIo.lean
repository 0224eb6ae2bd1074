import Verif.Lemmas.SyncIo

/-!
# C71: sectors are read and written completely, for every behaviour of the kernel
-/

namespace Sanlock.SyncIo

theorem getD_pad (data : List UInt8) (n i : Nat) : (data ++ List.replicate n 0).getD i 0 = data.getD i 0 := by
  simp only [List.getD_eq_getElem?_getD, List.getElem?_append]
  split
  · rfl
  · rename_i h
    rw [List.getElem?_eq_none (l := data) (by omega), List.getElem?_replicate]
    split <;> rfl

theorem put_take (d : Dev) (a m : Nat) (buf : List UInt8) (hm : m ≤ buf.length) (i : Nat) :
    put d a (buf.take m) i = if a ≤ i ∧ i < a + m then buf.getD (i - a) 0 else d i := by
  unfold put
  have : (buf.take m).length = m := by simp; omega
  rw [this]
  split
  · simp only [List.getD_eq_getElem?_getD]
    rw [List.getElem?_take, if_pos (by omega)]
  · rfl

theorem doWrite_spec (f : File) (off : Nat) (hoff : off < 2 ^ 63) (buf : List UInt8) (seek : Bool) (as : List Ans) :
    ∃ m ≤ buf.length, (∀ i, (doWrite f off buf seek as).2.dev i =
        if off ≤ i ∧ i < off + m then buf.getD (i - off) 0 else f.dev i) ∧
      (doWrite f off buf seek as).2.size = f.size ∧
      ((doWrite f off buf seek as).1 = none ∨ (doWrite f off buf seek as).1 = some (-1) ∨
        ((doWrite f off buf seek as).1 = some 0 ∧ m = buf.length)) := by
  unfold doWrite lseek
  cases seek with
  | false =>
    have : ((2 : Nat) ^ 64 - 1 ≠ off) := by omega
    simp only [Bool.false_eq_true, false_and, if_false, if_pos this]
    refine ⟨0, Nat.zero_le _, fun i => by rw [if_neg (by omega)], ?_, ?_⟩ <;> simp
  | true =>
    simp only [true_and, if_pos hoff, ne_eq, not_true, if_false]
    obtain ⟨m, -, h2, h3, h4, h5⟩ := writeLoop_spec buf f.dev off as 0 buf.length { f with pos := off } (by omega) rfl
      (by simp [put_nil])
    refine ⟨m, h2, fun i => ?_, h4, h5⟩
    rw [h3, put_take _ _ _ _ h2]

/-- C71.  Whatever the kernel answers: writing a sector changes no byte outside of it; at every moment, also when the host crashes or
the write fails, some first part of the sector has the new bytes and the rest the old ones; a result of 0 means that the
whole sector has been written, the data first and then zeros. -/
theorem write_sector (f : File) (diskOff nr : Nat) (ss : Int) (data : List UInt8) (mem seek : Bool) (as : List Ans)
    (hoff : diskOff + nr * ss.toNat < 2 ^ 63) :
    (∀ i, ¬ (diskOff + nr * ss.toNat ≤ i ∧ i < diskOff + nr * ss.toNat + ss.toNat) →
      (writeSector f diskOff ss nr data mem seek as).2.dev i = f.dev i) ∧
    (∃ m ≤ ss.toNat, ∀ i < ss.toNat, (writeSector f diskOff ss nr data mem seek as).2.dev (diskOff + nr * ss.toNat + i) =
      if i < m then data.getD i 0 else f.dev (diskOff + nr * ss.toNat + i)) ∧
    ((writeSector f diskOff ss nr data mem seek as).1 = some 0 →
      (ss = 512 ∨ ss = 4096) ∧ (data.length : Int) ≤ ss ∧
      ∀ i < ss.toNat, (writeSector f diskOff ss nr data mem seek as).2.dev (diskOff + nr * ss.toNat + i) = data.getD i 0) ∧
    (∀ v, (writeSector f diskOff ss nr data mem seek as).1 = some v → v ≤ 0) := by
  have none' : ∀ v : Int, v < 0 → (∀ i, ¬ (diskOff + nr * ss.toNat ≤ i ∧ i < diskOff + nr * ss.toNat + ss.toNat) →
      ((some v, f) : Option Int × File).2.dev i = f.dev i) ∧
    (∃ m ≤ ss.toNat, ∀ i < ss.toNat, ((some v, f) : Option Int × File).2.dev (diskOff + nr * ss.toNat + i) =
      if i < m then data.getD i 0 else f.dev (diskOff + nr * ss.toNat + i)) ∧
    (((some v, f) : Option Int × File).1 = some 0 →
      (ss = 512 ∨ ss = 4096) ∧ (data.length : Int) ≤ ss ∧
      ∀ i < ss.toNat, ((some v, f) : Option Int × File).2.dev (diskOff + nr * ss.toNat + i) = data.getD i 0) ∧
    (∀ w, ((some v, f) : Option Int × File).1 = some w → w ≤ 0) := by
    intro v hv
    refine ⟨fun _ _ => rfl, ⟨0, Nat.zero_le _, fun i _ => by rw [if_neg (by omega)]⟩, fun e => ?_, fun w e => ?_⟩
    · have : v = 0 := by simpa using e
      omega
    · have : v = w := by simpa using e
      omega
  unfold writeSector
  split
  · exact none' (-22) (by omega)
  · rename_i h1
    split
    · exact none' (-1) (by omega)
    · rename_i h2
      unfold writeSectors'
      split
      · have ha : address diskOff nr ss.toNat = diskOff + nr * ss.toNat := Nat.mod_eq_of_lt (by omega)
        rw [ha]
        have hl : (data ++ List.replicate (ss.toNat - data.length) 0).length = ss.toNat := by simp; omega
        obtain ⟨m, hm, hd, -, hr⟩ := doWrite_spec f (diskOff + nr * ss.toNat) hoff
          (data ++ List.replicate (ss.toNat - data.length) 0) seek as
        rw [hl] at hm hr
        generalize doWrite f (diskOff + nr * ss.toNat) (data ++ List.replicate (ss.toNat - data.length) 0) seek as = r at hd hr ⊢
        refine ⟨fun i hi => ?_, ⟨m, hm, fun i hi => ?_⟩, fun e => ⟨by omega, by omega, fun i hi => ?_⟩, fun v e => ?_⟩
        · rw [hd, if_neg (by omega)]
        · rw [hd, getD_pad]
          have : diskOff + nr * ss.toNat + i - (diskOff + nr * ss.toNat) = i := by omega
          rw [this]
          by_cases c : i < m
          · rw [if_pos c, if_pos (by omega)]
          · rw [if_neg c, if_neg (by omega)]
        · have hmm : m = ss.toNat := by
            rcases hr with h | h | h
            · rw [e] at h; cases h
            · rw [e] at h; simp at h
            · exact h.2
          rw [hd, getD_pad, if_pos (by omega)]
          congr 1
          omega
        · rcases hr with h | h | h <;> rw [e] at h
          · cases h
          · have : v = -1 := by simpa using h
            omega
          · have : v = 0 := by simpa using h.1
            omega
      · exact none' (-12) (by omega)

example : ((writeSector ⟨fun _ => 7, 4096, 0⟩ 0 512 2 [1, 2, 3] true true [.eintr, .n 100, .n 0, .n 412]).1 = some 0) := by
  decide +kernel

/-- C71.  Writing one sector leaves what any other sector of the disk holds. -/
theorem other_sector (f : File) (diskOff nr nr' : Nat) (ss : Int) (data : List UInt8) (mem seek : Bool) (as : List Ans)
    (hoff : diskOff + nr * ss.toNat < 2 ^ 63) (hn : nr' ≠ nr) :
    get (writeSector f diskOff ss nr data mem seek as).2.dev (diskOff + nr' * ss.toNat) ss.toNat =
      get f.dev (diskOff + nr' * ss.toNat) ss.toNat := by
  unfold get
  apply List.map_congr_left
  intro i hi
  have hi := List.mem_range.1 hi
  apply (write_sector f diskOff nr ss data mem seek as hoff).1
  rcases Nat.lt_or_gt_of_ne hn with h | h
  · have : (nr' + 1) * ss.toNat ≤ nr * ss.toNat := Nat.mul_le_mul_right _ h
    rw [Nat.add_mul] at this
    omega
  · have : (nr + 1) * ss.toNat ≤ nr' * ss.toNat := Nat.mul_le_mul_right _ h
    rw [Nat.add_mul] at this
    omega

/-- C71.  If the kernel moves whole sectors or nothing, a sector is at every moment old or new, never a mixture: this is
what leader records and ballot blocks depend on.  A write that is reported as failed has changed nothing. -/
theorem write_sector_atomic_partial (f : File) (diskOff nr : Nat) (ss : Int) (data : List UInt8) (mem seek : Bool) (as : List Ans)
    (hoff : diskOff + nr * ss.toNat < 2 ^ 63) (hk : ∀ k, .n k ∈ as → k = 0 ∨ ss.toNat ≤ k) :
    (writeSector f diskOff ss nr data mem seek as).2.dev = f.dev ∨
    ((writeSector f diskOff ss nr data mem seek as).1 = some 0 ∧
      ∀ i < ss.toNat, (writeSector f diskOff ss nr data mem seek as).2.dev (diskOff + nr * ss.toNat + i) = data.getD i 0) := by
  have key : ∀ (buf : List UInt8) (as : List Ans) (g : File), (∀ k, .n k ∈ as → k = 0 ∨ buf.length ≤ k) →
      (writeLoop buf as 0 buf.length g).2.dev = g.dev ∨ (writeLoop buf as 0 buf.length g).1 = some 0 := by
    intro buf as
    induction as with
    | nil => intro g _; exact .inl rfl
    | cons a as ih =>
      intro g hk
      cases a with
      | eintr => exact ih g fun k h => hk k (List.mem_cons_of_mem _ h)
      | err => exact .inl rfl
      | n k =>
        simp only [writeLoop]
        split
        · rename_i hne
          have h0 : min k buf.length = 0 := by
            rcases hk k (List.mem_cons_self ..) with h | h <;> omega
          have := ih (sysWrite g (List.take 0 (buf.drop 0))) fun k h => hk k (List.mem_cons_of_mem _ h)
          rw [h0]
          simpa [sysWrite, put_nil] using this
        · exact .inr rfl
  have h0 := write_sector f diskOff nr ss data mem seek as hoff
  by_cases hz : (writeSector f diskOff ss nr data mem seek as).1 = some 0
  · exact .inr ⟨hz, (h0.2.2.1 hz).2.2⟩
  · left
    revert hz
    unfold writeSector
    split
    · intro _; rfl
    · split
      · intro _; rfl
      · unfold writeSectors'
        split
        · have hl : (data ++ List.replicate (ss.toNat - data.length) 0).length = ss.toNat := by simp; omega
          unfold doWrite
          simp only
          split
          · intro _
            unfold lseek
            split <;> rfl
          · intro hz
            have e : ∀ b, (lseek f (address diskOff nr ss.toNat) b).2.dev = f.dev := by
              intro b; unfold lseek; split <;> rfl
            rcases key (data ++ List.replicate (ss.toNat - data.length) 0) as
              (lseek f (address diskOff nr ss.toNat) seek).2 (by rw [hl]; exact hk) with h | h
            · rw [h, e]
            · exact absurd h hz
        · intro _; rfl

example : (∀ k, Ans.n k ∈ [.eintr, .n 0, .n 512] → k = 0 ∨ (512 : Int).toNat ≤ k) ∧
    (writeSector ⟨fun _ => 7, 4096, 0⟩ 0 512 2 [1, 2, 3] true true [.eintr, .n 0, .n 512]).1 = some 0 := by
  refine ⟨fun k hk => ?_, by decide +kernel⟩
  simp at hk
  rcases hk with h | h <;> simp [h]

/-- C71, violated.  A short write is continued (`src/diskio.c:419-427`): if the continuation fails, or the host crashes before it, the
sector holds neither the old nor the new record. -/
theorem torn_violated :
    let f := (writeSector ⟨fun _ => 7, 4096, 0⟩ 0 512 2 (List.replicate 512 1) true true [.n 256, .err])
    f.1 = some (-1) ∧ f.2.dev 1024 = 1 ∧ f.2.dev 1535 = 7 := by
  decide +kernel

/-- C71.  A write comes to an end: it cannot go on after an error or after as many answers that move something as there are bytes. -/
theorem write_ends_partial (f : File) (off : Nat) (buf : List UInt8) (seek : Bool) (as : List Ans) (h0 : buf ≠ [])
    (h : buf.length ≤ moves as ∨ .err ∈ as) : (doWrite f off buf seek as).1 ≠ none := by
  unfold doWrite
  simp only
  split
  · simp
  · exact writeLoop_ends buf as 0 buf.length _ (List.length_pos_iff.2 h0) h

example : ([1, 2] : List UInt8).length ≤ moves [.n 1, .eintr, .n 5] := by decide

/-- C71, violated.  Answers of 0 are not errors: as long as they come the call goes on without doing anything
(`src/diskio.c:423-427`), so a renewal or a release never returns. -/
theorem write_zero_violated (f : File) (off : Nat) (hoff : off < 2 ^ 63) (buf : List UInt8) (h0 : buf ≠ []) (n : Nat) :
    (doWrite f off buf true (List.replicate n (.n 0))).1 = none ∧
    (doWrite f off buf true (List.replicate n (.n 0))).2.dev = f.dev := by
  unfold doWrite lseek
  simp only [true_and, if_pos hoff, ne_eq, not_true, if_false]
  have hlen : 0 < buf.length := List.length_pos_iff.2 h0
  have : ∀ (n : Nat) (g : File), (writeLoop buf (List.replicate n (.n 0)) 0 buf.length g).1 = none ∧
      (writeLoop buf (List.replicate n (.n 0)) 0 buf.length g).2.dev = g.dev := by
    intro n
    induction n with
    | zero => intro g; exact ⟨rfl, rfl⟩
    | succ n ih =>
      intro g
      simp only [List.replicate_succ, writeLoop, Nat.zero_min]
      rw [if_pos (by omega)]
      have := ih (sysWrite g (List.take 0 (buf.drop 0)))
      simpa [sysWrite, put_nil] using this
  exact this n _

/-- C71, violated.  The offset 2^64-1, which `lseek` refuses with -1, is taken for a seek that worked (`src/diskio.c:400-401` compares
-1 with the unsigned offset): the data goes to wherever the descriptor stands, after an open to the beginning of the device. -/
theorem seek_violated (f : File) (buf : List UInt8) (seek : Bool) :
    doWrite f (2 ^ 64 - 1) buf seek [.n buf.length] =
      (some 0, { f with dev := put f.dev f.pos buf, pos := f.pos + buf.length }) := by
  unfold doWrite lseek
  have : ¬ ((2 : Nat) ^ 64 - 1 < 2 ^ 63) := by omega
  simp only [this, and_false, if_false, ne_eq, not_true, writeLoop, Nat.min_self, sysWrite, List.drop_zero, List.take_length]

/-- C71.  Writing several sectors: as for one. -/
theorem write_sectors (f : File) (diskOff nr count : Nat) (ss : Int) (data : List UInt8) (mem seek : Bool) (as : List Ans)
    (hoff : diskOff + nr * ss.toNat < 2 ^ 63) (hlen : data.length < 2 ^ 31) (hc : count * ss.toNat < 2 ^ 32) :
    (∀ i, ¬ (diskOff + nr * ss.toNat ≤ i ∧ i < diskOff + (nr + count) * ss.toNat) →
      (writeSectors f diskOff ss nr count data mem seek as).2.dev i = f.dev i) ∧
    ((writeSectors f diskOff ss nr count data mem seek as).1 = some 0 →
      data.length = count * ss.toNat ∧
      get (writeSectors f diskOff ss nr count data mem seek as).2.dev (diskOff + nr * ss.toNat) data.length = data) := by
  unfold writeSectors
  split
  · exact ⟨fun _ _ => rfl, fun e => by simp at e⟩
  · split
    · exact ⟨fun _ _ => rfl, fun e => by simp at e⟩
    · rename_i h1 h2
      have hl : data.length = count * ss.toNat := by
        rw [Nat.mod_eq_of_lt (by omega), Nat.mod_eq_of_lt hc] at h2
        omega
      unfold writeSectors'
      split
      · have ha : address diskOff nr ss.toNat = diskOff + nr * ss.toNat := Nat.mod_eq_of_lt (by omega)
        have hp : data ++ List.replicate (data.length - data.length) 0 = data := by simp
        rw [ha, hp]
        obtain ⟨m, hm, hd, -, hr⟩ := doWrite_spec f (diskOff + nr * ss.toNat) hoff data seek as
        generalize doWrite f (diskOff + nr * ss.toNat) data seek as = r at hd hr ⊢
        rw [Nat.add_mul]
        refine ⟨fun i hi => ?_, fun e => ⟨hl, ?_⟩⟩
        · rw [hd, if_neg (by omega)]
        · have hmm : m = data.length := by
            rcases hr with h | h | h
            · rw [e] at h; cases h
            · rw [e] at h; simp at h
            · exact h.2
          apply List.ext_getElem
          · simp [get]
          · intro i h1 h2
            simp only [get, List.getElem_map, List.getElem_range]
            rw [hd, if_pos (by omega), List.getD_eq_getElem?_getD]
            have : diskOff + nr * ss.toNat + i - (diskOff + nr * ss.toNat) = i := by omega
            rw [this, List.getElem?_eq_getElem h2]
            rfl
      · exact ⟨fun _ _ => rfl, fun e => by simp at e⟩

example : (writeSectors ⟨fun _ => 7, 4096, 0⟩ 0 512 2 2 (List.replicate 1024 1) true true [.n 512, .n 512]).1 = some 0 := by
  decide +kernel

/-- C71.  A result of 0 from reading sectors means that the bytes given to the caller are those of the device, all of them inside of
it.  Otherwise the caller is given nothing. -/
theorem read_sectors (f : File) (diskOff nr count dataLen : Nat) (ss : Int) (mem seek : Bool) (as : List Ans)
    (hoff : diskOff + nr * ss.toNat < 2 ^ 63) (hd : dataLen ≤ count * ss.toNat) :
    (∃ r, (readSectors f diskOff ss nr count dataLen mem seek as) = (r, none) ∧ r ≠ some 0) ∨
    (readSectors f diskOff ss nr count dataLen mem seek as =
        (some 0, some (get f.dev (diskOff + nr * ss.toNat) dataLen)) ∧
      (0 < count → diskOff + (nr + count) * ss.toNat ≤ f.size)) := by
  unfold readSectors
  split
  · exact .inl ⟨_, rfl, by simp⟩
  · rename_i hss
    split
    · have ha : address diskOff nr ss.toNat = diskOff + nr * ss.toNat := Nat.mod_eq_of_lt (by omega)
      rw [ha]
      generalize hq : doRead f (diskOff + nr * ss.toNat) (List.replicate (count * ss.toNat) 0) seek as = q
      have hspec : q.1 = none ∨ q.1 = some (-1) ∨ (q.1 = some 0 ∧ q.2 = get f.dev (diskOff + nr * ss.toNat) (count * ss.toNat) ∧
          (0 < count * ss.toNat → diskOff + nr * ss.toNat + count * ss.toNat ≤ f.size)) := by
        rw [← hq]
        unfold doRead
        simp only
        split
        · exact .inr (.inl rfl)
        · rename_i hs
          have e : (lseek f (diskOff + nr * ss.toNat) seek).2 = { f with pos := diskOff + nr * ss.toNat } := by
            unfold lseek at hs ⊢
            split
            · rfl
            · rename_i h3
              rw [if_neg h3] at hs
              simp only at hs
              omega
          rw [e, List.length_replicate]
          exact readLoop_spec (count * ss.toNat) (diskOff + nr * ss.toNat) as 0 _ { f with pos := diskOff + nr * ss.toNat }
            (by simp) (Nat.zero_le _) rfl rfl (fun h => absurd h (by omega))
      obtain ⟨q1, q2⟩ := q
      simp only at hspec
      rcases hspec with h | h | ⟨h1, h2, h3⟩
      · subst h; exact .inl ⟨_, rfl, by simp⟩
      · subst h; exact .inl ⟨_, rfl, by simp⟩
      · subst h1 h2
        refine .inr ⟨?_, fun hc => ?_⟩
        · have e : count * ss.toNat = dataLen + (count * ss.toNat - dataLen) := by omega
          have e2 : (get f.dev (diskOff + nr * ss.toNat) (count * ss.toNat)).take dataLen =
              get f.dev (diskOff + nr * ss.toNat) dataLen := by
            rw [e, ← get_append]
            exact List.take_left' (length_get ..)
          simp only [e2]
        · have : 0 < count * ss.toNat := Nat.mul_pos hc (by omega)
          rw [Nat.add_mul]
          have := h3 this
          omega
    · exact .inl ⟨_, rfl, by simp⟩

/-- C71.  A read of sectors that are on the device succeeds when there is memory and the kernel does not fail, however few
bytes it moves at a time and however often it is interrupted. -/
theorem read_succeeds (f : File) (diskOff nr count dataLen : Nat) (ss : Int) (as : List Ans)
    (hss : ss = 512 ∨ ss = 4096) (hoff : diskOff + nr * ss.toNat < 2 ^ 63) (hd : dataLen ≤ count * ss.toNat)
    (hin : diskOff + (nr + count) * ss.toNat ≤ f.size)
    (has : ∀ a ∈ as, a = .eintr ∨ ∃ k, a = .n k ∧ 0 < k) (hm : count * ss.toNat ≤ moves as) :
    readSectors f diskOff ss nr count dataLen true true as = (some 0, some (get f.dev (diskOff + nr * ss.toNat) dataLen)) := by
  rcases read_sectors f diskOff nr count dataLen ss true true as hoff hd with ⟨r, h1, h2⟩ | h
  · exfalso
    revert h1
    unfold readSectors
    rw [if_neg (by omega)]
    have ha : address diskOff nr ss.toNat = diskOff + nr * ss.toNat := Nat.mod_eq_of_lt (by omega)
    simp only [if_true, ha]
    have : (doRead f (diskOff + nr * ss.toNat) (List.replicate (count * ss.toNat) 0) true as).1 = some 0 := by
      unfold doRead lseek
      simp only [true_and, if_pos hoff, ne_eq, not_true, if_false, List.length_replicate]
      rw [Nat.add_mul] at hin
      exact readLoop_ends _ (diskOff + nr * ss.toNat) as 0 _ _ (Nat.zero_le _) rfl (by simp only; omega) has (by omega)
    generalize doRead f (diskOff + nr * ss.toNat) (List.replicate (count * ss.toNat) 0) true as = q at this ⊢
    obtain ⟨q1, q2⟩ := q
    simp only at this
    subst this
    simp
  · exact h.1

example : (readSectors ⟨fun i => UInt8.ofNat i, 2048, 0⟩ 512 512 1 1 4 true true [.eintr, .n 300, .n 212]) =
    (some 0, some [0, 1, 2, 3]) := by
  decide +kernel

/-- C71.  What was written is what is read, with zeros behind it. -/
theorem write_read (f : File) (diskOff nr dataLen : Nat) (ss : Int) (data : List UInt8) (mem seek mem' seek' : Bool) (as bs : List Ans)
    (hoff : diskOff + nr * ss.toNat < 2 ^ 63) (hd : dataLen ≤ ss.toNat)
    (hw : (writeSector f diskOff ss nr data mem seek as).1 = some 0) {got : List UInt8}
    (hr : readSectors (writeSector f diskOff ss nr data mem seek as).2 diskOff ss nr 1 dataLen mem' seek' bs = (some 0, some got)) :
    got = (data ++ List.replicate (ss.toNat - data.length) 0).take dataLen := by
  have h1 := (write_sector f diskOff nr ss data mem seek as hoff).2.2.1 hw
  rcases read_sectors (writeSector f diskOff ss nr data mem seek as).2 diskOff nr 1 dataLen ss mem' seek' bs hoff (by omega) with
    ⟨r, h, hne⟩ | ⟨h, -⟩
  · rw [h] at hr
    cases hr
  · rw [h] at hr
    simp only [Prod.mk.injEq, Option.some.injEq, true_and] at hr
    rw [← hr]
    apply List.ext_getElem
    · simp [length_get]; omega
    · intro i h2 h3
      have hi : i < dataLen := by simpa [length_get] using h2
      simp only [get, List.getElem_map, List.getElem_range]
      rw [h1.2.2 i (by omega), ← getD_pad data (ss.toNat - data.length), List.getElem_take, List.getD_eq_getElem?_getD,
        List.getElem?_eq_getElem]
      rfl

end Sanlock.SyncIo
