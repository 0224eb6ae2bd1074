import Verif.FenceOpts

/-!
# C77: options for the fencing daemon
-/

namespace Sanlock.FenceOpts

open Config (Str str cstr isSpace atoi decInt decInt_char decInt_ne atoi_decInt)

theorem words_blank (n : Nat) (r : Str) : words n (32 :: r) = words n r := by
  cases n with
  | zero => rfl
  | succ n =>
    unfold words
    have : (32 :: r).dropWhile isSpace = r.dropWhile isSpace := rfl
    rw [this]

theorem take_word {w : Str} (hw : ∀ c ∈ w, isSpace c = false) (r : Str) :
    (w ++ 32 :: r).takeWhile (fun c => !isSpace c) = w ∧ (w ++ 32 :: r).dropWhile (fun c => !isSpace c) = 32 :: r := by
  induction w with
  | nil => exact ⟨rfl, rfl⟩
  | cons c t ih =>
    have hc := hw c List.mem_cons_self
    obtain ⟨a, b⟩ := ih fun d hd => hw d (List.mem_cons_of_mem _ hd)
    rw [List.cons_append, List.takeWhile_cons, List.dropWhile_cons, if_pos (by rw [hc]; rfl), if_pos (by rw [hc]; rfl), a, b]
    exact ⟨rfl, rfl⟩

theorem take_last {w : Str} (hw : ∀ c ∈ w, isSpace c = false) :
    w.takeWhile (fun c => !isSpace c) = w ∧ w.dropWhile (fun c => !isSpace c) = [] := by
  induction w with
  | nil => exact ⟨rfl, rfl⟩
  | cons c t ih =>
    have hc := hw c List.mem_cons_self
    obtain ⟨a, b⟩ := ih fun d hd => hw d (List.mem_cons_of_mem _ hd)
    rw [List.takeWhile_cons, List.dropWhile_cons, if_pos (by rw [hc]; rfl), if_pos (by rw [hc]; rfl), a, b]
    exact ⟨rfl, rfl⟩

theorem words_word {w : Str} (h0 : w ≠ []) (hw : ∀ c ∈ w, isSpace c = false) (n : Nat) (r : Str) :
    words (n + 1) (w ++ 32 :: r) = w :: words n r := by
  cases w with
  | nil => exact absurd rfl h0
  | cons c t =>
    have hd : ((c :: t) ++ 32 :: r).dropWhile isSpace = (c :: t) ++ 32 :: r := by
      rw [List.cons_append, List.dropWhile_cons, if_neg (by rw [hw c List.mem_cons_self]; exact Bool.false_ne_true)]
    show (if _ = [] then _ else _) = _
    rw [hd, if_neg (by simp), (take_word hw r).1, (take_word hw r).2, words_blank]

theorem words_last {w : Str} (h0 : w ≠ []) (hw : ∀ c ∈ w, isSpace c = false) : words 1 w = [w] := by
  cases w with
  | nil => exact absurd rfl h0
  | cons c t =>
    have hd : (c :: t).dropWhile isSpace = c :: t := by
      rw [List.dropWhile_cons, if_neg (by rw [hw c List.mem_cons_self]; exact Bool.false_ne_true)]
    show (if _ = [] then _ else _) = _
    rw [hd, if_neg (by simp), (take_last hw).1]
    rfl

theorem words_short (s : Str) : ∀ n, (words n s).length ≤ n := by
  intro n
  induction n generalizing s with
  | zero => exact Nat.le_refl 0
  | succ n ih =>
    unfold words
    dsimp only
    split
    · exact Nat.zero_le _
    · exact Nat.succ_le_succ (ih _)

/-- Words have no blanks and are not empty, and are not longer than the line. -/
theorem words_ok (n : Nat) : ∀ s : Str, ∀ w ∈ words n s, w ≠ [] ∧ (∀ c ∈ w, c ∈ s ∧ isSpace c = false) ∧ w.length ≤ s.length := by
  induction n with
  | zero => intro s w hw; exact nomatch hw
  | succ n ih =>
    intro s w hw
    unfold words at hw
    dsimp only at hw
    have hsub : ∀ {c}, c ∈ s.dropWhile isSpace → c ∈ s := fun hc => (List.dropWhile_sublist _).subset hc
    split at hw
    · exact nomatch hw
    · next hne =>
      rcases List.mem_cons.mp hw with e | hw
      · subst e
        refine ⟨?_, fun c hc => ⟨hsub ((List.takeWhile_sublist _).subset hc), ?_⟩, ?_⟩
        · cases hs : s.dropWhile isSpace with
          | nil => exact absurd hs hne
          | cons a t =>
            have : isSpace a = false := by
              have := List.head_dropWhile_not (l := s) isSpace (by rw [hs]; simp)
              simp only [hs, List.head_cons] at this
              exact this
            rw [List.takeWhile_cons, if_pos (by rw [this]; rfl)]
            simp
        · have := List.all_takeWhile (p := fun c => !isSpace c) (l := s.dropWhile isSpace)
          rw [List.all_eq_true] at this
          have := this c hc
          rwa [Bool.not_eq_true'] at this
        · exact Nat.le_trans (List.takeWhile_sublist _).length_le (List.dropWhile_sublist _).length_le
      · obtain ⟨a, b, c⟩ := ih _ w hw
        exact ⟨a, fun x hx => ⟨hsub ((List.dropWhile_sublist _).subset (b x hx).1), (b x hx).2⟩,
          Nat.le_trans c (Nat.le_trans (List.dropWhile_sublist _).length_le (List.dropWhile_sublist _).length_le)⟩

theorem cstr_zeros {s : Str} (h : ∀ c ∈ s, c ≠ 0) (n : Nat) : cstr (s ++ List.replicate n 0) = s := by
  unfold cstr
  induction s with
  | nil => cases n <;> rfl
  | cons c t ih =>
    rw [List.cons_append, List.takeWhile_cons, if_pos (decide_eq_true (h c List.mem_cons_self)),
      ih fun d hd => h d (List.mem_cons_of_mem _ hd)]

theorem padded_len (s : Str) : (padded s).length = 4096 := by
  have : (s.take 4094).length ≤ 4094 := by rw [List.length_take]; omega
  unfold padded
  rw [List.length_append, List.length_replicate]
  omega

theorem padded_zero (s : Str) : 0 ∈ padded s := by
  have : (s.take 4094).length ≤ 4094 := by rw [List.length_take]; omega
  exact List.mem_append.mpr (.inr (List.mem_replicate.mpr ⟨by omega, rfl⟩))

theorem padded_take (s more : Str) : (padded s ++ more).take 4096 = padded s := List.take_left' (padded_len s)

/-- The daemon reads exactly the first line written. -/
theorem wait_line {s : Str} (h : ∀ c ∈ s, c ≠ 0) (more : Str) : wait (padded s ++ more) = options (words 4 (s.take 4094)) := by
  unfold wait
  dsimp only
  rw [padded_take, if_neg (fun hh => hh.2 (padded_zero s))]
  unfold padded
  rw [cstr_zeros fun c hc => h c ((List.take_sublist _ _).subset hc)]

theorem send_line {path id : Str} (hl : path.length < 4096) (h0 : path ≠ []) (h1 : atoi id ≤ 128) (h2 : atoi id ≠ 0) :
    send path id = .line (padded (str "-p " ++ (path ++ (str " -i " ++ decInt (atoi id))))) := by
  unfold send
  rw [if_neg (by omega), if_neg (by omega), if_neg (fun h => h.elim h2 h0)]

theorem options_ok {path id : Str} (h1 : atoi id ≤ 128) (h2 : atoi id ≠ 0) (hl : path.length ≤ 4095) :
    options [str "-p", path, str "-i", id] = .start path (atoi id) := by
  unfold options
  dsimp only
  rw [if_neg (by rintro (h | h) <;> exact h rfl), if_neg (by omega), List.take_of_length_le hl]

theorem short_dec {k : Nat} (h : k ≤ 128) : (decInt (k : Int)).length ≤ 3 :=
  (by decide +kernel : ∀ k < 129, (decInt ((k : Nat) : Int)).length ≤ 3) k (by omega)

theorem lens : (str "-p ").length = 3 ∧ (str " -i ").length = 4 := by decide

theorem dec_blank (n : Int) : ∀ c ∈ decInt n, isSpace c = false := by
  intro c hc
  have := decInt_char n c hc
  simp [isSpace]
  omega

theorem dec_zero (n : Int) : ∀ c ∈ decInt n, c ≠ 0 := by
  intro c hc
  have := decInt_char n c hc
  omega

theorem words_line {path w : Str} (h0 : path ≠ []) (hp : ∀ c ∈ path, isSpace c = false) (hw0 : w ≠ []) (hw : ∀ c ∈ w, isSpace c = false) :
    words 4 (str "-p " ++ (path ++ (str " -i " ++ w))) = [str "-p", path, str "-i", w] := by
  have e : str "-p " ++ (path ++ (str " -i " ++ w)) = str "-p" ++ 32 :: (path ++ 32 :: (str "-i" ++ 32 :: w)) := by
    have e1 : str "-p " = str "-p" ++ [32] := by decide
    have e2 : str " -i " = 32 :: (str "-i" ++ [32]) := by decide
    rw [e1, e2]
    simp only [List.append_assoc, List.cons_append, List.nil_append]
  rw [e, words_word (by decide) (by decide), words_word h0 hp, words_word (by decide) (by decide), words_last hw0 hw]

theorem line_chars {path : Str} (hz : ∀ c ∈ path, c ≠ 0) (n : Int) : ∀ c ∈ str "-p " ++ (path ++ (str " -i " ++ decInt n)), c ≠ 0 := by
  intro c hc
  rcases List.mem_append.mp hc with h | h
  · exact (by decide : ∀ c ∈ str "-p ", c ≠ 0) c h
  · rcases List.mem_append.mp h with h | h
    · exact hz c h
    · rcases List.mem_append.mp h with h | h
      · exact (by decide : ∀ c ∈ str " -i ", c ≠ 0) c h
      · exact dec_zero n c h

/-- **C77.**  A path without blanks and a host id from 1 to 128 arrive at the waiting daemon as they were given, whatever other
senders write afterwards. -/
theorem passes_partial {path : Str} {id : Nat} (h0 : path ≠ []) (hl : path.length ≤ 4084) (hz : ∀ c ∈ path, c ≠ 0)
    (hp : ∀ c ∈ path, isSpace c = false) (h1 : 1 ≤ id) (h2 : id ≤ 128) :
    ∃ line, send path (decInt id) = .line line ∧ ∀ more, wait (line ++ more) = .start path id := by
  have ha : atoi (decInt id) = id := atoi_decInt (by omega) (by omega)
  have hd := short_dec h2
  refine ⟨_, send_line (by omega) h0 (by omega) (by omega), fun more => ?_⟩
  rw [ha, wait_line (line_chars hz id) more, List.take_of_length_le (by
    have := lens; simp only [List.length_append]; omega), words_line h0 hp (decInt_ne _) (dec_blank _),
    options_ok (by omega) (by omega) (by omega), ha]

/-- The daemon then uses this path and host id, and the lease at this position, if the path has less than 1024 bytes. -/
theorem used_partial {path : Str} {id align : Nat} (hl : path.length < 1024) (h2 : id ≤ 128) (ha : align ≤ 8388608) :
    use align path id = some ⟨path, id, id * align⟩ := by
  have hm : id * align ≤ 128 * 8388608 := Nat.mul_le_mul h2 ha
  unfold use
  rw [if_neg (by omega)]
  have e1 : ((id : Int) % 2 ^ 64).toNat = id := by omega
  have e2 : (Int.bmod ((id : Int) * (align : Int)) 4294967296 % 2 ^ 64).toNat = id * align := by
    rw [← Int.natCast_mul]
    generalize id * align = m at hm
    rw [Int.bmod_def]
    split <;> omega
  rw [e1, e2]

/-- The sender refuses a host id of 0 or above 128 and an empty path, and nothing else. -/
theorem refuses {path id : Str} (hl : path.length < 4096) : send path id = .refused ↔ 128 < atoi id ∨ atoi id = 0 ∨ path = [] := by
  unfold send
  rw [if_neg (by omega)]
  by_cases h1 : atoi id > 128
  · rw [if_pos h1]; exact ⟨fun _ => .inl h1, fun _ => rfl⟩
  rw [if_neg h1]
  by_cases h2 : atoi id = 0 ∨ path = []
  · rw [if_pos h2]; exact ⟨fun _ => .inr h2, fun _ => rfl⟩
  rw [if_neg h2]
  exact ⟨fun h => (nomatch h), fun h => absurd h (fun h => h.elim h1 h2)⟩

/-- No path and no host id make the waiting daemon read outside of the line. -/
theorem terminated {path id line : Str} (h : send path id = .line line) (more : Str) : line.length = 4096 ∧ wait (line ++ more) ≠ .overrun := by
  have : ∃ s, line = padded s := by
    unfold send at h
    split at h
    · exact nomatch h
    · split at h
      · exact nomatch h
      · split at h
        · exact nomatch h
        · injection h with h
          exact ⟨_, h.symm⟩
  obtain ⟨s, rfl⟩ := this
  refine ⟨padded_len s, ?_⟩
  unfold wait
  dsimp only
  rw [padded_take, if_neg (fun hh => hh.2 (padded_zero s))]
  unfold options
  repeat' split
  all_goals exact fun h => (nomatch h)

/-- Whatever is written into the FIFO, the daemon goes on only with a path that is not empty and has no blanks, and with a host id
that is not 0 and at most 128. -/
theorem starts_partial {pipe path : Str} {id : Int} (h : wait pipe = .start path id) :
    path ≠ [] ∧ path.length < 4096 ∧ (∀ c ∈ path, c ∈ pipe ∧ isSpace c = false) ∧ id ≠ 0 ∧ id ≤ 128 := by
  unfold wait at h
  dsimp only at h
  split at h
  · exact nomatch h
  · unfold options at h
    split at h
    · next k1 v1 k2 v2 hw =>
      split at h
      · exact nomatch h
      · split at h
        · exact nomatch h
        · next h3 =>
          injection h with hp hi
          obtain ⟨a, b, c⟩ := words_ok 4 (cstr (pipe.take 4096)) v1 (by rw [hw]; simp)
          subst hp hi
          refine ⟨?_, ?_, fun x hx => ?_, fun h => h3 (.inl h), ?_⟩
          · cases v1 with
            | nil => exact absurd rfl a
            | cons x t => simp
          · rw [List.length_take]; omega
          · obtain ⟨p, q⟩ := b x ((List.take_sublist _ _).subset hx)
            exact ⟨(List.take_sublist _ _).subset ((List.takeWhile_sublist _).subset p), q⟩
          · have := fun h => h3 (.inr h)
            omega
    · exact nomatch h

theorem words_split {n : Nat} {s w : Str} {ws : List Str} (h : words (n + 1) s = w :: ws) :
    ∃ b r, s = b ++ (w ++ r) ∧ (∀ c ∈ b, isSpace c = true) ∧ (∀ c ∈ r.head?, isSpace c = true) ∧ words n r = ws := by
  unfold words at h
  dsimp only at h
  split at h
  · exact nomatch h
  · injection h with h1 h2
    refine ⟨s.takeWhile isSpace, _, ?_, ?_, ?_, h2⟩
    · rw [← h1, List.takeWhile_append_dropWhile, List.takeWhile_append_dropWhile]
    · have := List.all_takeWhile (p := isSpace) (l := s)
      rwa [List.all_eq_true] at this
    · intro c hc
      have := List.head?_dropWhile_not (fun c => !isSpace c) (s.dropWhile isSpace)
      rw [Option.mem_def.mp hc] at this
      simpa using this

/-- The next word is separated by at least one blank. -/
theorem words_next {n : Nat} {s w : Str} {ws : List Str} (hs : ∀ c ∈ s.head?, isSpace c = true) (h : words (n + 1) s = w :: ws) :
    ∃ b r, s = b ++ (w ++ r) ∧ b ≠ [] ∧ (∀ c ∈ b, isSpace c = true) ∧ (∀ c ∈ r.head?, isSpace c = true) ∧ words n r = ws := by
  obtain ⟨b, r, h1, h2, h3, h4⟩ := words_split h
  refine ⟨b, r, h1, ?_, h2, h3, h4⟩
  rintro rfl
  obtain ⟨a, b, _⟩ := words_ok (n + 1) s w (by rw [h]; exact List.mem_cons_self)
  cases w with
  | nil => exact a rfl
  | cons c t =>
    have e1 := hs c (by rw [h1]; rfl)
    have e2 := (b c List.mem_cons_self).2
    rw [e1] at e2
    exact absurd e2 (by decide)

/-- Whatever is written into the FIFO, the daemon goes on only if it begins with `-p`, the path, `-i` and the number, separated by blanks. -/
theorem starts_text {pipe path : Str} {id : Int} (h : wait pipe = .start path id) :
    ∃ b0 b1 b2 b3 v r, pipe = b0 ++ (str "-p" ++ (b1 ++ (path ++ (b2 ++ (str "-i" ++ (b3 ++ (v ++ r))))))) ∧ id = atoi v ∧
      (∀ c ∈ b0 ++ (b1 ++ (b2 ++ b3)), isSpace c = true) ∧ b1 ≠ [] ∧ b2 ≠ [] ∧ b3 ≠ [] ∧ v ≠ [] ∧ (∀ c ∈ v, isSpace c = false) := by
  have hpre : ∃ r, pipe = cstr (pipe.take 4096) ++ r := by
    refine ⟨(pipe.take 4096).dropWhile (· ≠ 0) ++ pipe.drop 4096, ?_⟩
    unfold cstr
    rw [← List.append_assoc, List.takeWhile_append_dropWhile, List.take_append_drop]
  have hlen : (cstr (pipe.take 4096)).length ≤ 4096 :=
    Nat.le_trans (List.takeWhile_sublist _).length_le (by rw [List.length_take]; omega)
  unfold wait at h
  dsimp only at h
  generalize cstr (pipe.take 4096) = s at h hpre hlen
  split at h
  · exact nomatch h
  · unfold options at h
    split at h
    · next k1 v1 k2 v2 hw =>
      split at h
      · exact nomatch h
      · next hk =>
        split at h
        · exact nomatch h
        · injection h with hp hi
          have hk1 : k1 = str "-p" := Classical.byContradiction fun h => hk (.inl h)
          have hk2 : k2 = str "-i" := Classical.byContradiction fun h => hk (.inr h)
          obtain ⟨r, hr⟩ := hpre
          obtain ⟨hv0, hv1, _⟩ := words_ok 4 s v2 (by rw [hw]; simp)
          obtain ⟨b0, r0, e0, f0, g0, w0⟩ := words_split hw
          obtain ⟨b1, r1, e1, n1, f1, g1, w1⟩ := words_next g0 w0
          obtain ⟨b2, r2, e2, n2, f2, g2, w2⟩ := words_next g1 w1
          obtain ⟨b3, r3, e3, n3, f3, g3, w3⟩ := words_next g2 w2
          have hpath : v1 = path := by
            rw [← hp, List.take_of_length_le]
            rw [e0, e1, hk1] at hlen
            simp only [List.length_append] at hlen
            have : (str "-p").length = 2 := by decide
            omega
          subst hpath hi hk1 hk2
          refine ⟨b0, b1, b2, b3, v2, r3 ++ r, ?_, rfl, ?_, n1, n2, n3, hv0, fun c hc => (hv1 c hc).2⟩
          · rw [hr, e0, e1, e2, e3]
            simp only [List.append_assoc]
          · intro c hc
            simp only [List.mem_append] at hc
            rcases hc with h | h | h | h
            · exact f0 c h
            · exact f1 c h
            · exact f2 c h
            · exact f3 c h
    · exact nomatch h

/-! ## Violations -/

/-- A path with a blank: the agent is told that all is well, and the daemon uses another path and another host id.  Here for every
path `p` and every host id `j`, whatever was given with `-i`. -/
theorem blank_violated {p : Str} {id j : Nat} (h0 : p ≠ []) (hl : p.length ≤ 1000) (hz : ∀ c ∈ p, c ≠ 0) (hp : ∀ c ∈ p, isSpace c = false)
    (h1 : 1 ≤ id) (h2 : id ≤ 128) (j1 : 1 ≤ j) (j2 : j ≤ 128) :
    ∃ line, send (p ++ (str " -i " ++ decInt j)) (decInt id) = .line line ∧ wait line = .start p j := by
  have ha : atoi (decInt id) = id := atoi_decInt (by omega) (by omega)
  have haj : atoi (decInt j) = j := atoi_decInt (by omega) (by omega)
  have hd1 := short_dec h2
  have hd2 := short_dec j2
  have hlen := lens
  have hch : ∀ c ∈ p ++ (str " -i " ++ decInt (j : Int)), c ≠ 0 := by
    intro c hc
    exact line_chars hz j c (List.mem_append.mpr (.inr hc))
  refine ⟨_, send_line (by simp only [List.length_append]; omega) (fun h => h0 (List.append_eq_nil_iff.mp h).1) (by omega) (by omega), ?_⟩
  have := wait_line (line_chars hch id) []
  rw [List.append_nil] at this
  rw [ha, this, List.take_of_length_le (by simp only [List.length_append]; omega)]
  have e : str "-p " ++ (p ++ (str " -i " ++ decInt (j : Int)) ++ (str " -i " ++ decInt (id : Int))) =
      str "-p" ++ 32 :: (p ++ 32 :: (str "-i" ++ 32 :: (decInt (j : Int) ++ 32 :: (str "-i " ++ decInt (id : Int))))) := by
    have e1 : str "-p " = str "-p" ++ [32] := by decide
    have e2 : str " -i " = 32 :: (str "-i" ++ [32]) := by decide
    have e3 : str "-i " = str "-i" ++ [32] := by decide
    rw [e1, e2, e3]
    simp only [List.append_assoc, List.cons_append, List.nil_append]
  rw [e, words_word (by decide) (by decide), words_word h0 hp, words_word (by decide) (by decide), words_word (decInt_ne _) (dec_blank _)]
  show options [str "-p", p, str "-i", decInt (j : Int)] = _
  rw [options_ok (by omega) (by omega) (by omega), haj]

/-- A long path: the number behind it is cut.  Host 12 becomes host 1, for every path of 4086 bytes. -/
theorem long_violated {p : Str} (hl : p.length = 4086) (hz : ∀ c ∈ p, c ≠ 0) (hp : ∀ c ∈ p, isSpace c = false) :
    ∃ line, send p (str "12") = .line line ∧ wait line = .start p 1 := by
  have h0 : p ≠ [] := by rintro rfl; exact absurd hl (by decide)
  have ha : atoi (str "12") = 12 := by decide +kernel
  refine ⟨_, send_line (by omega) h0 (by rw [ha]; decide) (by rw [ha]; decide), ?_⟩
  have := wait_line (line_chars hz 12) []
  rw [List.append_nil] at this
  rw [ha, this]
  have e : str "-p " ++ (p ++ (str " -i " ++ decInt 12)) = (str "-p " ++ (p ++ (str " -i " ++ str "1"))) ++ str "2" := by
    have : decInt 12 = str "1" ++ str "2" := by decide +kernel
    rw [this]
    simp only [List.append_assoc]
  have h1 : (str "1").length = 1 := by decide
  have hlen := lens
  rw [e, List.take_left' (by simp only [List.length_append]; omega), words_line h0 hp (by decide) (by decide),
    options_ok (by decide +kernel) (by decide +kernel) (by omega)]
  congr 1

/-- A path of 1024 bytes or more is passed on, and the daemon writes outside of its structure. -/
theorem overrun_violated {p : Str} {id align : Nat} (h0 : 1024 ≤ p.length) (hl : p.length ≤ 4084) (hz : ∀ c ∈ p, c ≠ 0)
    (hp : ∀ c ∈ p, isSpace c = false) (h1 : 1 ≤ id) (h2 : id ≤ 128) :
    ∃ line, send p (decInt id) = .line line ∧ wait line = .start p id ∧ use align p id = none := by
  obtain ⟨line, a, b⟩ := passes_partial (by rintro rfl; exact absurd h0 (by decide)) hl hz hp h1 h2
  have := b []
  rw [List.append_nil] at this
  exact ⟨line, a, this, by unfold use; rw [if_pos h0]⟩

/-- A negative host id is accepted on both sides; the daemon joins with a host id above 2^63 and reads the lease before the beginning
of the disk. -/
theorem negative_violated : ∃ line, send (str "/dev/x") (str "-3") = .line line ∧ wait line = .start (str "/dev/x") (-3) ∧
    use 1048576 (str "/dev/x") (-3) = some ⟨str "/dev/x", 18446744073709551613, 18446744073706405888⟩ := by
  have ha : atoi (str "-3") = -3 := by decide +kernel
  refine ⟨_, send_line (by decide) (by decide) (by rw [ha]; decide) (by rw [ha]; decide), ?_, by decide +kernel⟩
  have := wait_line (line_chars (path := str "/dev/x") (by decide) (-3)) []
  rw [List.append_nil] at this
  rw [ha, this, List.take_of_length_le (by decide +kernel), words_line (by decide) (by decide) (decInt_ne _) (dec_blank _)]
  have hb : atoi (decInt (-3)) = -3 := by decide +kernel
  rw [options_ok (by rw [hb]; decide) (by rw [hb]; decide) (by decide), hb]

/-! ## Examples -/

/-- `passes_partial`: the options arrive although a second sender has written others. -/
example : ∃ line, send (str "/dev/fence/leases") (decInt (17 : Nat)) = .line line ∧
    ∀ more, wait (line ++ more) = .start (str "/dev/fence/leases") 17 :=
  passes_partial (by decide) (by decide) (by decide) (by decide) (by decide) (by decide)

example : use 1048576 (str "/dev/x") ((17 : Nat) : Int) = some ⟨str "/dev/x", 17, 17825792⟩ := used_partial (by decide) (by decide) (by decide)

example : send (str "/dev/x") (str "129") = .refused ∧ send (str "/dev/x") (str "one") = .refused ∧ send [] (str "1") = .refused := by
  decide +kernel

/-- `starts_partial`: a short line without zeros. -/
example : wait (str "-p /dev/x -i 5") = .start (str "/dev/x") 5 := by decide +kernel

/-- `blank_violated`: `-p "/dev/x -i 7" -i 3` starts host 7. -/
example : ∃ line, send (str "/dev/x" ++ (str " -i " ++ decInt (7 : Nat))) (decInt (3 : Nat)) = .line line ∧ wait line = .start (str "/dev/x") 7 :=
  blank_violated (by decide) (by decide) (by decide) (by decide) (by decide) (by decide) (by decide) (by decide)

/-- `long_violated` and `overrun_violated` with the letter a. -/
example : ∃ line, send (List.replicate 4086 97) (str "12") = .line line ∧ wait line = .start (List.replicate 4086 97) 1 :=
  long_violated List.length_replicate (fun c hc => by rw [(List.mem_replicate.mp hc).2]; decide)
    (fun c hc => by rw [(List.mem_replicate.mp hc).2]; decide)

end Sanlock.FenceOpts
