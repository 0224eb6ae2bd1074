import Verif.Lemmas.CmdLine

/-!
# C73: the tool does what its command line says
-/

namespace Sanlock.CmdLine

open Strings (Str Res)

/-! ## Lockspaces -/

theorem import_esc {path : Str} (h : ∀ c ∈ path, c ≠ Strings.BACKSLASH) (hl : path.length < 1024) :
    Strings.pathImport 1024 (Strings.esc path) = some path := by
  unfold Strings.pathImport
  rw [Strings.importLoop_esc h (by simpa using hl)]
  rfl

theorem intoLs_text {old : Ls} {name path : Str} {id off : Nat} (hn : name.length ≤ 48) (hc : ∀ c ∈ name, c ≠ 92 ∧ c ≠ 58)
    (hp : ∀ c ∈ path, c ≠ 92) (hl : path.length < 1024) (hi : id < 2 ^ 63) (ho : off < 2 ^ 63) :
    intoLs old (name ++ 58 :: (Strings.dec id ++ 58 :: (Strings.esc path ++ 58 :: Strings.dec off))) = some ⟨name, id, path, off⟩ := by
  unfold intoLs
  simp only [show (58 : UInt8) = Strings.COLON from rfl]
  rw [(Direct.cut_enc (Strings.enc_plain hc)).1]
  simp only
  rw [(Direct.cut_enc (Strings.enc_dec id)).1]
  simp only
  rw [(Direct.cut_enc (Strings.enc_esc hp)).1]
  simp only
  rw [import_esc hp hl]
  simp only
  rw [Direct.atoll_dec hi, Direct.atoll_dec ho, List.take_of_length_le hn]

/-- C73, part: `-s NAME:ID:PATH:OFFSET` names exactly this lockspace, whatever was given before and whatever the stack holds, with a
backslash before the spaces and colons of the path.  Missing: a path with both a colon and an `M`, and names with colons or backslashes
or of more than 48 bytes; for the first see `lockspace_path_violated`. -/
theorem lockspace_arg_partial {name path : Str} {id off : Nat} (hn : name.length ≤ 48) (hc : ∀ c ∈ name, c ≠ 92 ∧ c ≠ 58)
    (hp : ∀ c ∈ path, c ≠ 92) (hl : path.length < 1024) (hM : 58 ∉ path ∨ 77 ∉ path) (hi : id < 2 ^ 63) (ho : off < 2 ^ 63)
    (fill : Str) (old : Ls) :
    parseLockspace fill old (name ++ 58 :: (Strings.dec id ++ 58 :: (Strings.esc path ++ 58 :: Strings.dec off))) =
      some ⟨name, id, path, off⟩ := by
  unfold parseLockspace
  rw [rewrite_same (fun h => (hc _ h).2 rfl) (dec_no (by decide))]
  · exact intoLs_text hn hc hp hl hi ho
  · rcases hM with h | h
    · by_cases h77 : 77 ∈ path
      · refine Or.inr ⟨Strings.esc path, Strings.dec off, rfl, ?_, dec_no (by decide)⟩
        exact esc_no h (by decide)
      · refine Or.inl ?_
        intro h'
        rcases List.mem_append.1 h' with h' | h'
        · exact esc_no h77 (by decide) h'
        · rcases List.mem_cons.1 h' with h' | h'
          · exact absurd h' (by decide)
          · exact dec_no (by decide) h'
    · refine Or.inl ?_
      intro h'
      rcases List.mem_append.1 h' with h' | h'
      · exact esc_no h (by decide) h'
      · rcases List.mem_cons.1 h' with h' | h'
        · exact absurd h' (by decide)
        · exact dec_no (by decide) h'

example : parseLockspace [] ⟨[], 0, [], 0⟩ (b! "LS:3:/dev/M 1:1048576") = some ⟨b! "LS", 3, b! "/dev/M 1", 1048576⟩ := by decide +kernel

/-- C73, part: `-s NAME:ID:PATH:nM` means the offset `n` MiB, if the byte that happens to be on the stack behind the copied digits is not a
digit.  Missing: other stacks (`lockspace_mega_violated`), and paths with colons (`lockspace_colon_violated`). -/
theorem lockspace_mega_partial {name path fill t : Str} {id n : Nat} {c : UInt8} (hn : name.length ≤ 48) (hc : ∀ c ∈ name, c ≠ 92 ∧ c ≠ 58)
    (hp : ∀ c ∈ path, c ≠ 92 ∧ c ≠ 58) (hl : path.length < 1024) (hi : id < 2 ^ 63) (ho : n * 1048576 < 2 ^ 63)
    (hf : (fill.take 16).drop (Strings.dec n).length = c :: t) (hd : 10 ≤ Strings.digit c) (old : Ls) :
    parseLockspace fill old (name ++ 58 :: (Strings.dec id ++ 58 :: (Strings.esc path ++ 58 :: (Strings.dec n ++ [77])))) =
      some ⟨name, id, path, n * 1048576⟩ := by
  unfold parseLockspace
  rw [rewrite_mega (fun h => (hc _ h).2 rfl) (dec_no (by decide)) (esc_no (fun h => (hp _ h).2 rfl) (by decide)) (dec_no (by decide))
    (dec_no (by decide)) (offstr_dec ho hf hd)]
  simp only [Bool.false_eq_true, if_false, List.append_nil, Option.bind]
  exact intoLs_text hn hc (fun c h => (hp c h).1) hl hi ho

example : parseLockspace (List.replicate 16 0) ⟨[], 0, [], 0⟩ (b! "LS:3:/dev/sda:2M") = some ⟨b! "LS", 3, b! "/dev/sda", 2097152⟩ := by
  decide +kernel

/-- The buffer for the digits is not initialised: with a digit behind them on the stack `1M` is read as 17 MiB. -/
theorem lockspace_mega_violated :
    parseLockspace [0, 55, 0, 0, 0, 0, 0, 0, 0, 0, 0, 0, 0, 0, 0, 0] ⟨[], 0, [], 0⟩ (b! "LS:3:/dev/sda:1M") =
      some ⟨b! "LS", 3, b! "/dev/sda", 17825792⟩ := by decide +kernel

/-- If nothing on the stack ends the number, memory behind the buffer is read. -/
theorem lockspace_stack_violated : parseLockspace (List.replicate 16 48) ⟨[], 0, [], 0⟩ (b! "LS:3:/dev/sda:1M") = none := by
  decide +kernel

/-- The third colon is looked for without regard to backslashes: with a colon and an `M` in the path the text up to the `M` is taken for the
offset, and with a path that is long enough the buffer overflows. -/
theorem lockspace_path_violated (fill : Str) :
    parseLockspace fill ⟨[], 0, [], 0⟩ (b! "LS:3:/dev/disk/by-path/pci-0000\\:00\\:1f.2-scsi-0-0-M:0") = none := by
  unfold parseLockspace rewrite
  simp [chr, offstr]

/-- With a colon in the path `1M` is not understood, and the path is cut. -/
theorem lockspace_colon_violated : parseLockspace (List.replicate 16 0) ⟨[], 0, [], 0⟩ (b! "LS:3:/d\\:0:1M") =
    some ⟨b! "LS", 3, b! "/d:0", 0⟩ := by decide +kernel

/-- A lockspace argument without path does not remove the path of an earlier one. -/
theorem lockspace_twice_violated (fill : Str) (l : Ls) :
    parseLockspace fill l (b! "B") = some { l with name := b! "B" } := by
  simp [parseLockspace, rewrite, chr, intoLs, Direct.cut, Direct.cutAt, Strings.COLON, Strings.BACKSLASH]

/-! ## Resources -/

theorem no_M_tail {l : List Strings.Disk} (h : ∀ d ∈ l, 77 ∉ d.path) {last : Str} (hl : 77 ∉ last) :
    77 ∉ Strings.tailC (Strings.diskEncs l ++ [last]) := by
  induction l with
  | nil =>
    simp only [Strings.diskEncs, List.nil_append, Strings.tailC, List.append_nil, List.mem_cons, not_or]
    exact ⟨by decide, hl⟩
  | cons d l ih =>
    have := ih (fun d hd => h d (List.mem_cons_of_mem _ hd))
    simp only [Strings.diskEncs, List.cons_append, Strings.tailC, List.mem_cons, List.mem_append, not_or]
    exact ⟨by decide, esc_no (h d (List.mem_cons_self ..)) (by decide), by decide, dec_no (by decide), this⟩

theorem last_no_M (r : Res) : 77 ∉ Strings.lastSub r := by
  unfold Strings.lastSub
  split
  · decide
  · exact dec_no (by decide)

/-- C73, part: a resource given as the library writes it (`sanlock_res_to_str`) is the one that is used, with all its disks.  Missing:
paths with an `M`. -/
theorem resource_arg_partial {r : Res} (ok : Strings.ResOk r) (hM : ∀ d ∈ r.disks, 77 ∉ d.path) {s : Str}
    (hs : Strings.resToStr r = some (some s)) : parseResource s = some (some (Strings.image r)) := by
  obtain ⟨s', h1, h2⟩ := Strings.res_roundtrip_partial ok
  rw [hs] at h1
  obtain rfl : s = s' := by simpa using h1
  rw [Strings.resToStr_eq ok] at hs
  have hs : s = r.space ++ 58 :: (r.name ++ Strings.tailC (Strings.diskEncs r.disks ++ [Strings.lastSub r])) := by
    simp only [Option.some.injEq] at hs
    rw [← hs]
    rfl
  unfold parseResource
  have hns := fun h => (ok.space.chars _ h).2 rfl
  have hnn := fun h => (ok.name.chars _ h).2 rfl
  have ht := no_M_tail hM (last_no_M r)
  have : rewrite (List.replicate 16 0) true s = some s := by
    cases hd : r.disks with
    | nil => have := ok.some; rw [hd] at this; exact absurd this (by simp)
    | cons d ds =>
      rw [hd] at ht hs
      simp only [Strings.diskEncs, List.cons_append, Strings.tailC] at hs ht
      rw [hs]
      refine rewrite_same hns hnn (Or.inl fun h => ht (List.mem_cons_of_mem _ h))
  rw [this]
  exact h2

example : parseResource (b! "LS:R:/dev/a\\:b:1048576:/dev/c:0:SH") =
    some (some ⟨b! "LS", b! "R", 0, false, true, [⟨b! "/dev/a:b", 1048576⟩, ⟨b! "/dev/c", 0⟩]⟩) := by decide +kernel

/-- One disk and nothing behind it. -/
theorem strToRes_one {space name path : Str} {off : Nat} (hs : Strings.NameOk space) (hn : Strings.NameOk name)
    (hd : Strings.DiskOk ⟨path, off⟩) :
    Strings.strToRes (space ++ 58 :: (name ++ 58 :: (Strings.esc path ++ 58 :: Strings.dec off))) =
      some (some ⟨space, name, 0, false, false, [⟨path, off⟩]⟩) := by
  have h1 := hs.term
  have h2 := hn.term
  have hdl : (Strings.dec off).length ≤ 20 := Strings.dec_length (k := 19) (Nat.lt_of_lt_of_le hd.off (by decide))
  have he : Strings.Encs [name, Strings.esc path, Strings.dec off] [name, path, Strings.dec off] :=
    .cons (Strings.enc_plain hn.chars) (by unfold Strings.NAME_LEN at h2; unfold Strings.PATH_LEN; omega)
      (.cons (Strings.enc_esc hd.noBs) (Nat.le_of_lt hd.term)
        (.cons (Strings.enc_dec off) (by unfold Strings.PATH_LEN; omega) .nil))
  have hstr : space ++ 58 :: (name ++ 58 :: (Strings.esc path ++ 58 :: Strings.dec off)) =
      space ++ Strings.tailC [name, Strings.esc path, Strings.dec off] := by
    simp [Strings.tailC, Strings.COLON]
  rw [hstr]
  have hcc : Strings.countColons (space ++ Strings.tailC [name, Strings.esc path, Strings.dec off]) = 3 := by
    rw [Strings.countColons_enc (Strings.enc_plain hs.chars), Strings.countColons_tail he]
    rfl
  unfold Strings.strToRes
  simp only [hcc]
  rw [if_neg (by simp [Strings.tailC]; omega), if_neg (by omega), if_neg (by decide),
    Strings.splitSubs_enc (Strings.enc_plain hs.chars) (by unfold Strings.NAME_LEN at h1; unfold Strings.PATH_LEN; simp; omega),
    List.nil_append, Strings.splitSubs_tail he]
  simp only
  unfold Strings.procSubs
  rw [if_neg (by omega), if_neg (by omega), if_pos rfl]
  unfold Strings.procSubs
  rw [if_neg (by omega), if_neg (by omega), if_neg (by omega), if_pos rfl]
  have := Strings.procDisks (hl := 0) (n := 1) (tail := []) (ds := [⟨path, off⟩]) (done := [])
    (r := ⟨space, name, 0, false, false, List.replicate 1 ⟨[], 0⟩⟩) (by simpa using hd) (by simp) (by simp)
  simp only [List.length_nil, Nat.mul_zero, Nat.add_zero, List.nil_append, Strings.diskSubs, List.append_nil] at this
  rw [show (0 + 1 + 1 : Nat) = 2 from rfl, show ((3 - 1) / 2 : Nat) = 1 from rfl, show ((3 - 1) % 2 : Nat) = 0 from rfl, this]
  unfold Strings.procSubs
  rfl

theorem zero_fill {n : Nat} (h : n * 1048576 < 2 ^ 63) :
    ∃ t, ((List.replicate 16 (0 : UInt8)).take 16).drop (Strings.dec n).length = 0 :: t := by
  have := dec_short h
  refine ⟨List.replicate (15 - (Strings.dec n).length) 0, ?_⟩
  rw [show (List.replicate 16 (0 : UInt8)).take 16 = List.replicate 16 0 from rfl, List.drop_replicate,
    show 16 - (Strings.dec n).length = (15 - (Strings.dec n).length) + 1 by omega, List.replicate_succ]

/-- C73, part: `-r SPACE:NAME:PATH:nM`, with or without a version or `SH` behind it, means the offset `n` MiB.  Missing: paths with
colons, and several disks (`resource_second_violated`, `resource_path_violated`). -/
theorem resource_mega_partial {space name path : Str} {n : Nat} (hs : Strings.NameOk space) (hn : Strings.NameOk name)
    (hd : Strings.DiskOk ⟨path, n * 1048576⟩) (hc : 58 ∉ path) (ho : n * 1048576 < 2 ^ 63) :
    parseResource (space ++ 58 :: (name ++ 58 :: (Strings.esc path ++ 58 :: (Strings.dec n ++ [77])))) =
      some (some ⟨space, name, 0, false, false, [⟨path, n * 1048576⟩]⟩) ∧
    (∀ v, v < 2 ^ 64 →
      parseResource (space ++ 58 :: (name ++ 58 :: (Strings.esc path ++ 58 :: (Strings.dec n ++ 77 :: 58 :: Strings.dec v)))) =
        some (some ⟨space, name, v, true, false, [⟨path, n * 1048576⟩]⟩)) ∧
    parseResource (space ++ 58 :: (name ++ 58 :: (Strings.esc path ++ 58 :: (Strings.dec n ++ 77 :: 58 :: [83, 72])))) =
      some (some ⟨space, name, 0, false, true, [⟨path, n * 1048576⟩]⟩) := by
  obtain ⟨t, hf⟩ := zero_fill ho
  have h1 := fun h => (hs.chars 58 h).2 rfl
  have h2 := fun h => (hn.chars 58 h).2 rfl
  have h3 : 58 ∉ Strings.esc path := esc_no hc (by decide)
  have ho' := offstr_dec ho hf (by decide)
  have key : ∀ r : Res, Strings.ResOk r → r.space = space → r.name = name → r.disks = [⟨path, n * 1048576⟩] →
      parseResource (space ++ 58 :: (name ++ 58 :: (Strings.esc path ++ 58 :: (Strings.dec n ++ 77 :: 58 :: Strings.lastSub r)))) =
        some (some (Strings.image r)) := by
    intro r ok e1 e2 e3
    unfold parseResource
    rw [rewrite_mega h1 h2 h3 (dec_no (by decide)) (dec_no (by decide)) ho']
    obtain ⟨s', g1, g2⟩ := Strings.res_roundtrip_partial ok
    rw [Strings.resToStr_eq ok] at g1
    have : s' = space ++ 58 :: (name ++ 58 :: (Strings.esc path ++ 58 :: (Strings.dec (n * 1048576) ++ 58 :: Strings.lastSub r))) := by
      simp only [Option.some.injEq] at g1
      rw [← g1, e1, e2, e3]
      simp [Strings.diskEncs, Strings.tailC, Strings.COLON]
    rw [this] at g2
    simpa [chr, Option.bind] using g2
  refine ⟨?_, fun v hv => ?_, ?_⟩
  · unfold parseResource
    rw [rewrite_mega h1 h2 h3 (dec_no (by decide)) (dec_no (by decide)) ho']
    simpa [chr, Option.bind] using strToRes_one hs hn hd
  · exact key ⟨space, name, v, true, false, [⟨path, n * 1048576⟩]⟩ ⟨hs, hn, by simp, by simp [Strings.MAX_DISKS], by simpa using hd, hv⟩ rfl rfl rfl
  · exact key ⟨space, name, 0, false, true, [⟨path, n * 1048576⟩]⟩
      ⟨hs, hn, by simp, by simp [Strings.MAX_DISKS], by simpa using hd, Nat.two_pow_pos 64⟩ rfl rfl rfl

example : parseResource (b! "LS:R:/dev/sda:3M:7") = some (some ⟨b! "LS", b! "R", 7, true, false, [⟨b! "/dev/sda", 3145728⟩]⟩) := by
  decide +kernel

/-- With several disks an `M` in the path of the second one multiplies the offset of the first by a million. -/
theorem resource_path_violated : parseResource (b! "LS:R:/dev/a:1048576:/dev/M:0") =
    some (some ⟨b! "LS", b! "R", 0, false, false, [⟨b! "/dev/a", 1099511627776⟩, ⟨b! "/dev/M", 0⟩]⟩) := by decide +kernel

/-- The `M` of the second offset is ignored: 2 bytes instead of 2 MiB. -/
theorem resource_second_violated : parseResource (b! "LS:R:/dev/a:1M:/dev/b:2M") =
    some (some ⟨b! "LS", b! "R", 0, false, false, [⟨b! "/dev/a", 1048576⟩, ⟨b! "/dev/b", 2⟩]⟩) := by decide +kernel

/-- More than sixteen characters between the third colon and an `M` overflow the buffer on the stack. -/
theorem overflow_violated {a b c d t : Str} (ha : 58 ∉ a) (hb : 58 ∉ b) (hc : 58 ∉ c) (hd : 77 ∉ d) (hl : d = [] ∨ 16 < d.length) :
    parseResource (a ++ 58 :: (b ++ 58 :: (c ++ 58 :: (d ++ 77 :: t)))) = none ∧
    ∀ fill old, parseLockspace fill old (a ++ 58 :: (b ++ 58 :: (c ++ 58 :: (d ++ 77 :: t)))) = none := by
  have : ∀ fill keep, rewrite fill keep (a ++ 58 :: (b ++ 58 :: (c ++ 58 :: (d ++ 77 :: t)))) = none := by
    intro fill keep
    unfold rewrite
    rw [chr_append ha]
    simp only
    rw [chr_append hb]
    simp only
    rw [chr_append hc]
    simp only
    rw [chr_append hd]
    simp only [offstr, if_pos hl]
  exact ⟨by rw [parseResource, this]; rfl, fun fill old => by rw [parseLockspace, this]; rfl⟩

example : parseResource (b! "LS:R:/dev/a:0:/dev/mapper/vg-Mirror:0") = none := by decide +kernel

/-! ## Options -/

/-- The letter of each setting. -/
def setBy : Num → List UInt8
  | .debug => [] | .quietFail => [81] | .debugRenew => [82] | .historySize => [72] | .logfilePriority => [76] | .syslogPriority => [83]
  | .all => [97] | .aio => [97] | .workers => [116] | .useWatchdog => [119] | .wait => [119] | .getHosts => [104] | .highPriority => [104]
  | .mlockLevel => [108] | .sortArg => [111] | .ioTimeout => [111] | .bitmapSeconds => [98] | .numHosts => [110] | .maxHosts => [109]
  | .pid => [112] | .heData => [100] | .heEvent => [101] | .hostId => [105] | .graceSeconds => [103] | .graceSet => [103]
  | .generation => [103] | .forceMode => [102] | .uid => [85] | .gid => [71] | .orphanSet => [79] | .orphan => [79]
  | .persistent => [80] | .usedSet => [117] | .used => [117] | .clear => [122] | .align => [65] | .sector => [90]
  | .entryOffset => [101] | .indexOffset => [120]

/-- The letters there are, besides `D` and `c`. -/
def known : List UInt8 := b! "QRHLSFatwhlobnmpdeigfsrUGOPuxzAZ"

theorem set_num {c : Com} {k j : Num} {v : Int} (h : k ≠ j) : (c.set j v).num k = c.num k := if_neg h
theorem put_num {c : Com} {k : Num} {j : Txt} {v : Str} : (c.put j v).num k = c.num k := rfl

theorem parseEntry_frame (c : Com) (v : Str) : (∀ k, k ≠ .entryOffset → (parseEntry c v).num k = c.num k) ∧
    (parseEntry c v).ls = c.ls ∧ (parseEntry c v).res = c.res := by
  unfold parseEntry
  simp only
  cases chr 58 v with
  | none => split <;> exact ⟨fun _ _ => rfl, rfl, rfl⟩
  | some p => split <;> exact ⟨fun _ hk => set_num hk, rfl, rfl⟩

theorem option_frame {e : Env} {m : Mode} {c c' : Com} {o : UInt8} {v : Str} (h : option e m c o v = .ok c') :
    (∀ k, o ∉ setBy k → c'.num k = c.num k) ∧ (o ≠ 115 → c'.ls = c.ls) ∧ (o ≠ 114 → c'.res = c.res) ∧ o ∈ known := by
  unfold option at h
  simp only at h
  have one : ∀ (j : Num) (x : Int) (k : Num), o ∈ setBy j → o ∉ setBy k → (c.set j x).num k = c.num k :=
    fun j x k hj hk => set_num (by rintro rfl; exact hk hj)
  have two : ∀ (i j : Num) (x y : Int) (k : Num), o ∈ setBy i → o ∈ setBy j → o ∉ setBy k → ((c.set i x).set j y).num k = c.num k :=
    fun i j x y k hi hj hk => by
      rw [set_num (by rintro rfl; exact hk hj), set_num (by rintro rfl; exact hk hi)]
  have fin : ∀ j x, o ∈ setBy j → o ∈ known → c' = c.set j x →
      (∀ k, o ∉ setBy k → c'.num k = c.num k) ∧ (o ≠ 115 → c'.ls = c.ls) ∧ (o ≠ 114 → c'.res = c.res) ∧ o ∈ known := by
    rintro j x hj hk rfl
    exact ⟨fun k hk => one j x k hj hk, fun _ => rfl, fun _ => rfl, hk⟩
  have fin2 : ∀ i j x y, o ∈ setBy i → o ∈ setBy j → o ∈ known → c' = (c.set i x).set j y →
      (∀ k, o ∉ setBy k → c'.num k = c.num k) ∧ (o ≠ 115 → c'.ls = c.ls) ∧ (o ≠ 114 → c'.res = c.res) ∧ o ∈ known := by
    rintro i j x y hi hj hk rfl
    exact ⟨fun k hk => two i j x y k hi hj hk, fun _ => rfl, fun _ => rfl, hk⟩
  have same : o ∈ known → c' = c →
      (∀ k, o ∉ setBy k → c'.num k = c.num k) ∧ (o ≠ 115 → c'.ls = c.ls) ∧ (o ≠ 114 → c'.res = c.res) ∧ o ∈ known := by
    rintro hk rfl
    exact ⟨fun _ _ => rfl, fun _ => rfl, fun _ => rfl, hk⟩
  by_cases e1 : o = 81
  · subst e1; exact fin .quietFail _ (by decide) (by decide) (by simpa using h.symm)
  rw [if_neg e1] at h
  by_cases e1 : o = 82
  · subst e1; exact fin .debugRenew _ (by decide) (by decide) (by simpa using h.symm)
  rw [if_neg e1] at h
  by_cases e1 : o = 72
  · subst e1; exact fin .historySize _ (by decide) (by decide) (by simpa using h.symm)
  rw [if_neg e1] at h
  by_cases e1 : o = 76
  · subst e1; exact fin .logfilePriority _ (by decide) (by decide) (by simpa using h.symm)
  rw [if_neg e1] at h
  by_cases e1 : o = 83
  · subst e1; exact fin .syslogPriority _ (by decide) (by decide) (by simpa using h.symm)
  rw [if_neg e1] at h
  by_cases e1 : o = 70
  · subst e1
    have h : c' = c.put .filePath v := by simpa using h.symm
    subst h
    exact ⟨fun _ _ => rfl, fun _ => rfl, fun _ => rfl, by decide⟩
  rw [if_neg e1] at h
  by_cases e1 : o = 97
  · subst e1; exact fin2 .all .aio _ _ (by decide) (by decide) (by decide) (by simpa using h.symm)
  rw [if_neg e1] at h
  by_cases e1 : o = 116
  · subst e1; exact fin .workers _ (by decide) (by decide) (by simpa using h.symm)
  rw [if_neg e1] at h
  by_cases e1 : o = 119
  · subst e1; exact fin2 .useWatchdog .wait _ _ (by decide) (by decide) (by decide) (by simpa using h.symm)
  rw [if_neg e1] at h
  by_cases e1 : o = 104
  · subst e1
    rw [if_pos rfl] at h
    cases hg : m.gets <;> simp only [hg, Bool.false_eq_true, if_false, if_true, Out.ok.injEq] at h
    · exact fin .highPriority _ (by decide) (by decide) h.symm
    · exact fin .getHosts _ (by decide) (by decide) h.symm
  rw [if_neg e1] at h
  by_cases e1 : o = 108
  · subst e1; exact fin .mlockLevel _ (by decide) (by decide) (by simpa using h.symm)
  rw [if_neg e1] at h
  by_cases e1 : o = 111
  · subst e1
    rw [if_pos rfl] at h
    simp only [Out.ok.injEq] at h
    split at h
    · exact fin .sortArg _ (by decide) (by decide) h.symm
    · split at h
      · exact fin .ioTimeout _ (by decide) (by decide) h.symm
      · exact same (by decide) h.symm
  rw [if_neg e1] at h
  by_cases e1 : o = 98
  · subst e1; exact fin .bitmapSeconds _ (by decide) (by decide) (by simpa using h.symm)
  rw [if_neg e1] at h
  by_cases e1 : o = 110
  · subst e1; exact fin .numHosts _ (by decide) (by decide) (by simpa using h.symm)
  rw [if_neg e1] at h
  by_cases e1 : o = 109
  · subst e1; exact fin .maxHosts _ (by decide) (by decide) (by simpa using h.symm)
  rw [if_neg e1] at h
  by_cases e1 : o = 112
  · subst e1; exact fin .pid _ (by decide) (by decide) (by simpa using h.symm)
  rw [if_neg e1] at h
  by_cases e1 : o = 100
  · subst e1; exact fin .heData _ (by decide) (by decide) (by simpa using h.symm)
  rw [if_neg e1] at h
  by_cases e1 : o = 101
  · subst e1
    rw [if_pos rfl] at h
    simp only [Out.ok.injEq] at h
    split at h
    · subst h
      obtain ⟨p1, p2, p3⟩ := parseEntry_frame c v
      exact ⟨fun k hk => p1 k (by rintro rfl; exact hk (by decide)), fun _ => p2, fun _ => p3, by decide⟩
    · subst h
      exact ⟨fun k hk => by rw [set_num (by rintro rfl; exact hk (by decide))]; rfl, fun _ => rfl, fun _ => rfl, by decide⟩
  rw [if_neg e1] at h
  by_cases e1 : o = 105
  · subst e1; exact fin .hostId _ (by decide) (by decide) (by simpa using h.symm)
  rw [if_neg e1] at h
  by_cases e1 : o = 103
  · subst e1
    rw [if_pos rfl] at h
    simp only [Out.ok.injEq] at h
    split at h
    · split at h
      · exact fin2 .graceSeconds .graceSet _ _ (by decide) (by decide) (by decide) h.symm
      · exact same (by decide) h.symm
    · exact fin .generation _ (by decide) (by decide) h.symm
  rw [if_neg e1] at h
  by_cases e1 : o = 102
  · subst e1; exact fin .forceMode _ (by decide) (by decide) (by simpa using h.symm)
  rw [if_neg e1] at h
  by_cases e1 : o = 115
  · subst e1
    rw [if_pos rfl] at h
    cases hp : parseLockspace e.fill c.ls v with
    | none => rw [hp] at h; simp only [reduceCtorEq] at h
    | some l =>
      rw [hp] at h
      simp only [Out.ok.injEq] at h
      subst h
      exact ⟨fun _ _ => rfl, fun h => absurd rfl h, fun _ => rfl, by decide⟩
  rw [if_neg e1] at h
  by_cases e1 : o = 114
  · subst e1
    rw [if_pos rfl] at h
    split at h
    · simp only [Out.ok.injEq] at h
      exact same (by decide) h.symm
    · cases hp : parseResource v with
      | none => rw [hp] at h; simp only [reduceCtorEq] at h
      | some x =>
        rw [hp] at h
        cases x with
        | none =>
          simp only [Out.ok.injEq] at h
          exact same (by decide) h.symm
        | some r =>
          simp only [Out.ok.injEq] at h
          subst h
          exact ⟨fun _ _ => rfl, fun _ => rfl, fun h => absurd rfl h, by decide⟩
  rw [if_neg e1] at h
  by_cases e1 : o = 85
  · subst e1; exact fin .uid _ (by decide) (by decide) (by simpa using h.symm)
  rw [if_neg e1] at h
  by_cases e1 : o = 71
  · subst e1; exact fin .gid _ (by decide) (by decide) (by simpa using h.symm)
  rw [if_neg e1] at h
  by_cases e1 : o = 79
  · subst e1; exact fin2 .orphanSet .orphan _ _ (by decide) (by decide) (by decide) (by simpa using h.symm)
  rw [if_neg e1] at h
  by_cases e1 : o = 80
  · subst e1; exact fin .persistent _ (by decide) (by decide) (by simpa using h.symm)
  rw [if_neg e1] at h
  by_cases e1 : o = 117
  · subst e1; exact fin2 .usedSet .used _ _ (by decide) (by decide) (by decide) (by simpa using h.symm)
  rw [if_neg e1] at h
  by_cases e1 : o = 120
  · subst e1
    rw [if_pos rfl] at h
    unfold parseIndex at h
    simp only at h
    split at h
    · simp only [reduceCtorEq] at h
    · rename_i d hd
      simp only [Out.ok.injEq] at h
      subst h
      split at hd
      · simp only [Option.some.injEq] at hd
        subst hd
        exact ⟨fun _ _ => rfl, fun _ => rfl, fun _ => rfl, by decide⟩
      · split at hd
        · simp only [reduceCtorEq] at hd
        · split at hd
          · simp only [Option.some.injEq] at hd
            subst hd
            exact ⟨fun _ _ => rfl, fun _ => rfl, fun _ => rfl, by decide⟩
          · simp only [Option.some.injEq] at hd
            subst hd
            exact ⟨fun k hk => by rw [set_num (by rintro rfl; exact hk (by decide))]; rfl, fun _ => rfl, fun _ => rfl, by decide⟩
  rw [if_neg e1] at h
  by_cases e1 : o = 122
  · subst e1; exact fin .clear _ (by decide) (by decide) (by simpa using h.symm)
  rw [if_neg e1] at h
  by_cases e1 : o = 65
  · subst e1
    rw [if_pos rfl] at h
    simp only [Out.ok.injEq] at h
    split at h
    · exact same (by decide) h.symm
    · exact fin .align _ (by decide) (by decide) h.symm
  rw [if_neg e1] at h
  by_cases e1 : o = 90
  · subst e1; exact fin .sector _ (by decide) (by decide) (by simpa using h.symm)
  rw [if_neg e1] at h
  simp only [reduceCtorEq] at h

end Sanlock.CmdLine
