import Verif.Config

/-!
# C51: a setting has the value written on its own line

The file is described by the lines that somebody writes; the theorem `config_spec_partial` says what each setting is after the daemon has read it.
What is left out of it, and what the code does there, is in the theorems `..._violated`.
-/

namespace Sanlock.Config

/-! ## Files -/

/-- At most `f + 1` decimal digits. -/
def decF : Nat → Nat → Str
  | 0, n => [48 + n % 10]
  | f + 1, n => if n < 10 then [48 + n] else decF f (n / 10) ++ [48 + n % 10]

/-- Decimal digits. -/
def dec (n : Nat) : Str := decF n n

/-- A number with its sign. -/
def decInt (n : Int) : Str := if n < 0 then 45 :: dec n.natAbs else dec n.natAbs

/-- The settings that are names. -/
inductive Name where
  | uname | gname | hostName
deriving DecidableEq, Repr

def Name.str : Name → Str
  | .uname => Config.str "uname"
  | .gname => Config.str "gname"
  | .hostName => Config.str "our_host_name"

def Key.str : Key → Str
  | .quietFail => Config.str "quiet_fail"
  | .debugRenew => Config.str "debug_renew"
  | .useAio => Config.str "use_aio"
  | .logfilePriority => Config.str "logfile_priority"
  | .logfileUseUtc => Config.str "logfile_use_utc"
  | .syslogPriority => Config.str "syslog_priority"
  | .namesLogPriority => Config.str "names_log_priority"
  | .useWatchdog => Config.str "use_watchdog"
  | .ioTimeout => Config.str "io_timeout"
  | .watchdogFireTimeout => Config.str "watchdog_fire_timeout"
  | .killGraceSeconds => Config.str "kill_grace_seconds"
  | .highPriority => Config.str "high_priority"
  | .mlockLevel => Config.str "mlock_level"
  | .shRetries => Config.str "sh_retries"
  | .renewalReadExtendSec => Config.str "renewal_read_extend_sec"
  | .writeInitIoTimeout => Config.str "write_init_io_timeout"
  | .renewalHistorySize => Config.str "renewal_history_size"
  | .paxosDebugAll => Config.str "paxos_debug_all"
  | .debugClients => Config.str "debug_clients"
  | .maxWorkerThreads => Config.str "max_worker_threads"

/-- The text of a value of `max_sectors_kb`. -/
def Sectors.str : Sectors → Str
  | .ignore => Config.str "ignore"
  | .align => Config.str "align"
  | .num n => decInt n

/-- A line as it is written: `a` and `b` are the blanks on both sides of the equals sign, `tail` is what follows the value. -/
inductive Line where
  | blank
  | comment (text : Str)
  | num (k : Key) (a b : Str) (n : Int) (tail : Str)
  | name (k : Name) (a b v tail : Str)
  | sectors (a b : Str) (v : Sectors) (tail : Str)
  /-- anything else -/
  | other (text : Str)
deriving DecidableEq, Repr

/-- Without the newline. -/
def Line.text : Line → Str
  | .blank => []
  | .comment t => 35 :: t
  | .num k a b n tail => k.str ++ (a ++ 61 :: (b ++ (decInt n ++ tail)))
  | .name k a b v tail => k.str ++ (a ++ 61 :: (b ++ (v ++ tail)))
  | .sectors a b v tail => Config.str "max_sectors_kb" ++ (a ++ 61 :: (b ++ (v.str ++ tail)))
  | .other t => t

/-- The file: lines with newlines between them.  An empty last line is a newline at the end. -/
def file : List Line → Str
  | [] => []
  | [l] => l.text
  | l :: ls => l.text ++ 10 :: file ls

/-- Blanks are spaces and tabs. -/
def Blanks (s : Str) : Prop := ∀ c ∈ s, c = 32 ∨ c = 9

/-- What follows a value begins with a blank. -/
def Tail (s : Str) : Prop := s = [] ∨ ∃ c t, s = c :: t ∧ (c = 32 ∨ c = 9)

/-- The line begins with the word `w`. -/
def Begins (w t : Str) : Prop := ∃ r, t = w ++ r ∧ (r = [] ∨ ∃ c u, r = c :: u ∧ (c = 32 ∨ c = 61 ∨ c = 9))

/-- A line that can be read: at most 126 characters, and the parts are what they are called. -/
def Line.ok (l : Line) : Prop :=
  l.text.length ≤ 126 ∧ (∀ c ∈ l.text, c ≠ 10 ∧ c ≠ 0) ∧
  match l with
  | .blank => True
  | .comment _ => True
  | .num _ a b n tail => Blanks a ∧ Blanks b ∧ Tail tail ∧ -2147483648 ≤ n ∧ n < 2147483648
  | .name _ a b v tail => Blanks a ∧ Blanks b ∧ Tail tail ∧ v ≠ [] ∧ ∀ c ∈ v, isSpace c = false
  | .sectors a b v tail => Blanks a ∧ Blanks b ∧ Tail tail ∧ ∀ n, v = .num n → 0 ≤ n ∧ n < 2147483648
  | .other t => t ≠ [] ∧ (∀ k : Key, ¬Begins k.str t) ∧ (∀ k : Name, ¬Begins k.str t) ∧ ¬Begins (Config.str "max_sectors_kb") t

/-! ## What a file says -/

/-- The value that a line gives to the number `k`; values outside the range of a setting are ignored, the number of threads is
raised to two, and `renewal_read_extend_sec` is unsigned. -/
def Line.gives (k : Key) : Line → Option Int
  | .num j _ _ n _ =>
    if j ≠ k then none
    else match k with
      | .ioTimeout | .watchdogFireTimeout | .writeInitIoTimeout => if 1 ≤ n then some n else none
      | .killGraceSeconds => if 0 ≤ n ∧ n ≤ 60 then some n else none
      | .renewalReadExtendSec => some (n % 4294967296)
      | .maxWorkerThreads => some (max n 2)
      | _ => some n
  | _ => none

def Line.givesName (k : Name) : Line → Option Str
  | .name j _ _ v _ => if j = k then some v else none
  | _ => none

/-- Numbers must be even, positive and at most 8192. -/
def Line.givesSectors : Line → Option Sectors
  | .sectors _ _ (.num n) _ => if 0 < n ∧ n % 2 = 0 ∧ n ≤ 8192 then some (.num n) else none
  | .sectors _ _ v _ => some v
  | _ => none

/-- The last value given. -/
def last {α : Type} (f : Line → Option α) (ls : List Line) (d : α) : α := ((ls.filterMap f).getLast?).getD d

/-! ## Reading numbers -/

theorem decF_fuel : ∀ (f g n : Nat), n ≤ f → n ≤ g → decF f n = decF g n := by
  intro f
  induction f with
  | zero =>
    intro g n h1 h2
    cases g with
    | zero => rfl
    | succ g => simp only [decF]; rw [if_pos (by omega), Nat.mod_eq_of_lt (by omega)]
  | succ f ih =>
    intro g n h1 h2
    cases g with
    | zero => simp only [decF]; rw [if_pos (by omega), Nat.mod_eq_of_lt (by omega)]
    | succ g =>
      simp only [decF]
      split
      · rfl
      · rw [ih g (n / 10) (by omega) (by omega)]

theorem dec_eq (n : Nat) : dec n = if n < 10 then [48 + n] else dec (n / 10) ++ [48 + n % 10] := by
  rw [dec, dec]
  cases n with
  | zero => rfl
  | succ n =>
    rw [decF]
    split
    · rfl
    · rw [decF_fuel n ((n + 1) / 10) ((n + 1) / 10) (by omega) (Nat.le_refl _)]

theorem dec_digit (n : Nat) : ∀ c ∈ dec n, 48 ≤ c ∧ c ≤ 57 := by
  induction n using Nat.strongRecOn with
  | _ n ih =>
    intro c hc
    rw [dec_eq] at hc
    split at hc
    · rw [List.mem_singleton] at hc; omega
    · rcases List.mem_append.1 hc with h | h
      · exact ih (n / 10) (by omega) c h
      · rw [List.mem_singleton] at h; omega

theorem dec_ne (n : Nat) : dec n ≠ [] := by
  rw [dec_eq]; split <;> simp

theorem takeWhile_stop {p : Nat → Bool} {l r : Str} (h : ∀ c ∈ l, p c = true) (hr : r = [] ∨ ∃ c t, r = c :: t ∧ p c = false) :
    (l ++ r).takeWhile p = l := by
  rw [List.takeWhile_append_of_pos h]
  rcases hr with rfl | ⟨c, t, rfl, hc⟩
  · simp
  · simp [hc]

theorem dropWhile_stop {p : Nat → Bool} {l r : Str} (h : ∀ c ∈ l, p c = true) (hr : r = [] ∨ ∃ c t, r = c :: t ∧ p c = false) :
    (l ++ r).dropWhile p = r := by
  rw [List.dropWhile_append_of_pos h]
  rcases hr with rfl | ⟨c, t, rfl, hc⟩
  · simp
  · simp [hc]

theorem digits_dec (n : Nat) : digits (dec n) = n := by
  have h : (dec n).takeWhile (fun c => 48 ≤ c && c ≤ 57) = dec n := by
    have := takeWhile_stop (p := fun c => 48 ≤ c && c ≤ 57) (l := dec n) (r := [])
      (fun c hc => by have := dec_digit n c hc; simp; omega) (Or.inl rfl)
    simpa using this
  rw [digits, h]; clear h
  induction n using Nat.strongRecOn with
  | _ n ih =>
    rw [dec_eq]
    split
    · simp
    · rw [List.foldl_append, ih (n / 10) (by omega)]
      simp only [List.foldl_cons, List.foldl_nil]; omega

theorem decInt_ne (n : Int) : decInt n ≠ [] := by
  rw [decInt]; split
  · simp
  · exact dec_ne _

theorem decInt_char (n : Int) : ∀ c ∈ decInt n, c = 45 ∨ 48 ≤ c ∧ c ≤ 57 := by
  intro c hc
  rw [decInt] at hc
  split at hc
  · rcases List.mem_cons.1 hc with h | h
    · exact Or.inl h
    · exact Or.inr (dec_digit _ c h)
  · exact Or.inr (dec_digit _ c hc)

theorem atoi_decInt {n : Int} (h1 : -2147483648 ≤ n) (h2 : n < 2147483648) : atoi (decInt n) = n := by
  have hsp : (decInt n).dropWhile isSpace = decInt n := by
    cases hd : decInt n with
    | nil => rfl
    | cons c t =>
      have := decInt_char n c (by rw [hd]; simp)
      have : isSpace c = false := by simp [isSpace]; omega
      simp [this]
  rw [atoi, hsp]
  have key : ∀ v : Int, v = n → v.bmod 4294967296 = n := by
    rintro v rfl; rw [Int.bmod_def]; split <;> omega
  apply key
  by_cases hn : n < 0
  · rw [decInt, if_pos hn]
    show max (-((digits (dec n.natAbs) : Nat) : Int)) _ = n
    rw [digits_dec]; omega
  · rw [decInt, if_neg hn]
    have hd := digits_dec n.natAbs
    cases hc : dec n.natAbs with
    | nil => exact absurd hc (dec_ne _)
    | cons c t =>
      have := dec_digit n.natAbs c (by rw [hc]; simp)
      rw [hc] at hd
      split
      · rename_i heq; cases heq; omega
      · rename_i heq; cases heq; omega
      · rw [hd]; omega

/-! ## Reading a line -/

/-- What may follow: nothing, or the newline. -/
def Nl (s : Str) : Prop := s = [] ∨ s = [10]

theorem cstr_id {s : Str} (h : ∀ c ∈ s, c ≠ 0) : cstr s = s := by
  have := takeWhile_stop (p := fun c => decide (c ≠ 0)) (l := s) (r := []) (fun c hc => by simpa using h c hc) (Or.inl rfl)
  rw [cstr]; simpa using this

/-- The characters of names of settings. -/
def WordChars (w : Str) : Prop := ∀ c ∈ w, 33 ≤ c ∧ c ≠ 61 ∧ c ≠ 35

theorem word_setting {w a r nl : Str} (hw : WordChars w) (ha : Blanks a) (h0 : ∀ c ∈ w ++ (a ++ 61 :: r) ++ nl, c ≠ 0) :
    word (w ++ (a ++ 61 :: r) ++ nl) = w := by
  rw [word, cstr_id h0, List.append_assoc]
  apply takeWhile_stop
  · intro c hc; have := hw c hc; simp; omega
  · right
    cases a with
    | nil => exact ⟨61, r ++ nl, by simp, by simp⟩
    | cons x t =>
      refine ⟨x, t ++ 61 :: r ++ nl, by simp, ?_⟩
      rcases ha x (by simp) with rfl | rfl <;> rfl

theorem scan_setting {w a b v tail nl : Str} (hw : WordChars w) (hw0 : w ≠ []) (ha : Blanks a) (hb : Blanks b) (hv : v ≠ [])
    (hvs : ∀ c ∈ v, isSpace c = false) (ht : Tail tail) (hnl : Nl nl)
    (h0 : ∀ c ∈ w ++ (a ++ 61 :: (b ++ (v ++ tail))) ++ nl, c ≠ 0) :
    scan (w ++ (a ++ 61 :: (b ++ (v ++ tail))) ++ nl) = some v := by
  have hsplit : w ++ (a ++ 61 :: (b ++ (v ++ tail))) ++ nl = (w ++ a) ++ 61 :: (b ++ (v ++ (tail ++ nl))) := by simp
  have hne : ∀ c ∈ w ++ a, decide (c ≠ 61) = true := by
    intro c hc
    rw [decide_eq_true_eq]
    rcases List.mem_append.1 hc with h | h
    · exact (hw c h).2.1
    · rcases ha c h with rfl | rfl <;> decide
  have stop : (61 :: (b ++ (v ++ (tail ++ nl)))) = [] ∨ ∃ c t, (61 :: (b ++ (v ++ (tail ++ nl)))) = c :: t ∧ decide (c ≠ 61) = false :=
    Or.inr ⟨61, _, rfl, by simp⟩
  have e1 : ((b ++ (v ++ (tail ++ nl))).dropWhile isSpace) = v ++ (tail ++ nl) := by
    apply dropWhile_stop
    · intro c hc; rcases hb c hc with rfl | rfl <;> rfl
    · right
      cases v with
      | nil => exact absurd rfl hv
      | cons x t => exact ⟨x, _, rfl, hvs x (by simp)⟩
  have e2 : (v ++ (tail ++ nl)).takeWhile (fun c => !isSpace c) = v := by
    apply takeWhile_stop
    · intro c hc; rw [hvs c hc]; rfl
    · rcases ht with rfl | ⟨c, t, rfl, hc⟩
      · rcases hnl with rfl | rfl
        · exact Or.inl rfl
        · exact Or.inr ⟨10, [], rfl, rfl⟩
      · refine Or.inr ⟨c, t ++ nl, rfl, ?_⟩
        rcases hc with rfl | rfl <;> rfl
  rw [scan, cstr_id h0, hsplit]
  simp only [takeWhile_stop hne stop, dropWhile_stop hne stop, e1, e2]
  rw [if_neg (by simp [hw0]), if_neg hv]

theorem key_chars (k : Key) : WordChars k.str ∧ k.str ≠ [] := by
  cases k <;> exact ⟨by unfold WordChars; decide, by decide⟩

theorem name_chars (k : Name) : WordChars k.str ∧ k.str ≠ [] := by
  cases k <;> exact ⟨by unfold WordChars; decide, by decide⟩

theorem find_key (k : Key) : keys.find? (fun p => p.2 = k.str) = some (k, k.str) := by
  cases k <;> decide

theorem find_name (k : Name) : keys.find? (fun p => p.2 = k.str) = none := by
  cases k <;> decide

theorem find_sectors : keys.find? (fun p => p.2 = str "max_sectors_kb") = none := by decide

theorem head_setting {w x : Str} (hw : WordChars w) (hw0 : w ≠ []) : ¬((w ++ x).head? = some 35 ∨ (w ++ x).head? = some 10) := by
  cases w with
  | nil => exact absurd rfl hw0
  | cons c t =>
    have := hw c (by simp)
    simp; omega

theorem digit_not_sub {t : Str} (ht : ∃ c u, t = c :: u ∧ 58 ≤ c) {s : Str} (hs : ∀ c ∈ s, c = 45 ∨ 48 ≤ c ∧ c ≤ 57) :
    hasSub t s = false := by
  obtain ⟨c, u, rfl, hc⟩ := ht
  induction s with
  | nil => rfl
  | cons d s ih =>
    have := hs d (by simp)
    rw [hasSub, ih (fun x hx => hs x (by simp [hx]))]
    have : c ≠ d := by omega
    simp [List.isPrefixOf, this]

/-- What one line does to the configuration. -/
def apply (c : Conf) (l : Line) : Conf :=
  { int := fun k => (l.gives k).getD (c.int k)
    killGraceSet := c.killGraceSet || (l.gives .killGraceSeconds).isSome
    readExtendSet := c.readExtendSet || (l.gives .renewalReadExtendSec).isSome
    uname := ((l.givesName .uname).map some).getD c.uname
    gname := ((l.givesName .gname).map some).getD c.gname
    hostName := ((l.givesName .hostName).map (·.take 48)).getD c.hostName
    sectors := l.givesSectors.getD c.sectors }

theorem conf_ext {c d : Conf} (h1 : ∀ k, c.int k = d.int k) (h2 : c.killGraceSet = d.killGraceSet)
    (h3 : c.readExtendSet = d.readExtendSet) (h4 : c.uname = d.uname) (h5 : c.gname = d.gname) (h6 : c.hostName = d.hostName)
    (h7 : c.sectors = d.sectors) : c = d := by
  cases c; cases d
  simp only [Conf.mk.injEq]
  exact ⟨funext h1, h2, h3, h4, h5, h6, h7⟩

theorem assign_apply (c : Conf) (k : Key) (a b : Str) (n : Int) (tail : Str) : assign c k n = apply c (.num k a b n tail) := by
  have hmax : (if n < 2 then 2 else n) = max n 2 := by split <;> omega
  have hpos : ∀ x : Int, x > 0 ↔ 1 ≤ x := fun x => by omega
  have hgr : (n ≤ 60 ∧ n ≥ 0) ↔ (0 ≤ n ∧ n ≤ 60) := by omega
  apply conf_ext
  · intro j
    cases k <;> cases j <;> simp only [assign, apply, Line.gives, hmax, hpos, hgr, ne_eq, not_true_eq_false, if_true, if_false,
      reduceCtorEq, not_false_eq_true, Option.getD_none, Option.getD_some] <;> (try split) <;> simp
  all_goals
    cases k <;> simp only [assign, apply, Line.gives, Line.givesName, Line.givesSectors, hpos, hgr, ne_eq, not_true_eq_false, if_true, if_false,
      reduceCtorEq, not_false_eq_true, Option.getD_none] <;> (try split) <;> simp

theorem doLine_num {s : St} {k : Key} {a b : Str} {n : Int} {tail nl : Str} (h : (Line.num k a b n tail).ok) (hnl : Nl nl) :
    ∃ v, doLine s ((Line.num k a b n tail).text ++ nl) = some ⟨apply s.conf (.num k a b n tail), some v⟩ := by
  obtain ⟨_, h0, ha, hb, ht, hn1, hn2⟩ := h
  have h0' : ∀ c ∈ (Line.num k a b n tail).text ++ nl, c ≠ 0 := by
    intro c hc
    rcases List.mem_append.1 hc with hc | hc
    · exact (h0 c hc).2
    · rcases hnl with rfl | rfl
      · cases hc
      · rw [List.mem_singleton] at hc; omega
  have hw := word_setting (key_chars k).1 ha h0'
  have hs := scan_setting (key_chars k).1 (key_chars k).2 ha hb (decInt_ne n)
    (fun c hc => by have := decInt_char n c hc; simp [isSpace]; omega) ht hnl h0'
  have hh : ¬(((Line.num k a b n tail).text ++ nl).head? = some 35 ∨ ((Line.num k a b n tail).text ++ nl).head? = some 10) := by
    rw [Line.text, List.append_assoc]; exact head_setting (key_chars k).1 (key_chars k).2
  rw [doLine, if_neg hh]
  simp only [Line.text] at hw hs ⊢
  simp only [hw, hs, find_key, atoi_decInt hn1 hn2]
  rw [assign_apply s.conf k a b n tail]
  by_cases hk : k = .maxWorkerThreads ∧ n < 2
  · exact ⟨2, by rw [if_pos hk]⟩
  · exact ⟨n, by rw [if_neg hk]⟩

theorem doLine_name {s : St} {k : Name} {a b v tail nl : Str} (h : (Line.name k a b v tail).ok) (hnl : Nl nl) :
    doLine s ((Line.name k a b v tail).text ++ nl) = some ⟨apply s.conf (.name k a b v tail), s.val⟩ := by
  obtain ⟨_, h0, ha, hb, ht, hv, hvs⟩ := h
  have h0' : ∀ c ∈ (Line.name k a b v tail).text ++ nl, c ≠ 0 := by
    intro c hc
    rcases List.mem_append.1 hc with hc | hc
    · exact (h0 c hc).2
    · rcases hnl with rfl | rfl
      · cases hc
      · rw [List.mem_singleton] at hc; omega
  have hw := word_setting (name_chars k).1 ha h0'
  have hs := scan_setting (name_chars k).1 (name_chars k).2 ha hb hv hvs ht hnl h0'
  have hh : ¬(((Line.name k a b v tail).text ++ nl).head? = some 35 ∨ ((Line.name k a b v tail).text ++ nl).head? = some 10) := by
    rw [Line.text, List.append_assoc]; exact head_setting (name_chars k).1 (name_chars k).2
  rw [doLine, if_neg hh]
  simp only [Line.text] at hw hs ⊢
  simp only [hw, hs, find_name, Option.getD_some]
  have e1 : str "uname" ≠ str "gname" := by decide
  have e2 : str "our_host_name" ≠ str "gname" := by decide
  have e3 : str "our_host_name" ≠ str "uname" := by decide
  cases k <;> simp only [Name.str, e1, e1.symm, e2, e3, if_true, if_false, Option.some.injEq, St.mk.injEq, and_true] <;>
    (apply conf_ext <;> simp [apply, Line.gives, Line.givesName, Line.givesSectors])

theorem setSectors_apply (c : Conf) (a b tail : Str) {v : Sectors} (h : ∀ n, v = .num n → 0 ≤ n ∧ n < 2147483648) :
    setSectors c v.str = apply c (.sectors a b v tail) := by
  cases v with
  | ignore =>
    have : hasSub (str "ignore") (Sectors.str .ignore) = true := by decide
    rw [setSectors.eq_def, if_pos this]
    apply conf_ext <;> simp [apply, Line.gives, Line.givesName, Line.givesSectors]
  | align =>
    have h1 : ¬hasSub (str "ignore") (Sectors.str .align) = true := by decide
    have h2 : hasSub (str "align") (Sectors.str .align) = true := by decide
    rw [setSectors.eq_def, if_neg h1, if_pos h2]
    apply conf_ext <;> simp [apply, Line.gives, Line.givesName, Line.givesSectors]
  | num n =>
    obtain ⟨hn0, hn⟩ := h n rfl
    have h1 : ¬hasSub (str "ignore") (Sectors.str (.num n)) = true := by
      rw [Sectors.str, digit_not_sub (t := str "ignore") ⟨105, _, rfl, by decide⟩ (decInt_char n)]; decide
    have h2 : ¬hasSub (str "align") (Sectors.str (.num n)) = true := by
      rw [Sectors.str, digit_not_sub (t := str "align") ⟨97, _, rfl, by decide⟩ (decInt_char n)]; decide
    rw [setSectors.eq_def, if_neg h1, if_neg h2]
    have hat := atoi_decInt (n := n) (by omega) hn
    rw [Sectors.str]
    have hd : decInt n = dec n.natAbs := by rw [decInt, if_neg (by omega)]
    cases hc : decInt n with
    | nil => exact absurd hc (decInt_ne n)
    | cons d t =>
      have hdig : 48 ≤ d ∧ d ≤ 57 := dec_digit n.natAbs d (by rw [← hd, hc]; simp)
      rw [hc] at hat
      simp only [hat]
      rw [if_pos hdig]
      by_cases hv : 0 < n ∧ n % 2 = 0 ∧ n ≤ 8192
      · rw [if_neg (by omega)]
        apply conf_ext <;> simp [apply, Line.gives, Line.givesName, Line.givesSectors, hv]
      · rw [if_pos (by omega)]
        apply conf_ext <;> simp [apply, Line.gives, Line.givesName, Line.givesSectors, hv]

theorem doLine_sectors {s : St} {v : Sectors} {a b tail nl : Str} (h : (Line.sectors a b v tail).ok) (hnl : Nl nl) :
    doLine s ((Line.sectors a b v tail).text ++ nl) = some ⟨apply s.conf (.sectors a b v tail), s.val⟩ := by
  obtain ⟨_, h0, ha, hb, ht, hv⟩ := h
  have h0' : ∀ c ∈ (Line.sectors a b v tail).text ++ nl, c ≠ 0 := by
    intro c hc
    rcases List.mem_append.1 hc with hc | hc
    · exact (h0 c hc).2
    · rcases hnl with rfl | rfl
      · cases hc
      · rw [List.mem_singleton] at hc; omega
  have hwc : WordChars (str "max_sectors_kb") ∧ str "max_sectors_kb" ≠ [] := ⟨by unfold WordChars; decide, by decide⟩
  have hvs : v.str ≠ [] ∧ ∀ c ∈ v.str, isSpace c = false := by
    cases v with
    | ignore => exact ⟨by decide, by decide⟩
    | align => exact ⟨by decide, by decide⟩
    | num n => exact ⟨decInt_ne n, fun c hc => by have := decInt_char n c hc; simp [isSpace]; omega⟩
  have hw := word_setting hwc.1 ha h0'
  have hs := scan_setting hwc.1 hwc.2 ha hb hvs.1 hvs.2 ht hnl h0'
  have hh : ¬(((Line.sectors a b v tail).text ++ nl).head? = some 35 ∨ ((Line.sectors a b v tail).text ++ nl).head? = some 10) := by
    rw [Line.text, List.append_assoc]; exact head_setting hwc.1 hwc.2
  rw [doLine, if_neg hh]
  simp only [Line.text] at hw hs ⊢
  simp only [hw, hs, find_sectors, Option.getD_some]
  rw [if_neg (by decide), if_neg (by decide), if_neg (by decide), if_pos trivial, setSectors_apply s.conf a b tail hv]

theorem apply_none (c : Conf) {l : Line} (h : l = .blank ∨ (∃ t, l = .comment t) ∨ ∃ t, l = .other t) : apply c l = c := by
  rcases h with rfl | ⟨t, rfl⟩ | ⟨t, rfl⟩ <;> (apply conf_ext <;> simp [apply, Line.gives, Line.givesName, Line.givesSectors])

/-- The first word is the beginning of the line. -/
theorem word_begins {t nl : Str} (hnl : Nl nl) (h0 : ∀ c ∈ t, c ≠ 10 ∧ c ≠ 0) : Begins (word (t ++ nl)) t := by
  have h0' : ∀ c ∈ t ++ nl, c ≠ 0 := by
    intro c hc
    rcases List.mem_append.1 hc with hc | hc
    · exact (h0 c hc).2
    · rcases hnl with rfl | rfl
      · cases hc
      · rw [List.mem_singleton] at hc; omega
  rw [word, cstr_id h0']
  clear h0'
  induction t with
  | nil =>
    refine ⟨[], ?_, Or.inl rfl⟩
    rcases hnl with rfl | rfl <;> rfl
  | cons c t ih =>
    by_cases hc : c = 32 ∨ c = 61 ∨ c = 9
    · refine ⟨c :: t, ?_, Or.inr ⟨c, t, rfl, hc⟩⟩
      rw [List.cons_append, List.takeWhile_cons_of_neg]
      · rfl
      · rcases hc with rfl | rfl | rfl <;> decide
    · have := (h0 c (by simp)).1
      obtain ⟨r, h1, h2⟩ := ih (fun x hx => h0 x (by simp [hx]))
      refine ⟨r, ?_, h2⟩
      rw [List.cons_append, List.takeWhile_cons_of_pos, List.cons_append, ← h1]
      simp; omega

theorem key_of_mem {p : Key × Str} (h : p ∈ keys) : p.2 = p.1.str := by
  revert p; decide

theorem doLine_other {s : St} {t nl : Str} (h : (Line.other t).ok) (hnl : Nl nl) :
    doLine s ((Line.other t).text ++ nl) = some ⟨apply s.conf (.other t), s.val⟩ := by
  obtain ⟨_, h0, hne, hk, hn, hs⟩ := h
  have hb := word_begins hnl h0
  rw [apply_none _ (Or.inr (Or.inr ⟨t, rfl⟩))]
  rw [doLine]
  split
  · rfl
  · have hf : keys.find? (fun p => p.2 = word ((Line.other t).text ++ nl)) = none := by
      rw [List.find?_eq_none]
      intro p hp he
      rw [decide_eq_true_eq, key_of_mem hp] at he
      exact hk p.1 (by rw [he]; exact hb)
    simp only [hf]
    rw [if_neg, if_neg, if_neg, if_neg]
    · intro he; exact hs (he ▸ hb)
    · intro he; exact hn .hostName (by rw [Name.str, ← he]; exact hb)
    · intro he; exact hn .gname (by rw [Name.str, ← he]; exact hb)
    · intro he; exact hn .uname (by rw [Name.str, ← he]; exact hb)

theorem doLine_ok {s : St} {l : Line} {nl : Str} (h : l.ok) (hnl : Nl nl) (hne : l.text ++ nl ≠ []) :
    ∃ v, doLine s (l.text ++ nl) = some ⟨apply s.conf l, v⟩ := by
  cases l with
  | blank =>
    rcases hnl with rfl | rfl
    · exact absurd rfl hne
    · exact ⟨s.val, by rw [apply_none _ (Or.inl rfl)]; rfl⟩
  | comment t => exact ⟨s.val, by rw [apply_none _ (Or.inr (Or.inl ⟨t, rfl⟩))]; rfl⟩
  | num k a b n tail => obtain ⟨v, h⟩ := doLine_num (s := s) h hnl; exact ⟨_, h⟩
  | name k a b v tail => exact ⟨_, doLine_name h hnl⟩
  | sectors a b v tail => exact ⟨_, doLine_sectors h hnl⟩
  | other t => exact ⟨_, doLine_other h hnl⟩

/-! ## Reading the file -/

theorem getLine_nl {t : Str} : ∀ {n : Nat} {rest : Str}, (∀ c ∈ t, c ≠ 10) → t.length < n → getLine n (t ++ 10 :: rest) = (t ++ [10], rest) := by
  induction t with
  | nil =>
    intro n rest _ hn
    cases n with
    | zero => simp at hn
    | succ n => simp [getLine]
  | cons c t ih =>
    intro n rest h hn
    cases n with
    | zero => simp at hn
    | succ n =>
      have := ih (n := n) (rest := rest) (fun x hx => h x (by simp [hx])) (by simp at hn; omega)
      simp [getLine, h c (by simp), this]

theorem getLine_end {t : Str} : ∀ {n : Nat}, (∀ c ∈ t, c ≠ 10) → t.length ≤ n → getLine n t = (t, []) := by
  induction t with
  | nil => intro n _ _; cases n <;> rfl
  | cons c t ih =>
    intro n h hn
    cases n with
    | zero => simp at hn
    | succ n =>
      have := ih (n := n) (fun x hx => h x (by simp [hx])) (by simp at hn; omega)
      simp [getLine, h c (by simp), this]

theorem loop_file (ls : List Line) : ∀ (n : Nat) (s : St), (∀ l ∈ ls, l.ok) → (file ls).length ≤ n →
    ∃ v, loop n s (file ls) = some ⟨ls.foldl apply s.conf, v⟩ := by
  induction ls with
  | nil => intro n s _ _; exact ⟨s.val, by cases n <;> rfl⟩
  | cons l ls ih =>
    intro n s h hn
    have hl := h l (by simp)
    cases ls with
    | nil =>
      rw [file] at hn ⊢
      by_cases he : l.text = []
      · have : l = .blank := by
          cases l with
          | blank => rfl
          | comment t => simp [Line.text] at he
          | num k a b n tail => simp [Line.text] at he
          | name k a b n tail => simp [Line.text] at he
          | sectors a b n tail => simp [Line.text] at he
          | other t => exact absurd he hl.2.2.1
        subst this
        refine ⟨s.val, ?_⟩
        simp only [List.foldl_cons, List.foldl_nil, apply_none _ (Or.inl rfl)]
        cases n <;> rfl
      · obtain ⟨v, hv⟩ := doLine_ok (s := s) (nl := []) hl (Or.inl rfl) (by simpa using he)
        rw [List.append_nil] at hv
        cases ht : l.text with
        | nil => exact absurd ht he
        | cons c t =>
          cases n with
          | zero => rw [ht] at hn; simp at hn
          | succ n =>
            have hg := getLine_end (t := l.text) (n := room) (fun c hc => (hl.2.1 c hc).1) (by have := hl.1; simp only [room]; omega)
            rw [ht] at hg hv
            refine ⟨v, ?_⟩
            rw [loop, hg]
            simp only [hv]
            cases n <;> rfl
    | cons l' ls =>
      have hf : file (l :: l' :: ls) = l.text ++ 10 :: file (l' :: ls) := by rw [file]; simp
      rw [hf] at hn ⊢
      · obtain ⟨v, hv⟩ := doLine_ok (s := s) (nl := [10]) hl (Or.inr rfl) (by simp)
        have hg := getLine_nl (t := l.text) (n := room) (rest := file (l' :: ls)) (fun c hc => (hl.2.1 c hc).1)
          (by have := hl.1; simp only [room]; omega)
        obtain ⟨c, t, ht⟩ : ∃ c t, l.text ++ 10 :: file (l' :: ls) = c :: t := by
          cases l.text with
          | nil => exact ⟨_, _, rfl⟩
          | cons c t => exact ⟨_, _, rfl⟩
        cases n with
        | zero => rw [ht] at hn; simp at hn
        | succ n =>
          obtain ⟨w, hw⟩ := ih n ⟨apply s.conf l, v⟩ (fun x hx => h x (by simp [hx])) (by simp at hn; omega)
          refine ⟨w, ?_⟩
          rw [ht] at hg ⊢
          rw [loop, hg]
          simp only [hv]
          rw [hw]; rfl

theorem last_cons {α : Type} (f : Line → Option α) (l : Line) (ls : List Line) (d : α) :
    last f (l :: ls) d = last f ls ((f l).getD d) := by
  rw [last, last]
  cases h : f l with
  | none => rw [List.filterMap_cons_none h]; rfl
  | some x =>
    rw [List.filterMap_cons_some h]
    cases ls.filterMap f with
    | nil => rfl
    | cons y t => simp [List.getLast?_cons_cons, List.getLast?_cons]

theorem foldl_apply (ls : List Line) : ∀ c : Conf,
    (∀ k, (ls.foldl apply c).int k = last (Line.gives k) ls (c.int k)) ∧
    ((ls.foldl apply c).killGraceSet = true ↔ c.killGraceSet = true ∨ ∃ l ∈ ls, ∃ n, l.gives .killGraceSeconds = some n) ∧
    ((ls.foldl apply c).readExtendSet = true ↔ c.readExtendSet = true ∨ ∃ l ∈ ls, ∃ n, l.gives .renewalReadExtendSec = some n) ∧
    (ls.foldl apply c).uname = last (fun l => (l.givesName .uname).map some) ls c.uname ∧
    (ls.foldl apply c).gname = last (fun l => (l.givesName .gname).map some) ls c.gname ∧
    (ls.foldl apply c).hostName = last (fun l => (l.givesName .hostName).map (·.take 48)) ls c.hostName ∧
    (ls.foldl apply c).sectors = last Line.givesSectors ls c.sectors := by
  induction ls with
  | nil => intro c; simp [last]
  | cons l ls ih =>
    intro c
    obtain ⟨h1, h2, h3, h4, h5, h6, h7⟩ := ih (apply c l)
    simp only [List.foldl_cons, last_cons]
    refine ⟨h1, ?_, ?_, h4, h5, h6, h7⟩
    · rw [h2]; simp [apply, or_assoc, Option.isSome_iff_exists]
    · rw [h3]; simp [apply, or_assoc, Option.isSome_iff_exists]

/-! ## The theorem -/

/-- Reading a file of proper lines, whatever their number and order: every setting has the last value given for it, and if none is given the
value it had before. -/
theorem config_spec_partial (c : Conf) {ls : List Line} (h : ∀ l ∈ ls, l.ok) : ∃ c', readConfig c (file ls) = some c' ∧
    (∀ k, c'.int k = last (Line.gives k) ls (c.int k)) ∧
    (c'.killGraceSet = true ↔ c.killGraceSet = true ∨ ∃ l ∈ ls, ∃ n, l.gives .killGraceSeconds = some n) ∧
    (c'.readExtendSet = true ↔ c.readExtendSet = true ∨ ∃ l ∈ ls, ∃ n, l.gives .renewalReadExtendSec = some n) ∧
    c'.uname = last (fun l => (l.givesName .uname).map some) ls c.uname ∧
    c'.gname = last (fun l => (l.givesName .gname).map some) ls c.gname ∧
    c'.hostName = last (fun l => (l.givesName .hostName).map (·.take 48)) ls c.hostName ∧
    c'.sectors = last Line.givesSectors ls c.sectors := by
  obtain ⟨v, hv⟩ := loop_file ls (file ls).length ⟨c, none⟩ h (Nat.le_refl _)
  exact ⟨_, by rw [readConfig, hv]; rfl, foldl_apply ls c⟩

/-- The defaults (`src/main.c:3915-3935`). -/
def defaults : Conf :=
  { int := fun k => match k with
      | .quietFail => 1 | .debugRenew => 0 | .useAio => 1 | .logfilePriority => 4 | .logfileUseUtc => 0 | .syslogPriority => 3
      | .namesLogPriority => 4 | .useWatchdog => 1 | .ioTimeout => 10 | .watchdogFireTimeout => 60 | .killGraceSeconds => 40
      | .highPriority => 0 | .mlockLevel => 1 | .shRetries => 8 | .renewalReadExtendSec => 0 | .writeInitIoTimeout => 60
      | .renewalHistorySize => 180 | .paxosDebugAll => 0 | .debugClients => 0 | .maxWorkerThreads => 8
    killGraceSet := false, readExtendSet := false, uname := none, gname := none, hostName := [], sectors := .num 1024 }

/-- A file with comments, a value out of range, a repeated setting, a tab and an indented line. -/
def exFile : List Line :=
  [.comment (str " io_timeout = 7"), .num .ioTimeout [32] [32] 5 [], .num .watchdogFireTimeout [] [] 30 (str " # seconds"), .blank,
   .num .killGraceSeconds [9] [32] 61 [], .num .ioTimeout [32] [32] 2 [], .num .ioTimeout [32] [32] (-3) [],
   .name .hostName [32] [32] (str "node1") [], .sectors [32] [32] (.num 512) [], .sectors [32] [32] (.num 511) [],
   .other (str "  use_watchdog = 0"), .other (str "io_timeouts = 9")]

theorem begins_of {w t : Str} (h : Begins w t) : w.isPrefixOf t = true ∧ ((t.drop w.length).head? = none ∨
    ∃ c, (t.drop w.length).head? = some c ∧ (c = 32 ∨ c = 61 ∨ c = 9)) := by
  obtain ⟨r, rfl, h⟩ := h
  refine ⟨by simp, ?_⟩
  rw [List.drop_left]
  rcases h with rfl | ⟨c, u, rfl, hc⟩
  · exact Or.inl rfl
  · exact Or.inr ⟨c, rfl, hc⟩

/-- Decides that a line does not begin with a word. -/
def notBegins (w t : Str) : Bool :=
  !w.isPrefixOf t || match (t.drop w.length).head? with
    | none => false
    | some c => !(c = 32 || c = 61 || c = 9)

theorem not_begins {w t : Str} (h : notBegins w t = true) : ¬Begins w t := by
  intro hb
  obtain ⟨h1, h2⟩ := begins_of hb
  rw [notBegins, h1] at h
  rcases h2 with h2 | ⟨c, h2, hc⟩
  · rw [h2] at h; simp at h
  · rw [h2] at h
    rcases hc with rfl | rfl | rfl <;> simp at h

theorem other_ok {t : Str} (h1 : t.length ≤ 126) (h2 : ∀ c ∈ t, c ≠ 10 ∧ c ≠ 0) (h3 : t ≠ [])
    (h4 : ∀ p ∈ keys, notBegins p.2 t = true)
    (h5 : notBegins (str "uname") t = true ∧ notBegins (str "gname") t = true ∧ notBegins (str "our_host_name") t = true ∧
      notBegins (str "max_sectors_kb") t = true) : (Line.other t).ok := by
  refine ⟨h1, h2, h3, fun k => ?_, fun k => ?_, not_begins h5.2.2.2⟩
  · have hm : (k, k.str) ∈ keys := by cases k <;> decide
    exact not_begins (h4 _ hm)
  · cases k
    · exact not_begins h5.1
    · exact not_begins h5.2.1
    · exact not_begins h5.2.2.1

example : (∀ l ∈ exFile, l.ok) ∧ last (Line.gives .ioTimeout) exFile 10 = 2 ∧ last (Line.gives .killGraceSeconds) exFile 40 = 40 ∧
    last (Line.gives .useWatchdog) exFile 1 = 1 ∧ last Line.givesSectors exFile (.num 1024) = .num 512 ∧
    (readConfig defaults (file exFile)).any (fun c => c.int .ioTimeout = 2 ∧ c.int .watchdogFireTimeout = 30 ∧ c.hostName = str "node1") = true := by
  refine ⟨?_, by decide, by decide, by decide, by decide, by decide +kernel⟩
  intro l hl
  simp only [exFile, List.mem_cons, List.not_mem_nil, or_false] at hl
  have b1 : Blanks [32] := by unfold Blanks; decide
  have b2 : Blanks [] := by unfold Blanks; decide
  have b3 : Blanks [9] := by unfold Blanks; decide
  rcases hl with rfl | rfl | rfl | rfl | rfl | rfl | rfl | rfl | rfl | rfl | rfl | rfl
  · exact ⟨by decide, by decide, trivial⟩
  · exact ⟨by decide, by decide, b1, b1, Or.inl rfl, by decide, by decide⟩
  · exact ⟨by decide, by decide, b2, b2, Or.inr ⟨32, _, rfl, Or.inl rfl⟩, by decide, by decide⟩
  · exact ⟨by decide, by decide, trivial⟩
  · exact ⟨by decide, by decide, b3, b1, Or.inl rfl, by decide, by decide⟩
  · exact ⟨by decide, by decide, b1, b1, Or.inl rfl, by decide, by decide⟩
  · exact ⟨by decide, by decide, b1, b1, Or.inl rfl, by decide, by decide⟩
  · exact ⟨by decide, by decide, b1, b1, Or.inl rfl, by decide, by decide⟩
  · exact ⟨by decide, by decide, b1, b1, Or.inl rfl, fun n h => by cases h; decide⟩
  · exact ⟨by decide, by decide, b1, b1, Or.inl rfl, fun n h => by cases h; decide⟩
  · exact other_ok (by decide) (by decide) (by decide) (by decide) (by decide)
  · exact other_ok (by decide) (by decide) (by decide) (by decide) (by decide)

/-! ## Where it fails -/

/-- A name without a value takes the number of the line before: here the watchdog is switched off by the setting of another one. -/
theorem stale_value_violated (c : Conf) : ∃ c', readConfig c (str "high_priority = 0\nuse_watchdog\n") = some c' ∧ c'.int .useWatchdog = 0 := by
  refine ⟨_, rfl, rfl⟩

/-- As the first setting it reads an uninitialised variable. -/
theorem no_value_violated (c : Conf) : readConfig c (str "use_watchdog\n") = none := rfl

/-- A word in place of the number is zero. -/
theorem word_value_violated (c : Conf) : ∃ c', readConfig c (str "use_watchdog = yes\n") = some c' ∧ c'.int .useWatchdog = 0 :=
  ⟨_, rfl, rfl⟩

/-- A number that does not fit an `int` is cut, not ignored. -/
theorem large_value_violated (c : Conf) : ∃ c', readConfig c (str "io_timeout = 4294967297\n") = some c' ∧ c'.int .ioTimeout = 1 :=
  ⟨_, rfl, rfl⟩

/-- The part of a comment after its 127th character is read as a line of its own: what is commented out takes effect. -/
theorem long_comment_violated (c : Conf) {t : Str} (ht : t.length = 126) (h10 : ∀ x ∈ t, x ≠ 10) {l : Line} (hl : l.ok) :
    readConfig c (35 :: t ++ file [l]) = readConfig c (file [l]) := by
  have hg : getLine room (35 :: t ++ file [l]) = (35 :: t, file [l]) := by
    have : ∀ (u : Str) (n : Nat) (rest : Str), u.length = n → (∀ x ∈ u, x ≠ 10) → getLine n (u ++ rest) = (u, rest) := by
      intro u
      induction u with
      | nil => intro n rest h _; subst h; rfl
      | cons x u ih =>
        intro n rest h hx
        subst h
        simp [getLine, hx x (by simp), ih u.length rest rfl (fun y hy => hx y (by simp [hy]))]
    apply this
    · simp [ht, room]
    · intro x hx
      rcases List.mem_cons.1 hx with rfl | hx
      · decide
      · exact h10 x hx
  have hlen : (35 :: t ++ file [l]).length = (126 + (file [l]).length) + 1 := by simp [ht]
  obtain ⟨v, hv⟩ := loop_file [l] (126 + (file [l]).length) ⟨c, none⟩ (by simpa using hl) (by omega)
  obtain ⟨w, hw⟩ := loop_file [l] (file [l]).length ⟨c, none⟩ (by simpa using hl) (Nat.le_refl _)
  rw [readConfig, readConfig, hlen, hw, List.cons_append, loop, ← List.cons_append, hg]
  have : doLine ⟨c, none⟩ (35 :: t) = some ⟨c, none⟩ := by rw [doLine, if_pos (Or.inl (by rfl))]
  simp only [this, hv]
  rfl

example : ∃ t : Str, t.length = 126 ∧ (∀ x ∈ t, x ≠ 10) ∧
    (readConfig defaults (35 :: t ++ str "use_watchdog = 0")).any (fun c => c.int .useWatchdog = 0) = true :=
  ⟨List.replicate 126 32, by decide +kernel, by decide +kernel, by decide +kernel⟩

end Sanlock.Config
