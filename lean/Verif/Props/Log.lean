import Verif.Log

/-!
# Properties of logging: C46, C47
-/

namespace Sanlock.Log

/-! ## One message -/

/-- With a date of up to 63 bytes and a prefix of up to 127 (the format strings give at most 40 and 90) the message is stored inside
`log_str`: date, prefix, as much of the message as fits, and one newline. -/
theorem line_spec (date pfx msg : Str) (hd : date.length < 64) (hp : pfx.length < 128) :
    line date pfx msg = some (date ++ pfx ++ msg.take (509 - date.length - pfx.length) ++ [10]) ∧
      ∀ l, line date pfx msg = some l → l.length + 1 ≤ strLen := by
  have key : line date pfx msg = some (date ++ pfx ++ msg.take (509 - date.length - pfx.length) ++ [10]) := by
    unfold line
    have hs : strLen = 512 := rfl
    have hd' : (if date.length < strLen - 2 then date else []) = date := if_pos (by omega)
    simp only [hd']
    simp only [stored]
    rw [if_neg (show ¬ date.length + pfx.length > strLen - 2 by omega)]
    have h1 : pfx.take (strLen - 2 - date.length - 1) = pfx := List.take_of_length_le (by omega)
    rw [h1]
    split
    · rename_i h
      rw [if_neg (by omega)]
      congr 2
      rw [List.take_of_length_le]
      · congr 2; omega
      · simp only [List.length_append, List.length_take]; omega
    · rename_i h
      rw [if_neg (by omega)]
      congr 2
      rw [List.take_of_length_le]
      · congr 2; omega
      · simp only [List.length_append, List.length_take]; omega
  refine ⟨key, ?_⟩
  intro l hl
  rw [key] at hl
  injection hl with hl
  subst hl
  simp only [List.length_append, List.length_take, List.length_cons, List.length_nil, strLen]
  omega

example : line (List.replicate 20 50) (List.replicate 30 51) (List.replicate 1000 65) =
    some (List.replicate 20 50 ++ List.replicate 30 51 ++ List.replicate 459 65 ++ [10]) := by decide +kernel

/-! ## The dump buffer -/

theorem put_foldl (s : Str) : ∀ (d : Dump), s.length < d.buf.length - d.point →
    s.foldl put d = { d with
      buf := d.buf.take d.point ++ s ++ d.buf.drop (d.point + s.length), point := d.point + s.length } := by
  induction s with
  | nil => intro d _; simp
  | cons b s ih =>
    intro d h
    simp only [List.length_cons] at h
    have hp : put d b = { d with buf := d.buf.set d.point b, point := d.point + 1 } := by
      unfold put
      simp only
      rw [if_neg (by omega)]
    rw [List.foldl_cons, hp, ih _ (by simp only [List.length_set]; omega)]
    simp only [List.length_cons]
    congr 1
    · rw [List.take_set, List.drop_set]
      rw [if_pos (by omega)]
      have h2 : (d.buf.take (d.point + 1)).set d.point b = d.buf.take d.point ++ [b] := by
        apply List.ext_getElem?
        intro i
        rw [List.getElem?_set]
        simp only [List.length_take, List.getElem?_append, List.getElem?_take]
        split
        · subst_vars
          rw [if_pos (by omega), if_neg (by omega)]
          have : min d.point d.buf.length = d.point := by omega
          simp [this]
        · rename_i hne
          by_cases h3 : i < d.point
          · rw [if_pos (by omega), if_pos (by omega)]; simp [h3]
          · rw [if_neg (by omega), if_neg (by omega)]
            rw [List.getElem?_eq_none]
            simp only [List.length_cons, List.length_nil]; omega
      rw [h2]
      simp only [List.append_assoc, List.singleton_append, List.cons_append]
      have e1 : d.point + 1 + s.length = d.point + (s.length + 1) := by omega
      rw [e1]
      rfl
    · omega

/-- Both branches of `_log_save_dump` do the same. -/
theorem saveDump_eq (d : Dump) (s : Str) : saveDump d s = s.foldl put d := by
  unfold saveDump
  simp only
  split
  · rename_i h
    rw [put_foldl s d h, if_neg (by omega)]
  · rfl

structure DInv (size : Nat) (all : Str) (d : Dump) : Prop where
  len : d.buf.length = size
  point : d.point = all.length % size
  wrap : d.wrap = decide (size ≤ all.length)
  bytes : ∀ j, j < all.length → all.length ≤ j + size → d.buf[j % size]? = all[j]?

theorem mod_inj {n a b : Nat} (h : a % n = b % n) (hab : a ≤ b) (hlt : b < a + n) : a = b := by
  have h1 := Nat.div_add_mod a n
  have h2 := Nat.div_add_mod b n
  rcases Nat.lt_or_ge (a / n) (b / n) with h3 | h3
  · have h4 : n * (a / n + 1) ≤ n * (b / n) := Nat.mul_le_mul_left n h3
    rw [Nat.mul_add] at h4
    omega
  · have h4 : n * (b / n) ≤ n * (a / n) := Nat.mul_le_mul_left n h3
    omega

theorem mod_succ {n a : Nat} (hn : 0 < n) : (a + 1) % n = if a % n + 1 = n then 0 else a % n + 1 := by
  have h1 := Nat.mod_lt a hn
  rw [Nat.add_mod]
  by_cases h : n = 1
  · subst h; simp [Nat.mod_one]
  · have : 1 % n = 1 := Nat.mod_eq_of_lt (by omega)
    rw [this]
    split
    · rename_i h2; rw [h2]; exact Nat.mod_self n
    · exact Nat.mod_eq_of_lt (by omega)

theorem dinv_put {size : Nat} {all : Str} {d : Dump} (hs : 0 < size) (hi : DInv size all d) (b : Nat) :
    DInv size (all ++ [b]) (put d b) := by
  have hlt : d.point < size := by rw [hi.point]; exact Nat.mod_lt _ hs
  have hsucc := mod_succ (a := all.length) hs
  rw [← hi.point] at hsucc
  have hb : ∀ j, j < (all ++ [b]).length → (all ++ [b]).length ≤ j + size →
      (d.buf.set d.point b)[j % size]? = (all ++ [b])[j]? := by
    intro j h1 h2
    simp only [List.length_append, List.length_cons, List.length_nil] at h1 h2
    rw [List.getElem?_set, List.getElem?_append]
    by_cases hj : j < all.length
    · rw [if_pos hj, if_neg, hi.bytes j hj (by omega)]
      intro he
      rw [hi.point] at he
      have := mod_inj he.symm (by omega) (by omega)
      omega
    · have : j = all.length := by omega
      subst this
      rw [if_pos hi.point, if_pos (by rw [hi.len]; exact hlt), if_neg hj]
      simp
  have hle : all.length % size ≤ all.length := Nat.mod_le _ _
  unfold put
  simp only
  split
  · rename_i h
    rw [hi.len] at h
    refine ⟨by simpa using hi.len, ?_, ?_, hb⟩
    · simp only [List.length_append, List.length_cons, List.length_nil]
      rw [hsucc, if_pos h]
    · simp only [List.length_append, List.length_cons, List.length_nil]
      have := hi.point
      exact (decide_eq_true (by omega)).symm
  · rename_i h
    rw [hi.len] at h
    refine ⟨by simpa using hi.len, ?_, ?_, hb⟩
    · simp only [List.length_append, List.length_cons, List.length_nil]
      rw [hsucc, if_neg h]
    · simp only [List.length_append, List.length_cons, List.length_nil]
      rw [hi.wrap]
      have := hi.point
      by_cases h3 : size ≤ all.length
      · rw [decide_eq_true h3, decide_eq_true (by omega)]
      · have : all.length % size = all.length := Nat.mod_eq_of_lt (by omega)
        rw [decide_eq_false h3, decide_eq_false (by omega)]

theorem dinv_foldl {size : Nat} (hs : 0 < size) (s : Str) : ∀ {all : Str} {d : Dump}, DInv size all d →
    DInv size (all ++ s) (s.foldl put d) := by
  induction s with
  | nil => intro all d h; simpa using h
  | cons b s ih =>
    intro all d h
    have := ih (dinv_put hs h b)
    simpa using this

theorem dinv_init {size : Nat} (hs : 0 < size) : DInv size [] (Dump.init size) :=
  ⟨by simp [Dump.init], by simp [Dump.init], by simp [Dump.init]; omega, fun j h => by simp at h⟩

theorem dinv_msgs {size : Nat} (hs : 0 < size) (msgs : List Str) : ∀ {all : Str} {d : Dump}, DInv size all d →
    DInv size (all ++ msgs.flatten) (msgs.foldl saveDump d) := by
  induction msgs with
  | nil => intro all d h; simpa using h
  | cons m l ih =>
    intro all d h
    rw [List.foldl_cons, saveDump_eq]
    have := ih (dinv_foldl hs m h)
    simpa [List.flatten_cons] using this

theorem copy_spec {size : Nat} {all : Str} {d : Dump} (hs : 0 < size) (hi : DInv size all d) :
    copyDump d = if all.length < size then all.dropLast else all.drop (all.length - size) := by
  have hlt : d.point < size := by rw [hi.point]; exact Nat.mod_lt _ hs
  unfold copyDump
  by_cases h : all.length < size
  · rw [if_pos h]
    have hw : d.wrap = false := by rw [hi.wrap]; exact decide_eq_false (by omega)
    have hp : d.point = all.length := by rw [hi.point]; exact Nat.mod_eq_of_lt h
    by_cases h0 : all.length = 0
    · rw [if_pos ⟨hw, by omega⟩, List.length_eq_zero_iff.1 h0]; rfl
    · rw [if_neg (by omega), hw]
      simp only [Bool.false_eq_true, if_false]
      rw [List.dropLast_eq_take, hp]
      apply List.ext_getElem?
      intro i
      rw [List.getElem?_take, List.getElem?_take]
      split
      · have := hi.bytes i (by omega) (by omega)
        rwa [Nat.mod_eq_of_lt (by omega)] at this
      · rfl
  · rw [if_neg h]
    have hw : d.wrap = true := by rw [hi.wrap]; exact decide_eq_true (by omega)
    rw [if_neg (by simp [hw]), hw, if_pos rfl]
    apply List.ext_getElem?
    intro i
    rw [List.getElem?_append, List.getElem?_drop, List.getElem?_drop, List.getElem?_take, List.length_drop, hi.len]
    have hdm := Nat.div_add_mod all.length size
    rw [← hi.point] at hdm
    have hq : 1 ≤ all.length / size := (Nat.le_div_iff_mul_le hs).2 (by omega)
    have hqm : size * 1 ≤ size * (all.length / size) := Nat.mul_le_mul_left _ hq
    by_cases h1 : i < size - d.point
    · rw [if_pos h1, ← hi.bytes _ (by omega) (by omega)]
      congr 1
      have : all.length - size + i = (d.point + i) + size * (all.length / size - 1) := by
        rw [Nat.mul_sub]; omega
      rw [this, Nat.add_mul_mod_self_left, Nat.mod_eq_of_lt (by omega)]
    · rw [if_neg h1]
      by_cases h2 : i < size
      · rw [if_pos (by omega), ← hi.bytes _ (by omega) (by omega)]
        congr 1
        have : all.length - size + i = (i - (size - d.point)) + size * (all.length / size) := by omega
        rw [this, Nat.add_mul_mod_self_left, Nat.mod_eq_of_lt (by omega)]
      · rw [if_neg (by omega), List.getElem?_eq_none (by omega)]

/-- C47: the dump is the text of all messages, in order; once they exceed the buffer, exactly the last `size` bytes of it.  Before that the final
newline is missing. -/
theorem dump_spec (size : Nat) (hs : 0 < size) (msgs : List Str) :
    copyDump (msgs.foldl saveDump (Dump.init size)) =
      if msgs.flatten.length < size then msgs.flatten.dropLast
      else msgs.flatten.drop (msgs.flatten.length - size) := by
  have := copy_spec hs (dinv_msgs hs msgs (dinv_init hs))
  simpa using this

/-- C47: no byte of the buffer outside its bounds is used: the position stays inside and the buffer keeps its size. -/
theorem dump_bounds (size : Nat) (hs : 0 < size) (msgs : List Str) :
    (msgs.foldl saveDump (Dump.init size)).point < size ∧
      (msgs.foldl saveDump (Dump.init size)).buf.length = size ∧
      (copyDump (msgs.foldl saveDump (Dump.init size))).length ≤ size := by
  have hi := dinv_msgs hs msgs (dinv_init hs)
  refine ⟨?_, hi.len, ?_⟩
  · rw [hi.point]; exact Nat.mod_lt _ hs
  · rw [dump_spec size hs]
    split
    · simp only [List.length_dropLast]; omega
    · simp only [List.length_drop]; omega

example : copyDump ([[1, 2, 10], [3, 4, 5, 10]].foldl saveDump (Dump.init 5)) = [10, 3, 4, 5, 10] := by decide
example : copyDump ([[1, 2, 10], [3, 4, 5, 10]].foldl saveDump (Dump.init 9)) = [1, 2, 10, 3, 4, 5] := by decide

/-! ## The entries -/

/-- Everything logged by a list of actions, in order. -/
def logged : List Act → List Ent
  | [] => []
  | .log e :: l => e :: logged l
  | _ :: l => logged l

/-- What the log file should contain: the messages with sufficient priority. -/
def fileWanted (p : Prio) (acts : List Act) : List Str :=
  ((logged acts).filter (fun e => decide (e.level ≤ p.file))).map Ent.str

def syslogWanted (p : Prio) (acts : List Act) : List Str :=
  ((logged acts).filter (fun e => decide (e.level ≤ p.syslog))).map Ent.str

/-- The messages in a log. -/
def texts (l : List Rec) : List Str :=
  l.filterMap fun | .text s => some s | .dropped _ => none

/-- The number of messages that a log reports as dropped. -/
def droppedSum (l : List Rec) : Nat :=
  (l.map fun | .text _ => 0 | .dropped n => n).sum

/-- Messages the log thread has in hand: one, and the number it is about to report as dropped. -/
def inHand : Thr → Nat
  | .writing _ n => 1 + n
  | _ => 0

def hand : Thr → List Ent
  | .writing e _ => [e]
  | _ => []

theorem logged_append (a b : List Act) : logged (a ++ b) = logged a ++ logged b := by
  induction a with
  | nil => rfl
  | cons x a ih => cases x <;> simp [logged, ih]

theorem texts_append (a b : List Rec) : texts (a ++ b) = texts a ++ texts b := by simp [texts]

theorem droppedSum_append (a b : List Rec) : droppedSum (a ++ b) = droppedSum a + droppedSum b := by
  simp [droppedSum, List.sum_append]

theorem run_append (p : Prio) (a b : List Act) (s : St) :
    run p s (a ++ b) = (run p s a).bind (fun s' => run p s' b) := by
  induction a generalizing s with
  | nil => rfl
  | cons x a ih =>
    simp only [List.cons_append, run]
    cases step p s x <;> simp [ih]

/-- The ring holds the queue `q`. -/
structure Ring (n : Nat) (s : St) (q : List Ent) : Prop where
  len : s.ents.length = n
  pend : q.length = s.pending
  le : s.pending ≤ n
  tail : s.tail < n
  head : s.head = (s.tail + s.pending) % n
  ents : ∀ i, i < q.length → s.ents[(s.tail + i) % n]? = q[i]?

structure QInv (p : Prio) (n : Nat) (acts : List Act) (s : St) (kept q : List Ent) : Prop where
  ring : Ring n s q
  sub : kept.Sublist ((logged acts).filter (fun e => decide (e.level ≤ p.file ∨ e.level ≤ p.syslog)))
  file : texts s.file ++ ((hand s.thr ++ q).filter (fun e => decide (e.level ≤ p.file))).map Ent.str =
    (kept.filter (fun e => decide (e.level ≤ p.file))).map Ent.str
  sys : texts s.syslog ++ ((hand s.thr ++ q).filter (fun e => decide (e.level ≤ p.syslog))).map Ent.str =
    (kept.filter (fun e => decide (e.level ≤ p.syslog))).map Ent.str
  prio : ∀ e, e ∈ hand s.thr ++ q → e.level ≤ p.file ∨ e.level ≤ p.syslog
  count : p.syslog ≤ p.file →
    (fileWanted p acts).length = (texts s.file).length + droppedSum s.file + inHand s.thr + s.pending + s.dropped

theorem qinv_init (p : Prio) {n : Nat} (hn : 0 < n) : QInv p n [] (St.init n) [] [] := by
  refine ⟨⟨by simp [St.init], rfl, by simp [St.init], hn, by simp [St.init], by simp⟩, by simp [logged], rfl, rfl, ?_, ?_⟩
  · simp [St.init, hand]
  · intro _; rfl

theorem logged_snoc_log (acts : List Act) (e : Ent) : logged (acts ++ [.log e]) = logged acts ++ [e] := by
  rw [logged_append]; rfl

theorem qinv_log {p : Prio} {n : Nat} {acts : List Act} {s : St} {kept q : List Ent} (hn : 0 < n)
    (hi : QInv p n acts s kept q) (e : Ent) :
    ∃ kept' q', QInv p n (acts ++ [.log e]) (logLevel p s e) kept' q' := by
  unfold logLevel
  by_cases hl : e.level ≤ p.file ∨ e.level ≤ p.syslog
  · rw [if_pos hl]
    unfold saveEnt
    rw [hi.ring.len]
    have hsub : ((logged (acts ++ [.log e])).filter (fun e => decide (e.level ≤ p.file ∨ e.level ≤ p.syslog))) =
        ((logged acts).filter (fun e => decide (e.level ≤ p.file ∨ e.level ≤ p.syslog))) ++ [e] := by
      rw [logged_snoc_log, List.filter_append]
      simp [hl]
    have hcnt : p.syslog ≤ p.file → (fileWanted p (acts ++ [.log e])).length = (fileWanted p acts).length + 1 := by
      intro hps
      have : e.level ≤ p.file := by omega
      simp [fileWanted, logged_snoc_log, this]
    split
    · refine ⟨kept, q, ⟨hi.ring.len, hi.ring.pend, hi.ring.le, hi.ring.tail, hi.ring.head, hi.ring.ents⟩, ?_, hi.file, hi.sys, hi.prio, ?_⟩
      · rw [hsub]
        exact hi.sub.trans (List.sublist_append_left _ _)
      · intro hps
        rw [hcnt hps, hi.count hps]
        simp only
        omega
    · rename_i hne
      have hle := hi.ring.le
      refine ⟨kept ++ [e], q ++ [e], ⟨?_, ?_, ?_, hi.ring.tail, ?_, ?_⟩, ?_, ?_, ?_, ?_, ?_⟩
      · simpa using hi.ring.len
      · simp [hi.ring.pend]
      · show s.pending + 1 ≤ n
        omega
      · show (s.head + 1) % n = (s.tail + (s.pending + 1)) % n
        rw [hi.ring.head, Nat.mod_add_mod]
        rfl
      · intro i hlt
        simp only [List.length_append, List.length_cons, List.length_nil] at hlt
        have hp := hi.ring.pend
        show (s.ents.set s.head e)[(s.tail + i) % n]? = _
        rw [List.getElem?_set, List.getElem?_append]
        by_cases h1 : i < q.length
        · rw [if_pos h1, if_neg, hi.ring.ents i h1]
          rw [hi.ring.head]
          intro he
          have := mod_inj he.symm (by omega) (by omega)
          omega
        · have : i = s.pending := by omega
          subst this
          rw [if_pos hi.ring.head, if_neg h1]
          have : s.head < s.ents.length := by rw [hi.ring.len, hi.ring.head]; exact Nat.mod_lt _ hn
          rw [if_pos this]
          simp [hp]
      · rw [hsub]
        exact List.Sublist.append hi.sub (List.Sublist.refl _)
      · have := hi.file
        simp only [← List.append_assoc, List.filter_append, List.map_append] at this ⊢
        rw [← this]
      · have := hi.sys
        simp only [← List.append_assoc, List.filter_append, List.map_append] at this ⊢
        rw [← this]
      · intro e' he'
        simp only [← List.append_assoc, List.mem_append, List.mem_singleton] at he'
        rcases he' with he' | he'
        · exact hi.prio e' (by simpa using he')
        · subst he'; exact hl
      · intro hps
        rw [hcnt hps, hi.count hps]
        simp only
        omega
  · rw [if_neg hl]
    have h1 : ¬ e.level ≤ p.file := fun h => hl (Or.inl h)
    refine ⟨kept, q, hi.ring, ?_, hi.file, hi.sys, hi.prio, ?_⟩
    · rw [logged_snoc_log, List.filter_append]
      simpa [hl] using hi.sub
    · intro hps
      have : fileWanted p (acts ++ [.log e]) = fileWanted p acts := by simp [fileWanted, logged_snoc_log, h1]
      rw [this]; exact hi.count hps

theorem logged_snoc (acts : List Act) (a : Act) (h : ∀ e, a ≠ .log e) : logged (acts ++ [a]) = logged acts := by
  rw [logged_append]
  cases a with
  | log e => exact absurd rfl (h e)
  | take => simp [logged]
  | write => simp [logged]
  | close => simp [logged]

theorem qinv_take {p : Prio} {n : Nat} {acts : List Act} {s s' : St} {kept q : List Ent} (hn : 0 < n)
    (hi : QInv p n acts s kept q) (h : step p s .take = some s') :
    ∃ kept' q', QInv p n (acts ++ [.take]) s' kept' q' := by
  have hlog := logged_snoc acts .take (by intro e; simp)
  have hfw : fileWanted p (acts ++ [.take]) = fileWanted p acts := by simp [fileWanted, hlog]
  simp only [step] at h
  split at h
  · rename_i hthr
    have hfile := hi.file
    have hsys := hi.sys
    have hprio := hi.prio
    have hcount := hi.count
    rw [hthr] at hfile hsys hprio hcount
    split at h
    · split at h
      · injection h with h
        subst h
        refine ⟨kept, q, ⟨hi.ring.len, hi.ring.pend, hi.ring.le, hi.ring.tail, hi.ring.head, hi.ring.ents⟩,
          by rw [hlog]; exact hi.sub, hfile, hsys, hprio, ?_⟩
        intro hps; rw [hfw]; exact hcount hps
      · cases h
    · rename_i hht
      injection h with h
      subst h
      have hpos : 0 < s.pending := by
        rcases Nat.eq_zero_or_pos s.pending with h0 | h0
        · exfalso
          apply hht
          rw [hi.ring.head, h0]
          exact Nat.mod_eq_of_lt hi.ring.tail
        · exact h0
      have hp := hi.ring.pend
      match q, hp, hi.ring, hfile, hsys, hprio with
      | [], hp, _, _, _, _ => simp at hp; omega
      | e :: q', hp, hring, hfile, hsys, hprio =>
        simp only [List.length_cons] at hp
        have he : s.ents.getD s.tail noEnt = e := by
          have := hring.ents 0 (by simp)
          rw [Nat.add_zero, Nat.mod_eq_of_lt hring.tail] at this
          simp [this]
        rw [he, hring.len]
        refine ⟨kept, q', ⟨hring.len, by show q'.length = s.pending - 1; omega, by have := hring.le; show s.pending - 1 ≤ n; omega, Nat.mod_lt _ hn, ?_, ?_⟩,
          by rw [hlog]; exact hi.sub, ?_, ?_, ?_, ?_⟩
        · show s.head = ((s.tail + 1) % n + (s.pending - 1)) % n
          rw [hring.head, Nat.mod_add_mod]
          congr 1; omega
        · intro i hlt
          have := hring.ents (i + 1) (by simp only [List.length_cons]; omega)
          show s.ents[((s.tail + 1) % n + i) % n]? = _
          rw [Nat.mod_add_mod]
          rw [show s.tail + 1 + i = s.tail + (i + 1) by omega, this]
          simp
        · simpa [hand] using hfile
        · simpa [hand] using hsys
        · simpa [hand] using hprio
        · intro hps
          rw [hfw, hcount hps]
          simp only [inHand]
          omega
  · cases h

theorem qinv_write {p : Prio} {n : Nat} {acts : List Act} {s s' : St} {kept q : List Ent}
    (hi : QInv p n acts s kept q) (h : step p s .write = some s') :
    QInv p n (acts ++ [.write]) s' kept q := by
  have hlog := logged_snoc acts .write (by intro e; simp)
  have hfw : fileWanted p (acts ++ [.write]) = fileWanted p acts := by simp [fileWanted, hlog]
  simp only [step] at h
  split at h
  · rename_i e k hthr
    injection h with h
    have hfile := hi.file
    have hsys := hi.sys
    have hprio := hi.prio
    have hcount := hi.count
    rw [hthr] at hfile hsys hprio hcount
    simp only [hand, List.singleton_append, List.filter_cons] at hfile hsys
    have he := hprio e (by simp [hand])
    have hprio' : ∀ e', e' ∈ hand Thr.idle ++ q → e'.level ≤ p.file ∨ e'.level ≤ p.syslog :=
      fun e' he' => hprio e' (by simp [hand] at he' ⊢; exact Or.inr he')
    have hr := hi.ring
    have hring : ∀ f g, Ring n { s with file := f, syslog := g, thr := .idle } q :=
      fun f g => ⟨hr.len, hr.pend, hr.le, hr.tail, hr.head, hr.ents⟩
    have hs : s' = { s with
        file := if e.level ≤ p.file then s.file ++ (if k = 0 then [] else [.dropped k]) ++ [.text e.str] else s.file
        syslog := if e.level ≤ p.syslog then s.syslog ++ (if k = 0 then [] else [.dropped k]) ++ [.text e.str] else s.syslog
        thr := .idle } := by
      rw [← h]
      by_cases h0 : k = 0 <;> by_cases h1 : e.level ≤ p.file <;> by_cases h2 : e.level ≤ p.syslog <;>
        simp [writeEntry, h0, h1, h2]
    rw [hs]
    refine ⟨hring _ _, by rw [hlog]; exact hi.sub, ?_, ?_, hprio', ?_⟩
    · rw [← hfile]
      by_cases h1 : e.level ≤ p.file <;> by_cases h0 : k = 0 <;> simp [h1, h0, texts, hand]
    · rw [← hsys]
      by_cases h1 : e.level ≤ p.syslog <;> by_cases h0 : k = 0 <;> simp [h1, h0, texts, hand]
    · intro hps
      rw [hfw, hcount hps]
      have h1 : e.level ≤ p.file := by omega
      by_cases h0 : k = 0
      · simp [h1, h0, texts, droppedSum, inHand, List.sum_append]; omega
      · simp [h1, h0, texts, droppedSum, inHand, List.sum_append]; omega
  · cases h

theorem qinv_step {p : Prio} {n : Nat} {acts : List Act} {s s' : St} {kept q : List Ent} (hn : 0 < n)
    (hi : QInv p n acts s kept q) (a : Act) (h : step p s a = some s') :
    ∃ kept' q', QInv p n (acts ++ [a]) s' kept' q' := by
  cases a with
  | log e =>
    simp only [step] at h
    injection h with h
    subst h
    exact qinv_log hn hi e
  | take => exact qinv_take hn hi h
  | write => exact ⟨kept, q, qinv_write hi h⟩
  | close =>
    simp only [step] at h
    injection h with h
    subst h
    have hlog := logged_snoc acts .close (by intro e; simp)
    refine ⟨kept, q, ⟨hi.ring.len, hi.ring.pend, hi.ring.le, hi.ring.tail, hi.ring.head, hi.ring.ents⟩,
      by rw [hlog]; exact hi.sub, hi.file, hi.sys, hi.prio, ?_⟩
    intro hps
    have hfw : fileWanted p (acts ++ [.close]) = fileWanted p acts := by simp [fileWanted, hlog]
    rw [hfw]; exact hi.count hps

theorem qinv_run {p : Prio} {n : Nat} (hn : 0 < n) (b : List Act) : ∀ {acts : List Act} {s s' : St} {kept q : List Ent},
    QInv p n acts s kept q → run p s b = some s' → ∃ kept' q', QInv p n (acts ++ b) s' kept' q' := by
  induction b with
  | nil =>
    intro acts s s' kept q hi h
    injection h with h
    subst h
    exact ⟨kept, q, by simpa using hi⟩
  | cons a b ih =>
    intro acts s s' kept q hi h
    simp only [run] at h
    split at h
    · rename_i s1 hs1
      obtain ⟨k1, q1, h1⟩ := qinv_step hn hi a hs1
      have := ih h1 h
      simpa using this
    · cases h

theorem qinv_reach {p : Prio} {n : Nat} (hn : 0 < n) {acts : List Act} {s : St} (h : run p (St.init n) acts = some s) :
    ∃ kept q, QInv p n acts s kept q := by
  have := qinv_run hn acts (qinv_init p hn) h
  simpa using this

/-- C46: the log file contains messages that were logged with sufficient priority, each at most once and in the order in which they were
logged, and nothing else; the same for syslog. -/
theorem log_order (p : Prio) (n : Nat) (hn : 0 < n) (acts : List Act) (s : St) (h : run p (St.init n) acts = some s) :
    (texts s.file).Sublist (fileWanted p acts) ∧ (texts s.syslog).Sublist (syslogWanted p acts) := by
  obtain ⟨kept, q, hi⟩ := qinv_reach hn h
  have hs : ∀ (f : Nat), (f = p.file ∨ f = p.syslog) →
      ((kept.filter (fun e => decide (e.level ≤ f))).map Ent.str).Sublist
        (((logged acts).filter (fun e => decide (e.level ≤ f))).map Ent.str) := by
    intro f _
    refine List.Sublist.map _ ?_
    exact (hi.sub.trans List.filter_sublist).filter _
  constructor
  · have h1 := hs p.file (Or.inl rfl)
    rw [← hi.file] at h1
    exact (List.sublist_append_left _ _).trans h1
  · have h1 := hs p.syslog (Or.inr rfl)
    rw [← hi.sys] at h1
    exact (List.sublist_append_left _ _).trans h1

/-- C46: every message for the log file is written, or counted in a "dropped" line of the file, or still on its way (in the queue, in the hands of the log thread, in the
counter of dropped messages).  With the default priorities everything that goes to syslog also goes to the file. -/
theorem log_accounting (p : Prio) (hp : p.syslog ≤ p.file) (n : Nat) (hn : 0 < n) (acts : List Act) (s : St)
    (h : run p (St.init n) acts = some s) :
    (fileWanted p acts).length =
      (texts s.file).length + droppedSum s.file + inHand s.thr + s.pending + s.dropped := by
  obtain ⟨kept, q, hi⟩ := qinv_reach hn h
  exact hi.count hp

/-- C46: when nothing was dropped and the log thread has caught up, the file contains every message. -/
theorem log_complete (p : Prio) (hp : p.syslog ≤ p.file) (n : Nat) (hn : 0 < n) (acts : List Act) (s : St)
    (h : run p (St.init n) acts = some s) (ht : s.thr = .idle) (hq : s.pending = 0) (hd : s.dropped = 0)
    (hf : droppedSum s.file = 0) : texts s.file = fileWanted p acts := by
  have h1 := log_accounting p hp n hn acts s h
  rw [ht, hq, hd, hf] at h1
  exact (log_order p n hn acts s h).1.eq_of_length (by simp only [inHand] at h1; omega)

/-- C46, partial: as long as the queue has not been completely filled, the log thread finds the waiting messages and writes them all. -/
theorem log_drain_partial (p : Prio) (hp : p.syslog ≤ p.file) (n : Nat) (hn : 0 < n) (acts : List Act) (s : St)
    (h : run p (St.init n) acts = some s) (ht : s.thr = .idle) (hq : s.pending < n) (hd : s.dropped = 0)
    (hf : droppedSum s.file = 0) :
    ∃ s', run p s ((List.replicate s.pending [Act.take, .write]).flatten) = some s' ∧
      texts s'.file = fileWanted p acts := by
  have key : ∀ (k : Nat) (acts : List Act) (s : St), run p (St.init n) acts = some s → s.thr = .idle → s.pending = k → k < n →
      s.dropped = 0 → droppedSum s.file = 0 →
      ∃ s', run p s ((List.replicate k [Act.take, .write]).flatten) = some s' ∧ texts s'.file = fileWanted p acts := by
    intro k
    induction k with
    | zero =>
      intro acts s h ht hq _ hd hf
      exact ⟨s, rfl, log_complete p hp n hn acts s h ht hq hd hf⟩
    | succ k ih =>
      intro acts s h ht hq hlt hd hf
      obtain ⟨kept, q, hi⟩ := qinv_reach hn h
      have hht : s.head ≠ s.tail := by
        intro he
        have hh := hi.ring.head
        rw [he] at hh
        have h3 : s.tail % n = (s.tail + s.pending) % n := by rw [← hh]; exact Nat.mod_eq_of_lt hi.ring.tail
        have := mod_inj h3 (by omega) (by omega)
        omega
      have h1 : ∃ s1, step p s .take = some s1 ∧ s1.thr = .writing (s.ents.getD s.tail noEnt) 0 ∧ s1.pending = k ∧ s1.dropped = 0 ∧ s1.file = s.file := by
        have : step p s .take = some { s with
            thr := .writing (s.ents.getD s.tail noEnt) s.dropped
            tail := (s.tail + 1) % s.ents.length
            pending := s.pending - 1
            dropped := 0 } := by
          simp only [step, ht]
          rw [if_neg hht]
        refine ⟨_, this, ?_, ?_, rfl, rfl⟩
        · simp [hd]
        · show s.pending - 1 = k
          omega
      obtain ⟨s1, hs1, ht1, hp1, hd1, hf1⟩ := h1
      have h2 : ∃ s2, step p s1 .write = some s2 ∧ s2.thr = .idle ∧ s2.pending = k ∧ s2.dropped = 0 ∧ droppedSum s2.file = 0 := by
        refine ⟨_, by simp only [step, ht1]; rfl, rfl, ?_, ?_, ?_⟩
        · simp only [writeEntry]; split <;> split <;> exact hp1
        · simp only [writeEntry]; split <;> split <;> exact hd1
        · simp only [writeEntry]
          split <;> split <;> simp [droppedSum_append, hf1, hf, droppedSum] <;> simpa [droppedSum] using hf
      obtain ⟨s2, hs2, ht2, hp2, hd2, hf2⟩ := h2
      have hr : run p (St.init n) (acts ++ [.take, .write]) = some s2 := by
        rw [run_append, h]
        simp [run, hs1, hs2]
      obtain ⟨s', hr', htx⟩ := ih _ s2 hr ht2 hp2 (by omega) hd2 hf2
      refine ⟨s', ?_, ?_⟩
      · rw [List.replicate_succ, List.flatten_cons, List.cons_append, List.cons_append, List.nil_append]
        simp only [run, hs1, hs2]
        exact hr'
      · rw [htx]
        simp [fileWanted, logged_append, logged]
  exact key s.pending acts s h ht rfl hq hd hf

/-- The default priorities: the file takes warnings, syslog takes errors (`src/main.c:75-77`). -/
def defaultPrio : Prio := ⟨4, 3⟩

example : ∃ s, run defaultPrio (St.init 3) [.log ⟨3, [7]⟩, .log ⟨6, [8]⟩, .take, .log ⟨4, [9]⟩, .write] = some s ∧
    s.thr = .idle ∧ s.pending = 1 ∧ s.dropped = 0 ∧ s.file = [.text [7]] ∧ s.syslog = [.text [7]] := by
  exact ⟨_, rfl, by decide, by decide, by decide, by decide, by decide⟩

/-- A full queue while the log thread is at its test. -/
theorem full_waits {p : Prio} {n : Nat} {s : St} (hl : s.ents.length = n) (hp : s.pending = n) (hh : s.head = s.tail)
    (ht : s.thr ≠ .exited → s.thr = .idle) : ∀ (acts : List Act) (s' : St), run p s acts = some s' →
      s'.file = s.file ∧ s'.syslog = s.syslog := by
  intro acts
  induction acts generalizing s with
  | nil =>
    intro s' h
    injection h with h
    subst h
    exact ⟨rfl, rfl⟩
  | cons a l ih =>
    intro s' h
    simp only [run] at h
    split at h
    · rename_i s1 hs1
      have key : s1.ents.length = n ∧ s1.pending = n ∧ s1.head = s1.tail ∧ (s1.thr ≠ .exited → s1.thr = .idle) ∧
          s1.file = s.file ∧ s1.syslog = s.syslog := by
        cases a with
        | log e =>
          simp only [step, logLevel, saveEnt] at hs1
          rw [if_pos (show s.pending = s.ents.length by omega)] at hs1
          injection hs1 with hs1
          subst hs1
          split <;> exact ⟨hl, hp, hh, ht, rfl, rfl⟩
        | take =>
          simp only [step] at hs1
          split at hs1
          · rw [if_pos hh] at hs1
            split at hs1
            · injection hs1 with hs1
              subst hs1
              exact ⟨hl, hp, hh, fun h => absurd rfl h, rfl, rfl⟩
            · cases hs1
          · cases hs1
        | write =>
          simp only [step] at hs1
          split at hs1
          · rename_i e k hw
            have := ht (by rw [hw]; simp)
            rw [hw] at this
            cases this
          · cases hs1
        | close =>
          simp only [step] at hs1
          injection hs1 with hs1
          subst hs1
          exact ⟨hl, hp, hh, ht, rfl, rfl⟩
      obtain ⟨k1, k2, k3, k4, k5, k6⟩ := key
      have := ih k1 k2 k3 k4 s' h
      rw [k5, k6] at this
      exact this
    · cases h

/-- C46 is violated: when the queue is completely filled (for instance by a burst of `n` messages before the log thread runs), head and tail are equal again, the log thread takes
that for an empty queue, and neither log ever gets another line, whatever happens afterwards. -/
theorem log_full_violated (n : Nat) (e : Ent) (he : e.level ≤ 3) :
    ∃ s, run defaultPrio (St.init n) (List.replicate n (.log e)) = some s ∧ s.pending = n ∧
      ∀ acts s', run defaultPrio s acts = some s' → s'.file = [] ∧ s'.syslog = [] := by
  have hlev : e.level ≤ defaultPrio.file ∨ e.level ≤ defaultPrio.syslog := Or.inr he
  have key : ∀ (k : Nat) (s : St), s.ents.length = n → s.pending + k = n → s.head = s.pending % n → s.tail = 0 → s.thr = .idle →
      s.file = [] → s.syslog = [] →
      ∃ s', run defaultPrio s (List.replicate k (.log e)) = some s' ∧ s'.ents.length = n ∧ s'.pending = n ∧ s'.head = n % n ∧ s'.tail = 0 ∧
        s'.thr = .idle ∧ s'.file = [] ∧ s'.syslog = [] := by
    intro k
    induction k with
    | zero =>
      intro s h1 h2 h3 h4 h5 h6 h7
      rw [Nat.add_zero] at h2
      exact ⟨s, rfl, h1, h2, by rw [h3, h2], h4, h5, h6, h7⟩
    | succ k ih =>
      intro s h1 h2 h3 h4 h5 h6 h7
      have hst : step defaultPrio s (.log e) = some { s with
          ents := s.ents.set s.head e, head := (s.head + 1) % n, pending := s.pending + 1 } := by
        simp only [step, logLevel, if_pos hlev, saveEnt, h1]
        rw [if_neg (by omega)]
      obtain ⟨s', hr, hrest⟩ := ih { s with
          ents := s.ents.set s.head e, head := (s.head + 1) % n, pending := s.pending + 1 }
        (by simpa using h1) (by simp only; omega)
        (by simp only; rw [h3, Nat.mod_add_mod]) h4 h5 h6 h7
      refine ⟨s', ?_, hrest⟩
      rw [List.replicate_succ]
      simp only [run, hst]
      exact hr
  obtain ⟨s, hr, h1, h2, h3, h4, h5, h6, h7⟩ := key n (St.init n) (by simp [St.init]) (by simp [St.init]) (by simp [St.init])
    rfl rfl rfl rfl
  refine ⟨s, hr, h2, ?_⟩
  intro acts s' h
  rw [Nat.mod_self] at h3
  have := full_waits h1 h2 (by rw [h3, h4]) (fun _ => h5) acts s' h
  rw [h6, h7] at this
  exact this

/-- The same for every reachable state in which the queue is full and the thread is at its test. -/
theorem log_full_forever (p : Prio) (n : Nat) (hn : 0 < n) (acts : List Act) (s : St) (h : run p (St.init n) acts = some s)
    (hf : s.pending = n) (ht : s.thr = .idle) (more : List Act) (s' : St) (h' : run p s more = some s') :
    s'.file = s.file ∧ s'.syslog = s.syslog := by
  obtain ⟨kept, q, hi⟩ := qinv_reach hn h
  refine full_waits hi.ring.len hf ?_ (fun _ => ht) more s' h'
  rw [hi.ring.head, hf, Nat.add_mod_right]
  exact Nat.mod_eq_of_lt hi.ring.tail

/-- Messages are dropped only while the queue is full. -/
theorem dropped_full {p : Prio} {n : Nat} (hn : 0 < n) (acts : List Act) : ∀ (pre : List Act) (s0 s : St),
    run p (St.init n) pre = some s0 → (0 < s0.dropped → s0.pending = n) →
    (∀ e k, s0.thr = .writing e k → k = 0) → (∀ k, Rec.dropped k ∉ s0.file ∧ Rec.dropped k ∉ s0.syslog) → run p s0 acts = some s →
    (0 < s.dropped → s.pending = n) ∧ (∀ e k, s.thr = .writing e k → k = 0) ∧
      ∀ k, Rec.dropped k ∉ s.file ∧ Rec.dropped k ∉ s.syslog := by
  induction acts with
  | nil =>
    intro pre s0 s _ h1 h2 h3 h
    injection h with h
    subst h
    exact ⟨h1, h2, h3⟩
  | cons a l ih =>
    intro pre s0 s hp h1 h2 h3 h
    obtain ⟨kept, q, hi⟩ := qinv_reach hn hp
    simp only [run] at h
    split at h
    · rename_i s1 hs1
      have hp1 : run p (St.init n) (pre ++ [a]) = some s1 := by
        rw [run_append, hp]
        simp [run, hs1]
      have key : (0 < s1.dropped → s1.pending = n) ∧ (∀ e k, s1.thr = .writing e k → k = 0) ∧
          ∀ k, Rec.dropped k ∉ s1.file ∧ Rec.dropped k ∉ s1.syslog := by
        cases a with
        | log e =>
          simp only [step] at hs1
          injection hs1 with hs1
          subst hs1
          simp only [logLevel, saveEnt]
          split
          · split
            · rename_i hf
              exact ⟨fun _ => by rw [← hi.ring.len]; exact hf, h2, h3⟩
            · rename_i hf
              refine ⟨fun hd => ?_, h2, h3⟩
              have := h1 hd
              rw [hi.ring.len] at hf
              exact absurd this hf
          · exact ⟨h1, h2, h3⟩
        | take =>
          simp only [step] at hs1
          split at hs1
          · split at hs1
            · split at hs1
              · injection hs1 with hs1
                subst hs1
                exact ⟨h1, fun e k hk => by simp at hk, h3⟩
              · cases hs1
            · rename_i hht
              injection hs1 with hs1
              subst hs1
              have hd : s0.dropped = 0 := by
                rcases Nat.eq_zero_or_pos s0.dropped with h0 | h0
                · exact h0
                · exfalso
                  apply hht
                  rw [hi.ring.head, h1 h0, Nat.add_mod_right]
                  exact Nat.mod_eq_of_lt hi.ring.tail
              refine ⟨fun hd => absurd hd (Nat.lt_irrefl 0), ?_, h3⟩
              intro e k hk
              simp only [Thr.writing.injEq] at hk
              omega
          · cases hs1
        | write =>
          simp only [step] at hs1
          split at hs1
          · rename_i e k hthr
            have hk := h2 e k hthr
            subst hk
            injection hs1 with hs1
            subst hs1
            simp only [if_true, writeEntry]
            refine ⟨?_, fun e k hk => by simp at hk, ?_⟩
            · split <;> split <;> exact h1
            · intro k
              have := h3 k
              split <;> split <;> simp [this]
          · cases hs1
        | close =>
          simp only [step] at hs1
          injection hs1 with hs1
          subst hs1
          exact ⟨h1, h2, h3⟩
      exact ih _ s1 s hp1 key.1 key.2.1 key.2.2 h
    · cases h

/-- C46 is violated: the "dropped" line is never written, because messages are dropped only while the queue is full, and then the log thread
takes no entry any more.  For all executions. -/
theorem dropped_unreported_violated (p : Prio) (n : Nat) (hn : 0 < n) (acts : List Act) (s : St)
    (h : run p (St.init n) acts = some s) (k : Nat) : Rec.dropped k ∉ s.file ∧ Rec.dropped k ∉ s.syslog :=
  (dropped_full hn acts [] (St.init n) s rfl (fun h => absurd h (by simp [St.init])) (fun e k hk => by simp [St.init] at hk)
    (fun k => by simp [St.init]) h).2.2 k

/-- C46 is violated: after one dropped message the logs get at most the message that the log thread has in hand. -/
theorem dropped_forever_violated (p : Prio) (n : Nat) (hn : 0 < n) (acts : List Act) (s : St)
    (h : run p (St.init n) acts = some s) (hd : 0 < s.dropped) (more : List Act) (s' : St) (h' : run p s more = some s') :
    (texts s'.file).length ≤ (texts s.file).length + inHand s.thr := by
  have key := dropped_full hn acts [] (St.init n) s rfl (fun h => absurd h (by simp [St.init])) (fun e k hk => by simp [St.init] at hk)
    (fun k => by simp [St.init]) h
  have hf := key.1 hd
  have hw := key.2.1
  clear key
  induction more generalizing acts s with
  | nil =>
    injection h' with h'
    subst h'
    omega
  | cons a l ih =>
    simp only [run] at h'
    split at h'
    · rename_i s1 hs1
      have hr1 : run p (St.init n) (acts ++ [a]) = some s1 := by
        rw [run_append, h]
        simp [run, hs1]
      obtain ⟨kept, q, hi⟩ := qinv_reach hn h
      have hht : s.head = s.tail := by
        rw [hi.ring.head, hf, Nat.add_mod_right]
        exact Nat.mod_eq_of_lt hi.ring.tail
      cases a with
      | log e =>
        have : 0 < s1.dropped ∧ s1.thr = s.thr ∧ s1.file = s.file ∧ s1.pending = n := by
          simp only [step, logLevel, saveEnt] at hs1
          rw [if_pos (show s.pending = s.ents.length by rw [hi.ring.len]; exact hf)] at hs1
          injection hs1 with hs1
          subst hs1
          split
          · exact ⟨by simp, rfl, rfl, hf⟩
          · exact ⟨hd, rfl, rfl, hf⟩
        have h2 := ih _ s1 hr1 this.1 h' this.2.2.2 (by rw [this.2.1]; exact hw)
        rw [this.2.1, this.2.2.1] at h2
        exact h2
      | take =>
        simp only [step] at hs1
        split at hs1
        · rename_i hidle
          rw [if_pos hht] at hs1
          split at hs1
          · injection hs1 with hs1
            subst hs1
            have h2 := ih _ _ hr1 hd h' hf (fun e k hk => by simp at hk)
            simpa [hidle, inHand] using h2
          · cases hs1
        · cases hs1
      | write =>
        simp only [step] at hs1
        split at hs1
        · rename_i e k hthr
          have hk := hw e k hthr
          subst hk
          have : s1.dropped = s.dropped ∧ s1.thr = .idle ∧ (texts s1.file).length ≤ (texts s.file).length + 1 ∧ s1.pending = s.pending := by
            injection hs1 with hs1
            subst hs1
            simp only [if_true, writeEntry]
            split <;> split <;> simp [texts]
          have h2 := ih _ s1 hr1 (by omega) h' (by omega) (fun e k hk => by rw [this.2.1] at hk; simp at hk)
          rw [this.2.1] at h2
          rw [hthr]
          simp only [inHand] at h2 ⊢
          omega
        · cases hs1
      | close =>
        simp only [step] at hs1
        injection hs1 with hs1
        subst hs1
        exact ih _ { s with done := true } hr1 hd h' hf hw
    · cases h'

/-- A message can be dropped. -/
example : ∃ s, run defaultPrio (St.init 2) [.log ⟨3, [1]⟩, .take, .log ⟨3, [2]⟩, .log ⟨3, [3]⟩, .log ⟨3, [4]⟩, .write] = some s ∧
    s.dropped = 1 ∧ s.file = [.text [1]] ∧ step defaultPrio s .take = none := by
  exact ⟨_, rfl, by decide, by decide, by decide⟩

end Sanlock.Log
