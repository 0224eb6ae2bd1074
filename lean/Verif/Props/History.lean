import Verif.History

/-!
# Properties of the renewal history: C39
-/

namespace Sanlock.History

/-- The successful renewals of a sequence of results, oldest first: time and latencies. -/
def successes : List Ev → List (Nat × Nat × Nat)
  | [] => []
  | .ok t r w :: l => (t, r, w) :: successes l
  | _ :: l => successes l

def Entry.key (e : Entry) : Nat × Nat × Nat := (e.timestamp, e.readMs, e.writeMs)

theorem successes_append (a b : List Ev) : successes (a ++ b) = successes a ++ successes b := by
  induction a with
  | nil => rfl
  | cons e a ih => cases e <;> simp [successes, ih]

/-- The ring after `k` successes. -/
structure Inv (n : Nat) (log : List (Nat × Nat × Nat)) (r : Ring) : Prop where
  len : r.buf.length = n
  next : r.next = log.length % n
  prev : r.prev = if log.length = 0 then 0 else (log.length - 1) % n
  filled : ∀ j, j < log.length → log.length ≤ j + n →
    (r.buf.getD (j % n) .zero).key = log.getD j (0, 0, 0)
  empty : ∀ i, log.length ≤ i → i < n → (r.buf.getD i .zero).key = (0, 0, 0)

theorem getD_set {l : List Entry} {i j : Nat} {e : Entry} (hi : i < l.length) :
    (l.set i e).getD j .zero = if i = j then e else l.getD j .zero := by
  rw [List.getD_eq_getElem?_getD, List.getD_eq_getElem?_getD, List.getElem?_set]
  split
  · rename_i h; subst h; simp [hi]
  · rfl

theorem mod_inj {n a b : Nat} (h : a % n = b % n) (hab : a ≤ b) (hlt : b < a + n) : a = b := by
  have h1 := Nat.div_add_mod a n
  have h2 := Nat.div_add_mod b n
  rcases Nat.lt_or_ge (a / n) (b / n) with h3 | h3
  · have h4 : n * (a / n + 1) ≤ n * (b / n) := Nat.mul_le_mul_left n h3
    rw [Nat.mul_add] at h4
    omega
  · have h4 : n * (b / n) ≤ n * (a / n) := Nat.mul_le_mul_left n h3
    omega

/-- A change of the counters of one entry. -/
theorem inv_counts {n : Nat} {log : List (Nat × Nat × Nat)} {r : Ring} (hi : Inv n log r) (i : Nat) (e : Entry)
    (he : e.key = (r.buf.getD i .zero).key) : Inv n log { r with buf := r.buf.set i e } := by
  have hk : ∀ j, ((r.buf.set i e).getD j .zero).key = (r.buf.getD j .zero).key := by
    intro j
    rw [List.getD_eq_getElem?_getD, List.getD_eq_getElem?_getD, List.getElem?_set]
    split
    · rename_i h; subst h
      split
      · rename_i h'; rw [List.getD_eq_getElem?_getD] at he; exact he
      · rename_i h'; rw [List.getElem?_eq_none (by omega)]
    · rfl
  exact ⟨by simpa using hi.len, hi.next, hi.prev, fun j h1 h2 => (hk _).trans (hi.filled j h1 h2),
    fun i h1 h2 => (hk _).trans (hi.empty i h1 h2)⟩

theorem inv_save {n : Nat} (hn : 0 < n) {log : List (Nat × Nat × Nat)} {r : Ring} (hi : Inv n log r) (e : Ev) :
    Inv n (log ++ successes [e]) (save r e) := by
  have hlen := hi.len
  unfold save
  rw [if_neg (by omega)]
  cases e with
  | timeout =>
    simp only [successes, List.append_nil]
    exact inv_counts hi _ _ rfl
  | error =>
    simp only [successes, List.append_nil]
    exact inv_counts hi _ _ rfl
  | ok ts rd wr =>
    simp only [successes]
    have hm : log.length % n < n := Nat.mod_lt _ hn
    have hnx : r.next < r.buf.length := by rw [hi.next]; omega
    refine ⟨by simpa using hlen, ?_, ?_, ?_, ?_⟩
    · simp only [List.length_append, List.length_cons, List.length_nil]
      rw [hlen, hi.next]
      split
      · rename_i h
        have : log.length % n + 1 = n := by omega
        rw [Nat.add_mod]
        by_cases h1 : n = 1
        · subst h1; simp [Nat.mod_one]
        · rw [Nat.mod_eq_of_lt (show 1 < n by omega)]
          simp [this]
      · rename_i h
        rw [Nat.add_mod log.length 1 n, Nat.mod_eq_of_lt (show 1 < n by omega),
          Nat.mod_eq_of_lt (a := log.length % n + 1) (by omega)]
    · simp only [List.length_append, List.length_cons, List.length_nil]
      rw [if_neg (by omega), hi.next]
      congr 1
    · intro j h1 h2
      simp only [List.length_append, List.length_cons, List.length_nil] at h1 h2
      rw [getD_set hnx, hi.next]
      by_cases hj : j = log.length
      · subst hj
        rw [if_pos rfl]
        simp [Entry.key]
      · rw [if_neg, hi.filled j (by omega) (by omega)]
        · rw [List.getD_eq_getElem?_getD, List.getD_eq_getElem?_getD, List.getElem?_append_left (by omega)]
        · intro h
          have := mod_inj h.symm (by omega) (by omega)
          omega
    · intro i h1 h2
      simp only [List.length_append, List.length_cons, List.length_nil] at h1
      rw [getD_set hnx, hi.next, Nat.mod_eq_of_lt (by omega), if_neg (by omega)]
      exact hi.empty i (by omega) h2

theorem inv_run {n : Nat} (hn : 0 < n) (l : List Ev) : Inv n (successes l) (run n l) := by
  have key : ∀ (l : List Ev) (log : List (Nat × Nat × Nat)) (r : Ring), Inv n log r →
      Inv n (log ++ successes l) (l.foldl save r) := by
    intro l
    induction l with
    | nil => intro log r h; simpa [successes] using h
    | cons e l ih =>
      intro log r h
      have h1 := ih _ _ (inv_save hn h e)
      rw [List.append_assoc, ← successes_append] at h1
      exact h1
  have := key l [] (Ring.init n) ⟨by simp [Ring.init], by simp [Ring.init], by simp [Ring.init],
    fun j h => by simp at h, fun i _ _ => by
      simp only [Ring.init, List.getD_eq_getElem?_getD, List.getElem?_replicate]
      split <;> rfl⟩
  rw [List.nil_append] at this
  exact this

/-- The last `n` elements. -/
def lastN (n : Nat) {α : Type} (l : List α) : List α := l.drop (l.length - n)

/-- **C39**, for histories of at least two entries.  After any sequence of renewal results the report lists, oldest
first, the time and latencies of exactly the most recent successful renewals, as many as fit.  Renewal times are never
0, the value that marks an unused entry.  Missing: a history of one entry, see `size_one_violated`, and the counts of
failures, see `counts_stale_violated`. -/
theorem report_recent_partial {n : Nat} (hn : 2 ≤ n) (l : List Ev) (ht : ∀ x ∈ successes l, x.1 ≠ 0) :
    (report (run n l)).map Entry.key = lastN n (successes l) := by
  have hi := inv_run (show 0 < n by omega) l
  generalize run n l = r at hi
  generalize successes l = log at hi ht
  have hlen := hi.len
  unfold report lastN
  by_cases h0 : log.length = 0
  · have : log = [] := List.length_eq_zero_iff.mp h0
    subst this
    rw [if_pos]
    · simp
    · right
      exact ⟨by rw [hi.prev]; simp, by rw [hi.next]; simp⟩
  · have hp := hi.prev
    rw [if_neg h0] at hp
    have hne : ¬ (r.buf.length = 0 ∨ (r.prev = 0 ∧ r.next = 0)) := by
      rintro (h | ⟨h1, h2⟩)
      · omega
      · rw [hp] at h1
        rw [hi.next] at h2
        have := mod_inj (n := n) (a := log.length - 1) (b := log.length) (by omega) (by omega) (by omega)
        omega
    rw [if_neg hne]
    have hkey : ∀ i (h : i < r.buf.length), (r.buf.getD i .zero) = r.buf[i] := by
      intro i h; rw [List.getD_eq_getElem?_getD, List.getElem?_eq_getElem h]; rfl
    by_cases hk : log.length < n
    · have hnx : r.next = log.length := by rw [hi.next, Nat.mod_eq_of_lt hk]
      have hz := hi.empty r.next (by omega) (by omega)
      have : (r.buf.getD r.next .zero).timestamp = 0 := by
        simp only [Entry.key, Prod.mk.injEq] at hz; exact hz.1
      rw [if_neg (by simpa using this), List.nil_append, hnx]
      rw [show log.length - n = 0 by omega, List.drop_zero]
      apply List.ext_getElem
      · simp; omega
      · intro i h1 h2
        have := hi.filled i h2 (by omega)
        rw [Nat.mod_eq_of_lt (by omega), hkey i (by omega)] at this
        simp only [List.getElem_map, List.getElem_take]
        rw [this, List.getD_eq_getElem?_getD, List.getElem?_eq_getElem h2]; rfl
    · have hge : n ≤ log.length := by omega
      have hnlt : r.next < n := by rw [hi.next]; exact Nat.mod_lt _ (by omega)
      have hold := hi.filled (log.length - n) (by omega) (by omega)
      have hmod : (log.length - n) % n = r.next := by
        rw [hi.next]
        have : log.length = log.length - n + n := by omega
        rw [this, Nat.add_sub_cancel, Nat.add_mod_right]
      rw [hmod] at hold
      have hnz : (r.buf.getD r.next .zero).timestamp ≠ 0 := by
        have h1 : (r.buf.getD r.next .zero).timestamp = (log.getD (log.length - n) (0, 0, 0)).1 := by
          rw [← hold]; rfl
        rw [h1, List.getD_eq_getElem?_getD, List.getElem?_eq_getElem (by omega)]
        exact ht _ (List.getElem_mem _)
      rw [if_pos hnz]
      apply List.ext_getElem
      · simp; omega
      · intro i h1 h2
        simp only [List.length_map, List.length_append, List.length_drop, List.length_take] at h1
        simp only [List.getElem_map, List.getElem_drop]
        have hf := hi.filled (log.length - n + i) (by omega) (by omega)
        have hm2 : (log.length - n + i) % n = (r.next + i) % n := by
          rw [Nat.add_mod, hmod, Nat.add_mod r.next i, Nat.mod_eq_of_lt hnlt]
        rw [hm2] at hf
        have hr : log.getD (log.length - n + i) (0, 0, 0) = log[log.length - n + i]'(by omega) := by
          rw [List.getD_eq_getElem?_getD, List.getElem?_eq_getElem (by omega)]; rfl
        rw [hr] at hf
        rw [← hf]
        congr 1
        rw [List.getElem_append]
        split
        · rename_i hlt
          simp only [List.length_drop] at hlt
          rw [Nat.mod_eq_of_lt (by omega), hkey _ (by omega)]
          simp
        · rename_i hlt
          simp only [List.length_drop] at hlt
          have : (r.next + i) % n = r.next + i - n := by
            rw [Nat.mod_eq_sub_mod (by omega), Nat.mod_eq_of_lt (by omega)]
          rw [this, hkey _ (by omega)]
          simp only [List.getElem_take, List.length_drop]
          congr 1
          omega

example : (report (run 2 [.ok 5 1 1, .timeout, .ok 7 2 2, .ok 9 3 3])).map Entry.key = [(7, 2, 2), (9, 3, 3)] := by
  decide

/-- The newest entry of the report is the last successful renewal. -/
theorem report_newest {n : Nat} (hn : 2 ≤ n) (l : List Ev) (ht : ∀ x ∈ successes l, x.1 ≠ 0) :
    ((report (run n l)).map Entry.key).getLast? = (successes l).getLast? ∧ (report (run n l)).length ≤ n := by
  have h := report_recent_partial hn l ht
  refine ⟨?_, ?_⟩
  · rw [h]
    unfold lastN
    rw [List.getLast?_drop]
    split
    · rename_i h'
      have : successes l = [] := List.length_eq_zero_iff.mp (by omega)
      rw [this]; rfl
    · rfl
  · have h2 := congrArg List.length h
    simp only [List.length_map, lastN, List.length_drop] at h2
    omega

/-- What the history should say: each successful renewal with the failures that followed it. -/
def spec (log : List Entry) : Ev → List Entry
  | .ok t r w => log ++ [⟨t, r, w, 0, 0⟩]
  | .timeout => match log.reverse with
    | [] => []
    | e :: es => es.reverse ++ [{ e with nextTimeouts := e.nextTimeouts + 1 }]
  | .error => match log.reverse with
    | [] => []
    | e :: es => es.reverse ++ [{ e with nextErrors := e.nextErrors + 1 }]

theorem spec_snoc (log : List Entry) (e : Entry) :
    spec (log ++ [e]) .timeout = log ++ [{ e with nextTimeouts := e.nextTimeouts + 1 }] ∧
    spec (log ++ [e]) .error = log ++ [{ e with nextErrors := e.nextErrors + 1 }] := by
  simp [spec]

theorem successes_cons_ok (t r w : Nat) (l : List Ev) :
    successes (.ok t r w :: l) = (t, r, w) :: successes l := by
  rfl

/-- While the ring has not wrapped, it holds the specified entries followed by unused ones. -/
theorem counts_run (n : Nat) (l : List Ev) :
    ∀ (log : List Entry) (e : Entry) (r : Ring),
      log.length + 1 + (successes l).length ≤ n →
      r.buf = log ++ [e] ++ List.replicate (n - (log.length + 1)) .zero →
      r.prev = log.length → r.next = (log.length + 1) % n →
      ∃ log' e', l.foldl spec (log ++ [e]) = log' ++ [e'] ∧
        log'.length + 1 = log.length + 1 + (successes l).length ∧
        (l.foldl save r).buf = log' ++ [e'] ++ List.replicate (n - (log'.length + 1)) .zero ∧
        (l.foldl save r).prev = log'.length ∧ (l.foldl save r).next = (log'.length + 1) % n := by
  induction l with
  | nil => intro log e r _ hb hp hn; exact ⟨log, e, rfl, by simp [successes], hb, hp, hn⟩
  | cons ev l ih =>
    intro log e r hle hb hp hn
    have hbl : r.buf.length = n := by rw [hb]; simp; omega
    have hne : r.buf.length ≠ 0 := by omega
    have hget : r.buf.getD log.length .zero = e := by
      rw [hb]; simp [List.getD_eq_getElem?_getD]
    have hset : ∀ x, r.buf.set log.length x
        = log ++ [x] ++ List.replicate (n - (log.length + 1)) Entry.zero := by
      intro x; rw [hb, List.append_assoc, List.set_append_right _ _ (Nat.le_refl _)]; simp
    simp only [List.foldl_cons]
    cases ev with
    | timeout =>
      rw [(spec_snoc log e).1]
      apply ih log _ _ hle
      · simp only [save, hne, if_false, hp, hget, hset]
      · simp [save, hne, hp]
      · simp [save, hne, hn]
    | error =>
      rw [(spec_snoc log e).2]
      apply ih log _ _ hle
      · simp only [save, hne, if_false, hp, hget, hset]
      · simp [save, hne, hp]
      · simp [save, hne, hn]
    | ok t rd wr =>
      rw [successes_cons_ok, List.length_cons] at hle
      have hlt : log.length + 1 < n := by omega
      rw [Nat.mod_eq_of_lt hlt] at hn
      have hz : n - (log.length + 1) = (n - (log.length + 2)) + 1 := by omega
      have hb2 : r.buf = (log ++ [e]) ++ Entry.zero :: List.replicate (n - (log.length + 2)) .zero := by
        rw [hb, hz, List.replicate_succ]
      obtain ⟨log', e', h1, h2, h3⟩ := ih (log ++ [e]) ⟨t, rd, wr, 0, 0⟩
        (save r (.ok t rd wr)) (by simp; omega)
        (by
          have hg : r.buf.getD r.next .zero = .zero := by
            rw [hb2, hn]; simp [List.getD_eq_getElem?_getD]
          simp only [save, hne, if_false, hg]
          rw [hb2, hn, List.set_append_right _ _ (by simp)]
          simp [Entry.zero])
        (by simp [save, hne, hn])
        (by
          have hne' : ¬ n = 0 := by omega
          simp only [save, hbl, hne', if_false, hn, List.length_append, List.length_singleton]
          split
          · rw [show log.length + 1 + 1 = n by omega, Nat.mod_self]
          · rw [Nat.mod_eq_of_lt (by omega)])
      exact ⟨log', e', h1, by rw [h2, successes_cons_ok]; simp; omega, h3⟩

/-- **C39 (failure counts)**.  As long as the history has not wrapped, the report is exactly the successful renewals
in order, each with the number of timeouts and the number of errors that followed it.  Missing: what happens after
the ring wraps and failures before the first renewal, see `counts_stale_violated`. -/
theorem counts_partial {n : Nat} (hn : 2 ≤ n) (t rd wr : Nat) (l : List Ev)
    (ht : ∀ x ∈ successes (.ok t rd wr :: l), x.1 ≠ 0)
    (hfit : (successes (.ok t rd wr :: l)).length ≤ n) :
    report (run n (.ok t rd wr :: l)) = (Ev.ok t rd wr :: l).foldl spec [] := by
  rw [successes_cons_ok, List.length_cons] at hfit
  have hkey := report_recent_partial hn (.ok t rd wr :: l) ht
  obtain ⟨log', e', h1, h2, h3, h4, h5⟩ := counts_run n l [] ⟨t, rd, wr, 0, 0⟩
    (save (Ring.init n) (.ok t rd wr)) (by simp; omega)
    (by
      have hz : n = (n - 1) + 1 := by omega
      have h0 : (List.replicate n Entry.zero).length ≠ 0 := by simp; omega
      simp only [save, Ring.init, h0, if_false]
      rw [hz, List.replicate_succ]
      simp [Entry.zero])
    (by simp [save, Ring.init]; split <;> rfl)
    (by
      have h0 : (List.replicate n Entry.zero).length ≠ 0 := by simp; omega
      have h1 : ¬ 0 + 1 ≥ (List.replicate n Entry.zero).length := by simp; omega
      simp only [save, Ring.init, h0, h1, if_false, List.length_nil]
      rw [Nat.mod_eq_of_lt (by omega)])
  have hr : run n (.ok t rd wr :: l) = l.foldl save (save (Ring.init n) (.ok t rd wr)) := rfl
  have hs : (Ev.ok t rd wr :: l).foldl spec [] = log' ++ [e'] := by rw [← h1]; rfl
  rw [hr] at hkey ⊢
  rw [hs]
  generalize l.foldl save (save (Ring.init n) (.ok t rd wr)) = r at *
  have hbl : r.buf.length = n := by rw [h3]; simp at h2 ⊢; omega
  simp only [List.length_nil, Nat.zero_add] at h2
  by_cases hw : log'.length + 1 < n
  · rw [Nat.mod_eq_of_lt hw] at h5
    unfold report
    rw [if_neg (by omega), if_neg, List.nil_append, h5, h3]
    · rw [List.take_append_of_le_length (by simp), List.take_of_length_le (by simp)]
    · rw [h5, h3]
      simp [List.getD_eq_getElem?_getD, List.getElem?_append, List.getElem?_replicate, Entry.zero]
      repeat' split
      all_goals first | rfl | omega
  · have hw' : log'.length + 1 = n := by omega
    rw [hw', Nat.mod_self] at h5
    have hb : r.buf = log' ++ [e'] := by rw [h3, hw']; simp
    have hlen : (report r).length = n := by
      have := congrArg List.length hkey
      rw [successes_cons_ok] at this
      simp only [List.length_map, lastN, List.length_drop, List.length_cons] at this
      omega
    unfold report at hlen ⊢
    rw [if_neg (by omega), h5] at hlen ⊢
    split
    · rw [List.drop_zero, List.take_zero, List.append_nil, hb]
    · rename_i hx
      rw [if_neg hx] at hlen
      simp at hlen; omega

example : report (run 3 [.ok 5 1 1, .error, .error, .ok 7 1 1, .timeout]) =
    [⟨5, 1, 1, 0, 2⟩, ⟨7, 1, 1, 1, 0⟩] := by decide

/-- **Finding**.  The failure counts of an entry are not reset when the ring wraps: a renewal followed by no failure is
reported with the failures of the renewal whose place it took. -/
theorem counts_stale_violated :
    ∃ l : List Ev, report (run 2 l) ≠ (l.foldl spec []).drop ((l.foldl spec []).length - 2) ∧
      (report (run 2 l)).getLast?.map (·.nextErrors) = some 1 ∧
      (l.foldl spec []).getLast?.map (·.nextErrors) = some 0 :=
  ⟨[.ok 5 1 1, .error, .ok 7 1 1, .ok 9 1 1], by decide⟩

/-- **Finding**.  With a history of one entry nothing is ever reported. -/
theorem size_one_violated (l : List Ev) : report (run 1 l) = [] := by
  have hi := inv_run (show 0 < 1 by omega) l
  unfold report
  rw [if_pos]
  right
  refine ⟨?_, by rw [hi.next, Nat.mod_one]⟩
  rw [hi.prev]
  split
  · rfl
  · rw [Nat.mod_one]

end Sanlock.History
