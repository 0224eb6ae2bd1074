import Verif.Pool

/-!
# Properties of the worker threads: C48
-/

namespace Sanlock.Pool

def W.live (w : W) : Bool := match w with | .exited => false | _ => true
def W.isFree (w : W) : Bool := match w with | .waiting => true | .woken => true | _ => false
def W.active (w : W) : Bool := match w with | .start => true | .woken => true | .running _ => true | _ => false
def W.runs (c : Nat) (w : W) : Bool := match w with | .running d => d == c | _ => false

def b2n (b : Bool) : Nat := if b then 1 else 0

theorem runs_running (c d : Nat) : W.runs c (.running d) = (d == c) := rfl
theorem runs_start (c : Nat) : W.runs c .start = false := rfl
theorem runs_waiting (c : Nat) : W.runs c .waiting = false := rfl
theorem runs_woken (c : Nat) : W.runs c .woken = false := rfl
theorem runs_exited (c : Nat) : W.runs c .exited = false := rfl
theorem b2n_true : b2n true = 1 := rfl
theorem b2n_false : b2n false = 0 := rfl

theorem countP_set' (p : W → Bool) (v w : W) : ∀ (ws : List W) (i : Nat), ws[i]? = some w →
    (ws.set i v).countP p + b2n (p w) = ws.countP p + b2n (p v)
  | [], i, h => by simp at h
  | x :: l, 0, h => by
    simp only [List.getElem?_cons_zero, Option.some.injEq] at h
    subst h
    simp only [List.set_cons_zero, List.countP_cons, b2n]
    omega
  | x :: l, i + 1, h => by
    simp only [List.getElem?_cons_succ] at h
    have := countP_set' p v w l i h
    simp only [List.set_cons_succ, List.countP_cons]
    omega

structure Inv (s : St) : Prop where
  fifo : s.started ++ s.work = s.accepted
  once : ∀ c, s.started.count c = s.finished.count c + s.ws.countP (W.runs c)
  num : s.numWorkers = s.ws.countP W.live
  free : s.freeWorkers = s.ws.countP W.isFree
  awake : s.work ≠ [] → 0 < s.ws.countP W.active
  bound : s.numWorkers ≤ s.maxWorkers
  some' : s.quit = false → 0 < s.numWorkers
  main : s.quit = true ↔ s.m ≠ .open
  woken : s.quit = true → .waiting ∉ s.ws

theorem mem_of_get {ws : List W} {i : Nat} {w : W} (h : ws[i]? = some w) : w ∈ ws := List.mem_of_getElem? h

theorem mem_set {ws : List W} {i : Nat} {v w : W} (h : w ∈ ws.set i v) : w ∈ ws ∨ w = v := by
  rcases List.mem_or_eq_of_mem_set h with h | h
  · exact Or.inl h
  · exact Or.inr h

/-- The state in which a worker calls `next`: it is not waiting and not counted. -/
structure Pre (s : St) (i : Nat) (w : W) : Prop where
  get : s.ws[i]? = some w
  live : w.live = true
  active : w.active = true
  fifo : s.started ++ s.work = s.accepted
  once : ∀ c, s.started.count c + b2n (W.runs c w) = s.finished.count c + s.ws.countP (W.runs c)
  num : s.numWorkers = s.ws.countP W.live
  free : s.freeWorkers + b2n w.isFree = s.ws.countP W.isFree
  bound : s.numWorkers ≤ s.maxWorkers
  some' : s.quit = false → 0 < s.numWorkers
  main : s.quit = true ↔ s.m ≠ .open
  woken : s.quit = true → .waiting ∉ s.ws

theorem inv_next {s : St} {i : Nat} {w : W} (h : Pre s i w) : Inv (next s i) := by
  have hset := fun (p : W → Bool) (v : W) => countP_set' p v w s.ws i h.get
  unfold next
  split
  · rename_i c rest hw
    have hl := hset W.live (.running c)
    have hf := hset W.isFree (.running c)
    have ha := hset W.active (.running c)
    have h1 := h.num
    have h2 := h.free
    rw [h.live] at hl
    rw [h.active] at ha
    simp only [W.live, W.isFree, W.active, b2n, if_true, if_false, Bool.false_eq_true] at hl hf ha h2
    refine ⟨?_, ?_, ?_, ?_, ?_, h.bound, h.some', h.main, ?_⟩
    · have := h.fifo
      rw [hw] at this
      simpa using this
    · intro c'
      have h3 := h.once c'
      have hr := hset (W.runs c') (.running c)
      simp only [List.count_append, List.count_cons, List.count_nil]
      rw [runs_running] at hr
      by_cases hc : (c == c') = true
      · rw [hc, b2n_true] at hr; simp only [hc, if_true]; omega
      · rw [Bool.eq_false_iff.2 hc, b2n_false] at hr; rw [if_neg hc]; omega
    · show s.numWorkers = (s.ws.set i (.running c)).countP W.live
      omega
    · show s.freeWorkers = (s.ws.set i (.running c)).countP W.isFree
      omega
    · intro _
      show 0 < (s.ws.set i (.running c)).countP W.active
      have : 0 < s.ws.countP W.active := List.countP_pos_iff.2 ⟨w, mem_of_get h.get, h.active⟩
      omega
    · intro hq hm
      rcases mem_set hm with hm | hm
      · exact h.woken hq hm
      · cases hm
  · rename_i hw
    split
    · rename_i hq
      have hl := hset W.live .exited
      have hf := hset W.isFree .exited
      have h1 := h.num
      have h2 := h.free
      rw [h.live] at hl
      simp only [W.live, W.isFree, b2n, if_true, if_false, Bool.false_eq_true] at hl hf h2
      have hb := h.bound
      refine ⟨?_, ?_, ?_, ?_, ?_, ?_, ?_, ?_, ?_⟩
      · exact h.fifo
      · intro c'
        have h3 := h.once c'
        have hr := hset (W.runs c') .exited
        simp only [runs_exited, runs_waiting, b2n_false] at hr
        simp only
        omega
      · show s.numWorkers - 1 = (s.ws.set i .exited).countP W.live
        omega
      · show s.freeWorkers = (s.ws.set i .exited).countP W.isFree
        omega
      · intro hne
        exact absurd hw hne
      · show s.numWorkers - 1 ≤ s.maxWorkers
        omega
      · intro hq'
        rw [hq] at hq'
        cases hq'
      · have := h.main
        refine ⟨fun _ => ?_, fun _ => hq⟩
        show (if s.numWorkers - 1 = 0 ∧ s.m = .waiting then M.done else s.m) ≠ .open
        split
        · simp
        · exact this.1 hq
      · intro _ hm
        rcases mem_set hm with hm | hm
        · exact h.woken hq hm
        · cases hm
    · rename_i hq
      have hl := hset W.live .waiting
      have hf := hset W.isFree .waiting
      have h1 := h.num
      have h2 := h.free
      rw [h.live] at hl
      simp only [W.live, W.isFree, b2n, if_true, if_false, Bool.false_eq_true] at hl hf h2
      refine ⟨h.fifo, ?_, ?_, ?_, ?_, h.bound, h.some', h.main, ?_⟩
      · intro c'
        have h3 := h.once c'
        have hr := hset (W.runs c') .waiting
        simp only [runs_exited, runs_waiting, b2n_false] at hr
        simp only
        omega
      · show s.numWorkers = (s.ws.set i .waiting).countP W.live
        omega
      · show s.freeWorkers + 1 = (s.ws.set i .waiting).countP W.isFree
        omega
      · intro hne
        exact absurd hw hne
      · intro hq'
        exact absurd hq' hq

/-- Waking one thread keeps the counts, and afterwards somebody is awake if anybody was free or awake. -/
theorem signal_inv {s s' : St} {k : Nat} (h : signal s k = some s')
    (hfifo : s.started ++ s.work = s.accepted)
    (honce : ∀ c, s.started.count c = s.finished.count c + s.ws.countP (W.runs c))
    (hnum : s.numWorkers = s.ws.countP W.live) (hfree : s.freeWorkers = s.ws.countP W.isFree)
    (hbound : s.numWorkers ≤ s.maxWorkers) (hsome : s.quit = false → 0 < s.numWorkers)
    (hmain : s.quit = true ↔ s.m ≠ .open) (hwoken : s.quit = true → .waiting ∉ s.ws)
    (hlive : 0 < s.ws.countP W.live) : Inv s' := by
  unfold signal at h
  split at h
  · rename_i hk
    injection h with h
    subst h
    have hset := fun (p : W → Bool) => countP_set' p .woken .waiting s.ws k hk
    have h1 := hset W.live
    have h2 := hset W.isFree
    have h3 := hset W.active
    simp only [W.live, W.isFree, W.active, b2n, if_true, if_false, Bool.false_eq_true] at h1 h2 h3
    refine ⟨hfifo, ?_, ?_, ?_, ?_, hbound, hsome, hmain, ?_⟩
    · intro c
      have h4 := hset (W.runs c)
      have h5 := honce c
      simp only [runs_woken, runs_waiting, b2n_false] at h4
      show s.started.count c = s.finished.count c + (s.ws.set k .woken).countP (W.runs c)
      omega
    · show s.numWorkers = (s.ws.set k .woken).countP W.live
      omega
    · show s.freeWorkers = (s.ws.set k .woken).countP W.isFree
      omega
    · intro _
      show 0 < (s.ws.set k .woken).countP W.active
      omega
    · intro hq hm
      rcases mem_set hm with hm | hm
      · exact hwoken hq hm
      · cases hm
  · split at h
    · cases h
    · rename_i hno
      injection h with h
      subst h
      refine ⟨hfifo, honce, hnum, hfree, ?_, hbound, hsome, hmain, hwoken⟩
      intro _
      obtain ⟨w, hw, hwl⟩ := List.countP_pos_iff.1 hlive
      refine List.countP_pos_iff.2 ⟨w, hw, ?_⟩
      cases w with
      | start => rfl
      | waiting => exact absurd hw hno
      | woken => rfl
      | running c => rfl
      | exited => cases hwl

theorem inv_step {s s' : St} (hi : Inv s) (a : Act) (h : step s a = some s') : Inv s' := by
  cases a with
  | add c ok k =>
    simp only [step] at h
    split at h
    · injection h with h; subst h; exact hi
    · rename_i hq
      have hq : s.quit = false := by simpa using hq
      have hpos := hi.some' hq
      have hnum := hi.num
      split at h
      · rename_i hc
        split at h
        · refine signal_inv h ?_ ?_ ?_ ?_ ?_ ?_ hi.main ?_ ?_
          · show s.started ++ (s.work ++ [c]) = s.accepted ++ [c]
            rw [← hi.fifo, List.append_assoc]
          · intro c'
            have := hi.once c'
            simpa [W.runs] using this
          · simp [hnum, W.live]
          · have := hi.free
            simpa [W.isFree] using this
          · show s.numWorkers + 1 ≤ s.maxWorkers
            omega
          · intro _
            show 0 < s.numWorkers + 1
            omega
          · intro hq'
            have : s.quit = true := hq'
            rw [hq] at this
            cases this
          · simp [W.live]
        · injection h with h; subst h; exact hi
      · refine signal_inv h ?_ hi.once hi.num hi.free hi.bound hi.some' hi.main ?_ ?_
        · show s.started ++ (s.work ++ [c]) = s.accepted ++ [c]
          rw [← hi.fifo, List.append_assoc]
        · intro hq'
          have : s.quit = true := hq'
          rw [hq] at this
          cases this
        · show 0 < s.ws.countP W.live
          omega
  | enter i =>
    simp only [step] at h
    split at h
    · rename_i hg
      injection h with h
      subst h
      refine inv_next (w := .start) ⟨hg, rfl, rfl, hi.fifo, ?_, hi.num, ?_, hi.bound, hi.some', hi.main, hi.woken⟩
      · intro c; have := hi.once c; simpa [W.runs, b2n] using this
      · have := hi.free; simpa [W.isFree, b2n] using this
    · rename_i hg
      injection h with h
      subst h
      refine inv_next (w := .woken) ⟨hg, rfl, rfl, hi.fifo, ?_, hi.num, ?_, hi.bound, hi.some', hi.main, hi.woken⟩
      · intro c; have := hi.once c; simpa [W.runs, b2n] using this
      · have h1 := hi.free
        have h2 : 0 < s.ws.countP W.isFree := List.countP_pos_iff.2 ⟨_, mem_of_get hg, rfl⟩
        show s.freeWorkers - 1 + 1 = s.ws.countP W.isFree
        omega
    · cases h
  | finish i =>
    simp only [step] at h
    split at h
    · rename_i c hg
      injection h with h
      subst h
      refine inv_next (w := .running c) ⟨hg, rfl, rfl, hi.fifo, ?_, hi.num, ?_, hi.bound, hi.some', hi.main, hi.woken⟩
      · intro c'
        have h1 := hi.once c'
        simp only [List.count_append, List.count_cons, List.count_nil, runs_running]
        by_cases hc : (c == c') = true
        · rw [hc, b2n_true]; simp only [if_true]; omega
        · rw [Bool.eq_false_iff.2 hc, b2n_false]; simp only [Bool.false_eq_true, if_false]; omega
      · have := hi.free; simpa [W.isFree, b2n] using this
    · cases h
  | spurious i =>
    simp only [step] at h
    split at h
    · rename_i hg
      injection h with h
      subst h
      have hset := fun (p : W → Bool) => countP_set' p .woken .waiting s.ws i hg
      have h1 := hset W.live
      have h2 := hset W.isFree
      have h3 := hset W.active
      have hnum := hi.num
      have hfree := hi.free
      simp only [W.live, W.isFree, W.active, b2n, if_true, if_false, Bool.false_eq_true] at h1 h2 h3
      refine ⟨hi.fifo, ?_, ?_, ?_, ?_, hi.bound, hi.some', hi.main, ?_⟩
      · intro c
        have h4 := hset (W.runs c)
        have h5 := hi.once c
        simp only [runs_woken, runs_waiting, b2n_false] at h4
        show s.started.count c = s.finished.count c + (s.ws.set i .woken).countP (W.runs c)
        omega
      · show s.numWorkers = (s.ws.set i .woken).countP W.live
        omega
      · show s.freeWorkers = (s.ws.set i .woken).countP W.isFree
        omega
      · intro _
        show 0 < (s.ws.set i .woken).countP W.active
        omega
      · intro hq hm
        rcases mem_set hm with hm | hm
        · exact hi.woken hq hm
        · cases hm
    · cases h
  | quit =>
    simp only [step] at h
    split at h
    · rename_i hm
      injection h with h
      subst h
      have hcnt : ∀ (p : W → Bool), p .waiting = p .woken →
          (s.ws.map (fun w => if w = .waiting then .woken else w)).countP p = s.ws.countP p := by
        intro p hp
        rw [List.countP_map]
        congr 1
        funext w
        simp only [Function.comp]
        split
        · rename_i hw; rw [hw, hp]
        · rfl
      refine ⟨hi.fifo, ?_, ?_, ?_, ?_, hi.bound, ?_, ?_, ?_⟩
      · intro c
        have := hi.once c
        show s.started.count c = s.finished.count c + _
        rw [hcnt _ rfl]
        exact this
      · show s.numWorkers = _
        rw [hcnt _ rfl]
        exact hi.num
      · show s.freeWorkers = _
        rw [hcnt _ rfl]
        exact hi.free
      · intro hne
        obtain ⟨w, hw, hwa⟩ := List.countP_pos_iff.1 (hi.awake hne)
        refine List.countP_pos_iff.2 ⟨w, ?_, hwa⟩
        refine List.mem_map.2 ⟨w, hw, ?_⟩
        rw [if_neg]
        intro hc
        rw [hc] at hwa
        cases hwa
      · intro hq; cases hq
      · refine ⟨fun _ => ?_, fun _ => rfl⟩
        show (if 0 < s.numWorkers then M.waiting else .done) ≠ .open
        split <;> simp
      · intro _ hm'
        obtain ⟨w, hw, he⟩ := List.mem_map.1 hm'
        split at he
        · cases he
        · rename_i hne; exact hne he
    · cases h
  | spuriousQuit =>
    simp only [step] at h
    split at h
    · rename_i hm
      injection h with h
      subst h
      refine ⟨hi.fifo, hi.once, hi.num, hi.free, hi.awake, hi.bound, hi.some', ?_, hi.woken⟩
      refine ⟨fun _ => by simp, fun _ => hi.main.2 (by rw [hm]; simp)⟩
    · cases h

theorem inv_init {min max : Nat} (h0 : 0 < min) (hm : min ≤ max) : Inv (St.init min max) := by
  refine ⟨rfl, ?_, ?_, ?_, ?_, hm, fun _ => h0, ?_, ?_⟩
  · intro c; simp [St.init, List.countP_replicate, W.runs]
  · simp [St.init, List.countP_replicate, W.live]
  · simp [St.init, List.countP_replicate, W.isFree]
  · intro h; exact absurd rfl h
  · simp [St.init]
  · intro h; simp [St.init] at h

theorem inv_run {acts : List Act} : ∀ {s s' : St}, Inv s → run s acts = some s' → Inv s' := by
  induction acts with
  | nil => intro s s' hi h; injection h with h; subst h; exact hi
  | cons a l ih =>
    intro s s' hi h
    simp only [run] at h
    split at h
    · rename_i s1 hs1; exact ih (inv_step hi a hs1) h
    · cases h

/-- The commands handed to the pool by a list of actions. -/
def added : List Act → List Nat
  | [] => []
  | .add c _ _ :: l => c :: added l
  | _ :: l => added l

/-- C48: commands are started in the order in which they were accepted, none is left out and none is invented. -/
theorem pool_fifo {min max : Nat} (h0 : 0 < min) (hm : min ≤ max) {acts : List Act} {s : St}
    (h : run (St.init min max) acts = some s) : s.started ++ s.work = s.accepted :=
  (inv_run (inv_init h0 hm) h).fifo

/-- C48: every accepted command is in exactly one place: waiting, being executed by one worker, or finished; so none is executed twice. -/
theorem pool_once {min max : Nat} (h0 : 0 < min) (hm : min ≤ max) {acts : List Act} {s : St}
    (h : run (St.init min max) acts = some s) (c : Nat) :
    s.accepted.count c = s.work.count c + s.ws.count (.running c) + s.finished.count c := by
  have hi := inv_run (inv_init h0 hm) h
  have h1 := hi.once c
  have h2 : s.ws.countP (W.runs c) = s.ws.count (.running c) := by
    rw [List.count]
    congr 1
    funext w
    cases w with
    | running d =>
      by_cases hd : d = c
      · subst hd; simp [W.runs]
      · have h3 : W.running d ≠ W.running c := fun he => hd (by injection he)
        rw [runs_running, beq_eq_false_iff_ne.2 hd, beq_eq_false_iff_ne.2 h3]
    | start => exact (beq_eq_false_iff_ne.2 (by simp)).symm
    | waiting => exact (beq_eq_false_iff_ne.2 (by simp)).symm
    | woken => exact (beq_eq_false_iff_ne.2 (by simp)).symm
    | exited => exact (beq_eq_false_iff_ne.2 (by simp)).symm
  rw [← hi.fifo, List.count_append, h1, h2]
  omega

theorem accepted_run {acts : List Act} : ∀ {s s' : St}, run s acts = some s' →
    ∃ l, s'.accepted = s.accepted ++ l ∧ l.Sublist (added acts) := by
  induction acts with
  | nil => intro s s' h; injection h with h; subst h; exact ⟨[], by simp, by simp [added]⟩
  | cons a l ih =>
    intro s s' h
    simp only [run] at h
    split at h
    · rename_i s1 hs1
      obtain ⟨l', h1, h2⟩ := ih h
      have hsig : ∀ (t t' : St) (k : Nat), signal t k = some t' → t'.accepted = t.accepted := by
        intro t t' k ht
        unfold signal at ht
        split at ht
        · injection ht with ht; subst ht; rfl
        · split at ht
          · cases ht
          · injection ht with ht; subst ht; rfl
      have hnext : ∀ (t : St) (i : Nat), (next t i).accepted = t.accepted := by
        intro t i
        unfold next
        split
        · rfl
        · split <;> rfl
      cases a with
      | add c ok k =>
        simp only [step] at hs1
        simp only [added]
        split at hs1
        · injection hs1 with hs1; subst hs1; exact ⟨l', h1, h2.cons _⟩
        · split at hs1
          · split at hs1
            · have := hsig _ _ _ hs1
              exact ⟨c :: l', by rw [h1, this]; simp, h2.cons₂ _⟩
            · injection hs1 with hs1; subst hs1; exact ⟨l', h1, h2.cons _⟩
          · have := hsig _ _ _ hs1
            exact ⟨c :: l', by rw [h1, this]; simp, h2.cons₂ _⟩
      | enter i =>
        simp only [step] at hs1
        split at hs1
        · injection hs1 with hs1; subst hs1; exact ⟨l', by rw [h1, hnext], h2⟩
        · injection hs1 with hs1; subst hs1; exact ⟨l', by rw [h1, hnext], h2⟩
        · cases hs1
      | finish i =>
        simp only [step] at hs1
        split at hs1
        · injection hs1 with hs1; subst hs1; exact ⟨l', by rw [h1, hnext], h2⟩
        · cases hs1
      | spurious i =>
        simp only [step] at hs1
        split at hs1
        · injection hs1 with hs1; subst hs1; exact ⟨l', h1, h2⟩
        · cases hs1
      | quit =>
        simp only [step] at hs1
        split at hs1
        · injection hs1 with hs1; subst hs1; exact ⟨l', h1, h2⟩
        · cases hs1
      | spuriousQuit =>
        simp only [step] at hs1
        split at hs1
        · injection hs1 with hs1; subst hs1; exact ⟨l', h1, h2⟩
        · cases hs1
    · cases h

/-- C48: only commands that were handed over are executed, in that order. -/
theorem pool_added {min max : Nat} {acts : List Act} {s : St} (h : run (St.init min max) acts = some s) :
    s.accepted.Sublist (added acts) := by
  obtain ⟨l, h1, h2⟩ := accepted_run h
  rw [h1]
  simpa [St.init] using h2

/-- C48: a command is refused only when the daemon is leaving or no thread could be created. -/
theorem pool_refuse {s s' : St} {c k : Nat} {ok : Bool} (h : step s (.add c ok k) = some s') (hq : s.quit = false) (hok : ok = true) :
    s'.accepted = s.accepted ++ [c] ∧ s'.work = s.work ++ [c] := by
  have hsig : ∀ (t t' : St) (k : Nat), signal t k = some t' → t'.accepted = t.accepted ∧ t'.work = t.work := by
    intro t t' k ht
    unfold signal at ht
    split at ht
    · injection ht with ht; subst ht; exact ⟨rfl, rfl⟩
    · split at ht
      · cases ht
      · injection ht with ht; subst ht; exact ⟨rfl, rfl⟩
  simp only [step, hq, hok] at h
  simp only [Bool.false_eq_true, if_false, if_true] at h
  split at h
  · exact hsig _ _ _ h
  · exact hsig _ _ _ h

/-- C48: the number of worker threads never exceeds the configured maximum. -/
theorem pool_bound {min max : Nat} (h0 : 0 < min) (hm : min ≤ max) {acts : List Act} {s : St}
    (h : run (St.init min max) acts = some s) : s.ws.countP (fun w => w ≠ .exited) ≤ max := by
  have hi := inv_run (inv_init h0 hm) h
  have hmax : ∀ (acts : List Act) (s s' : St), run s acts = some s' → s'.maxWorkers = s.maxWorkers := by
    intro acts
    induction acts with
    | nil => intro s s' h; injection h with h; subst h; rfl
    | cons a l ih =>
      intro s s' h
      simp only [run] at h
      split at h
      · rename_i s1 hs1
        rw [ih _ _ h]
        have hsig : ∀ (t t' : St) (k : Nat), signal t k = some t' → t'.maxWorkers = t.maxWorkers := by
          intro t t' k ht
          unfold signal at ht
          split at ht
          · injection ht with ht; subst ht; rfl
          · split at ht
            · cases ht
            · injection ht with ht; subst ht; rfl
        have hnext : ∀ (t : St) (i : Nat), (next t i).maxWorkers = t.maxWorkers := by
          intro t i
          unfold next
          split
          · rfl
          · split <;> rfl
        cases a with
        | add c ok k =>
          simp only [step] at hs1
          split at hs1
          · injection hs1 with hs1; subst hs1; rfl
          · split at hs1
            · split at hs1
              · have := hsig _ _ _ hs1; exact this
              · injection hs1 with hs1; subst hs1; rfl
            · have := hsig _ _ _ hs1; exact this
        | enter i =>
          simp only [step] at hs1
          split at hs1
          · injection hs1 with hs1; subst hs1; exact hnext _ _
          · injection hs1 with hs1; subst hs1; exact hnext _ _
          · cases hs1
        | finish i =>
          simp only [step] at hs1
          split at hs1
          · injection hs1 with hs1; subst hs1; exact hnext _ _
          · cases hs1
        | spurious i =>
          simp only [step] at hs1
          split at hs1
          · injection hs1 with hs1; subst hs1; rfl
          · cases hs1
        | quit =>
          simp only [step] at hs1
          split at hs1
          · injection hs1 with hs1; subst hs1; rfl
          · cases hs1
        | spuriousQuit =>
          simp only [step] at hs1
          split at hs1
          · injection hs1 with hs1; subst hs1; rfl
          · cases hs1
      · cases h
  have h1 := hi.bound
  rw [hmax _ _ _ h, hi.num] at h1
  have : s.ws.countP (fun w => decide (w ≠ .exited)) = s.ws.countP W.live := by
    congr 1
    funext w
    cases w <;> simp [W.live]
  rw [this]
  exact h1

/-- C48: no wake-up is lost: while a command waits, some worker is executing a command or about to look at the queue. -/
theorem pool_awake {min max : Nat} (h0 : 0 < min) (hm : min ≤ max) {acts : List Act} {s : St}
    (h : run (St.init min max) acts = some s) (hw : s.work ≠ []) :
    ∃ i : Nat, ((∃ c, s.ws[i]? = some (.running c)) ∨
      ∃ c rest s', s.work = c :: rest ∧ step s (.enter i) = some s' ∧ s'.ws[i]? = some (.running c) ∧ s'.work = rest) := by
  have hi := inv_run (inv_init h0 hm) h
  obtain ⟨w, hmem, hact⟩ := List.countP_pos_iff.1 (hi.awake hw)
  obtain ⟨i, hlt, hg⟩ := List.mem_iff_getElem.1 hmem
  have hg : s.ws[i]? = some w := by rw [List.getElem?_eq_getElem hlt, hg]
  refine ⟨i, ?_⟩
  match hwk : s.work with
  | [] => exact absurd hwk hw
  | c :: rest =>
    cases w with
    | start =>
      refine Or.inr ⟨c, rest, _, rfl, by simp only [step, hg]; rfl, ?_, ?_⟩
      · simp [next, hwk, hlt]
      · simp [next, hwk]
    | waiting => cases hact
    | woken =>
      refine Or.inr ⟨c, rest, _, rfl, by simp only [step, hg]; rfl, ?_, ?_⟩
      · simp [next, hwk, hlt]
      · simp [next, hwk]
    | running d => exact Or.inl ⟨d, hg⟩
    | exited => cases hact

/-- C48: when every worker sleeps or has left, every accepted command has been executed exactly once. -/
theorem pool_quiet {min max : Nat} (h0 : 0 < min) (hm : min ≤ max) {acts : List Act} {s : St}
    (h : run (St.init min max) acts = some s) (hw : ∀ w ∈ s.ws, w = .waiting ∨ w = .exited) :
    s.work = [] ∧ ∀ c, s.accepted.count c = s.finished.count c := by
  have hi := inv_run (inv_init h0 hm) h
  have hwork : s.work = [] := by
    refine Classical.byContradiction fun hne => ?_
    obtain ⟨w, hmem, hact⟩ := List.countP_pos_iff.1 (hi.awake hne)
    rcases hw w hmem with rfl | rfl <;> cases hact
  refine ⟨hwork, ?_⟩
  intro c
  rw [pool_once h0 hm h c, hwork]
  have : s.ws.count (.running c) = 0 := by
    rw [List.count_eq_zero]
    intro hmem
    rcases hw _ hmem with h | h <;> cases h
  rw [this]
  simp

/-- `thread_pool_free` has returned only after the last worker, if its wait did not end early. -/
theorem done_zero {acts : List Act} : ∀ {s s' : St}, (s.m = .done → s.numWorkers = 0) → Inv s → .spuriousQuit ∉ acts →
    run s acts = some s' → s'.m = .done → s'.numWorkers = 0 := by
  induction acts with
  | nil => intro s s' h1 _ _ h hd; injection h with h; subst h; exact h1 hd
  | cons a l ih =>
    intro s s' h1 hi hns h hd
    simp only [run] at h
    split at h
    · rename_i s1 hs1
      refine ih ?_ (inv_step hi a hs1) (fun hm => hns (List.mem_cons_of_mem _ hm)) h hd
      have hsig : ∀ (t t' : St) (k : Nat), signal t k = some t' → t'.m = t.m := by
        intro t t' k ht
        unfold signal at ht
        split at ht
        · injection ht with ht; subst ht; rfl
        · split at ht
          · cases ht
          · injection ht with ht; subst ht; rfl
      have hnext : ∀ (t : St) (i : Nat), (t.m = .done → t.numWorkers = 0) → (next t i).m = .done → (next t i).numWorkers = 0 := by
        intro t i ht hd
        unfold next at hd ⊢
        split at hd
        · rename_i c rest hw
          exact ht hd
        · rename_i hw
          split at hd
          · rename_i hq
            rw [if_pos hq]
            simp only at hd ⊢
            split at hd
            · rename_i hc; exact hc.1
            · have := ht hd; omega
          · rename_i hq
            rw [if_neg hq]
            exact ht hd
      cases a with
      | add c ok k =>
        simp only [step] at hs1
        split at hs1
        · injection hs1 with hs1; subst hs1; exact h1
        · rename_i hq
          have hop : s.m = .open := by
            refine Classical.byContradiction fun hne => hq (hi.main.2 hne)
          split at hs1
          · split at hs1
            · have := hsig _ _ _ hs1
              intro hd1
              rw [this] at hd1
              have hd1 : s.m = .done := hd1
              rw [hop] at hd1; cases hd1
            · injection hs1 with hs1; subst hs1; exact h1
          · have := hsig _ _ _ hs1
            intro hd1
            rw [this] at hd1
            have hd1 : s.m = .done := hd1
            rw [hop] at hd1; cases hd1
      | enter i =>
        simp only [step] at hs1
        split at hs1
        · injection hs1 with hs1; subst hs1; exact hnext _ _ h1
        · injection hs1 with hs1; subst hs1; exact hnext _ _ h1
        · cases hs1
      | finish i =>
        simp only [step] at hs1
        split at hs1
        · injection hs1 with hs1; subst hs1; exact hnext _ _ h1
        · cases hs1
      | spurious i =>
        simp only [step] at hs1
        split at hs1
        · injection hs1 with hs1; subst hs1; exact h1
        · cases hs1
      | quit =>
        simp only [step] at hs1
        split at hs1
        · injection hs1 with hs1
          subst hs1
          intro hd1
          simp only at hd1 ⊢
          split at hd1
          · cases hd1
          · omega
        · cases hs1
      | spuriousQuit => exact absurd List.mem_cons_self hns
    · cases h

/-- C48, partial (the wait in `thread_pool_free` is not repeated when it ends without a signal): when the daemon has waited for its workers, all have left and every accepted
command has been executed. -/
theorem pool_quit_partial {min max : Nat} (h0 : 0 < min) (hm : min ≤ max) {acts : List Act} {s : St}
    (h : run (St.init min max) acts = some s) (hns : .spuriousQuit ∉ acts) (hd : s.m = .done) :
    (∀ w ∈ s.ws, w = .exited) ∧ s.work = [] ∧ ∀ c, s.accepted.count c = s.finished.count c := by
  have hi := inv_run (inv_init h0 hm) h
  have hz := done_zero (s := St.init min max) (by simp [St.init]) (inv_init h0 hm) hns h hd
  rw [hi.num] at hz
  have hall : ∀ w ∈ s.ws, w = .exited := by
    intro w hw
    have := List.countP_eq_zero.1 hz w hw
    cases w <;> simp [W.live] at this ⊢
  exact ⟨hall, pool_quiet h0 hm h (fun w hw => Or.inr (hall w hw))⟩

/-- Two commands, two workers, then the end. -/
example : ∃ s, run (St.init 2 8) [.enter 0, .enter 1, .add 5 true 1, .add 6 true 0, .enter 1, .enter 0, .finish 0, .quit, .finish 1, .enter 0] = some s ∧
    s.m = .done ∧ s.accepted = [5, 6] ∧ s.finished = [6, 5] ∧ s.started = [5, 6] := by
  exact ⟨_, rfl, by decide⟩

example : ∃ s, run (St.init 2 8) [.enter 0, .enter 1, .add 5 true 1] = some s ∧ s.work ≠ [] := ⟨_, rfl, by decide⟩
example : ∃ s, run (St.init 2 8) [.enter 0, .enter 1, .add 5 true 1, .enter 1, .finish 1] = some s ∧
    (∀ w ∈ s.ws, w = .waiting ∨ w = .exited) ∧ s.finished = [5] := ⟨_, rfl, by decide⟩
example : ∃ s s', run (St.init 2 8) [] = some s ∧ step s (.add 5 true 0) = some s' ∧ s.quit = false ∧ s'.ws.length = 3 :=
  ⟨_, _, rfl, rfl, by decide⟩

/-- A wait for the workers that ends early: commands are still being executed when the daemon goes on to close its logs and its lock file. -/
theorem spurious_quit_violated : ∃ acts s, run (St.init 2 8) acts = some s ∧ s.m = .done ∧ .running 5 ∈ s.ws :=
  ⟨[.add 5 true 0, .enter 0, .quit, .spuriousQuit], _, rfl, by decide⟩

/-- A waiting worker that was woken counts as free until it runs.  Two commands that arrive before that share it: the second waits for the first to finish although
there are fewer threads than allowed, for as long as that takes, and no thread is created for it. -/
theorem shared_worker_violated : ∃ acts s, run (St.init 2 8) acts = some s ∧ s.work = [7] ∧ s.numWorkers = 3 ∧ s.maxWorkers = 8 ∧
    (∀ w ∈ s.ws, ∃ c, w = .running c) ∧
    ∀ more s', run s more = some s' → (∀ c ok k, .add c ok k ∉ more) → (∀ i, .finish i ∉ more) → s'.work = [7] := by
  refine ⟨[.add 1 true 0, .enter 0, .enter 1, .enter 2, .add 2 true 1, .add 3 true 2, .add 7 true 0, .enter 1, .enter 2], _, rfl, by decide, by decide, by decide, ?_, ?_⟩
  · intro w hw
    have : w = .running 1 ∨ w = .running 2 ∨ w = .running 3 := by
      revert w
      decide
    rcases this with h | h | h <;> exact ⟨_, h⟩
  · intro more
    have key : ∀ (more : List Act) (s s' : St), (∀ w ∈ s.ws, ∃ c, w = .running c) → s.work = [7] → run s more = some s' →
        (∀ c ok k, .add c ok k ∉ more) → (∀ i, .finish i ∉ more) → s'.work = [7] := by
      intro more
      induction more with
      | nil => intro s s' _ hw h _ _; injection h with h; subst h; exact hw
      | cons a l ih =>
        intro s s' hall hw h hna hnf
        simp only [run] at h
        split at h
        · rename_i s1 hs1
          have hg : ∀ (i : Nat) (w : W), s.ws[i]? = some w → ∃ c, w = .running c := fun i w h => hall w (mem_of_get h)
          refine ih s1 s' ?_ ?_ h (fun c ok k hm => hna c ok k (List.mem_cons_of_mem _ hm)) (fun i hm => hnf i (List.mem_cons_of_mem _ hm))
          · cases a with
            | add c ok k => exact absurd List.mem_cons_self (hna c ok k)
            | finish i => exact absurd List.mem_cons_self (hnf i)
            | enter i =>
              simp only [step] at hs1
              split at hs1
              · rename_i hx; obtain ⟨c, hc⟩ := hg _ _ hx; cases hc
              · rename_i hx; obtain ⟨c, hc⟩ := hg _ _ hx; cases hc
              · cases hs1
            | spurious i =>
              simp only [step] at hs1
              split at hs1
              · rename_i hx; obtain ⟨c, hc⟩ := hg _ _ hx; cases hc
              · cases hs1
            | quit =>
              simp only [step] at hs1
              split at hs1
              · injection hs1 with hs1
                subst hs1
                intro w hm
                obtain ⟨w', hw', he⟩ := List.mem_map.1 hm
                obtain ⟨c, hc⟩ := hall w' hw'
                exact ⟨c, by rw [← he, hc]; rfl⟩
              · cases hs1
            | spuriousQuit =>
              simp only [step] at hs1
              split at hs1
              · injection hs1 with hs1; subst hs1; exact hall
              · cases hs1
          · cases a with
            | add c ok k => exact absurd List.mem_cons_self (hna c ok k)
            | finish i => exact absurd List.mem_cons_self (hnf i)
            | enter i =>
              simp only [step] at hs1
              split at hs1
              · rename_i hx; obtain ⟨c, hc⟩ := hg _ _ hx; cases hc
              · rename_i hx; obtain ⟨c, hc⟩ := hg _ _ hx; cases hc
              · cases hs1
            | spurious i =>
              simp only [step] at hs1
              split at hs1
              · rename_i hx; obtain ⟨c, hc⟩ := hg _ _ hx; cases hc
              · cases hs1
            | quit =>
              simp only [step] at hs1
              split at hs1
              · injection hs1 with hs1; subst hs1; exact hw
              · cases hs1
            | spuriousQuit =>
              simp only [step] at hs1
              split at hs1
              · injection hs1 with hs1; subst hs1; exact hw
              · cases hs1
        · cases h
    intro s' h hna hnf
    refine key more _ s' ?_ (by decide) h hna hnf
    intro w hw
    have : w = .running 1 ∨ w = .running 2 ∨ w = .running 3 := by
      revert w
      decide
    rcases this with h | h | h <;> exact ⟨_, h⟩

end Sanlock.Pool
