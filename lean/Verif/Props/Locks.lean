import Verif.Lemmas.Locks

/-!
# C61: the daemon does not block itself.  C62: lockspaces are not used after they were freed

`Reach P s`: `s` is a state of the daemon after any number of steps of any number of threads in any
order, where each thread runs programs of `P` one after another.  `Code` are all functions of the
code that take mutexes; `Safe false` leaves out the three that use a lockspace without holding
`spaces_mutex` in a thread other than main; `Safe true` leaves out also the one that waits for a
client while it holds a mutex.
-/

namespace Sanlock.Locks

/-! ## C61 -/

/-- As long as a thread has something to do, some thread can go on, when clients take what is sent to
them: no circle of threads waits for each other, for mutexes or for the end of a thread.  Missing:
`lockspace_set_event`, `host_status_set_bit`, `send_event_callbacks`, after which memory may be
damaged (C62). -/
theorem never_stuck_partial {s : State} (h : Reach (Safe false) s) (hr : ∀ c, s.ready c = true)
    {t : Thr} (ht : s.rest t ≠ .ret) :
    ∃ u s', step s (.op u) = some s' ∨ step s (.fin u) = some s' := by
  obtain ⟨κ, hi⟩ := inv_reach h
  rcases moves hi (Or.inr hr) 7 t ht (fun c _ _ => hr c) (by omega) (fun _ => hr) with
    ⟨u, s', h1⟩ | ⟨x, u, k, h1, h2, h3, h4⟩
  · exact ⟨u, s', Or.inl h1⟩
  · exact ⟨u, { s with life := upd s.life u .ended }, Or.inr (by simp only [step]; rw [if_pos ⟨h2, h3, h4⟩])⟩

/-- From every state all functions that have begun can come to their end, without anything new being
started.  Missing: as above. -/
theorem calls_finish_partial {s : State} (h : Reach (Safe false) s) (hr : ∀ c, s.ready c = true) :
    ∃ as s', (∀ a ∈ as, ∃ t, a = .op t ∨ a = .fin t) ∧ run s as = some s' ∧
      ∀ t, s'.rest t = .ret := by
  obtain ⟨κ, hi⟩ := inv_reach h
  obtain ⟨ts, hts⟩ := reach_fin h
  obtain ⟨as, s', ha, hs, hd⟩ := finish (total s.rest ts) ts hi hr hts (Nat.le_refl _)
  refine ⟨as, s', fun a hm => ?_, hs, hd⟩
  have := ha a hm
  cases a with
  | op t => exact ⟨t, Or.inl rfl⟩
  | fin t => exact ⟨t, Or.inr rfl⟩
  | _ => simp [Act.old] at this

/-- When no function runs every mutex is free.  Missing: as above. -/
theorem idle_locks_free_partial {s : State} (h : Reach (Safe false) s) (hi : ∀ t, s.rest t = .ret)
    (l : Lock) : s.owner l = none := by
  obtain ⟨κ, hv⟩ := inv_reach h
  cases ho : s.owner l with
  | none => rfl
  | some t =>
    exfalso
    have hm := ((hv.core.sound t).own l).mp ho
    have hd := hv.prog t
    rw [hi t] at hd
    rw [hd.1] at hm
    simp at hm

/-- Without the functions that send to a client under a mutex, a client that never reads does not
matter: whatever the clients do, every mutex can be had by going on with the functions that have
begun.  Missing: `cmd_status` (`status_stall_violated`). -/
theorem locks_return_partial {s : State} (h : Reach (Safe true) s) (l : Lock) :
    ∃ as s', (∀ a ∈ as, ∃ t, a = .op t ∨ a = .fin t) ∧ run s as = some s' ∧ s'.owner l = none := by
  obtain ⟨κ, hi⟩ := inv_reach h
  obtain ⟨ts, hts⟩ := reach_fin h
  obtain ⟨as, s', ha, hs, hd⟩ := free_lock l (total s.rest ts) ts hi hts (Nat.le_refl _)
  refine ⟨as, s', fun a hm => ?_, hs, hd⟩
  have := ha a hm
  cases a with
  | op t => exact ⟨t, Or.inl rfl⟩
  | fin t => exact ⟨t, Or.inr rfl⟩
  | _ => simp [Act.old] at this

/-- `n` instructions of thread `t` -/
def ops (t : Thr) (n : Nat) : List Act := List.replicate n (.op t)

theorem ops_from {P : Thr → Prog → Prop} (t : Thr) (n : Nat) : ∀ a ∈ ops t n, a.from_ P := by
  intro a ha
  rw [(List.mem_replicate.mp ha).2]; trivial

theorem cons_from {P : Thr → Prog → Prop} {a : Act} {as : List Act} (h : a.from_ P)
    (hs : ∀ a ∈ as, a.from_ P) : ∀ b ∈ a :: as, b.from_ P := by
  intro b hb
  rcases List.mem_cons.mp hb with rfl | hb
  · exact h
  · exact hs b hb

theorem append_from {P : Thr → Prog → Prop} {as bs : List Act} (h : ∀ a ∈ as, a.from_ P)
    (hs : ∀ a ∈ bs, a.from_ P) : ∀ b ∈ as ++ bs, b.from_ P := by
  intro b hb
  rcases List.mem_append.mp hb with hb | hb
  · exact h b hb
  · exact hs b hb

theorem nil_from {P : Thr → Prog → Prop} : ∀ b ∈ ([] : List Act), b.from_ P := by simp

/-- a lockspace is added, client 0 stops reading and asks for the status, a worker looks for a
lockspace -/
def stallActs : List Act :=
  .call (.worker 0) (addSpace 0 [] (.waited 0 false)) :: ops (.worker 0) 17 ++
  [.client 0 true, .call .main (status 0 [(.on, 0)] 0)] ++ ops .main 4 ++
  [.client 0 false, .call (.worker 1) (lookup [(.on, 0)])]

theorem stall_reaches : (run init stallActs).isSome = true := by decide +kernel

def stallState : State := (run init stallActs).get stall_reaches

theorem stall_run : run init stallActs = some stallState := (Option.some_get stall_reaches).symm

theorem stall_from : ∀ a ∈ stallActs, a.from_ (Safe false) :=
  append_from (append_from (append_from
    (cons_from (Safe.addSpace 0 0 [] _) (ops_from _ _))
    (cons_from trivial (cons_from (Safe.status 0 _ 0 rfl) nil_from)))
    (ops_from _ _))
    (cons_from trivial (cons_from (Safe.lookup 1 _) nil_from))

/-- The status command sends what is known of each lockspace to the client while it holds
`spaces_mutex`: a client that does not read stops the main thread, and every worker that needs a
lockspace, for as long as it likes, whatever all other threads and clients do.  The main thread
then checks no lease. -/
theorem status_stall_violated : ∃ s, Reach (Safe false) s ∧
    ∀ as s', (∀ a ∈ as, a.from_ (Safe false) ∧ a ≠ .client 0 true) → run s as = some s' →
      s'.rest .main = s.rest .main ∧ s'.rest (.worker 1) = s.rest (.worker 1) ∧
      s.rest .main ≠ .ret ∧ s.rest (.worker 1) ≠ .ret := by
  refine ⟨stallState, ⟨stallActs, stall_from, stall_run⟩, fun as s' ha hr => ?_⟩
  obtain ⟨κ, hi⟩ := inv_reach ⟨stallActs, stall_from, stall_run⟩
  have e1 : stallState.rest .main =
      .op (.io 0) (one (.rel .spaces) ++ sec .res .ret) := by decide +kernel
  have e2 : stallState.rest (.worker 1) = lookup [(.on, 0)] := by decide +kernel
  have e3 : stallState.rest (.worker 1) = .op (.acq .spaces)
      (each (fun x => found x.1 x.2 (one (.use x.2) ++ lg)) [(.on, 0)] ++ one (.rel .spaces)) := by
    rw [e2]; rfl
  have hst : Stalled 0 1 _ _ stallState :=
    ⟨by decide +kernel, e1, by decide +kernel, e3, by decide +kernel⟩
  have := stalled_run as hi hst ha hr
  refine ⟨this.2.1.trans e1.symm, this.2.2.2.1.trans e3.symm, ?_, ?_⟩
  · rw [e1]; simp
  · rw [e3]; simp

/-! ## C62 -/

/-- What the next instruction of a thread may touch.  A lockspace is used, and its mutex taken or
given back, only while its memory is there; it is freed only when it is on no list, its thread does
not run and nobody holds its mutex; lists are changed and searched with `spaces_mutex` held; only a
thread that was created is joined; a mutex is given back by the thread that holds it.  Missing:
`lockspace_set_event`, `host_status_set_bit`, `send_event_callbacks` (`set_event_violated`,
`set_bit_violated`, `callbacks_violated`). -/
theorem memory_valid_partial {s : State} (h : Reach (Safe false) s) {t : Thr} :
    (∀ i k, s.rest t = .op (.use i) k → s.st i ≠ .none ∧ s.st i ≠ .freed) ∧
    (∀ i k, s.rest t = .op (.acq (.sp i)) k → s.st i ≠ .none ∧ s.st i ≠ .freed) ∧
    (∀ l k, s.rest t = .op (.rel l) k → s.owner l = some t ∧
      ∀ i, l = .sp i → s.st i ≠ .none ∧ s.st i ≠ .freed) ∧
    (∀ i k, s.rest t = .op (.free i) k → (s.st i = .priv ∨ s.st i = .off) ∧
      s.life (.ls i) ≠ .alive ∧ s.owner (.sp i) = none) ∧
    (∀ i k, s.rest t = .op (.link i) k ∨ s.rest t = .op (.move i) k ∨
      s.rest t = .op (.remove i) k ∨ s.rest t = .op (.unlink i) k →
      s.owner .spaces = some t) ∧
    (∀ q i y n, s.rest t = .test (.onList q i) y n → s.owner .spaces = some t) ∧
    (∀ u k, s.rest t = .op (.join u) k → s.life u ≠ .none) := by
  obtain ⟨κ, hi⟩ := inv_reach h
  have hal : s.rest t ≠ .ret → s.life t = .alive := by
    intro hne
    apply Classical.byContradiction
    intro e; exact hne (hi.idle t e)
  have hu : ∀ i, (s.st i).usable = true → s.st i ≠ .none ∧ s.st i ≠ .freed := by
    intro i e; constructor <;> (intro e2; rw [e2] at e; simp [St.usable] at e)
  have hown : ∀ l, l ∈ (κ t).held → s.owner l = some t := fun l hl =>
    ((hi.core.sound t).own l).mpr hl
  have hbad : ∀ s', step s (.op t) = some s' → s'.bad = false := by
    intro s' hs
    obtain ⟨κ', hi'⟩ := inv_reach (reach_step h (a := .op t) trivial hs)
    exact hi'.core.bad
  have hw := hi.prog t
  refine ⟨?_, ?_, ?_, ?_, ?_, ?_, ?_⟩
  · intro i k e
    have ha := hal (by rw [e]; simp)
    rw [e] at hw
    obtain ⟨k', hc, -⟩ := hw
    simp only [chk] at hc
    split at hc
    case isFalse => simp at hc
    rename_i hx
    exact hu i (hi.core.usable ha hx)
  · intro i k e
    have ha := hal (by rw [e]; simp)
    rw [e] at hw
    obtain ⟨k', hc, -⟩ := hw
    simp only [chk] at hc
    split at hc
    case isFalse => simp at hc
    rename_i hx
    exact hu i (hi.core.lockOk ha hx.2.2)
  · intro l k e
    have ha := hal (by rw [e]; simp)
    rw [e] at hw
    obtain ⟨k', hc, -⟩ := hw
    simp only [chk] at hc
    split at hc
    case isFalse => simp at hc
    rename_i hx
    refine ⟨hown l hx.1, ?_⟩
    rintro i rfl
    exact hu i (hi.core.lockOk ha hx.2.1)
  · intro i k e
    have := hbad _ (by simp only [step, e, exec, Option.map_some]; rfl)
    simp [hi.core.bad, and_assoc] at this
    exact ⟨Classical.or_iff_not_imp_left.mpr this.1, this.2⟩
  · intro i k e
    have hm : Lock.spaces ∈ (κ t).held := by
      rcases e with e | e | e | e <;>
      · rw [e] at hw
        obtain ⟨k', hc, -⟩ := hw
        simp only [chk] at hc
        split at hc
        case isFalse => simp at hc
        rename_i hx
        exact hx.1
    exact hown _ hm
  · intro q i y n e
    rw [e] at hw
    exact hown _ hw.1
  · intro u k e hn
    have := hbad { s with bad := true, rest := upd s.rest t k }
      (by simp only [step, e, exec, hn, if_true, Option.map_some])
    simp at this

/-- The thread of a lockspace runs only while the lockspace is there.  Missing: as above. -/
theorem thread_has_space_partial {s : State} (h : Reach (Safe false) s) {i : Nat}
    (ha : s.life (.ls i) = .alive) : s.st i ≠ .none ∧ s.st i ≠ .freed ∧ s.st i ≠ .priv := by
  obtain ⟨κ, hi⟩ := inv_reach h
  rcases hi.core.g2 i ha with ⟨q, e⟩ | e <;> rw [e] <;> simp

/-- A lockspace that was added or is being removed has its thread, which runs or has ended.
Missing: as above. -/
theorem space_has_thread_partial {s : State} (h : Reach (Safe false) s) {i : Nat}
    (hl : s.st i = .listed .on ∨ s.st i = .listed .rem) : s.life (.ls i) ≠ .none := by
  obtain ⟨κ, hi⟩ := inv_reach h
  rcases hl with e | e
  · exact hi.core.g1 i _ e (by simp)
  · exact hi.core.g1 i _ e (by simp)

/-- Nothing leaks: when no function runs, every lockspace that was allocated is on the list of those
that were added, on the list of those being removed, or freed.  Missing: as above. -/
theorem no_leak_partial {s : State} (h : Reach (Safe false) s) (hr : ∀ t, s.rest t = .ret) (i : Nat) :
    s.st i = .none ∨ s.st i = .listed .on ∨ s.st i = .listed .rem ∨ s.st i = .freed := by
  obtain ⟨κ, hi⟩ := inv_reach h
  have no : ¬ (s.st i = .priv ∨ s.st i = .listed .add ∨ s.st i = .off) := by
    intro e
    obtain ⟨t, ht⟩ := hi.core.g6 i e
    have hd := hi.prog t
    rw [hr t] at hd
    rw [hd.2 i] at ht
    simp at ht
  cases hs : s.st i with
  | none => simp
  | priv => exact absurd (Or.inl hs) no
  | listed q =>
    cases q with
    | add => exact absurd (Or.inr (Or.inl hs)) no
    | on => simp
    | rem => simp
  | off => exact absurd (Or.inr (Or.inr hs)) no
  | freed => simp

/-- Whatever is being removed goes: when no function runs, the main thread frees the lockspace, the
thread of which ends.  Missing: as above. -/
theorem removed_is_freed_partial {s : State} (h : Reach (Safe false) s) (hr : ∀ t, s.rest t = .ret)
    (hm : s.life .main = .alive) {i : Nat} (hl : s.st i = .listed .rem) :
    ∃ as s', (∀ a ∈ as, a.from_ (Safe false)) ∧ run s as = some s' ∧ s'.st i = .freed ∧
      s'.life (.ls i) = .ended ∧ s'.bad = false ∧ ∀ t, s'.rest t = .ret := by
  have hlock := idle_locks_free_partial h hr
  have hlife := space_has_thread_partial h (Or.inr hl)
  have hto : ∀ as s', (∀ a ∈ as, a.from_ (Safe false)) → run s as = some s' → s'.bad = false := by
    intro as s' ha hs
    obtain ⟨κ', hi'⟩ := inv_reach (reach_run h ha hs)
    exact hi'.core.bad
  have hfrom : ∀ m : List Act, (∀ a ∈ m, a.from_ (Safe false)) →
      ∀ a ∈ Act.call .main (freeSpaces [(i, true)]) :: (ops .main 6 ++ m ++ ops .main 7),
        a.from_ (Safe false) := by
    intro m hmm a ha
    simp only [ops, List.mem_cons, List.mem_append, List.mem_replicate] at ha
    rcases ha with rfl | (⟨-, rfl⟩ | ha) | ⟨-, rfl⟩
    · exact .freeSpaces _
    · trivial
    · exact hmm a ha
    · trivial
  have hsome : ∃ m s', (∀ a ∈ m, a.from_ (Safe false)) ∧
      run s (Act.call .main (freeSpaces [(i, true)]) :: (ops .main 6 ++ m ++ ops .main 7)) = some s' ∧
      s'.st i = .freed ∧ s'.life (.ls i) = .ended ∧ ∀ t, s'.rest t = .ret := by
    have hx : ∀ x, s.life (.ls i) = x → x = .alive ∨ x = .ended := by
      intro x e; cases x
      · exact absurd e hlife
      · simp
      · simp
    rcases hx _ rfl with e | e
    · refine ⟨[.fin (.ls i)], ?_⟩
      simp [run, step, exec, ops, List.replicate, freeSpaces, sec, each, freeOne, found, one, lgs, lg,
        HAppend.hAppend, Append.append, Prog.seq, hr, hm, hlock, upd, ask, hl, e, relist, List.append,
        Act.from_]
      intro t ht; simp [ht]
    · refine ⟨[], ?_⟩
      simp [run, step, exec, ops, List.replicate, freeSpaces, sec, each, freeOne, found, one, lgs, lg,
        HAppend.hAppend, Append.append, Prog.seq, hr, hm, hlock, upd, ask, hl, e, relist, List.append]
      intro t ht; simp [ht]
  obtain ⟨m, s', h1, h2, h3, h4, h5⟩ := hsome
  exact ⟨_, s', hfrom m h1, h2, h3, h4, hto _ s' (hfrom m h1) h2, h5⟩

/-- lockspace 0 is added; thread `t` begins `p` and executes `n` instructions; the lockspace is
removed and freed, its thread ends; thread `t` executes an instruction -/
def freedActs (t : Thr) (p : Prog) (n : Nat) : List Act :=
  .call (.worker 0) (addSpace 0 [] (.waited 1 false)) :: ops (.worker 0) 20 ++
  .call t p :: ops t n ++
  .call .main (checkAll [(0, .gone [])]) :: ops .main 20 ++
  .fin (.ls 0) :: .call .main (freeSpaces [(0, true)]) :: ops .main 13 ++ [.op t]

theorem freed_from {t p n} (h : Code t p) : ∀ a ∈ freedActs t p n, a.from_ Code :=
  append_from (append_from (append_from (append_from
    (cons_from (Code.safe (.addSpace 0 0 [] _)) (ops_from _ _))
    (cons_from h (ops_from _ _)))
    (cons_from (Code.safe (.checkAll _)) (ops_from _ _)))
    (cons_from trivial (cons_from (Code.safe (.freeSpaces _)) (ops_from _ _))))
    (cons_from trivial nil_from)

theorem witness {as : List Act} {f : State → Bool} (h : (run init as).any f = true) :
    ∃ s, run init as = some s ∧ f s = true := by
  cases hr : run init as with
  | none => rw [hr] at h; simp at h
  | some s => rw [hr] at h; exact ⟨s, rfl, by simpa using h⟩

/-- `sanlock_set_event` uses the lockspace after it was freed: the worker finds the lockspace and
unlocks `spaces_mutex`, the main thread removes and frees it, the worker goes on. -/
theorem set_event_violated : ∃ s i, Reach Code s ∧ s.st i = .freed ∧ s.bad = true := by
  obtain ⟨s, h1, h2⟩ := witness (as := freedActs (.worker 1) (setEvent 0) 3)
    (f := fun s => decide (s.st 0 = .freed) && s.bad) (by decide +kernel)
  simp only [Bool.and_eq_true, decide_eq_true_eq] at h2
  exact ⟨s, 0, ⟨_, freed_from (.setEvent 1 0), h1⟩, h2⟩

/-- `sanlock_request` uses the lockspace after it was freed, when it marks the host that is asked. -/
theorem set_bit_violated : ∃ s i, Reach Code s ∧ s.st i = .freed ∧ s.bad = true := by
  obtain ⟨s, h1, h2⟩ := witness (as := freedActs (.worker 1) (setBit 0) 3)
    (f := fun s => decide (s.st 0 = .freed) && s.bad) (by decide +kernel)
  simp only [Bool.and_eq_true, decide_eq_true_eq] at h2
  exact ⟨s, 0, ⟨_, freed_from (.setBit 1 0), h1⟩, h2⟩

/-- The resource thread uses the lockspace after it was freed, when it hands events of other hosts to
clients: it locks a mutex in freed memory. -/
theorem callbacks_violated : ∃ s i, Reach Code s ∧ s.st i = .freed ∧ s.bad = true := by
  obtain ⟨s, h1, h2⟩ := witness (as := freedActs .resource (callbacks 0) 3)
    (f := fun s => decide (s.st 0 = .freed) && s.bad) (by decide +kernel)
  simp only [Bool.and_eq_true, decide_eq_true_eq] at h2
  exact ⟨s, 0, ⟨_, freed_from (.callbacks 0), h1⟩, h2⟩

/-! ## Examples -/

/-- two lockspaces: 0 is being removed, a worker adds 1 and waits for its thread, which failed; main
waits for `spaces_mutex`, which a worker holds that waits for the log -/
def exActs : List Act :=
  (.call (.worker 0) (addSpace 0 [] (.waited 1 false)) :: ops (.worker 0) 20) ++
  (.call .main (checkAll [(0, .gone [3])]) :: ops .main 24) ++
  (.call (.worker 0) (addSpace 1 [(.rem, 0)] (.waited 1 true)) :: ops (.worker 0) 16) ++
  (.call (.ls 1) (lsFail 1) :: ops (.ls 1) 4) ++ ops (.worker 0) 1 ++
  (.call .logger lg :: ops .logger 1) ++
  (.call (.worker 1) (lookup [(.rem, 0)]) :: ops (.worker 1) 3) ++
  [.call .main (freeSpaces [(0, true)])]

theorem ex_reaches : (run init exActs).isSome = true := by decide +kernel

def exState : State := (run init exActs).get ex_reaches

theorem ex_from (b : Bool) : ∀ a ∈ exActs, a.from_ (Safe b) :=
  append_from (append_from (append_from (append_from (append_from (append_from (append_from
    (cons_from (Safe.addSpace 0 0 [] _) (ops_from _ _))
    (cons_from (Safe.checkAll _) (ops_from _ _)))
    (cons_from (Safe.addSpace 0 1 _ _) (ops_from _ _)))
    (cons_from (Safe.lsFail 1) (ops_from _ _)))
    (ops_from _ _))
    (cons_from (Safe.log _) (ops_from _ _)))
    (cons_from (Safe.lookup 1 _) (ops_from _ _)))
    (cons_from (Safe.freeSpaces _) nil_from)

theorem ex_reach (b : Bool) : Reach (Safe b) exState :=
  ⟨exActs, ex_from b, (Option.some_get ex_reaches).symm⟩

theorem ex_ready (c : Nat) : exState.ready c = true := by
  have : ∀ (as : List Act) (s s' : State), (∀ a ∈ as, ∀ c b, a ≠ .client c b) →
      run s as = some s' → s'.ready = s.ready := by
    intro as
    induction as with
    | nil => intro s s' _ h; simp only [run, Option.some.injEq] at h; rw [h]
    | cons a as ih =>
      intro s s' ha h
      simp only [run, Option.bind_eq_some_iff] at h
      obtain ⟨s1, h1, h2⟩ := h
      rw [ih s1 s' (fun b hb => ha b (by simp [hb])) h2]
      cases a with
      | call t p =>
        simp only [step] at h1
        split at h1 <;> simp only [Option.some.injEq, reduceCtorEq] at h1
        rw [← h1]
      | op t => exact (step_op_rest h1).choose_spec.2.2.2
      | fin t =>
        simp only [step] at h1
        split at h1 <;> simp only [Option.some.injEq, reduceCtorEq] at h1
        rw [← h1]
      | client c b => exact absurd rfl (ha _ (by simp) c b)
  have h := this exActs init exState ?_ (Option.some_get ex_reaches).symm
  · rw [h]; rfl
  · intro a ha c b e
    subst e
    simp [exActs, ops] at ha

-- main and worker 1 wait for a mutex, worker 0 for a thread that has to end
example : (step exState (.op .main)).isNone = true ∧ (step exState (.op (.worker 1))).isNone = true ∧
    (step exState (.op (.worker 0))).isNone = true ∧ exState.owner .spaces = some (.worker 1) ∧
    exState.owner .log = some .logger ∧ exState.life (.ls 1) = .alive := by decide +kernel

example : ∃ u s', step exState (.op u) = some s' ∨ step exState (.fin u) = some s' :=
  never_stuck_partial (t := .main) (ex_reach false) ex_ready (by decide +kernel)

example : ∃ as s', (∀ a ∈ as, ∃ t, a = .op t ∨ a = .fin t) ∧ run exState as = some s' ∧
    ∀ t, s'.rest t = .ret := calls_finish_partial (ex_reach false) ex_ready

-- afterwards: everything is free, nothing leaked, and what is left of lockspace 0 can be freed
example : ∃ as s', run exState as = some s' ∧ (∀ l, s'.owner l = none) ∧
    ∀ i, s'.st i = .none ∨ s'.st i = .listed .on ∨ s'.st i = .listed .rem ∨ s'.st i = .freed := by
  obtain ⟨as, s', h1, h2, h3⟩ := calls_finish_partial (ex_reach false) ex_ready
  have h : Reach (Safe false) s' := reach_run (ex_reach false)
    (fun a ha => by obtain ⟨t, rfl | rfl⟩ := h1 a ha <;> trivial) h2
  exact ⟨as, s', h2, idle_locks_free_partial h h3, no_leak_partial h h3⟩

example : ∃ as s', (∀ a ∈ as, ∃ t, a = .op t ∨ a = .fin t) ∧ run exState as = some s' ∧
    s'.owner .spaces = none := locks_return_partial (ex_reach true) .spaces

-- the thread of lockspace 1 is alive
example : exState.st 1 ≠ .none ∧ exState.st 1 ≠ .freed ∧ exState.st 1 ≠ .priv :=
  thread_has_space_partial (ex_reach false) (by decide +kernel)

example : exState.life (.ls 0) ≠ .none :=
  space_has_thread_partial (ex_reach false) (Or.inr (by decide +kernel))

-- worker 0 waits for a thread that was created
example : exState.life (.ls 1) ≠ .none :=
  (memory_valid_partial (t := .worker 0) (ex_reach false)).2.2.2.2.2.2 (.ls 1) _
    (show exState.rest (.worker 0) = .op (.join (.ls 1)) (lgs 1 ++ addFail 1) by decide +kernel)

/-- lockspace 0 is being removed, nothing runs -/
def exActs2 : List Act :=
  (.call (.worker 0) (addSpace 0 [] (.waited 1 false)) :: ops (.worker 0) 20) ++
  (.call .main (checkAll [(0, .gone [3])]) :: ops .main 24)

theorem ex_reaches2 : (run init exActs2).isSome = true := by decide +kernel

def exState2 : State := (run init exActs2).get ex_reaches2

theorem ex_reach2 : Reach (Safe false) exState2 :=
  ⟨exActs2, append_from (cons_from (Safe.addSpace 0 0 [] _) (ops_from _ _))
    (cons_from (Safe.checkAll _) (ops_from _ _)), (Option.some_get ex_reaches2).symm⟩

theorem uncalled {t : Thr} : ∀ (as : List Act) (s s' : State), (∀ p, Act.call t p ∉ as) →
    s.rest t = .ret → run s as = some s' → s'.rest t = .ret := by
  intro as
  induction as with
  | nil => intro s s' _ h0 h; simp only [run, Option.some.injEq] at h; rw [← h]; exact h0
  | cons a as ih =>
    intro s s' ha h0 h
    simp only [run, Option.bind_eq_some_iff] at h
    obtain ⟨s1, h1, h2⟩ := h
    refine ih s1 s' (fun p hp => ha p (by simp [hp])) ?_ h2
    cases a with
    | call u p =>
      have hne : t ≠ u := by rintro rfl; exact ha p (by simp)
      simp only [step] at h1
      split at h1 <;> simp only [Option.some.injEq, reduceCtorEq] at h1
      rw [← h1]; simp only [upd_ne _ _ hne]; exact h0
    | op u =>
      obtain ⟨p, e, -, hne, -⟩ := step_op_rest h1
      have : t ≠ u := by rintro rfl; exact hne h0
      rw [e, upd_ne _ _ this]; exact h0
    | fin u =>
      simp only [step] at h1
      split at h1 <;> simp only [Option.some.injEq, reduceCtorEq] at h1
      rw [← h1]; exact h0
    | client c b =>
      simp only [step, Option.some.injEq] at h1
      rw [← h1]; exact h0

theorem ex_idle2 (t : Thr) : exState2.rest t = .ret := by
  by_cases h1 : t = .worker 0
  · subst h1; decide +kernel
  by_cases h2 : t = .main
  · subst h2; decide +kernel
  refine uncalled exActs2 init exState2 ?_ rfl (Option.some_get ex_reaches2).symm
  intro p hp
  simp [exActs2, ops, h1, h2] at hp

example : ∃ as s', (∀ a ∈ as, a.from_ (Safe false)) ∧ run exState2 as = some s' ∧
    s'.st 0 = .freed ∧ s'.life (.ls 0) = .ended ∧ s'.bad = false ∧ ∀ t, s'.rest t = .ret :=
  removed_is_freed_partial ex_reach2 ex_idle2 (by decide +kernel) (by decide +kernel)

end Sanlock.Locks
