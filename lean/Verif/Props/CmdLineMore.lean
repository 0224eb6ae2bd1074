import Verif.Props.CmdLine

/-!
# C73: settings, calls and the exit status
-/

namespace Sanlock.CmdLine

open Strings (Str Res)

/-! ## Settings -/

theorem atoi_dec {n : Nat} (h : n < 2 ^ 31) : atoi (Strings.dec n) = n := by
  obtain ⟨c, cs, h1, h2, h3, h4⟩ := Strings.dec_cons n
  obtain ⟨s1, s2, s3, -⟩ := Strings.digit_not_space h2 h3
  unfold atoi
  rw [h1, List.dropWhile_cons_of_neg (by simp [s1]), Strings.sign_other s2 s3, ← h1]
  simp only
  rw [Strings.dec_eq, Strings.digits_map (by omega) (Strings.digs_lt n), Strings.valOf_digs]
  simp only [Bool.false_eq_true, if_false]
  rw [Nat.min_eq_left (by omega)]
  exact Int.bmod_eq_of_le (by omega) (by omega)

/-- The settings that take the number given, and the numbers they take. -/
def Takes (m : Mode) (n : Nat) : Num → Prop
  | .workers => 2 ≤ n
  | .ioTimeout => m.status = false ∧ 0 < n
  | .graceSeconds => m.daemon = true ∧ n ≤ 60
  | .generation => m.daemon = false
  | .getHosts => m.gets = true
  | .highPriority => m.gets = false
  | .heEvent => m.rindex = false
  | .aio | .graceSet | .orphanSet | .usedSet | .clear | .align | .uid | .gid | .sortArg | .entryOffset | .indexOffset | .debug => False
  | _ => True

theorem option_value {e : Env} {m : Mode} {c c' : Com} {o : UInt8} {n : Nat} {k : Num} (hn : n < 2 ^ 31) (ht : Takes m n k)
    (ho : o ∈ setBy k) (h : option e m c o (Strings.dec n) = .ok c') : c'.num k = n := by
  have hu := Strings.strtoull_dec (n := n) (by omega)
  have ha := atoi_dec hn
  have hm : (n : Int) % 4294967296 = n := by omega
  cases k <;> simp only [Takes] at ht <;> simp only [setBy, List.mem_singleton] at ho <;> subst ho <;>
    simp [option, ha, hu, hm, ht, Com.set, Com.put] at h <;> try (subst h; simp; done)
  all_goals first
    | (split at h <;> first | omega | (subst h; simp; done))
    | (subst h; simp; omega)

theorem fold_append {e : Env} {m : Mode} : ∀ {l k : List Arg} {c : Com},
    fold e m c (l ++ k) = (match fold e m c l with | .ok c => fold e m c k | .fail => .fail | .bad => .bad) := by
  intro l
  induction l with
  | nil => intro k c; rfl
  | cons a l ih =>
    intro k c
    cases a with
    | debug => exact ih
    | opt o v =>
      simp only [List.cons_append, fold]
      cases option e m c o v with
      | ok c => exact ih
      | fail => rfl
      | bad => rfl

theorem letters_append (l k : List Arg) : letters (l ++ k) = letters l ++ letters k := by
  induction l with
  | nil => rfl
  | cons a l ih => cases a <;> simp [letters, ih]

/-- Options do not change what they do not name. -/
theorem fold_frame {e : Env} {m : Mode} : ∀ {l : List Arg} {c c' : Com}, fold e m c l = .ok c' →
    (∀ k, k ≠ .debug → (∀ o ∈ setBy k, o ∉ letters l) → c'.num k = c.num k) ∧ (115 ∉ letters l → c'.ls = c.ls) ∧
    (114 ∉ letters l → c'.res = c.res) ∧ (∀ o ∈ letters l, o ∈ known) := by
  intro l
  induction l with
  | nil =>
    intro c c' h
    simp only [fold, Out.ok.injEq] at h
    subst h
    exact ⟨fun _ _ _ => rfl, fun _ => rfl, fun _ => rfl, fun _ h => nomatch h⟩
  | cons a l ih =>
    intro c c' h
    cases a with
    | debug =>
      obtain ⟨h1, h2, h3, h4⟩ := ih h
      exact ⟨fun k hk ho => (h1 k hk ho).trans (set_num hk), h2, h3, h4⟩
    | opt o v =>
      simp only [fold] at h
      cases hx : option e m c o v with
      | fail => rw [hx] at h; simp only [reduceCtorEq] at h
      | bad => rw [hx] at h; simp only [reduceCtorEq] at h
      | ok d =>
        rw [hx] at h
        obtain ⟨h1, h2, h3, h4⟩ := ih h
        obtain ⟨g1, g2, g3, g4⟩ := option_frame hx
        refine ⟨fun k hk ho => (h1 k hk fun o' ho' h' => ho o' ho' (List.mem_cons_of_mem _ h')).trans (g1 k fun h' => ho o h' (List.mem_cons_self ..)),
          fun hs => (h2 fun h' => hs (List.mem_cons_of_mem _ h')).trans (g2 fun e => hs (by rw [← e]; exact List.mem_cons_self ..)),
          fun hs => (h3 fun h' => hs (List.mem_cons_of_mem _ h')).trans (g3 fun e => hs (by rw [← e]; exact List.mem_cons_self ..)), ?_⟩
        intro o' ho'
        rcases List.mem_cons.1 ho' with rfl | ho'
        · exact g4
        · exact h4 o' ho'

/-- C73: what `read_command_line` accepts is a sequence of known options, each with its value, `-D`, and at the end `-c` with a command; the
command and its arguments are passed on unchanged, whatever they look like.  Anything else is refused. -/
theorem accepted {e : Env} {m : Mode} {c c' : Com} {argv cmd : List Str} (h : options e m c argv = .ok (c', cmd)) :
    ∃ l, argv = words l ++ cmdWords cmd ∧ Plain l ∧ (∀ o ∈ letters l, o ∈ known) ∧ fold e m c l = .ok c' ∧ sizesOk c' = true := by
  obtain ⟨l, h1, h2, h3, h4⟩ := loop_form h
  exact ⟨l, h1, h2, (fold_frame h3).2.2.2, h3, h4⟩

/-- C73: a setting whose option is not given keeps its value; one whose option is given with a number has the last number given, whatever
other options are there and in whatever order.  Missing: options that do not take every number, see `clear_violated`, `align_violated`,
`io_timeout_violated` and `grace_violated`, and the options whose value is not a number. -/
theorem settings_partial {e : Env} {m : Mode} {c c' : Com} {l : List Arg} {cmd : List Str} (hl : Plain l)
    (h : options e m c (words l ++ cmdWords cmd) = .ok (c', cmd)) {k : Num} (hk : k ≠ .debug) :
    ((∀ o ∈ setBy k, o ∉ letters l) → c'.num k = c.num k) ∧
    (∀ l1 l2 o n, l = l1 ++ .opt o (Strings.dec n) :: l2 → o ∈ setBy k → o ∉ letters l2 → n < 2 ^ 31 → Takes m n k → c'.num k = n) := by
  rw [options_words hl] at h
  cases hf : fold e m c l with
  | fail => rw [hf] at h; simp only [reduceCtorEq] at h
  | bad => rw [hf] at h; simp only [reduceCtorEq] at h
  | ok d =>
    rw [hf] at h
    simp only [finish] at h
    split at h
    · simp only [Out.ok.injEq, Prod.mk.injEq, and_true] at h
      subst h
      refine ⟨fun ho => (fold_frame hf).1 k hk ho, ?_⟩
      rintro l1 l2 o n rfl ho hn hb ht
      rw [fold_append] at hf
      cases h1 : fold e m c l1 with
      | fail => rw [h1] at hf; simp only [reduceCtorEq] at hf
      | bad => rw [h1] at hf; simp only [reduceCtorEq] at hf
      | ok d1 =>
        rw [h1] at hf
        simp only [fold] at hf
        cases h2 : option e m d1 o (Strings.dec n) with
        | fail => rw [h2] at hf; simp only [reduceCtorEq] at hf
        | bad => rw [h2] at hf; simp only [reduceCtorEq] at hf
        | ok d2 =>
          rw [h2] at hf
          rw [(fold_frame hf).1 k hk, option_value hb ht ho h2]
          have hs : ∀ o' ∈ setBy k, o' = o := by
            intro o' ho'
            cases k <;> simp only [setBy, List.mem_singleton, List.not_mem_nil] at ho ho' <;> rw [ho, ho']
          intro o' ho'
          rw [hs o' ho']
          exact hn
    · simp only [reduceCtorEq] at h

/-- A command line used in the examples. -/
def exArgs : List Arg := [.opt 112 (Strings.dec 7), .debug, .opt 114 (b! "LS:R:/dev/a:1M"), .opt 112 (Strings.dec 500)]

def exEnv : Env := ⟨fun _ => 0, fun _ => 0, List.replicate 16 0⟩

example : Plain exArgs ∧ words exArgs = [b! "-p", b! "7", b! "-D", b! "-r", b! "LS:R:/dev/a:1M", b! "-p", b! "500"] ∧
    (tool exEnv (com0 10) (b! "acquire") (words exArgs) fun _ => 0) =
      ([.acquire (some 500) false [⟨⟨b! "LS", b! "R", 0, false, false, [⟨b! "/dev/a", 1048576⟩]⟩, none, false⟩]], .success) :=
  ⟨by simp [exArgs, Plain], by decide +kernel, by decide +kernel⟩

/-- C73: the combinations of sizes that are accepted are the documented ones, none, or a sector size alone. -/
theorem sizes {e : Env} {m : Mode} {c c' : Com} {argv cmd : List Str} (h : options e m c argv = .ok (c', cmd)) :
    (c'.num .sector, c'.num .align) ∈ [((0 : Int), (0 : Int)), (512, 1048576), (4096, 1048576), (4096, 2097152), (4096, 4194304), (4096, 8388608)] ∨
    c'.num .align = 0 := by
  obtain ⟨_, _, _, _, _, h⟩ := accepted h
  simp only [sizesOk, Bool.or_eq_true, Bool.and_eq_true, beq_iff_eq, bne_iff_ne] at h
  simp only [List.mem_cons, Prod.mk.injEq, List.not_mem_nil, or_false]
  rcases h with (((((h | h) | h) | h) | h) | h) | h
  · exact Or.inr h.2
  · exact Or.inr h.2
  · exact Or.inl (by simp [h])
  · exact Or.inl (by simp [h])
  · exact Or.inl (by simp [h])
  · exact Or.inl (by simp [h])
  · exact Or.inl (by simp [h])

example : (options exEnv (modeOf .init) (com0 10) [b! "-Z", b! "4096", b! "-A", b! "2M"] = .fail) = False ∧
    (match options exEnv (modeOf .init) (com0 10) [b! "-Z", b! "512", b! "-A", b! "2M"] with | .fail => true | _ => false) = true :=
  ⟨eq_false (by
    have h : (match options exEnv (modeOf .init) (com0 10) [b! "-Z", b! "4096", b! "-A", b! "2M"] with | .ok _ => true | _ => false) = true := by
      decide +kernel
    intro h'
    rw [h'] at h
    exact nomatch h), by decide +kernel⟩

/-! ## Options that do not do what was asked -/

/-- `update -z 0` is documented to add an entry; it removes it. -/
theorem clear_violated (ret : Call → Int) :
    (tool exEnv (com0 10) (b! "update") [b! "-x", b! "LS:/dev/x:1M", b! "-e", b! "R", b! "-z", b! "0"] ret).1 =
      [.update ⟨b! "LS", b! "/dev/x", 1048576⟩ true (b! "R") 0] := by
  have h : ∀ c : Com, (client .update c [] ret).1 = [.update (indexOf c) (c.num .clear ≠ 0) (c.txt .entryName) (c.num .entryOffset)] :=
    fun c => rfl
  have h2 : ∃ c, options exEnv (modeOf .update) (com0 10) [b! "-x", b! "LS:/dev/x:1M", b! "-e", b! "R", b! "-z", b! "0"] = .ok (c, []) ∧
      indexOf c = ⟨b! "LS", b! "/dev/x", 1048576⟩ ∧ c.num .clear = 1 ∧ c.txt .entryName = b! "R" ∧ c.num .entryOffset = 0 := by
    cases ho : options exEnv (modeOf .update) (com0 10) [b! "-x", b! "LS:/dev/x:1M", b! "-e", b! "R", b! "-z", b! "0"] with
    | fail =>
      have : (match options exEnv (modeOf .update) (com0 10) [b! "-x", b! "LS:/dev/x:1M", b! "-e", b! "R", b! "-z", b! "0"] with
        | .ok _ => true | _ => false) = true := by decide +kernel
      rw [ho] at this; exact nomatch this
    | bad =>
      have : (match options exEnv (modeOf .update) (com0 10) [b! "-x", b! "LS:/dev/x:1M", b! "-e", b! "R", b! "-z", b! "0"] with
        | .ok _ => true | _ => false) = true := by decide +kernel
      rw [ho] at this; exact nomatch this
    | ok r =>
      have : (match options exEnv (modeOf .update) (com0 10) [b! "-x", b! "LS:/dev/x:1M", b! "-e", b! "R", b! "-z", b! "0"] with
        | .ok (c, cmd) => decide (indexOf c = ⟨b! "LS", b! "/dev/x", 1048576⟩ ∧ c.num .clear = 1 ∧ c.txt .entryName = b! "R" ∧
            c.num .entryOffset = 0 ∧ cmd = [])
        | _ => false) = true := by decide +kernel
      rw [ho] at this
      simp only [decide_eq_true_eq] at this
      obtain ⟨a, b, c, d, f⟩ := this
      exact ⟨r.1, by rw [← f], a, b, c, d⟩
  obtain ⟨c, h3, h4, h5, h6, h7⟩ := h2
  unfold tool
  rw [show actionOf (b! "update") = some .update from by decide]
  simp only [h3, h, h4, h5, h6, h7]
  rfl

/-- A value of `-A` other than the four is ignored: the resource gets the default size. -/
theorem align_violated {e : Env} {m : Mode} {c : Com} {v : Str} (h : alignArg v = none) : option e m c 65 v = .ok c := by
  simp [option, h]

example : alignArg (b! "1m") = none ∧ alignArg (b! "1048576") = none := by decide

/-- `-o` with a number that is not positive is ignored. -/
theorem io_timeout_violated {e : Env} {m : Mode} {c : Com} {v : Str} (hm : m.status = false) (h : atoi v ≤ 0) :
    option e m c 111 v = .ok c := by
  simp [option, hm]
  omega

example : atoi (b! "0") ≤ 0 ∧ atoi (b! "-5") ≤ 0 ∧ atoi (b! "x") ≤ 0 := by decide

/-- `-g` of the daemon above 60 is ignored. -/
theorem grace_violated {e : Env} {m : Mode} {c : Com} {v : Str} (hm : m.daemon = true) (h : 60 < atoi v) :
    option e m c 103 v = .ok c := by
  simp [option, hm]
  omega

example : 60 < atoi (b! "90") := by decide

/-! ## Resources of one command -/

/-- The values of `-r`. -/
def rArgs : List Arg → List Str
  | [] => []
  | .debug :: l => rArgs l
  | .opt o v :: l => if o = 114 then v :: rArgs l else rArgs l

theorem fold_res {e : Env} {m : Mode} : ∀ {l : List Arg} {c c' : Com} {rs : List Res}, fold e m c l = .ok c' →
    (rArgs l).map parseResource = rs.map (fun r => some (some r)) → c.res.length + rs.length ≤ 8 → c'.res = c.res ++ rs := by
  intro l
  induction l with
  | nil =>
    intro c c' rs h hr _
    simp only [fold, Out.ok.injEq] at h
    subst h
    cases rs with
    | nil => simp
    | cons r rs => exact nomatch hr
  | cons a l ih =>
    intro c c' rs h hr hl
    cases a with
    | debug => exact ih (c := c.set .debug 1) h hr hl
    | opt o v =>
      simp only [fold] at h
      cases hx : option e m c o v with
      | fail => rw [hx] at h; simp only [reduceCtorEq] at h
      | bad => rw [hx] at h; simp only [reduceCtorEq] at h
      | ok d =>
        rw [hx] at h
        by_cases ho : o = 114
        · subst ho
          simp only [rArgs, if_true] at hr
          cases rs with
          | nil => exact nomatch hr
          | cons r rs =>
            simp only [List.map_cons, List.cons.injEq] at hr
            simp only [List.length_cons] at hl
            have hd : d = { c with res := c.res ++ [r] } := by
              simp [option, hr.1] at hx
              rw [if_neg (by omega)] at hx
              simpa using hx.symm
            have := ih h hr.2 (by rw [hd]; simp; omega)
            rw [this, hd]
            simp
        · simp only [rArgs, if_neg ho] at hr
          have hd := (option_frame hx).2.2.1 ho
          rw [ih h hr (by rw [hd]; exact hl), hd]

/-- C73, part: the leases that acquire asks for are those given with `-r`, in order and without any other, for the process given with
`-p`; release names the same.  Missing: more than eight `-r`, and a value of `-r` that cannot be parsed, see `resource_dropped_violated`. -/
theorem acquire_partial {e : Env} {c0 c : Com} {l : List Arg} {rs : List Res} {ret : Call → Int} {l1 l2 : List Arg} {n : Nat} (hl : Plain l)
    (h0 : c0.res = []) (ha : options e (modeOf .acquire) c0 (words l) = .ok (c, []))
    (hr : (rArgs l).map parseResource = rs.map (fun r => some (some r))) (h8 : rs.length ≤ 8)
    (hp : l = l1 ++ .opt 112 (Strings.dec n) :: l2) (hp2 : 112 ∉ letters l2) (hn : n < 2 ^ 31) :
    (∃ orphan as, tool e c0 (b! "acquire") (words l) ret =
        ([.acquire (some n) orphan as], if ret (.acquire (some n) orphan as) = 0 then .success else .failure) ∧ as.map (·.res) = rs) ∧
    (rs ≠ [] → ∃ orphan all, tool e c0 (b! "release") (words l) ret =
        ([.release n orphan all rs], if ret (.release n orphan all rs) = 0 then .success else .failure)) := by
  have hw : words l = words l ++ cmdWords [] := by simp [cmdWords]
  have hpid := (settings_partial (k := .pid) hl (by rw [← hw]; exact ha) (by decide)).2 l1 l2 112 n hp (by decide) hp2 hn trivial
  obtain ⟨l', g1, g2, g3, g4, g5⟩ := accepted ha
  have hres : c.res = rs := by
    have := ha
    rw [hw, options_words hl] at this
    cases hf : fold e (modeOf .acquire) c0 l with
    | fail => rw [hf] at this; simp only [reduceCtorEq] at this
    | bad => rw [hf] at this; simp only [reduceCtorEq] at this
    | ok d =>
      rw [hf] at this
      simp only [finish] at this
      split at this
      · simp only [Out.ok.injEq, Prod.mk.injEq, and_true] at this
        subst this
        rw [fold_res hf hr (by rw [h0]; simpa using h8), h0]
        rfl
      · simp only [reduceCtorEq] at this
  refine ⟨⟨c.num .orphan ≠ 0, acqRes c, ?_, ?_⟩, fun hne => ⟨c.num .orphan ≠ 0, c.num .all ≠ 0, ?_⟩⟩
  · unfold tool
    rw [show actionOf (b! "acquire") = some .acquire from by decide]
    simp only [ha, client, callOf, hpid, exitOf]
  · unfold acqRes
    rw [List.map_map, hres]
    exact List.map_id' rs
  · unfold tool
    rw [show actionOf (b! "release") = some .release from by decide]
    have hm : options e (modeOf .release) c0 (words l) = .ok (c, []) := ha
    simp only [hm, client, callOf, hpid, exitOf]
    have : releaseRes c = rs := by
      unfold releaseRes
      rw [hres, if_neg (fun h => hne h.2.1)]
    rw [this]

/-- C73, part: leases given as the library writes them. -/
theorem texts_partial {rs : List Res} {vs : List Str} (hv : vs.map some = rs.map fun r => (Strings.resToStr r).join)
    (h : ∀ r ∈ rs, Strings.ResOk r ∧ ∀ d ∈ r.disks, 77 ∉ d.path) :
    vs.map parseResource = (rs.map Strings.image).map (fun r => some (some r)) := by
  induction rs generalizing vs with
  | nil =>
    cases vs with
    | nil => rfl
    | cons v vs => exact nomatch hv
  | cons r rs ih =>
    cases vs with
    | nil => exact nomatch hv
    | cons v vs =>
      simp only [List.map_cons, List.cons.injEq] at hv ⊢
      obtain ⟨h1, h2⟩ := h r (List.mem_cons_self ..)
      have : Strings.resToStr r = some (some v) := by
        cases hx : Strings.resToStr r with
        | none => rw [hx] at hv; exact nomatch hv.1
        | some y => rw [hx] at hv; simp only [Option.join_some] at hv; rw [← hv.1]
      exact ⟨resource_arg_partial h1 h2 this, ih hv.2 fun r hr => h r (List.mem_cons_of_mem _ hr)⟩

example : exArgs = [.opt 112 (Strings.dec 7), .debug, .opt 114 (b! "LS:R:/dev/a:1M")] ++ .opt 112 (Strings.dec 500) :: [] ∧
    (rArgs exArgs).map parseResource = [⟨b! "LS", b! "R", 0, false, false, [⟨b! "/dev/a", 1048576⟩]⟩].map (fun r => some (some r)) ∧
    (com0 10).res = [] := ⟨rfl, by decide +kernel, rfl⟩

/-- A `-r` that cannot be parsed is dropped, and the command is executed without the lease it was to be protected by. -/
theorem resource_dropped_violated :
    tool exEnv (com0 10) (b! "command") [b! "-r", b! "LS:R", b! "-r", b! "LS:R2:/dev/a", b! "-c", b! "/bin/app", b! "-x"] (fun _ => 0) =
      ([.register, .acquire none false [⟨⟨b! "LS", b! "R", 0, false, false, []⟩, none, false⟩], .exec [b! "/bin/app", b! "-x"]], .replaced) ∧
    tool exEnv (com0 10) (b! "command") [b! "-r", b! "LS:R2:/dev/a", b! "-c", b! "/bin/app"] (fun _ => 0) =
      ([.register, .acquire none false [], .exec [b! "/bin/app"]], .replaced) := by
  constructor <;> decide +kernel

/-! ## Lockspaces of one command -/

/-- C73, part: `add_lockspace` joins the lockspace given with `-s`, as the host given, with the I/O timeout given with `-o`; `inq_lockspace`
and `rem_lockspace` name the same.  Missing: `-o 10` when the daemon was configured with another timeout (`timeout_ten_violated`). -/
theorem lockspace_partial {e : Env} {c0 c : Com} {l l1 l2 : List Arg} {v : Str} {s : Ls} {ret : Call → Int} (hl : Plain l)
    (ha : options e (modeOf .addLockspace) c0 (words l) = .ok (c, [])) (hs : l = l1 ++ .opt 115 v :: l2) (h2 : 115 ∉ letters l2)
    (hv : ∀ old, parseLockspace e.fill old v = some s) :
    (∃ t, tool e c0 (b! "add_lockspace") (words l) ret =
        ([.addLockspace s t], if ret (.addLockspace s t) = 0 then .success else .failure) ∧
      (∀ k1 k2 (n : Nat) (own : Int), l = k1 ++ .opt 111 (Strings.dec n) :: k2 → 111 ∉ letters k2 → 0 < n → n < 2 ^ 31 → (n ≠ 10 ∨ own = 10) →
        daemonTimeout own t = n) ∧
      (111 ∉ letters l → c0.num .ioTimeout = 10 → ∀ own, daemonTimeout own t = own)) ∧
    tool e c0 (b! "inq_lockspace") (words l) ret = ([.inqLockspace s], if ret (.inqLockspace s) = 0 then .success else .failure) ∧
    tool e c0 (b! "rem_lockspace") (words l) ret = ([.remLockspace s], if ret (.remLockspace s) = 0 then .success else .failure) := by
  have hw : words l = words l ++ cmdWords [] := by simp [cmdWords]
  have hset := settings_partial (k := .ioTimeout) hl (by rw [← hw]; exact ha) (by decide)
  have hls : c.ls = s := by
    have := ha
    rw [hw, options_words hl] at this
    cases hf : fold e (modeOf .addLockspace) c0 l with
    | fail => rw [hf] at this; simp only [reduceCtorEq] at this
    | bad => rw [hf] at this; simp only [reduceCtorEq] at this
    | ok d =>
      rw [hf] at this
      simp only [finish] at this
      split at this
      · simp only [Out.ok.injEq, Prod.mk.injEq, and_true] at this
        subst this
        rw [hs, fold_append] at hf
        cases h1 : fold e (modeOf .addLockspace) c0 l1 with
        | fail => rw [h1] at hf; simp only [reduceCtorEq] at hf
        | bad => rw [h1] at hf; simp only [reduceCtorEq] at hf
        | ok d1 =>
          rw [h1] at hf
          simp only [fold] at hf
          have : option e (modeOf .addLockspace) d1 115 v = .ok { d1 with ls := s } := by
            simp [option, hv]
          rw [this] at hf
          exact (fold_frame hf).2.1 h2
      · simp only [reduceCtorEq] at this
  refine ⟨⟨if c.num .ioTimeout ≠ 10 then c.num .ioTimeout else 0, ?_, ?_, ?_⟩, ?_, ?_⟩
  · unfold tool
    rw [show actionOf (b! "add_lockspace") = some .addLockspace from by decide]
    simp only [ha, client, callOf, hls, exitOf]
  · intro k1 k2 n own hk h111 hn hb hor
    have := hset.2 k1 k2 111 n hk (by decide) h111 hb ⟨rfl, hn⟩
    rw [this]
    unfold daemonTimeout
    by_cases h10 : n = 10
    · subst h10
      have : own = 10 := by omega
      simp [this]
    · have hn10 : (n : Int) ≠ 10 := by omega
      rw [if_pos hn10, if_neg (by omega)]
  · intro h111 h0 own
    have := hset.1 (by simpa [setBy] using h111)
    rw [this, h0]
    rfl
  · unfold tool
    rw [show actionOf (b! "inq_lockspace") = some .inqLockspace from by decide]
    have hm : options e (modeOf .inqLockspace) c0 (words l) = .ok (c, []) := ha
    simp only [hm, client, callOf, hls, exitOf]
  · unfold tool
    rw [show actionOf (b! "rem_lockspace") = some .remLockspace from by decide]
    have hm : options e (modeOf .remLockspace) c0 (words l) = .ok (c, []) := ha
    simp only [hm, client, callOf, hls, exitOf]

example : (tool exEnv (com0 10) (b! "add_lockspace") [b! "-o", b! "20", b! "-s", b! "LS:3:/dev/sda:0"] fun _ => 0) =
    ([.addLockspace ⟨b! "LS", 3, b! "/dev/sda", 0⟩ 20], .success) ∧
    (∀ old, parseLockspace exEnv.fill old (b! "LS:3:/dev/sda:0") = some ⟨b! "LS", 3, b! "/dev/sda", 0⟩) :=
  ⟨by decide +kernel, fun old => by
    have := lockspace_arg_partial (name := b! "LS") (path := b! "/dev/sda") (id := 3) (off := 0) (by decide) (by decide)
      (by decide) (by decide) (Or.inl (by decide)) (by decide) (by decide) exEnv.fill old
    rw [show (b! "LS" ++ 58 :: (Strings.dec 3 ++ 58 :: (Strings.esc (b! "/dev/sda") ++ 58 :: Strings.dec 0)) : Str) = b! "LS:3:/dev/sda:0" from
      by decide +kernel] at this
    exact this⟩

/-- With `io_timeout = 20` in the configuration `-o 10` is taken for the default and not sent, so the daemon joins with 20 seconds. -/
theorem timeout_ten_violated : ∃ t,
    (tool exEnv (com0 20) (b! "add_lockspace") [b! "-o", b! "10", b! "-s", b! "LS:3:/dev/sda:0"] fun _ => 0) =
      ([.addLockspace ⟨b! "LS", 3, b! "/dev/sda", 0⟩ t], .success) ∧ daemonTimeout 20 t = 20 :=
  ⟨0, by decide +kernel, rfl⟩

/-! ## The exit status -/

/-- C73, part: for every action other than `command`, if options are refused nothing is asked of the daemon and the status is failure, and
otherwise one call is made and the status is success exactly if it returned 0.  Missing: `command`, see `exit_violated`, and
arguments that make the tool leave its buffers. -/
theorem exit_partial {e : Env} {c0 : Com} {act : Str} {argv : List Str} {ret : Call → Int} (h : act ≠ b! "command") :
    tool e c0 act argv ret = ([], .failure) ∨ tool e c0 act argv ret = ([], .crash) ∨
    ∃ k, (tool e c0 act argv ret).1 = [k] ∧
      ((ret k = 0 ∧ (tool e c0 act argv ret).2 = .success) ∨ (ret k ≠ 0 ∧ (tool e c0 act argv ret).2 = .failure)) := by
  unfold tool
  cases ha : actionOf act with
  | none => exact Or.inl rfl
  | some a =>
    have hac : a ≠ .command := by
      rintro rfl
      have hx : ∀ {p : Prop} [Decidable p] {b : Action} {y : Option Action}, b ≠ .command →
          (if p then some b else y) = some .command → y = some .command := by
        intro p _ b y hb hy
        split at hy
        · exact absurd (Option.some.inj hy) hb
        · exact hy
      unfold actionOf at ha
      have ha := hx (by decide) (hx (by decide) (hx (by decide) (hx (by decide) ha)))
      rw [if_neg h] at ha
      have ha := hx (by decide) (hx (by decide) (hx (by decide) (hx (by decide) (hx (by decide) (hx (by decide) (hx (by decide)
        (hx (by decide) (hx (by decide) (hx (by decide) (hx (by decide) (hx (by decide) (hx (by decide) (hx (by decide)
        (hx (by decide) ha))))))))))))))
      exact nomatch ha
    simp only
    cases ho : options e (modeOf a) c0 argv with
    | fail => exact Or.inl rfl
    | bad => exact Or.inr (Or.inl rfl)
    | ok r =>
      simp only
      have : client a r.1 r.2 ret = match callOf r.1 a with | none => ([], .crash) | some k => ([k], exitOf (ret k)) := by
        cases a <;> first | exact absurd rfl hac | rfl
      rw [this]
      cases callOf r.1 a with
      | none => exact Or.inr (Or.inl rfl)
      | some k =>
        refine Or.inr (Or.inr ⟨k, rfl, ?_⟩)
        by_cases hk : ret k = 0
        · exact Or.inl ⟨hk, by simp [exitOf, hk]⟩
        · exact Or.inr ⟨hk, by simp [exitOf, hk]⟩

example : (b! "release" : Str) ≠ b! "command" := by decide

/-- C73, part: the command is executed only after the daemon has granted the leases, with the words behind `-c` as they were given. -/
theorem command_partial {e : Env} {c0 : Com} {argv cmd : List Str} {ret : Call → Int}
    (h : .exec cmd ∈ (tool e c0 (b! "command") argv ret).1) :
    ∃ l orphan as, argv = words l ++ [45, 99] :: cmd ∧ cmd ≠ [] ∧ ret .register ≥ 0 ∧ ret (.acquire none orphan as) ≥ 0 ∧
      (tool e c0 (b! "command") argv ret).1 = [.register, .acquire none orphan as, .exec cmd] := by
  unfold tool at h ⊢
  rw [show actionOf (b! "command") = some .command from by decide] at h ⊢
  simp only at h ⊢
  cases ho : options e (modeOf .command) c0 argv with
  | fail => rw [ho] at h; simp at h
  | bad => rw [ho] at h; simp at h
  | ok r =>
    rw [ho] at h
    obtain ⟨l, h1, -⟩ := accepted (c' := r.1) (cmd := r.2) ho
    simp only [client] at h ⊢
    split at h
    · simp at h
    · rename_i hr
      split at h
      · simp at h
      · rename_i hq
        split at h
        · simp at h
        · rename_i hc
          have hne : r.2 ≠ [] := by
            intro hh
            rw [hh] at hc
            exact hc rfl
          have hcmd : cmd = r.2 := by
            split at h <;> simpa using h
          subst hcmd
          refine ⟨l, decide (r.1.num .orphan ≠ 0), acqRes r.1, ?_, hne, by omega, by omega, ?_⟩
          · rw [h1]
            simp [cmdWords, hne]
          · rw [if_neg hr, if_neg hq, if_neg hc]
            split <;> rfl

example : (tool exEnv (com0 10) (b! "command") [b! "-r", b! "LS:R:/dev/a:0", b! "-c", b! "/bin/app", b! "-D", b! "-r"] fun _ => 0).1 =
    [.register, .acquire none false [⟨⟨b! "LS", b! "R", 0, false, false, [⟨b! "/dev/a", 0⟩]⟩, none, false⟩],
      .exec [b! "/bin/app", b! "-D", b! "-r"]] := by decide +kernel

/-- `sanlock client command` ends with success when it cannot reach the daemon, and when it cannot execute the command. -/
theorem exit_violated :
    (∀ ret : Call → Int, ret .register < 0 → ∀ c cmd, client .command c cmd ret = ([.register], .success)) ∧
    (∀ (ret : Call → Int) (c : Com) (x : UInt8) (p : Str) (args : List Str),
      (∀ k, ret k = if k = .exec ((x :: p) :: args) then -1 else 0) → (client .command c ((x :: p) :: args) ret).2 = .success) := by
  constructor
  · intro ret h c cmd
    simp [client, h, exitOf]
  · intro ret c x p args h
    simp [client, h, exitOf]

/-- `init` with sizes but neither lockspace nor resource uses a null pointer. -/
theorem init_null_violated :
    tool exEnv (com0 10) (b! "init") [b! "-Z", b! "512", b! "-r", b! "LS:R:/dev/a"] (fun _ => 0) = ([], .crash) := by decide +kernel

end Sanlock.CmdLine
