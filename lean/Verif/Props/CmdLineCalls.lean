import Verif.Props.CmdLineMore

/-!
# C73: what is in the calls
-/

namespace Sanlock.CmdLine

open Strings (Str Res)

/-- The last value given for an option is the number `n`. -/
def Given (l : List Arg) (o : UInt8) (n : Nat) : Prop :=
  n < 2 ^ 31 ∧ ∃ l1 l2, l = l1 ++ .opt o (Strings.dec n) :: l2 ∧ o ∉ letters l2

theorem options_fold {e : Env} {m : Mode} {c c' : Com} {l : List Arg} {cmd : List Str} (hl : Plain l)
    (h : options e m c (words l ++ cmdWords cmd) = .ok (c', cmd)) : fold e m c l = .ok c' ∧ sizesOk c' = true := by
  rw [options_words hl] at h
  cases hf : fold e m c l with
  | fail => rw [hf] at h; simp only [reduceCtorEq] at h
  | bad => rw [hf] at h; simp only [reduceCtorEq] at h
  | ok d =>
    rw [hf] at h
    simp only [finish] at h
    split at h
    · rename_i hs
      simp only [Out.ok.injEq, Prod.mk.injEq, and_true] at h
      subst h
      exact ⟨rfl, hs⟩
    · simp only [reduceCtorEq] at h

theorem given_num {e : Env} {m : Mode} {c c' : Com} {l : List Arg} {n : Nat} {o : UInt8} {k : Num} (hl : Plain l)
    (h : options e m c (words l) = .ok (c', [])) (hg : Given l o n) (ho : o ∈ setBy k) (hk : k ≠ .debug) (ht : Takes m n k) :
    c'.num k = n := by
  obtain ⟨hn, l1, l2, h1, h2⟩ := hg
  exact (settings_partial (cmd := []) hl (by simpa [cmdWords] using h) hk).2 l1 l2 o n h1 ho h2 hn ht

theorem absent_num {e : Env} {m : Mode} {c c' : Com} {l : List Arg} {k : Num} (hl : Plain l)
    (h : options e m c (words l) = .ok (c', [])) (hk : k ≠ .debug) (ho : ∀ o ∈ setBy k, o ∉ letters l) : c'.num k = c.num k :=
  (settings_partial (cmd := []) hl (by simpa [cmdWords] using h) hk).1 ho

/-- The last lockspace given counts. -/
theorem given_ls {e : Env} {m : Mode} {c0 c : Com} {l l1 l2 : List Arg} {v : Str} {s : Ls} (hl : Plain l)
    (ha : options e m c0 (words l) = .ok (c, [])) (hs : l = l1 ++ .opt 115 v :: l2) (h2 : 115 ∉ letters l2)
    (hv : ∀ old, parseLockspace e.fill old v = some s) : c.ls = s := by
  obtain ⟨hf, -⟩ := options_fold (cmd := []) hl (by simpa [cmdWords] using ha)
  rw [hs, fold_append] at hf
  cases h1 : fold e m c0 l1 with
  | fail => rw [h1] at hf; simp only [reduceCtorEq] at hf
  | bad => rw [h1] at hf; simp only [reduceCtorEq] at hf
  | ok d1 =>
    rw [h1] at hf
    simp only [fold] at hf
    have : option e m d1 115 v = .ok { d1 with ls := s } := by
      simp [option, hv]
    rw [this] at hf
    exact (fold_frame hf).2.1 h2

theorem given_res {e : Env} {m : Mode} {c0 c : Com} {l : List Arg} {rs : List Res} (hl : Plain l)
    (ha : options e m c0 (words l) = .ok (c, [])) (h0 : c0.res = [])
    (hr : (rArgs l).map parseResource = rs.map (fun r => some (some r))) (h8 : rs.length ≤ 8) : c.res = rs := by
  obtain ⟨hf, -⟩ := options_fold (cmd := []) hl (by simpa [cmdWords] using ha)
  rw [fold_res hf hr (by rw [h0]; simpa using h8), h0]
  rfl

/-- C73: the numbers given are in the call: shutdown, request, set_event, set_config and the flags of acquire and release. -/
theorem numbers_partial {e : Env} {c0 : Com} {l : List Arg} {ret : Call → Int} (hl : Plain l) :
    (∀ c f w, options e (modeOf .shutdown) c0 (words l) = .ok (c, []) → Given l 102 f → Given l 119 w →
      (tool e c0 (b! "shutdown") (words l) ret).1 = [.shutdown f w]) ∧
    (∀ c f r rs, options e (modeOf .request) c0 (words l) = .ok (c, []) → c0.res = [] → Given l 102 f →
      (rArgs l).map parseResource = (r :: rs).map (fun r => some (some r)) → rs.length < 8 →
      (tool e c0 (b! "request") (words l) ret).1 = [.request f (some r)]) ∧
    (∀ c p r rs, options e (modeOf .convert) c0 (words l) = .ok (c, []) → c0.res = [] → Given l 112 p →
      (rArgs l).map parseResource = (r :: rs).map (fun r => some (some r)) → rs.length < 8 →
      (tool e c0 (b! "convert") (words l) ret).1 = [.convert p (some r)]) ∧
    (∀ c i g v d l1 l2 s t, options e (modeOf .setEvent) c0 (words l) = .ok (c, []) → Given l 105 i → Given l 103 g → Given l 101 v →
      Given l 100 d → l = l1 ++ .opt 115 s :: l2 → 115 ∉ letters l2 → (∀ old, parseLockspace e.fill old s = some t) →
      (tool e c0 (b! "set_event") (words l) ret).1 = [.setEvent t.name i g v d]) ∧
    (∀ c u l1 l2 s t, options e (modeOf .setConfig) c0 (words l) = .ok (c, []) → c0.num .orphanSet = 0 → Given l 117 u → 79 ∉ letters l →
      l = l1 ++ .opt 115 s :: l2 → 115 ∉ letters l2 → (∀ old, parseLockspace e.fill old s = some t) →
      (tool e c0 (b! "set_config") (words l) ret).1 = [.setConfig t.name (if u = 0 then 2 else 1)]) ∧
    (∀ c u l1 l2 s t, options e (modeOf .setConfig) c0 (words l) = .ok (c, []) → Given l 79 u →
      l = l1 ++ .opt 115 s :: l2 → 115 ∉ letters l2 → (∀ old, parseLockspace e.fill old s = some t) → c.num .orphanSet ≠ 0 →
      (tool e c0 (b! "set_config") (words l) ret).1 = [.setConfig t.name (if u = 0 then 8 else 4)]) := by
  refine ⟨?_, ?_, ?_, ?_, ?_, ?_⟩
  · intro c f w ha hf hw
    unfold tool
    rw [show actionOf (b! "shutdown") = some .shutdown from by decide]
    simp only [ha, client, callOf, given_num hl ha hf (k := .forceMode) (by decide) (by decide) trivial,
      given_num hl ha hw (k := .wait) (by decide) (by decide) trivial]
  · intro c f r rs ha h0 hf hr h8
    unfold tool
    rw [show actionOf (b! "request") = some .request from by decide]
    simp only [ha, client, callOf, given_num hl ha hf (k := .forceMode) (by decide) (by decide) trivial,
      given_res hl ha h0 hr (by simp; omega), List.head?_cons]
  · intro c f r rs ha h0 hf hr h8
    unfold tool
    rw [show actionOf (b! "convert") = some .convert from by decide]
    simp only [ha, client, callOf, given_num hl ha hf (k := .pid) (by decide) (by decide) trivial,
      given_res hl ha h0 hr (by simp; omega), List.head?_cons]
  · intro c i g v d l1 l2 s t ha hi hg hv hd hs h2 hp
    unfold tool
    rw [show actionOf (b! "set_event") = some .setEvent from by decide]
    simp only [ha, client, callOf, given_num hl ha hi (k := .hostId) (by decide) (by decide) trivial,
      given_num hl ha hg (k := .generation) (by decide) (by decide) rfl, given_num hl ha hv (k := .heEvent) (by decide) (by decide) rfl,
      given_num hl ha hd (k := .heData) (by decide) (by decide) trivial, given_ls hl ha hs h2 hp]
  · intro c u l1 l2 s t ha h0 hu hO hs h2 hp
    unfold tool
    rw [show actionOf (b! "set_config") = some .setConfig from by decide]
    have h1 := absent_num (k := .orphanSet) hl ha (by decide) (by simpa [setBy] using hO)
    have hus : c.num .usedSet = 1 := by
      obtain ⟨hf, -⟩ := options_fold (cmd := []) hl (by simpa [cmdWords] using ha)
      obtain ⟨-, k1, k2, e1, e2⟩ := hu
      rw [e1, fold_append] at hf
      cases h1 : fold e (modeOf .setConfig) c0 k1 with
      | fail => rw [h1] at hf; simp only [reduceCtorEq] at hf
      | bad => rw [h1] at hf; simp only [reduceCtorEq] at hf
      | ok d1 =>
        rw [h1] at hf
        simp only [fold] at hf
        have : option e (modeOf .setConfig) d1 117 (Strings.dec u) = .ok ((d1.set .usedSet 1).set .used (atoi (Strings.dec u))) := by
          simp [option]
        rw [this] at hf
        rw [(fold_frame hf).1 .usedSet (by decide) (by simpa [setBy] using e2)]
        rfl
    simp only [ha, client, callOf, given_ls hl ha hs h2 hp, h1, h0, hus,
      given_num hl ha hu (k := .used) (by decide) (by decide) trivial]
    by_cases hz : u = 0 <;> simp [hz]
  · intro c u l1 l2 s t ha hu hs h2 hp hne
    unfold tool
    rw [show actionOf (b! "set_config") = some .setConfig from by decide]
    simp only [ha, client, callOf, given_ls hl ha hs h2 hp, given_num hl ha hu (k := .orphan) (by decide) (by decide) trivial]
    rw [if_pos hne]
    by_cases hz : u = 0 <;> simp [hz]

example : (tool exEnv (com0 10) (b! "set_event") [b! "-s", b! "LS", b! "-i", b! "5", b! "-g", b! "2", b! "-e", b! "4", b! "-d", b! "9"] fun _ => 0) =
    ([.setEvent (b! "LS") 5 2 4 9], .success) ∧
    (tool exEnv (com0 10) (b! "set_config") [b! "-s", b! "LS", b! "-u", b! "0"] fun _ => 0) = ([.setConfig (b! "LS") 2], .success) ∧
    (tool exEnv (com0 10) (b! "set_config") [b! "-s", b! "LS", b! "-O", b! "1"] fun _ => 0) = ([.setConfig (b! "LS") 4], .success) :=
  ⟨by decide +kernel, by decide +kernel, by decide +kernel⟩

/-- C73: orphans, persistence, the number of hosts and all are what was given to acquire and release. -/
theorem flags_partial {e : Env} {c0 c : Com} {l : List Arg} {ret : Call → Int} {rs : List Res} (hl : Plain l)
    (ha : options e (modeOf .acquire) c0 (words l) = .ok (c, [])) (h0 : c0.res = [])
    (hr : (rArgs l).map parseResource = rs.map (fun r => some (some r))) (h8 : rs.length ≤ 8) {p o s n a : Nat}
    (hp : Given l 112 p) (hO : Given l 79 o) (hP : Given l 80 s) (hn : Given l 110 n) (hal : Given l 97 a) :
    (tool e c0 (b! "acquire") (words l) ret).1 =
      [.acquire (some p) (o ≠ 0) (rs.map fun r => ⟨r, if n = 0 then none else some n, s ≠ 0⟩)] ∧
    (rs ≠ [] → (tool e c0 (b! "release") (words l) ret).1 = [.release p (o ≠ 0) (a ≠ 0) rs]) := by
  have hres := given_res hl ha h0 hr h8
  have h1 := given_num hl ha hp (k := .pid) (by decide) (by decide) trivial
  have h2 := given_num hl ha hO (k := .orphan) (by decide) (by decide) trivial
  have h3 := given_num hl ha hP (k := .persistent) (by decide) (by decide) trivial
  have h4 := given_num hl ha hn (k := .numHosts) (by decide) (by decide) trivial
  have h5 := given_num hl ha hal (k := .all) (by decide) (by decide) trivial
  constructor
  · unfold tool
    rw [show actionOf (b! "acquire") = some .acquire from by decide]
    simp only [ha, client, callOf, acqRes, hres, h1, h2, h3, h4]
    have hz : ∀ x : Nat, ((x : Int) ≠ 0) = (x ≠ 0) := fun x => by simp
    simp only [hz]
    by_cases hn0 : n = 0 <;> simp [hn0]
  · intro hne
    unfold tool
    rw [show actionOf (b! "release") = some .release from by decide]
    have hm : options e (modeOf .release) c0 (words l) = .ok (c, []) := ha
    have hrel : releaseRes c = rs := by
      unfold releaseRes
      rw [hres, if_neg (fun h => hne h.2.1)]
    simp only [hm, client, callOf, hrel, h1, h2, h5]
    have hz : ∀ x : Nat, ((x : Int) ≠ 0) = (x ≠ 0) := fun x => by simp
    simp only [hz]

example : (tool exEnv (com0 10) (b! "release") [b! "-r", b! "LS:R", b! "-p", b! "5", b! "-O", b! "0", b! "-a", b! "1"] fun _ => 0) =
    ([.release 5 false true [⟨b! "LS", b! "R", 0, false, false, []⟩]], .success) := by decide +kernel

/-- C73: `release -O 1 -s LS` without a resource releases the orphans of the lockspace. -/
theorem release_space {e : Env} {c0 c : Com} {l l1 l2 : List Arg} {ret : Call → Int} {v : Str} {s : Ls} {p o : Nat} (hl : Plain l)
    (ha : options e (modeOf .release) c0 (words l) = .ok (c, [])) (h0 : c0.res = []) (hr : rArgs l = [])
    (hs : l = l1 ++ .opt 115 v :: l2) (h2 : 115 ∉ letters l2) (hv : ∀ old, parseLockspace e.fill old v = some s) (hn : s.name ≠ [])
    (hp : Given l 112 p) (hO : Given l 79 o) (ho : o ≠ 0) :
    ∃ all r, (tool e c0 (b! "release") (words l) ret).1 = [.release p true all [r]] ∧ r.space = s.name ∧ r.name = [] ∧ r.disks = [] := by
  have hres := given_res (rs := []) hl ha h0 (by rw [hr]; rfl) (by simp)
  have h1 := given_num hl ha hp (k := .pid) (by decide) (by decide) trivial
  have h3 := given_num hl ha hO (k := .orphan) (by decide) (by decide) trivial
  have hls := given_ls hl ha hs h2 hv
  refine ⟨c.num .all ≠ 0, spaceRes s.name, ?_, rfl, rfl, rfl⟩
  unfold tool
  rw [show actionOf (b! "release") = some .release from by decide]
  have hrel : releaseRes c = [spaceRes s.name] := by
    unfold releaseRes
    rw [hres, hls, if_pos ⟨by rw [h3]; omega, rfl, hn⟩]
  simp only [ha, client, callOf, hrel, h1, h3]
  have : decide ((o : Int) ≠ 0) = true := by simp [ho]
  rw [this]

example : (tool exEnv (com0 10) (b! "release") [b! "-s", b! "LS", b! "-p", b! "5", b! "-O", b! "1"] fun _ => 0) =
    ([.release 5 true false [spaceRes (b! "LS")]], .success) := by decide +kernel

/-- C73: `init` writes the lockspace or the resource given, for the numbers of hosts given and with the sizes given. -/
theorem init_partial {e : Env} {c0 c : Com} {l : List Arg} {ret : Call → Int} (hl : Plain l)
    (ha : options e (modeOf .init) c0 (words l) = .ok (c, [])) {mh : Nat} (hm : Given l 109 mh) :
    (∀ l1 l2 v s t, l = l1 ++ .opt 115 v :: l2 → 115 ∉ letters l2 → (∀ old, parseLockspace e.fill old v = some s) → s.path ≠ [] →
      Given l 111 t → 0 < t →
      (tool e c0 (b! "init") (words l) ret).1 = [.writeLs s mh t (c.num .sector) (c.num .align)]) ∧
    (∀ r rs n, c0.res = [] → c0.ls.path = [] → 115 ∉ letters l → (rArgs l).map parseResource = (r :: rs).map (fun r => some (some r)) →
      rs.length < 8 → Given l 110 n →
      (tool e c0 (b! "init") (words l) ret).1 = [.writeRes (some r) mh n (c.num .clear ≠ 0) (c.num .sector) (c.num .align)]) ∧
    (tool e c0 (b! "write") (words l) ret) = (tool e c0 (b! "init") (words l) ret) := by
  have h1 := given_num hl ha hm (k := .maxHosts) (by decide) (by decide) trivial
  refine ⟨?_, ?_, ?_⟩
  · intro l1 l2 v s t hs h2 hv hp ht h0
    unfold tool
    rw [show actionOf (b! "init") = some .init from by decide]
    simp only [ha, client, callOf, given_ls hl ha hs h2 hv, h1, given_num hl ha ht (k := .ioTimeout) (by decide) (by decide) ⟨rfl, h0⟩]
    rw [if_pos hp]
  · intro r rs n h0 hp hs hr h8 hn
    unfold tool
    rw [show actionOf (b! "init") = some .init from by decide]
    obtain ⟨hf, -⟩ := options_fold (cmd := []) hl (by simpa [cmdWords] using ha)
    have hls := (fold_frame hf).2.1 hs
    have hres := given_res hl ha h0 hr (by simp; omega)
    simp only [ha, client, callOf, h1, given_num hl ha hn (k := .numHosts) (by decide) (by decide) trivial, hls, hres]
    rw [if_neg (by simp [hp]), if_neg (by simp)]
    rfl
  · unfold tool
    rw [show actionOf (b! "init") = some .init from by decide, show actionOf (b! "write") = some .init from by decide]

example : (tool exEnv (com0 10) (b! "init")
      [b! "-r", b! "LS:R:/dev/a:0", b! "-m", b! "100", b! "-n", b! "5", b! "-Z", b! "4096", b! "-A", b! "2M"] fun _ => 0) =
    ([.writeRes (some ⟨b! "LS", b! "R", 0, false, false, [⟨b! "/dev/a", 0⟩]⟩) 100 5 false 4096 2097152], .success) := by decide +kernel

/-- C73: `-A` takes the four sizes. -/
theorem align_partial {e : Env} {m : Mode} {c c' : Com} {n : Nat} (hn : n ∈ [1, 2, 4, 8])
    (h : option e m c 65 (Strings.dec n ++ [77]) = .ok c') : c'.num .align = n * 1048576 := by
  simp only [List.mem_cons, List.not_mem_nil, or_false] at hn
  have : alignArg (Strings.dec n ++ [77]) = some (n * 1048576 : Int) := by
    rcases hn with rfl | rfl | rfl | rfl <;> decide +kernel
  simp [option, this] at h
  subst h
  simp [Com.set]

example : (Strings.dec 8 ++ [77] : Str) = b! "8M" := by decide +kernel

/-- C73: every documented combination of sizes, none, and a sector size alone, is accepted. -/
theorem sizes_accepted {e : Env} {m : Mode} {c c' : Com} {l : List Arg} {cmd : List Str} (hl : Plain l) (hf : fold e m c l = .ok c')
    (h : (c'.num .sector, c'.num .align) ∈ [((512 : Int), (1048576 : Int)), (4096, 1048576), (4096, 2097152), (4096, 4194304), (4096, 8388608)] ∨
      c'.num .align = 0) : options e m c (words l ++ cmdWords cmd) = .ok (c', cmd) := by
  rw [options_words hl, hf]
  simp only [finish]
  rw [if_pos]
  simp only [List.mem_cons, Prod.mk.injEq, List.not_mem_nil, or_false] at h
  rcases h with (h | h | h | h | h) | h
  · simp [sizesOk, h]
  · simp [sizesOk, h]
  · simp [sizesOk, h]
  · simp [sizesOk, h]
  · simp [sizesOk, h]
  · by_cases hs : c'.num .sector = 0 <;> simp [sizesOk, h, hs]

example : (fold exEnv (modeOf .init) (com0 10) [] = .ok (com0 10)) ∧ (com0 10).num .align = 0 := ⟨rfl, rfl⟩

/-! ## Entries and indexes -/

/-- C73: `-e NAME`, `-e NAME:OFFSET`, `-e NAME:nM` and `-e :OFFSET`, for the actions on an index. -/
theorem entry_partial {e : Env} {m : Mode} {c : Com} {name : Str} (hm : m.rindex = true) (hn : name.length ≤ 48) (hc : 58 ∉ name) (hne : name ≠ []) :
    (∃ c', option e m c 101 name = .ok c' ∧ c'.txt .entryName = name ∧ c'.num .entryOffset = c.num .entryOffset) ∧
    (∀ o : Nat, o < 2 ^ 63 → ∃ c', option e m c 101 (name ++ 58 :: Strings.dec o) = .ok c' ∧ c'.txt .entryName = name ∧ c'.num .entryOffset = o) ∧
    (∀ n : Nat, n * 1048576 < 2 ^ 63 → ∃ c', option e m c 101 (name ++ 58 :: (Strings.dec n ++ [77])) = .ok c' ∧ c'.txt .entryName = name ∧
      c'.num .entryOffset = n * 1048576) ∧
    (∀ o : Nat, o < 2 ^ 63 → ∃ c', option e m c 101 (58 :: Strings.dec o) = .ok c' ∧ c'.txt .entryName = c.txt .entryName ∧ c'.num .entryOffset = o) := by
  have ho : ∀ v, option e m c 101 v = .ok (parseEntry c v) := fun v => by simp [option, hm]
  obtain ⟨x, xs, rfl⟩ := List.exists_cons_of_ne_nil hne
  have hx : x ≠ 58 := fun h => hc (by simp [h])
  have key : ∀ t : Str, (parseEntry c ((x :: xs) ++ 58 :: t)).txt .entryName = x :: xs ∧
      (parseEntry c ((x :: xs) ++ 58 :: t)).num .entryOffset = offsetOf t := by
    intro t
    unfold parseEntry
    simp only
    rw [chr_append hc]
    simp only [List.cons_append, Option.map_some, Option.getD_some]
    split
    · rename_i h
      exact absurd (List.cons.inj h).1 hx
    · simp only [Com.put, Com.set]
      rw [List.take_of_length_le hn]
      exact ⟨rfl, rfl⟩
  refine ⟨⟨_, ho _, ?_⟩, fun o h => ⟨_, ho _, (key _).1, ?_⟩, fun n h => ⟨_, ho _, (key _).1, ?_⟩, fun o h => ⟨_, ho _, ?_⟩⟩
  · unfold parseEntry
    simp only
    rw [chr_none hc]
    simp only [Option.map_none, Option.getD_none]
    split
    · rename_i h
      exact absurd (List.cons.inj h).1 hx
    · simp only [Com.put]
      rw [List.take_of_length_le hn]
      exact ⟨rfl, trivial⟩
  · rw [(key _).2, offsetOf, Direct.number_dec.1 h]
  · rw [(key _).2, offsetOf, Direct.number_dec.2 h]
    omega
  · have : parseEntry c (58 :: Strings.dec o) = c.set .entryOffset (offsetOf (Strings.dec o)) := by
      unfold parseEntry
      simp [chr]
    rw [this]
    exact ⟨rfl, by simp only [Com.set, if_true, offsetOf]; rw [Direct.number_dec.1 h]⟩

example : (b! "R1" : Str).length ≤ 48 ∧ (58 : UInt8) ∉ (b! "R1" : Str) ∧ (modeOf .create).rindex = true := by decide

/-- C73: `-x SPACE:PATH:OFFSET`, also in MiB, with a backslash before the spaces and colons of the path. -/
theorem index_partial {e : Env} {m : Mode} {c : Com} {space path : Str} (hs : space.length ≤ 48) (hc : ∀ c ∈ space, c ≠ 92 ∧ c ≠ 58)
    (hp : ∀ c ∈ path, c ≠ 92) (hl : path.length < 1024) :
    (∀ o : Nat, o < 2 ^ 63 → ∃ c', option e m c 120 (space ++ 58 :: (Strings.esc path ++ 58 :: Strings.dec o)) = .ok c' ∧
      indexOf c' = ⟨space, path, o⟩) ∧
    (∀ n : Nat, n * 1048576 < 2 ^ 63 → ∃ c', option e m c 120 (space ++ 58 :: (Strings.esc path ++ 58 :: (Strings.dec n ++ [77]))) = .ok c' ∧
      indexOf c' = ⟨space, path, n * 1048576⟩) := by
  have key : ∀ t : Str, parseIndex c (space ++ 58 :: (Strings.esc path ++ 58 :: t)) =
      some (((c.put .indexSpace space).put .indexPath path).set .indexOffset (offsetOf t)) := by
    intro t
    unfold parseIndex
    simp only [show (58 : UInt8) = Strings.COLON from rfl]
    rw [(Direct.cut_enc (Strings.enc_plain hc)).1]
    simp only
    rw [(Direct.cut_enc (Strings.enc_esc hp)).1]
    simp only
    rw [import_esc hp hl]
    simp only
    rw [List.take_of_length_le hs]
  constructor
  · intro o ho
    refine ⟨((c.put .indexSpace space).put .indexPath path).set .indexOffset (offsetOf (Strings.dec o)), by simp [option, key], ?_⟩
    simp [indexOf, Com.put, Com.set, offsetOf, Direct.number_dec.1 ho]
  · intro n ho
    refine ⟨((c.put .indexSpace space).put .indexPath path).set .indexOffset (offsetOf (Strings.dec n ++ [77])), by simp [option, key], ?_⟩
    simp [indexOf, Com.put, Com.set, offsetOf, Direct.number_dec.2 ho]

example : (tool exEnv (com0 10) (b! "create") [b! "-x", b! "LS:/dev/x:2M", b! "-e", b! "R"] fun _ => 0) =
    ([.create ⟨b! "LS", b! "/dev/x", 2097152⟩ (b! "R") 0], .success) := by decide +kernel

/-- C73: the actions on an index name the index and the entry that were read, and `update` without `-z` adds. -/
theorem index_calls {e : Env} {c0 c : Com} {argv : List Str} {ret : Call → Int} (h0 : c0.num .clear = 0)
    (ha : options e (modeOf .create) c0 argv = .ok (c, [])) :
    (tool e c0 (b! "create") argv ret).1 = [.create (indexOf c) (c.txt .entryName) (c.num .entryOffset)] ∧
    (tool e c0 (b! "delete") argv ret).1 = [.delete (indexOf c) (c.txt .entryName) (c.num .entryOffset)] ∧
    (tool e c0 (b! "lookup") argv ret).1 = [.lookup (indexOf c) (c.txt .entryName) (c.num .entryOffset)] ∧
    (tool e c0 (b! "rebuild") argv ret).1 = [.rebuild (indexOf c)] ∧
    (tool e c0 (b! "format") argv ret).1 = [.format (indexOf c) (c.num .sector) (c.num .align)] ∧
    ((∀ l, argv = words l → Plain l → 122 ∉ letters l) →
      (tool e c0 (b! "update") argv ret).1 = [.update (indexOf c) false (c.txt .entryName) (c.num .entryOffset)]) := by
  have h1 : options e (modeOf .delete) c0 argv = .ok (c, []) := ha
  have h2 : options e (modeOf .lookup) c0 argv = .ok (c, []) := ha
  have h3 : options e (modeOf .rebuild) c0 argv = .ok (c, []) := ha
  have h4 : options e (modeOf .format) c0 argv = .ok (c, []) := ha
  have h5 : options e (modeOf .update) c0 argv = .ok (c, []) := ha
  refine ⟨?_, ?_, ?_, ?_, ?_, fun hz => ?_⟩
  · unfold tool
    rw [show actionOf (b! "create") = some .create from by decide]
    simp only [ha, client, callOf]
  · unfold tool
    rw [show actionOf (b! "delete") = some .delete from by decide]
    simp only [h1, client, callOf]
  · unfold tool
    rw [show actionOf (b! "lookup") = some .lookup from by decide]
    simp only [h2, client, callOf]
  · unfold tool
    rw [show actionOf (b! "rebuild") = some .rebuild from by decide]
    simp only [h3, client, callOf]
  · unfold tool
    rw [show actionOf (b! "format") = some .format from by decide]
    simp only [h4, client, callOf]
  · obtain ⟨l, g1, g2, -, g4, -⟩ := accepted ha
    have g1 : argv = words l := by simpa [cmdWords] using g1
    have hcl := (fold_frame g4).1 .clear (by decide) (by simpa [setBy] using hz l g1 g2)
    unfold tool
    rw [show actionOf (b! "update") = some .update from by decide]
    simp only [h5, client, callOf, hcl, h0]
    rfl

/-! ## Shorter lockspaces, examine, grace -/

/-- C73: `-s NAME` and `-s NAME:ID`; the parts not given stay. -/
theorem lockspace_short {fill name : Str} {old : Ls} {id : Nat} (hn : name.length ≤ 48) (hc : ∀ c ∈ name, c ≠ 92 ∧ c ≠ 58) (hi : id < 2 ^ 63) :
    parseLockspace fill old name = some ⟨name, old.hostId, old.path, old.offset⟩ ∧
    parseLockspace fill old (name ++ 58 :: Strings.dec id) = some ⟨name, id, old.path, old.offset⟩ := by
  have h58 : 58 ∉ name := fun h => (hc _ h).2 rfl
  have h2 : (58 : UInt8) ∉ Strings.dec id := dec_no (by decide)
  constructor
  · unfold parseLockspace rewrite
    rw [chr_none h58]
    simp only [Option.bind_some, intoLs]
    rw [(Direct.cut_enc (Strings.enc_plain hc)).2]
    simp only
    rw [List.take_of_length_le hn]
  · unfold parseLockspace rewrite
    rw [chr_append h58]
    simp only
    rw [chr_none h2]
    simp only [Option.bind_some, intoLs, show (58 : UInt8) = Strings.COLON from rfl]
    rw [(Direct.cut_enc (Strings.enc_plain hc)).1]
    simp only
    rw [(Direct.cut_enc (Strings.enc_dec id)).2]
    simp only
    rw [List.take_of_length_le hn, Direct.atoll_dec hi]

example : parseLockspace [] ⟨[], 0, [], 0⟩ (b! "LS:3") = some ⟨b! "LS", 3, [], 0⟩ := by decide +kernel

/-- C73: `examine` names the lockspace typed if it has a path, else the first resource typed. -/
theorem examine_calls {e : Env} {c0 c : Com} {l : List Arg} {ret : Call → Int} (hl : Plain l)
    (ha : options e (modeOf .examine) c0 (words l) = .ok (c, [])) :
    (∀ l1 l2 v s, l = l1 ++ .opt 115 v :: l2 → 115 ∉ letters l2 → (∀ old, parseLockspace e.fill old v = some s) → s.path ≠ [] →
      (tool e c0 (b! "examine") (words l) ret).1 = [.examineLs s]) ∧
    (∀ r rs, c0.res = [] → c0.ls.path = [] → 115 ∉ letters l → (rArgs l).map parseResource = (r :: rs).map (fun r => some (some r)) →
      rs.length < 8 → (tool e c0 (b! "examine") (words l) ret).1 = [.examineRes (some r)]) := by
  constructor
  · intro l1 l2 v s hs h2 hv hp
    unfold tool
    rw [show actionOf (b! "examine") = some .examine from by decide]
    simp only [ha, client, callOf, given_ls hl ha hs h2 hv]
    rw [if_pos hp]
  · intro r rs h0 hp hs hr h8
    unfold tool
    rw [show actionOf (b! "examine") = some .examine from by decide]
    obtain ⟨hf, -⟩ := options_fold (cmd := []) hl (by simpa [cmdWords] using ha)
    have hls := (fold_frame hf).2.1 hs
    have hres := given_res hl ha h0 hr (by simp; omega)
    simp only [ha, client, callOf, hls, hres]
    rw [if_neg (by simp [hp])]
    rfl

example : (tool exEnv (com0 10) (b! "examine") [b! "-r", b! "LS:R"] fun _ => 0) =
    ([.examineRes (some ⟨b! "LS", b! "R", 0, false, false, []⟩)], .success) := by decide +kernel

/-- C73: the grace time of the daemon is changed only to a time from 0 to 60 seconds, the one given. -/
theorem grace_range {e : Env} {m : Mode} {c c' : Com} {v : Str} (hm : m.daemon = true) (h : option e m c 103 v = .ok c') :
    (c'.num .graceSeconds = c.num .graceSeconds ∧ c'.num .graceSet = c.num .graceSet) ∨
    (0 ≤ c'.num .graceSeconds ∧ c'.num .graceSeconds ≤ 60 ∧ c'.num .graceSeconds = atoi v ∧ c'.num .graceSet = 1) := by
  simp [option, hm] at h
  subst h
  split
  · rename_i hg
    exact .inr ⟨hg.2, hg.1, rfl, rfl⟩
  · exact .inl ⟨rfl, rfl⟩

example : (option exEnv ⟨true, false, false, false⟩ (com0 10) 103 (b! "-5")) matches .ok _ := rfl

end Sanlock.CmdLine
