import Verif.Props.StatusMore

/-!
# C69, continued: hosts, renewals, the log, and examples
-/

namespace Sanlock.Status

open OnDisk OneShot

/-! ## Hosts -/

def hostRec (id : Nat) (h : Host) : Rec :=
  ⟨⟨5, 0, id, h.timestamp, List.replicate 48 0, (hostText h).length + 1⟩, hostText h ++ [0], []⟩

/-- A record without structure. -/
structure TextOk (r : Rec) : Prop where
  st : r.st.ok
  len : r.str.length = r.st.strLen
  most : r.st.strLen ≤ 4096
  bin : r.bin = []

theorem recvText_wire {r : Rec} (h : TextOk r) (rest : Str) : recvText (wire r ++ rest) = .got r rest := by
  have hl := st_len h.st.name
  have e1 : (wire r ++ rest).take 80 = r.st.bytes := by
    rw [wire, List.append_assoc]; exact tk hl
  have e2 : (wire r ++ rest).drop 80 = r.str ++ rest := by
    rw [wire, List.append_assoc, dp hl, h.bin, List.append_nil]
  have hlen : ¬(wire r ++ rest).length < 80 := by simp [wire, hl]
  unfold recvText
  rw [if_neg hlen, e1, e2, stOf_bytes h.st]
  simp only
  rw [if_neg (by have := h.most; omega), if_neg (by simp [h.len]), tk h.len, dp h.len]
  obtain ⟨st, str, bin⟩ := r
  have : bin = [] := h.bin
  subst this
  rfl

theorem texts_wire {rs : List Rec} (h : ∀ r ∈ rs, TextOk r) : ∀ {fuel}, rs.length ≤ fuel → texts fuel (rs.flatMap wire) = some rs := by
  induction rs with
  | nil =>
    intro fuel _
    cases fuel with
    | zero => rfl
    | succ n => rfl
  | cons r rs ih =>
    intro fuel hf
    cases fuel with
    | zero => simp at hf
    | succ n =>
      rw [texts, List.flatMap_cons, recvText_wire (h r (List.mem_cons_self ..))]
      simp only
      rw [ih (fun x hx => h x (List.mem_cons_of_mem _ hx)) (by simpa using hf)]
      rfl

theorem texts_full {rs : List Rec} (h : ∀ r ∈ rs, TextOk r) : texts (rs.flatMap wire).length (rs.flatMap wire) = some rs :=
  texts_wire h (flatMap_len fun r hr => (h r hr).st.name)

def hostRecs : Nat → List Host → List Rec
  | _, [] => []
  | i, h :: hs => (if h.lastLive = 0 ∧ h.ownerId = 0 then [] else [hostRec (i + 1) h]) ++ hostRecs (i + 1) hs

theorem wire_text (s : St) (text : Str) : wire ⟨{ s with strLen := text.length + 1 }, text ++ [0], []⟩ = sendState s text :=
  (wire_state s text []).trans (List.append_nil _)

theorem sendHosts_eq (hs : List Host) : ∀ i, sendHosts i hs = (hostRecs i hs).flatMap wire := by
  induction hs with
  | nil => intro i; rfl
  | cons h hs ih =>
    intro i
    rw [sendHosts, hostRecs, List.flatMap_append, ih]
    congr 1
    split
    · rfl
    · rw [List.flatMap_cons, List.flatMap_nil, List.append_nil, sendHost]
      exact (wire_text ⟨5, 0, i + 1, h.timestamp, List.replicate 48 0, 0⟩ _).symm

theorem hostRecs_ok {hs : List Host} (ht : ∀ h ∈ hs, h.timestamp < 2 ^ 64) : ∀ {i : Nat}, i + hs.length < 2 ^ 32 →
    ∀ r ∈ hostRecs i hs, TextOk r := by
  induction hs with
  | nil => intro i _ r hr; cases hr
  | cons h hs ih =>
    intro i hi r hr
    rw [List.length_cons] at hi
    rw [hostRecs, List.mem_append] at hr
    rcases hr with hr | hr
    · split at hr
      · cases hr
      · rw [List.mem_singleton] at hr
        subst hr
        have hf : (hostText h).length ≤ 4094 := fit_len _
        refine ⟨⟨by show 5 < _; decide, by show 0 < _; decide, ?_, ht h (List.mem_cons_self ..), List.length_replicate, ?_⟩, by simp [hostRec], ?_, rfl⟩
        · show i + 1 < 256 ^ 4; omega
        · show (hostText h).length + 1 < 256 ^ 4; omega
        · show (hostText h).length + 1 ≤ 4096; omega
    · exact ih (fun x hx => ht x (List.mem_cons_of_mem _ hx)) (by omega) r hr

/-- `ID timestamp TIME`. -/
def hostLine (id : Nat) (h : Host) : Str := Strings.dec id ++ (b! " timestamp " ++ Strings.dec h.timestamp)

/-- One line for each host that has an owner or was seen alive; the number of a host is its place in the table, from one. -/
def hostLines (hs : List Host) : List Str :=
  (hs.zipIdx.filter fun x => x.1.lastLive ≠ 0 ∨ x.1.ownerId ≠ 0).map fun x => hostLine (x.2 + 1) x.1

theorem hostRecs_lines {hs : List Host} : ∀ {i : Nat}, (hostRecs i hs).flatMap (printHost false) =
    ((hs.zipIdx i).filter fun x => x.1.lastLive ≠ 0 ∨ x.1.ownerId ≠ 0).map fun x => hostLine (x.2 + 1) x.1 := by
  induction hs with
  | nil => intro i; rfl
  | cons h hs ih =>
    intro i
    rw [hostRecs, List.flatMap_append, ih, List.zipIdx_cons, List.filter_cons]
    by_cases hc : h.lastLive = 0 ∧ h.ownerId = 0
    · rw [if_pos hc, if_neg (by simp [hc.1, hc.2])]
      rfl
    · rw [if_neg hc, if_pos (by
        simp only [ne_eq, decide_eq_true_iff]
        by_cases h0 : h.lastLive = 0
        · exact Or.inr fun h1 => hc ⟨h0, h1⟩
        · exact Or.inl h0), List.flatMap_cons, List.flatMap_nil]
      have e : printHost false (hostRec (i + 1) h) = [hostLine (i + 1) h] := by
        rw [printHost, if_pos (show (hostRec (i + 1) h).st.type = 5 from rfl), printDebug_false]
        rfl
      rw [e]
      rfl

theorem askName_eq {name : Str} (hz : noZero name) (hl : name.length ≤ 47) : cstr ((askName name).take 48) = name := by
  rw [askName, List.take_of_length_le hl, List.take_of_length_le (by rw [strncpy_len]; exact Nat.le_refl _), cstr_strncpy hz,
    List.take_of_length_le (by omega)]

/-- What is printed for a name. -/
def hostsOf (name : Str) (l : List SpaceH) : List Str :=
  match l.find? fun s => s.name = name with
  | none => []
  | some s => hostLines s.hosts

structure HostsOk (l : List SpaceH) : Prop where
  time : ∀ s ∈ l, ∀ h ∈ s.hosts, h.timestamp < 2 ^ 64
  count : ∀ s ∈ l, s.hosts.length < 2 ^ 32

theorem hostStatusOf_eq {name : Str} {l : List SpaceH} (hne : name ≠ []) (hz : noZero name) (hl : name.length ≤ 47) (hok : HostsOk l) :
    hostStatusOf false name l = some (hostsOf name l, if l.find? (fun s => s.name = name) = none then -28 else 0) := by
  unfold hostStatusOf cmdHosts findSpace hostsOf
  rw [if_neg hne, askName_eq hz hl]
  cases hf : l.find? fun s => decide (s.name = name) with
  | none => rfl
  | some s =>
    have hs := List.mem_of_find?_eq_some hf
    simp only [sendHosts_eq]
    rw [texts_full (hostRecs_ok (hok.time s hs) (by have := hok.count s hs; omega))]
    simp only [Option.map_some, hostRecs_lines, reduceCtorEq, if_false]
    rfl

/-- C69, part: the hosts of a lockspace are those that have an owner or were seen alive, each once and under its own number, with the
time last read from its lease.  Missing: names of 48 bytes, see `host_status_violated`. -/
theorem host_status_partial {s : SpaceH} {l : List SpaceH} (hs : s ∈ l) (hu : ∀ t ∈ l, t.name = s.name → t = s) (hne : s.name ≠ [])
    (hz : noZero s.name) (hl : s.name.length ≤ 47) (hok : HostsOk l) :
    ∃ ls, hostStatusOf false s.name l = some (ls, 0) ∧ ls = hostLines s.hosts ∧
      ∀ (i : Nat) (h : Host), s.hosts[i]? = some h → h.lastLive ≠ 0 ∨ h.ownerId ≠ 0 → hostLine (i + 1) h ∈ ls := by
  have hf : l.find? (fun t => t.name = s.name) = some s := by
    cases hf : l.find? (fun t => decide (t.name = s.name)) with
    | none =>
      have := List.find?_eq_none.1 hf s hs
      simp at this
    | some t =>
      have h1 := List.mem_of_find?_eq_some hf
      have h2 := List.find?_some hf
      rw [hu t h1 (by simpa using h2)]
  refine ⟨hostLines s.hosts, ?_, rfl, fun i h hi hc => ?_⟩
  · rw [hostStatusOf_eq hne hz hl hok, hostsOf, hf]
    rfl
  · refine List.mem_map.2 ⟨(h, i), List.mem_filter.2 ⟨?_, by simpa using hc⟩, rfl⟩
    exact List.mem_zipIdx_iff_getElem?.2 hi

/-- A lockspace that does not exist is reported. -/
theorem host_status_none {name : Str} {l : List SpaceH} (hne : name ≠ []) (hz : noZero name) (hl : name.length ≤ 47) (hok : HostsOk l)
    (hn : ∀ t ∈ l, t.name ≠ name) : hostStatusOf false name l = some ([], -28) := by
  have hf : l.find? (fun t => t.name = name) = none := by
    rw [List.find?_eq_none]
    intro t ht
    simp [hn t ht]
  rw [hostStatusOf_eq hne hz hl hok, hostsOf, hf]
  rfl

/-- The claim is false for a name of 48 bytes: its last byte is not sent, so the lockspace is not found although it exists. -/
theorem host_status_violated {s : SpaceH} {l : List SpaceH} (hl : s.name.length = 48) (hz : noZero s.name)
    (hn : ∀ t ∈ l, t.name ≠ s.name.take 47) (debug : Bool) : hostStatusOf debug s.name l = some ([], -28) := by
  have hne : s.name ≠ [] := fun h => by rw [h] at hl; cases hl
  have ha : cstr ((askName s.name).take 48) = s.name.take 47 := by
    rw [askName, List.take_of_length_le (by rw [strncpy_len]; exact Nat.le_refl _), cstr_strncpy (noZero_take hz 47),
      List.take_of_length_le (by simp; omega)]
  have hf : l.find? (fun t => t.name = s.name.take 47) = none := by
    rw [List.find?_eq_none]
    intro t ht
    simp [hn t ht]
  unfold hostStatusOf cmdHosts findSpace
  rw [if_neg hne, ha, hf]
  rfl

/-! ### Of all lockspaces -/

theorem cstrIn_of {cap : Nat} {b a r : Str} (h : b.take cap = a ++ 0 :: r) (hz : noZero a) : cstrIn cap b = some a := by
  unfold cstrIn
  rw [h, if_neg (by simp), cstr_zero hz]

theorem dupName_eq {list : Str} {s : Space} (h : s.ok) (hl : s.name.length ≤ 47) :
    dupName ((spaceRec list s).bin ++ List.replicate 56 0) = some s.name := by
  obtain ⟨rest, he⟩ : ∃ rest, (spaceRec list s).bin ++ List.replicate 56 0 = s.name ++ 0 :: rest := by
    have : List.replicate (48 - s.name.length) (0 : UInt8) = 0 :: List.replicate (47 - s.name.length) 0 := by
      rw [show 48 - s.name.length = (47 - s.name.length) + 1 by omega]; rfl
    refine ⟨List.replicate (47 - s.name.length) 0 ++ (((leBytes 8 s.hostId ++ (leBytes 4 0 ++ (leBytes 4 0 ++ s.disk.bytes)))) ++ List.replicate 56 0), ?_⟩
    show ((strncpy s.name ++ (leBytes 8 s.hostId ++ (leBytes 4 0 ++ (leBytes 4 0 ++ s.disk.bytes)))) ++ List.replicate 56 0) = _
    rw [strncpy, List.take_of_length_le h.name, this, List.append_assoc, List.append_assoc]
    rfl
  rw [he]
  unfold dupName cstrIn
  have ht : (s.name ++ 0 :: rest).take 56 = s.name ++ 0 :: rest.take (55 - s.name.length) := by
    rw [List.take_append, List.take_of_length_le (by omega), show 56 - s.name.length = (55 - s.name.length) + 1 by omega, List.take_succ_cons]
  rw [ht, if_neg (by simp), cstr_zero h.nameZ]

theorem spaces_of_recs (s : Snap) : (recs 3 s).filter (fun r => r.st.type = 3) = spaceRecs s := by
  have e : recs 3 s = daemonRec s :: (connRecs 0 s.conns ++ (spaceRecs s ++ [])) := rfl
  rw [e, List.append_nil, List.filter_cons, if_neg (by simp [daemonRec]), List.filter_append,
    filter_none (l := connRecs 0 s.conns) (fun r hr => by simp [conn_type hr]), List.nil_append]
  exact List.filter_eq_self.2 fun r hr => by simp [space_type hr]

/-- All lockspaces, of the three lists. -/
def allSpaces (s : Snap) : List Space := s.spaces ++ (s.spacesAdd ++ s.spacesRem)

theorem mem_allSpaces {s : Snap} {x : Space} : x ∈ allSpaces s ↔ x ∈ s.spaces ∨ x ∈ s.spacesAdd ∨ x ∈ s.spacesRem := by
  simp [allSpaces]

theorem spaceRecs_map {β : Type} {s : Snap} {f : Rec → β} {g : Space → β} (h : ∀ x ∈ allSpaces s, ∀ list, f (spaceRec list x) = g x) :
    (spaceRecs s).map f = (allSpaces s).map g := by
  simp only [spaceRecs, allSpaces, List.map_append, List.map_map]
  have key : ∀ (l : List Space) (list : Str), (∀ x ∈ l, x ∈ allSpaces s) → l.map (f ∘ spaceRec list) = l.map g := fun l list hl =>
    List.map_congr_left fun x hx => h x (hl x hx) list
  rw [key s.spaces _ fun x hx => mem_allSpaces.2 (Or.inl hx), key s.spacesAdd _ fun x hx => mem_allSpaces.2 (Or.inr (Or.inl hx)),
    key s.spacesRem _ fun x hx => mem_allSpaces.2 (Or.inr (Or.inr hx))]

/-- C69, part: without a name, the hosts of each lockspace are printed below a line with its name.  Missing: names of 48 bytes, and more
than 1024 lockspaces. -/
theorem host_status_all_partial {s : Snap} (h : s.ok) {l : List SpaceH} (hok : HostsOk l)
    (hn : ∀ x ∈ allSpaces s, x.name ≠ [] ∧ x.name.length ≤ 47) (hc : (allSpaces s).length ≤ 1024) :
    hostStatus false (cmdStatus 3 s) l = some ((allSpaces s).flatMap fun x => (b! "lockspace " ++ x.name) :: hostsOf x.name l) := by
  have hr := recs_ok (what := 3) (cap := 4096) (n := 3) h (fun h => absurd rfl h) (fun h => absurd rfl h) (by decide)
  rw [hostStatus, cmdStatus_eq, collect_full hr]
  have hm : (spaceRecs s).map (fun r => dupName (r.bin ++ List.replicate 56 0)) = (allSpaces s).map fun x => some x.name :=
    spaceRecs_map fun x hx list => dupName_eq (h.spaces x (mem_allSpaces.1 hx)) (hn x hx).2
  have hsn : spaceNames (recs 3 s) = some ((allSpaces s).map fun x => x.name) := by
    unfold spaceNames
    simp only [spaces_of_recs, hm, List.length_map]
    rw [if_neg (by
      rintro (h | h)
      · omega
      · obtain ⟨x, -, hx⟩ := List.mem_map.1 h; cases hx), List.filterMap_map]
    congr 1
    exact congrFun (List.filterMap_eq_map (f := fun x : Space => x.name)) _
  simp only [Option.bind_some, hsn]
  have key : ∀ xs : List Space, (∀ x ∈ xs, x ∈ allSpaces s) → eachSpace false l (xs.map fun x => x.name) =
      some (xs.flatMap fun x => (b! "lockspace " ++ x.name) :: hostsOf x.name l) := by
    intro xs
    induction xs with
    | nil => intro _; rfl
    | cons x xs ih =>
      intro hx
      have hx0 := hx x (List.mem_cons_self ..)
      rw [List.map_cons, eachSpace, hostStatusOf_eq (hn x hx0).1 (h.spaces x (mem_allSpaces.1 hx0)).nameZ (hn x hx0).2 hok,
        ih (fun y hy => hx y (List.mem_cons_of_mem _ hy))]
      rfl
  exact key _ fun x hx => hx

/-- The claim is false for more than 1024 lockspaces: the array of names is written beyond its end. -/
theorem host_status_many_violated {s : Snap} (h : s.ok) (hc : 1024 < (allSpaces s).length) (debug : Bool) (l : List SpaceH) :
    hostStatus debug (cmdStatus 3 s) l = none := by
  have hr := recs_ok (what := 3) (cap := 4096) (n := 3) h (fun h => absurd rfl h) (fun h => absurd rfl h) (by decide)
  rw [hostStatus, cmdStatus_eq, collect_full hr]
  have hl : (spaceRecs s).length = (allSpaces s).length := by simp [spaceRecs, allSpaces]
  have hsn : spaceNames (recs 3 s) = none := by
    unfold spaceNames
    simp only [spaces_of_recs, List.length_map]
    rw [if_pos (Or.inl (by omega))]
  simp only [Option.bind_some, hsn, Option.bind_none]

/-- The name of 48 bytes of a lockspace with host id 1 is shown with a byte of the host id behind it. -/
theorem host_status_name_violated {list : Str} {s : Space} (h : s.ok) (hl : s.name.length = 48) (hid : s.hostId = 1) :
    dupName ((spaceRec list s).bin ++ List.replicate 56 0) = some (s.name ++ [1]) := by
  have he : (spaceRec list s).bin ++ List.replicate 56 0 = s.name ++ ([1] ++ 0 :: ([0, 0, 0, 0, 0, 0] ++ ((leBytes 4 0 ++ (leBytes 4 0 ++ s.disk.bytes)) ++ List.replicate 56 0))) := by
    show ((strncpy s.name ++ (leBytes 8 s.hostId ++ _)) ++ _) = _
    rw [strncpy, List.take_of_length_le h.name, hl, hid, Nat.sub_self]
    show ((s.name ++ []) ++ _) ++ _ = _
    rw [List.append_nil, List.append_assoc]
    rfl
  have hz : noZero (s.name ++ [1]) := noZero_append h.nameZ (by unfold noZero; decide)
  rw [he]
  refine cstrIn_of (r := List.take 6 ([0, 0, 0, 0, 0, 0] ++ ((leBytes 4 0 ++ (leBytes 4 0 ++ s.disk.bytes)) ++ List.replicate 56 0))) ?_ hz
  rw [List.take_append, List.take_of_length_le (by omega), hl, List.append_assoc s.name [1]]
  rfl

/-! ## Renewals -/

/-- The line of a renewal. -/
def renewalLine (e : Nat × (Nat → Int)) : Str :=
  b! "timestamp=" ++ (Strings.dec e.1 ++ (b! " read_ms=" ++ (signed (e.2 0) ++ (b! " write_ms=" ++ (signed (e.2 1) ++
    (b! " next_timeouts=" ++ (signed (e.2 2) ++ (b! " next_errors=" ++ signed (e.2 3)))))))))

theorem renewalText_eq {e : Nat × (Nat → Int)} (ht : e.1 < 2 ^ 64) (hv : small e.2) : renewalText e.1 e.2 = renewalLine e := by
  have hd : (Strings.dec e.1).length ≤ 20 := Strings.dec_length (k := 19) (Nat.lt_of_lt_of_le ht (by decide))
  have hk : keysLen renewalKeys ≤ 1000 := by decide +kernel
  have hp := pairs_len hv (ks := renewalKeys) (i := 0)
  rw [renewalText, fit_eq (by simp only [List.length_append, List.length_cons, List.length_nil]; omega)]
  simp [renewalLine, renewalKeys, pairs, fmt_signed]

theorem noZero_renewal (e : Nat × (Nat → Int)) : noZero (renewalLine e) := by
  have hd : noZero (Strings.dec e.1) := fun x hx h0 => dec_ne (n := e.1) (x := x) (by rw [h0]; decide) hx
  have hf : ∀ v, noZero (signed v) := fun v x hx => by rw [← fmt_signed] at hx; exact (fmt_ne_zero hx).1
  unfold renewalLine
  refine noZero_append (by unfold noZero; decide) (noZero_append hd (noZero_append (by unfold noZero; decide) (noZero_append (hf _)
    (noZero_append (by unfold noZero; decide) (noZero_append (hf _) (noZero_append (by unfold noZero; decide) (noZero_append (hf _)
      (noZero_append (by unfold noZero; decide) (hf _)))))))))

def renewalRec (e : Nat × (Nat → Int)) : Rec :=
  ⟨⟨6, 0, 0, e.1, List.replicate 48 0, (renewalText e.1 e.2).length + 1⟩, renewalText e.1 e.2 ++ [0], []⟩

/-- C69, part: the renewals sent by the daemon are printed in their order, one on a line. -/
theorem renewals_shown {es : List (Nat × (Nat → Int))} (h : ∀ e ∈ es, e.1 < 2 ^ 64 ∧ small e.2) :
    renewals (es.flatMap sendRenewal) = some (es.map renewalLine) := by
  have hw : es.flatMap sendRenewal = (es.map renewalRec).flatMap wire := by
    rw [List.flatMap_map]
    congr 1
    funext e
    exact (wire_text ⟨6, 0, 0, e.1, List.replicate 48 0, 0⟩ _).symm
  have hok : ∀ r ∈ es.map renewalRec, TextOk r := by
    intro r hr
    obtain ⟨e, he, rfl⟩ := List.mem_map.1 hr
    have hf : (renewalText e.1 e.2).length ≤ 4094 := fit_len _
    refine ⟨⟨by show 6 < _; decide, by show 0 < _; decide, by show 0 < _; decide, (h e he).1, List.length_replicate, ?_⟩, by simp [renewalRec], ?_, rfl⟩
    · show (renewalText e.1 e.2).length + 1 < 256 ^ 4; omega
    · show (renewalText e.1 e.2).length + 1 ≤ 4096; omega
  unfold renewals
  rw [hw, texts_full hok]
  simp only [Option.bind_some]
  rw [if_pos (by
    rw [List.all_eq_true]
    intro r hr
    obtain ⟨e, he, rfl⟩ := List.mem_map.1 hr
    simp [renewalRec]), List.map_map]
  congr 1
  refine List.map_congr_left fun e he => ?_
  show cstr (renewalText e.1 e.2 ++ [0]) = _
  rw [renewalText_eq (h e he).1 (h e he).2, cstr_zero (noZero_renewal e)]

/-! ## The log -/

/-- The bytes of messages. -/
def bytesOf (l : Log.Str) : Str := l.map UInt8.ofNat

theorem bytesOf_noZero {l : Log.Str} (h : ∀ c ∈ l, 0 < c ∧ c < 256) : noZero (bytesOf l) := by
  intro x hx
  obtain ⟨c, hc, rfl⟩ := List.mem_map.1 hx
  obtain ⟨h1, h2⟩ := h c hc
  intro h0
  have : (UInt8.ofNat c).toNat = 0 := by rw [h0]; rfl
  simp at this
  omega

/-- C69, part: as long as the memory for the log is not full, all messages but the last line end are printed.  Missing: a full log, see
`log_dump_violated`. -/
theorem log_dump_partial {size : Nat} {msgs : List Log.Str} (hsz : 0 < size) (hc : ∀ m ∈ msgs, ∀ c ∈ m, 0 < c ∧ c < 256)
    (hl : msgs.flatten.length < size) (h2 : 2 ≤ msgs.flatten.length) :
    logDump size (Log.copyDump (msgs.foldl Log.saveDump (Log.Dump.init size))).length
      (bytesOf (Log.copyDump (msgs.foldl Log.saveDump (Log.Dump.init size)))) = some (bytesOf msgs.flatten.dropLast) := by
  rw [Log.dump_spec size hsz, if_pos hl]
  have hd : msgs.flatten.dropLast.length = msgs.flatten.length - 1 := List.length_dropLast
  have hb : (bytesOf msgs.flatten.dropLast).length = msgs.flatten.dropLast.length := List.length_map ..
  have hz : noZero (bytesOf msgs.flatten.dropLast) := bytesOf_noZero fun c hcm => by
    obtain ⟨m, hm, hcm⟩ := List.mem_flatten.1 ((List.dropLast_sublist _).subset hcm)
    exact hc m hm c hcm
  unfold logDump
  rw [if_neg (by omega)]
  simp only [Int.toNat_natCast]
  rw [List.take_of_length_le (by omega), if_neg (fun h0 => by rw [h0] at hb; simp only [List.length_nil] at hb; omega), cstrIn,
    if_neg (by omega), List.take_of_length_le (by omega), cstr_none hz]

/-- The claim is false once the memory for the log is full: the tool receives as many bytes as its buffer has, and prints them up to
a terminator that is not there. -/
theorem log_dump_violated {size : Nat} {msgs : List Log.Str} (hsz : 0 < size) (hc : ∀ m ∈ msgs, ∀ c ∈ m, 0 < c ∧ c < 256)
    (hl : size ≤ msgs.flatten.length) :
    logDump size (Log.copyDump (msgs.foldl Log.saveDump (Log.Dump.init size))).length
      (bytesOf (Log.copyDump (msgs.foldl Log.saveDump (Log.Dump.init size)))) = none := by
  rw [Log.dump_spec size hsz, if_neg (by omega)]
  have hd : (msgs.flatten.drop (msgs.flatten.length - size)).length = size := by rw [List.length_drop]; omega
  have hb : (bytesOf (msgs.flatten.drop (msgs.flatten.length - size))).length = size := by rw [bytesOf, List.length_map, hd]
  have hz : noZero (bytesOf (msgs.flatten.drop (msgs.flatten.length - size))) := bytesOf_noZero fun c hcm => by
    obtain ⟨m, hm, hcm⟩ := List.mem_flatten.1 (List.mem_of_mem_drop hcm)
    exact hc m hm c hcm
  unfold logDump
  rw [hd, if_neg (by omega)]
  simp only [Int.toNat_natCast]
  rw [List.take_of_length_le (by omega), if_neg (fun h0 => by rw [h0] at hb; simp only [List.length_nil] at hb; omega), cstrIn,
    List.take_of_length_le (by omega), if_pos ⟨by omega, fun h0 => hz 0 h0 rfl⟩]

/-! ## Examples -/

/-- The path `/d`. -/
def exDisk : DiskArg := ⟨⟨47 :: 100 :: List.replicate 1022 0, 1048576⟩, 0, 0⟩

theorem exDisk_ok : exDisk.ok ∧ 0 ∈ exDisk.loc.path :=
  ⟨⟨by show (List.replicate 1022 (0 : UInt8)).length + 1 + 1 = 1024; rw [List.length_replicate], by decide⟩,
    List.mem_cons_of_mem _ (List.mem_cons_of_mem _ (List.mem_replicate.2 ⟨by decide, rfl⟩))⟩

def exSpace (n : UInt8) : Space := ⟨[108, n], 1, exDisk, fun _ => 7⟩

theorem exSpace_ok {n : UInt8} (h : n ≠ 0) : (exSpace n).ok :=
  ⟨by simp [exSpace], by simp [exSpace, noZero, h], by show (1 : Nat) < _; decide, exDisk_ok.1, exDisk_ok.2⟩

/-- The resource `r1` of the lockspace `l` with a letter, on `k` disks. -/
def exLease (n : UInt8) (k : Nat) (flags : Nat) (tokens : List Token) : Lease :=
  ⟨⟨108 :: n :: List.replicate 46 0, 114 :: 49 :: List.replicate 46 0, 0, 0, 0, 0, flags, k⟩, List.replicate k exDisk, 9, 0, tokens, fun _ => 0⟩

theorem exLease_ok {n : UInt8} {k f : Nat} {t : List Token} (hk : k < 256 ^ 4) (hf : f < 256 ^ 4) : (exLease n k f t).ok :=
  ⟨⟨by simp [exLease], by simp [exLease], by show 0 < _; decide, by show 0 < _; decide, by show 0 < _; decide, by show 0 < _; decide, hf, hk⟩,
    List.length_replicate, fun d hd => by rw [(List.mem_replicate.1 hd).2]; exact exDisk_ok, by show 9 < _; decide⟩

/-- Two connections with a process, an unused slot, and the listening socket; three lockspaces; leases held by two processes, one shared,
and an orphan. -/
def exSnap (k : Nat) : Snap :=
  ⟨b! "host1", b! "our_host_name=host1 use_watchdog=1", [⟨true, -1, b! "listener", fun _ => 0⟩, ⟨true, 500, b! "qemu", fun _ => 1⟩,
    ⟨false, 0, [], fun _ => 0⟩, ⟨true, 501, b! "vm", fun _ => -1⟩],
    [exSpace 97], [exSpace 98], [exSpace 99],
    [exLease 97 k 0 [⟨501, 3⟩], exLease 98 1 4 [⟨500, 1⟩, ⟨501, 2⟩]], [], [], [exLease 100 1 0 []]⟩

theorem exSnap_leases (k : Nat) : leases (exSnap k) =
    [(b! "held", exLease 97 k 0 [⟨501, 3⟩], 501), (b! "held", exLease 98 1 4 [⟨500, 1⟩, ⟨501, 2⟩], 500),
      (b! "held", exLease 98 1 4 [⟨500, 1⟩, ⟨501, 2⟩], 501), (b! "orphan", exLease 100 1 0 [], 0)] := rfl

theorem exSnap_ok {k : Nat} (hk : k < 256 ^ 4) : (exSnap k).ok where
  pids := by rw [exSnap_leases]; simp
  connPids := by simp [exSnap]
  text := by simp [exSnap, noZero]
  hostName := by simp [exSnap, noZero]
  conns := by simp [exSnap, noZero]
  spaces := fun x hx => by
    simp only [exSnap, List.mem_cons, List.not_mem_nil, or_false] at hx
    rcases hx with rfl | rfl | rfl <;> exact exSpace_ok (by decide)
  leases := fun x hx => by
    simp only [exSnap, List.mem_cons, List.not_mem_nil, or_false, false_or] at hx
    rcases hx with (rfl | rfl) | rfl
    · exact exLease_ok hk (by decide)
    · exact exLease_ok (by decide) (by decide)
    · exact exLease_ok (by decide) (by decide)

theorem exSnap_disks {k n : Nat} (hk : k ≤ n) (h1 : 1 ≤ n) : (exSnap k).disksLe n := fun x hx => by
  simp only [exSnap, List.mem_cons, List.not_mem_nil, or_false, false_or] at hx
  rcases hx with (rfl | rfl) | rfl
  · exact hk
  · exact h1
  · exact h1

theorem exSnap_lines (k : Nat) : (lines (exSnap k)).length = 11 := rfl

/-- The snapshot meets the conditions of the theorems about the lines. -/
example : status false (cmdStatus 0 (exSnap 2)) = some (lines (exSnap 2)) :=
  status_lines_partial (exSnap_ok (by decide)) 0 fun _ => exSnap_disks (by decide) (by decide)

example : ∃ a b, sorted true false (cmdStatus 0 (exSnap 4)) = some (a ++ (if b = [] then [] else [b! "-"]) ++ b) ∧ (a ++ b).Perm (lines (exSnap 4)) := by
  obtain ⟨a, b, h1, h2, -⟩ := sorted_pid_partial (exSnap_ok (k := 4) (by decide)) (exSnap_disks (by decide) (by decide)) (by rw [exSnap_lines]; decide)
  exact ⟨a, b, h1, h2⟩

example : ∃ a b, sorted false false (cmdStatus 0 (exSnap 4)) = some (a ++ (if b = [] then [] else [b! "-"]) ++ b) ∧ (a ++ b).Perm (lines (exSnap 4)) := by
  obtain ⟨a, b, h1, h2, -⟩ := sorted_space_partial (exSnap_ok (k := 4) (by decide)) (exSnap_disks (by decide) (by decide)) (by rw [exSnap_lines]; decide)
  exact ⟨a, b, h1, h2⟩

example : status false (cmdStatus 0 (exSnap 4)) = none :=
  status_disks_violated (exSnap_ok (by decide)) ⟨_, by rw [exSnap_leases]; exact List.mem_cons_self .., by show 4 ≤ 4; decide⟩ false

example : ∃ k, status false ((cmdStatus 0 (exSnap 2)).take k) = some ((lines (exSnap 2)).take 3) :=
  status_cut_violated (exSnap_ok (by decide)) (exSnap_disks (by decide) (by decide)) 3

example : status true (cmdStatus 0 (exSnap 2)) = some (detailed (exSnap 2) [b! "our_host_name=host1", b! "use_watchdog=1"]) := by
  refine status_details_partial (exSnap_ok (by decide)) (exSnap_disks (by decide) (by decide)) (by simp [noBlank, noZero]) (by simp) rfl
    (by decide) (by simp [exSnap, small]) (by decide) ?_ ?_
  · intro x hx
    simp only [exSnap, List.mem_cons, List.not_mem_nil, or_false] at hx
    rcases hx with rfl | rfl | rfl <;> intro i <;> show (7 : Nat) < _ <;> decide
  · intro x hx
    simp only [leaseArgs, exSnap, List.flatMap_cons, List.flatMap_nil, List.map_cons, List.map_nil, List.append_nil, List.nil_append,
      List.cons_append, List.mem_cons, List.not_mem_nil, or_false, exLease] at hx
    rcases hx with rfl | rfl | rfl | rfl <;> exact ⟨fun i => by show (0 : Nat) < _; decide, by show (_ : Nat) < _; decide⟩

/-- More than 1024 connections. -/
def exMany : Snap := ⟨b! "h", b! "x", List.replicate 1100 ⟨true, 500, b! "qemu", fun _ => 1⟩, [], [], [], [], [], [], []⟩

theorem exMany_ok : exMany.ok where
  pids := fun x hx => by cases hx
  connPids := fun c hc => by rw [(List.mem_replicate.1 hc).2]; exact ⟨by show (-2147483648 : Int) ≤ 500; decide, by show (500 : Int) < _; decide⟩
  text := show noZero (b! "x") by unfold noZero; decide
  hostName := show noZero (b! "h") by unfold noZero; decide
  conns := fun c hc => by rw [(List.mem_replicate.1 hc).2]; simp [noZero]
  spaces := fun x hx => by rcases hx with hx | hx | hx <;> cases hx
  leases := fun x hx => by rcases hx with hx | hx | hx | hx <;> cases hx

example : sorted true false (cmdStatus 0 exMany) = some [b! "cannot sort over 1024"] := by
  refine sorted_violated exMany_ok (fun x hx => by rcases hx with hx | hx | hx | hx <;> cases hx) ?_ true false
  rw [lines, List.length_cons, List.length_append, connLines, List.length_map, List.filter_eq_self.2, exMany, List.length_replicate]
  · omega
  · intro c hc
    rw [(List.mem_replicate.1 hc).2]

example : strToLs (spaceText (exSpace 97)) = some (b! "la", 1, b! "/d", 1048576) := by
  have hp : cstr (exSpace 97).disk.loc.path = b! "/d" := cstr_zero (s := b! "/d") (rest := List.replicate 1021 0) (by simp [noZero])
  have := space_line_parses_partial (exSpace_ok (n := 97) (by decide)) (by simp [exSpace]) (by rw [hp]; decide) (by rw [hp]; decide)
    (by show (1 : Nat) < _; decide) (by show (1048576 : Nat) < _; decide)
  rw [hp] at this
  exact this

/-- A colon in the name of a lockspace is not escaped, so the line names another lockspace. -/
theorem space_line_violated : strToLs (spaceText ⟨b! "a:b", 1, ⟨⟨[47, 100, 0], 0⟩, 0, 0⟩, fun _ => 0⟩) ≠
    some (b! "a:b", 1, b! "/d", 0) := by decide +kernel

example : Strings.strToRes (leaseText (exLease 97 2 0 [])) = some (some (Strings.image (asRes (exLease 97 2 0 [])))) := by
  have hp : cstr exDisk.loc.path = b! "/d" := cstr_zero (s := b! "/d") (rest := List.replicate 1021 0) (by simp [noZero])
  have hl : cstr (exLease 97 2 0 []).r.lname = b! "la" := cstr_zero (s := b! "la") (rest := List.replicate 45 0) (by simp [noZero])
  have hr : cstr (exLease 97 2 0 []).r.rname = b! "r1" := cstr_zero (s := b! "r1") (rest := List.replicate 45 0) (by simp [noZero])
  refine lease_line_parses_partial ⟨?_, ?_, by decide, by decide, fun d hd => ?_, by decide⟩
  · show Strings.NameOk (cstr _)
    rw [hl]; exact ⟨by decide, by decide⟩
  · show Strings.NameOk (cstr _)
    rw [hr]; exact ⟨by decide, by decide⟩
  · obtain ⟨x, hx, rfl⟩ := List.mem_map.1 hd
    rw [(List.mem_replicate.1 hx).2, hp]
    exact ⟨by decide, by decide, by decide, by decide, by decide⟩

/-- If the stream ends ahead of the structure of a lockspace, a lockspace without name is shown. -/
theorem status_short_violated : ∃ (s : Snap) (k : Nat), s.spaces.length = 1 ∧ status false ((cmdStatus 3 s).take k) = some [b! "daemon h", b! "s :0::0"] :=
  ⟨⟨b! "h", b! "x", [], [exSpace 97], [], [], [], [], [], []⟩, 80 + 2 + 80 + (listText (b! "spaces") spaceKeys fun _ => 7).length + 1, rfl, by decide +kernel⟩

/-- A table of three hosts, of which the second was never seen. -/
def exHosts : List SpaceH := [⟨b! "la", [⟨1, 2, 3, 1, 5, 99, 10, b! "n1"⟩, ⟨1, 0, 0, 0, 0, 0, 0, []⟩, ⟨1, 0, 0, 3, 1, 0, 10, []⟩]⟩, ⟨b! "lc", []⟩]

theorem exHosts_ok : HostsOk exHosts := ⟨by simp [exHosts], by simp [exHosts]⟩

example : hostStatusOf false (b! "la") exHosts = some ([b! "1 timestamp 99", b! "3 timestamp 0"], 0) := by
  obtain ⟨ls, h1, h2, -⟩ := host_status_partial (s := exHosts[0]) (l := exHosts) (List.mem_cons_self ..) (by simp [exHosts]) (by simp [exHosts])
    (by simp [exHosts, noZero]) (by simp [exHosts]) exHosts_ok
  rw [h2] at h1
  exact h1.trans (by decide +kernel)

example : hostStatusOf false (b! "lb") exHosts = some ([], -28) :=
  host_status_none (by simp) (by simp [noZero]) (by decide) exHosts_ok (by simp [exHosts])

example : hostStatusOf false (List.replicate 48 97) [⟨List.replicate 48 97, []⟩] = some ([], -28) :=
  host_status_violated (s := ⟨List.replicate 48 97, []⟩) (by simp) (by simp [noZero]) (by simp) false

example : hostStatus false (cmdStatus 3 (exSnap 2)) exHosts = some ((allSpaces (exSnap 2)).flatMap fun x => (b! "lockspace " ++ x.name) :: hostsOf x.name exHosts) :=
  host_status_all_partial (exSnap_ok (by decide)) exHosts_ok (by simp [allSpaces, exSnap, exSpace]) (by decide)

def exManySpaces : Snap := ⟨b! "h", b! "x", [], List.replicate 1025 (exSpace 97), [], [], [], [], [], []⟩

theorem exManySpaces_ok : exManySpaces.ok where
  pids := fun x hx => by cases hx
  connPids := fun c hc => by cases hc
  text := show noZero (b! "x") by unfold noZero; decide
  hostName := show noZero (b! "h") by unfold noZero; decide
  conns := fun c hc => by cases hc
  spaces := fun x hx => by
    rcases hx with hx | hx | hx
    · rw [(List.mem_replicate.1 hx).2]; exact exSpace_ok (by decide)
    · cases hx
    · cases hx
  leases := fun x hx => by rcases hx with hx | hx | hx | hx <;> cases hx

example : hostStatus false (cmdStatus 3 exManySpaces) [] = none := by
  refine host_status_many_violated exManySpaces_ok ?_ false []
  rw [allSpaces, exManySpaces, List.length_append, List.length_replicate]; omega

example : (⟨List.replicate 48 97, 1, exDisk, fun _ => 0⟩ : Space).ok :=
  ⟨by simp, by simp [noZero], by show (1 : Nat) < _; decide, exDisk_ok.1, exDisk_ok.2⟩

example : renewals ([(100, fun _ => 3), (120, fun i => if i = 2 then 1 else 40)].flatMap sendRenewal) =
    some ([(100, fun _ => 3), (120, fun i => if i = 2 then 1 else 40)].map renewalLine) := by
  refine renewals_shown fun e he => ?_
  simp only [List.mem_cons, List.not_mem_nil, or_false] at he
  rcases he with rfl | rfl
  · exact ⟨by decide, fun i => by show (3 : Nat) < _; decide⟩
  · refine ⟨by decide, fun i => ?_⟩
    show (if i = 2 then (1 : Int) else 40).natAbs < _
    split <;> decide

example : logDump 9 6 (bytesOf (Log.copyDump ([[1, 2, 10], [3, 4, 5, 10]].foldl Log.saveDump (Log.Dump.init 9)))) = some [1, 2, 10, 3, 4, 5] :=
  log_dump_partial (size := 9) (msgs := [[1, 2, 10], [3, 4, 5, 10]]) (by decide) (by decide) (by decide) (by decide)

example : logDump 5 5 (bytesOf (Log.copyDump ([[1, 2, 10], [3, 4, 5, 10]].foldl Log.saveDump (Log.Dump.init 5)))) = none :=
  log_dump_violated (size := 5) (msgs := [[1, 2, 10], [3, 4, 5, 10]]) (by decide) (by decide) (by decide)

end Sanlock.Status
