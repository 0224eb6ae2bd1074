import Verif.Props.Status
import Verif.Props.Strings
import Verif.Props.Direct
import Verif.Props.Log

/-!
# C69, continued: where the status command fails, details, hosts, renewals and the log
-/

namespace Sanlock.Status

open OnDisk OneShot

/-! ## Too much to show -/

/-- A record whose structure does not fit. -/
def Over (cap : Nat) (r : Rec) : Prop := ∀ rest, recvRec cap (wire r ++ rest) = .over

theorem over_of {cap big : Nat} {r : Rec} (h : RecOk big r) (h4 : r.st.type = 4) (hb : cap < r.bin.length) : Over cap r := by
  intro rest
  have hl := st_len h.st.name
  have e1 : (wire r ++ rest).take 80 = r.st.bytes := by
    rw [wire, List.append_assoc]; exact tk hl
  have e2 : (wire r ++ rest).drop 80 = r.str ++ (r.bin ++ rest) := by
    rw [wire, List.append_assoc, dp hl, List.append_assoc]
  have hlen : ¬(wire r ++ rest).length < 80 := by simp [wire, hl]
  obtain ⟨a, b, c⟩ := h.bin4 h4
  unfold recvRec
  rw [if_neg hlen, e1, e2, stOf_bytes h.st]
  simp only
  rw [if_neg (by have := h.most; omega), if_neg (by simp [h.len]), tk h.len, dp h.len, if_neg (by omega), if_pos h4,
    numDisks_append a, ← b, if_pos hb]

theorem collect_over {cap : Nat} : ∀ {rs : List Rec}, (∀ r ∈ rs, RecOk cap r ∨ Over cap r) → (∃ r ∈ rs, Over cap r) →
    ∀ {fuel}, rs.length ≤ fuel → collect cap fuel (rs.flatMap wire) = none := by
  intro rs
  induction rs with
  | nil => intro _ h; obtain ⟨r, hr, -⟩ := h; cases hr
  | cons r rs ih =>
    intro h hex fuel hf
    cases fuel with
    | zero => simp at hf
    | succ n =>
      rw [collect, List.flatMap_cons]
      by_cases ho : Over cap r
      · rw [ho]
      · have hok : RecOk cap r := by
          rcases h r (List.mem_cons_self ..) with h | h
          · exact h
          · exact absurd h ho
        rw [recvRec_wire hok]
        simp only
        obtain ⟨x, hx, hxo⟩ := hex
        have hx' : x ∈ rs := by
          rcases List.mem_cons.1 hx with rfl | hx
          · exact absurd hxo ho
          · exact hx
        rw [ih (fun y hy => h y (List.mem_cons_of_mem _ hy)) ⟨x, hx', hxo⟩ (by simpa using hf)]
        rfl

/-- The claim is false for a lease on four disks, which is allowed: whatever else the daemon has, the status command receives more
into its buffer of 4096 bytes on the stack than fits. -/
theorem status_disks_violated {s : Snap} (h : s.ok) (hd : ∃ x ∈ leases s, 4 ≤ x.2.1.r.numDisks) (debug : Bool) :
    status debug (cmdStatus 0 s) = none := by
  have hlen : ∀ x ∈ leaseArgs s, (leaseRec' x).bin.length = 128 + x.2.1.r.numDisks * 1040 := fun x hx => by
    have ho := h.leases _ (leaseArgs_mem hx).2.1
    show (x.2.1.r.bytes ++ _).length = _
    rw [List.take_of_length_le (by rw [ho.num]; exact Nat.le_refl _), List.length_append, res_len ho.r,
      disks_len (fun d hd => (ho.disks d hd).1), ho.num]
  have hall : ∀ r ∈ recs 0 s, RecOk 4096 r ∨ Over 4096 r := by
    intro r hr
    rw [recs_zero, List.mem_cons, List.mem_append, List.mem_append] at hr
    rcases hr with rfl | hr | hr | hr
    · exact Or.inl (daemonRec_ok s)
    · exact Or.inl (connRecs_ok _ _ _ hr _)
    · exact Or.inl (spaceRecs_ok h (by decide) r hr)
    · rw [leaseRecs_args] at hr
      obtain ⟨x, hx, rfl⟩ := List.mem_map.1 hr
      have ho := h.leases _ (leaseArgs_mem hx).2.1
      by_cases h4 : 128 + x.2.1.r.numDisks * 1040 ≤ 4096
      · exact Or.inl (leaseRec_ok ho h4)
      · exact Or.inr (over_of (leaseRec_ok ho (Nat.le_refl _)) rfl (by rw [hlen x hx]; omega))
  have hex : ∃ r ∈ recs 0 s, Over 4096 r := by
    obtain ⟨y, hy, hn⟩ := hd
    rw [leases_args] at hy
    obtain ⟨x, hx, rfl⟩ := List.mem_map.1 hy
    have ho := h.leases _ (leaseArgs_mem hx).2.1
    refine ⟨leaseRec' x, ?_, over_of (leaseRec_ok ho (Nat.le_refl _)) rfl (by rw [hlen x hx]; simp only at hn; omega)⟩
    rw [recs_zero, leaseRecs_args]
    exact List.mem_cons_of_mem _ (List.mem_append_right _ (List.mem_append_right _ (List.mem_map.2 ⟨x, hx, rfl⟩)))
  have hname : ∀ r ∈ recs 0 s, r.st.name.length = 48 := by
    intro r hr
    rw [recs_zero, List.mem_cons, List.mem_append, List.mem_append] at hr
    rcases hr with rfl | hr | hr | hr
    · exact strncpy_len _
    · obtain ⟨c, -, j, -, rfl⟩ := connRecs_mem hr; exact strncpy_len _
    · obtain ⟨l, x, -, rfl, -⟩ := spaceRecs_mem hr; exact strncpy_len _
    · rw [leaseRecs_args] at hr
      obtain ⟨x, hx, rfl⟩ := List.mem_map.1 hr
      exact strncpy_len _
  rw [status, cmdStatus_eq, collect_over hall hex (flatMap_len hname)]
  rfl

/-- More than 1024 lines are not shown when they are to be sorted. -/
theorem sorted_violated {s : Snap} (h : s.ok) (hd : s.disksLe 4) (hn : 1024 < (lines s).length) (byPid debug : Bool) :
    sorted byPid debug (cmdStatus 0 s) = some [b! "cannot sort over 1024"] := by
  have hr := recs_ok (what := 0) (cap := 12288) (n := 4) h (fun _ => hd) (fun _ => by decide) (by decide)
  rw [← recs_count h] at hn
  unfold sorted
  rw [cmdStatus_eq, collect_wire hr]
  simp only
  rw [if_pos (by rw [List.length_take]; omega)]

/-! ## A daemon that stops -/

theorem take_flatMap {α : Type} {f : α → List Str} : ∀ {l : List α}, (∀ x ∈ l, (f x).length = 1) → ∀ n,
    (l.flatMap f).take n = (l.take n).flatMap f := by
  intro l
  induction l with
  | nil => intro _ n; simp
  | cons a l ih =>
    intro h n
    cases n with
    | zero => rfl
    | succ n =>
      have ha := h a (List.mem_cons_self ..)
      obtain ⟨x, hx⟩ : ∃ x, f a = [x] := by
        match f a, ha with
        | [x], _ => exact ⟨x, rfl⟩
      rw [List.flatMap_cons, List.take_succ_cons, List.flatMap_cons, hx, List.singleton_append, List.singleton_append,
        List.take_succ_cons, ih (fun y hy => h y (List.mem_cons_of_mem _ hy))]

theorem linesOf_one {s : Snap} (h : s.ok) : ∀ r ∈ recs 0 s, (linesOf r).length = 1 := by
  intro r hr
  rw [recs_zero, List.mem_cons, List.mem_append, List.mem_append] at hr
  rcases hr with rfl | hr | hr | hr
  · rw [linesOf, print_daemon h]; rfl
  · obtain ⟨c, hc, j, -, rfl⟩ := connRecs_mem hr
    rw [linesOf, print_conn (h.conns c hc) (h.connPids c hc)]; rfl
  · obtain ⟨l, hl⟩ := (spaceRecs_lines h).1 r hr
    rw [linesOf, hl]; rfl
  · obtain ⟨l, hl⟩ := (leaseRecs_lines h).1 r hr
    rw [linesOf, hl]; rfl

/-- The claim is false if the daemon is gone while it sends: for each number of lines there is a place at which the stream may end so that
exactly these lines are printed, and nothing says that there are more. -/
theorem status_cut_violated {s : Snap} (h : s.ok) (hd : s.disksLe 3) (n : Nat) :
    ∃ k, status false ((cmdStatus 0 s).take k) = some ((lines s).take n) := by
  have hr := recs_ok (what := 0) (cap := 4096) (n := 3) h (fun _ => hd) (fun _ => by decide) (by decide)
  obtain ⟨p1, p2⟩ := recs_lines h 0
  refine ⟨(((recs 0 s).take n).flatMap wire).length, ?_⟩
  have e : (cmdStatus 0 s).take (((recs 0 s).take n).flatMap wire).length = ((recs 0 s).take n).flatMap wire := by
    rw [cmdStatus_eq]
    conv => lhs; rw [← List.take_append_drop n (recs 0 s), List.flatMap_append]
    rw [List.take_append_drop]
    exact List.take_left
  rw [e, status, collect_full (fun r hr' => hr r (List.mem_of_mem_take hr'))]
  show printAll false _ = _
  rw [printAll_eq (fun r hr' => p1 r (List.mem_of_mem_take hr')), ← take_flatMap (linesOf_one h), p2, linesFor_zero]

/-! ## A line can be given back -/

/-- The part of the line of a lockspace behind `s ` is an argument that names the same lockspace, host id, path and offset. -/
theorem space_line_parses_partial {s : Space} (h : s.ok) (hn : ∀ c ∈ s.name, c ≠ 92 ∧ c ≠ 58)
    (hb : ∀ c ∈ cstr s.disk.loc.path, c ≠ 92) (hf : (Strings.esc (cstr s.disk.loc.path)).length ≤ 1024)
    (hh : s.hostId < 2 ^ 63) (ho : s.disk.loc.offset < 2 ^ 63) :
    strToLs (spaceText s) = some (s.name, s.hostId, cstr s.disk.loc.path, s.disk.loc.offset) := by
  have hp : (cstr s.disk.loc.path).length < 1024 := by
    have h1 := cstr_len s.disk.loc.path
    rw [h.disk.1] at h1
    refine Nat.lt_of_le_of_ne h1 fun he => ?_
    have hz := noZero_cstr s.disk.loc.path
    have : cstr s.disk.loc.path = s.disk.loc.path := by
      refine List.IsPrefix.eq_of_length (List.takeWhile_prefix _) ?_
      show (cstr s.disk.loc.path).length = _
      rw [he, h.disk.1]
    rw [this] at hz
    exact hz 0 h.path rfl
  have ex : Strings.pathExport 1025 (cstr s.disk.loc.path) = Strings.esc (cstr s.disk.loc.path) :=
    Strings.pathExport_eq hb (by omega)
  have rt := Strings.path_roundtrip_partial (n := 1025) (m := 1024) hb (by omega) hp
  have c1 := (Direct.cut_enc (Strings.enc_plain hn)).1 (Strings.dec s.hostId ++ Strings.COLON ::
    (Strings.esc (cstr s.disk.loc.path) ++ Strings.COLON :: Strings.dec s.disk.loc.offset))
  have c2 := (Direct.cut_enc (Strings.enc_dec s.hostId)).1
    (Strings.esc (cstr s.disk.loc.path) ++ Strings.COLON :: Strings.dec s.disk.loc.offset)
  have c3 := (Direct.cut_enc (Strings.enc_esc hb)).1 (Strings.dec s.disk.loc.offset)
  have et : spaceText s = s.name ++ Strings.COLON :: (Strings.dec s.hostId ++ Strings.COLON ::
      (Strings.esc (cstr s.disk.loc.path) ++ Strings.COLON :: Strings.dec s.disk.loc.offset)) := by
    rw [spaceText, locLine, ex]
    simp [Strings.COLON]
  unfold strToLs
  rw [et, c1]
  simp only [Option.map_some, Option.getD_some, c2, c3]
  rw [ex] at rt
  rw [rt, Direct.atoll_dec hh, Direct.atoll_dec ho, List.take_of_length_le h.name]
  rfl

/-- What of a lease is in its line. -/
def asRes (l : Lease) : Strings.Res :=
  ⟨cstr l.r.lname, cstr l.r.rname, l.lver, true, decide (l.r.flags / 4 % 2 = 1), l.disks.map fun d => ⟨cstr d.loc.path, d.loc.offset⟩⟩

theorem locLines_tail {ds : List DiskArg} (h : ∀ d ∈ ds, Strings.DiskOk ⟨cstr d.loc.path, d.loc.offset⟩) :
    ds.flatMap (fun d => locLine d.loc) = Strings.tailC (Strings.diskEncs (ds.map fun d => ⟨cstr d.loc.path, d.loc.offset⟩)) := by
  induction ds with
  | nil => rfl
  | cons d ds ih =>
    have hd := h d (List.mem_cons_self ..)
    have hf := hd.fits
    unfold Strings.PATH_LEN at hf
    rw [List.flatMap_cons, ih (fun x hx => h x (List.mem_cons_of_mem _ hx)), List.map_cons, Strings.diskEncs, locLine,
      Strings.pathExport_eq hd.noBs (by omega)]
    simp [Strings.tailC, Strings.COLON]

/-- The part of the line of a lease between `r ` and the process is an argument that names the same lockspace, resource and disks, and the
version of the lease, or that it is shared. -/
theorem lease_line_parses_partial {l : Lease} (ok : Strings.ResOk (asRes l)) :
    Strings.strToRes (leaseText l) = some (some (Strings.image (asRes l))) := by
  have hd : ∀ d ∈ l.disks, Strings.DiskOk ⟨cstr d.loc.path, d.loc.offset⟩ := fun d hd =>
    ok.disks _ (List.mem_map.2 ⟨d, hd, rfl⟩)
  obtain ⟨l1, l2, l3⟩ := Strings.lastSub_bounds ok.lver
  have e : leaseText l = cstr l.r.lname ++ Strings.tailC (cstr l.r.rname :: (Strings.diskEncs (asRes l).disks ++ [Strings.lastSub (asRes l)])) := by
    have hs : (if l.r.flags / 4 % 2 = 1 then b! "SH" else Strings.dec l.lver) = Strings.lastSub (asRes l) := by
      by_cases hx : l.r.flags / 4 % 2 = 1 <;> simp [Strings.lastSub, asRes, hx]
    rw [leaseText, locLines_tail hd, hs, Strings.tailC, Strings.tailC_append]
    simp [Strings.tailC, Strings.COLON, asRes]
  rw [e]
  refine Strings.strToRes_encs ok (Strings.enc_plain ok.space.chars) ?_
  refine .cons (Strings.enc_plain ok.name.chars) ?_ ((Strings.diskEncs_ok ok.disks).append (.cons l3 (by unfold Strings.PATH_LEN; omega) .nil))
  have := ok.name.term
  unfold Strings.NAME_LEN at this
  unfold Strings.PATH_LEN
  show (asRes l).name.length ≤ _
  omega

/-! ## Details -/

/-- `key=value` of each key. -/
def kvs (vals : Nat → Int) : Nat → List (Str × Fmt) → List Str
  | _, [] => []
  | i, (k, f) :: ks => (k ++ 61 :: fmt f (vals i)) :: kvs vals (i + 1) ks

/-- A line of its own for the first word and for each key. -/
def detail (first : Str) (keys : List (Str × Fmt)) (vals : Nat → Int) : List Str :=
  (first :: kvs vals 0 keys).map fun p => b! "    " ++ p

/-- The values fit into 64 bits. -/
def small (vals : Nat → Int) : Prop := ∀ i, (vals i).natAbs < 2 ^ 64

def noBlank (s : Str) : Prop := ∀ c ∈ s, c ≠ 32

theorem pieces_word {a : Str} (h : noBlank a) : ∀ {cur rest : Str}, pieces cur (a ++ rest) = pieces (cur ++ a) rest := by
  induction a with
  | nil => intro cur rest; simp
  | cons c a ih =>
    intro cur rest
    rw [List.cons_append, pieces, if_neg (h c (List.mem_cons_self ..)), ih (fun x hx => h x (List.mem_cons_of_mem _ hx)), List.append_assoc]
    rfl

theorem pieces_pairs {vals : Nat → Int} : ∀ {ks : List (Str × Fmt)} {i : Nat} {cur : Str}, (∀ k ∈ ks, noBlank k.1) →
    pieces cur (pairs vals i ks) = cur :: kvs vals i ks := by
  intro ks
  induction ks with
  | nil => intro i cur _; rfl
  | cons k ks ih =>
    intro i cur h
    obtain ⟨k, f⟩ := k
    have hk : noBlank k := h (k, f) (List.mem_cons_self ..)
    have hw : noBlank (k ++ 61 :: fmt f (vals i)) := fun c hc => by
      rcases List.mem_append.1 hc with hc | hc
      · exact hk c hc
      · rcases List.mem_cons.1 hc with rfl | hc
        · decide
        · exact (fmt_ne_zero hc).2
    have e : k ++ 61 :: (fmt f (vals i) ++ pairs vals (i + 1) ks) = (k ++ 61 :: fmt f (vals i)) ++ pairs vals (i + 1) ks := by simp
    rw [pairs, pieces, if_pos rfl, e, pieces_word hw, List.nil_append, ih (fun x hx => h x (List.mem_cons_of_mem _ hx)), kvs]

theorem hexLoop_len : ∀ {k n : Nat}, (hexLoop k n).length ≤ k := by
  intro k
  induction k with
  | zero => intro n; simp [hexLoop]
  | succ k ih =>
    intro n
    rw [hexLoop]
    split
    · simp
    · have := @ih (n / 16)
      simp only [List.length_append, List.length_singleton]; omega

theorem fmt_len {f : Fmt} {v : Int} (h : v.natAbs < 2 ^ 64) : (fmt f v).length ≤ 21 := by
  have hd : (Strings.dec v.natAbs).length ≤ 20 := Strings.dec_length (k := 19) (Nat.lt_of_lt_of_le h (by decide))
  cases f with
  | d => unfold fmt; simp only; split <;> (try rw [List.length_cons]) <;> omega
  | u => exact Nat.le_succ_of_le hd
  | x =>
    have := @hexLoop_len 16 v.natAbs
    show (hexLoop 16 v.natAbs).length ≤ 21
    omega

def keysLen : List (Str × Fmt) → Nat
  | [] => 0
  | k :: ks => k.1.length + 23 + keysLen ks

theorem pairs_len {vals : Nat → Int} (h : small vals) : ∀ {ks : List (Str × Fmt)} {i : Nat}, (pairs vals i ks).length ≤ keysLen ks := by
  intro ks
  induction ks with
  | nil => intro i; exact Nat.le_refl _
  | cons k ks ih =>
    intro i
    obtain ⟨k, f⟩ := k
    have := @ih (i + 1)
    have hf := fmt_len (f := f) (h i)
    simp only [pairs, keysLen, List.length_cons, List.length_append]
    omega

theorem fit_eq {s : Str} (h : s.length ≤ 4094) : fit s = s := List.take_of_length_le h

theorem kvs_noZero {vals : Nat → Int} : ∀ {ks : List (Str × Fmt)} {i : Nat}, (∀ k ∈ ks, noZero k.1) → ∀ p ∈ kvs vals i ks, noZero p := by
  intro ks
  induction ks with
  | nil => intro i _ p hp; cases hp
  | cons k ks ih =>
    intro i h p hp
    obtain ⟨k, f⟩ := k
    rcases List.mem_cons.1 hp with rfl | hp
    · intro c hc
      rcases List.mem_append.1 hc with hc | hc
      · exact h (k, f) (List.mem_cons_self ..) c hc
      · rcases List.mem_cons.1 hc with rfl | hc
        · decide
        · exact (fmt_ne_zero hc).1
    · exact ih (fun x hx => h x (List.mem_cons_of_mem _ hx)) p hp

/-- The details of a text made of a first word and keys. -/
theorem printDebug_keys {r : Rec} {first : Str} {ks : List (Str × Fmt)} {vals : Nat → Int} (h1 : r.st.strLen = (fit (first ++ pairs vals 0 ks)).length + 1)
    (h2 : r.str = fit (first ++ pairs vals 0 ks) ++ [0]) (hl : first.length + keysLen ks ≤ 4094) (hv : small vals)
    (hb : noBlank first) (hz : noZero first) (kb : ∀ k ∈ ks, noBlank k.1) (kz : ∀ k ∈ ks, noZero k.1) :
    printDebug r true = detail first ks vals := by
  have hp := pairs_len hv (ks := ks) (i := 0)
  rw [fit_eq (by simp only [List.length_append]; omega)] at h1 h2
  unfold printDebug
  rw [if_neg (by simp [h1]), h1, h2, Nat.add_sub_cancel, List.take_left, pieces_word hb, List.nil_append, pieces_pairs kb, detail]
  refine List.map_congr_left fun p hp => ?_
  rw [cstr_none]
  rcases List.mem_cons.1 hp with rfl | hp
  · exact hz
  · exact kvs_noZero kz p hp

theorem spaceKeys_b : ∀ k ∈ spaceKeys, noBlank k.1 := by unfold noBlank; decide +kernel
theorem resKeys_b : ∀ k ∈ resKeys, noBlank k.1 := by unfold noBlank; decide +kernel
theorem clientKeys_b : ∀ k ∈ clientKeys, noBlank k.1 := by unfold noBlank; decide +kernel

theorem noBlank_list {list : Str} (hl : ListOk list) : noBlank (b! "list=" ++ list) := by
  simp only [ListOk, List.mem_cons, List.not_mem_nil, or_false] at hl
  rcases hl with rfl | rfl | rfl | rfl | rfl <;> (unfold noBlank; decide)

theorem list_len {list : Str} (hl : ListOk list) : list.length ≤ 6 := by
  simp only [ListOk, List.mem_cons, List.not_mem_nil, or_false] at hl
  rcases hl with rfl | rfl | rfl | rfl | rfl <;> decide

theorem noZero_listEq {list : Str} (hl : ListOk list) : noZero (b! "list=" ++ list) :=
  noZero_append (by unfold noZero; decide) (noZero_list hl)

theorem debug_space {list : Str} (hl : ListOk list) {s : Space} (hv : small s.vals) :
    printDebug (spaceRec list s) true = detail (b! "list=" ++ list) spaceKeys s.vals := by
  have e : listText list spaceKeys s.vals = fit ((b! "list=" ++ list) ++ pairs s.vals 0 spaceKeys) := by
    rw [listText, List.append_assoc]
  have hk : keysLen spaceKeys ≤ 4000 := by decide +kernel
  have := list_len hl
  exact printDebug_keys (show _ + 1 = _ by rw [e]) (show _ ++ _ = _ by rw [e]) (by simp only [List.length_append, List.length_cons, List.length_nil]; omega)
    hv (noBlank_list hl) (noZero_listEq hl) spaceKeys_b spaceKeys_z

theorem debug_lease {list : Str} (hl : ListOk list) {l : Lease} {pid : Int} {t : Nat} (hv : small l.vals) (ht : t < 2 ^ 64) :
    printDebug (leaseRec list l pid t) true = detail (b! "list=" ++ list) resKeys (fun i => if i = 6 then t else l.vals i) := by
  have e : listText list resKeys (fun i => if i = 6 then t else l.vals i) =
      fit ((b! "list=" ++ list) ++ pairs (fun i => if i = 6 then t else l.vals i) 0 resKeys) := by
    rw [listText, List.append_assoc]
  have hk : keysLen resKeys ≤ 4000 := by decide +kernel
  have := list_len hl
  refine printDebug_keys (show _ + 1 = _ by rw [e]) (show _ ++ _ = _ by rw [e]) (by simp only [List.length_append, List.length_cons, List.length_nil]; omega)
    (fun i => ?_) (noBlank_list hl) (noZero_listEq hl) resKeys_b resKeys_z
  show (if i = 6 then (t : Int) else l.vals i).natAbs < _
  split
  · simpa using ht
  · exact hv i

theorem debug_conn {i : Nat} {c : Conn} (hv : small c.vals) (hi : i < 2 ^ 64) :
    printDebug ⟨⟨2, 0, u32 c.pid, 0, strncpy c.name, (clientText i c.vals).length + 1⟩, clientText i c.vals ++ [0], []⟩ true =
      detail (b! "ci=" ++ Strings.dec i) clientKeys c.vals := by
  have e : clientText i c.vals = fit ((b! "ci=" ++ Strings.dec i) ++ pairs c.vals 0 clientKeys) := by
    rw [clientText, List.append_assoc]
  have hk : keysLen clientKeys ≤ 4000 := by decide +kernel
  have hd : (Strings.dec i).length ≤ 20 := Strings.dec_length (k := 19) (Nat.lt_of_lt_of_le hi (by decide))
  have hb : ∀ x ∈ Strings.dec i, x ≠ 0 ∧ x ≠ 32 := fun x hx => ⟨fun h0 => dec_ne (n := i) (x := x) (by rw [h0]; decide) hx,
    fun h0 => dec_ne (n := i) (x := x) (by rw [h0]; decide) hx⟩
  exact printDebug_keys (show _ + 1 = _ by rw [e]) (show _ ++ _ = _ by rw [e]) (by simp only [List.length_append, List.length_cons, List.length_nil]; omega)
    hv (fun c hc => by
      rcases List.mem_append.1 hc with hc | hc
      · exact (show ∀ c ∈ b! "ci=", c ≠ 32 by decide) c hc
      · exact (hb c hc).2)
    (noZero_append (by unfold noZero; decide) fun c hc => (hb c hc).1) clientKeys_b clientKeys_z

/-- Words with blanks between them. -/
def joined : List Str → Str
  | [] => []
  | [w] => w
  | w :: ws => w ++ 32 :: joined ws

theorem pieces_joined : ∀ {ws : List Str}, (∀ w ∈ ws, noBlank w) → ws ≠ [] → pieces [] (joined ws) = ws := by
  intro ws
  induction ws with
  | nil => intro _ h; exact absurd rfl h
  | cons w ws ih =>
    intro h _
    have hw := h w (List.mem_cons_self ..)
    cases ws with
    | nil =>
      have := pieces_word hw (cur := []) (rest := [])
      rw [List.append_nil] at this
      rw [joined, this]
      rfl
    | cons v ws =>
      rw [joined, pieces_word hw, pieces, if_pos rfl, ih (fun x hx => h x (List.mem_cons_of_mem _ hx)) (List.cons_ne_nil _ _)]
      rfl
      exact fun h => by cases h

theorem debug_daemon {s : Snap} {ws : List Str} (hw : ∀ w ∈ ws, noBlank w ∧ noZero w) (hne : ws ≠ []) (e : s.daemonText = joined ws)
    (hl : s.daemonText.length ≤ 4094) : printDebug (daemonRec s) true = ws.map fun w => b! "    " ++ w := by
  unfold printDebug
  rw [if_neg (by simp [daemonRec])]
  show (pieces [] ((fit s.daemonText ++ [0]).take ((fit s.daemonText).length + 1 - 1))).map _ = _
  rw [Nat.add_sub_cancel, List.take_left, fit_eq hl, e, pieces_joined (fun w h => (hw w h).1) hne]
  refine List.map_congr_left fun p hp => ?_
  rw [cstr_none (hw p hp).2]

/-- With details, the lines of a record are followed by its details. -/
theorem printRec_true {r : Rec} {l : Str} (h : printRec false r = some [l]) : printRec true r = some (l :: printDebug r true) := by
  unfold printRec at *
  by_cases h1 : r.st.type = 1
  · rw [if_pos h1] at h ⊢
    rw [printDaemon, printDebug_false] at h
    rw [printDaemon]
    injection h with h; injection h with h; rw [h]
  rw [if_neg h1] at h ⊢
  by_cases h2 : r.st.type = 2
  · rw [if_pos h2] at h ⊢
    rw [printConn, printDebug_false] at h
    rw [printConn]
    injection h with h; injection h with h; rw [h]
  rw [if_neg h2] at h ⊢
  by_cases h3 : r.st.type = 3
  · rw [if_pos h3] at h ⊢
    unfold printSpace at *
    simp only [printDebug_false] at h
    split at h
    · rename_i d a e1 e2
      simp only [e1, e2]
      injection h with h; injection h with h; rw [h]
    · cases h
  rw [if_neg h3] at h ⊢
  by_cases h4 : r.st.type = 4
  · rw [if_pos h4] at h ⊢
    unfold printLease at *
    simp only [printDebug_false] at h
    split at h
    · rename_i d a e1 e2
      simp only [e1, e2]
      injection h with h; injection h with h; rw [h]
    · cases h
  rw [if_neg h4] at h
  cases h

/-- The number that hexadecimal digits stand for. -/
def hexVal (s : Str) : Nat := s.foldl (fun a c => a * 16 + (if c.toNat < 58 then c.toNat - 48 else c.toNat - 87)) 0

theorem hexDigit_val {n : Nat} (h : n < 16) : (if (hexDigit n).toNat < 58 then (hexDigit n).toNat - 48 else (hexDigit n).toNat - 87) = n := by
  revert n
  unfold hexDigit
  decide

theorem hexLoop_val : ∀ {k n : Nat}, n < 16 ^ k → 0 < k → hexVal (hexLoop k n) = n := by
  intro k
  induction k with
  | zero => intro n _ h; exact absurd h (by decide)
  | succ k ih =>
    intro n h _
    rw [hexLoop]
    split
    · rename_i h16
      show 0 * 16 + _ = n
      rw [hexDigit_val h16]; omega
    · rename_i h16
      have hk : 0 < k := by
        rcases Nat.eq_zero_or_pos k with rfl | hk
        · simp at h; omega
        · exact hk
      have hd : n / 16 < 16 ^ k := by rw [Nat.pow_succ] at h; omega
      have := ih hd hk
      unfold hexVal at this ⊢
      rw [List.foldl_append, this, List.foldl_cons, List.foldl_nil, hexDigit_val (Nat.mod_lt _ (by decide))]
      omega

/-- A number printed in hexadecimal has its value. -/
theorem hex_value {v : Int} (h0 : 0 ≤ v) (h : v < 2 ^ 64) : (hexVal (fmt .x v) : Int) = v := by
  show (hexVal (hexLoop 16 v.natAbs) : Int) = v
  rw [hexLoop_val (by omega) (by decide)]
  omega

/-- `key=value`, with a sign, without one, and in hexadecimal. -/
def sg (k : Str) (v : Int) : Str := b! "    " ++ (k ++ 61 :: signed v)
def un (k : Str) (v : Int) : Str := b! "    " ++ (k ++ 61 :: Strings.dec v.natAbs)
def hx (k : Str) (v : Int) : Str := b! "    " ++ (k ++ 61 :: fmt .x v)

/-- The details of a connection, of a lockspace and of a lease. -/
def connShown (i : Nat) (v : Nat → Int) : List Str :=
  [b! "    ci=" ++ Strings.dec i, sg (b! "fd") (v 0), sg (b! "pid") (v 1), hx (b! "flags") (v 2), hx (b! "restricted") (v 3),
    sg (b! "cmd_active") (v 4), sg (b! "cmd_last") (v 5), sg (b! "pid_dead") (v 6), sg (b! "kill_count") (v 7), un (b! "kill_last") (v 8),
    sg (b! "suspend") (v 9), sg (b! "need_free") (v 10)]

def spaceShown (list : Str) (v : Nat → Int) : List Str :=
  [b! "    list=" ++ list, un (b! "space_id") (v 0), sg (b! "io_timeout") (v 1), sg (b! "sector_size") (v 2), sg (b! "align_size") (v 3),
    un (b! "host_generation") (v 4), sg (b! "renew_fail") (v 5), sg (b! "space_dead") (v 6), sg (b! "killing_pids") (v 7),
    un (b! "used_retries") (v 8), sg (b! "external_used") (v 9), sg (b! "used_by_orphans") (v 10), un (b! "renewal_read_extend_sec") (v 11),
    un (b! "set_max_sectors_kb") (v 12), sg (b! "corrupt_result") (v 13), sg (b! "acquire_last_result") (v 14),
    sg (b! "renewal_last_result") (v 15), un (b! "acquire_last_attempt") (v 16), un (b! "acquire_last_success") (v 17),
    un (b! "renewal_last_attempt") (v 18), un (b! "renewal_last_success") (v 19)]

def leaseShown (list : Str) (v : Nat → Int) (token : Nat) : List Str :=
  [b! "    list=" ++ list, hx (b! "flags") (v 0), sg (b! "sector_size") (v 1), sg (b! "align_size") (v 2), un (b! "lver") (v 3),
    un (b! "reused") (v 4), un (b! "res_id") (v 5), un (b! "token_id") token]

theorem connShown_eq (i : Nat) (v : Nat → Int) : detail (b! "ci=" ++ Strings.dec i) clientKeys v = connShown i v := by
  simp only [detail, clientKeys, kvs, List.map_cons, List.map_nil, fmt_signed, connShown, sg, hx, un]
  rfl

theorem spaceShown_eq (list : Str) (v : Nat → Int) : detail (b! "list=" ++ list) spaceKeys v = spaceShown list v := by
  simp only [detail, spaceKeys, kvs, List.map_cons, List.map_nil, fmt_signed, spaceShown, sg, un]
  rfl

theorem leaseShown_eq (list : Str) (v : Nat → Int) (t : Nat) :
    detail (b! "list=" ++ list) resKeys (fun i => if i = 6 then t else v i) = leaseShown list v t := by
  simp only [detail, resKeys, kvs, List.map_cons, List.map_nil, fmt_signed, leaseShown, sg, hx, un]
  rfl

/-- The lines with details: below each line what the daemon says about it, one `key=value` on a line. -/
def detailed (s : Snap) (ws : List Str) : List Str :=
  (b! "daemon " ++ s.hostName.take 48) :: ws.map (fun w => b! "    " ++ w) ++
    ((s.conns.zipIdx.filter fun c => c.1.used).flatMap (fun c => connLine c.1 :: connShown c.2 c.1.vals) ++
      (s.spaces.flatMap (fun x => spaceLine [] x :: spaceShown (b! "spaces") x.vals) ++
        (s.spacesAdd.flatMap (fun x => spaceLine (b! " ADD") x :: spaceShown (b! "add") x.vals) ++
          s.spacesRem.flatMap (fun x => spaceLine (b! " REM") x :: spaceShown (b! "rem") x.vals)) ++
        (leaseArgs s).flatMap fun x => leaseLine (mark x.1) x.2.1 x.2.2.1 :: leaseShown x.1 x.2.1.vals x.2.2.2))

theorem printAll_map {α : Type} {l : List α} {f : α → Rec} {g : α → List Str} (h : ∀ x ∈ l, printRec true (f x) = some (g x)) :
    printAll true (l.map f) = some (l.flatMap g) := by
  induction l with
  | nil => rfl
  | cons a l ih =>
    rw [List.map_cons, printAll, h a (List.mem_cons_self ..), ih (fun x hx => h x (List.mem_cons_of_mem _ hx))]
    rfl

theorem printAll_append {d : Bool} : ∀ {a b : List Rec} {x y : List Str}, printAll d a = some x → printAll d b = some y →
    printAll d (a ++ b) = some (x ++ y) := by
  intro a
  induction a with
  | nil => intro b x y h1 h2; injection h1 with h1; subst h1; exact h2
  | cons r a ih =>
    intro b x y h1 h2
    rw [printAll] at h1
    rw [List.cons_append, printAll]
    split at h1
    · rename_i u v e1 e2
      injection h1 with h1
      subst h1
      rw [e1, ih e2 h2]
      simp
    · cases h1

theorem printConns {cs : List Conn} (hz : ∀ c ∈ cs, noZero c.name) (hp : ∀ c ∈ cs, -2147483648 ≤ c.pid ∧ c.pid < 2147483648)
    (hv : ∀ c ∈ cs, small c.vals) : ∀ {i : Nat}, i + cs.length < 2 ^ 64 → printAll true (connRecs i cs) =
      some (((cs.zipIdx i).filter fun c => c.1.used).flatMap fun c => connLine c.1 :: connShown c.2 c.1.vals) := by
  induction cs with
  | nil => intro i _; rfl
  | cons c cs ih =>
    intro i hi
    have hc := printRec_true (print_conn (i := i) (hz c (List.mem_cons_self ..)) (hp c (List.mem_cons_self ..)))
    rw [debug_conn (hv c (List.mem_cons_self ..)) (by rw [List.length_cons] at hi; omega), connShown_eq] at hc
    have hr := ih (fun x hx => hz x (List.mem_cons_of_mem _ hx)) (fun x hx => hp x (List.mem_cons_of_mem _ hx))
      (fun x hx => hv x (List.mem_cons_of_mem _ hx)) (i := i + 1) (by rw [List.length_cons] at hi; omega)
    rw [connRecs, List.zipIdx_cons, List.filter_cons]
    cases hu : c.used with
    | false => exact hr
    | true =>
      simp only [if_true, List.flatMap_cons]
      refine printAll_append ?_ hr
      rw [printAll, hc]
      simp [printAll]

/-- C69, part: with details, each line is followed by everything the daemon says about it. -/
theorem status_details_partial {s : Snap} (h : s.ok) (hd : s.disksLe 3) {ws : List Str} (hw : ∀ w ∈ ws, noBlank w ∧ noZero w) (hne : ws ≠ [])
    (hj : s.daemonText = joined ws) (hl : s.daemonText.length ≤ 4094) (hc : ∀ c ∈ s.conns, small c.vals) (hn : s.conns.length < 2 ^ 64)
    (hs : ∀ x, x ∈ s.spaces ∨ x ∈ s.spacesAdd ∨ x ∈ s.spacesRem → small x.vals) (hv : ∀ x ∈ leaseArgs s, small x.2.1.vals ∧ x.2.2.2 < 2 ^ 64) :
    status true (cmdStatus 0 s) = some (detailed s ws) := by
  have hr := recs_ok (what := 0) (cap := 4096) (n := 3) h (fun _ => hd) (fun _ => by decide) (by decide)
  rw [status, cmdStatus_eq, collect_full hr]
  show printAll true _ = _
  have sp : ∀ {list : Str} (hl : ListOk list) {l : List Space}, (∀ x ∈ l, x.ok ∧ small x.vals) → printAll true (l.map (spaceRec list)) =
      some (l.flatMap fun x => spaceLine (labelOf list) x :: spaceShown list x.vals) := fun hl l hok =>
    printAll_map fun x hx => by rw [printRec_true (print_space hl (hok x hx).1), debug_space hl (hok x hx).2, spaceShown_eq]
  have dd := printRec_true (print_daemon h)
  rw [debug_daemon hw hne hj hl] at dd
  have d1 : printAll true [daemonRec s] = some ((b! "daemon " ++ s.hostName.take 48) :: ws.map (fun w => b! "    " ++ w)) := by
    rw [printAll, dd]; simp [printAll]
  rw [recs_zero, ← List.singleton_append]
  refine printAll_append d1 (printAll_append (printConns h.conns h.connPids hc (by omega)) (printAll_append (printAll_append
    (sp (listOk_of (by simp)) fun x hx => ⟨h.spaces x (Or.inl hx), hs x (Or.inl hx)⟩)
    (printAll_append (sp (listOk_of (by simp)) fun x hx => ⟨h.spaces x (Or.inr (Or.inl hx)), hs x (Or.inr (Or.inl hx))⟩)
      (sp (listOk_of (by simp)) fun x hx => ⟨h.spaces x (Or.inr (Or.inr hx)), hs x (Or.inr (Or.inr hx))⟩))) ?_))
  rw [leaseRecs_args]
  refine printAll_map fun x hx' => ?_
  rw [printRec_true (print_lease' h hx')]
  exact congrArg some (congrArg _ ((debug_lease (leaseArgs_mem hx').1 (hv x hx').1 (hv x hx').2).trans (leaseShown_eq ..)))

end Sanlock.Status
