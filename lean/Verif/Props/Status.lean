import Verif.Lemmas.StatusSort
import Verif.Log

/-!
# C69: the status commands show what the daemon has
-/

namespace Sanlock.Status

open OnDisk OneShot

/-! ## The lines for what is in the daemon -/

/-- A path and an offset as text; blanks and colons of the path are preceded by a backslash. -/
def locLine (l : Loc) : Str := 58 :: (Strings.pathExport 1025 (cstr l.path) ++ 58 :: Strings.dec l.offset)

/-- A number with a minus sign if it is negative. -/
def signed (v : Int) : Str := if 0 ≤ v then Strings.dec v.toNat else 45 :: Strings.dec (-v).toNat

theorem fmt_signed (v : Int) : fmt .d v = signed v := by
  show (if v < 0 then 45 :: Strings.dec v.natAbs else Strings.dec v.natAbs) = if 0 ≤ v then Strings.dec v.toNat else 45 :: Strings.dec (-v).toNat
  by_cases h : 0 ≤ v
  · rw [if_neg (by omega), if_pos h, show v.natAbs = v.toNat by omega]
  · rw [if_pos (by omega), if_neg h, show v.natAbs = (-v).toNat by omega]

/-- `p PID NAME`. -/
def connLine (c : Conn) : Str := b! "p " ++ (signed c.pid ++ 32 :: c.name.take 48)

/-- `s NAME:HOST_ID:PATH:OFFSET`, and a word for a lockspace that is being joined or left. -/
def spaceText (s : Space) : Str := s.name ++ 58 :: (Strings.dec s.hostId ++ locLine s.disk.loc)

def spaceLine (mark : Str) (s : Space) : Str := b! "s " ++ (spaceText s ++ mark)

/-- `r LOCKSPACE:NAME:PATH:OFFSET[:PATH:OFFSET ...]:VERSION p PID`; for a shared lease `SH` instead of the version. -/
def leaseText (l : Lease) : Str :=
  cstr l.r.lname ++ 58 :: (cstr l.r.rname ++ (l.disks.flatMap (fun d => locLine d.loc) ++
    58 :: (if l.r.flags / 4 % 2 = 1 then b! "SH" else Strings.dec l.lver)))

def leaseLine (mark : Str) (l : Lease) (pid : Int) : Str := b! "r " ++ (leaseText l ++ (b! " p " ++ (Strings.dec pid.toNat ++ mark)))

/-- The word behind a lease for the list it is on. -/
def mark (list : Str) : Str :=
  if list = b! "add" then b! " ADD" else if list = b! "rem" then b! " REM" else if list = b! "orphan" then b! " ORPHAN" else []

def connLines (s : Snap) : List Str := (s.conns.filter fun c => c.used).map connLine

def spaceLines (s : Snap) : List Str :=
  s.spaces.map (spaceLine []) ++ (s.spacesAdd.map (spaceLine (b! " ADD")) ++ s.spacesRem.map (spaceLine (b! " REM")))

def leaseLines (s : Snap) : List Str := (leases s).map fun x => leaseLine (mark x.1) x.2.1 x.2.2

/-- One line for the daemon, for each connection in use, for each lockspace, and for each process with a lease. -/
def lines (s : Snap) : List Str :=
  (b! "daemon " ++ s.hostName.take 48) :: (connLines s ++ (spaceLines s ++ leaseLines s))

/-! ## Printing a record -/

theorem printDebug_false (r : Rec) : printDebug r false = [] := by
  unfold printDebug
  rw [if_pos (Or.inr rfl)]

/-- The lines of a record without details. -/
def linesOf (r : Rec) : List Str := (printRec false r).getD []

theorem print_daemon {s : Snap} (h : s.ok) : printRec false (daemonRec s) = some [b! "daemon " ++ s.hostName.take 48] := by
  show printDaemon _ false = _
  rw [printDaemon, printDebug_false]
  show some [b! "daemon " ++ cstr (strncpy s.hostName)] = _
  rw [cstr_strncpy h.hostName]

theorem asInt_u32 {p : Int} (h : -2147483648 ≤ p ∧ p < 2147483648) : asInt (u32 p) = p := by
  unfold asInt u32
  rw [Int.toNat_of_nonneg (by omega)]
  rw [Int.bmod_def]
  split <;> omega

theorem u32_nat {p : Int} (h : 0 ≤ p ∧ p < 2147483648) : u32 p = p.toNat := by
  unfold u32; omega

theorem print_conn {i : Nat} {c : Conn} (hz : noZero c.name) (hp : -2147483648 ≤ c.pid ∧ c.pid < 2147483648) :
    printRec false ⟨⟨2, 0, u32 c.pid, 0, strncpy c.name, (clientText i c.vals).length + 1⟩, clientText i c.vals ++ [0], []⟩ =
      some [connLine c] := by
  show printConn _ false = _
  rw [printConn, printDebug_false]
  show some [b! "p " ++ (fmt .d (asInt (u32 c.pid)) ++ 32 :: cstr (strncpy c.name))] = _
  rw [asInt_u32 hp, cstr_strncpy hz, fmt_signed]
  rfl

theorem diskText_eq {d : DiskArg} (h : d.ok) (hz : 0 ∈ d.loc.path) : diskText d.loc = some (locLine d.loc) := by
  unfold diskText
  rw [cstrIn_path h.1 hz]
  rfl

theorem spaceKeys_ne : spaceKeys ≠ [] := List.cons_ne_nil _ _
theorem resKeys_ne : resKeys ≠ [] := List.cons_ne_nil _ _

theorem print_space {list : Str} (hl : ListOk list) {s : Space} (h : s.ok) :
    printRec false (spaceRec list s) = some [spaceLine (labelOf list) s] := by
  have hlab : label (spaceRec list s) = some (labelOf list) :=
    label_list hl spaceKeys_ok spaceKeys_z spaceKeys_ne rfl rfl
  have hls : lsOf (spaceRec list s).bin = ⟨strncpy s.name, s.hostId, 0, s.disk.loc⟩ :=
    lsOf_bytes ⟨strncpy_len _, h.hostId, by show 0 < _; decide, h.disk⟩
  show printSpace (spaceRec list s) false = _
  unfold printSpace
  rw [hls, hlab]
  simp only [diskText_eq h.disk h.path, printDebug_false, cstr_strncpy h.nameZ, List.take_of_length_le h.name]
  simp [spaceLine, spaceText]

theorem disksText_eq {l : List DiskArg} (h : ∀ d ∈ l, d.ok ∧ 0 ∈ d.loc.path) :
    disksText l.length (l.flatMap DiskArg.bytes) = some (l.flatMap fun d => locLine d.loc) := by
  induction l with
  | nil => rfl
  | cons d l ih =>
    obtain ⟨h1, h2⟩ := h d (List.mem_cons_self ..)
    rw [List.length_cons, disksText, List.flatMap_cons, tk (disk_len h1), dp (disk_len h1), locOf_bytes h1, diskText_eq h1 h2,
      ih (fun x hx => h x (List.mem_cons_of_mem _ hx))]
    rfl

theorem print_lease {list : Str} (hl : ListOk list) {l : Lease} (h : l.ok) {pid : Int} (hp : 0 ≤ pid ∧ pid < 2147483648) {t : Nat} :
    printRec false (leaseRec list l pid t) = some [leaseLine (labelOf list) l pid] := by
  have hlab : label (leaseRec list l pid t) = some (labelOf list) :=
    label_list hl resKeys_ok resKeys_z resKeys_ne rfl rfl
  have hr : resOf ((leaseRec list l pid t).bin.take 128) = l.r := by
    show resOf ((l.r.bytes ++ _).take 128) = _
    rw [tk (res_len h.r), resOf_bytes h.r]
  have hd : (leaseRec list l pid t).bin.drop 128 = l.disks.flatMap DiskArg.bytes := by
    show (l.r.bytes ++ _).drop 128 = _
    rw [dp (res_len h.r), List.take_of_length_le (by rw [h.num]; exact Nat.le_refl _)]
  show printLease (leaseRec list l pid t) false = _
  unfold printLease
  rw [hr, hd, hlab]
  simp only [← h.num, disksText_eq h.disks, printDebug_false]
  show some [_ ++ (_ ++ _ :: (_ ++ (_ ++ _ :: ((if shared l.r.flags then _ else Strings.dec l.lver) ++ (_ ++ (Strings.dec (u32 pid) ++ _))))))] = _
  rw [u32_nat hp]
  have hs : (if shared l.r.flags then b! "SH" else Strings.dec l.lver) = if l.r.flags / 4 % 2 = 1 then b! "SH" else Strings.dec l.lver := by
    by_cases hx : l.r.flags / 4 % 2 = 1
    · rw [if_pos hx, if_pos (show shared l.r.flags = true from decide_eq_true hx)]
    · rw [if_neg hx, if_neg (show ¬shared l.r.flags = true from fun h => hx (of_decide_eq_true h))]
  rw [hs]
  simp [leaseLine, leaseText]

theorem printAll_eq {rs : List Rec} (h : ∀ r ∈ rs, ∃ l, printRec false r = some l) : printAll false rs = some (rs.flatMap linesOf) := by
  induction rs with
  | nil => rfl
  | cons r rs ih =>
    obtain ⟨l, hl⟩ := h r (List.mem_cons_self ..)
    rw [printAll, hl, ih (fun x hx => h x (List.mem_cons_of_mem _ hx)), List.flatMap_cons, linesOf, hl]
    rfl

theorem listOk_of {l : Str} (h : l ∈ [b! "spaces", b! "held", b! "add", b! "rem", b! "orphan"]) : ListOk l := h

theorem connRecs_lines {cs : List Conn} (hz : ∀ c ∈ cs, noZero c.name) (hp : ∀ c ∈ cs, -2147483648 ≤ c.pid ∧ c.pid < 2147483648) :
    ∀ i, (∀ r ∈ connRecs i cs, ∃ l, printRec false r = some l) ∧
      (connRecs i cs).flatMap linesOf = (cs.filter fun c => c.used).map connLine := by
  induction cs with
  | nil => intro i; exact ⟨fun r hr => absurd hr List.not_mem_nil, rfl⟩
  | cons c cs ih =>
    intro i
    obtain ⟨i1, i2⟩ := ih (fun x hx => hz x (List.mem_cons_of_mem _ hx)) (fun x hx => hp x (List.mem_cons_of_mem _ hx)) (i + 1)
    have hc := print_conn (i := i) (hz c (List.mem_cons_self ..)) (hp c (List.mem_cons_self ..))
    cases hu : c.used with
    | false =>
      simp only [connRecs, hu, Bool.false_eq_true, if_false, List.nil_append, List.filter_cons]
      exact ⟨i1, i2⟩
    | true =>
      simp only [connRecs, hu, if_true, List.filter_cons]
      refine ⟨fun r hr => ?_, ?_⟩
      · rcases List.mem_append.1 hr with hr | hr
        · rw [List.mem_singleton] at hr
          subst hr
          exact ⟨_, hc⟩
        · exact i1 r hr
      · rw [List.flatMap_append, i2, List.flatMap_cons, List.flatMap_nil, linesOf, hc]
        rfl

theorem map_lines {α : Type} {l : List α} {f : α → Rec} {g : α → Str} (h : ∀ x ∈ l, printRec false (f x) = some [g x]) :
    (l.map f).flatMap linesOf = l.map g := by
  induction l with
  | nil => rfl
  | cons a l ih =>
    rw [List.map_cons, List.flatMap_cons, List.map_cons, ih (fun x hx => h x (List.mem_cons_of_mem _ hx)), linesOf,
      h a (List.mem_cons_self ..)]
    rfl

theorem spaceRecs_lines {s : Snap} (h : s.ok) : (∀ r ∈ spaceRecs s, ∃ l, printRec false r = some [l]) ∧
    (spaceRecs s).flatMap linesOf = spaceLines s := by
  have p1 : ∀ x ∈ s.spaces, printRec false (spaceRec (b! "spaces") x) = some [spaceLine [] x] := fun x hx =>
    print_space (listOk_of (by decide)) (h.spaces x (Or.inl hx))
  have p2 : ∀ x ∈ s.spacesAdd, printRec false (spaceRec (b! "add") x) = some [spaceLine (b! " ADD") x] := fun x hx =>
    print_space (listOk_of (by decide)) (h.spaces x (Or.inr (Or.inl hx)))
  have p3 : ∀ x ∈ s.spacesRem, printRec false (spaceRec (b! "rem") x) = some [spaceLine (b! " REM") x] := fun x hx =>
    print_space (listOk_of (by decide)) (h.spaces x (Or.inr (Or.inr hx)))
  refine ⟨fun r hr => ?_, ?_⟩
  · simp only [spaceRecs, List.mem_append, List.mem_map] at hr
    rcases hr with ⟨x, hx, rfl⟩ | ⟨x, hx, rfl⟩ | ⟨x, hx, rfl⟩
    · exact ⟨_, p1 x hx⟩
    · exact ⟨_, p2 x hx⟩
    · exact ⟨_, p3 x hx⟩
  · rw [spaceRecs, List.flatMap_append, List.flatMap_append, map_lines p1, map_lines p2, map_lines p3]
    rfl

/-- The records of leases, each with the lease it is about. -/
def leaseArgs (s : Snap) : List (Str × Lease × Int × Nat) :=
  s.held.flatMap (fun l => l.tokens.map fun t => (b! "held", l, t.pid, t.id)) ++
    (s.add.flatMap (fun l => l.tokens.map fun t => (b! "add", l, t.pid, t.id)) ++
      (s.rem.map (fun l => (b! "rem", l, l.pid, 0)) ++ s.orphan.map (fun l => (b! "orphan", l, l.pid, 0))))

def leaseRec' (x : Str × Lease × Int × Nat) : Rec := leaseRec x.1 x.2.1 x.2.2.1 x.2.2.2

theorem leaseRecs_args (s : Snap) : leaseRecs s = (leaseArgs s).map leaseRec' := by
  simp only [leaseRecs, leaseArgs, List.map_append, List.map_flatMap, List.map_map]
  rfl

theorem leases_args (s : Snap) : leases s = (leaseArgs s).map fun x => (x.1, x.2.1, x.2.2.1) := by
  simp only [leases, leaseArgs, List.map_append, List.map_flatMap, List.map_map]
  rfl

theorem leaseArgs_mem {s : Snap} {x : Str × Lease × Int × Nat} (hx : x ∈ leaseArgs s) :
    ListOk x.1 ∧ (x.2.1 ∈ s.held ∨ x.2.1 ∈ s.add ∨ x.2.1 ∈ s.rem ∨ x.2.1 ∈ s.orphan) ∧ (x.1, x.2.1, x.2.2.1) ∈ leases s := by
  have hm : (x.1, x.2.1, x.2.2.1) ∈ leases s := by
    rw [leases_args]; exact List.mem_map.2 ⟨x, hx, rfl⟩
  simp only [leaseArgs, List.mem_append, List.mem_map, List.mem_flatMap] at hx
  rcases hx with ⟨l, hl, t, -, rfl⟩ | ⟨l, hl, t, -, rfl⟩ | ⟨l, hl, rfl⟩ | ⟨l, hl, rfl⟩
  · exact ⟨listOk_of (by simp), Or.inl hl, hm⟩
  · exact ⟨listOk_of (by simp), Or.inr (Or.inl hl), hm⟩
  · exact ⟨listOk_of (by simp), Or.inr (Or.inr (Or.inl hl)), hm⟩
  · exact ⟨listOk_of (by simp), Or.inr (Or.inr (Or.inr hl)), hm⟩

theorem print_lease' {s : Snap} (h : s.ok) {x : Str × Lease × Int × Nat} (hx : x ∈ leaseArgs s) :
    printRec false (leaseRec' x) = some [leaseLine (mark x.1) x.2.1 x.2.2.1] := by
  obtain ⟨h1, h2, h3⟩ := leaseArgs_mem hx
  exact print_lease h1 (h.leases _ h2) (h.pids _ h3)

theorem leaseRecs_lines {s : Snap} (h : s.ok) : (∀ r ∈ leaseRecs s, ∃ l, printRec false r = some [l]) ∧
    (leaseRecs s).flatMap linesOf = leaseLines s := by
  rw [leaseRecs_args]
  refine ⟨fun r hr => ?_, ?_⟩
  · obtain ⟨x, hx, rfl⟩ := List.mem_map.1 hr
    exact ⟨_, print_lease' h hx⟩
  · rw [map_lines (g := fun x => leaseLine (mark x.1) x.2.1 x.2.2.1) (fun x hx => print_lease' h hx), leaseLines, leases_args, List.map_map]
    rfl

/-- The lines shown if less is asked for. -/
def linesFor (what : Nat) (s : Snap) : List Str :=
  (b! "daemon " ++ s.hostName.take 48) :: if what = 1 then [] else connLines s ++
    if what = 2 then [] else spaceLines s ++ if what = 3 then [] else leaseLines s

theorem recs_lines {s : Snap} (h : s.ok) (what : Nat) : (∀ r ∈ recs what s, ∃ l, printRec false r = some l) ∧
    (recs what s).flatMap linesOf = linesFor what s := by
  obtain ⟨c1, c2⟩ := connRecs_lines h.conns h.connPids 0
  obtain ⟨s1, s2⟩ := spaceRecs_lines h
  obtain ⟨l1, l2⟩ := leaseRecs_lines h
  refine ⟨fun r hr => ?_, ?_⟩
  · rw [recs, List.mem_cons] at hr
    rcases hr with rfl | hr
    · exact ⟨_, print_daemon h⟩
    · split at hr
      · cases hr
      · rcases List.mem_append.1 hr with hr | hr
        · exact c1 r hr
        · split at hr
          · cases hr
          · rcases List.mem_append.1 hr with hr | hr
            · obtain ⟨l, hl⟩ := s1 r hr
              exact ⟨_, hl⟩
            · split at hr
              · cases hr
              · obtain ⟨l, hl⟩ := l1 r hr
                exact ⟨_, hl⟩
  · rw [recs, linesFor, List.flatMap_cons, linesOf, print_daemon h]
    show [_] ++ _ = _
    rw [List.singleton_append]
    congr 1
    split
    · rfl
    · rw [List.flatMap_append, c2]
      congr 1
      split
      · rfl
      · rw [List.flatMap_append, s2]
        congr 1
        split
        · rfl
        · exact l2

/-! ## Without sorting -/

/-- C69, part: the status command prints one line for the daemon, one for each connection in use, one for each lockspace with the word
for its list, and one for each process with a lease, in this order, and nothing else; so does each part of it that can be asked for.
Missing: leases on more than three disks, see `status_disks_violated`. -/
theorem status_lines_partial {s : Snap} (h : s.ok) (what : Nat) (hd : what ≠ 3 → s.disksLe 3) :
    status false (cmdStatus what s) = some (linesFor what s) := by
  have hr := recs_ok (cap := 4096) (n := 3) h hd (fun _ => by decide) (by decide)
  obtain ⟨p1, p2⟩ := recs_lines h what
  rw [status, cmdStatus_eq, collect_full hr]
  show printAll false _ = _
  rw [printAll_eq p1, p2]

theorem linesFor_zero (s : Snap) : linesFor 0 s = lines s := rfl

/-! ## With sorting -/

theorem connRecs_mem {cs : List Conn} : ∀ {i : Nat} {r : Rec}, r ∈ connRecs i cs → ∃ c ∈ cs, ∃ j, c.used = true ∧
    r = ⟨⟨2, 0, u32 c.pid, 0, strncpy c.name, (clientText j c.vals).length + 1⟩, clientText j c.vals ++ [0], []⟩ := by
  induction cs with
  | nil => intro i r hr; cases hr
  | cons c cs ih =>
    intro i r hr
    rw [connRecs, List.mem_append] at hr
    rcases hr with hr | hr
    · split at hr
      · rename_i hu
        exact ⟨c, List.mem_cons_self .., i, hu, List.mem_singleton.1 hr⟩
      · cases hr
    · obtain ⟨c', hc', x⟩ := ih hr
      exact ⟨c', List.mem_cons_of_mem _ hc', x⟩

theorem mem_connRecs {cs : List Conn} {c : Conn} (hc : c ∈ cs) (hu : c.used = true) : ∀ i, ∃ j,
    (⟨⟨2, 0, u32 c.pid, 0, strncpy c.name, (clientText j c.vals).length + 1⟩, clientText j c.vals ++ [0], []⟩ : Rec) ∈ connRecs i cs := by
  induction cs with
  | nil => cases hc
  | cons a cs ih =>
    intro i
    rcases List.mem_cons.1 hc with rfl | hc
    · refine ⟨i, ?_⟩
      rw [connRecs, if_pos hu]
      exact List.mem_append_left _ (List.mem_singleton.2 rfl)
    · obtain ⟨j, hj⟩ := ih hc (i + 1)
      refine ⟨j, ?_⟩
      rw [connRecs]
      exact List.mem_append_right _ hj

theorem spaceRecs_mem {s : Snap} {r : Rec} (hr : r ∈ spaceRecs s) : ∃ l x, ListOk l ∧ r = spaceRec l x ∧
    ((x ∈ s.spaces ∧ l = b! "spaces") ∨ (x ∈ s.spacesAdd ∧ l = b! "add") ∨ (x ∈ s.spacesRem ∧ l = b! "rem")) := by
  simp only [spaceRecs, List.mem_append, List.mem_map] at hr
  rcases hr with ⟨x, hx, rfl⟩ | ⟨x, hx, rfl⟩ | ⟨x, hx, rfl⟩
  · exact ⟨_, x, listOk_of (by simp), rfl, Or.inl ⟨hx, rfl⟩⟩
  · exact ⟨_, x, listOk_of (by simp), rfl, Or.inr (Or.inl ⟨hx, rfl⟩)⟩
  · exact ⟨_, x, listOk_of (by simp), rfl, Or.inr (Or.inr ⟨hx, rfl⟩)⟩

theorem mem_spaceRecs {s : Snap} {x : Space} (hx : x ∈ s.spaces ∨ x ∈ s.spacesAdd ∨ x ∈ s.spacesRem) :
    ∃ l, spaceRec l x ∈ spaceRecs s := by
  simp only [spaceRecs, List.mem_append, List.mem_map]
  rcases hx with hx | hx | hx
  · exact ⟨_, Or.inl ⟨x, hx, rfl⟩⟩
  · exact ⟨_, Or.inr (Or.inl ⟨x, hx, rfl⟩)⟩
  · exact ⟨_, Or.inr (Or.inr ⟨x, hx, rfl⟩)⟩

theorem recs_zero (s : Snap) : recs 0 s = daemonRec s :: (connRecs 0 s.conns ++ (spaceRecs s ++ leaseRecs s)) := rfl

theorem conn_type {cs : List Conn} {i : Nat} {r : Rec} (h : r ∈ connRecs i cs) : r.st.type = 2 := by
  obtain ⟨c, -, j, -, rfl⟩ := connRecs_mem h; rfl

theorem space_type {s : Snap} {r : Rec} (h : r ∈ spaceRecs s) : r.st.type = 3 := by
  obtain ⟨l, x, -, rfl, -⟩ := spaceRecs_mem h; rfl

theorem lease_type {s : Snap} {r : Rec} (h : r ∈ leaseRecs s) : r.st.type = 4 := by
  rw [leaseRecs_args] at h
  obtain ⟨x, -, rfl⟩ := List.mem_map.1 h; rfl

theorem filter_none {α : Type} {l : List α} {p : α → Bool} (h : ∀ x ∈ l, p x = false) : l.filter p = [] :=
  List.filter_eq_nil_iff.2 fun x hx => by simp [h x hx]

/-- The heads of the groups are the connections with a process, or the lockspaces. -/
theorem heads_eq (byPid : Bool) (s : Snap) : ((rest3 byPid (recs 0 s)).filter fun r => r.st.type = head byPid) =
    if byPid then (connRecs 0 s.conns).filter (fun r => !noPid r) else spaceRecs s := by
  unfold rest3
  simp only [List.filter_filter]
  rw [recs_zero, List.filter_cons, if_neg (by cases byPid <;> simp [head, daemonRec]), List.filter_append, List.filter_append,
    filter_none (l := leaseRecs s) (fun r hr => by have := lease_type hr; cases byPid <;> simp [head, this])]
  cases byPid with
  | true =>
    rw [filter_none (l := spaceRecs s) (fun r hr => by have := space_type hr; simp [head, this])]
    simp only [List.append_nil, if_true]
    refine List.filter_congr fun r hr => ?_
    have := conn_type hr
    simp [head, ofType, this]
  | false =>
    rw [filter_none (l := connRecs 0 s.conns) (fun r hr => by have := conn_type hr; simp [head, this])]
    simp only [List.append_nil, List.nil_append, Bool.false_eq_true, if_false]
    refine List.filter_eq_self.2 fun r hr => ?_
    have := space_type hr
    simp [head, ofType, noPid, this]

/-- What may belong to them are the leases. -/
theorem tails_eq (byPid : Bool) (s : Snap) : ((rest3 byPid (recs 0 s)).filter fun r => r.st.type ≠ head byPid) = leaseRecs s := by
  unfold rest3
  simp only [List.filter_filter]
  rw [recs_zero, List.filter_cons, if_neg (by simp [ofType, daemonRec]), List.filter_append, List.filter_append,
    filter_none (l := connRecs 0 s.conns) (fun r hr => by have := conn_type hr; cases byPid <;> simp [head, ofType, this]),
    filter_none (l := spaceRecs s) (fun r hr => by have := space_type hr; cases byPid <;> simp [head, ofType, this])]
  simp only [List.nil_append]
  refine List.filter_eq_self.2 fun r hr => ?_
  have := lease_type hr
  cases byPid <;> simp [head, ofType, noPid, this]

/-- The number of records is the number of lines. -/
theorem recs_count {s : Snap} (h : s.ok) : (recs 0 s).length = (lines s).length := by
  have hc : ∀ (cs : List Conn) (i : Nat), (connRecs i cs).length = ((cs.filter fun c => c.used).map connLine).length := by
    intro cs
    induction cs with
    | nil => intro i; rfl
    | cons c cs ih =>
      intro i
      rw [connRecs, List.filter_cons, List.length_append, ih]
      split <;> simp
      omega
  have hsp : (spaceRecs s).length = (spaceLines s).length := by simp [spaceRecs, spaceLines]
  have hl : (leaseRecs s).length = (leaseLines s).length := by
    rw [leaseRecs_args, leaseLines, leases_args]; simp
  rw [recs_zero, lines]
  simp only [List.length_cons, List.length_append, hc, hsp, hl]
  rfl

theorem sorted_eq {s : Snap} (h : s.ok) (hd : s.disksLe 4) (hn : (lines s).length ≤ 1024) (byPid : Bool) :
    sorted byPid false (cmdStatus 0 s) = some ((order byPid (recs 0 s)).1.flatMap linesOf ++
      (if (order byPid (recs 0 s)).2 = [] then [] else [b! "-"]) ++ (order byPid (recs 0 s)).2.flatMap linesOf) := by
  have hr := recs_ok (what := 0) (cap := 12288) (n := 4) h (fun _ => hd) (fun _ => by decide) (by decide)
  obtain ⟨p1, p2⟩ := recs_lines h 0
  have hp := order_perm byPid (recs 0 s)
  rw [← recs_count h] at hn
  unfold sorted
  rw [cmdStatus_eq, collect_wire hr, List.take_of_length_le (by omega)]
  simp only
  rw [if_neg (by omega), printAll_eq (fun r hr => p1 r (hp.mem_iff.1 (List.mem_append_left _ hr))),
    printAll_eq (fun r hr => p1 r (hp.mem_iff.1 (List.mem_append_right _ hr)))]

/-- A lease behind the head it belongs to. -/
theorem lines_under {s : Snap} {byPid : Bool} {x : Str × Lease × Int × Nat} (hx : x ∈ leaseArgs s)
    (hex : ∃ h ∈ (if byPid then (connRecs 0 s.conns).filter (fun r => !noPid r) else spaceRecs s), under byPid h (leaseRec' x) = true) :
    ∃ h u v w, (order byPid (recs 0 s)).1 = u ++ h :: (v ++ leaseRec' x :: w) ∧
      h ∈ (if byPid then (connRecs 0 s.conns).filter (fun r => !noPid r) else spaceRecs s) ∧ under byPid h (leaseRec' x) = true ∧
      ∀ y ∈ v, under byPid h y = true ∧ y ∈ leaseRecs s := by
  obtain ⟨o1, -⟩ := order_eq byPid (recs 0 s)
  rw [heads_eq, tails_eq] at o1
  have hm : leaseRec' x ∈ leaseRecs s := by rw [leaseRecs_args]; exact List.mem_map.2 ⟨x, hx, rfl⟩
  obtain ⟨h, u, v, w, e1, e2, e3, e4⟩ := groups_under _ _ _ hm hex
  rw [e1] at o1
  have hv : ∀ y ∈ v, y ∈ recs 0 s := fun y hy => by
    refine (order_perm byPid (recs 0 s)).mem_iff.1 (List.mem_append_left _ ?_)
    rw [o1]
    simp [hy]
  have hu : ∃ u', (order byPid (recs 0 s)).1 = u' ++ h :: (v ++ leaseRec' x :: w) :=
    ⟨_, o1.trans ((congrArg _ ((congrArg _ (List.append_assoc _ _ _).symm).trans (List.append_assoc _ _ _).symm)).trans (List.append_assoc _ _ _).symm)⟩
  obtain ⟨u', hu⟩ := hu
  refine ⟨h, u', v, w, hu, e2, e3, fun y hy => ⟨e4 y hy, ?_⟩⟩
  · have ht := under_type (e4 y hy)
    have hy' := hv y hy
    rw [recs_zero, List.mem_cons, List.mem_append, List.mem_append] at hy'
    rcases hy' with rfl | hy' | hy' | hy'
    · exact absurd (show (1 : Nat) = 4 from ht) (by decide)
    · rw [conn_type hy'] at ht; exact absurd ht (by decide)
    · rw [space_type hy'] at ht; exact absurd ht (by decide)
    · exact hy'

theorem linesOf_lease {s : Snap} (h : s.ok) {x : Str × Lease × Int × Nat} (hx : x ∈ leaseArgs s) :
    linesOf (leaseRec' x) = [leaseLine (mark x.1) x.2.1 x.2.2.1] := by
  rw [linesOf, print_lease' h hx]; rfl

theorem flatMap_leases {s : Snap} (h : s.ok) {v : List Rec} (hv : ∀ y ∈ v, y ∈ leaseRecs s) (p : Str × Lease × Int → Prop)
    (hp : ∀ x ∈ leaseArgs s, leaseRec' x ∈ v → p (x.1, x.2.1, x.2.2.1)) :
    ∀ y ∈ v.flatMap linesOf, ∃ x ∈ leases s, p x ∧ y = leaseLine (mark x.1) x.2.1 x.2.2 := by
  intro y hy
  obtain ⟨r, hr, hy⟩ := List.mem_flatMap.1 hy
  have hr' := hv r hr
  rw [leaseRecs_args] at hr'
  obtain ⟨x, hx, rfl⟩ := List.mem_map.1 hr'
  rw [linesOf_lease h hx, List.mem_singleton] at hy
  exact ⟨_, (leaseArgs_mem hx).2.2, hp x hx hr, hy⟩

theorem under_pid {c : Conn} {x : Str × Lease × Int × Nat} {j : Nat} (hc : -2147483648 ≤ c.pid ∧ c.pid < 2147483648)
    (hx : 0 ≤ x.2.2.1 ∧ x.2.2.1 < 2147483648) :
    under true ⟨⟨2, 0, u32 c.pid, 0, strncpy c.name, (clientText j c.vals).length + 1⟩, clientText j c.vals ++ [0], []⟩ (leaseRec' x) = true ↔
      c.pid = x.2.2.1 ∧ x.2.2.1 ≠ 0 := by
  show ofPid (u32 c.pid) (leaseRec' x) = true ↔ _
  have e : (leaseRec' x).st.data32 = u32 x.2.2.1 := rfl
  have t : (leaseRec' x).st.type = 4 := rfl
  simp only [ofPid, t, e, decide_true, Bool.true_and, Bool.and_eq_true, decide_eq_true_iff]
  unfold u32
  omega

theorem under_space {l : Str} {s : Space} (hs : s.ok) {x : Str × Lease × Int × Nat} (hx : x.2.1.ok) :
    under false (spaceRec l s) (leaseRec' x) = true ↔ s.name = cstr x.2.1.r.lname := by
  show ofSpace (strncpy s.name) (leaseRec' x) = true ↔ _
  have t : (leaseRec' x).st.type = 4 := rfl
  have hr : resOf ((leaseRec' x).bin.take 128) = x.2.1.r := by
    show resOf ((x.2.1.r.bytes ++ _).take 128) = _
    rw [tk (res_len hx.r), resOf_bytes hx.r]
  simp only [ofSpace, t, hr, decide_true, Bool.true_and, decide_eq_true_iff, cstr_strncpy hs.nameZ, List.take_of_length_le hs.name]

/-- Lines with something between them. -/
theorem flatMap_mid {u v w : List Rec} {h r : Rec} {lh lr : Str} (h1 : linesOf h = [lh]) (h2 : linesOf r = [lr]) :
    (u ++ h :: (v ++ r :: w)).flatMap linesOf = u.flatMap linesOf ++ lh :: (v.flatMap linesOf ++ lr :: w.flatMap linesOf) := by
  simp only [List.flatMap_append, List.flatMap_cons, h1, h2, List.singleton_append]

/-- C69: sorted by process (at most 1024 lines), the same lines are printed.  A lease of a process with a connection stands under the line
of a connection of this process, with only leases of the same process between them.  The leases of no such process come last, behind
a line with a dash. -/
theorem sorted_pid_partial {s : Snap} (h : s.ok) (hd : s.disksLe 4) (hn : (lines s).length ≤ 1024) :
    ∃ a b, sorted true false (cmdStatus 0 s) = some (a ++ (if b = [] then [] else [b! "-"]) ++ b) ∧ (a ++ b).Perm (lines s) ∧
      (∀ x ∈ leases s, x.2.2 ≠ 0 → (∃ c ∈ s.conns, c.used = true ∧ c.pid = x.2.2) →
        ∃ c ∈ s.conns, ∃ u v w, c.used = true ∧ c.pid = x.2.2 ∧ a = u ++ connLine c :: (v ++ leaseLine (mark x.1) x.2.1 x.2.2 :: w) ∧
          ∀ y ∈ v, ∃ z ∈ leases s, z.2.2 = x.2.2 ∧ y = leaseLine (mark z.1) z.2.1 z.2.2) ∧
      ∀ y, y ∈ b ↔ ∃ x ∈ leases s, (x.2.2 = 0 ∨ ∀ c ∈ s.conns, c.used = true → c.pid ≠ x.2.2) ∧ y = leaseLine (mark x.1) x.2.1 x.2.2 := by
  obtain ⟨p1, p2⟩ := recs_lines h 0
  obtain ⟨-, o2⟩ := order_eq true (recs 0 s)
  rw [heads_eq, tails_eq] at o2
  have hb : ∀ r ∈ (order true (recs 0 s)).2, r ∈ leaseRecs s := fun r hr => by
    rw [o2] at hr; exact (List.mem_filter.1 hr).1
  refine ⟨(order true (recs 0 s)).1.flatMap linesOf, (order true (recs 0 s)).2.flatMap linesOf, ?_, ?_, ?_, ?_⟩
  · rw [sorted_eq h hd hn]
    congr 3
    by_cases h0 : (order true (recs 0 s)).2 = []
    · rw [h0]; rfl
    · rw [if_neg h0, if_neg]
      obtain ⟨r, rs, hrs⟩ := List.exists_cons_of_ne_nil h0
      have hr := hb r (by rw [hrs]; exact List.mem_cons_self ..)
      rw [leaseRecs_args] at hr
      obtain ⟨x, hx, rfl⟩ := List.mem_map.1 hr
      rw [hrs, List.flatMap_cons, linesOf_lease h hx]
      exact List.cons_ne_nil _ _
  · rw [← List.flatMap_append, ← linesFor_zero, ← p2]
    exact List.Perm.flatMap_right _ (order_perm true (recs 0 s))
  · intro x hx h0 ⟨c, hc, hu, hcp⟩
    rw [leases_args] at hx
    obtain ⟨x, hx', rfl⟩ := List.mem_map.1 hx
    replace hx := hx'
    have hxp := h.pids _ (leaseArgs_mem hx).2.2
    obtain ⟨j, hj⟩ := mem_connRecs hc hu 0
    have hc' := h.connPids c hc
    have hj' : (⟨⟨2, 0, u32 c.pid, 0, strncpy c.name, (clientText j c.vals).length + 1⟩, clientText j c.vals ++ [0], []⟩ : Rec) ∈
        (connRecs 0 s.conns).filter (fun r => !noPid r) := by
      refine List.mem_filter.2 ⟨hj, ?_⟩
      have : u32 c.pid ≠ 4294967295 := by unfold u32; simp only at hcp hxp; omega
      simp [noPid, this]
    obtain ⟨r, u, v, w, e1, e2, e3, e4⟩ := lines_under (byPid := true) hx ⟨_, hj', (under_pid hc' hxp).2 ⟨hcp, h0⟩⟩
    obtain ⟨c2, hc2, j2, hu2, rfl⟩ := connRecs_mem (List.mem_filter.1 e2).1
    have hp2 := h.connPids c2 hc2
    have hpid := ((under_pid hp2 hxp).1 e3).1
    refine ⟨c2, hc2, u.flatMap linesOf, v.flatMap linesOf, w.flatMap linesOf, hu2, hpid, ?_, ?_⟩
    · rw [e1]
      exact flatMap_mid (by rw [linesOf, print_conn (h.conns c2 hc2) hp2]; rfl) (linesOf_lease h hx)
    · refine flatMap_leases h (fun y hy => (e4 y hy).2) (fun z => z.2.2 = x.2.2.1) fun z hz hzv => ?_
      have hzp := h.pids _ (leaseArgs_mem hz).2.2
      exact ((under_pid hp2 hzp).1 (e4 _ hzv).1).1.symm.trans hpid
  · intro y
    have key : ∀ x ∈ leaseArgs s, leaseRec' x ∈ (order true (recs 0 s)).2 ↔
        (x.2.2.1 = 0 ∨ ∀ c ∈ s.conns, c.used = true → c.pid ≠ x.2.2.1) := by
      intro x hx
      have hxp := h.pids _ (leaseArgs_mem hx).2.2
      have hm : leaseRec' x ∈ leaseRecs s := by rw [leaseRecs_args]; exact List.mem_map.2 ⟨x, hx, rfl⟩
      rw [o2, others, List.mem_filter, List.all_eq_true]
      constructor
      · rintro ⟨-, hall⟩
        by_cases h0 : x.2.2.1 = 0
        · exact Or.inl h0
        refine Or.inr fun c hc hu hcp => ?_
        obtain ⟨j, hj⟩ := mem_connRecs hc hu 0
        have hc' := h.connPids c hc
        have hnp : u32 c.pid ≠ 4294967295 := by unfold u32; simp only at hcp hxp; omega
        have := hall _ (List.mem_filter.2 ⟨hj, by simp [noPid, hnp]⟩)
        rw [(under_pid hc' hxp).2 ⟨hcp, h0⟩] at this
        cases this
      · intro hcond
        refine ⟨hm, fun r hr => ?_⟩
        obtain ⟨c2, hc2, j2, hu2, rfl⟩ := connRecs_mem (List.mem_filter.1 hr).1
        have hp2 := h.connPids c2 hc2
        rw [Bool.not_eq_true', Bool.eq_false_iff]
        intro hun
        obtain ⟨k1, k2⟩ := (under_pid hp2 hxp).1 hun
        rcases hcond with h0 | hcond
        · exact k2 h0
        · exact hcond c2 hc2 hu2 k1
    constructor
    · intro hy
      refine flatMap_leases h hb (fun x => x.2.2 = 0 ∨ ∀ c ∈ s.conns, c.used = true → c.pid ≠ x.2.2) ?_ y hy
      intro x hx hm
      exact (key x hx).1 hm
    · rintro ⟨x, hx, hcond, rfl⟩
      rw [leases_args] at hx
      obtain ⟨x, hx', rfl⟩ := List.mem_map.1 hx
      replace hx := hx'
      refine List.mem_flatMap.2 ⟨leaseRec' x, (key x hx).2 hcond, ?_⟩
      rw [linesOf_lease h hx]
      exact List.mem_singleton.2 rfl

/-- C69: sorted by lockspace, a lease stands under the line of its lockspace, with only leases of the same lockspace between them; the
leases of a lockspace that is not shown come last. -/
theorem sorted_space_partial {s : Snap} (h : s.ok) (hd : s.disksLe 4) (hn : (lines s).length ≤ 1024) :
    ∃ a b, sorted false false (cmdStatus 0 s) = some (a ++ (if b = [] then [] else [b! "-"]) ++ b) ∧ (a ++ b).Perm (lines s) ∧
      (∀ x ∈ leases s, (∃ p, (p ∈ s.spaces ∨ p ∈ s.spacesAdd ∨ p ∈ s.spacesRem) ∧ p.name = cstr x.2.1.r.lname) →
        ∃ p m u v w, ((p ∈ s.spaces ∧ m = []) ∨ (p ∈ s.spacesAdd ∧ m = b! " ADD") ∨ (p ∈ s.spacesRem ∧ m = b! " REM")) ∧
          p.name = cstr x.2.1.r.lname ∧ a = u ++ spaceLine m p :: (v ++ leaseLine (mark x.1) x.2.1 x.2.2 :: w) ∧
          ∀ y ∈ v, ∃ z ∈ leases s, cstr z.2.1.r.lname = cstr x.2.1.r.lname ∧ y = leaseLine (mark z.1) z.2.1 z.2.2) ∧
      ∀ y, y ∈ b ↔ ∃ x ∈ leases s, (∀ p, p ∈ s.spaces ∨ p ∈ s.spacesAdd ∨ p ∈ s.spacesRem → p.name ≠ cstr x.2.1.r.lname) ∧
        y = leaseLine (mark x.1) x.2.1 x.2.2 := by
  obtain ⟨p1, p2⟩ := recs_lines h 0
  obtain ⟨-, o2⟩ := order_eq false (recs 0 s)
  rw [heads_eq, tails_eq] at o2
  have hb : ∀ r ∈ (order false (recs 0 s)).2, r ∈ leaseRecs s := fun r hr => by
    rw [o2] at hr; exact (List.mem_filter.1 hr).1
  have hmem : ∀ {l : Str} {p : Space}, ((p ∈ s.spaces ∧ l = b! "spaces") ∨ (p ∈ s.spacesAdd ∧ l = b! "add") ∨ (p ∈ s.spacesRem ∧ l = b! "rem")) →
      p ∈ s.spaces ∨ p ∈ s.spacesAdd ∨ p ∈ s.spacesRem := fun hp => by
    rcases hp with hp | hp | hp
    · exact Or.inl hp.1
    · exact Or.inr (Or.inl hp.1)
    · exact Or.inr (Or.inr hp.1)
  have hlok : ∀ x ∈ leaseArgs s, x.2.1.ok := fun x hx => h.leases _ (leaseArgs_mem hx).2.1
  refine ⟨(order false (recs 0 s)).1.flatMap linesOf, (order false (recs 0 s)).2.flatMap linesOf, ?_, ?_, ?_, ?_⟩
  · rw [sorted_eq h hd hn]
    congr 3
    by_cases h0 : (order false (recs 0 s)).2 = []
    · rw [h0]; rfl
    · rw [if_neg h0, if_neg]
      obtain ⟨r, rs, hrs⟩ := List.exists_cons_of_ne_nil h0
      have hr := hb r (by rw [hrs]; exact List.mem_cons_self ..)
      rw [leaseRecs_args] at hr
      obtain ⟨x, hx, rfl⟩ := List.mem_map.1 hr
      rw [hrs, List.flatMap_cons, linesOf_lease h hx]
      exact List.cons_ne_nil _ _
  · rw [← List.flatMap_append, ← linesFor_zero, ← p2]
    exact List.Perm.flatMap_right _ (order_perm false (recs 0 s))
  · intro x hx ⟨p, hp, hpn⟩
    rw [leases_args] at hx
    obtain ⟨x, hx', rfl⟩ := List.mem_map.1 hx
    replace hx := hx'
    obtain ⟨l, hl⟩ := mem_spaceRecs hp
    obtain ⟨r, u, v, w, e1, e2, e3, e4⟩ := lines_under (byPid := false) hx ⟨_, hl, (under_space (h.spaces p hp) (hlok x hx)).2 hpn⟩
    obtain ⟨l2, q, hl2, rfl, hq⟩ := spaceRecs_mem e2
    have hqok := h.spaces q (hmem hq)
    have hqn := (under_space hqok (hlok x hx)).1 e3
    refine ⟨q, labelOf l2, u.flatMap linesOf, v.flatMap linesOf, w.flatMap linesOf, ?_, hqn, ?_, ?_⟩
    · rcases hq with ⟨hq, rfl⟩ | ⟨hq, rfl⟩ | ⟨hq, rfl⟩
      · exact Or.inl ⟨hq, rfl⟩
      · exact Or.inr (Or.inl ⟨hq, rfl⟩)
      · exact Or.inr (Or.inr ⟨hq, rfl⟩)
    · rw [e1]
      exact flatMap_mid (by rw [linesOf, print_space hl2 hqok]; rfl) (linesOf_lease h hx)
    · refine flatMap_leases h (fun y hy => (e4 y hy).2) (fun z => cstr z.2.1.r.lname = cstr x.2.1.r.lname) fun z hz hzv => ?_
      exact ((under_space hqok (hlok z hz)).1 (e4 _ hzv).1).symm.trans hqn
  · intro y
    have key : ∀ x ∈ leaseArgs s, leaseRec' x ∈ (order false (recs 0 s)).2 ↔
        (∀ p, p ∈ s.spaces ∨ p ∈ s.spacesAdd ∨ p ∈ s.spacesRem → p.name ≠ cstr x.2.1.r.lname) := by
      intro x hx
      have hm : leaseRec' x ∈ leaseRecs s := by rw [leaseRecs_args]; exact List.mem_map.2 ⟨x, hx, rfl⟩
      rw [o2, others, List.mem_filter, List.all_eq_true]
      constructor
      · rintro ⟨-, hall⟩ p hp hpn
        obtain ⟨l, hl⟩ := mem_spaceRecs hp
        have := hall _ hl
        rw [(under_space (h.spaces p hp) (hlok x hx)).2 hpn] at this
        cases this
      · intro hcond
        refine ⟨hm, fun r hr => ?_⟩
        obtain ⟨l2, q, -, rfl, hq⟩ := spaceRecs_mem hr
        rw [Bool.not_eq_true', Bool.eq_false_iff]
        intro hun
        exact hcond q (hmem hq) ((under_space (h.spaces q (hmem hq)) (hlok x hx)).1 hun)
    constructor
    · intro hy
      refine flatMap_leases h hb (fun x => ∀ p, p ∈ s.spaces ∨ p ∈ s.spacesAdd ∨ p ∈ s.spacesRem → p.name ≠ cstr x.2.1.r.lname) ?_ y hy
      intro x hx hm
      exact (key x hx).1 hm
    · rintro ⟨x, hx, hcond, rfl⟩
      rw [leases_args] at hx
      obtain ⟨x, hx', rfl⟩ := List.mem_map.1 hx
      replace hx := hx'
      refine List.mem_flatMap.2 ⟨leaseRec' x, (key x hx).2 hcond, ?_⟩
      rw [linesOf_lease h hx]
      exact List.mem_singleton.2 rfl

end Sanlock.Status
