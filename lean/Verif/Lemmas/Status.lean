import Verif.Status
import Verif.Props.OneShot
import Verif.Props.Strings
import Verif.Props.Direct

/-!
# Lemmas about the state commands
-/

namespace Sanlock.Status

open OnDisk OneShot

/-! ## Records on the wire -/

structure St.ok (s : St) : Prop where
  type : s.type < 256 ^ 4
  flags : s.flags < 256 ^ 4
  data32 : s.data32 < 256 ^ 4
  data64 : s.data64 < 256 ^ 8
  name : s.name.length = 48
  strLen : s.strLen < 256 ^ 4

theorem st_len {s : St} (h : s.name.length = 48) : s.bytes.length = 80 := by
  simp [St.bytes, h]

theorem stOf_bytes {s : St} (h : s.ok) : stOf s.bytes = s := by
  simp only [stOf, St.bytes, tk h.name, dp h.name, tk (leBytes_length _ _), dp (leBytes_length _ _), lv h.type, lv h.flags,
    lv h.data32, lv h.data64, lv h.strLen]

/-- The bytes of a record. -/
def wire (r : Rec) : Str := r.st.bytes ++ (r.str ++ r.bin)

/-- A record as the daemon sends it, with a structure that fits into `cap` bytes. -/
structure RecOk (cap : Nat) (r : Rec) : Prop where
  st : r.st.ok
  len : r.str.length = r.st.strLen
  most : r.st.strLen ≤ 4096
  bin3 : r.st.type = 3 → r.bin.length = 1104 ∧ 1104 ≤ cap
  bin4 : r.st.type = 4 → 128 ≤ r.bin.length ∧ r.bin.length = 128 + Wire.numDisks r.bin * 1040 ∧ r.bin.length ≤ cap
  bin0 : r.st.type ≠ 3 → r.st.type ≠ 4 → r.bin = []

theorem numDisks_append {b rest : Str} (h : 128 ≤ b.length) : Wire.numDisks (b ++ rest) = Wire.numDisks b := by
  unfold Wire.numDisks
  rw [List.drop_append_of_le_length (by omega), List.take_append_of_le_length (by simp; omega)]

theorem recvRec_wire {cap : Nat} {r : Rec} (h : RecOk cap r) (rest : Str) : recvRec cap (wire r ++ rest) = .got r rest := by
  have hl := st_len h.st.name
  have e1 : (wire r ++ rest).take 80 = r.st.bytes := by
    rw [wire, List.append_assoc]; exact tk hl
  have e2 : (wire r ++ rest).drop 80 = r.str ++ (r.bin ++ rest) := by
    rw [wire, List.append_assoc, dp hl, List.append_assoc]
  have hlen : ¬(wire r ++ rest).length < 80 := by simp [wire, hl]
  unfold recvRec
  rw [if_neg hlen, e1, e2, stOf_bytes h.st]
  simp only
  rw [if_neg (by have := h.most; omega), if_neg (by simp [h.len]), tk h.len, dp h.len]
  split
  · rename_i h3
    obtain ⟨a, b⟩ := h.bin3 h3
    rw [if_neg (by omega), tk a, dp a]
  · rename_i h3
    split
    · rename_i h4
      obtain ⟨a, b, c⟩ := h.bin4 h4
      rw [numDisks_append a, ← b, if_neg (by omega), tk rfl, dp rfl]
    · rename_i h4
      obtain ⟨st, str, bin⟩ := r
      have : bin = [] := h.bin0 h3 h4
      subst this
      rfl

theorem collect_wire {cap : Nat} {rs : List Rec} (h : ∀ r ∈ rs, RecOk cap r) :
    ∀ fuel, collect cap fuel (rs.flatMap wire) = some (rs.take fuel) := by
  induction rs with
  | nil =>
    intro fuel
    cases fuel with
    | zero => rfl
    | succ n => rfl
  | cons r rs ih =>
    intro fuel
    cases fuel with
    | zero => rfl
    | succ n =>
      rw [collect, List.flatMap_cons, recvRec_wire (h r (List.mem_cons_self ..))]
      simp only
      rw [ih (fun x hx => h x (List.mem_cons_of_mem _ hx))]
      rfl

theorem wire_len {r : Rec} (h : r.st.name.length = 48) : 80 ≤ (wire r).length := by
  simp [wire, st_len h]

theorem flatMap_len {rs : List Rec} (h : ∀ r ∈ rs, r.st.name.length = 48) : rs.length ≤ (rs.flatMap wire).length := by
  induction rs with
  | nil => simp
  | cons r rs ih =>
    have h1 := wire_len (h r (List.mem_cons_self ..))
    have h2 := ih (fun x hx => h x (List.mem_cons_of_mem _ hx))
    simp only [List.length_cons, List.flatMap_cons, List.length_append]
    omega

/-- Everything that was sent is received. -/
theorem collect_full {cap : Nat} {rs : List Rec} (h : ∀ r ∈ rs, RecOk cap r) :
    collect cap (rs.flatMap wire).length (rs.flatMap wire) = some rs := by
  rw [collect_wire h, List.take_of_length_le (flatMap_len fun r hr => (h r hr).st.name)]

/-! ## The records of a snapshot -/

def connRecs : Nat → List Conn → List Rec
  | _, [] => []
  | i, c :: cs =>
    (if c.used then [⟨⟨2, 0, u32 c.pid, 0, strncpy c.name, (clientText i c.vals).length + 1⟩, clientText i c.vals ++ [0], []⟩] else []) ++
      connRecs (i + 1) cs

def spaceRec (list : Str) (s : Space) : Rec :=
  ⟨⟨3, 0, 0, s.hostId, strncpy s.name, (listText list spaceKeys s.vals).length + 1⟩, listText list spaceKeys s.vals ++ [0],
    (⟨strncpy s.name, s.hostId, 0, 0, s.disk⟩ : LsArg).bytes⟩

def leaseRec (list : Str) (l : Lease) (pid : Int) (token : Nat) : Rec :=
  ⟨⟨4, 0, u32 pid, l.lver, strncpy (cstr l.r.rname),
      (listText list resKeys fun i => if i = 6 then token else l.vals i).length + 1⟩,
    (listText list resKeys fun i => if i = 6 then token else l.vals i) ++ [0],
    l.r.bytes ++ (l.disks.take l.r.numDisks).flatMap DiskArg.bytes⟩

def daemonRec (s : Snap) : Rec :=
  ⟨⟨1, 0, 0, 0, strncpy s.hostName, (fit s.daemonText).length + 1⟩, fit s.daemonText ++ [0], []⟩

def spaceRecs (s : Snap) : List Rec :=
  s.spaces.map (spaceRec (b! "spaces")) ++ (s.spacesAdd.map (spaceRec (b! "add")) ++ s.spacesRem.map (spaceRec (b! "rem")))

def leaseRecs (s : Snap) : List Rec :=
  s.held.flatMap (fun l => l.tokens.map fun t => leaseRec (b! "held") l t.pid t.id) ++
    (s.add.flatMap (fun l => l.tokens.map fun t => leaseRec (b! "add") l t.pid t.id) ++
      (s.rem.map (fun l => leaseRec (b! "rem") l l.pid 0) ++ s.orphan.map (fun l => leaseRec (b! "orphan") l l.pid 0)))

def recs (what : Nat) (s : Snap) : List Rec :=
  daemonRec s :: if what = 1 then [] else connRecs 0 s.conns ++
    if what = 2 then [] else spaceRecs s ++ if what = 3 then [] else leaseRecs s

theorem wire_state (s : St) (text bin : Str) :
    wire ⟨{ s with strLen := text.length + 1 }, text ++ [0], bin⟩ = sendState s text ++ bin := by
  simp [wire, sendState]

theorem sendConns_eq (cs : List Conn) : ∀ i, sendConns i cs = (connRecs i cs).flatMap wire := by
  induction cs with
  | nil => intro i; rfl
  | cons c cs ih =>
    intro i
    rw [sendConns, connRecs, List.flatMap_append, ih]
    congr 1
    split
    · rw [List.flatMap_cons, List.flatMap_nil, List.append_nil, sendConn]
      exact ((wire_state ⟨2, 0, u32 c.pid, 0, strncpy c.name, 0⟩ _ []).trans (List.append_nil _)).symm
    · rfl

theorem wire_space (list : Str) (s : Space) : wire (spaceRec list s) = sendSpace list s :=
  wire_state ⟨3, 0, 0, s.hostId, strncpy s.name, 0⟩ _ _

theorem wire_lease (list : Str) (l : Lease) (pid : Int) (t : Nat) : wire (leaseRec list l pid t) = sendLease list l pid t :=
  wire_state ⟨4, 0, u32 pid, l.lver, strncpy (cstr l.r.rname), 0⟩ _ _

theorem wire_daemon (s : Snap) : wire (daemonRec s) = sendDaemon s :=
  (wire_state ⟨1, 0, 0, 0, strncpy s.hostName, 0⟩ _ []).trans (List.append_nil _)

theorem cmdStatus_eq (what : Nat) (s : Snap) : cmdStatus what s = (recs what s).flatMap wire := by
  have hs : s.spaces.flatMap (sendSpace (b! "spaces")) ++ (s.spacesAdd.flatMap (sendSpace (b! "add")) ++
          s.spacesRem.flatMap (sendSpace (b! "rem"))) = (spaceRecs s).flatMap wire := by
    simp only [spaceRecs, List.flatMap_append, List.flatMap_map, wire_space]
  have hl : sendLeases s = (leaseRecs s).flatMap wire := by
    simp only [leaseRecs, sendLeases, List.flatMap_append, List.flatMap_map, List.flatMap_assoc, wire_lease]
  rw [cmdStatus, recs, List.flatMap_cons, wire_daemon, sendConns_eq, hs, hl]
  congr 1
  split
  · rfl
  · split <;> (try split) <;> simp [List.flatMap_append]

/-! ### They are as they should be -/

def noZero (s : Str) : Prop := ∀ c ∈ s, c ≠ 0

structure Space.ok (s : Space) : Prop where
  name : s.name.length ≤ 48
  nameZ : noZero s.name
  hostId : s.hostId < 256 ^ 8
  disk : s.disk.ok
  path : 0 ∈ s.disk.loc.path

structure Lease.ok (l : Lease) : Prop where
  r : l.r.ok
  num : l.disks.length = l.r.numDisks
  disks : ∀ d ∈ l.disks, d.ok ∧ 0 ∈ d.loc.path
  lver : l.lver < 256 ^ 8

/-- The leases shown: the list they are on, the lease, and the process. -/
def leases (s : Snap) : List (Str × Lease × Int) :=
  s.held.flatMap (fun l => l.tokens.map fun t => (b! "held", l, t.pid)) ++
    (s.add.flatMap (fun l => l.tokens.map fun t => (b! "add", l, t.pid)) ++
      (s.rem.map (fun l => (b! "rem", l, l.pid)) ++ s.orphan.map (fun l => (b! "orphan", l, l.pid))))

structure Snap.ok (s : Snap) : Prop where
  pids : ∀ x ∈ leases s, 0 ≤ x.2.2 ∧ x.2.2 < 2147483648
  connPids : ∀ c ∈ s.conns, -2147483648 ≤ c.pid ∧ c.pid < 2147483648
  text : noZero s.daemonText
  hostName : noZero s.hostName
  conns : ∀ c ∈ s.conns, noZero c.name
  spaces : ∀ x, x ∈ s.spaces ∨ x ∈ s.spacesAdd ∨ x ∈ s.spacesRem → x.ok
  leases : ∀ x, x ∈ s.held ∨ x ∈ s.add ∨ x ∈ s.rem ∨ x ∈ s.orphan → x.ok

theorem strncpy_len (s : Str) : (strncpy s).length = 48 := by
  simp [strncpy]; omega

theorem u32_lt (x : Int) : u32 x < 256 ^ 4 := by
  unfold u32; omega

theorem fit_len (s : Str) : (fit s).length ≤ 4094 := by simp [fit]; omega

theorem stOk {t d : Nat} {p : Int} {nm : Str} {x : Str} (ht : t < 256 ^ 4) (hd : d < 256 ^ 8) :
    St.ok ⟨t, 0, u32 p, d, strncpy nm, (fit x).length + 1⟩ :=
  ⟨ht, by show 0 < _; decide, u32_lt _, hd, strncpy_len _, by have := fit_len x; show _ + 1 < _; omega⟩

theorem connRecs_ok (cs : List Conn) : ∀ i, ∀ r ∈ connRecs i cs, ∀ cap, RecOk cap r := by
  induction cs with
  | nil => intro i r hr; cases hr
  | cons c cs ih =>
    intro i r hr cap
    rw [connRecs, List.mem_append] at hr
    rcases hr with hr | hr
    · split at hr
      · rw [List.mem_singleton] at hr
        subst hr
        have := fit_len (b! "ci=" ++ (Strings.dec i ++ pairs c.vals 0 clientKeys))
        exact ⟨stOk (by omega) (by omega), by simp, by show (fit _).length + 1 ≤ _; omega,
          fun h => absurd (show (2 : Nat) = 3 from h) (by decide), fun h => absurd (show (2 : Nat) = 4 from h) (by decide), fun _ _ => rfl⟩
      · cases hr
    · exact ih _ _ hr cap

theorem spaceRec_ok {list : Str} {s : Space} (h : s.ok) {cap : Nat} (hc : 1104 ≤ cap) : RecOk cap (spaceRec list s) := by
  have hf := fit_len (b! "list=" ++ (list ++ pairs s.vals 0 spaceKeys))
  refine ⟨?_, by simp [spaceRec], by show (fit _).length + 1 ≤ _; omega, fun _ => ⟨ls_len ⟨strncpy_len _, h.hostId, by show 0 < _; decide, h.disk⟩, hc⟩,
    fun h => absurd h (by simp [spaceRec]), fun h => absurd rfl h⟩
  exact stOk (p := 0) (by omega) h.hostId

theorem numDisks_res {r : Res} (h : r.ok) (rest : Str) : Wire.numDisks (r.bytes ++ rest) = r.numDisks := by
  obtain ⟨h1, h2, h3, h4, h5, h6, h7, h8⟩ := h
  have e : r.bytes = (r.lname ++ (r.rname ++ (leBytes 8 r.lver ++ (leBytes 8 r.data64 ++ (leBytes 4 r.data32 ++ (leBytes 4 r.unused ++
    leBytes 4 r.flags)))))) ++ leBytes 4 r.numDisks := by simp [Res.bytes]
  unfold Wire.numDisks
  rw [e, List.append_assoc, dp (by simp [h1, h2]), tk (leBytes_length _ _), lv h8]

theorem disks_len {l : List DiskArg} (h : ∀ d ∈ l, d.ok) : (l.flatMap DiskArg.bytes).length = l.length * 1040 := by
  induction l with
  | nil => rfl
  | cons d l ih =>
    rw [List.flatMap_cons, List.length_append, disk_len (h d (List.mem_cons_self ..)), ih (fun x hx => h x (List.mem_cons_of_mem _ hx)),
      List.length_cons]
    omega

theorem leaseRec_ok {list : Str} {l : Lease} (h : l.ok) {pid : Int} {t cap : Nat} (hc : 128 + l.r.numDisks * 1040 ≤ cap) :
    RecOk cap (leaseRec list l pid t) := by
  have hf := fit_len (b! "list=" ++ (list ++ pairs (fun i => if i = 6 then t else l.vals i) 0 resKeys))
  have hb : (leaseRec list l pid t).bin.length = 128 + l.r.numDisks * 1040 := by
    show (l.r.bytes ++ _).length = _
    rw [List.take_of_length_le (by rw [h.num]; exact Nat.le_refl _), List.length_append, res_len h.r,
      disks_len (fun d hd => (h.disks d hd).1), h.num]
  have hn : Wire.numDisks (leaseRec list l pid t).bin = l.r.numDisks := numDisks_res h.r _
  refine ⟨?_, by simp [leaseRec], by show (fit _).length + 1 ≤ _; omega, fun h => absurd h (by simp [leaseRec]), fun _ => ?_,
    fun _ h => absurd rfl h⟩
  · exact stOk (by omega) h.lver
  · rw [hn, hb]; omega

theorem daemonRec_ok (s : Snap) {cap : Nat} : RecOk cap (daemonRec s) := by
  have hf := fit_len s.daemonText
  exact ⟨stOk (p := 0) (by omega) (by omega), by simp [daemonRec], by show (fit _).length + 1 ≤ _; omega,
    fun h => absurd (show (1 : Nat) = 3 from h) (by decide), fun h => absurd (show (1 : Nat) = 4 from h) (by decide), fun _ _ => rfl⟩

/-- All leases have at most `n` disks. -/
def Snap.disksLe (n : Nat) (s : Snap) : Prop :=
  ∀ x, x ∈ s.held ∨ x ∈ s.add ∨ x ∈ s.rem ∨ x ∈ s.orphan → x.r.numDisks ≤ n

theorem spaceRecs_ok {s : Snap} (h : s.ok) {cap : Nat} (hc : 1104 ≤ cap) : ∀ r ∈ spaceRecs s, RecOk cap r := by
  intro r hr
  simp only [spaceRecs, List.mem_append, List.mem_map] at hr
  rcases hr with ⟨x, hx, rfl⟩ | ⟨x, hx, rfl⟩ | ⟨x, hx, rfl⟩ <;> exact spaceRec_ok (h.spaces x (by simp [hx])) hc

theorem leaseRecs_ok {s : Snap} (h : s.ok) {cap n : Nat} (hd : s.disksLe n) (hc : 128 + n * 1040 ≤ cap) :
    ∀ r ∈ leaseRecs s, RecOk cap r := by
  intro r hr
  have key : ∀ x, x ∈ s.held ∨ x ∈ s.add ∨ x ∈ s.rem ∨ x ∈ s.orphan → 128 + x.r.numDisks * 1040 ≤ cap := fun x hx =>
    Nat.le_trans (Nat.add_le_add_left (Nat.mul_le_mul_right _ (hd x hx)) _) hc
  simp only [leaseRecs, List.mem_append, List.mem_map, List.mem_flatMap] at hr
  rcases hr with ⟨x, hx, t, -, rfl⟩ | ⟨x, hx, t, -, rfl⟩ | ⟨x, hx, rfl⟩ | ⟨x, hx, rfl⟩ <;>
    exact leaseRec_ok (h.leases x (by simp [hx])) (key x (by simp [hx]))

theorem recs_ok {what : Nat} {s : Snap} (h : s.ok) {cap n : Nat} (hd : what ≠ 3 → s.disksLe n) (hn : what ≠ 3 → 128 + n * 1040 ≤ cap) (hc : 1104 ≤ cap) :
    ∀ r ∈ recs what s, RecOk cap r := by
  intro r hr
  rw [recs, List.mem_cons] at hr
  rcases hr with rfl | hr
  · exact daemonRec_ok s
  · split at hr
    · cases hr
    · rw [List.mem_append] at hr
      rcases hr with hr | hr
      · exact connRecs_ok _ _ _ hr _
      · split at hr
        · cases hr
        · rw [List.mem_append] at hr
          rcases hr with hr | hr
          · exact spaceRecs_ok h hc r hr
          · split at hr
            · cases hr
            · rename_i h3
              exact leaseRecs_ok h (hd h3) (hn h3) r hr

/-! ## Texts -/

theorem takeWhile_all {s rest : Str} (h : noZero s) : (s ++ 0 :: rest).takeWhile (fun c => decide (c ≠ 0)) = s := by
  induction s with
  | nil => simp
  | cons c s ih =>
    have hc := h c (List.mem_cons_self ..)
    have hd : decide (c ≠ 0) = true := decide_eq_true hc
    rw [List.cons_append, List.takeWhile_cons, if_pos hd, ih (fun x hx => h x (List.mem_cons_of_mem _ hx))]

theorem cstr_zero {s rest : Str} (h : noZero s) : cstr (s ++ 0 :: rest) = s := takeWhile_all h

theorem cstr_none {s : Str} (h : noZero s) : cstr s = s := by
  induction s with
  | nil => rfl
  | cons c s ih =>
    have hd : decide (c ≠ 0) = true := decide_eq_true (h c (List.mem_cons_self ..))
    show (c :: s).takeWhile _ = _
    rw [List.takeWhile_cons, if_pos hd]
    exact congrArg _ (ih (fun x hx => h x (List.mem_cons_of_mem _ hx)))

theorem noZero_cstr (s : Str) : noZero (cstr s) := by
  induction s with
  | nil => intro c hc; cases hc
  | cons a s ih =>
    intro c hc
    unfold cstr at hc
    rw [List.takeWhile_cons] at hc
    split at hc
    · rename_i h
      rcases List.mem_cons.1 hc with rfl | hc
      · exact of_decide_eq_true h
      · exact ih c hc
    · cases hc

theorem noZero_take {s : Str} (h : noZero s) (n : Nat) : noZero (s.take n) := fun c hc => h c (List.mem_of_mem_take hc)

theorem noZero_append {a b : Str} (ha : noZero a) (hb : noZero b) : noZero (a ++ b) := fun c hc =>
  (List.mem_append.1 hc).elim (ha c) (hb c)

theorem cstr_strncpy {s : Str} (h : noZero s) : cstr (strncpy s) = s.take 48 := by
  unfold strncpy
  cases hk : 48 - s.length with
  | zero => rw [List.replicate_zero, List.append_nil]; exact cstr_none (noZero_take h _)
  | succ n => rw [List.replicate_succ]; exact cstr_zero (noZero_take h _)

theorem cstr_len (s : Str) : (cstr s).length ≤ s.length := by
  induction s with
  | nil => exact Nat.le_refl _
  | cons c s ih =>
    show ((c :: s).takeWhile _).length ≤ _
    rw [List.takeWhile_cons]
    split
    · simp only [List.length_cons]; exact Nat.succ_le_succ ih
    · exact Nat.zero_le _

theorem cstrIn_zero {cap : Nat} {s : Str} (h : noZero s) (hl : s.length < cap) : cstrIn cap (s ++ [0]) = some s := by
  have e : (s ++ [0]).take cap = s ++ [0] := List.take_of_length_le (by simp; omega)
  unfold cstrIn
  rw [e, if_neg (by simp), cstr_zero h]

theorem cstrIn_path {p : Str} (h : p.length = 1024) (hz : 0 ∈ p) : cstrIn 1024 p = some (cstr p) := by
  unfold cstrIn
  rw [List.take_of_length_le (by omega), if_neg (fun x => x.2 hz)]

/-! ### Characters of the values -/

theorem dec_ne {n : Nat} {x : UInt8} (h : x.toNat < 48 ∨ 57 < x.toNat) : x ∉ Strings.dec n := fun hx => by
  have := Strings.dec_digit hx
  omega

theorem hexDigit_char {n : Nat} (h : n < 16) : (48 ≤ (hexDigit n).toNat ∧ (hexDigit n).toNat ≤ 57) ∨
    (97 ≤ (hexDigit n).toNat ∧ (hexDigit n).toNat ≤ 102) := by
  have : n = 0 ∨ n = 1 ∨ n = 2 ∨ n = 3 ∨ n = 4 ∨ n = 5 ∨ n = 6 ∨ n = 7 ∨ n = 8 ∨ n = 9 ∨ n = 10 ∨ n = 11 ∨ n = 12 ∨ n = 13 ∨ n = 14 ∨ n = 15 := by
    omega
  rcases this with h | h | h | h | h | h | h | h | h | h | h | h | h | h | h | h <;> subst h <;> decide

theorem hexLoop_char {k : Nat} : ∀ {n : Nat} {x : UInt8}, x ∈ hexLoop k n →
    (48 ≤ x.toNat ∧ x.toNat ≤ 57) ∨ (97 ≤ x.toNat ∧ x.toNat ≤ 102) := by
  induction k with
  | zero => intro n x h; cases h
  | succ k ih =>
    intro n x h
    rw [hexLoop] at h
    split at h
    · rename_i hn
      rw [List.mem_singleton] at h
      subst h
      exact hexDigit_char hn
    · rw [List.mem_append, List.mem_singleton] at h
      rcases h with h | h
      · exact ih h
      · subst h
        exact hexDigit_char (Nat.mod_lt _ (by decide))

/-- A value has only digits, letters up to `f`, and a minus sign. -/
theorem fmt_char {f : Fmt} {v : Int} {x : UInt8} (h : x ∈ fmt f v) :
    x = 45 ∨ (48 ≤ x.toNat ∧ x.toNat ≤ 57) ∨ (97 ≤ x.toNat ∧ x.toNat ≤ 102) := by
  cases f with
  | d =>
    simp only [fmt] at h
    split at h
    · rcases List.mem_cons.1 h with h | h
      · exact Or.inl h
      · exact Or.inr (Or.inl (Strings.dec_digit h))
    · exact Or.inr (Or.inl (Strings.dec_digit h))
  | u => exact Or.inr (Or.inl (Strings.dec_digit h))
  | x => exact Or.inr (hexLoop_char h)

theorem fmt_ne {f : Fmt} {v : Int} : fmt f v ≠ [] := by
  have hd : ∀ n, Strings.dec n ≠ [] := fun n => by
    obtain ⟨c, cs, h, -⟩ := Strings.dec_cons n
    rw [h]; exact List.cons_ne_nil _ _
  cases f with
  | d => simp only [fmt]; split; · exact List.cons_ne_nil _ _
         · exact hd _
  | u => exact hd _
  | x =>
    show hexLoop 16 _ ≠ []
    rw [hexLoop]
    split
    · exact List.cons_ne_nil _ _
    · simp

theorem fmt_ne_zero {f : Fmt} {v : Int} {x : UInt8} (h : x ∈ fmt f v) : x ≠ 0 ∧ x ≠ 32 := by
  have := fmt_char h
  constructor <;> rintro rfl <;> revert this <;> decide

/-! ### Where a text occurs -/

theorem isPrefixOf_append (a n : Str) : n.isPrefixOf (n ++ a) = true := by
  induction n with
  | nil => rfl
  | cons c n ih => simp

/-- `p` occurs in `s`. -/
def Occ (p s : Str) : Prop := ∃ a b, s = a ++ (p ++ b)

theorem strstr_iff {s n : Str} : strstr s n = true ↔ Occ n s := by
  induction s with
  | nil =>
    rw [strstr]
    constructor
    · intro h
      exact ⟨[], [], by simpa using h⟩
    · rintro ⟨a, b, h⟩
      have : n = [] := by
        cases n with
        | nil => rfl
        | cons c n => simp at h
      subst this
      rfl
  | cons c s ih =>
    rw [strstr, Bool.or_eq_true, ih]
    constructor
    · rintro (h | ⟨a, b, h⟩)
      · obtain ⟨b, hb⟩ := List.isPrefixOf_iff_prefix.1 h
        exact ⟨[], b, hb.symm⟩
      · exact ⟨c :: a, b, by rw [h]; rfl⟩
    · rintro ⟨a, b, h⟩
      cases a with
      | nil => exact Or.inl (List.isPrefixOf_iff_prefix.2 ⟨b, h.symm⟩)
      | cons x a =>
        rw [List.cons_append, List.cons.injEq] at h
        exact Or.inr ⟨a, b, h.2⟩

theorem Occ.prefix {p s t : Str} (h : Occ p s) (hp : s <+: t) : Occ p t := by
  obtain ⟨a, b, rfl⟩ := h
  obtain ⟨c, rfl⟩ := hp
  exact ⟨a, b ++ c, by simp⟩

theorem Occ.sub {p q s : Str} (h : Occ p s) (hq : Occ q p) : Occ q s := by
  obtain ⟨a, b, rfl⟩ := h
  obtain ⟨c, d, rfl⟩ := hq
  exact ⟨a ++ c, d ++ b, by simp⟩

/-- The three characters `st=` occur in `x ++ v ++ y` only in one of the outer parts if `v` has none of them and is not empty. -/
theorem occ3_split {p q r : UInt8} {x v y : Str} (hv : v ≠ []) (hc : ∀ c ∈ v, c ≠ p ∧ c ≠ q ∧ c ≠ r)
    (h : Occ [p, q, r] (x ++ (v ++ y))) : Occ [p, q, r] x ∨ Occ [p, q, r] y := by
  obtain ⟨a, b, h⟩ := h
  rcases List.append_eq_append_iff.1 h with ⟨m, hm1, hm2⟩ | ⟨m, hm1, hm2⟩
  · -- the occurrence starts in `v ++ y`
    rcases List.append_eq_append_iff.1 hm2 with ⟨k, hk1, hk2⟩ | ⟨k, hk1, hk2⟩
    · exact Or.inr ⟨k, b, hk2⟩
    · cases k with
      | nil => exact Or.inr ⟨[], b, by simpa using hk2.symm⟩
      | cons c k =>
        have hp : c = p := by
          simp only [List.cons_append, List.cons.injEq] at hk2
          exact hk2.1.symm
        exact absurd hp (hc c (by rw [hk1]; simp)).1
  · -- it starts in `x`, or right behind it
    match m, hm1, hm2 with
    | [], hm1, hm2 =>
      cases v with
      | nil => exact absurd rfl hv
      | cons c v =>
        have hp : c = p := by simp at hm2; exact hm2.1.symm
        exact absurd hp (hc c (List.mem_cons_self ..)).1
    | [c1], hm1, hm2 =>
      cases v with
      | nil => exact absurd rfl hv
      | cons c v =>
        have hq : c = q := by simp at hm2; exact hm2.2.1.symm
        exact absurd hq (hc c (List.mem_cons_self ..)).2.1
    | [c1, c2], hm1, hm2 =>
      cases v with
      | nil => exact absurd rfl hv
      | cons c v =>
        have hr : c = r := by simp at hm2; exact hm2.2.2.1.symm
        exact absurd hr (hc c (List.mem_cons_self ..)).2.2
    | c1 :: c2 :: c3 :: m, hm1, hm2 =>
      simp at hm2
      obtain ⟨e1, e2, e3, -⟩ := hm2
      subst e1 e2 e3
      exact Or.inl ⟨a, m, hm1⟩

/-- `st=`. -/
def stEq : Str := [115, 116, 61]

theorem fmt_no_st {f : Fmt} {v : Int} : ∀ c ∈ fmt f v, c ≠ 115 ∧ c ≠ 116 ∧ c ≠ 61 := fun c hc => by
  have := fmt_char hc
  refine ⟨?_, ?_, ?_⟩ <;> rintro rfl <;> revert this <;> decide

/-- No key makes `st=`. -/
def KeyOk (k : Str) : Prop := strstr (32 :: (k ++ [61])) stEq = false

/-- Values and keys never make the characters `st=`. -/
theorem pairs_no_st {vals : Nat → Int} : ∀ {ks : List (Str × Fmt)} {i : Nat}, (∀ k ∈ ks, KeyOk k.1) → ¬Occ stEq (pairs vals i ks) := by
  intro ks
  induction ks with
  | nil =>
    intro i _ ⟨a, b, h⟩
    simp [pairs, stEq] at h
  | cons k ks ih =>
    intro i h ho
    have hk := h k (List.mem_cons_self ..)
    have e : pairs vals i (k :: ks) = (32 :: (k.1 ++ [61])) ++ (fmt k.2 (vals i) ++ pairs vals (i + 1) ks) := by
      obtain ⟨k, f⟩ := k
      simp [pairs]
    rw [e] at ho
    rcases occ3_split fmt_ne fmt_no_st ho with h1 | h1
    · have := (show strstr _ _ = false from hk).symm.trans (strstr_iff.2 h1)
      cases this
    · exact ih (fun x hx => h x (List.mem_cons_of_mem _ hx)) h1

theorem spaceKeys_ok : ∀ k ∈ spaceKeys, KeyOk k.1 := by unfold KeyOk; decide +kernel
theorem resKeys_ok : ∀ k ∈ resKeys, KeyOk k.1 := by unfold KeyOk; decide +kernel

/-- A list name: letters that do not make `st=` either. -/
def ListOk (l : Str) : Prop := l ∈ [b! "spaces", b! "held", b! "add", b! "rem", b! "orphan"]

theorem list_no_st {list : Str} (hl : ListOk list) {ks : List (Str × Fmt)} (hk : ∀ k ∈ ks, KeyOk k.1) {vals : Nat → Int} :
    ¬Occ stEq (list ++ pairs vals 0 ks) := by
  intro h
  cases ks with
  | nil =>
    have : Occ stEq list := by simpa [pairs] using h
    have := strstr_iff.2 this
    revert this
    unfold ListOk at hl
    simp only [List.mem_cons, List.not_mem_nil, or_false] at hl
    rcases hl with rfl | rfl | rfl | rfl | rfl <;> decide
  | cons k ks =>
    have e : list ++ pairs vals 0 (k :: ks) = list ++ ([32] ++ (k.1 ++ 61 :: (fmt k.2 (vals 0) ++ pairs vals 1 ks))) := by
      obtain ⟨k, f⟩ := k
      simp [pairs]
    rw [e] at h
    rcases occ3_split (by simp) (by decide) h with h1 | h1
    · have := strstr_iff.2 h1
      revert this
      unfold ListOk at hl
      simp only [List.mem_cons, List.not_mem_nil, or_false] at hl
      rcases hl with rfl | rfl | rfl | rfl | rfl <;> decide
    · refine pairs_no_st (vals := vals) (i := 0) hk ?_
      obtain ⟨a, b, h1⟩ := h1
      obtain ⟨k, f⟩ := k
      exact ⟨32 :: a, b, by rw [pairs, h1]; rfl⟩

theorem occ_list {w X : Str} (hw : ¬Occ stEq X) : Occ (b! "list=" ++ w) (b! "list=" ++ X) ↔ w <+: X := by
  constructor
  · rintro ⟨a, b, h⟩
    have sub : ∀ s, Occ (b! "list=" ++ w) s → Occ stEq s := fun s h => h.sub ⟨[108, 105], w, rfl⟩
    match a, h with
    | [], h => exact ⟨b, by simpa using h.symm⟩
    | [_], h => simp at h
    | [_, _], h => simp at h
    | [_, _, _], h => simp at h
    | [_, _, _, _], h => simp at h
    | _ :: _ :: _ :: _ :: _ :: a, h =>
      simp only [List.cons_append, List.nil_append, List.cons.injEq] at h
      exact absurd (sub X ⟨a, b, by simpa using h.2.2.2.2.2⟩) hw
  · rintro ⟨b, rfl⟩
    exact ⟨[], b, by simp⟩

theorem label_text {list : Str} (hl : ListOk list) {ks : List (Str × Fmt)} (hk : ∀ k ∈ ks, KeyOk k.1) (hz : ∀ k ∈ ks, noZero k.1)
    {vals : Nat → Int} {w : Str} (hw : w.length ≤ 6) (hp : ∀ t, w <+: list ++ 32 :: t ↔ w = list) (hne : ks ≠ []) :
    strstr (listText list ks vals) (b! "list=" ++ w) = decide (w = list) := by
  have h0 := list_no_st hl hk (vals := vals)
  have hll : list.length ≤ 6 := by
    unfold ListOk at hl
    simp only [List.mem_cons, List.not_mem_nil, or_false] at hl
    rcases hl with rfl | rfl | rfl | rfl | rfl <;> decide
  obtain ⟨k, ks, rfl⟩ := List.exists_cons_of_ne_nil hne
  obtain ⟨k, f⟩ := k
  have e : listText list ((k, f) :: ks) vals = b! "list=" ++ (list ++ pairs vals 0 ((k, f) :: ks)).take 4089 := by
    unfold listText fit
    rw [List.take_append, List.take_of_length_le (show (b! "list=").length ≤ 4094 by decide)]
    rfl
  have h1 : ¬Occ stEq ((list ++ pairs vals 0 ((k, f) :: ks)).take 4089) := fun h => h0 (h.prefix (List.take_prefix _ _))
  have e2 : (list ++ pairs vals 0 ((k, f) :: ks)).take 4089 = list ++ 32 :: (k ++ 61 :: (fmt f (vals 0) ++ pairs vals 1 ks)).take (4088 - list.length) := by
    rw [List.take_append, List.take_of_length_le (show list.length ≤ 4089 by omega), pairs,
      show 4089 - list.length = (4088 - list.length) + 1 by omega, List.take_succ_cons]
  rw [Bool.eq_iff_iff, strstr_iff, e, occ_list h1, decide_eq_true_iff, e2]
  exact hp _

theorem noZero_pairs {vals : Nat → Int} : ∀ {ks : List (Str × Fmt)} {i : Nat}, (∀ k ∈ ks, noZero k.1) → noZero (pairs vals i ks) := by
  intro ks
  induction ks with
  | nil => intro i _ c hc; cases hc
  | cons k ks ih =>
    intro i h
    obtain ⟨k, f⟩ := k
    intro c hc
    rw [pairs, List.mem_cons, List.mem_append, List.mem_cons, List.mem_append] at hc
    rcases hc with rfl | hc | rfl | hc | hc
    · decide
    · exact h _ (List.mem_cons_self ..) c hc
    · decide
    · exact (fmt_ne_zero hc).1
    · exact ih (fun x hx => h x (List.mem_cons_of_mem _ hx)) c hc

theorem noZero_list {list : Str} (hl : ListOk list) : noZero list := by
  unfold ListOk at hl
  simp only [List.mem_cons, List.not_mem_nil, or_false] at hl
  unfold noZero
  rcases hl with rfl | rfl | rfl | rfl | rfl <;> decide

theorem noZero_listText {list : Str} (hl : ListOk list) {ks : List (Str × Fmt)} (hz : ∀ k ∈ ks, noZero k.1) {vals : Nat → Int} :
    noZero (listText list ks vals) :=
  noZero_take (noZero_append (by unfold noZero; decide) (noZero_append (noZero_list hl) (noZero_pairs hz))) _

theorem spaceKeys_z : ∀ k ∈ spaceKeys, noZero k.1 := by unfold noZero; decide +kernel
theorem resKeys_z : ∀ k ∈ resKeys, noZero k.1 := by unfold noZero; decide +kernel
theorem clientKeys_z : ∀ k ∈ clientKeys, noZero k.1 := by unfold noZero; decide +kernel

/-- The label for a list. -/
def labelOf (list : Str) : Str :=
  if list = b! "add" then b! " ADD" else if list = b! "rem" then b! " REM" else if list = b! "orphan" then b! " ORPHAN" else []

theorem label_list {list : Str} (hl : ListOk list) {ks : List (Str × Fmt)} (hk : ∀ k ∈ ks, KeyOk k.1) (hz : ∀ k ∈ ks, noZero k.1)
    (hne : ks ≠ []) {vals : Nat → Int} {r : Rec} (h1 : r.st.strLen = (listText list ks vals).length + 1)
    (h2 : r.str = listText list ks vals ++ [0]) : label r = some (labelOf list) := by
  have hz' := noZero_listText hl hz (vals := vals)
  have hlen := fit_len (b! "list=" ++ (list ++ pairs vals 0 ks))
  unfold label
  rw [h1, h2, if_neg (by omega), cstrIn_zero hz' (by show (fit _).length < _; omega), Option.map_some]
  have key : ∀ w : Str, w ∈ [b! "add", b! "rem", b! "orphan"] → strstr (listText list ks vals) (b! "list=" ++ w) = decide (w = list) := by
    intro w hw
    refine label_text hl hk hz ?_ ?_ hne
    · simp only [List.mem_cons, List.not_mem_nil, or_false] at hw
      rcases hw with rfl | rfl | rfl <;> decide
    · intro t
      unfold ListOk at hl
      simp only [List.mem_cons, List.not_mem_nil, or_false] at hw hl
      rcases hw with rfl | rfl | rfl <;> rcases hl with rfl | rfl | rfl | rfl | rfl <;> simp [List.cons_prefix_cons]
  have k1 := key (b! "add") (by simp)
  have k2 := key (b! "rem") (by simp)
  have k3 := key (b! "orphan") (by simp)
  simp only [List.cons_append, List.nil_append] at k1 k2 k3
  rw [k1, k2, k3]
  simp only [decide_eq_true_iff, eq_comm (b := list), labelOf]

end Sanlock.Status
