import Verif.Python
import Verif.Props.HelperArgs
import Verif.Props.Strings

/-!
# Properties of the Python bindings: C63, C64, C65, C41
-/

namespace Sanlock.Python

/-! ## What the arguments mean -/

/-- A field of `n` bytes that holds the string `b`, followed by zeros. -/
def pad (n : Nat) (b : Bytes) : Bytes := b ++ List.replicate (n - b.length) 0

/-- The argument is the name `b`, which fits the field for names. -/
def IsName (b : Bytes) (a : Arg) : Prop := a = .bytes b ∧ b.length ≤ 48 ∧ 0 ∉ b

/-- The argument is the path `p`, which fits the field for paths. -/
def IsPath (p : Bytes) (a : Arg) : Prop := (a = .bytes p ∨ a = .str (some p)) ∧ p.length ≤ 1023 ∧ 0 ∉ p

/-- The argument is the number `n` of `w` bits, or it is left out and `n` is the documented default. -/
def IsNat (w n d : Nat) (a : Option Arg) : Prop := (a = some (.int n) ∧ n < 2 ^ w) ∨ (a = none ∧ n = d)

def IsInt (w : Nat) (n d : Int) (a : Option Arg) : Prop :=
  (a = some (.int n) ∧ -2 ^ (w - 1) ≤ n ∧ n < 2 ^ (w - 1)) ∨ (a = none ∧ n = d)

/-- The argument is `True` or `False`. -/
def IsBool (b d : Bool) (a : Option Arg) : Prop := a = some (.int (if b then 1 else 0)) ∨ (a = none ∧ b = d)

/-- The argument is a list of pairs of path and offset. -/
inductive IsDisks : List (Bytes × Nat) → List DiskArg → Prop where
  | nil : IsDisks [] []
  | cons {p : Bytes} {o : Nat} {x : Arg} {ds : List (Bytes × Nat)} {as : List DiskArg} :
      IsPath p x → o < 2 ^ 64 → IsDisks ds as → IsDisks ((p, o) :: ds) (.tuple [x, .int o] :: as)

/-- The documented values of `align` and `sector`, with the flags of the library. -/
def Aligns : List (Int × Nat) := [(1048576, 0x10), (2097152, 0x20), (4194304, 0x40), (8388608, 0x80)]
def Sectors : List (Int × Nat) := [(512, 0x100), (4096, 0x200)]

def padDisks (ds : List (Bytes × Nat)) : List Disk := ds.map fun d => ⟨pad 1024 d.1, d.2⟩

/-! ## Lemmas -/

theorem cstr_eq {b : Bytes} (h : 0 ∉ b) : cstr b = b := by
  induction b with
  | nil => rfl
  | cons c b ih =>
    have h1 : c ≠ 0 := fun e => h (by simp [e])
    have h2 : 0 ∉ b := fun e => h (List.mem_cons_of_mem _ e)
    rw [cstr, List.takeWhile_cons, if_pos (by simpa using h1), ← cstr, ih h2]

theorem cstr_append {b c : Bytes} (h : 0 ∉ b) : cstr (b ++ c) = b ++ cstr c := by
  induction b with
  | nil => rfl
  | cons x b ih =>
    have h1 : x ≠ 0 := fun e => h (by simp [e])
    have h2 : 0 ∉ b := fun e => h (List.mem_cons_of_mem _ e)
    rw [List.cons_append, cstr, List.takeWhile_cons, if_pos (by simpa using h1), ← cstr, ih h2, List.cons_append]

theorem cstr_zero (c : Bytes) : cstr (0 :: c) = [] := by
  rw [cstr, List.takeWhile_cons, if_neg (by simp)]

theorem cstr_pad {n : Nat} {b : Bytes} (h : 0 ∉ b) : cstr (pad n b) = b := by
  rw [pad, cstr_append h]
  cases n - b.length with
  | zero => simp [cstr]
  | succ k => rw [List.replicate_succ, cstr_zero, List.append_nil]

theorem strncpy_eq {n : Nat} {b : Bytes} (h : 0 ∉ b) (hl : b.length ≤ n) : strncpy n b = pad n b := by
  rw [strncpy, cstr_eq h, List.take_of_length_le hl, pad]

theorem pathField_eq {p : Bytes} (h : 0 ∉ p) (hl : p.length ≤ 1023) : pathField p = pad 1024 p := by
  rw [pathField, show PATH_LEN - 1 = 1023 from rfl, strncpy_eq h hl, pad, pad, List.append_assoc,
    show [(0 : UInt8)] = List.replicate 1 0 from rfl, List.replicate_append_replicate]
  congr 2
  omega

theorem toBytes_name {b : Bytes} {a : Arg} (h : IsName b a) : toBytes a = .ok b := by
  rw [h.1]; rfl

theorem name_field {b : Bytes} {a : Arg} (h : IsName b a) : strncpy NAME_LEN b = pad 48 b := strncpy_eq h.2.2 h.2.1

theorem toPath_path {p : Bytes} {a : Arg} (h : IsPath p a) : toPath a = .ok p := by
  rcases h with ⟨rfl | rfl, -, h⟩ <;> exact if_neg h

theorem path_field {p : Bytes} {a : Arg} (h : IsPath p a) : pathField p = pad 1024 p := pathField_eq h.2.2 h.2.1

theorem path_valid {p : Bytes} {a : Arg} (h : IsPath p a) : validatePath p = .ok () := by
  have := h.2.1
  exact if_neg (by unfold PATH_LEN; omega)

theorem mask_nat {w n : Nat} (h : n < 2 ^ w) : toMask w (.int n) = .ok n := by
  have : ((n : Int) % 2 ^ w) = ((n % 2 ^ w : Nat) : Int) := by
    rw [Int.natCast_emod]; congr 1
  show Except.ok ((n : Int) % 2 ^ w).toNat = _
  rw [this, Int.toNat_natCast, Nat.mod_eq_of_lt h]

theorem opt_nat {w n d : Nat} {a : Option Arg} (h : IsNat w n d a) : opt d (toMask w) a = .ok n := by
  rcases h with ⟨rfl, h⟩ | ⟨rfl, rfl⟩
  · exact mask_nat h
  · rfl

theorem opt_int {w : Nat} {n d : Int} {a : Option Arg} (h : IsInt w n d a) : opt d (toInt w) a = .ok n := by
  rcases h with ⟨rfl, h⟩ | ⟨rfl, rfl⟩
  · exact if_pos h
  · rfl

theorem opt_false {b : Bool} {a : Option Arg} (h : IsBool b false a) : opt 0 (toInt 32) a = .ok (if b then 1 else 0) := by
  rcases h with rfl | ⟨rfl, rfl⟩
  · cases b <;> rfl
  · rfl

theorem opt_true {b : Bool} {a : Option Arg} (h : IsBool b true a) : opt 1 (toInt 32) a = .ok (if b then 1 else 0) := by
  rcases h with rfl | ⟨rfl, rfl⟩
  · cases b <;> rfl
  · rfl

theorem disks_eq {ds : List (Bytes × Nat)} {as : List DiskArg} (h : IsDisks ds as) : parseDisks as = .ok (padDisks ds) := by
  induction h with
  | nil => rfl
  | @cons p o x ds as hp ho _ ih =>
    simp only [parseDisks, parseDisk, toPath_path hp, mask_nat ho, path_valid hp, ih, bind, Except.bind, path_field hp, padDisks,
      List.map_cons]

theorem sizes_eq {al se : Int} {fa fs : Nat} (ha : (al, fa) ∈ Aligns) (hs : (se, fs) ∈ Sectors) :
    sizeFlags al se = .ok (fa + fs) := by
  simp only [Aligns, Sectors, List.mem_cons, Prod.mk.injEq, List.not_mem_nil, or_false] at ha hs
  rcases ha with ⟨rfl, rfl⟩ | ⟨rfl, rfl⟩ | ⟨rfl, rfl⟩ | ⟨rfl, rfl⟩ <;> rcases hs with ⟨rfl, rfl⟩ | ⟨rfl, rfl⟩ <;> rfl

theorem field_nil : strncpy NAME_LEN [] = pad 48 [] := strncpy_eq (by simp) (by simp)

/-! ## C63: the library is asked for what the caller asked for -/

/-- **C63** for `get_alignment`. -/
theorem get_alignment_partial {path : Arg} {p : Bytes} (hp : IsPath p path) :
    getAlignment path = .ok (.align ⟨pad 1024 p, 0⟩) := by
  simp only [getAlignment, toPath_path hp, bind, Except.bind, path_field hp]

/-- **C63** for `write_lockspace`.  The name, path, offset, number of hosts and timeout reach the library as they were given,
the missing ones with the documented default, and the flags say the alignment and the sector size.  Missing here and below:
names, paths and numbers that do not fit, see the theorems ending with `_violated`. -/
theorem write_lockspace_partial {lockspace path : Arg} {offset maxHosts ioTimeout align sector : Option Arg} {n p : Bytes}
    {o t fa fs : Nat} {m al se : Int} (hn : IsName n lockspace) (hp : IsPath p path) (ho : IsNat 64 o 0 offset)
    (hm : IsInt 32 m 0 maxHosts) (ht : IsNat 32 t 0 ioTimeout) (ha : IsInt 64 al 1048576 align) (hs : IsInt 32 se 512 sector)
    (hfa : (al, fa) ∈ Aligns) (hfs : (se, fs) ∈ Sectors) :
    writeLockspace lockspace path offset maxHosts ioTimeout align sector =
      .ok (.writeLockspace ⟨pad 48 n, 0, pad 1024 p, o, fa + fs⟩ m 0 t) := by
  simp only [writeLockspace, toBytes_name hn, toPath_path hp, opt_nat ho, opt_int hm, opt_nat ht, opt_int ha, opt_int hs,
    sizes_eq hfa hfs, bind, Except.bind, path_field hp, name_field hn]

/-- **C63** for `read_lockspace`. -/
theorem read_lockspace_partial {path : Arg} {offset align sector : Option Arg} {p : Bytes} {o fa fs : Nat} {al se : Int}
    (hp : IsPath p path) (ho : IsNat 64 o 0 offset) (ha : IsInt 64 al 1048576 align) (hs : IsInt 32 se 512 sector)
    (hfa : (al, fa) ∈ Aligns) (hfs : (se, fs) ∈ Sectors) :
    readLockspace path offset align sector = .ok (.readLockspace ⟨pad 48 [], 0, pad 1024 p, o, fa + fs⟩ 0) := by
  simp only [readLockspace, toPath_path hp, opt_nat ho, opt_int ha, opt_int hs, sizes_eq hfa hfs, bind, Except.bind,
    path_field hp, field_nil]

/-- **C63** for `read_resource`. -/
theorem read_resource_partial {path : Arg} {offset align sector : Option Arg} {p : Bytes} {o fa fs : Nat} {al se : Int}
    (hp : IsPath p path) (ho : IsNat 64 o 0 offset) (ha : IsInt 64 al 1048576 align) (hs : IsInt 32 se 512 sector)
    (hfa : (al, fa) ∈ Aligns) (hfs : (se, fs) ∈ Sectors) :
    readResource path offset align sector =
      .ok (.readResource ⟨pad 48 [], pad 48 [], 0, fa + fs, [⟨pad 1024 p, o⟩]⟩ 0) := by
  simp only [readResource, toPath_path hp, opt_nat ho, opt_int ha, opt_int hs, sizes_eq hfa hfs, bind, Except.bind,
    path_field hp, field_nil, path_valid hp]

/-- **C63** for `write_resource`. -/
theorem write_resource_partial {lockspace resource : Arg} {as : List DiskArg} {maxHosts numHosts clear align sector : Option Arg}
    {n r : Bytes} {ds : List (Bytes × Nat)} {m nh al se : Int} {fa fs : Nat} {c : Bool} (hn : IsName n lockspace)
    (hr : IsName r resource) (hd : IsDisks ds as) (hm : IsInt 32 m 0 maxHosts) (hnh : IsInt 32 nh 0 numHosts)
    (hc : IsBool c false clear) (ha : IsInt 64 al 1048576 align) (hs : IsInt 32 se 512 sector)
    (hfa : (al, fa) ∈ Aligns) (hfs : (se, fs) ∈ Sectors) :
    writeResource lockspace resource (some as) maxHosts numHosts clear align sector =
      .ok (.writeResource ⟨pad 48 n, pad 48 r, 0, fa + fs, padDisks ds⟩ m nh (if c then 1 else 0)) := by
  simp only [writeResource, toBytes_name hn, toBytes_name hr, toList, opt_int hm, opt_int hnh, opt_false hc, opt_int ha,
    opt_int hs, disks_eq hd, sizes_eq hfa hfs, bind, Except.bind, name_field hn, name_field hr]
  cases c <;> rfl

/-- **C63** for `add_lockspace`.  Without `wait` the library is asked not to wait. -/
theorem add_lockspace_partial {lockspace hostId path : Arg} {offset ioTimeout wait : Option Arg} {n p : Bytes} {h o t : Nat}
    {w : Bool} (hn : IsName n lockspace) (hh : hostId = .int h ∧ h < 2 ^ 64) (hp : IsPath p path) (ho : IsNat 64 o 0 offset)
    (ht : IsNat 32 t 0 ioTimeout) (hw : IsBool w true wait) :
    addLockspace lockspace hostId path offset ioTimeout wait =
      .ok (.addLockspace ⟨pad 48 n, h, pad 1024 p, o, 0⟩ (if w then 0 else 1) t) := by
  obtain ⟨rfl, hh⟩ := hh
  simp only [addLockspace, toBytes_name hn, mask_nat hh, toPath_path hp, opt_nat ho, opt_nat ht, opt_true hw, bind, Except.bind,
    path_field hp, name_field hn]
  cases w <;> rfl

/-- **C63** for `inq_lockspace`. -/
theorem inq_lockspace_partial {lockspace hostId path : Arg} {offset wait : Option Arg} {n p : Bytes} {h o : Nat}
    {w : Bool} (hn : IsName n lockspace) (hh : hostId = .int h ∧ h < 2 ^ 64) (hp : IsPath p path) (ho : IsNat 64 o 0 offset)
    (hw : IsBool w false wait) :
    inqLockspace lockspace hostId path offset wait =
      .ok (.inqLockspace ⟨pad 48 n, h, pad 1024 p, o, 0⟩ (if w then 1 else 0)) := by
  obtain ⟨rfl, hh⟩ := hh
  simp only [inqLockspace, toBytes_name hn, mask_nat hh, toPath_path hp, opt_nat ho, opt_false hw, bind, Except.bind,
    path_field hp, name_field hn]
  cases w <;> rfl

/-- **C63** for `rem_lockspace`. -/
theorem rem_lockspace_partial {lockspace hostId path : Arg} {offset wait unused : Option Arg} {n p : Bytes} {h o : Nat}
    {w u : Bool} (hn : IsName n lockspace) (hh : hostId = .int h ∧ h < 2 ^ 64) (hp : IsPath p path) (ho : IsNat 64 o 0 offset)
    (hw : IsBool w true wait) (hu : IsBool u false unused) :
    remLockspace lockspace hostId path offset wait unused =
      .ok (.remLockspace ⟨pad 48 n, h, pad 1024 p, o, 0⟩ ((if w then 0 else 1) + (if u then 2 else 0))) := by
  obtain ⟨rfl, hh⟩ := hh
  simp only [remLockspace, toBytes_name hn, mask_nat hh, toPath_path hp, opt_nat ho, opt_true hw, opt_false hu, bind,
    Except.bind, path_field hp, name_field hn]
  cases w <;> cases u <;> rfl

/-- **C63** for `get_hosts`. -/
theorem get_hosts_partial {lockspace : Arg} {hostId : Option Arg} {n : Bytes} {h : Nat} (hn : IsName n lockspace)
    (hh : IsNat 64 h 0 hostId) : getHosts lockspace hostId = .ok (.getHosts (pad 48 n) h) := by
  simp only [getHosts, toBytes_name hn, opt_nat hh, bind, Except.bind, name_field hn]

/-- The version argument: `None`, or a number. -/
def IsVersion (v : Option Nat) (a : Option Arg) : Prop :=
  (v = none ∧ (a = none ∨ a = some .none)) ∨ ∃ k, v = some k ∧ a = some (.int k) ∧ k < 2 ^ 64 - 1

theorem version_eq {v : Option Nat} {a : Option Arg} (h : IsVersion v a) : toVersion (a.getD .none) = .ok v := by
  rcases h with ⟨rfl, rfl | rfl⟩ | ⟨k, rfl, rfl, hk⟩
  · rfl
  · rfl
  · have : ((k : Int) % 2 ^ 64).toNat = k := by omega
    show (if ((k : Int) % 2 ^ 64).toNat = 2 ^ 64 - 1 then _ else _) = _
    rw [this, if_neg (by omega)]

/-- **C63** for `acquire`.  The request is for the given resource on the given disks, for the process of the descriptor or the
given one, shared only if `shared` is true, with the lock value block only if `lvb` is true, and with a version only if one was
given. -/
theorem acquire_partial {lockspace resource : Arg} {as : List DiskArg} {slkfd pid shared lvb version : Option Arg}
    {n r : Bytes} {ds : List (Bytes × Nat)} {fd p : Int} {sh lv : Bool} {v : Option Nat} (hn : IsName n lockspace)
    (hr : IsName r resource) (hd : IsDisks ds as) (hf : IsInt 32 fd (-1) slkfd) (hp : IsInt 32 p (-1) pid)
    (hfp : fd ≠ -1 ∨ p ≠ -1) (hsh : IsBool sh false shared) (hlv : IsBool lv false lvb) (hv : IsVersion v version) :
    acquire lockspace resource (some as) slkfd pid shared lvb version =
      .ok (.acquire fd p (if lv then 1 else 0)
        ⟨pad 48 n, pad 48 r, v.getD 0, (if sh then 4 else 0) + (if v.isSome then 1 else 0), padDisks ds⟩) := by
  have hc : ¬ (fd = -1 ∧ p = -1) := by omega
  simp only [acquire, toBytes_name hn, toBytes_name hr, toList, opt_int hf, opt_int hp, opt_false hsh, opt_false hlv,
    if_neg hc, disks_eq hd, version_eq hv, bind, Except.bind, name_field hn, name_field hr]
  cases sh <;> cases lv <;> cases v <;> simp

/-- **C63** for `inquire`. -/
theorem inquire_call_partial {slkfd pid : Option Arg} {fd p : Int} (hf : IsInt 32 fd (-1) slkfd) (hp : IsInt 32 p (-1) pid)
    (hfp : fd ≠ -1 ∨ p ≠ -1) : inquire slkfd pid = .ok (.inquire fd p) := by
  have hc : ¬ (fd = -1 ∧ p = -1) := by omega
  simp only [inquire, opt_int hf, opt_int hp, if_neg hc, bind, Except.bind]

/-- **C63** for `acquire` and `inquire` without a process: no lease is taken, the error is EINVAL. -/
theorem no_process_refused {lockspace resource : Arg} {l : List DiskArg} {shared lvb version slkfd pid : Option Arg}
    {n r : Bytes} {sh lv : Bool} (hn : IsName n lockspace) (hr : IsName r resource) (hsh : IsBool sh false shared)
    (hlv : IsBool lv false lvb) (hf : IsInt 32 (-1) (-1) slkfd) (hp : IsInt 32 (-1) (-1) pid) :
    acquire lockspace resource (some l) slkfd pid shared lvb version = .error (.sanlock 22) ∧
    inquire slkfd pid = .error (.sanlock 22) := by
  simp only [acquire, inquire, toBytes_name hn, toBytes_name hr, toList, opt_int hf, opt_int hp, opt_false hsh, opt_false hlv,
    bind, Except.bind]
  exact ⟨rfl, rfl⟩

/-- **C63** for `release`. -/
theorem release_partial {lockspace resource : Arg} {as : List DiskArg} {slkfd pid : Option Arg}
    {n r : Bytes} {ds : List (Bytes × Nat)} {fd p : Int} (hn : IsName n lockspace)
    (hr : IsName r resource) (hd : IsDisks ds as) (hf : IsInt 32 fd (-1) slkfd) (hp : IsInt 32 p (-1) pid) :
    release lockspace resource (some as) slkfd pid = .ok (.release fd p 0 ⟨pad 48 n, pad 48 r, 0, 0, padDisks ds⟩) := by
  simp only [release, toBytes_name hn, toBytes_name hr, toList, opt_int hf, opt_int hp, disks_eq hd, bind, Except.bind,
    name_field hn, name_field hr]

/-- **C63** for `request`.  The default action is the graceful one (2); without a version the next one is asked for. -/
theorem request_partial {lockspace resource : Arg} {as : List DiskArg} {action version : Option Arg}
    {n r : Bytes} {ds : List (Bytes × Nat)} {a : Int} {v : Option Nat} (hn : IsName n lockspace)
    (hr : IsName r resource) (hd : IsDisks ds as) (ha : IsInt 32 a 2 action) (hv : IsVersion v version) :
    request lockspace resource (some as) action version =
      .ok (.request (if v.isSome then 0 else 1) a ⟨pad 48 n, pad 48 r, v.getD 0, if v.isSome then 1 else 0, padDisks ds⟩) := by
  simp only [request, toBytes_name hn, toBytes_name hr, toList, opt_int ha, disks_eq hd, version_eq hv, bind, Except.bind,
    name_field hn, name_field hr]
  cases v <;> rfl

/-- **C63** for `read_resource_owners`. -/
theorem read_owners_partial {lockspace resource : Arg} {as : List DiskArg} {align sector : Option Arg}
    {n r : Bytes} {ds : List (Bytes × Nat)} {al se : Int} {fa fs : Nat} (hn : IsName n lockspace)
    (hr : IsName r resource) (hd : IsDisks ds as) (ha : IsInt 64 al 1048576 align) (hs : IsInt 32 se 512 sector)
    (hfa : (al, fa) ∈ Aligns) (hfs : (se, fs) ∈ Sectors) :
    readOwners lockspace resource (some as) align sector =
      .ok (.readOwners ⟨pad 48 n, pad 48 r, 0, fa + fs, padDisks ds⟩) := by
  simp only [readOwners, toBytes_name hn, toBytes_name hr, toList, opt_int ha, opt_int hs, disks_eq hd, sizes_eq hfa hfs,
    bind, Except.bind, name_field hn, name_field hr]

/-- **C63** for the functions of events. -/
theorem event_calls_partial {lockspace hostId generation event fd : Arg} {data flags : Option Arg} {n : Bytes}
    {h g e d f : Nat} {k : Int} (hn : IsName n lockspace) (hh : hostId = .int h ∧ h < 2 ^ 64)
    (hg : generation = .int g ∧ g < 2 ^ 64) (he : event = .int e ∧ e < 2 ^ 64) (hd : IsNat 64 d 0 data)
    (hf : IsNat 32 f 0 flags) (hk : fd = .int k ∧ -2 ^ 31 ≤ k ∧ k < 2 ^ 31) :
    regEvent lockspace = .ok (.regEvent (pad 48 n)) ∧
    endEvent fd lockspace = .ok (.endEvent k (pad 48 n)) ∧
    setEvent lockspace hostId generation event data flags = .ok (.setEvent (pad 48 n) ⟨h, g, e, d⟩ f) := by
  obtain ⟨rfl, hh⟩ := hh
  obtain ⟨rfl, hg⟩ := hg
  obtain ⟨rfl, he⟩ := he
  obtain ⟨rfl, hk⟩ := hk
  have hk' : toInt 32 (.int k) = .ok k := if_pos hk
  simp only [regEvent, endEvent, setEvent, toBytes_name hn, mask_nat hh, mask_nat hg, mask_nat he, opt_nat hd, opt_nat hf, hk',
    bind, Except.bind, name_field hn]
  exact ⟨trivial, trivial, trivial⟩

/-- **C63** for the functions of the lock value block.  Any data is passed on, including zeros. -/
theorem lvb_calls_partial {lockspace resource size : Arg} {as : List DiskArg} {n r b : Bytes} {ds : List (Bytes × Nat)} {k : Nat}
    (hn : IsName n lockspace) (hr : IsName r resource) (hd : IsDisks ds as) (hk : size = .int k ∧ k < 2 ^ 32) :
    setLvb lockspace resource (some as) (.bytes b) = .ok (.setLvb ⟨pad 48 n, pad 48 r, 0, 0, padDisks ds⟩ b) ∧
    getLvb lockspace resource (some as) size =
      if 1 ≤ k ∧ k ≤ 4096 then .ok (.getLvb ⟨pad 48 n, pad 48 r, 0, 0, padDisks ds⟩ k) else .error .value := by
  obtain ⟨rfl, hk⟩ := hk
  have hb : toBytes (.bytes b) = .ok b := rfl
  simp only [setLvb, getLvb, toBytes_name hn, toBytes_name hr, hb, toList, mask_nat hk, disks_eq hd, bind, Except.bind,
    name_field hn, name_field hr]
  refine ⟨trivial, ?_⟩
  by_cases h : 1 ≤ k ∧ k ≤ 4096
  · rw [if_pos h, if_neg (by omega)]
  · rw [if_neg h, if_pos (by omega)]

/-! ### The hypotheses are met -/

theorem ex_disks : IsDisks [([47, 97], 0), ([47, 98], 1048576)]
    [.tuple [.str (some [47, 97]), .int (0 : Nat)], .tuple [.bytes [47, 98], .int (1048576 : Nat)]] :=
  .cons ⟨Or.inr rfl, by decide, by decide⟩ (by decide) (.cons ⟨Or.inl rfl, by decide, by decide⟩ (by decide) .nil)

example : acquire (.bytes [97]) (.bytes (List.replicate 48 98))
    (some [.tuple [.str (some [47, 97]), .int 0], .tuple [.bytes [47, 98], .int 1048576]]) (some (.int 5)) none (some (.int 1)) none
    (some (.int 7)) = .ok (.acquire 5 (-1) 0 ⟨pad 48 [97], pad 48 (List.replicate 48 98), 7, 5,
      [⟨pad 1024 [47, 97], 0⟩, ⟨pad 1024 [47, 98], 1048576⟩]⟩) :=
  acquire_partial (sh := true) (lv := false) (v := some 7) ⟨rfl, by decide, by decide⟩ ⟨rfl, by decide, by decide⟩ ex_disks
    (Or.inl ⟨rfl, by decide, by decide⟩) (Or.inr ⟨rfl, rfl⟩) (Or.inl (by decide)) (Or.inl rfl) (Or.inr ⟨rfl, rfl⟩)
    (Or.inr ⟨7, rfl, rfl, by decide⟩)

example : writeLockspace (.bytes [97]) (.str (some [47])) (some (.int 4096)) none (some (.int 10)) (some (.int 8388608)) (some (.int 4096)) =
    .ok (.writeLockspace ⟨pad 48 [97], 0, pad 1024 [47], 4096, 0x280⟩ 0 0 10) :=
  write_lockspace_partial (fa := 0x80) (fs := 0x200) ⟨rfl, by decide, by decide⟩ ⟨Or.inr rfl, by decide, by decide⟩
    (Or.inl ⟨rfl, by decide⟩) (Or.inr ⟨rfl, rfl⟩) (Or.inl ⟨rfl, by decide⟩) (Or.inl ⟨rfl, by decide, by decide⟩)
    (Or.inl ⟨rfl, by decide, by decide⟩) (by decide) (by decide)

example : remLockspace (.bytes [97]) (.int 3) (.bytes [47]) none (some (.int 0)) (some (.int 1)) =
    .ok (.remLockspace ⟨pad 48 [97], 3, pad 1024 [47], 0, 0⟩ 3) :=
  rem_lockspace_partial (w := false) (u := true) ⟨rfl, by decide, by decide⟩ ⟨rfl, by decide⟩ ⟨Or.inl rfl, by decide, by decide⟩
    (Or.inr ⟨rfl, rfl⟩) (Or.inl rfl) (Or.inl rfl)

example : request (.bytes [97]) (.bytes [98]) (some [.tuple [.str (some [47, 97]), .int 0], .tuple [.bytes [47, 98], .int 1048576]]) none
    (some .none) = .ok (.request 1 2 ⟨pad 48 [97], pad 48 [98], 0, 0, [⟨pad 1024 [47, 97], 0⟩, ⟨pad 1024 [47, 98], 1048576⟩]⟩) :=
  request_partial (v := none) ⟨rfl, by decide, by decide⟩ ⟨rfl, by decide, by decide⟩ ex_disks (Or.inr ⟨rfl, rfl⟩)
    (Or.inl ⟨rfl, Or.inr rfl⟩)

/-- A disk that is no pair, a path with a zero and one that is too long are refused. -/
example : release (.bytes [97]) (.bytes [98]) (some [.tuple [.bytes [47]]]) none none = .error .value ∧
    release (.bytes [97]) (.bytes [98]) (some [.tuple [.bytes [47, 0, 97], .int 0]]) none none = .error .value ∧
    release (.bytes [97]) (.bytes [98]) (some [.tuple [.bytes (List.replicate 1024 47), .int 0]]) none none = .error .value := by
  decide +kernel

/-! ### What is refused -/

/-- A disk that has passed the check: a pair of a path that fits and an integer. -/
def Checked (a : DiskArg) (d : Disk) : Prop :=
  ∃ x p, ∃ i : Int, a = .tuple [x, .int i] ∧ IsPath p x ∧ d = ⟨pad 1024 p, (i % 2 ^ 64).toNat⟩

theorem parseDisk_ok {a : DiskArg} {d : Disk} (h : parseDisk a = .ok d) : Checked a d := by
  unfold parseDisk at h
  split at h
  case h_2 => simp at h
  case h_1 x y =>
    split at h
    case h_2 => simp at h
    case h_1 p o hp ho =>
      have hi : ∃ i, y = .int i ∧ o = (i % 2 ^ 64).toNat := by
        unfold toMask at ho
        split at ho
        · exact ⟨_, rfl, by simpa using ho.symm⟩
        · simp at ho
      obtain ⟨i, rfl, rfl⟩ := hi
      have hx : (x = .bytes p ∨ x = .str (some p)) ∧ 0 ∉ p := by
        unfold toPath at hp
        split at hp
        case h_1 b =>
          split at hp
          · simp at hp
          · rename_i h0; injection hp with hp; subst hp; exact ⟨Or.inl rfl, h0⟩
        case h_2 b =>
          split at hp
          · simp at hp
          · rename_i h0; injection hp with hp; subst hp; exact ⟨Or.inr rfl, h0⟩
        all_goals simp at hp
      simp only [bind, Except.bind] at h
      unfold validatePath at h
      by_cases hl : p.length > PATH_LEN - 1
      · rw [if_pos hl] at h; simp at h
      · rw [if_neg hl] at h
        have hl : p.length ≤ 1023 := by unfold PATH_LEN at hl; omega
        have h : Disk.mk (pathField p) (i % 2 ^ 64).toNat = d := by simpa using h
        refine ⟨x, p, i, rfl, ⟨hx.1, hl, hx.2⟩, ?_⟩
        rw [← h, pathField_eq hx.2 hl]

/-- Both lists have the same length and the disks are checked one by one. -/
inductive AllChecked : List DiskArg → List Disk → Prop where
  | nil : AllChecked [] []
  | cons {a : DiskArg} {d : Disk} {as : List DiskArg} {ds : List Disk} : Checked a d → AllChecked as ds →
      AllChecked (a :: as) (d :: ds)

theorem parseDisks_ok {as : List DiskArg} {ds : List Disk} (h : parseDisks as = .ok ds) : AllChecked as ds := by
  induction as generalizing ds with
  | nil => injection h with h; subst h; exact .nil
  | cons a as ih =>
    simp only [parseDisks, bind, Except.bind] at h
    split at h
    case h_1 => simp at h
    case h_2 d hd =>
      split at h
      case h_1 => simp at h
      case h_2 ds' hds =>
        injection h with h
        subst h
        exact .cons (parseDisk_ok hd) (ih hds)

/-- The disks in a call of the library. -/
def Call.disks : Call → List Disk
  | .writeResource r .. | .acquire _ _ _ r | .release _ _ _ r | .request _ _ r | .readOwners r | .setLvb r _ | .getLvb r _ => r.disks
  | _ => []

theorem bind_ok {x : Except Exc α} {f : α → Except Exc β} {b : β} (h : (x >>= f) = .ok b) : ∃ a, x = .ok a ∧ f a = .ok b := by
  cases x with
  | error e => simp [bind, Except.bind] at h
  | ok a => exact ⟨a, rfl, h⟩

theorem toList_ok {l : Option (List α)} {x : List α} (h : toList l = .ok x) : l = some x := by
  cases l with
  | none => simp [toList] at h
  | some l => simp [toList] at h; rw [h]

/-- **C63** for disks.  Whatever the other arguments are, no call of the library is made with a disk that is not a pair of a
path that fits and an integer, and none is left out or added. -/
theorem disks_checked {lockspace resource data size : Arg} {disks : Option (List DiskArg)}
    {maxHosts numHosts clear align sector slkfd pid shared lvb version action : Option Arg} {c : Call}
    (h : writeResource lockspace resource disks maxHosts numHosts clear align sector = .ok c ∨
      acquire lockspace resource disks slkfd pid shared lvb version = .ok c ∨
      release lockspace resource disks slkfd pid = .ok c ∨ request lockspace resource disks action version = .ok c ∨
      readOwners lockspace resource disks align sector = .ok c ∨ setLvb lockspace resource disks data = .ok c ∨
      getLvb lockspace resource disks size = .ok c) :
    ∃ l, disks = some l ∧ AllChecked l c.disks := by
  rcases h with h | h | h | h | h | h | h
  · simp only [writeResource] at h
    obtain ⟨_, -, h⟩ := bind_ok h
    obtain ⟨_, -, h⟩ := bind_ok h
    obtain ⟨l, hl, h⟩ := bind_ok h
    obtain ⟨_, -, h⟩ := bind_ok h
    obtain ⟨_, -, h⟩ := bind_ok h
    obtain ⟨_, -, h⟩ := bind_ok h
    obtain ⟨_, -, h⟩ := bind_ok h
    obtain ⟨_, -, h⟩ := bind_ok h
    obtain ⟨ds, hd, h⟩ := bind_ok h
    obtain ⟨_, -, h⟩ := bind_ok h
    injection h with h; subst h
    exact ⟨l, toList_ok hl, parseDisks_ok hd⟩
  · simp only [acquire] at h
    obtain ⟨_, -, h⟩ := bind_ok h
    obtain ⟨_, -, h⟩ := bind_ok h
    obtain ⟨l, hl, h⟩ := bind_ok h
    obtain ⟨_, -, h⟩ := bind_ok h
    obtain ⟨_, -, h⟩ := bind_ok h
    obtain ⟨_, -, h⟩ := bind_ok h
    obtain ⟨_, -, h⟩ := bind_ok h
    split at h
    · simp at h
    · obtain ⟨ds, hd, h⟩ := bind_ok h
      obtain ⟨_, -, h⟩ := bind_ok h
      injection h with h; subst h
      exact ⟨l, toList_ok hl, parseDisks_ok hd⟩
  · simp only [release] at h
    obtain ⟨_, -, h⟩ := bind_ok h
    obtain ⟨_, -, h⟩ := bind_ok h
    obtain ⟨l, hl, h⟩ := bind_ok h
    obtain ⟨_, -, h⟩ := bind_ok h
    obtain ⟨_, -, h⟩ := bind_ok h
    obtain ⟨ds, hd, h⟩ := bind_ok h
    injection h with h; subst h
    exact ⟨l, toList_ok hl, parseDisks_ok hd⟩
  · simp only [request] at h
    obtain ⟨_, -, h⟩ := bind_ok h
    obtain ⟨_, -, h⟩ := bind_ok h
    obtain ⟨l, hl, h⟩ := bind_ok h
    obtain ⟨_, -, h⟩ := bind_ok h
    obtain ⟨ds, hd, h⟩ := bind_ok h
    obtain ⟨_, -, h⟩ := bind_ok h
    injection h with h; subst h
    exact ⟨l, toList_ok hl, parseDisks_ok hd⟩
  · simp only [readOwners] at h
    obtain ⟨_, -, h⟩ := bind_ok h
    obtain ⟨_, -, h⟩ := bind_ok h
    obtain ⟨l, hl, h⟩ := bind_ok h
    obtain ⟨_, -, h⟩ := bind_ok h
    obtain ⟨_, -, h⟩ := bind_ok h
    obtain ⟨ds, hd, h⟩ := bind_ok h
    obtain ⟨_, -, h⟩ := bind_ok h
    injection h with h; subst h
    exact ⟨l, toList_ok hl, parseDisks_ok hd⟩
  · simp only [setLvb] at h
    obtain ⟨_, -, h⟩ := bind_ok h
    obtain ⟨_, -, h⟩ := bind_ok h
    obtain ⟨l, hl, h⟩ := bind_ok h
    obtain ⟨_, -, h⟩ := bind_ok h
    obtain ⟨ds, hd, h⟩ := bind_ok h
    injection h with h; subst h
    exact ⟨l, toList_ok hl, parseDisks_ok hd⟩
  · simp only [getLvb] at h
    obtain ⟨_, -, h⟩ := bind_ok h
    obtain ⟨_, -, h⟩ := bind_ok h
    obtain ⟨l, hl, h⟩ := bind_ok h
    obtain ⟨_, -, h⟩ := bind_ok h
    split at h
    · simp at h
    · obtain ⟨ds, hd, h⟩ := bind_ok h
      injection h with h; subst h
      exact ⟨l, toList_ok hl, parseDisks_ok hd⟩

theorem sizes_ok {al se : Int} {f : Nat} (h : sizeFlags al se = .ok f) :
    al ∈ Aligns.map (·.1) ∧ se ∈ Sectors.map (·.1) := by
  unfold sizeFlags at h
  obtain ⟨a, ha, h⟩ := bind_ok h
  obtain ⟨s, hs, -⟩ := bind_ok h
  constructor
  · unfold alignFlag at ha
    simp only [Aligns, List.map_cons, List.map_nil, List.mem_cons, List.not_mem_nil, or_false]
    (repeat' split at ha) <;> simp_all
  · unfold sectorFlag at hs
    simp only [Sectors, List.map_cons, List.map_nil, List.mem_cons, List.not_mem_nil, or_false]
    (repeat' split at hs) <;> simp_all

/-- **C63** for sizes.  No call of the library is made with an alignment or a sector size that is not documented. -/
theorem sizes_checked {lockspace resource path : Arg} {disks : Option (List DiskArg)}
    {maxHosts numHosts clear offset ioTimeout : Option Arg} {al se : Int} {c : Call}
    (h : writeResource lockspace resource disks maxHosts numHosts clear (some (.int al)) (some (.int se)) = .ok c ∨
      readOwners lockspace resource disks (some (.int al)) (some (.int se)) = .ok c ∨
      writeLockspace lockspace path offset maxHosts ioTimeout (some (.int al)) (some (.int se)) = .ok c ∨
      readLockspace path offset (some (.int al)) (some (.int se)) = .ok c ∨
      readResource path offset (some (.int al)) (some (.int se)) = .ok c) :
    al ∈ [1048576, 2097152, 4194304, 8388608] ∧ se ∈ [512, 4096] := by
  have hi : ∀ {w : Nat} {d i a : Int}, opt d (toInt w) (some (.int i)) = .ok a → a = i := by
    intro w d i a h
    simp only [opt, toInt] at h
    split at h
    · simpa using h.symm
    · simp at h
  have key : ∀ {al' se' : Int} {f : Nat}, opt 1048576 (toInt 64) (some (.int al)) = .ok al' →
      opt 512 (toInt 32) (some (.int se)) = .ok se' → sizeFlags al' se' = .ok f →
      al ∈ [1048576, 2097152, 4194304, 8388608] ∧ se ∈ [512, 4096] := by
    intro al' se' f h1 h2 h3
    have h1 := hi h1
    have h2 := hi h2
    subst h1 h2
    exact sizes_ok h3
  rcases h with h | h | h | h | h
  · simp only [writeResource] at h
    obtain ⟨_, -, h⟩ := bind_ok h
    obtain ⟨_, -, h⟩ := bind_ok h
    obtain ⟨_, -, h⟩ := bind_ok h
    obtain ⟨_, -, h⟩ := bind_ok h
    obtain ⟨_, -, h⟩ := bind_ok h
    obtain ⟨_, -, h⟩ := bind_ok h
    obtain ⟨_, h1, h⟩ := bind_ok h
    obtain ⟨_, h2, h⟩ := bind_ok h
    obtain ⟨_, -, h⟩ := bind_ok h
    obtain ⟨_, h3, -⟩ := bind_ok h
    exact key h1 h2 h3
  · simp only [readOwners] at h
    obtain ⟨_, -, h⟩ := bind_ok h
    obtain ⟨_, -, h⟩ := bind_ok h
    obtain ⟨_, -, h⟩ := bind_ok h
    obtain ⟨_, h1, h⟩ := bind_ok h
    obtain ⟨_, h2, h⟩ := bind_ok h
    obtain ⟨_, -, h⟩ := bind_ok h
    obtain ⟨_, h3, -⟩ := bind_ok h
    exact key h1 h2 h3
  · simp only [writeLockspace] at h
    obtain ⟨_, -, h⟩ := bind_ok h
    obtain ⟨_, -, h⟩ := bind_ok h
    obtain ⟨_, -, h⟩ := bind_ok h
    obtain ⟨_, -, h⟩ := bind_ok h
    obtain ⟨_, -, h⟩ := bind_ok h
    obtain ⟨_, h1, h⟩ := bind_ok h
    obtain ⟨_, h2, h⟩ := bind_ok h
    obtain ⟨_, h3, -⟩ := bind_ok h
    exact key h1 h2 h3
  · simp only [readLockspace] at h
    obtain ⟨_, -, h⟩ := bind_ok h
    obtain ⟨_, -, h⟩ := bind_ok h
    obtain ⟨_, h1, h⟩ := bind_ok h
    obtain ⟨_, h2, h⟩ := bind_ok h
    obtain ⟨_, h3, -⟩ := bind_ok h
    exact key h1 h2 h3
  · simp only [readResource] at h
    obtain ⟨_, -, h⟩ := bind_ok h
    obtain ⟨_, -, h⟩ := bind_ok h
    obtain ⟨_, h1, h⟩ := bind_ok h
    obtain ⟨_, h2, h⟩ := bind_ok h
    obtain ⟨_, -, h⟩ := bind_ok h
    obtain ⟨_, h3, -⟩ := bind_ok h
    exact key h1 h2 h3

/-! ### What is passed on although it is something else -/

theorem strncpy_long {n : Nat} {b x : Bytes} (h : 0 ∉ b) (hl : b.length = n) : strncpy n (b ++ x) = strncpy n b := by
  have h1 : (cstr (b ++ x)).take n = b := by
    rw [cstr_append h, ← hl, List.take_left]
  have h2 : (cstr b).take n = b := by rw [cstr_eq h, ← hl, List.take_length]
  rw [strncpy, strncpy, h1, h2]

/-- **Finding**: C63 is false for names of more than 48 bytes.  They are cut without an error, so that two different names are
the same to every function; here `add_lockspace` and `acquire`. -/
theorem name_cut_violated (b x : Bytes) (hl : b.length = 48) (h0 : 0 ∉ b) (hostId path : Arg) (o t w : Option Arg)
    (disks : Option (List DiskArg)) (fd p s l v : Option Arg) :
    addLockspace (.bytes (b ++ x)) hostId path o t w = addLockspace (.bytes b) hostId path o t w ∧
    acquire (.bytes b) (.bytes (b ++ x)) disks fd p s l v = acquire (.bytes b) (.bytes b) disks fd p s l v := by
  have h : strncpy NAME_LEN (b ++ x) = strncpy NAME_LEN b := strncpy_long h0 hl
  simp only [addLockspace, acquire, toBytes, bind, Except.bind, h]
  exact ⟨trivial, trivial⟩

/-- Not vacuous: the call is made. -/
example : (addLockspace (.bytes (List.replicate 48 97 ++ [98])) (.int 1) (.bytes [47]) none none none).toBool = true := by decide +kernel

/-- **Finding**: bytes after a zero in a name are dropped without an error. -/
theorem name_zero_violated (b x : Bytes) (hostId path : Arg) (o t w : Option Arg) :
    addLockspace (.bytes (b ++ 0 :: x)) hostId path o t w = addLockspace (.bytes b) hostId path o t w := by
  have h : strncpy NAME_LEN (b ++ 0 :: x) = strncpy NAME_LEN b := by
    have : cstr (b ++ 0 :: x) = cstr b := by
      induction b with
      | nil => rw [List.nil_append, cstr_zero]; rfl
      | cons c b ih =>
        rw [List.cons_append, cstr, List.takeWhile_cons, cstr, List.takeWhile_cons, ← cstr, ← cstr, ih]
    rw [strncpy, strncpy, this]
  simp only [addLockspace, toBytes, bind, Except.bind, h]

/-- **Finding**: paths of more than 1023 bytes are cut without an error by the functions of lockspaces, so that another file
is used; the functions of resources refuse them. -/
theorem path_cut_violated (p x : Bytes) (hl : p.length = 1023) (h0 : 0 ∉ p) (hx : 0 ∉ x) (lockspace : Arg)
    (o m t a s : Option Arg) :
    writeLockspace lockspace (.bytes (p ++ x)) o m t a s = writeLockspace lockspace (.bytes p) o m t a s := by
  have h : pathField (p ++ x) = pathField p := by
    rw [pathField, pathField, show PATH_LEN - 1 = 1023 from rfl, strncpy_long h0 hl]
  have h1 : toPath (.bytes (p ++ x)) = .ok (p ++ x) := if_neg (by simp [h0, hx])
  have h2 : toPath (.bytes p) = .ok p := if_neg h0
  simp only [writeLockspace, h1, h2, bind, Except.bind, h]

/-- **Finding**: numbers that do not fit are reduced without an error: a host id of 2^64 + 1 is 1, a negative offset is a large
one, a timeout of 2^32 seconds is the default. -/
theorem number_wrap_violated (lockspace path : Arg) (h t : Int) (o w : Option Arg) :
    addLockspace lockspace (.int (h + 2 ^ 64)) path o (some (.int t)) w = addLockspace lockspace (.int h) path o (some (.int t)) w ∧
    addLockspace lockspace (.int h) path o (some (.int (t + 2 ^ 32))) w = addLockspace lockspace (.int h) path o (some (.int t)) w := by
  have h1 : toMask 64 (.int (h + 2 ^ 64)) = toMask 64 (.int h) := by
    simp only [toMask]; congr 2; omega
  have h2 : toMask 32 (.int (t + 2 ^ 32)) = toMask 32 (.int t) := by
    simp only [toMask]; congr 2; omega
  simp only [addLockspace, opt, h1, h2]
  exact ⟨trivial, trivial⟩

/-! ## C41: the kill script -/

theorem escapeItem_eq {w : Bytes} (h : ∀ c ∈ w, 32 ≤ c ∧ c ≤ 126) : escapeItem w = HelperArgs.escape w := by
  induction w with
  | nil => rfl
  | cons c w ih =>
    have ih := ih fun d hd => h d (List.mem_cons_of_mem _ hd)
    have hc := h c List.mem_cons_self
    unfold escapeItem HelperArgs.escape
    rw [ih]
    have : ¬ (9 ≤ c ∧ c ≤ 13) := by
      rintro ⟨-, h2⟩
      have h1 := hc.1
      rw [UInt8.le_iff_toNat_le] at h1 h2
      have e1 : (32 : UInt8).toNat = 32 := rfl
      have e2 : (13 : UInt8).toNat = 13 := rfl
      omega
    by_cases h1 : c = 32
    · rw [if_pos (Or.inl h1), if_pos (Or.inr (Or.inl h1))]
    · by_cases h2 : c = 92
      · rw [if_pos (Or.inr h2), if_pos (Or.inl h2)]
      · rw [if_neg (by rintro (h | h) <;> contradiction), if_neg (by rintro (h | h | h) <;> contradiction)]

/-- The buffer after the arguments. -/
theorem items_eq {as : List Arg} {ws : List Bytes} (hw : as = ws.map .bytes ∨ as = ws.map fun w => .str (some w))
    (hc : ∀ w ∈ ws, w ≠ [] ∧ ∀ c ∈ w, 32 ≤ c ∧ c ≤ 126) {acc : Bytes}
    (hl : acc.length + (HelperArgs.joinArgs ws).length + (if ws = [] ∨ acc = [] then 0 else 1) ≤ 126) :
    killpathItems as acc = .ok (if ws = [] then acc else if acc = [] then HelperArgs.joinArgs ws else acc ++ 32 :: HelperArgs.joinArgs ws) := by
  induction ws generalizing as acc with
  | nil =>
    have : as = [] := by rcases hw with h | h <;> simpa using h
    subst this
    rfl
  | cons w ws ih =>
    obtain ⟨a, as', rfl, ha, hw'⟩ : ∃ a as', as = a :: as' ∧ toPath a = .ok w ∧ (as' = ws.map .bytes ∨ as' = ws.map fun w => .str (some w)) := by
      have h0 : (0 : UInt8) ∉ w := by
        intro h
        have := (hc w List.mem_cons_self).2 0 h
        exact absurd this.1 (by decide)
      rcases hw with h | h
      · exact ⟨_, _, h, if_neg h0, Or.inl rfl⟩
      · exact ⟨_, _, h, if_neg h0, Or.inr rfl⟩
    have he := escapeItem_eq (hc w List.mem_cons_self).2
    have hne : HelperArgs.escape w ≠ [] := by
      have hw0 := (hc w List.mem_cons_self).1
      cases w with
      | nil => exact absurd rfl hw0
      | cons c w => unfold HelperArgs.escape; split <;> simp
    have hj : (HelperArgs.joinArgs (w :: ws)).length = (HelperArgs.escape w).length + (if ws = [] then 0 else 1 + (HelperArgs.joinArgs ws).length) := by
      cases ws with
      | nil => simp [HelperArgs.joinArgs]
      | cons w' ws => simp [HelperArgs.joinArgs]; omega
    have he1 : (w :: ws = [] ∨ acc = []) ↔ acc = [] := by simp
    simp only [he1] at hl
    rw [hj] at hl
    simp only [killpathItems, ha, bind, Except.bind, he]
    rw [if_neg (by unfold HELPER_LEN; split at hl <;> split at hl <;> omega)]
    have hacc : (if acc.length > 0 then acc ++ [32] else acc) ++ HelperArgs.escape w ≠ [] := by
      intro h; rw [List.append_eq_nil_iff] at h; exact hne h.2
    rw [ih hw' (fun x hx => hc x (List.mem_cons_of_mem _ hx))]
    · rw [if_neg hacc, if_neg (by simp : w :: ws ≠ [])]
      congr 1
      cases ws with
      | nil =>
        rw [if_pos rfl]
        by_cases h : acc = []
        · subst h; simp [HelperArgs.joinArgs]
        · rw [if_neg h, if_pos (by have := List.length_pos_iff.mpr h; omega)]
          simp [HelperArgs.joinArgs]
      | cons w' ws =>
        rw [if_neg (by simp)]
        by_cases h : acc = []
        · subst h; simp [HelperArgs.joinArgs]
        · rw [if_neg h, if_pos (by have := List.length_pos_iff.mpr h; omega)]
          simp [HelperArgs.joinArgs]
    · have he2 : ∀ x : Bytes, x ≠ [] → ((ws = [] ∨ x = []) ↔ ws = []) := fun x hx => by simp [hx]
      simp only [he2 _ hacc]
      by_cases h : acc = []
      · subst h
        simp only [List.length_nil, Nat.lt_irrefl, gt_iff_lt, if_false, List.nil_append, if_true] at hl ⊢
        by_cases hws : ws = []
        · rw [if_pos hws] at hl
          subst hws
          simp only [HelperArgs.joinArgs, List.length_nil, if_true]
          omega
        · rw [if_neg hws] at hl
          rw [if_neg hws]
          omega
      · rw [if_neg h] at hl
        rw [if_pos (by have := List.length_pos_iff.mpr h; omega)]
        simp only [List.length_append, List.length_cons, List.length_nil]
        by_cases hws : ws = []
        · rw [if_pos hws] at hl
          subst hws
          simp only [HelperArgs.joinArgs, List.length_nil, if_true]
          omega
        · rw [if_neg hws] at hl
          rw [if_neg hws]
          omega

/-- **C41**, **C63** for `killpath`.  A path of up to 126 bytes and up to seven non empty arguments of printable ASCII, whose
escaped forms take up to 126 bytes with the spaces between them, reach the script exactly.  Missing: longer strings, other
characters, empty arguments and more than seven of them, see `killpath_violated`. -/
theorem killpath_arrives_partial {path : Arg} {p : Bytes} {as : List Arg} {ws : List Bytes} {slkfd : Option Arg} {fd : Int}
    (hp : IsPath p path) (hpl : p.length ≤ 126) (hw : as = ws.map .bytes ∨ as = ws.map fun w => .str (some w))
    (hc : ∀ w ∈ ws, w ≠ [] ∧ ∀ c ∈ w, 32 ≤ c ∧ c ≤ 126) (hl : (HelperArgs.joinArgs ws).length ≤ 126) (hn : ws.length ≤ 7)
    (hf : IsInt 32 fd (-1) slkfd) :
    ∃ s, killpath path (some as) slkfd = .ok (.killpath fd p s) ∧ scriptArgv p s = p :: ws := by
  have hi := items_eq hw hc (acc := []) (by simpa using hl)
  have hj : (if ws = [] then [] else if ([] : Bytes) = [] then HelperArgs.joinArgs ws else [] ++ 32 :: HelperArgs.joinArgs ws) = HelperArgs.joinArgs ws := by
    split
    · rename_i h; subst h; rfl
    · simp
  rw [hj] at hi
  refine ⟨HelperArgs.joinArgs ws, ?_, ?_⟩
  · simp only [killpath, toPath_path hp, toList, opt_int hf, hi, bind, Except.bind]
    rw [if_neg (by unfold HELPER_LEN; omega)]
  · have hz : ∀ {w : Bytes}, (∀ c ∈ w, 32 ≤ c ∧ c ≤ 126) → (0 : UInt8) ∉ HelperArgs.escape w := by
      intro w h
      induction w with
      | nil => simp [HelperArgs.escape]
      | cons c w ih =>
        have ih := ih fun d hd => h d (List.mem_cons_of_mem _ hd)
        have hc0 : (0 : UInt8) ≠ c := by
          intro e; subst e; exact absurd (h 0 List.mem_cons_self).1 (by decide)
        unfold HelperArgs.escape
        split
        · intro hm
          rcases List.mem_cons.mp hm with hm | hm
          · exact absurd hm (by decide)
          · rcases List.mem_cons.mp hm with hm | hm
            · exact hc0 hm
            · exact ih hm
        · intro hm
          rcases List.mem_cons.mp hm with hm | hm
          · exact hc0 hm
          · exact ih hm
    have hzj : ∀ {l : List Bytes}, (∀ w ∈ l, ∀ c ∈ w, 32 ≤ c ∧ c ≤ 126) → (0 : UInt8) ∉ HelperArgs.joinArgs l := by
      intro l h
      induction l with
      | nil => simp [HelperArgs.joinArgs]
      | cons w l ih =>
        have ih := ih fun x hx => h x (List.mem_cons_of_mem _ hx)
        have h1 := hz (h w List.mem_cons_self)
        cases l with
        | nil => exact h1
        | cons w' l =>
          show (0 : UInt8) ∉ HelperArgs.escape w ++ 32 :: HelperArgs.joinArgs (w' :: l)
          intro hm
          rcases List.mem_append.mp hm with hm | hm
          · exact h1 hm
          · rcases List.mem_cons.mp hm with hm | hm
            · exact absurd hm (by decide)
            · exact ih hm
    have h0 := hzj (fun w hw => (hc w hw).2)
    have h1 : (killpathWire p (HelperArgs.joinArgs ws)) = (p, HelperArgs.joinArgs ws) := by
      unfold killpathWire
      rw [cstr_eq hp.2.2, cstr_eq h0, List.take_of_length_le (by unfold HELPER_LEN; omega),
        List.take_of_length_le (by unfold HELPER_LEN; omega)]
    unfold scriptArgv
    rw [h1]
    have := HelperArgs.argv_roundtrip (path := p) (ws := ws) (pid := none) (fun w hw => ⟨(hc w hw).1, fun c hcc => ?_⟩) hn
    · simpa using this
    · have := (hc w hw).2 c hcc
      by_cases h : c = 32
      · exact Or.inr (Or.inl h)
      · refine Or.inl ⟨?_, this.2⟩
        have h1 := this.1
        rw [UInt8.le_iff_toNat_le] at h1 ⊢
        have e1 : (32 : UInt8).toNat = 32 := rfl
        have e2 : (33 : UInt8).toNat = 33 := rfl
        have : c.toNat ≠ 32 := fun e => h (UInt8.toNat_inj.mp (by rw [e, e1]))
        omega

/-- The hypotheses hold for a path and two arguments, one of them with a space and a backslash. -/
example : ∃ s, killpath (.str (some [47, 107])) (some [.bytes [97, 32, 92], .bytes [98]]) (some (.int 5)) =
    .ok (.killpath 5 [47, 107] s) ∧ scriptArgv [47, 107] s = [[47, 107], [97, 32, 92], [98]] :=
  killpath_arrives_partial (ws := [[97, 32, 92], [98]]) ⟨Or.inr rfl, by decide, by decide⟩ (by decide) (Or.inl rfl)
    (by decide) (by decide) (by decide) (Or.inl ⟨rfl, by decide, by decide⟩)

/-- **Finding**: what `killpath` accepts and the script does not get.  A path of 127 bytes loses its last byte, so that the
script is not found; arguments of 127 bytes lose the last one; a tab inside an argument splits it; an empty argument is dropped; an argument outside ASCII ends the
list; the eighth argument is dropped. -/
theorem killpath_violated :
    (killpath (.bytes (List.replicate 127 97)) (some []) none = .ok (.killpath (-1) (List.replicate 127 97) []) ∧
      scriptArgv (List.replicate 127 97) [] = [List.replicate 126 97]) ∧
    (killpath (.bytes [47]) (some [.bytes (List.replicate 125 97), .bytes [98]]) none =
      .ok (.killpath (-1) [47] (List.replicate 125 97 ++ [32, 98])) ∧
      scriptArgv [47] (List.replicate 125 97 ++ [32, 98]) = [[47], List.replicate 125 97]) ∧
    (killpath (.bytes [47]) (some [.bytes [97, 9, 98]]) none = .ok (.killpath (-1) [47] [97, 9, 98]) ∧
      scriptArgv [47] [97, 9, 98] = [[47], [97], [98]]) ∧
    (killpath (.bytes [47]) (some [.bytes [97], .bytes [], .bytes [98]]) none = .ok (.killpath (-1) [47] [97, 32, 32, 98]) ∧
      scriptArgv [47] [97, 32, 32, 98] = [[47], [97], [98]]) ∧
    (killpath (.bytes [47]) (some [.str (some [0xC3, 0xA9]), .bytes [98]]) none = .ok (.killpath (-1) [47] [0xC3, 0xA9, 32, 98]) ∧
      scriptArgv [47] [0xC3, 0xA9, 32, 98] = [[47]]) ∧
    (∃ s, killpath (.bytes [47]) (some ([97, 98, 99, 100, 101, 102, 103, 104].map fun c => .bytes [c])) none =
        .ok (.killpath (-1) [47] s) ∧ scriptArgv [47] s = [47] :: [97, 98, 99, 100, 101, 102, 103].map fun c => [c]) := by
  refine ⟨by decide +kernel, by decide +kernel, by decide +kernel, by decide +kernel, by decide +kernel,
    ⟨[97, 32, 98, 32, 99, 32, 100, 32, 101, 32, 102, 32, 103, 32, 104], by decide +kernel⟩⟩

/-! ## C64: what is returned is what the library reported -/

/-- **C64** for errors.  The number of an exception tells the result of the library. -/
theorem errno_faithful {a b : Int} (ha : a < 0) (hb : b < 0) (h : excErrno a = excErrno b) : a = b := by
  unfold excErrno at h
  split at h <;> split at h <;> omega

/-- **C64**.  A call that must give zero returns normally only then, and the exception has the error number of the system for
the results from -199 to -1. -/
theorem done_iff (rv : Int) : (doneIfZero rv = .ok () ↔ rv = 0) ∧
    (-200 < rv → rv < 0 → doneIfZero rv = .error (.sanlock (-rv))) := by
  unfold doneIfZero excErrno
  constructor
  · split <;> simp_all
  · intro h1 h2
    rw [if_pos (by omega), if_pos ⟨h2, h1⟩]

theorem value_iff (rv v : Int) : valueIfNonneg rv = .ok v ↔ rv = v ∧ 0 ≤ rv := by
  unfold valueIfNonneg
  split
  · constructor
    · intro h; simp at h
    · rintro ⟨-, h⟩; omega
  · constructor
    · intro h; injection h with h; exact ⟨h, by omega⟩
    · rintro ⟨rfl, -⟩; rfl

/-- **C64** for `inq_lockspace`.  `True` only for success, `False` only for ENOENT, `None` only for EINPROGRESS. -/
theorem inq_iff (rv : Int) : (inqResult rv = .ok (some true) ↔ rv = 0) ∧ (inqResult rv = .ok (some false) ↔ rv = -2) ∧
    (inqResult rv = .ok none ↔ rv = -115) := by
  unfold inqResult ENOENT EINPROGRESS
  split
  · subst_vars; decide
  · split
    · subst_vars; decide
    · split
      · subst_vars; decide
      · refine ⟨?_, ?_, ?_⟩ <;> constructor <;> intro h <;> first | omega | simp at h

theorem le_head {n : Nat} {v : Nat} {m : Bytes} : cstr (le (n + 1) v ++ m) = [] ↔ v % 256 = 0 := by
  rw [le, List.cons_append, cstr, List.takeWhile_cons]
  have e : (UInt8.ofNat (v % 256) = 0) ↔ v % 256 = 0 := by
    rw [← UInt8.toNat_inj, UInt8.toNat_ofNat']
    show v % 256 % 256 = 0 ↔ _
    omega
  split
  · rename_i h
    rw [decide_eq_true_eq] at h
    constructor
    · intro h; simp at h
    · intro h'; exact absurd (e.mpr h') h
  · rename_i h
    simp only [ne_eq, decide_not, Bool.not_eq_eq_eq_not, Bool.not_true, decide_eq_false_iff_not, Decidable.not_not] at h
    exact ⟨fun _ => e.mp h, fun _ => rfl⟩

/-- What is read at a field of 48 bytes with the name `n`, followed in memory by `m`. -/
theorem y_field {n m : Bytes} (h0 : 0 ∉ n) (hl : n.length ≤ 48) :
    buildY (pad 48 n ++ m) = n ↔ (n.length < 48 ∨ cstr m = []) := by
  unfold buildY
  rw [pad, List.append_assoc, cstr_append h0]
  by_cases h : n.length < 48
  · obtain ⟨k, hk⟩ : ∃ k, 48 - n.length = k + 1 := ⟨48 - n.length - 1, by omega⟩
    rw [hk, List.replicate_succ, List.cons_append, cstr_zero, List.append_nil]
    exact ⟨fun _ => Or.inl h, fun _ => rfl⟩
  · rw [show 48 - n.length = 0 by omega, List.replicate_zero, List.nil_append]
    constructor
    · intro he; exact Or.inr (by simpa using he)
    · rintro (hh | hh)
      · exact absurd hh h
      · rw [hh, List.append_nil]

/-- **C64** for `get_lockspaces`.  The name in the list is the name of the lockspace exactly if it has less than 48 bytes, or
the host id is a multiple of 256. -/
theorem lockspace_name_iff {l : Ls} {n : Bytes} (h0 : 0 ∉ n) (hl : n.length ≤ 48) (hn : l.name = pad 48 n) :
    buildY (lsMem l) = n ↔ (n.length < 48 ∨ l.hostId % 256 = 0) := by
  rw [lsMem, hn, List.append_assoc, List.append_assoc, List.append_assoc, y_field h0 hl, le_head]

/-- **C64** for `get_lockspaces`.  If the names have less than 48 bytes and the paths are UTF-8, then all lockspaces are
reported, in order, with their host id, path, offset and state.  Missing: other names and paths, see `long_name_violated`
and `path_hides_violated`. -/
theorem lockspaces_listed_partial {ls : List Ls} {ns : List (Bytes × Bytes)}
    (h : ls.map (fun l => (l.name, l.path)) = ns.map fun n => (pad 48 n.1, pad 1024 n.2))
    (hn : ∀ n ∈ ns, n.1.length < 48 ∧ 0 ∉ n.1 ∧ 0 ∉ n.2 ∧ utf8 n.2 = true) :
    ∃ ds, lockspacesToList ls = .ok ds ∧ ds.map (fun d => (d.lockspace, d.path)) = ns ∧
      ds.map (fun d => (d.hostId, d.offset, d.flags)) = ls.map fun l => (l.hostId, l.offset, l.flags) := by
  induction ls generalizing ns with
  | nil =>
    cases ns with
    | nil => exact ⟨[], rfl, rfl, rfl⟩
    | cons _ _ => simp at h
  | cons l ls ih =>
    cases ns with
    | nil => simp at h
    | cons n ns =>
      simp only [List.map_cons, List.cons.injEq, Prod.mk.injEq] at h
      obtain ⟨⟨h1, h2⟩, h3⟩ := h
      obtain ⟨k1, k2, k3, k4⟩ := hn n List.mem_cons_self
      obtain ⟨ds, e1, e2, e3⟩ := ih h3 fun x hx => hn x (List.mem_cons_of_mem _ hx)
      have hy := (lockspace_name_iff k2 (by omega) h1).mpr (Or.inl k1)
      have hs : buildS l.path = .ok n.2 := by
        rw [buildS, h2, cstr_pad k3, if_pos k4]
      refine ⟨⟨buildY (lsMem l), l.hostId, n.2, l.offset, l.flags⟩ :: ds, ?_, ?_, ?_⟩
      · simp only [lockspacesToList, hs, e1, bind, Except.bind]
      · simp only [List.map_cons, e2, hy]
      · simp only [List.map_cons, e3]

example : ∃ ds, lockspacesToList [⟨pad 48 [97], 300, pad 1024 [47], 0, 1⟩] = .ok ds ∧ ds.map (fun d => (d.lockspace, d.path)) = [([97], [47])] ∧
    ds.map (fun d => (d.hostId, d.offset, d.flags)) = [(300, 0, 1)] :=
  lockspaces_listed_partial (ns := [([97], [47])]) rfl (by decide)

/-- **Finding**: a name of 48 bytes is reported with the bytes of the host id behind it. -/
theorem long_name_violated : lockspacesToList [⟨pad 48 (List.replicate 48 97), 66, pad 1024 [47], 0, 0⟩] =
    .ok [⟨List.replicate 48 97 ++ [66], 66, [47], 0, 0⟩] := by decide +kernel

/-- **Finding**: one lockspace whose path is not UTF-8 hides all the others, whatever they are.  `add_lockspace` accepts such
a path. -/
theorem path_hides_violated (ls : List Ls) (l : Ls) (h : utf8 (cstr l.path) = false) (hl : l ∈ ls) :
    ∀ ds, lockspacesToList ls ≠ .ok ds := by
  induction ls with
  | nil => cases hl
  | cons x ls ih =>
    intro ds he
    simp only [lockspacesToList] at he
    obtain ⟨_, h1, he⟩ := bind_ok he
    obtain ⟨_, h2, -⟩ := bind_ok he
    rcases List.mem_cons.mp hl with rfl | hl
    · rw [buildS, h] at h1; simp at h1
    · exact ih hl _ h2

example : utf8 (cstr (pad 1024 [47, 0xFF])) = false ∧
    (addLockspace (.bytes [97]) (.int 1) (.bytes [47, 0xFF]) none none none).toBool = true := by decide +kernel

/-- **C64** for `read_lockspace`.  The host id of the call is zero, so that names of 48 bytes are read correctly as well. -/
theorem read_lockspace_name {l : Ls} {n : Bytes} {t : Nat} (h0 : 0 ∉ n) (hl : n.length ≤ 48) (hn : l.name = pad 48 n)
    (hh : l.hostId = 0) : readLockspaceResult 0 l t = .ok (n, t) := by
  unfold readLockspaceResult
  rw [if_neg (by decide), (lockspace_name_iff h0 hl hn).mpr (Or.inr (by rw [hh]))]

example : readLockspaceResult 0 ⟨pad 48 (List.replicate 48 97), 0, pad 1024 [47], 0, 0⟩ 10 = .ok (List.replicate 48 97, 10) :=
  read_lockspace_name (by decide) (by decide) rfl rfl

/-- **C64** for `read_resource`: when each of the two names is reported correctly. -/
theorem resource_names_iff {r : Res} {n m : Bytes} (hn0 : 0 ∉ n) (hnl : n.length ≤ 48) (hn : r.space = pad 48 n)
    (hm0 : 0 ∉ m) (hml : m.length ≤ 48) (hm : r.name = pad 48 m) :
    (buildY (r.space ++ resMem r) = n ↔ (n.length < 48 ∨ m = [])) ∧
    (buildY (resMem r) = m ↔ (m.length < 48 ∨ r.lver % 256 = 0)) := by
  constructor
  · rw [hn, y_field hn0 hnl, resMem, hm, pad, List.append_assoc, List.append_assoc, cstr_append hm0]
    constructor
    · rintro (h | h)
      · exact Or.inl h
      · exact Or.inr (List.append_eq_nil_iff.mp h).1
    · rintro (h | h)
      · exact Or.inl h
      · subst h
        refine Or.inr ?_
        simp only [List.length_nil, Nat.sub_zero, List.nil_append, List.replicate_succ, List.cons_append, cstr_zero]
  · rw [resMem, hm, List.append_assoc, y_field hm0 hml, le_head]

/-- **C64** for `read_resource`, for names of less than 48 bytes. -/
theorem read_resource_names_partial {r : Res} {n m : Bytes} (hn0 : 0 ∉ n) (hnl : n.length < 48) (hn : r.space = pad 48 n)
    (hm0 : 0 ∉ m) (hml : m.length < 48) (hm : r.name = pad 48 m) : readResourceResult 0 r = .ok (n, m, r.lver) := by
  have h := resource_names_iff hn0 (by omega) hn hm0 (by omega) hm
  unfold readResourceResult
  rw [if_neg (by decide), h.1.mpr (Or.inl hnl), h.2.mpr (Or.inl hml)]

/-- **Finding**: a lockspace name of 48 bytes is reported with the name of the resource behind it. -/
theorem resource_name_violated : readResourceResult 0 ⟨pad 48 (List.replicate 48 97), pad 48 [98], 1, 0, []⟩ =
    .ok (List.replicate 48 97 ++ [98], [98], 1) := by decide +kernel

/-- **C64** for `get_hosts` and `read_resource_owners`: all hosts with all fields. -/
theorem hosts_listed (hs : List Host) : hostsToList hs = hs := by
  induction hs with
  | nil => rfl
  | cons h hs ih => rw [hostsToList, ih]

/-- **C64** for `get_event`.  If the events are followed by EAGAIN, all are returned, in order. -/
theorem events_listed_partial (es : List (Nat × Nat × Event)) (rest : List EvAnswer) (acc : List (Nat × Nat × Event)) :
    getEvents (es.map (fun e => .event e.1 e.2.1 e.2.2) ++ .fail (-11) :: rest) acc = (.ok (acc ++ es), rest) := by
  induction es generalizing acc with
  | nil =>
    rw [List.append_nil]
    rfl
  | cons e es ih =>
    show getEvents (es.map _ ++ .fail (-11) :: rest) (acc ++ [(e.1, e.2.1, e.2.2)]) = _
    rw [ih, List.append_assoc]
    rfl

/-- **Finding**: if the daemon has closed the connection, as it does when the lockspace is removed, then the events that came
before are read and thrown away: the call raises, and nothing is left to be read. -/
theorem events_lost_violated (es : List (Nat × Nat × Event)) (rest : List EvAnswer) :
    getEvents (es.map (fun e => .event e.1 e.2.1 e.2.2) ++ .fail (-1) :: rest) [] = (.error (.sanlock 1), rest) := by
  generalize ([] : List (Nat × Nat × Event)) = acc
  induction es generalizing acc with
  | nil =>
    show (if (-1 : Int) = -EAGAIN then _ else _) = _
    rw [if_neg (by decide)]
    rfl
  | cons e es ih => exact ih _

/-! ### inquire -/

theorem disksToList_eq {ds : List Strings.Disk} (h : ∀ d ∈ ds, d.path.length ≤ 1023 ∧ 0 ∉ d.path ∧ utf8 d.path = true) :
    disksToList (ds.map fun d => ⟨pathField d.path, d.offset⟩) = .ok (ds.map fun d => (d.path, d.offset)) := by
  induction ds with
  | nil => rfl
  | cons d ds ih =>
    obtain ⟨h1, h2, h3⟩ := h d List.mem_cons_self
    have hs : buildS (pathField d.path) = .ok d.path := by
      rw [buildS, pathField_eq h2 h1, cstr_pad h2, if_pos h3]
    simp only [List.map_cons, disksToList, hs, ih fun x hx => h x (List.mem_cons_of_mem _ hx), bind, Except.bind]

/-- The dictionary a caller expects for a resource that is held: flag 4 for shared, otherwise flag 1 and the version. -/
def expected (r : Strings.Res) : ResDict :=
  ⟨r.space, r.name, if r.shared then 4 else 1, if r.shared then 0 else r.lver, r.disks.map fun d => (d.path, d.offset)⟩

/-- **C64** for `inquire`.  If the process holds the resources `rs`, whose names and paths can be written in the state string
(C34) and whose paths are UTF-8, then the list has exactly these, in order, with names, disks, mode, and version if the lease
is exclusive.  Missing: other names, see `inquire_crash_violated`. -/
theorem inquire_listed_partial {rs : List Strings.Res} (hne : rs ≠ []) (ok : ∀ r ∈ rs, Strings.ResOk r)
    (hz : ∀ r ∈ rs, 0 ∉ r.space ∧ 0 ∉ r.name ∧ ∀ d ∈ r.disks, 0 ∉ d.path ∧ utf8 d.path = true) :
    ∃ s, Strings.argsToState rs = some (some s) ∧ inquireResult 0 rs.length s = .ret (.ok (rs.map expected)) := by
  obtain ⟨s, h1, h2⟩ := Strings.state_roundtrip_partial hne ok
  refine ⟨s, h1, ?_⟩
  unfold inquireResult
  rw [if_neg (by decide), if_pos (List.length_pos_iff.mpr hne), h2]
  show InqOut.ret (resourcesToList ((rs.map Strings.image).map ofStrRes)) = _
  congr 1
  clear h1 h2 hne
  induction rs with
  | nil => rfl
  | cons r rs ih =>
    have ih := ih (fun x hx => ok x (List.mem_cons_of_mem _ hx)) (fun x hx => hz x (List.mem_cons_of_mem _ hx))
    have okr := ok r List.mem_cons_self
    obtain ⟨z1, z2, z3⟩ := hz r List.mem_cons_self
    have l1 := okr.space.term
    have l2 := okr.name.term
    unfold Strings.NAME_LEN at l1 l2
    have hd : disksToList ((Strings.image r).disks.map fun d => ⟨pathField d.path, d.offset⟩) = .ok (r.disks.map fun d => (d.path, d.offset)) := by
      refine disksToList_eq fun d hd => ?_
      have := (okr.disks d hd).term
      unfold Strings.PATH_LEN at this
      exact ⟨by omega, z3 d hd⟩
    have hn := resource_names_iff (r := ofStrRes (Strings.image r)) (n := r.space) (m := r.name) z1 (by omega) (strncpy_eq z1 (show r.space.length ≤ NAME_LEN by unfold NAME_LEN; omega)) z2 (by omega)
      (strncpy_eq z2 (show r.name.length ≤ NAME_LEN by unfold NAME_LEN; omega))
    have hd' : disksToList (ofStrRes (Strings.image r)).disks = .ok (r.disks.map fun d => (d.path, d.offset)) := hd
    simp only [List.map_cons, resourcesToList, bind, Except.bind, ih, hd', hn.1.mpr (Or.inl l1), hn.2.mpr (Or.inl l2)]
    congr 2
    simp only [expected, ofStrRes, Strings.image, ResDict.mk.injEq]
    by_cases hsh : r.shared = true <;> simp [hsh]

example : ∃ s, Strings.argsToState [⟨[97], [98], 7, true, false, [⟨[47, 120], 5⟩]⟩] = some (some s) ∧
    inquireResult 0 1 s = .ret (.ok [⟨[97], [98], 1, 7, [([47, 120], 5)]⟩]) :=
  inquire_listed_partial (rs := [⟨[97], [98], 7, true, false, [⟨[47, 120], 5⟩]⟩]) (by decide)
    (by
      intro r hr
      rw [List.mem_singleton] at hr
      subst hr
      exact ⟨⟨by decide, by decide⟩, ⟨by decide, by decide⟩, by decide, by decide,
        fun d hd => by rw [List.mem_singleton] at hd; subst hd; exact ⟨by decide, by decide, by decide, by decide, by decide⟩, by decide⟩)
    (by decide)

/-- **Finding**: a name with colons, which `acquire` accepts, makes `inquire` end the process that calls it: the state string
cannot be read, and the error path reads an array that is not there. -/
theorem inquire_crash_violated :
    ∃ r s, Strings.argsToState [r] = some (some s) ∧ inquireResult 0 1 s = .crash ∧
      (acquire (.bytes r.space) (.bytes r.name) (some [.tuple [.bytes [47, 120], .int 5]]) (some (.int 3)) none none none none).toBool = true :=
  ⟨⟨[97], List.replicate 11 58, 1, true, false, [⟨[47, 120], 5⟩]⟩,
    [97, 58] ++ List.replicate 11 58 ++ [58, 47, 120, 58, 53, 58, 49], by decide +kernel, by decide +kernel, by decide +kernel⟩

/-! ### The list of lockspaces over the socket -/

theorem fill_fits {ls out : List Ls} (h : out.length + ls.length ≤ 949) : fill ls out = (out ++ ls, 0) := by
  induction ls generalizing out with
  | nil => rw [fill, List.append_nil]
  | cons l ls ih =>
    simp only [List.length_cons] at h
    rw [fill, if_neg (by unfold LS_SIZE LOG_DUMP_SIZE; omega), ih (by simp; omega), List.append_assoc]
    rfl

theorem fill_most {ls out : List Ls} (h : out.length ≤ 949) : (fill ls out).1.length ≤ 949 := by
  induction ls generalizing out with
  | nil => exact h
  | cons l ls ih =>
    rw [fill]
    split
    · exact ih h
    · rename_i hl
      refine ih ?_
      unfold LS_SIZE LOG_DUMP_SIZE at hl
      simp; omega

/-- **C64** for the library call `sanlock_get_lockspaces`: up to 949 lockspaces are all returned, those that are there, those
being removed and those being added, each with its flag. -/
theorem get_lockspaces_partial {a r d : List Ls} (h : a.length + r.length + d.length ≤ 949) :
    getLockspaces a r d = (0, a.map (fun l => { l with flags := 0 }) ++ r.map (fun l => { l with flags := 2 }) ++
      d.map (fun l => { l with flags := 1 })) := by
  have hf : fill (flagged a r d) [] = (flagged a r d, 0) := by
    rw [fill_fits (by simp [flagged]; omega), List.nil_append]
  unfold getLockspaces
  simp only [hf, Nat.le_refl, if_true, List.take_length]
  rfl

/-- **Finding**: with 950 lockspaces or more the call fails with -1, which Python reports as EPERM, and no lockspace is
returned, although the reply says how many there are and the code has a case for a full buffer. -/
theorem get_lockspaces_violated {a r d : List Ls} (h : a.length + r.length + d.length ≥ 950) :
    getLockspaces a r d = (-1, []) ∧ pyGetLockspaces (-1) [] = .error (.sanlock 1) := by
  refine ⟨?_, rfl⟩
  have hm := fill_most (ls := flagged a r d) (out := []) (by simp)
  have hl : (flagged a r d).length ≥ 950 := by simp [flagged]; omega
  unfold getLockspaces
  simp only
  rw [if_neg (by omega)]

/-! ## C65: what is acquired is given back -/

/-- **C65** for the bindings other than `set_lvb`.  Wherever the call fails, and also if it does not, everything acquired has
been given back, except the result returned to the caller. -/
theorem no_leak_partial {n : String} {b : Body} (h : (n, b) ∈ bodies) (hn : n ≠ "set_lvb") (k : Nat) (ok : Bool) :
    leaked b k ok = [] := by
  have hk : ∀ b : Body, b.dropsResult = true → (∀ i ∈ b.gets, i ∈ b.frees ∨ i ∈ b.returns) → leaked b k ok = [] := by
    intro b hd hs
    unfold leaked
    rw [List.filter_eq_nil_iff]
    intro i hi
    rw [List.mem_filter] at hi
    have hg := hs i (List.mem_of_mem_take hi.1)
    have hnf : i ∉ b.frees := by simpa using hi.2
    rw [if_pos (hg.resolve_left hnf), hd]
    simp
  have all : ∀ x ∈ bodies, x.1 ≠ "set_lvb" → x.2.dropsResult = true ∧ ∀ i ∈ x.2.gets, i ∈ x.2.frees ∨ i ∈ x.2.returns := by
    decide
  have := all _ h hn
  exact hk b this.1 this.2

example : ("acquire", (⟨[.lockspace, .resource, .res], [.lockspace, .resource, .res], [], true⟩ : Body)) ∈ bodies :=
  .tail _ (.tail _ (.tail _ (.tail _ (.tail _ (.tail _ (.tail _ (.tail _ (.tail _ (.tail _ (.head _))))))))))

/-- **Finding**: every successful `set_lvb` leaves a reference to the data behind, so that it is never freed. -/
theorem set_lvb_leak_violated : ∃ b, ("set_lvb", b) ∈ bodies ∧ leaked b 4 true = [.data] :=
  ⟨⟨[.lockspace, .resource, .data, .res], [.lockspace, .resource, .res], [], true⟩, by simp [bodies], by decide⟩

end Sanlock.Python
