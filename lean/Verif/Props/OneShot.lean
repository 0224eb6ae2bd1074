import Verif.OneShot
import Verif.Props.Wire

/-!
# C66: a library call is carried out as it was made, once or not at all, and returns what the daemon found
-/

namespace Sanlock.OneShot

open OnDisk Wire

/-! ## Structures survive being sent -/

theorem tk {a b : List UInt8} {n : Nat} (h : a.length = n) : (a ++ b).take n = a := by
  subst h; exact List.take_left

theorem dp {a b : List UInt8} {n : Nat} (h : a.length = n) : (a ++ b).drop n = b := by
  subst h; exact List.drop_left

theorem tkAll {n v : Nat} : (leBytes n v).take n = leBytes n v := List.take_of_length_le (by simp)

theorem lv {n v : Nat} (h : v < 256 ^ n) : leVal (leBytes n v) = v := by rw [leVal_leBytes]; exact Nat.mod_eq_of_lt h

theorem disk_len {d : DiskArg} (h : d.ok) : d.bytes.length = 1040 := by
  simp [DiskArg.bytes, h.1]

theorem locOf_bytes {d : DiskArg} (h : d.ok) : locOf d.bytes = d.loc := by
  simp only [locOf, DiskArg.bytes, tk h.1, dp h.1, tk (leBytes_length 8 _), lv h.2]

theorem ls_len {a : LsArg} (h : a.ok) : a.bytes.length = 1104 := by
  simp [LsArg.bytes, h.1, disk_len h.2.2.2]

theorem lsOf_bytes {a : LsArg} (h : a.ok) : lsOf a.bytes = a.ls := by
  simp only [lsOf, LsArg.bytes, tk h.1, dp h.1, tk (leBytes_length _ _), dp (leBytes_length _ _), lv h.2.1, lv h.2.2.1,
    locOf_bytes h.2.2.2, LsArg.ls]

theorem res_len {r : Res} (h : r.ok) : r.bytes.length = 128 := by
  simp [Res.bytes, h.1, h.2.1]

theorem resOf_bytes {r : Res} (h : r.ok) : resOf r.bytes = r := by
  obtain ⟨h1, h2, h3, h4, h5, h6, h7, h8⟩ := h
  simp only [resOf, Res.bytes, tk h1, dp h1, tk h2, dp h2, tk (leBytes_length _ _), dp (leBytes_length _ _), tkAll, lv h3, lv h4,
    lv h5, lv h6, lv h7, lv h8]

theorem rx_len {x : RxArg} (h : x.ok) : x.bytes.length = 1104 := by
  simp [RxArg.bytes, h.2.2.1, disk_len h.2.2.2]

theorem rxOf_bytes {x : RxArg} (h : x.ok) : rxOf x.bytes = x.rx := by
  obtain ⟨h1, h2, h3, h4⟩ := h
  simp only [rxOf, RxArg.bytes, tk (leBytes_length _ _), dp (leBytes_length _ _), tk h3, dp h3, lv h1, lv h2, locOf_bytes h4,
    RxArg.rx]

theorem re_len {e : Re} (h : e.ok) : e.bytes.length = 64 := by
  simp [Re.bytes, h.1]

theorem reOf_bytes {e : Re} (h : e.ok) : reOf e.bytes = e := by
  obtain ⟨h1, h2, h3, h4⟩ := h
  simp only [reOf, Re.bytes, tk h1, dp h1, tk (leBytes_length _ _), dp (leBytes_length _ _), tkAll, lv h2, lv h3, lv h4]

theorem he_len {e : He} : e.bytes.length = 32 := by
  simp [He.bytes]

theorem heOf_bytes {e : He} (h : e.ok) : heOf e.bytes = e := by
  obtain ⟨h1, h2, h3, h4⟩ := h
  simp only [heOf, He.bytes, tk (leBytes_length _ _), dp (leBytes_length _ _), tkAll, lv h1, lv h2, lv h3, lv h4]

theorem host_len {e : Host} : e.bytes.length = 32 := by
  simp [Host.bytes]

theorem hostOf_bytes {e : Host} (h : e.ok) : hostOf e.bytes = e := by
  obtain ⟨h1, h2, h3, h4, h5⟩ := h
  simp only [hostOf, Host.bytes, tk (leBytes_length _ _), dp (leBytes_length _ _), tkAll, lv h1, lv h2, lv h3, lv h4, lv h5]

theorem disks_len {ds : List DiskArg} : (∀ d ∈ ds, d.ok) → (disksBytes ds).length = ds.length * 1040 := by
  induction ds with
  | nil => intro _; rfl
  | cons d ds ih =>
    intro h
    have := ih fun x hx => h x (by simp [hx])
    simp only [disksBytes, List.flatMap_cons, List.length_append, disk_len (h d (by simp)), List.length_cons] at this ⊢
    omega

theorem locsOf_bytes {ds : List DiskArg} : (∀ d ∈ ds, d.ok) → locsOf ds.length (disksBytes ds) = ds.map DiskArg.loc := by
  induction ds with
  | nil => intro _; rfl
  | cons d ds ih =>
    intro h
    have hd := h d (by simp)
    have := ih fun x hx => h x (by simp [hx])
    simp only [disksBytes, List.flatMap_cons, List.length_cons, locsOf, List.map_cons, tk (disk_len hd), dp (disk_len hd),
      locOf_bytes hd] at this ⊢
    rw [this]

theorem named_ok {name : List UInt8} {hid : Nat} (hl : name.length ≤ 48) (hh : hid < 256 ^ 8) : (named name hid).ok := by
  refine ⟨?_, hh, show 0 < 256 ^ 4 by decide, ?_, show 0 < 256 ^ 8 by decide⟩
  · simp only [named, List.length_append, List.length_take, List.length_replicate]; omega
  · exact List.length_replicate

theorem cstr_named {name : List UInt8} {hid : Nat} (hl : name.length ≤ 48) (hz : ∀ x ∈ name, x ≠ 0) :
    cstr (named name hid).ls.name = name := by
  simp only [named, LsArg.ls, cstr, List.take_of_length_le hl]
  rw [List.takeWhile_append_of_pos (by intro a ha; simpa using hz a ha)]
  cases h : 48 - name.length with
  | zero => simp
  | succ n => simp [List.replicate_succ]

/-! ## The calls -/

def u (n : Nat) : Prop := n < 4294967296

/-- What the types of the arguments ensure: sizes of structures and numbers; as many disks behind a resource as it says. -/
def Call.ok : Call → Prop
  | .add a f t => a.ok ∧ u f ∧ u t
  | .inq a f => a.ok ∧ u f
  | .rem a f => a.ok ∧ u f
  | .getLockspaces f => u f
  | .getHosts name h f => (∀ x ∈ name, x ≠ 0) ∧ h < 256 ^ 8 ∧ u f
  | .setConfig name f c => (∀ x ∈ name, x ≠ 0) ∧ u f ∧ u c
  | .align d => d.ok
  | .readLs a f => a.ok ∧ u f
  | .readRes r ds f => r.ok ∧ r.numDisks = ds.length ∧ (∀ d ∈ ds, d.ok) ∧ u f
  | .writeLs a m f t => a.ok ∧ u m ∧ u f ∧ u t
  | .writeRes r ds m n f => r.ok ∧ r.numDisks = ds.length ∧ (∀ d ∈ ds, d.ok) ∧ u m ∧ u n ∧ u f
  | .owners r ds f => r.ok ∧ r.numDisks = ds.length ∧ (∀ d ∈ ds, d.ok) ∧ u f
  | .regEvent name e f => (∀ x ∈ name, x ≠ 0) ∧ e.ok ∧ u f
  | .endEvent name f => (∀ x ∈ name, x ≠ 0) ∧ u f
  | .setEvent name e f => (∀ x ∈ name, x ≠ 0) ∧ e.ok ∧ u f
  | .version f => u f
  | .request f force r ds => r.ok ∧ r.numDisks = ds.length ∧ (∀ d ∈ ds, d.ok) ∧ u f ∧ u force
  | .examineLs a f => a.ok ∧ u f
  | .examineRes r f => r.ok ∧ u f
  | .setLvb f r lvb => r.ok ∧ u f ∧ lvb.length < 2147483648 - 128
  | .getLvb f r n => r.ok ∧ u f ∧ n < 2147483648
  | .formatRx x f => x.ok ∧ u f
  | .rebuildRx x f => x.ok ∧ u f
  | .updateRx x f e => x.ok ∧ u f ∧ e.ok
  | .lookupRx x f e => x.ok ∧ u f ∧ e.ok
  | .createRes x f e m n => x.ok ∧ u f ∧ e.ok ∧ u m ∧ u n
  | .deleteRes x f e => x.ok ∧ u f ∧ e.ok

/-- What a call asks for, as its documentation says (`src/sanlock_admin.h`, `src/sanlock_resource.h`). -/
def Call.meant : Call → Op
  | .add a f t => .add a.ls (if t = 0 then none else some t) (f % 2 = 1)
  | .inq a f => .inq a.ls (f % 2 = 1)
  | .rem a f => .rem a.ls (f / 2 % 2 = 1) (f % 2 = 1)
  | .getLockspaces _ => .getLockspaces
  | .getHosts name h _ => .getHosts name h
  | .setConfig name f c => .setConfig name f c
  | .align d => .align d.loc
  | .readLs a _ => .readLs (if a.hostId = 0 then 1 else a.hostId) a.flags a.disk.loc
  | .readRes r ds _ => .readRes r.lname r.rname r.flags (ds.map (·.loc))
  | .writeLs a _ _ t => .writeLs a.ls (if t = 0 then none else some t)
  | .writeRes r ds _ n f => .writeRes r.lname r.rname r.flags (ds.map (·.loc)) (toInt n) (f % 2 = 1)
  | .owners r ds _ => .owners r.lname r.rname r.flags (ds.map (·.loc))
  | .regEvent name _ _ => .regEvent name
  | .endEvent name _ => .endEvent name
  | .setEvent name e f => .setEvent name e f
  | .version _ => .version
  | .request f force r ds => .request r.lname r.rname r.lver force (f % 2 = 1) (ds.map (·.loc))
  | .examineLs a _ => .examineLs (cstr a.name)
  | .examineRes r _ => .examineRes (cstr r.lname) (cstr r.rname)
  | .setLvb _ r lvb => .setLvb r.lname r.rname lvb
  | .getLvb _ r _ => .getLvb r.lname r.rname 0
  | .formatRx x _ => .formatRx x.rx
  | .rebuildRx x f => .rebuildRx x.rx f
  | .updateRx x f e => .updateRx x.rx e f
  | .lookupRx x f e => .lookupRx x.rx e f
  | .createRes x _ e m n => .createRes x.rx e m n
  | .deleteRes x _ e => .deleteRes x.rx e

/-- The calls that are carried out as they were made: names of at most 48 bytes; between 1 and 4 disks; a disk with a path; a lock
value block of at most 4096 bytes; and a lease written with the same number for both `max_hosts`, which is said to be ignored, and
`num_hosts`. -/
def Call.proper : Call → Prop
  | .getHosts name _ _ => name.length ≤ 48
  | .setConfig name _ _ => name.length ≤ 48
  | .regEvent name _ _ => name.length ≤ 48
  | .endEvent name _ => name.length ≤ 48
  | .setEvent name _ _ => name.length ≤ 48
  | .align d => noPath d.loc = false
  | .writeRes _ _ m n _ => m = n
  | .request _ _ _ ds => ds ≠ [] ∧ ds.length ≤ 4
  | .setLvb _ _ lvb => lvb.length ≤ 4096
  | _ => True

theorem mk_ok {cmd f n d d2 : Nat} (h1 : cmd < 4294967296) (h2 : f < 4294967296) (h3 : 32 + n < 4294967296) (h4 : d < 4294967296)
    (h5 : d2 < 4294967296) : hdrOf (mk cmd f n d d2).bytes = mk cmd f n d d2 :=
  hdrOf_bytes (show MAGIC < _ by decide) (show 1 < _ by decide) h1 h2 h3 (show 0 < _ by decide) h4 h5

theorem feed_recv {n : Nat} {k : List UInt8 → Prog} {a b : List UInt8} (h : a.length = n) :
    feed (.recv n k) (a ++ b) = feed (k a) b := by
  simp only [feed, tk h, dp h]
  rw [if_pos (by simp [h])]

theorem feed_recv' {n : Nat} {k : List UInt8 → Prog} {a : List UInt8} (h : a.length = n) :
    feed (.recv n k) a = feed (k a) [] := by
  have := @feed_recv n k a [] h
  rwa [List.append_nil] at this

theorem feed_ls {k : Ls → Prog} {a : LsArg} (h : a.ok) (b : List UInt8) : feed (withLs k) (a.bytes ++ b) = feed (k a.ls) b := by
  rw [withLs, feed_recv (ls_len h), lsOf_bytes h]

theorem feed_ls' {k : Ls → Prog} {a : LsArg} (h : a.ok) : feed (withLs k) a.bytes = feed (k a.ls) [] := by
  rw [withLs, feed_recv' (ls_len h), lsOf_bytes h]

theorem feed_res {k : Res → List Loc → Prog} {r : Res} {ds : List DiskArg} (h : r.ok) (hn : r.numDisks = ds.length)
    (hd : ∀ d ∈ ds, d.ok) (h0 : r.numDisks ≠ 0) (h4 : r.numDisks ≤ 4) :
    feed (withRes k) (r.bytes ++ disksBytes ds) = feed (k r (ds.map (·.loc))) [] := by
  rw [withRes, feed_recv (res_len h)]
  simp only [resOf_bytes h]
  rw [if_neg (by omega), feed_recv' (by rw [disks_len hd, hn]), hn, locsOf_bytes hd]

theorem feed_rx {k : Rx → Re → Prog} {x : RxArg} {e : Re} (h : x.ok) (he : e.ok) :
    feed (withRx k) (x.bytes ++ e.bytes) = feed (k x.rx e) [] := by
  rw [withRx, feed_recv (rx_len h), feed_recv' (re_len he), rxOf_bytes h, reOf_bytes he]

theorem badDisks_num {r : Res} {ds : List DiskArg} (h : badDisks r ds = false) : r.numDisks ≠ 0 ∧ r.numDisks ≤ 4 := by
  simp only [badDisks, Bool.or_eq_false_iff, decide_eq_false_iff_not] at h
  omega

theorem bit0 (n : Nat) : bit n 0 = (n % 2 = 1 : Bool) := by simp [bit]

theorem bit1 (n : Nat) : bit n 1 = (n / 2 % 2 = 1 : Bool) := by simp [bit]

theorem lvb_size {n : Nat} (h : n < 2147483648 - 128) : toInt (32 + (128 + n) + (4294967296 - 160)) = n := by
  unfold toInt
  rw [Int.bmod_def]
  split <;> omega

/-- The bytes of a call make the daemon carry out what the call asks for, and none is left. -/
theorem feed_call {c : Call} (hk : c.ok) (hi : c.invalid = false) (hp : c.proper) :
    ∃ p, prog c.header = some p ∧ feed p c.data = .exec c.meant [] := by
  cases c with
  | add a f t => exact ⟨_, rfl, by simp only [Call.data, feed_ls' hk.1, feed, Call.header, mk, Call.meant, bit0, optN]; rfl⟩
  | inq a f => exact ⟨_, rfl, by simp only [Call.data, feed_ls' hk.1, feed, Call.header, mk, Call.meant, bit0]⟩
  | rem a f => exact ⟨_, rfl, by simp only [Call.data, feed_ls' hk.1, feed, Call.header, mk, Call.meant, bit0, bit1]⟩
  | getLockspaces f => exact ⟨_, rfl, rfl⟩
  | getHosts name h f =>
    exact ⟨_, rfl, by simp only [Call.data, feed_ls' (named_ok hp hk.2.1), feed, Call.meant, cstr_named hp hk.1]; rfl⟩
  | setConfig name f cmd =>
    exact ⟨_, rfl, by simp only [Call.data, feed_ls' (named_ok hp (show 0 < 256 ^ 8 by decide)), feed, Call.header, mk, Call.meant,
      cstr_named hp hk.1]⟩
  | align d =>
    refine ⟨_, rfl, ?_⟩
    simp only [Call.data, feed_recv' (disk_len hk), locOf_bytes hk]
    rw [if_neg (by simp only [Call.proper] at hp; simp [hp])]
    rfl
  | readLs a f =>
    refine ⟨_, rfl, ?_⟩
    simp only [Call.data, feed_ls' hk.1]
    rw [if_neg (by simp only [Call.invalid] at hi; simp [LsArg.ls, hi])]
    rfl
  | readRes r ds f =>
    have hb := badDisks_num hi
    exact ⟨_, rfl, by simp only [Call.data, feed_res hk.1 hk.2.1 hk.2.2.1 hb.1 hb.2]; rfl⟩
  | writeLs a m f t =>
    refine ⟨_, rfl, ?_⟩
    simp only [Call.data, feed_ls' hk.1]
    rw [if_neg (by simp only [Call.invalid] at hi; simp [LsArg.ls, hi])]
    rfl
  | writeRes r ds m n f =>
    have hb := badDisks_num hi
    have e : m = n := hp
    subst e
    exact ⟨_, rfl, by
      simp only [Call.data, feed_res hk.1 hk.2.1 hk.2.2.1 hb.1 hb.2, feed, Call.header, mk, Call.meant, bit0]⟩
  | owners r ds f =>
    have hb := badDisks_num hi
    exact ⟨_, rfl, by simp only [Call.data, feed_res hk.1 hk.2.1 hk.2.2.1 hb.1 hb.2]; rfl⟩
  | regEvent name e f =>
    exact ⟨_, rfl, by simp only [Call.data, feed_ls (named_ok hp (show 0 < 256 ^ 8 by decide)), feed_recv' (he_len (e := e))]; simp only [feed, Call.meant,
      cstr_named hp hk.1]⟩
  | endEvent name f =>
    exact ⟨_, rfl, by simp only [Call.data, feed_ls' (named_ok hp (show 0 < 256 ^ 8 by decide)), feed, Call.meant,
      cstr_named hp hk.1]⟩
  | setEvent name e f =>
    exact ⟨_, rfl, by simp only [Call.data, feed_ls (named_ok hp (show 0 < 256 ^ 8 by decide)), feed_recv' (he_len (e := e))]; simp only [feed, Call.meant,
      Call.header, mk, heOf_bytes hk.2.1, cstr_named hp hk.1]⟩
  | version f => exact ⟨_, rfl, rfl⟩
  | request f force r ds =>
    have hl : ds.length ≠ 0 := by simpa using hp.1
    refine ⟨_, rfl, ?_⟩
    simp only [Call.data, feed_res hk.1 hk.2.1 hk.2.2.1 (by rw [hk.2.1]; exact hl) (by rw [hk.2.1]; exact hp.2), feed, Call.header,
      mk, Call.meant, bit0]
  | examineLs a f => exact ⟨_, rfl, by simp only [Call.data, feed_ls' hk.1]; rfl⟩
  | examineRes r f =>
    exact ⟨_, rfl, by simp only [Call.data, feed_recv' (res_len hk.1), resOf_bytes hk.1]; rfl⟩
  | setLvb f r lvb =>
    have hl : lvb.length ≤ 4096 := hp
    refine ⟨_, rfl, ?_⟩
    simp only [Call.data, feed_recv (res_len hk.1), resOf_bytes hk.1, Call.header, mk]
    have e := lvb_size hk.2.2
    rw [e, if_neg (by omega), if_neg (by omega), feed_recv' (Int.toNat_natCast _).symm]
    rfl
  | getLvb f r n =>
    have e : toInt 0 = 0 := by decide
    exact ⟨_, rfl, by simp only [Call.data, feed_recv' (res_len hk.1), resOf_bytes hk.1]; simp only [feed, Call.header, mk, e, Call.meant]⟩
  | formatRx x f => exact ⟨_, rfl, by simp only [Call.data, feed_recv' (rx_len hk.1), rxOf_bytes hk.1]; rfl⟩
  | rebuildRx x f => exact ⟨_, rfl, by simp only [Call.data, feed_recv' (rx_len hk.1), rxOf_bytes hk.1]; rfl⟩
  | updateRx x f e => exact ⟨_, rfl, by simp only [Call.data, feed_rx hk.1 hk.2.2]; rfl⟩
  | lookupRx x f e => exact ⟨_, rfl, by simp only [Call.data, feed_rx hk.1 hk.2.2]; rfl⟩
  | createRes x f e m n => exact ⟨_, rfl, by simp only [Call.data, feed_rx hk.1 hk.2.2.1]; rfl⟩
  | deleteRes x f e => exact ⟨_, rfl, by simp only [Call.data, feed_rx hk.1 hk.2.2]; rfl⟩

theorem header_ok {c : Call} (hk : c.ok) (hi : c.invalid = false) (hp : c.proper) : hdrOf c.header.bytes = c.header := by
  have z : (0 : Nat) < 4294967296 := by decide
  cases c with
  | add a f t => exact mk_ok (by decide) hk.2.1 (by decide) hk.2.2 z
  | inq a f => exact mk_ok (by decide) hk.2 (by decide) z z
  | rem a f => exact mk_ok (by decide) hk.2 (by decide) z z
  | getLockspaces f => exact mk_ok (by decide) hk (by decide) z z
  | getHosts name h f => exact mk_ok (by decide) hk.2.2 (by decide) z z
  | setConfig name f cmd => exact mk_ok (by decide) hk.2.1 (by decide) hk.2.2 z
  | align d => exact mk_ok (by decide) z (by decide) z z
  | readLs a f => exact mk_ok (by decide) hk.2 (by decide) z z
  | readRes r ds f => exact mk_ok (by decide) hk.2.2.2 (by have := badDisks_num hi; omega) z z
  | writeLs a m f t => exact mk_ok (by decide) hk.2.2.1 (by decide) hk.2.1 hk.2.2.2
  | writeRes r ds m n f =>
    exact mk_ok (by decide) hk.2.2.2.2.2 (by have := badDisks_num hi; omega) hk.2.2.2.1 hk.2.2.2.2.1
  | owners r ds f => exact mk_ok (by decide) hk.2.2.2 (by have := badDisks_num hi; omega) z z
  | regEvent name e f => exact mk_ok (by decide) hk.2.2 (by decide) z z
  | endEvent name f => exact mk_ok (by decide) hk.2 (by decide) z z
  | setEvent name e f => exact mk_ok (by decide) hk.2.2 (by decide) z z
  | version f => exact mk_ok (by decide) hk (by decide) z z
  | request f force r ds =>
    exact mk_ok (by decide) hk.2.2.2.1 (by have := hp.2; have := hk.2.1; omega) hk.2.2.2.2 z
  | examineLs a f => exact mk_ok (by decide) hk.2 (by decide) z z
  | examineRes r f => exact mk_ok (by decide) hk.2 (by decide) z z
  | setLvb f r lvb => exact mk_ok (by decide) hk.2.1 (by have : lvb.length ≤ 4096 := hp; omega) z z
  | getLvb f r n => exact mk_ok (by decide) hk.2.1 (by decide) z z
  | formatRx x f => exact mk_ok (by decide) hk.2 (by decide) z z
  | rebuildRx x f => exact mk_ok (by decide) hk.2 (by decide) z z
  | updateRx x f e => exact mk_ok (by decide) hk.2.1 (by decide) z z
  | lookupRx x f e => exact mk_ok (by decide) hk.2.1 (by decide) z z
  | createRes x f e m n => exact mk_ok (by decide) hk.2.1 (by decide) hk.2.2.2.1 hk.2.2.2.2
  | deleteRes x f e => exact mk_ok (by decide) hk.2.1 (by decide) z z

theorem header_cmd (c : Call) : c.header.magic = MAGIC ∧ c.header.version = 1 ∧ 0 < c.header.cmd ∧ c.header.cmd ≤ 40 := by
  cases c <;> refine ⟨rfl, rfl, ?_, ?_⟩ <;> simp only [Call.header, mk] <;> decide

/-- What the daemon does with a header of a call and the bytes behind it. -/
theorem serve_call {c : Call} (ho : hdrOf c.header.bytes = c.header) (fuel : Nat) (d : List UInt8) {p : Prog}
    (hpr : prog c.header = some p) : serve (fuel + 1) (c.header.bytes ++ d) = match feed p d with
      | .short => [.refused (-107)]
      | .exec o r => .op o :: (if closing c.header.cmd then [] else serve fuel r)
      | .refuse rv r => .refused rv :: (if closing c.header.cmd then [] else serve fuel r) := by
  have hl := hdr_len c.header
  have hc := header_cmd c
  rw [serve, if_neg (by simp only [List.length_append]; omega)]
  simp only [tk hl, dp hl, ho, hpr]
  rw [if_neg (by simp [hc.1]), if_neg (by simp [hc.2.1]), if_neg (by omega)]
  rfl

theorem serve_nil (fuel : Nat) : serve fuel [] = [] := by cases fuel <;> simp [serve]

/-! ## Data for the examples -/

def exDisk (n : Nat) : DiskArg := ⟨⟨[47, 100] ++ List.replicate 1022 0, n⟩, 0, 0⟩
def exName (c : UInt8) : List UInt8 := c :: List.replicate 47 0
def exLs : LsArg := ⟨exName 76, 3, 0, 0, exDisk 0⟩
def exRes (n : Nat) : Res := ⟨exName 76, exName 82, 7, 0, 0, 0, 0, n⟩

theorem exDisk_ok {n : Nat} (h : n < 256 ^ 8) : (exDisk n).ok :=
  ⟨by show (([47, 100] : List UInt8) ++ List.replicate 1022 0).length = 1024; rw [List.length_append, List.length_replicate]; rfl, h⟩

theorem exLs_ok : exLs.ok := ⟨by simp [exLs, exName], by decide, by decide, exDisk_ok (by decide)⟩

theorem exRes_ok {n : Nat} (h : n < 256 ^ 4) : (exRes n).ok :=
  ⟨by simp [exRes, exName], by simp [exRes, exName], show 7 < 256 ^ 8 by decide, show 0 < 256 ^ 8 by decide, show 0 < 256 ^ 4 by decide,
    show 0 < 256 ^ 4 by decide, show 0 < 256 ^ 4 by decide, h⟩

/-- Adding a lockspace with host id 3, asynchronously, with an io timeout of 20. -/
def exAdd : Call := .add exLs 1 20

theorem exAdd_ok : exAdd.ok ∧ exAdd.invalid = false ∧ exAdd.proper :=
  ⟨⟨exLs_ok, show 1 < _ by decide, show 20 < _ by decide⟩, rfl, trivial⟩

/-! ## Property -/

/-- C66: a call that passes the library's own checks is carried out by the daemon exactly once, with exactly the arguments given, and
nothing else is done on its connection.  Partial: see `Call.proper` and the violations below. -/
theorem carried_out_partial {c : Call} (hk : c.ok) (hi : c.invalid = false) (hp : c.proper) : served c.bytes = [.op c.meant] := by
  obtain ⟨p, h1, h2⟩ := feed_call hk hi hp
  rw [served, Call.bytes, serve_call (header_ok hk hi hp) _ _ h1, h2]
  simp [serve_nil]

example : served exAdd.bytes = [.op (.add exLs.ls (some 20) true)] := carried_out_partial exAdd_ok.1 exAdd_ok.2.1 exAdd_ok.2.2

/-- Bytes that are consumed to the last one are not enough if any is missing. -/
theorem feed_prefix : ∀ {p : Prog} {b : List UInt8} {o : Op}, feed p b = .exec o [] → ∀ {q : List UInt8}, q <+: b → q ≠ b →
    feed p q = .short
  | .recv n k, b, o, h, q, hq, hne => by
    rw [feed] at h ⊢
    split at h
    · rename_i hn
      split
      · rename_i hn2
        obtain ⟨t, rfl⟩ := hq
        rw [List.take_append_of_le_length hn2, List.drop_append_of_le_length hn2] at h
        exact feed_prefix h (List.prefix_append _ _) (by
          intro e
          apply hne
          have : t = [] := by simpa using e.symm
          rw [this, List.append_nil])
      · rfl
    · exact absurd h (by simp)
  | .exec _, b, o, h, q, hq, hne => by
    simp only [feed, Fed.exec.injEq] at h
    rw [h.2] at hq hne
    exact absurd (List.prefix_nil.mp hq) hne
  | .refuse _, b, o, h, q, hq, hne => by simp [feed] at h

/-- C66: a call of which not all bytes arrive, because the process that makes it is gone, is not carried out, not even in part. -/
theorem cut_short {c : Call} (hk : c.ok) (hi : c.invalid = false) (hp : c.proper) {q : List UInt8} (hq : q <+: c.bytes)
    (hne : q ≠ c.bytes) : served q = [] ∨ served q = [.refused (-107)] := by
  have hl := hdr_len c.header
  by_cases h32 : q.length < 32
  · exact .inl (by rw [served, serve, if_pos h32])
  · obtain ⟨p, h1, h2⟩ := feed_call hk hi hp
    obtain ⟨t, ht⟩ := hq
    have e1 : q.take 32 = c.header.bytes := by
      have := congrArg (List.take 32) ht
      rwa [List.take_append_of_le_length (by omega), Call.bytes, tk hl] at this
    have e2 : q.drop 32 ++ t = c.data := by
      have := congrArg (List.drop 32) ht
      rwa [List.drop_append_of_le_length (by omega), Call.bytes, dp hl] at this
    have e3 : q = c.header.bytes ++ q.drop 32 := by rw [← e1, List.take_append_drop]
    refine .inr ?_
    rw [served, e3, serve_call (header_ok hk hi hp) _ _ h1, feed_prefix h2 ⟨t, e2⟩ (by
      intro e
      apply hne
      rw [e3, e, Call.bytes])]

example : served (exAdd.bytes.take 1000) = [] ∨ served (exAdd.bytes.take 1000) = [.refused (-107)] :=
  cut_short exAdd_ok.1 exAdd_ok.2.1 exAdd_ok.2.2 (List.take_prefix _ _) (by
    have := exAdd_ok.1.1
    intro e
    have := congrArg List.length e
    rw [Call.bytes, List.length_take, List.length_append, hdr_len] at this
    simp only [exAdd, Call.data, ls_len exLs_ok] at this
    omega)

/-! ## The reply -/

theorem u32_cast (x : Int) : ((u32 x : Nat) : Int) = x % 4294967296 := by
  unfold u32
  exact Int.toNat_of_nonneg (Int.emod_nonneg x (by decide))

theorem toInt_u32 {x : Int} (h : -2147483648 ≤ x ∧ x < 2147483648) : toInt (u32 x) = x := by
  have e := u32_cast x
  unfold toInt
  rw [Int.bmod_def, e]
  split <;> omega

theorem u32_lt (x : Int) : u32 x < 4294967296 := by
  have e := u32_cast x
  omega

/-- What a call returns when the daemon found the given; `none` if that is not the kind of thing the daemon replies to the call. -/
def given : Call → Result → Option Ret
  | .getLockspaces _, .lockspaces rv _ l => some (if rv < 0 then ⟨rv, .none⟩ else ⟨0, .lockspaces (l.map (·.ls))⟩)
  | .getHosts .., .hosts rv _ l => some (if rv < 0 then ⟨rv, .none⟩ else ⟨0, .hosts l⟩)
  | .readLs .., .ls rv t a => some (if rv < 0 then ⟨rv, .none⟩ else ⟨0, .ls t a.ls⟩)
  | .readRes .., .res rv r => some ⟨rv, .res r⟩
  | .owners .., .owners rv r l => some (if rv < 0 then ⟨rv, .none⟩ else ⟨0, .owners r l⟩)
  | .getLvb _ _ n, .lvb rv b => some ⟨rv, if b = [] then .none else .lvb (b.take n)⟩
  | .version _, .version v => some ⟨0, .version v 1⟩
  | .updateRx .., .entry rv e => some (if rv < 0 then ⟨rv, .none⟩ else ⟨0, .entry e⟩)
  | .lookupRx .., .entry rv e => some (if rv < 0 then ⟨rv, .none⟩ else ⟨0, .entry e⟩)
  | .createRes .., .entry rv e => some (if rv < 0 then ⟨rv, .none⟩ else ⟨0, .entry e⟩)
  | .deleteRes .., .entry rv _ => some ⟨rv, .none⟩
  | .regEvent .., .plain rv => some ⟨rv, if rv < 0 then .none else .fd⟩
  | .endEvent .., .plain rv => some ⟨rv, .none⟩
  | .add .., .plain rv => some ⟨rv, .none⟩
  | .inq .., .plain rv => some ⟨rv, .none⟩
  | .rem .., .plain rv => some ⟨rv, .none⟩
  | .setConfig .., .plain rv => some ⟨rv, .none⟩
  | .align .., .plain rv => some ⟨rv, .none⟩
  | .writeLs .., .plain rv => some ⟨rv, .none⟩
  | .writeRes .., .plain rv => some ⟨rv, .none⟩
  | .setEvent .., .plain rv => some ⟨rv, .none⟩
  | .request .., .plain rv => some ⟨rv, .none⟩
  | .examineLs .., .plain rv => some ⟨rv, .none⟩
  | .examineRes .., .plain rv => some ⟨rv, .none⟩
  | .setLvb .., .plain rv => some ⟨rv, .none⟩
  | .formatRx .., .plain rv => some ⟨rv, .none⟩
  | .rebuildRx .., .plain rv => some ⟨rv, .none⟩
  | _, _ => none

/-- An error or zero, as an `int`. -/
def err (rv : Int) : Prop := -2147483648 ≤ rv ∧ rv ≤ 0

/-- What the types of the daemon's results ensure, that functions which find something return zero or an error, and that a list is
complete. -/
def Result.ok (c : Call) : Result → Prop
  | .plain rv => -2147483648 ≤ rv ∧ rv < 2147483648 ∧ (match c with | .regEvent .. => rv ≤ 0 | .endEvent .. => rv ≤ 0 | _ => True)
  | .lockspaces rv n l => err rv ∧ rv ≠ -28 ∧ n = l.length ∧ 1104 * l.length < 2147483648 ∧ ∀ a ∈ l, a.ok
  | .hosts rv n l => err rv ∧ rv ≠ -28 ∧ n = l.length ∧ 32 * l.length < 2147483648 ∧ ∀ a ∈ l, a.ok
  | .ls rv t a => err rv ∧ t < 4294967296 ∧ a.ok
  | .res rv r => err rv ∧ r.ok
  | .owners rv r l => err rv ∧ r.ok ∧ 128 + 32 * l.length < 2147483648 ∧ ∀ a ∈ l, a.ok
  | .lvb rv b => err rv ∧ b.length < 2147483648
  | .entry rv e => err rv ∧ e.ok
  | .version v => v < 4294967296

/-- The header that a reply to `c` begins with. -/
def rhd (h : Hdr) (len : Nat) (rv : Int) (d2 : Nat) : Hdr := { h with version := 1, length := 32 + len, data := u32 rv, data2 := d2 }

theorem call_hdr {c : Call} (hk : c.ok) : c.header.magic = MAGIC ∧ c.header.cmd < 4294967296 ∧ c.header.cmdFlags < 4294967296 ∧
    c.header.seq = 0 := by
  have z : (0 : Nat) < 4294967296 := by decide
  cases c <;> refine ⟨rfl, ?_, ?_, rfl⟩ <;> simp only [Call.header, mk] <;> first | decide | skip
  all_goals simp only [Call.ok, u] at hk
  all_goals first | exact hk | exact hk.2 | exact hk.2.1 | exact hk.2.2 | exact hk.2.2.1 | exact hk.2.2.2 | exact hk.2.2.2.1 |
    exact hk.2.2.2.2.2

theorem rh_len {h : Hdr} {len : Nat} {rv : Int} {d2 : Nat} : (rh h len rv d2).length = 32 := hdr_len _

theorem rh_ok {c : Call} (hk : c.ok) {len : Nat} {rv : Int} {d2 : Nat} (hl : len < 2147483648) (h2 : d2 < 4294967296) :
    hdrOf (rh c.header len rv d2) = rhd c.header len rv d2 := by
  obtain ⟨a, b, d, e⟩ := call_hdr hk
  exact hdrOf_bytes (by simp only [a]; decide) (by simp) b d (show 32 + len < _ by omega) (by simp only [e]; decide) (u32_lt _) h2

theorem recvHdr_rh {c : Call} (hk : c.ok) {len : Nat} {rv : Int} {d2 : Nat} (hl : len < 2147483648) (h2 : d2 < 4294967296)
    {b : List UInt8} {eof : Bool} {k : Hdr → List UInt8 → Option Ret} :
    recvHdr (rh c.header len rv d2 ++ b) eof k = k (rhd c.header len rv d2) b := by
  rw [recvHdr, need, if_pos (by rw [List.length_append, rh_len]; omega), tk rh_len, dp rh_len, rh_ok hk hl h2]

theorem recvHdr_rh' {c : Call} (hk : c.ok) {len : Nat} {rv : Int} {d2 : Nat} (hl : len < 2147483648) (h2 : d2 < 4294967296)
    {eof : Bool} {k : Hdr → List UInt8 → Option Ret} :
    recvHdr (rh c.header len rv d2) eof k = k (rhd c.header len rv d2) [] := by
  have := @recvHdr_rh c hk len rv d2 hl h2 [] eof k
  rwa [List.append_nil] at this

theorem need_all {n : Nat} {x y : List UInt8} {eof : Bool} {k : List UInt8 → List UInt8 → Option Ret} (h : x.length = n) :
    need n (x ++ y) eof k = k x y := by
  rw [need, if_pos (by rw [List.length_append]; omega), tk h, dp h]

theorem need_all' {n : Nat} {x : List UInt8} {eof : Bool} {k : List UInt8 → List UInt8 → Option Ret} (h : x.length = n) :
    need n x eof k = k x [] := by
  have := @need_all n x [] eof k h
  rwa [List.append_nil] at this

theorem many_all {α β : Type} {size : Nat} {dec : List UInt8 → α} {f : β → List UInt8} {g : β → α} {eof : Bool}
    {k : List α → Option Ret} : ∀ {l : List β}, (∀ a ∈ l, (f a).length = size ∧ dec (f a) = g a) → ∀ {acc : List α},
    many size dec l.length acc (l.flatMap f) eof k = k (acc ++ l.map g)
  | [], _, acc => by simp [many]
  | a :: l, h, acc => by
    have ha := h a (List.mem_cons_self ..)
    rw [List.length_cons, many, List.flatMap_cons, need_all ha.1, many_all fun b hb => h b (List.mem_cons_of_mem _ hb)]
    simp [ha.2]

theorem err_int {rv : Int} (h : err rv) : toInt (u32 rv) = rv := toInt_u32 ⟨h.1, by have := h.2; omega⟩

theorem err_zero {rv : Int} (h : err rv) (hn : ¬ rv < 0) : rv = 0 := by have := h.2; omega

theorem hosts_dec {l : List Host} (h : ∀ a ∈ l, a.ok) : ∀ a ∈ l, (Host.bytes a).length = 32 ∧ hostOf (Host.bytes a) = id a :=
  fun a ha => ⟨host_len, hostOf_bytes (h a ha)⟩

theorem lss_dec {l : List LsArg} (h : ∀ a ∈ l, a.ok) : ∀ a ∈ l, (LsArg.bytes a).length = 1104 ∧ lsOf (LsArg.bytes a) = a.ls :=
  fun a ha => ⟨ls_len (h a ha), lsOf_bytes (h a ha)⟩

/-- The functions that receive an index entry. -/
theorem entry_all {c : Call} (hk : c.ok) {rv : Int} {e : Re} (h : err rv) (he : e.ok) {k : List UInt8 → Option Ret} :
    (recvHdr (rh c.header 64 rv 0 ++ e.bytes) false fun h rest =>
      if toInt h.data < 0 then some ⟨toInt h.data, .none⟩ else need 64 rest false fun x _ => k x) =
    if rv < 0 then some ⟨rv, .none⟩ else k e.bytes := by
  rw [recvHdr_rh hk (by decide) (by decide)]
  simp only [rhd, err_int h, need_all' (re_len he)]

/-- C66: a call returns what the daemon found. -/
theorem answer {c : Call} (hk : c.ok) {r : Result} (hr : r.ok c) {x : Ret} (hg : given c r = some x) :
    recv c (r.bytes c.header) false = some x := by
  cases c <;> cases r <;> first | (simp only [given, reduceCtorEq] at hg; done) | skip
  all_goals obtain rfl := Option.some.inj hg
  case getLockspaces.lockspaces f rv n l =>
    obtain ⟨h1, h2, h3, h4, h5⟩ := hr
    subst h3
    simp only [recv, Result.bytes]
    rw [recvHdr_rh hk h4 (by omega)]
    simp only [rhd, err_int h1, toInt_small (show l.length < 2147483648 by omega), Int.toNat_natCast, many_all (lss_dec h5),
      List.nil_append]
    split <;> rename_i h
    · rw [if_pos h.1]
    · rw [if_neg (by omega), err_zero h1 (by omega)]
  case getHosts.hosts _ _ _ rv n l =>
    obtain ⟨h1, h2, h3, h4, h5⟩ := hr
    subst h3
    simp only [recv, Result.bytes]
    rw [recvHdr_rh hk h4 (by omega)]
    simp only [rhd, err_int h1, toInt_small (show l.length < 2147483648 by omega), Int.toNat_natCast, many_all (hosts_dec h5),
      List.nil_append, List.map_id]
    split <;> rename_i h
    · rw [if_pos h.1]
    · rw [if_neg (by omega), err_zero h1 (by omega)]
  case readLs.ls _ _ rv t a =>
    obtain ⟨h1, h2, h3⟩ := hr
    simp only [recv, Result.bytes]
    rw [recvHdr_rh hk (by decide) h2]
    simp only [rhd, err_int h1, need_all' (ls_len h3), lsOf_bytes h3]
    split
    · rfl
    · rw [err_zero h1 (by assumption)]
  case readRes.res _ _ _ rv r =>
    obtain ⟨h1, h2⟩ := hr
    simp only [recv, Result.bytes]
    rw [recvHdr_rh hk (by decide) (by decide)]
    simp only [rhd, err_int h1, need_all' (res_len h2), resOf_bytes h2]
  case owners.owners _ _ _ rv r l =>
    obtain ⟨h1, h2, h3, h4⟩ := hr
    simp only [recv, Result.bytes]
    rw [recvHdr_rh hk h3 (by omega)]
    simp only [rhd, err_int h1, need_all (res_len h2), resOf_bytes h2, toInt_small (show l.length < 2147483648 by omega),
      Int.toNat_natCast, many_all (hosts_dec h4), List.nil_append, List.map_id]
    split <;> rfl
  case getLvb.lvb f r n rv b =>
    obtain ⟨h1, h2⟩ := hr
    simp only [recv, Result.bytes]
    rw [recvHdr_rh hk h2 (by decide)]
    simp only [rhd, err_int h1]
    cases b with
    | nil => rfl
    | cons y b =>
      rw [if_neg (by simp), need_all' (by simp), if_neg (by simp)]
  case version.version f v =>
    simp only [recv, Result.bytes]
    rw [show ({ (Call.version f).header with cmd := 28, cmdFlags := 0, seq := 0 } : Hdr) = (Call.version 0).header from rfl,
      recvHdr_rh' (show (Call.version 0).ok by simp [Call.ok, u]) (by decide) hr]
    simp only [rhd, err_int (show err 0 by simp [err])]
    rfl
  case updateRx.entry =>
    simp only [recv, Result.bytes]
    rw [entry_all hk hr.1 hr.2]
    split <;> simp [reOf_bytes hr.2]
  case lookupRx.entry =>
    simp only [recv, Result.bytes]
    rw [entry_all hk hr.1 hr.2]
    split <;> simp [reOf_bytes hr.2]
  case createRes.entry =>
    simp only [recv, Result.bytes]
    rw [entry_all hk hr.1 hr.2]
    split <;> simp [reOf_bytes hr.2]
  case deleteRes.entry =>
    simp only [recv, Result.bytes]
    rw [entry_all hk hr.1 hr.2]
    split
    · rfl
    · rw [err_zero hr.1 (by assumption)]
  case regEvent.plain _ _ _ rv =>
    simp only [recv, Result.bytes]
    rw [recvHdr_rh' hk (by decide) (by decide)]
    simp only [rhd, toInt_u32 ⟨hr.1, hr.2.1⟩]
    split
    · rfl
    · have := hr.2.2
      simp only at this
      rw [show rv = 0 by omega]
  case endEvent.plain _ _ rv =>
    simp only [recv, Result.bytes]
    rw [recvHdr_rh' hk (by decide) (by decide)]
    simp only [rhd, toInt_u32 ⟨hr.1, hr.2.1⟩]
    split
    · rfl
    · have := hr.2.2
      simp only at this
      rw [show rv = 0 by omega]
  all_goals
    simp only [recv, Result.bytes]
    rw [recvHdr_rh' hk (by decide) (by decide)]
    simp only [rhd, toInt_u32 ⟨hr.1, hr.2.1⟩]

example : recv (.readLs exLs 0) ((Result.ls 0 20 exLs).bytes (Call.readLs exLs 0).header) false = some ⟨0, .ls 20 exLs.ls⟩ :=
  answer (show (Call.readLs exLs 0).ok from ⟨exLs_ok, show 0 < _ by decide⟩) (show (Result.ls 0 20 exLs).ok _ from
    ⟨⟨by decide, by decide⟩, by decide, exLs_ok⟩) rfl

/-! ## A reply that breaks off -/

/-- `x`, or the error of a call that was cut off. -/
theorem need_cut {n : Nat} {x y q : List UInt8} {k : List UInt8 → List UInt8 → Option Ret} (h : x.length = n) (hq : q <+: x ++ y) :
    need n q true k = some ⟨-1, .none⟩ ∨ ∃ q', q = x ++ q' ∧ q' <+: y ∧ need n q true k = k x q' := by
  unfold need
  split
  · rename_i hn
    obtain ⟨t, ht⟩ := hq
    have e1 : q.take n = x := by
      have := congrArg (List.take n) ht
      rwa [List.take_append_of_le_length hn, tk h] at this
    have e2 : q.drop n ++ t = y := by
      have := congrArg (List.drop n) ht
      rwa [List.drop_append_of_le_length hn, dp h] at this
    exact .inr ⟨q.drop n, by rw [← e1, List.take_append_drop], ⟨t, e2⟩, by rw [e1]⟩
  · exact .inl rfl

theorem recvHdr_cut {c : Call} (hk : c.ok) {len : Nat} {rv : Int} {d2 : Nat} (hl : len < 2147483648) (h2 : d2 < 4294967296)
    {y q : List UInt8} {k : Hdr → List UInt8 → Option Ret} (hq : q <+: rh c.header len rv d2 ++ y) :
    recvHdr q true k = some ⟨-1, .none⟩ ∨ ∃ q', q = rh c.header len rv d2 ++ q' ∧ q' <+: y ∧
      recvHdr q true k = k (rhd c.header len rv d2) q' := by
  rcases need_cut (k := fun x rest => k (hdrOf x) rest) rh_len hq with h | ⟨q', h1, h2', h3⟩
  · exact .inl h
  · exact .inr ⟨q', h1, h2', by rw [← rh_ok hk hl h2]; exact h3⟩

theorem many_cut {α β : Type} {size : Nat} {dec : List UInt8 → α} {f : β → List UInt8} {k : List α → Option Ret} :
    ∀ {l : List β}, (∀ a ∈ l, (f a).length = size) → ∀ {acc : List α} {q : List UInt8}, q <+: l.flatMap f →
    many size dec l.length acc q true k = some ⟨-1, .none⟩ ∨ q = l.flatMap f
  | [], _, acc, q, hq => by
    simp only [List.flatMap_nil] at hq ⊢
    exact .inr (List.prefix_nil.mp hq)
  | a :: l, h, acc, q, hq => by
    rw [List.flatMap_cons] at hq ⊢
    rw [List.length_cons, many]
    rcases need_cut (k := fun x rest => many size dec l.length (acc ++ [dec x]) rest true k) (h a (List.mem_cons_self ..)) hq with
      h1 | ⟨q', h1, h2, h3⟩
    · exact .inl h1
    · rw [h3]
      rcases many_cut (k := k) (dec := dec) (fun b hb => h b (List.mem_cons_of_mem _ hb)) (acc := acc ++ [dec (f a)]) h2 with h4 | h4
      · exact .inl h4
      · exact .inr (by rw [h1, h4])

/-- A return value that says that the call failed. -/
def failed (x : Option Ret) : Prop := ∃ y, x = some y ∧ y.rv < 0

theorem failed_cut : failed (some ⟨-1, .none⟩) := ⟨_, rfl, by decide⟩

theorem pre {q b : List UInt8} (h : q <+: b) : q <+: b ++ [] := by rwa [List.append_nil]

/-- The calls whose reply is a header only. -/
theorem plain_cut {c : Call} (hk : c.ok) {rv : Int} {q : List UInt8} (hq : q <+: rh c.header 0 rv 0) (hne : q ≠ rh c.header 0 rv 0)
    {k : Hdr → List UInt8 → Option Ret} : failed (recvHdr q true k) := by
  rcases recvHdr_cut (k := k) hk (by decide) (by decide) (pre hq) with h | ⟨q', h1, h2, -⟩
  · rw [h]; exact failed_cut
  · rw [List.prefix_nil.mp h2, List.append_nil] at h1
    exact absurd h1 hne

/-- A header with the result and data behind it that are read if the result is not an error. -/
theorem data_cut {c : Call} (hk : c.ok) {len : Nat} {rv : Int} {d2 : Nat} (h : err rv) (hl : len < 2147483648) (h2 : d2 < 4294967296)
    {y q : List UInt8} (hq : q <+: rh c.header len rv d2 ++ y) (hne : q ≠ rh c.header len rv d2 ++ y)
    {k : Hdr → List UInt8 → Option Ret}
    (hd : ∀ q', q' <+: y → q' ≠ y → rv = 0 → failed (k (rhd c.header len rv d2) q'))
    (he : rv < 0 → ∀ q', k (rhd c.header len rv d2) q' = some ⟨rv, .none⟩) : failed (recvHdr q true k) := by
  rcases recvHdr_cut (k := k) hk hl h2 hq with h' | ⟨q', h1, h2', h3⟩
  · rw [h']; exact failed_cut
  · rw [h3]
    by_cases hz : rv < 0
    · rw [he hz]; exact ⟨_, rfl, hz⟩
    · exact hd q' h2' (by intro e; rw [e] at h1; exact hne h1) (err_zero h hz)

theorem need_fails {n : Nat} {x q : List UInt8} {k : List UInt8 → List UInt8 → Option Ret} (h : x.length = n) (hq : q <+: x)
    (hne : q ≠ x) : need n q true k = some ⟨-1, .none⟩ := by
  rcases need_cut (k := k) h (pre hq) with h1 | ⟨q', h1, h2, -⟩
  · exact h1
  · rw [List.prefix_nil.mp h2, List.append_nil] at h1
    exact absurd h1 hne

theorem entry_cut {c : Call} (hk : c.ok) {rv : Int} {e : Re} (h : err rv) (he : e.ok) {k : List UInt8 → Option Ret}
    {q : List UInt8} (hq : q <+: rh c.header 64 rv 0 ++ e.bytes) (hne : q ≠ rh c.header 64 rv 0 ++ e.bytes) :
    failed (recvHdr q true fun h rest =>
      if toInt h.data < 0 then some ⟨toInt h.data, .none⟩ else need 64 rest true fun x _ => k x) := by
  refine data_cut hk h (by decide) (by decide) hq hne ?_ ?_
  · intro q' h1 h2 h3
    simp only [rhd, err_int h]
    simp only [h3]
    rw [if_neg (by decide), need_fails (re_len he) h1 h2]
    exact failed_cut
  · intro h0 q'
    simp only [rhd, err_int h]
    rw [if_pos h0]

/-- C66: a reply that breaks off, because the daemon is gone, makes the call fail; it does not return less than the daemon found. -/
theorem answer_cut {c : Call} (hk : c.ok) {r : Result} (hr : r.ok c) (hg : (given c r).isSome) {q : List UInt8}
    (hq : q <+: r.bytes c.header) (hne : q ≠ r.bytes c.header) : ∃ x, recv c q true = some x ∧ x.rv < 0 := by
  show failed (recv c q true)
  cases c <;> cases r <;> first | (simp only [given, Option.isSome_none, Bool.false_eq_true] at hg; done) | skip
  all_goals clear hg
  all_goals simp only [Result.bytes] at hq hne
  all_goals simp only [recv]
  case getLockspaces.lockspaces f rv n l =>
    obtain ⟨h1, h2, h3, h4, h5⟩ := hr
    subst h3
    refine data_cut hk h1 h4 (by omega) hq hne ?_ ?_
    · intro q' h6 h7 h8
      simp only [rhd, err_int h1, toInt_small (show l.length < 2147483648 by omega), Int.toNat_natCast]
      simp only [h8]
      rw [if_neg (by omega)]
      rcases many_cut (dec := lsOf) (acc := []) (k := fun l => some (⟨0, .lockspaces l⟩ : Ret)) (fun a ha => ls_len (h5 a ha)) h6
        with h | h
      · rw [h]; exact failed_cut
      · exact absurd h h7
    · intro h0 q'
      simp only [rhd, err_int h1]
      rw [if_pos ⟨h0, h2⟩]
  case getHosts.hosts _ _ _ rv n l =>
    obtain ⟨h1, h2, h3, h4, h5⟩ := hr
    subst h3
    refine data_cut hk h1 h4 (by omega) hq hne ?_ ?_
    · intro q' h6 h7 h8
      simp only [rhd, err_int h1, toInt_small (show l.length < 2147483648 by omega), Int.toNat_natCast]
      simp only [h8]
      rw [if_neg (by omega)]
      rcases many_cut (dec := hostOf) (acc := []) (k := fun l => some (⟨0, .hosts l⟩ : Ret)) (fun a _ => host_len) h6 with h | h
      · rw [h]; exact failed_cut
      · exact absurd h h7
    · intro h0 q'
      simp only [rhd, err_int h1]
      rw [if_pos ⟨h0, h2⟩]
  case readLs.ls _ _ rv t a =>
    obtain ⟨h1, h2, h3⟩ := hr
    refine data_cut hk h1 (by decide) h2 hq hne ?_ ?_
    · intro q' h6 h7 h8
      simp only [rhd, err_int h1]
      simp only [h8]
      rw [if_neg (by decide), need_fails (ls_len h3) h6 h7]
      exact failed_cut
    · intro h0 q'
      simp only [rhd, err_int h1]
      rw [if_pos h0]
  case readRes.res _ _ _ rv r =>
    obtain ⟨h1, h2⟩ := hr
    rcases recvHdr_cut (k := fun h rest => need 128 rest true fun x _ => some ⟨toInt h.data, .res (resOf x)⟩) hk (by decide) (by decide)
      hq with h | ⟨q', h3, h4, h5⟩
    · rw [h]; exact failed_cut
    · rw [h5, need_fails (res_len h2) h4 (by intro e; rw [e] at h3; exact hne h3)]
      exact failed_cut
  case owners.owners _ _ _ rv r l =>
    obtain ⟨h1, h2, h3, h4⟩ := hr
    refine data_cut hk h1 h3 (by omega) hq hne ?_ ?_
    · intro q' h6 h7 h8
      simp only [rhd, err_int h1, toInt_small (show l.length < 2147483648 by omega), Int.toNat_natCast]
      simp only [h8]
      rw [if_neg (by decide)]
      rcases need_cut (k := fun x rest2 => many 32 hostOf l.length [] rest2 true fun l => some (⟨0, .owners (resOf x) l⟩ : Ret))
        (res_len h2) h6 with h | ⟨q2, h9, h10, h11⟩
      · rw [h]; exact failed_cut
      · rw [h11]
        rcases many_cut (dec := hostOf) (acc := []) (k := fun l => some (⟨0, .owners (resOf r.bytes) l⟩ : Ret)) (fun a _ => host_len) h10
          with h | h
        · rw [h]; exact failed_cut
        · rw [h] at h9; exact absurd h9 h7
    · intro h0 q'
      simp only [rhd, err_int h1]
      rw [if_pos h0]
  case getLvb.lvb f r n rv b =>
    obtain ⟨h1, h2⟩ := hr
    rcases recvHdr_cut (k := fun h rest => if h.length = 32 then some ⟨toInt h.data, .none⟩
      else need (h.length - 32) rest true fun x _ => some ⟨toInt h.data, .lvb (x.take n)⟩) hk h2 (by decide) hq with
        h | ⟨q', h3, h4, h5⟩
    · rw [h]; exact failed_cut
    · rw [h5]
      have hb : q' ≠ b := by intro e; rw [e] at h3; exact hne h3
      split
      · rename_i e
        have e : 32 + b.length = 32 := e
        have : b = [] := List.eq_nil_of_length_eq_zero (by omega)
        rw [this] at h4 hb
        exact absurd (List.prefix_nil.mp h4) hb
      · show failed (need (32 + b.length - 32) q' true _)
        rw [need_fails (by omega) h4 hb]
        exact failed_cut
  case version.version f v =>
    exact (by
      have e : ({ (Call.version f).header with cmd := 28, cmdFlags := 0, seq := 0 } : Hdr) = (Call.version 0).header := rfl
      rw [e] at hq hne
      rcases recvHdr_cut (k := fun h _ => if toInt h.data < 0 then some ⟨toInt h.data, .none⟩ else some ⟨0, .version h.data2 h.version⟩)
        (show (Call.version 0).ok by simp [Call.ok, u]) (by decide) hr (pre hq) with h | ⟨q', h1, h2, -⟩
      · rw [h]; exact failed_cut
      · rw [List.prefix_nil.mp h2, List.append_nil] at h1
        exact absurd h1 hne)
  case updateRx.entry => exact entry_cut hk hr.1 hr.2 hq hne
  case lookupRx.entry => exact entry_cut hk hr.1 hr.2 hq hne
  case createRes.entry => exact entry_cut hk hr.1 hr.2 hq hne
  case deleteRes.entry => exact entry_cut hk hr.1 hr.2 hq hne
  all_goals exact plain_cut hk hq hne

example : ∃ x, recv (.readLs exLs 0) (((Result.ls 0 20 exLs).bytes (Call.readLs exLs 0).header).take 40) true = some x ∧ x.rv < 0 :=
  answer_cut (show (Call.readLs exLs 0).ok from ⟨exLs_ok, show 0 < _ by decide⟩) (show (Result.ls 0 20 exLs).ok _ from
    ⟨⟨by decide, by decide⟩, by decide, exLs_ok⟩) rfl (List.take_prefix _ _) (by
      intro e
      have := congrArg List.length e
      simp only [Result.bytes, List.length_take, List.length_append, rh_len, ls_len exLs_ok] at this
      omega)

/-- C66: when the daemon refuses a command, every call but that which reads a lease returns the daemon's error. -/
theorem refused_returns_partial {c : Call} (hk : c.ok) {rv : Int} (h1 : -2147483648 ≤ rv) (h2 : rv < 0) (h3 : rv ≠ -28)
    (hc : ∀ r ds f, c ≠ .readRes r ds f) : recv c ((Result.plain rv).bytes c.header) false = some ⟨rv, .none⟩ := by
  have e : toInt (u32 rv) = rv := toInt_u32 ⟨h1, by omega⟩
  cases c <;> simp only [recv, Result.bytes] <;> try rw [recvHdr_rh' hk (by decide) (by decide)]
  all_goals simp only [rhd, e]
  case getLockspaces => rw [if_pos ⟨h2, h3⟩]
  case getHosts => rw [if_pos ⟨h2, h3⟩]
  case readLs => rw [if_pos h2]
  case readRes r ds f => exact absurd rfl (hc r ds f)
  case owners => rw [if_pos h2]
  case regEvent => rw [if_pos h2]
  case endEvent => rw [if_pos h2]
  case version => rw [if_pos h2]
  case getLvb => rfl
  case updateRx => rw [if_pos h2]
  case lookupRx => rw [if_pos h2]
  case createRes => rw [if_pos h2]
  case deleteRes => rw [if_pos h2]

example : recv exAdd ((Result.plain (-12)).bytes exAdd.header) false = some ⟨-12, .none⟩ :=
  refused_returns_partial exAdd_ok.1 (by decide) (by decide) (by decide) (by intro r ds f h; cases h)

/-! ## Violations -/

/-- The number of hosts of a lease that is written is the one passed as `max_hosts`, and `num_hosts` has no effect
(`src/client.c:612-615`, `src/cmd.c:1943`). -/
theorem write_resource_hosts {r : Res} {ds : List DiskArg} {m n f : Nat} (hk : (Call.writeRes r ds m n f).ok)
    (hi : (Call.writeRes r ds m n f).invalid = false) :
    served (Call.writeRes r ds m n f).bytes =
      [.op (.writeRes r.lname r.rname r.flags (ds.map (·.loc)) (toInt m) (f % 2 = 1))] := by
  have hb := badDisks_num hi
  have hl := hdr_len (Call.writeRes r ds m n f).header
  have ho : hdrOf (Call.writeRes r ds m n f).header.bytes = (Call.writeRes r ds m n f).header :=
    mk_ok (by decide) hk.2.2.2.2.2 (by omega) hk.2.2.2.1 hk.2.2.2.2.1
  have hf : feed (withRes fun r' ds' => .exec (.writeRes r'.lname r'.rname r'.flags ds' (toInt m) (bit f 0)))
      (Call.writeRes r ds m n f).data = .exec (.writeRes r.lname r.rname r.flags (ds.map (·.loc)) (toInt m) (f % 2 = 1)) [] := by
    simp only [Call.data, feed_res hk.1 hk.2.1 hk.2.2.1 hb.1 hb.2, feed, bit0]
  rw [served, Call.bytes, serve_call ho _ _ rfl]
  simp only [Call.header, mk]
  rw [hf]
  simp [serve_nil]

/-- The documented meaning of `num_hosts` is lost: a lease that was to be for 10 hosts is written for 2000. -/
theorem write_resource_hosts_violated : ∃ c : Call, c.ok ∧ c.invalid = false ∧ served c.bytes ≠ [.op c.meant] := by
  have hk : (Call.writeRes (exRes 1) [exDisk 0] 2000 10 0).ok := ⟨exRes_ok (by decide), rfl, by
    intro d hd
    rw [List.mem_singleton.mp hd]
    exact exDisk_ok (by decide), show 2000 < _ by decide, show 10 < _ by decide, show 0 < _ by decide⟩
  refine ⟨_, hk, rfl, ?_⟩
  rw [write_resource_hosts hk rfl]
  simp only [Call.meant, ne_eq, List.cons.injEq, Ev.op.injEq, Op.writeRes.injEq, and_true, true_and]
  decide

theorem feed_append : ∀ {p : Prog} {b r : List UInt8} {o : Op} (t : List UInt8), feed p b = .exec o r →
    feed p (b ++ t) = .exec o (r ++ t)
  | .recv n k, b, r, o, t, h => by
    rw [feed] at h ⊢
    split at h
    · rename_i hn
      rw [if_pos (by rw [List.length_append]; omega), List.take_append_of_le_length hn, List.drop_append_of_le_length hn]
      exact feed_append t h
    · exact absurd h (by simp)
  | .exec _, b, r, o, t, h => by
    simp only [feed, Fed.exec.injEq] at h ⊢
    exact ⟨h.1, by rw [h.2]⟩
  | .refuse _, b, r, o, t, h => by simp [feed] at h

/-- A lock value block that is too large is not taken from the connection when it is refused (`src/cmd.c:1165-1174`), so its content
is carried out: if it begins with the bytes of any call, that call is made. -/
theorem lvb_carried_out {f : Nat} {r : Res} {lvb t : List UInt8} {c : Call} (hk : (Call.setLvb f r lvb).ok) (hl : 4096 < lvb.length)
    (hck : c.ok) (hci : c.invalid = false) (hcp : c.proper) (he : lvb = c.bytes ++ t) :
    ∃ l, served (Call.setLvb f r lvb).bytes = .refused (-7) :: .op c.meant :: l := by
  have hh := hdr_len (Call.setLvb f r lvb).header
  have ho : hdrOf (Call.setLvb f r lvb).header.bytes = (Call.setLvb f r lvb).header := mk_ok (by decide) hk.2.1 (by have := hk.2.2; omega) (by decide) (by decide)
  obtain ⟨p, h1, h2⟩ := feed_call hck hci hcp
  have h3 := feed_append t h2
  have e := lvb_size hk.2.2
  obtain ⟨q, hq, hf⟩ : ∃ q, prog (Call.setLvb f r lvb).header = some q ∧ feed q (Call.setLvb f r lvb).data = .refuse (-7) lvb := by
    refine ⟨_, rfl, ?_⟩
    simp only [Call.data, feed_recv (res_len hk.1), resOf_bytes hk.1, Call.header, mk]
    rw [e, if_pos (by omega)]
    rfl
  rw [served, Call.bytes, serve_call ho _ _ hq, hf]
  have hc : closing (Call.setLvb f r lvb).header.cmd = false := by simp only [Call.header, mk]; decide
  simp only [hc]
  have hlen : ((Call.setLvb f r lvb).header.bytes ++ (Call.setLvb f r lvb).data).length =
      ((Call.setLvb f r lvb).header.bytes ++ (Call.setLvb f r lvb).data).length - 1 + 1 := by rw [List.length_append, hh]; omega
  rw [hlen]
  generalize ((Call.setLvb f r lvb).header.bytes ++ (Call.setLvb f r lvb).data).length - 1 = n
  rw [he, Call.bytes, List.append_assoc, serve_call (header_ok hck hci hcp) _ _ h1, h3]
  exact ⟨_, rfl⟩

example : ∃ l, served (Call.setLvb 0 (exRes 0) (exAdd.bytes ++ List.replicate 4096 0)).bytes =
    .refused (-7) :: .op (.add exLs.ls (some 20) true) :: l := by
  have hl : (exAdd.bytes ++ List.replicate 4096 (0 : UInt8)).length = 5232 := by
    rw [Call.bytes, List.length_append, List.length_append, hdr_len, List.length_replicate]
    simp only [exAdd, Call.data, ls_len exLs_ok]
  exact lvb_carried_out ⟨exRes_ok (by decide), show 0 < _ by decide, by omega⟩ (by omega) exAdd_ok.1 exAdd_ok.2.1 exAdd_ok.2.2 rfl

/-- `sanlock_read_resource` waits for a resource structure whatever the result is, and a daemon that refuses the command, because it
has no memory or no thread for it, replies with a header only and keeps the connection: the call never returns
(`src/client.c:545-560`, `src/main.c:1044-1053`). -/
theorem read_resource_hangs_violated {r : Res} {ds : List DiskArg} {f : Nat} (hk : (Call.readRes r ds f).ok) (rv : Int) :
    recv (.readRes r ds f) ((Result.plain rv).bytes (Call.readRes r ds f).header) false = none := by
  simp only [recv, Result.bytes]
  rw [recvHdr_rh' hk (by decide) (by decide), need, if_neg (by decide)]
  rfl

example : (Call.readRes (exRes 1) [exDisk 0] 0).ok ∧ (Call.readRes (exRes 1) [exDisk 0] 0).invalid = false :=
  ⟨⟨exRes_ok (by decide), rfl, by intro d hd; rw [List.mem_singleton.mp hd]; exact exDisk_ok (by decide), show 0 < _ by decide⟩, rfl⟩

theorem many_short {α β : Type} {size : Nat} {dec : List UInt8 → α} {f : β → List UInt8} {k : List α → Option Ret} (hs : 0 < size) :
    ∀ {l : List β}, (∀ a ∈ l, (f a).length = size) → ∀ {acc : List α} {n : Nat}, l.length < n →
    many size dec n acc (l.flatMap f) true k = some ⟨-1, .none⟩
  | [], _, acc, n, hn => by
    obtain ⟨m, rfl⟩ : ∃ m, n = m + 1 := ⟨n - 1, by simp at hn; omega⟩
    rw [many, need, if_neg (by simp; omega), if_pos rfl]
  | a :: l, h, acc, n, hn => by
    obtain ⟨m, rfl⟩ : ∃ m, n = m + 1 := ⟨n - 1, by simp at hn; omega⟩
    rw [many, List.flatMap_cons, need_all (h a (List.mem_cons_self ..))]
    exact many_short hs (fun b hb => h b (List.mem_cons_of_mem _ hb)) (by simp at hn; omega)

/-- When there are more lockspaces than fit into the daemon's buffer, it replies with -ENOSPC, those that fit, and the number of all
of them (`src/lockspace.c:1393-1417`); the library waits for as many and ends with -1 and no list (`src/client.c:248-276`). -/
theorem too_many_lockspaces_violated {f n : Nat} {l : List LsArg} (hf : f < 4294967296) (hl : ∀ a ∈ l, a.ok)
    (h1 : 1104 * l.length < 2147483648) (h2 : l.length < n) (h3 : n < 2147483648) :
    recv (.getLockspaces f) ((Result.lockspaces (-28) n l).bytes (Call.getLockspaces f).header) true = some ⟨-1, .none⟩ := by
  simp only [recv, Result.bytes]
  rw [recvHdr_rh (show (Call.getLockspaces f).ok from hf) h1 (by omega)]
  simp only [rhd, err_int (show err (-28) by simp [err]), toInt_small h3, Int.toNat_natCast]
  rw [if_neg (by decide), many_short (by decide) (fun a ha => ls_len (hl a ha)) h2]

example : recv (.getLockspaces 0) ((Result.lockspaces (-28) 950 (List.replicate 949 exLs)).bytes (Call.getLockspaces 0).header) true =
    some ⟨-1, .none⟩ :=
  too_many_lockspaces_violated (by decide) (by intro a ha; rw [(List.mem_replicate.mp ha).2]; exact exLs_ok)
    (by rw [List.length_replicate]; decide) (by rw [List.length_replicate]; decide) (by decide)

end Sanlock.OneShot
