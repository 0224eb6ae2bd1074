import Verif.HostName
import Verif.Props.Verify
import Verif.Props.Crc

/-!
# C79: the name of the host
-/

namespace Sanlock.HostName

open OnDisk Crc Verify Delta

/-- The name as it is in the lease after the host has taken it. -/
def Held (l : Leader) (name : List UInt8) : Prop := ∃ (sum : Leader → UInt32) (io : UInt32) (id ts : UInt64) (l0 : Leader),
  ts ≠ 0 ∧ l = newLeader sum io id name l0 ts

theorem takeWhile_id {s : List UInt8} (h : ∀ c ∈ s, c ≠ 0) (r : List UInt8) : (s ++ 0 :: r).takeWhile (· ≠ 0) = s := by
  induction s with
  | nil => rfl
  | cons c t ih =>
    rw [List.cons_append, List.takeWhile_cons, if_pos (decide_eq_true (h c List.mem_cons_self)), ih fun d hd => h d (List.mem_cons_of_mem _ hd)]

theorem takeWhile_all {s : List UInt8} (h : ∀ c ∈ s, c ≠ 0) : s.takeWhile (· ≠ 0) = s := by
  induction s with
  | nil => rfl
  | cons c t ih =>
    rw [List.takeWhile_cons, if_pos (decide_eq_true (h c List.mem_cons_self)), ih fun d hd => h d (List.mem_cons_of_mem _ hd)]

theorem newLeader_name (sum : Leader → UInt32) (io : UInt32) (id ts : UInt64) (name : List UInt8) (l : Leader) :
    (newLeader sum io id name l ts).resourceName = snprintfName l.resourceName name ∧ (newLeader sum io id name l ts).timestamp = ts := ⟨rfl, rfl⟩

/-- A lease held under the name `a` is taken at once by a daemon with the name `b` exactly if `b` is `a` cut to 47 bytes. -/
theorem taken_iff {a b : List UInt8} {l : Leader} (ha : ∀ c ∈ a, c ≠ 0) (hb : ∀ c ∈ b, c ≠ 0) (hl : b.length ≤ 48) (h : Held l a) :
    first b l = .write ↔ a.take 47 = b := by
  obtain ⟨sum, io, id, ts, l0, ht, rfl⟩ := h
  obtain ⟨h1, h2⟩ := newLeader_name sum io id ts a l0
  unfold first
  rw [h2, if_neg ht, h1]
  have hlen : (a.take 47).length ≤ 47 := by rw [List.length_take]; omega
  have ht47 : ∀ c ∈ a.take 47, c ≠ 0 := fun c hc => ha c ((List.take_sublist _ _).subset hc)
  have e : ((snprintfName l0.resourceName a).bytes.take 48).takeWhile (· ≠ 0) = a.take 47 := by
    show (((a.takeWhile (· ≠ 0)).take 47 ++ 0 :: _).take 48).takeWhile (· ≠ 0) = _
    rw [takeWhile_all ha, List.take_append, List.take_of_length_le (by omega : (a.take 47).length ≤ 48),
      show 48 - (a.take 47).length = (47 - (a.take 47).length) + 1 by omega, List.take_succ_cons, takeWhile_id ht47]
  have key := strncmpEq_iff 48 (snprintfName l0.resourceName a).bytes b
  rw [e, List.take_of_length_le hl, takeWhile_all hb] at key
  rw [← key]
  cases strncmpEq 48 (snprintfName l0.resourceName a).bytes b <;> simp

/-- **C79.**  A daemon takes its own lease again at once, if its name has at most 47 bytes. -/
theorem own_partial {a : List UInt8} {l : Leader} (ha : ∀ c ∈ a, c ≠ 0) (hl : a.length ≤ 47) (h : Held l a) : first a l = .write :=
  (taken_iff ha ha (by omega) h).mpr (List.take_of_length_le hl)

/-- **C79.**  A daemon with another name waits, if the name in the lease has at most 47 bytes. -/
theorem other_partial {a b : List UInt8} {l : Leader} (ha : ∀ c ∈ a, c ≠ 0) (hb : ∀ c ∈ b, c ≠ 0) (hal : a.length ≤ 47) (hl : b.length ≤ 48)
    (h : Held l a) (hne : a ≠ b) : first b l = .wait := by
  cases hf : first b l with
  | wait => rfl
  | write =>
    have := (taken_iff ha hb hl h).mp hf
    rw [List.take_of_length_le hal] at this
    exact absurd this hne

/-- Every name has at most 48 bytes and no zeros; one that is set is used as it is. -/
theorem setup_ok {s uuid node : List UInt8} (hu : uuid.length = 36) :
    (∀ c ∈ setup (setting s) uuid node, c ≠ 0) ∧ (setup (setting s) uuid node).length ≤ 48 ∧
      ((∀ c ∈ s, c ≠ 0) → s ≠ [] → s.length ≤ 48 → setup (setting s) uuid node = s) := by
  have hz : ∀ (t : List UInt8), ∀ c ∈ t.takeWhile (· ≠ 0), c ≠ 0 := by
    intro t c hc
    have := List.all_takeWhile (p := fun c : UInt8 => decide (c ≠ 0)) (l := t)
    rw [List.all_eq_true] at this
    exact of_decide_eq_true (this c hc)
  refine ⟨?_, ?_, ?_⟩
  · intro c hc
    unfold setup at hc
    split at hc
    · exact hz s c ((List.take_sublist _ _).subset ((List.take_sublist _ _).subset hc))
    · exact hz _ c hc
  · unfold setup
    split
    · rw [List.length_take]; omega
    · dsimp only
      rw [if_pos (by omega)]
      refine Nat.le_trans (List.takeWhile_sublist _).length_le ?_
      simp only [List.length_append, List.length_take, List.length_singleton]
      omega
  · intro h1 h2 h3
    have e : setting s = s := by
      unfold setting cstr
      rw [takeWhile_all h1, List.take_of_length_le h3]
    unfold setup
    rw [e, if_pos h2, List.take_of_length_le h3]

/-- The name that a daemon makes up: the UUID, a full stop and the first 11 bytes of the node name. -/
theorem made_up {uuid node : List UInt8} (hu : uuid.length = 36) (hz : ∀ c ∈ uuid, c ≠ 0) :
    setup [] uuid node = uuid ++ 46 :: (node.take 11).takeWhile (· ≠ 0) := by
  unfold setup cstr
  rw [if_neg (fun h => h rfl)]
  dsimp only
  rw [if_pos (by omega), hu, List.take_of_length_le (by rw [List.length_append, hu]; decide), List.append_assoc]
  show (uuid ++ 46 :: node.take 11).takeWhile _ = _
  clear hu
  induction uuid with
  | nil => rfl
  | cons c t ih =>
    rw [List.cons_append, List.takeWhile_cons, if_pos (decide_eq_true (hz c List.mem_cons_self)), ih fun d hd => hz d (List.mem_cons_of_mem _ hd)]
    rfl

/-- **C79, names made up.**  Daemons with different UUIDs never take each other's lease at once, whatever their node names. -/
theorem uuids {u v n m : List UInt8} {l : Leader} (hu : u.length = 36) (hv : v.length = 36) (hzu : ∀ c ∈ u, c ≠ 0) (hzv : ∀ c ∈ v, c ≠ 0)
    (hne : u ≠ v) (h : Held l (setup [] u n)) : first (setup [] v m) l = .wait := by
  have ok : ∀ {w x : List UInt8}, w.length = 36 → (∀ c ∈ setup [] w x, c ≠ 0) ∧ (setup [] w x).length ≤ 48 := fun {w x} hw =>
    ⟨(setup_ok (s := []) (node := x) hw).1, (setup_ok (s := []) (node := x) hw).2.1⟩
  cases hf : first (setup [] v m) l with
  | wait => rfl
  | write =>
    have := (taken_iff (ok hu).1 (ok hv).1 (ok hv).2 h).mp hf
    rw [made_up hu hzu, made_up hv hzv] at this
    have := congrArg (List.take 36) this
    rw [List.take_take, show min 36 47 = 36 by decide, List.take_left' hu, List.take_left' hv] at this
    exact absurd this hne

/-! ## Violations -/

/-- Names of 48 bytes are accepted.  A daemon with such a name does not know its own lease and waits as for a dead host, and a daemon whose name
is the first 47 bytes takes the lease at once, while the other holds it. -/
theorem long_violated {a : List UInt8} {l : Leader} (ha : ∀ c ∈ a, c ≠ 0) (hl : a.length = 48) (h : Held l a) :
    first a l = .wait ∧ a.take 47 ≠ a ∧ first (a.take 47) l = .write := by
  have hne : a.take 47 ≠ a := by
    intro e
    have := congrArg List.length e
    rw [List.length_take, hl] at this
    omega
  refine ⟨?_, hne, (taken_iff ha (fun c hc => ha c ((List.take_sublist _ _).subset hc)) (by rw [List.length_take]; omega) h).mpr rfl⟩
  cases hf : first a l with
  | wait => rfl
  | write => exact absurd ((taken_iff ha ha (by omega) h).mp hf) hne

/-- A daemon that makes up its name on a node with a name of 11 or more bytes never knows its own lease. -/
theorem made_up_violated {uuid node : List UInt8} {l : Leader} (hu : uuid.length = 36) (hz : ∀ c ∈ uuid, c ≠ 0) (hn : ∀ c ∈ node, c ≠ 0)
    (hl : 11 ≤ node.length) (h : Held l (setup [] uuid node)) : first (setup [] uuid node) l = .wait := by
  refine (long_violated (setup_ok (s := []) hu).1 ?_ h).1
  show (setup [] uuid node).length = 48
  rw [made_up hu hz, takeWhile_all fun c hc => hn c ((List.take_sublist _ _).subset hc), List.length_append, List.length_cons, List.length_take]
  omega

/-! ## Examples -/

def exRecord : Leader := newLeader (fun _ => 0) 10 1 (List.replicate 48 97) exLeader 500

example : Held exRecord (List.replicate 48 97) := ⟨_, _, _, _, _, by decide, rfl⟩

/-- `long_violated` with the letter a: 47 of them take the lease of 48 of them. -/
example : first (List.replicate 48 97) exRecord = .wait ∧ first (List.replicate 47 97) exRecord = .write := by decide +kernel

/-- `own_partial` and `other_partial` -/
example : first [97, 98] (newLeader (fun _ => 0) 10 1 [97, 98] exLeader 500) = .write ∧
    first [97, 99] (newLeader (fun _ => 0) 10 1 [97, 98] exLeader 500) = .wait := by decide +kernel

/-- `made_up_violated`: the node `virt-host-01`. -/
example : (setup [] (List.replicate 36 102) [118, 105, 114, 116, 45, 104, 111, 115, 116, 45, 48, 49]).length = 48 := by decide +kernel

end Sanlock.HostName
