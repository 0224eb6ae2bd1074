import Verif.Ballot

/-!
# Invariant of the ballot
-/

namespace Sanlock.Ballot

/-! ## Majorities -/

/-- A list of distinct numbers below `n`. -/
def Sub (l : List Nat) (n : Nat) : Prop := l.Nodup ∧ ∀ x ∈ l, x < n

theorem Sub.nil (n : Nat) : Sub [] n := ⟨List.nodup_nil, by simp⟩

theorem Sub.cons {l : List Nat} {n : Nat} (h : Sub l n) : Sub (n :: l) (n + 1) := by
  refine ⟨List.nodup_cons.mpr ⟨fun hn => ?_, h.1⟩, ?_⟩
  · exact Nat.lt_irrefl _ (h.2 n hn)
  · intro x hx
    rcases List.mem_cons.mp hx with rfl | hx
    · omega
    · have := h.2 x hx; omega

theorem Sub.mono {l : List Nat} {m n : Nat} (h : Sub l m) (hmn : m ≤ n) : Sub l n :=
  ⟨h.1, fun x hx => Nat.lt_of_lt_of_le (h.2 x hx) hmn⟩

theorem nodup_length_le {l : List Nat} {n : Nat} (h : Sub l n) : l.length ≤ n := by
  induction n generalizing l with
  | zero =>
    cases l with
    | nil => simp
    | cons a l => have := h.2 a (by simp); omega
  | succ n ih =>
    have h1 : Sub (l.erase n) n := by
      refine ⟨h.1.erase n, fun x hx => ?_⟩
      have h2 := h.2 x (List.mem_of_mem_erase hx)
      have h3 : x ≠ n := by
        intro hxn
        rw [hxn, h.1.mem_erase_iff] at hx
        exact hx.1 rfl
      omega
    have h2 := ih h1
    rw [List.length_erase] at h2
    split at h2 <;> omega

theorem majority_gt {n m : Nat} (h : majority n m = true) : n < 2 * m := by
  unfold majority at h
  split at h
  · simp at h
  · split at h
    · simp at h; omega
    · split at h
      · omega
      · split at h <;> simp at h

/-- Two majorities of the same disks have a disk in common. -/
theorem majority_inter {n : Nat} {l m : List Nat} (hl : Sub l n) (hm : Sub m n)
    (h1 : majority n l.length = true) (h2 : majority n m.length = true) : ∃ x, x ∈ l ∧ x ∈ m := by
  apply Classical.byContradiction
  intro hne
  have hd : Sub (l ++ m) n := by
    refine ⟨List.nodup_append.mpr ⟨hl.1, hm.1, ?_⟩, ?_⟩
    · intro a ha b hb hab
      exact hne ⟨a, ha, hab ▸ hb⟩
    · intro x hx
      rcases List.mem_append.mp hx with h | h
      · exact hl.2 x h
      · exact hm.2 x h
  have := nodup_length_le hd
  have h3 := majority_gt h1
  have h4 := majority_gt h2
  rw [List.length_append] at this
  omega

/-! ## Processing a buffer -/

/-- A block that makes a reader abort. -/
def Bad (dblock k : Blk) : Prop :=
  dblock.lver < k.lver ∨ (k.lver = dblock.lver ∧ dblock.mbal < k.mbal)

theorem phase1Blk_ok {dblock mx bk mx' : Blk} (h : phase1Blk dblock mx bk = .ok mx') :
    ¬ Bad dblock bk ∧ mx.bal ≤ mx'.bal ∧
    (bk.lver = dblock.lver → bk.inp ≠ 0 → bk.bal ≤ mx'.bal) ∧
    (mx' = mx ∨ (mx' = bk ∧ bk.lver = dblock.lver ∧ bk.inp ≠ 0)) := by
  unfold phase1Blk at h
  unfold Bad
  repeat' split at h
  all_goals simp at h
  all_goals subst h
  all_goals simp_all
  all_goals omega

theorem phase1Disk_ok {dblock : Blk} {l : List Blk} {mx mx' : Blk}
    (h : phase1Disk dblock mx l = .ok mx') :
    (∀ k ∈ l, ¬ Bad dblock k) ∧ mx.bal ≤ mx'.bal ∧
    (∀ k ∈ l, k.lver = dblock.lver → k.inp ≠ 0 → k.bal ≤ mx'.bal) ∧
    (mx' = mx ∨ (mx' ∈ l ∧ mx'.lver = dblock.lver ∧ mx'.inp ≠ 0)) := by
  induction l generalizing mx with
  | nil => simp [phase1Disk] at h; subst h; simp
  | cons k l ih =>
    simp only [phase1Disk] at h
    split at h
    · simp at h
    · rename_i mx1 hk
      have h1 := phase1Blk_ok hk
      have h2 := ih h
      refine ⟨?_, by omega, ?_, ?_⟩
      · intro x hx
        rcases List.mem_cons.mp hx with rfl | hx
        · exact h1.1
        · exact h2.1 x hx
      · intro x hx hl hi
        rcases List.mem_cons.mp hx with rfl | hx
        · have := h1.2.2.1 hl hi; omega
        · exact h2.2.2.1 x hx hl hi
      · rcases h2.2.2.2 with rfl | ⟨ha, hb⟩
        · rcases h1.2.2.2 with rfl | ⟨ha, hb⟩
          · exact Or.inl rfl
          · subst ha; exact Or.inr ⟨by simp, hb⟩
        · exact Or.inr ⟨by simp [ha], hb⟩

theorem phase2Disk_ok {dblock : Blk} {l : List Blk} (h : phase2Disk dblock l = .ok ()) :
    ∀ k ∈ l, ¬ Bad dblock k := by
  induction l with
  | nil => simp
  | cons k l ih =>
    simp only [phase2Disk] at h
    split at h
    · simp at h
    · rename_i hk
      intro x hx
      rcases List.mem_cons.mp hx with rfl | hx
      · unfold phase2Blk at hk
        unfold Bad
        repeat' split at hk
        all_goals simp at hk
        all_goals omega
      · exact ih h x hx

theorem mapM_some {f : Nat → Option Blk} {l : List Nat} {r : List Blk} (h : l.mapM f = some r) :
    (∀ q ∈ l, ∃ k ∈ r, f q = some k) ∧ (∀ k ∈ r, ∃ q ∈ l, f q = some k) := by
  induction l generalizing r with
  | nil => simp at h; subst h; simp
  | cons a l ih =>
    simp only [List.mapM_cons, Option.bind_eq_bind] at h
    cases hf : f a with
    | none => simp [hf] at h
    | some k =>
      cases hl : l.mapM f with
      | none => simp [hf, hl] at h
      | some r' =>
        simp [hf, hl] at h
        subst h
        have := ih hl
        constructor
        · intro q hq
          rcases List.mem_cons.mp hq with rfl | hq
          · exact ⟨k, by simp, hf⟩
          · obtain ⟨x, hx, hx2⟩ := this.1 q hq
            exact ⟨x, by simp [hx], hx2⟩
        · intro x hx
          rcases List.mem_cons.mp hx with rfl | hx
          · exact ⟨a, by simp, hf⟩
          · obtain ⟨q, hq, hq2⟩ := this.2 x hx
            exact ⟨q, by simp [hq], hq2⟩

theorem collect_some {n : Nat} {buf : Nat → Option Blk} {l : List Blk}
    (h : collect n buf = some l) :
    (∀ q, q < n → ∃ k ∈ l, buf q = some k) ∧ (∀ k ∈ l, ∃ q, buf q = some k) := by
  have := mapM_some h
  constructor
  · intro q hq
    exact this.1 q (by simpa using hq)
  · intro k hk
    obtain ⟨q, _, h2⟩ := this.2 k hk
    exact ⟨q, h2⟩

/-! ## The invariant -/

/-- A block with a value is a recorded vote. -/
def Rec (votes : List Vote) (k : Blk) : Prop :=
  k.inp ≠ 0 → ∃ h ∈ votes, h.lver = k.lver ∧ h.bal = k.bal ∧ h.val = k.val

/-- Common part for a host inside a ballot. -/
structure Started (c : Cfg) (s : State) (p : Nat) : Prop where
  host : p < c.hosts
  pos : 0 < (s.proc p).dblock.mbal
  res : (s.proc p).dblock.mbal % c.maxHosts = (p + 1) % c.maxHosts
  log : ∀ e ∈ s.log, e.host = p → e.blk.lver < (s.proc p).dblock.lver

/-- A host in phase 1. -/
structure Fresh (s : State) (p : Nat) : Prop where
  inp : (s.proc p).dblock.inp = 0
  lt : ∀ h ∈ s.votes, h.host = p → lexLt h.lver h.bal (s.proc p).dblock.lver (s.proc p).dblock.mbal

/-- A host in phase 2. -/
structure Latest (s : State) (p : Nat) (w1 : List Nat) : Prop where
  inp : (s.proc p).dblock.inp ≠ 0
  bal : (s.proc p).dblock.bal = (s.proc p).dblock.mbal
  vote : ∃ h ∈ s.votes, h.host = p ∧ h.lver = (s.proc p).dblock.lver ∧
    h.bal = (s.proc p).dblock.bal ∧ h.val = (s.proc p).dblock.val ∧ h.w1 = w1
  le : ∀ h ∈ s.votes, h.host = p → h.lver < (s.proc p).dblock.lver ∨
    (h.lver = (s.proc p).dblock.lver ∧ h.bal ≤ (s.proc p).dblock.bal)

/-- `w` is a majority of disks that hold the block `k` for host `p`. -/
structure On (c : Cfg) (s : State) (p : Nat) (k : Blk) (w : List Nat) : Prop where
  sub : Sub w c.disks
  maj : majority c.disks w.length = true
  eq : ∀ x ∈ w, s.disk x p = k

/-- Host with block `dblock`, reading disk `d` in phase 2 after the disks `r`, has not looked at the
block of `q` on disk `x`, or has it in the buffer and will abort. -/
def NotPassed (dblock : Blk) (d : Nat) (r : List Nat) (buf : Nat → Option Blk) (x q : Nat) : Prop :=
  x ∉ r ∧ (x = d → ∀ k, buf q = some k → Bad dblock k)

/-- The host cannot complete phase 2 because of a later vote. -/
def Doomed (votes : List Vote) (dblock : Blk) (d : Nat) (r : List Nat) (buf : Nat → Option Blk) : Prop :=
  ∃ h ∈ votes, h.lver = dblock.lver ∧ dblock.mbal < h.bal ∧
    ∀ x ∈ h.w1, NotPassed dblock d r buf x h.host

/-- The host reading disk `d` in phase 1 after the disks `r` has seen, or will see, the vote `blk` of
host `p` wherever it looks on `w`. -/
def Sees (blk : Blk) (p : Nat) (w : List Nat) (d : Nat) (r : List Nat) (buf : Nat → Option Blk)
    (mx : Blk) : Prop :=
  ∀ x ∈ w, (x ∈ r → blk.bal ≤ mx.bal) ∧
    (x = d → ∀ k, buf p = some k → blk.lver < k.lver ∨
      (k.lver = blk.lver ∧ k.inp ≠ 0 ∧ k.bal = blk.bal))

structure Inv (c : Cfg) (s : State) : Prop where
  disk : ∀ d q, Rec s.votes (s.disk d q)
  voteHost : ∀ h ∈ s.votes, h.host < c.hosts
  voteRes : ∀ h ∈ s.votes, h.bal % c.maxHosts = (h.host + 1) % c.maxHosts
  voteSub : ∀ h ∈ s.votes, Sub h.w1 c.disks
  voteMaj : ∀ h ∈ s.votes, majority c.disks h.w1.length = true
  voteDisk : ∀ h ∈ s.votes, ∀ x ∈ h.w1, h.lver < (s.disk x h.host).lver ∨
    (h.lver = (s.disk x h.host).lver ∧ h.bal ≤ (s.disk x h.host).mbal)
  voteUniq : ∀ h ∈ s.votes, ∀ h' ∈ s.votes, h.lver = h'.lver → h.bal = h'.bal → h.val = h'.val
  logSub : ∀ e ∈ s.log, Sub e.w c.disks
  logMaj : ∀ e ∈ s.log, majority c.disks e.w.length = true
  logDisk : ∀ e ∈ s.log, ∀ x ∈ e.w, e.blk.lver < (s.disk x e.host).lver ∨ s.disk x e.host = e.blk
  logInp : ∀ e ∈ s.log, e.blk.inp ≠ 0
  logHost : ∀ e ∈ s.log, e.host < c.hosts
  logPos : ∀ e ∈ s.log, 0 < e.blk.mbal
  logBal : ∀ e ∈ s.log, e.blk.bal = e.blk.mbal
  logVote : ∀ e ∈ s.log, ∃ h ∈ s.votes, h.lver = e.blk.lver ∧ h.bal = e.blk.bal ∧ h.val = e.blk.val
  write1 : ∀ p d w, (s.proc p).pc = .write1 d w →
    Started c s p ∧ Fresh s p ∧ Sub w d ∧ d ≤ c.disks ∧ ∀ x ∈ w, s.disk x p = (s.proc p).dblock
  read1 : ∀ p d w1 r buf mx, (s.proc p).pc = .read1 d w1 r buf mx →
    Started c s p ∧ Fresh s p ∧ On c s p (s.proc p).dblock w1 ∧ Sub r d ∧ d ≤ c.disks ∧
    (∀ q k, buf q = some k → Rec s.votes k) ∧
    (mx.inp ≠ 0 → ∃ h ∈ s.votes, h.lver = (s.proc p).dblock.lver ∧ h.bal = mx.bal ∧ h.val = mx.val) ∧
    (mx.inp = 0 → mx.bal = 0)
  write2 : ∀ p d w1 w, (s.proc p).pc = .write2 d w1 w →
    Started c s p ∧ Latest s p w1 ∧ Sub w d ∧ d ≤ c.disks ∧ ∀ x ∈ w, s.disk x p = (s.proc p).dblock
  read2 : ∀ p d w1 w r buf, (s.proc p).pc = .read2 d w1 w r buf →
    Started c s p ∧ Latest s p w1 ∧ On c s p (s.proc p).dblock w ∧ Sub r d ∧ d ≤ c.disks
  won : ∀ p w1 w, (s.proc p).pc = .won w1 w →
    Started c s p ∧ Latest s p w1 ∧ On c s p (s.proc p).dblock w
  k1open : ∀ p d w1 w r buf, (s.proc p).pc = .read2 d w1 w r buf →
    ∀ h ∈ s.votes, h.lver = (s.proc p).dblock.lver → (s.proc p).dblock.mbal < h.bal →
      h.val = (s.proc p).dblock.val ∨ Doomed s.votes (s.proc p).dblock d r buf
  k1won : ∀ p w1 w, (s.proc p).pc = .won w1 w →
    ∀ h ∈ s.votes, h.lver = (s.proc p).dblock.lver → (s.proc p).dblock.mbal < h.bal →
      h.val = (s.proc p).dblock.val
  k1log : ∀ e ∈ s.log,
    ∀ h ∈ s.votes, h.lver = e.blk.lver → e.blk.mbal < h.bal → h.val = e.blk.val
  k2open : ∀ p d w1 w r buf q d' w1' r' buf' mx, (s.proc p).pc = .read2 d w1 w r buf →
    (s.proc q).pc = .read1 d' w1' r' buf' mx →
    (s.proc q).dblock.lver = (s.proc p).dblock.lver → (s.proc p).dblock.mbal < (s.proc q).dblock.mbal →
      (∀ x ∈ w1', NotPassed (s.proc p).dblock d r buf x q) ∨
      Sees (s.proc p).dblock p w d' r' buf' mx
  k2won : ∀ p w1 w q d' w1' r' buf' mx, (s.proc p).pc = .won w1 w →
    (s.proc q).pc = .read1 d' w1' r' buf' mx →
    (s.proc q).dblock.lver = (s.proc p).dblock.lver → (s.proc p).dblock.mbal < (s.proc q).dblock.mbal →
      Sees (s.proc p).dblock p w d' r' buf' mx
  k2log : ∀ e ∈ s.log, ∀ q d' w1' r' buf' mx,
    (s.proc q).pc = .read1 d' w1' r' buf' mx →
    (s.proc q).dblock.lver = e.blk.lver → e.blk.mbal < (s.proc q).dblock.mbal →
      Sees e.blk e.host e.w d' r' buf' mx

theorem inv_init (c : Cfg) : Inv c init := by
  constructor <;> simp [init, Rec, Blk.zero]

/-! ## Changing one program point -/

@[simp] theorem setPc_pc (s : State) (p : Nat) (pc : Pc) (x : Nat) :
    ((s.setPc p pc).proc x).pc = if x = p then pc else (s.proc x).pc := by
  simp only [State.setPc, State.setProc]; split <;> simp_all

@[simp] theorem setPc_dblock (s : State) (p : Nat) (pc : Pc) (x : Nat) :
    ((s.setPc p pc).proc x).dblock = (s.proc x).dblock := by
  simp only [State.setPc, State.setProc]; split <;> simp_all

@[simp] theorem setPc_gen (s : State) (p : Nat) (pc : Pc) (x : Nat) :
    ((s.setPc p pc).proc x).gen = (s.proc x).gen := by
  simp only [State.setPc, State.setProc]; split <;> simp_all

@[simp] theorem setPc_disk (s : State) (p : Nat) (pc : Pc) : (s.setPc p pc).disk = s.disk := rfl
@[simp] theorem setPc_votes (s : State) (p : Nat) (pc : Pc) : (s.setPc p pc).votes = s.votes := rfl
@[simp] theorem setPc_log (s : State) (p : Nat) (pc : Pc) : (s.setPc p pc).log = s.log := rfl

@[simp] theorem started_setPc (c : Cfg) (s : State) (p : Nat) (pc : Pc) (x : Nat) :
    Started c (s.setPc p pc) x ↔ Started c s x := by
  constructor <;>
    (rintro ⟨h1, h2, h3, h4⟩; constructor <;> first
      | assumption
      | (simp only [setPc_dblock, setPc_log] at *; assumption)
      | (simp only [setPc_dblock] at *; assumption))

@[simp] theorem fresh_setPc (s : State) (p : Nat) (pc : Pc) (x : Nat) :
    Fresh (s.setPc p pc) x ↔ Fresh s x := by
  constructor <;>
    (rintro ⟨h1, h2⟩; constructor <;> first
      | assumption
      | (simp only [setPc_dblock, setPc_votes] at *; assumption)
      | (simp only [setPc_dblock, setPc_log] at *; assumption)
      | (simp only [setPc_dblock] at *; assumption))

@[simp] theorem latest_setPc (s : State) (p : Nat) (pc : Pc) (x : Nat) (w : List Nat) :
    Latest (s.setPc p pc) x w ↔ Latest s x w := by
  constructor <;>
    (rintro ⟨h1, h2, h3, h4⟩; constructor <;> first
      | assumption
      | (simp only [setPc_dblock, setPc_votes] at *; assumption)
      | (simp only [setPc_dblock, setPc_log] at *; assumption)
      | (simp only [setPc_dblock] at *; assumption))

@[simp] theorem on_setPc (c : Cfg) (s : State) (p : Nat) (pc : Pc) (x : Nat) (k : Blk) (w : List Nat) :
    On c (s.setPc p pc) x k w ↔ On c s x k w := by
  constructor <;>
    (rintro ⟨h1, h2, h3⟩; constructor <;> first
      | assumption
      | (simp only [setPc_dblock, setPc_votes] at *; assumption)
      | (simp only [setPc_dblock, setPc_log] at *; assumption)
      | (simp only [setPc_dblock] at *; assumption))

/-- Obligations when host `p` moves to program point `pc` without touching anything else. -/
structure Move (c : Cfg) (s : State) (p : Nat) (pc : Pc) : Prop where
  write1 : ∀ d w, pc = .write1 d w →
    Started c s p ∧ Fresh s p ∧ Sub w d ∧ d ≤ c.disks ∧ ∀ x ∈ w, s.disk x p = (s.proc p).dblock
  read1 : ∀ d w1 r buf mx, pc = .read1 d w1 r buf mx →
    Started c s p ∧ Fresh s p ∧ On c s p (s.proc p).dblock w1 ∧ Sub r d ∧ d ≤ c.disks ∧
    (∀ q k, buf q = some k → Rec s.votes k) ∧
    (mx.inp ≠ 0 → ∃ h ∈ s.votes, h.lver = (s.proc p).dblock.lver ∧ h.bal = mx.bal ∧ h.val = mx.val) ∧
    (mx.inp = 0 → mx.bal = 0)
  write2 : ∀ d w1 w, pc = .write2 d w1 w →
    Started c s p ∧ Latest s p w1 ∧ Sub w d ∧ d ≤ c.disks ∧ ∀ x ∈ w, s.disk x p = (s.proc p).dblock
  read2 : ∀ d w1 w r buf, pc = .read2 d w1 w r buf →
    Started c s p ∧ Latest s p w1 ∧ On c s p (s.proc p).dblock w ∧ Sub r d ∧ d ≤ c.disks
  won : ∀ w1 w, pc = .won w1 w →
    Started c s p ∧ Latest s p w1 ∧ On c s p (s.proc p).dblock w
  k1open : ∀ d w1 w r buf, pc = .read2 d w1 w r buf →
    ∀ h ∈ s.votes, h.lver = (s.proc p).dblock.lver → (s.proc p).dblock.mbal < h.bal →
      h.val = (s.proc p).dblock.val ∨ Doomed s.votes (s.proc p).dblock d r buf
  k1won : ∀ w1 w, pc = .won w1 w →
    ∀ h ∈ s.votes, h.lver = (s.proc p).dblock.lver → (s.proc p).dblock.mbal < h.bal →
      h.val = (s.proc p).dblock.val
  k2openL : ∀ d w1 w r buf q d' w1' r' buf' mx, pc = .read2 d w1 w r buf → q ≠ p →
    (s.proc q).pc = .read1 d' w1' r' buf' mx →
    (s.proc q).dblock.lver = (s.proc p).dblock.lver → (s.proc p).dblock.mbal < (s.proc q).dblock.mbal →
      (∀ x ∈ w1', NotPassed (s.proc p).dblock d r buf x q) ∨
      Sees (s.proc p).dblock p w d' r' buf' mx
  k2openR : ∀ q d w1 w r buf d' w1' r' buf' mx, (s.proc q).pc = .read2 d w1 w r buf → q ≠ p →
    pc = .read1 d' w1' r' buf' mx →
    (s.proc p).dblock.lver = (s.proc q).dblock.lver → (s.proc q).dblock.mbal < (s.proc p).dblock.mbal →
      (∀ x ∈ w1', NotPassed (s.proc q).dblock d r buf x p) ∨
      Sees (s.proc q).dblock q w d' r' buf' mx
  k2wonL : ∀ w1 w q d' w1' r' buf' mx, pc = .won w1 w → q ≠ p →
    (s.proc q).pc = .read1 d' w1' r' buf' mx →
    (s.proc q).dblock.lver = (s.proc p).dblock.lver → (s.proc p).dblock.mbal < (s.proc q).dblock.mbal →
      Sees (s.proc p).dblock p w d' r' buf' mx
  k2wonR : ∀ q w1 w d' w1' r' buf' mx, (s.proc q).pc = .won w1 w → q ≠ p →
    pc = .read1 d' w1' r' buf' mx →
    (s.proc p).dblock.lver = (s.proc q).dblock.lver → (s.proc q).dblock.mbal < (s.proc p).dblock.mbal →
      Sees (s.proc q).dblock q w d' r' buf' mx
  k2log : ∀ e ∈ s.log, ∀ d' w1' r' buf' mx,
    pc = .read1 d' w1' r' buf' mx →
    (s.proc p).dblock.lver = e.blk.lver → e.blk.mbal < (s.proc p).dblock.mbal →
      Sees e.blk e.host e.w d' r' buf' mx

theorem inv_setPc {c : Cfg} {s : State} (h : Inv c s) {p : Nat} {pc : Pc} (m : Move c s p pc) :
    Inv c (s.setPc p pc) := by
  constructor
  case disk => exact h.disk
  case voteHost => exact h.voteHost
  case voteRes => exact h.voteRes
  case voteSub => exact h.voteSub
  case voteMaj => exact h.voteMaj
  case voteDisk => exact h.voteDisk
  case voteUniq => exact h.voteUniq
  case logSub => exact h.logSub
  case logMaj => exact h.logMaj
  case logDisk => exact h.logDisk
  case logInp => exact h.logInp
  case logBal => exact h.logBal
  case logHost => exact h.logHost
  case logPos => exact h.logPos
  case logVote => exact h.logVote
  case k1log => exact h.k1log
  case write1 =>
    intro x d w hx
    simp only [setPc_pc] at hx
    simp only [started_setPc, fresh_setPc, setPc_dblock, setPc_disk]
    split at hx
    · subst x; exact m.write1 d w hx
    · exact h.write1 x d w hx
  case read1 =>
    intro x d w1 r buf mx hx
    simp only [setPc_pc] at hx
    simp only [started_setPc, fresh_setPc, on_setPc, setPc_dblock, setPc_votes]
    split at hx
    · subst x; exact m.read1 d w1 r buf mx hx
    · exact h.read1 x d w1 r buf mx hx
  case write2 =>
    intro x d w1 w hx
    simp only [setPc_pc] at hx
    simp only [started_setPc, latest_setPc, setPc_dblock, setPc_disk]
    split at hx
    · subst x; exact m.write2 d w1 w hx
    · exact h.write2 x d w1 w hx
  case read2 =>
    intro x d w1 w r buf hx
    simp only [setPc_pc] at hx
    simp only [started_setPc, latest_setPc, on_setPc, setPc_dblock]
    split at hx
    · subst x; exact m.read2 d w1 w r buf hx
    · exact h.read2 x d w1 w r buf hx
  case won =>
    intro x w1 w hx
    simp only [setPc_pc] at hx
    simp only [started_setPc, latest_setPc, on_setPc, setPc_dblock]
    split at hx
    · subst x; exact m.won w1 w hx
    · exact h.won x w1 w hx
  case k1open =>
    intro x d w1 w r buf hx
    simp only [setPc_pc] at hx
    simp only [setPc_dblock, setPc_votes]
    split at hx
    · subst x; exact m.k1open d w1 w r buf hx
    · exact h.k1open x d w1 w r buf hx
  case k1won =>
    intro x w1 w hx
    simp only [setPc_pc] at hx
    simp only [setPc_dblock, setPc_votes]
    split at hx
    · subst x; exact m.k1won w1 w hx
    · exact h.k1won x w1 w hx
  case k2open =>
    intro x d w1 w r buf q d' w1' r' buf' mx hx hq
    simp only [setPc_pc] at hx hq
    simp only [setPc_dblock]
    split at hx
    · subst x
      split at hq
      · rw [hx] at hq; simp at hq
      · exact m.k2openL d w1 w r buf q d' w1' r' buf' mx hx (by assumption) hq
    · split at hq
      · subst q
        exact m.k2openR x d w1 w r buf d' w1' r' buf' mx hx (by assumption) hq
      · exact h.k2open x d w1 w r buf q d' w1' r' buf' mx hx hq
  case k2won =>
    intro x w1 w q d' w1' r' buf' mx hx hq
    simp only [setPc_pc] at hx hq
    simp only [setPc_dblock]
    split at hx
    · subst x
      split at hq
      · rw [hx] at hq; simp at hq
      · exact m.k2wonL w1 w q d' w1' r' buf' mx hx (by assumption) hq
    · split at hq
      · subst q
        exact m.k2wonR x w1 w d' w1' r' buf' mx hx (by assumption) hq
      · exact h.k2won x w1 w q d' w1' r' buf' mx hx hq
  case k2log =>
    intro e he q d' w1' r' buf' mx hq
    simp only [setPc_pc] at hq
    simp only [setPc_dblock]
    split at hq
    · subst q; exact m.k2log e he d' w1' r' buf' mx hq
    · exact h.k2log e he q d' w1' r' buf' mx hq

/-- Giving up is always possible. -/
theorem move_idle (c : Cfg) (s : State) (p : Nat) : Move c s p .idle := by
  constructor <;> intros <;> simp_all

/-! ## Writing a block -/

@[simp] theorem setDisk_proc (s : State) (x p : Nat) (k : Blk) : (s.setDisk x p k).proc = s.proc := rfl
@[simp] theorem setDisk_votes (s : State) (x p : Nat) (k : Blk) : (s.setDisk x p k).votes = s.votes := rfl
@[simp] theorem setDisk_log (s : State) (x p : Nat) (k : Blk) : (s.setDisk x p k).log = s.log := rfl

theorem setDisk_disk (s : State) (x p : Nat) (k : Blk) (y q : Nat) :
    (s.setDisk x p k).disk y q = if y = x ∧ q = p then k else s.disk y q := rfl

/-- Writing the local `dblock` to any disk, before the reads of the phase begin. -/
theorem inv_setDisk {c : Cfg} {s : State} (h : Inv c s) {p : Nat} (x : Nat)
    (hrec : Rec s.votes (s.proc p).dblock)
    (hvote : ∀ v ∈ s.votes, v.host = p → v.lver < (s.proc p).dblock.lver ∨
      (v.lver = (s.proc p).dblock.lver ∧ v.bal ≤ (s.proc p).dblock.mbal))
    (hlog : ∀ e ∈ s.log, e.host = p → e.blk.lver < (s.proc p).dblock.lver) :
    Inv c (s.setDisk x p (s.proc p).dblock) := by
  have hon : ∀ y q, s.disk y q = (s.proc q).dblock →
      (s.setDisk x p (s.proc p).dblock).disk y q = (s.proc q).dblock := by
    intro y q hy
    rw [setDisk_disk]
    split
    · rename_i hh; rw [hh.2]
    · exact hy
  have hOn : ∀ q w, On c s q (s.proc q).dblock w →
      On c (s.setDisk x p (s.proc p).dblock) q (s.proc q).dblock w := by
    rintro q w ⟨h1, h2, h3⟩
    exact ⟨h1, h2, fun y hy => hon y q (h3 y hy)⟩
  have hSt : ∀ q, Started c s q → Started c (s.setDisk x p (s.proc p).dblock) q := by
    rintro q ⟨h1, h2, h3, h4⟩; exact ⟨h1, h2, h3, h4⟩
  have hFr : ∀ q, Fresh s q → Fresh (s.setDisk x p (s.proc p).dblock) q := by
    rintro q ⟨h1, h2⟩; exact ⟨h1, h2⟩
  have hLa : ∀ q w, Latest s q w → Latest (s.setDisk x p (s.proc p).dblock) q w := by
    rintro q w ⟨h1, h2, h3, h4⟩; exact ⟨h1, h2, h3, h4⟩
  constructor
  case disk =>
    intro y q
    rw [setDisk_disk]
    split
    · exact hrec
    · exact h.disk y q
  case voteHost => exact h.voteHost
  case voteRes => exact h.voteRes
  case voteSub => exact h.voteSub
  case voteMaj => exact h.voteMaj
  case voteDisk =>
    intro v hv y hy
    rw [setDisk_disk]
    split
    · rename_i hh; exact hvote v hv hh.2
    · exact h.voteDisk v hv y hy
  case voteUniq => exact h.voteUniq
  case logSub => exact h.logSub
  case logMaj => exact h.logMaj
  case logDisk =>
    intro e he y hy
    rw [setDisk_disk]
    split
    · rename_i hh; exact Or.inl (hlog e he hh.2)
    · exact h.logDisk e he y hy
  case logInp => exact h.logInp
  case logBal => exact h.logBal
  case logHost => exact h.logHost
  case logPos => exact h.logPos
  case logVote => exact h.logVote
  case k1log => exact h.k1log
  case write1 =>
    intro q d w hq
    obtain ⟨h1, h2, h3, h4, h5⟩ := h.write1 q d w hq
    exact ⟨hSt q h1, hFr q h2, h3, h4, fun y hy => hon y q (h5 y hy)⟩
  case read1 =>
    intro q d w1 r buf mx hq
    obtain ⟨h1, h2, h3, h4⟩ := h.read1 q d w1 r buf mx hq
    exact ⟨hSt q h1, hFr q h2, hOn q _ h3, h4⟩
  case write2 =>
    intro q d w1 w hq
    obtain ⟨h1, h2, h3, h4, h5⟩ := h.write2 q d w1 w hq
    exact ⟨hSt q h1, hLa q w1 h2, h3, h4, fun y hy => hon y q (h5 y hy)⟩
  case read2 =>
    intro q d w1 w r buf hq
    obtain ⟨h1, h2, h3, h4⟩ := h.read2 q d w1 w r buf hq
    exact ⟨hSt q h1, hLa q w1 h2, hOn q _ h3, h4⟩
  case won =>
    intro q w1 w hq
    obtain ⟨h1, h2, h3⟩ := h.won q w1 w hq
    exact ⟨hSt q h1, hLa q w1 h2, hOn q _ h3⟩
  case k1open => exact h.k1open
  case k1won => exact h.k1won
  case k2open => exact h.k2open
  case k2won => exact h.k2won
  case k2log => exact h.k2log

/-! ## Recording history -/

theorem rec_mono {votes : List Vote} {k : Blk} (v : Vote) (h : Rec votes k) : Rec (v :: votes) k := by
  intro hi
  obtain ⟨x, hx, h2⟩ := h hi
  exact ⟨x, List.mem_cons_of_mem _ hx, h2⟩

theorem doomed_mono {votes : List Vote} {k : Blk} {d : Nat} {r : List Nat} {buf : Nat → Option Blk}
    (v : Vote) (h : Doomed votes k d r buf) : Doomed (v :: votes) k d r buf := by
  obtain ⟨x, hx, h2⟩ := h
  exact ⟨x, List.mem_cons_of_mem _ hx, h2⟩

/-- Forget the vote of an idle host's local variable and record a new vote for it. -/
def State.addVote (s : State) (v : Vote) : State := { s with votes := v :: s.votes }

def State.addLog (s : State) (e : Done) : State := { s with log := e :: s.log }

@[simp] theorem addVote_proc (s : State) (v : Vote) : (s.addVote v).proc = s.proc := rfl
@[simp] theorem addVote_disk (s : State) (v : Vote) : (s.addVote v).disk = s.disk := rfl
@[simp] theorem addVote_log (s : State) (v : Vote) : (s.addVote v).log = s.log := rfl
@[simp] theorem addVote_votes (s : State) (v : Vote) : (s.addVote v).votes = v :: s.votes := rfl
@[simp] theorem addLog_proc (s : State) (e : Done) : (s.addLog e).proc = s.proc := rfl
@[simp] theorem addLog_disk (s : State) (e : Done) : (s.addLog e).disk = s.disk := rfl
@[simp] theorem addLog_log (s : State) (e : Done) : (s.addLog e).log = e :: s.log := rfl
@[simp] theorem addLog_votes (s : State) (e : Done) : (s.addLog e).votes = s.votes := rfl

theorem inv_addVote {c : Cfg} {s : State} (h : Inv c s) (v : Vote)
    (hidle : (s.proc v.host).pc = .idle)
    (hhost : v.host < c.hosts)
    (hres : v.bal % c.maxHosts = (v.host + 1) % c.maxHosts)
    (hsub : Sub v.w1 c.disks)
    (hmaj : majority c.disks v.w1.length = true)
    (hdisk : ∀ x ∈ v.w1, v.lver < (s.disk x v.host).lver ∨
      (v.lver = (s.disk x v.host).lver ∧ v.bal ≤ (s.disk x v.host).mbal))
    (huniq : ∀ u ∈ s.votes, ¬ (u.lver = v.lver ∧ u.bal = v.bal))
    (hopen : ∀ p d w1 w r buf, (s.proc p).pc = .read2 d w1 w r buf →
      v.lver = (s.proc p).dblock.lver → (s.proc p).dblock.mbal < v.bal →
        v.val = (s.proc p).dblock.val ∨ Doomed (v :: s.votes) (s.proc p).dblock d r buf)
    (hwon : ∀ p w1 w, (s.proc p).pc = .won w1 w →
      v.lver = (s.proc p).dblock.lver → (s.proc p).dblock.mbal < v.bal →
        v.val = (s.proc p).dblock.val)
    (hlog : ∀ e ∈ s.log, v.lver = e.blk.lver → e.blk.mbal < v.bal → v.val = e.blk.val) :
    Inv c (s.addVote v) := by
  have hne : ∀ q, (s.proc q).pc ≠ .idle → q ≠ v.host := by
    intro q hq he; rw [he] at hq; exact hq hidle
  have hSt : ∀ q, Started c s q → Started c (s.addVote v) q := by
    rintro q ⟨h1, h2, h3, h4⟩; exact ⟨h1, h2, h3, h4⟩
  have hFr : ∀ q, q ≠ v.host → Fresh s q → Fresh (s.addVote v) q := by
    rintro q hq ⟨h1, h2⟩
    refine ⟨h1, fun u hu hh => ?_⟩
    rcases List.mem_cons.mp hu with rfl | hu
    · exact absurd hh.symm hq
    · exact h2 u hu hh
  have hLa : ∀ q w, q ≠ v.host → Latest s q w → Latest (s.addVote v) q w := by
    rintro q w hq ⟨h1, h2, ⟨u, hu, h3⟩, h4⟩
    refine ⟨h1, h2, ⟨u, List.mem_cons_of_mem _ hu, h3⟩, fun u hu hh => ?_⟩
    rcases List.mem_cons.mp hu with rfl | hu
    · exact absurd hh.symm hq
    · exact h4 u hu hh
  have hOn : ∀ q k w, On c s q k w → On c (s.addVote v) q k w := by
    rintro q k w ⟨h1, h2, h3⟩; exact ⟨h1, h2, h3⟩
  constructor
  case disk => intro d q; exact rec_mono v (h.disk d q)
  case voteHost =>
    intro u hu
    rcases List.mem_cons.mp hu with rfl | hu
    · exact hhost
    · exact h.voteHost u hu
  case voteRes =>
    intro u hu
    rcases List.mem_cons.mp hu with rfl | hu
    · exact hres
    · exact h.voteRes u hu
  case voteSub =>
    intro u hu
    rcases List.mem_cons.mp hu with rfl | hu
    · exact hsub
    · exact h.voteSub u hu
  case voteMaj =>
    intro u hu
    rcases List.mem_cons.mp hu with rfl | hu
    · exact hmaj
    · exact h.voteMaj u hu
  case voteDisk =>
    intro u hu
    rcases List.mem_cons.mp hu with rfl | hu
    · exact hdisk
    · exact h.voteDisk u hu
  case voteUniq =>
    intro u hu u' hu' h1 h2
    rcases List.mem_cons.mp hu with ha | ha
    · rcases List.mem_cons.mp hu' with hb | hb
      · rw [ha, hb]
      · exact absurd ⟨(ha ▸ h1).symm, (ha ▸ h2).symm⟩ (huniq u' hb)
    · rcases List.mem_cons.mp hu' with hb | hb
      · exact absurd ⟨hb ▸ h1, hb ▸ h2⟩ (huniq u ha)
      · exact h.voteUniq u ha u' hb h1 h2
  case logSub => exact h.logSub
  case logMaj => exact h.logMaj
  case logDisk => exact h.logDisk
  case logInp => exact h.logInp
  case logBal => exact h.logBal
  case logHost => exact h.logHost
  case logPos => exact h.logPos
  case logVote =>
    intro e he
    obtain ⟨u, hu, h1⟩ := h.logVote e he
    exact ⟨u, List.mem_cons_of_mem _ hu, h1⟩
  case k1log =>
    intro e he u hu
    rcases List.mem_cons.mp hu with rfl | hu
    · exact hlog e he
    · exact h.k1log e he u hu
  case write1 =>
    intro q d w hq
    obtain ⟨h1, h2, h3⟩ := h.write1 q d w hq
    exact ⟨hSt q h1, hFr q (hne q (by rw [addVote_proc] at hq; rw [hq]; simp)) h2, h3⟩
  case read1 =>
    intro q d w1 r buf mx hq
    obtain ⟨h1, h2, h3, h4, h5, h6, h7, h8⟩ := h.read1 q d w1 r buf mx hq
    refine ⟨hSt q h1, hFr q (hne q (by rw [addVote_proc] at hq; rw [hq]; simp)) h2, hOn _ _ _ h3, h4, h5, ?_, ?_, h8⟩
    · intro q' k hk; exact rec_mono v (h6 q' k hk)
    · intro hi
      obtain ⟨u, hu, h9⟩ := h7 hi
      exact ⟨u, List.mem_cons_of_mem _ hu, h9⟩
  case write2 =>
    intro q d w1 w hq
    obtain ⟨h1, h2, h3⟩ := h.write2 q d w1 w hq
    exact ⟨hSt q h1, hLa q w1 (hne q (by rw [addVote_proc] at hq; rw [hq]; simp)) h2, h3⟩
  case read2 =>
    intro q d w1 w r buf hq
    obtain ⟨h1, h2, h3, h4⟩ := h.read2 q d w1 w r buf hq
    exact ⟨hSt q h1, hLa q w1 (hne q (by rw [addVote_proc] at hq; rw [hq]; simp)) h2, hOn _ _ _ h3, h4⟩
  case won =>
    intro q w1 w hq
    obtain ⟨h1, h2, h3⟩ := h.won q w1 w hq
    exact ⟨hSt q h1, hLa q w1 (hne q (by rw [addVote_proc] at hq; rw [hq]; simp)) h2, hOn _ _ _ h3⟩
  case k1open =>
    intro q d w1 w r buf hq u hu
    rcases List.mem_cons.mp hu with rfl | hu
    · exact hopen q d w1 w r buf hq
    · intro h1 h2
      rcases h.k1open q d w1 w r buf hq u hu h1 h2 with h3 | h3
      · exact Or.inl h3
      · exact Or.inr (doomed_mono v h3)
  case k1won =>
    intro q w1 w hq u hu
    rcases List.mem_cons.mp hu with rfl | hu
    · exact hwon q w1 w hq
    · exact h.k1won q w1 w hq u hu
  case k2open => exact h.k2open
  case k2won => exact h.k2won
  case k2log => exact h.k2log

/-- A host that has won and wrote the leader record. -/
theorem inv_leaderWritten {c : Cfg} {s : State} (h : Inv c s) {p : Nat} {w1 w : List Nat}
    (hpc : (s.proc p).pc = .won w1 w) :
    Inv c ((s.setPc p .idle).addLog ⟨p, (s.proc p).dblock, w⟩) := by
  have hI := inv_setPc h (move_idle c s p)
  obtain ⟨h1, h2, h3⟩ := h.won p w1 w hpc
  have hidle : ∀ q, ((s.setPc p .idle).proc q).pc ≠ .idle → q ≠ p := by
    intro q hq he; rw [he] at hq; simp at hq
  have hSt : ∀ q, q ≠ p → Started c (s.setPc p .idle) q →
      Started c ((s.setPc p .idle).addLog ⟨p, (s.proc p).dblock, w⟩) q := by
    rintro q hq ⟨h1, h2, h3, h4⟩
    refine ⟨h1, h2, h3, fun e he hh => ?_⟩
    rcases List.mem_cons.mp he with rfl | he
    · exact absurd hh.symm hq
    · exact h4 e he hh
  have hFr : ∀ q, Fresh (s.setPc p .idle) q →
      Fresh ((s.setPc p .idle).addLog ⟨p, (s.proc p).dblock, w⟩) q := by
    rintro q ⟨h1, h2⟩; exact ⟨h1, h2⟩
  have hLa : ∀ q w', Latest (s.setPc p .idle) q w' →
      Latest ((s.setPc p .idle).addLog ⟨p, (s.proc p).dblock, w⟩) q w' := by
    rintro q w' ⟨h1, h2, h3, h4⟩; exact ⟨h1, h2, h3, h4⟩
  have hOn : ∀ q k w', On c (s.setPc p .idle) q k w' →
      On c ((s.setPc p .idle).addLog ⟨p, (s.proc p).dblock, w⟩) q k w' := by
    rintro q k w' ⟨h1, h2, h3⟩; exact ⟨h1, h2, h3⟩
  constructor
  case disk => exact hI.disk
  case voteHost => exact hI.voteHost
  case voteRes => exact hI.voteRes
  case voteSub => exact hI.voteSub
  case voteMaj => exact hI.voteMaj
  case voteDisk => exact hI.voteDisk
  case voteUniq => exact hI.voteUniq
  case logSub =>
    intro e he
    rcases List.mem_cons.mp he with rfl | he
    · exact h3.sub
    · exact h.logSub e he
  case logMaj =>
    intro e he
    rcases List.mem_cons.mp he with rfl | he
    · exact h3.maj
    · exact h.logMaj e he
  case logDisk =>
    intro e he
    rcases List.mem_cons.mp he with rfl | he
    · intro x hx; exact Or.inr (h3.eq x hx)
    · exact h.logDisk e he
  case logInp =>
    intro e he
    rcases List.mem_cons.mp he with rfl | he
    · exact h2.inp
    · exact h.logInp e he
  case logBal =>
    intro e he
    rcases List.mem_cons.mp he with rfl | he
    · exact h2.bal
    · exact h.logBal e he
  case logHost =>
    intro e he
    rcases List.mem_cons.mp he with rfl | he
    · exact h1.host
    · exact h.logHost e he
  case logPos =>
    intro e he
    rcases List.mem_cons.mp he with rfl | he
    · exact h1.pos
    · exact h.logPos e he
  case logVote =>
    intro e he
    rcases List.mem_cons.mp he with rfl | he
    · obtain ⟨u, hu, _, h5, h6, h7, _⟩ := h2.vote
      exact ⟨u, hu, h5, h6, h7⟩
    · exact h.logVote e he
  case k1log =>
    intro e he
    rcases List.mem_cons.mp he with rfl | he
    · exact h.k1won p w1 w hpc
    · exact h.k1log e he
  case write1 =>
    intro q d w' hq
    obtain ⟨h1, h2, h3⟩ := hI.write1 q d w' hq
    exact ⟨hSt q (hidle q (by rw [addLog_proc] at hq; rw [hq]; simp)) h1, hFr q h2, h3⟩
  case read1 =>
    intro q d w1' r buf mx hq
    obtain ⟨h1, h2, h3, h4⟩ := hI.read1 q d w1' r buf mx hq
    exact ⟨hSt q (hidle q (by rw [addLog_proc] at hq; rw [hq]; simp)) h1, hFr q h2, hOn _ _ _ h3, h4⟩
  case write2 =>
    intro q d w1' w' hq
    obtain ⟨h1, h2, h3⟩ := hI.write2 q d w1' w' hq
    exact ⟨hSt q (hidle q (by rw [addLog_proc] at hq; rw [hq]; simp)) h1, hLa q _ h2, h3⟩
  case read2 =>
    intro q d w1' w' r buf hq
    obtain ⟨h1, h2, h3, h4⟩ := hI.read2 q d w1' w' r buf hq
    exact ⟨hSt q (hidle q (by rw [addLog_proc] at hq; rw [hq]; simp)) h1, hLa q _ h2, hOn _ _ _ h3, h4⟩
  case won =>
    intro q w1' w' hq
    obtain ⟨h1, h2, h3⟩ := hI.won q w1' w' hq
    exact ⟨hSt q (hidle q (by rw [addLog_proc] at hq; rw [hq]; simp)) h1, hLa q _ h2, hOn _ _ _ h3⟩
  case k1open => exact hI.k1open
  case k1won => exact hI.k1won
  case k2open => exact hI.k2open
  case k2won => exact hI.k2won
  case k2log =>
    intro e he
    rcases List.mem_cons.mp he with rfl | he
    · intro q d' w1' r' buf' mx hq
      simp only [addLog_proc, setPc_dblock]
      simp only [addLog_proc, setPc_pc] at hq
      split at hq
      · simp at hq
      · exact h.k2won p w1 w q d' w1' r' buf' mx hpc hq
    · exact hI.k2log e he

/-- The local variables of an idle host are irrelevant. -/
theorem inv_setIdle {c : Cfg} {s : State} (h : Inv c s) {p : Nat} {pr : Proc} (hpr : pr.pc = .idle) :
    Inv c (s.setProc p pr) := by
  have hpc : ∀ q, q ≠ p → (s.setProc p pr).proc q = s.proc q := by
    intro q hq; simp [State.setProc, hq]
  have hp : ((s.setProc p pr).proc p).pc = .idle := by simp [State.setProc, hpr]
  have hne : ∀ q, ((s.setProc p pr).proc q).pc ≠ .idle → q ≠ p := by
    intro q hq he; rw [he] at hq; exact hq hp
  have hSt : ∀ q, q ≠ p → Started c s q → Started c (s.setProc p pr) q := by
    rintro q hq ⟨h1, h2, h3, h4⟩
    constructor <;> (try rw [hpc q hq]) <;> assumption
  have hFr : ∀ q, q ≠ p → Fresh s q → Fresh (s.setProc p pr) q := by
    rintro q hq ⟨h1, h2⟩
    constructor <;> (try rw [hpc q hq]) <;> assumption
  have hLa : ∀ q w, q ≠ p → Latest s q w → Latest (s.setProc p pr) q w := by
    rintro q w hq ⟨h1, h2, h3, h4⟩
    constructor <;> (try rw [hpc q hq]) <;> assumption
  have hOn : ∀ q k w, On c s q k w → On c (s.setProc p pr) q k w := by
    rintro q k w ⟨h1, h2, h3⟩; exact ⟨h1, h2, h3⟩
  constructor
  case disk => exact h.disk
  case voteHost => exact h.voteHost
  case voteRes => exact h.voteRes
  case voteSub => exact h.voteSub
  case voteMaj => exact h.voteMaj
  case voteDisk => exact h.voteDisk
  case voteUniq => exact h.voteUniq
  case logSub => exact h.logSub
  case logMaj => exact h.logMaj
  case logDisk => exact h.logDisk
  case logInp => exact h.logInp
  case logBal => exact h.logBal
  case logHost => exact h.logHost
  case logPos => exact h.logPos
  case logVote => exact h.logVote
  case k1log => exact h.k1log
  case write1 =>
    intro q d w hq
    have hn := hne q (by rw [hq]; simp)
    rw [hpc q hn] at hq ⊢
    obtain ⟨h1, h2, h3⟩ := h.write1 q d w hq
    exact ⟨hSt q hn h1, hFr q hn h2, h3⟩
  case read1 =>
    intro q d w1 r buf mx hq
    have hn := hne q (by rw [hq]; simp)
    rw [hpc q hn] at hq ⊢
    obtain ⟨h1, h2, h3, h4⟩ := h.read1 q d w1 r buf mx hq
    exact ⟨hSt q hn h1, hFr q hn h2, hOn _ _ _ h3, h4⟩
  case write2 =>
    intro q d w1 w hq
    have hn := hne q (by rw [hq]; simp)
    rw [hpc q hn] at hq ⊢
    obtain ⟨h1, h2, h3⟩ := h.write2 q d w1 w hq
    exact ⟨hSt q hn h1, hLa q _ hn h2, h3⟩
  case read2 =>
    intro q d w1 w r buf hq
    have hn := hne q (by rw [hq]; simp)
    rw [hpc q hn] at hq ⊢
    obtain ⟨h1, h2, h3, h4⟩ := h.read2 q d w1 w r buf hq
    exact ⟨hSt q hn h1, hLa q _ hn h2, hOn _ _ _ h3, h4⟩
  case won =>
    intro q w1 w hq
    have hn := hne q (by rw [hq]; simp)
    rw [hpc q hn] at hq ⊢
    obtain ⟨h1, h2, h3⟩ := h.won q w1 w hq
    exact ⟨hSt q hn h1, hLa q _ hn h2, hOn _ _ _ h3⟩
  case k1open =>
    intro q d w1 w r buf hq
    have hn := hne q (by rw [hq]; simp)
    rw [hpc q hn] at hq ⊢
    exact h.k1open q d w1 w r buf hq
  case k1won =>
    intro q w1 w hq
    have hn := hne q (by rw [hq]; simp)
    rw [hpc q hn] at hq ⊢
    exact h.k1won q w1 w hq
  case k2open =>
    intro x d w1 w r buf q d' w1' r' buf' mx hx hq
    have hn := hne q (by rw [hq]; simp)
    have hn' := hne x (by rw [hx]; simp)
    rw [hpc q hn] at hq ⊢
    rw [hpc x hn'] at hx ⊢
    exact h.k2open x d w1 w r buf q d' w1' r' buf' mx hx hq
  case k2won =>
    intro x w1 w q d' w1' r' buf' mx hx hq
    have hn := hne q (by rw [hq]; simp)
    have hn' := hne x (by rw [hx]; simp)
    rw [hpc q hn] at hq ⊢
    rw [hpc x hn'] at hx ⊢
    exact h.k2won x w1 w q d' w1' r' buf' mx hx hq
  case k2log =>
    intro e he q d' w1' r' buf' mx hq
    have hn := hne q (by rw [hq]; simp)
    rw [hpc q hn] at hq ⊢
    exact h.k2log e he q d' w1' r' buf' mx hq


/-! ## Every step preserves the invariant -/

theorem setProc_eq (s : State) (p : Nat) (pc : Pc) (k : Blk) (g : Nat) :
    s.setProc p ⟨pc, k, g⟩ = (s.setProc p ⟨.idle, k, g⟩).setPc p pc := by
  simp only [State.setPc, State.setProc]
  congr 1
  funext x
  split <;> simp_all

theorem inv_start {c : Cfg} {s s' : State} (h : Inv c s) {p lver mbal gen : Nat}
    (ha : Allowed c s (.start p lver mbal gen))
    (hs : step c s (.start p lver mbal gen) = some s') : Inv c s' := by
  obtain ⟨h1, h2, h3, h4⟩ := ha
  simp only [step] at hs
  split at hs
  · split at hs
    · simp only [Option.some.injEq] at hs
      subst hs
      rw [setProc_eq]
      have hI := inv_setIdle h (p := p) (pr := ⟨.idle, { Blk.zero with lver := lver, mbal := mbal }, gen⟩) rfl
      apply inv_setPc hI
      constructor <;> intros <;> (try (simp_all; done))
      rename_i d w heq
      simp only [Pc.write1.injEq] at heq
      obtain ⟨rfl, rfl⟩ := heq
      refine ⟨⟨by assumption, ?_, ?_, ?_⟩, ⟨?_, ?_⟩, Sub.nil _, Nat.zero_le _, by simp⟩
      · simpa [State.setProc] using h1
      · simpa [State.setProc] using h2
      · simpa [State.setProc] using h4
      · simp [State.setProc, Blk.zero]
      · simpa [State.setProc] using h3
    · simp at hs
  · simp at hs

theorem inv_write {c : Cfg} {s s' : State} (h : Inv c s) {p : Nat} {res : WriteRes}
    (hs : step c s (.write p res) = some s') : Inv c s' := by
  simp only [step] at hs
  split at hs
  · rename_i d w hpc
    split at hs
    · rename_i hd
      obtain ⟨h1, h2, h3, h4, h5⟩ := h.write1 p d w hpc
      have hI : Inv c (s.setDisk d p (s.proc p).dblock) := by
        apply inv_setDisk h
        · intro hi; exact absurd h2.inp hi
        · intro v hv hh
          have := h2.lt v hv hh
          unfold lexLt at this
          omega
        · exact h1.log
      have h1' := (hI.write1 p d w hpc).1
      have h2' := (hI.write1 p d w hpc).2.1
      have h5' := (hI.write1 p d w hpc).2.2.2.2
      split at hs
      · simp only [Option.some.injEq] at hs
        subst hs
        apply inv_setPc hI
        constructor <;> intros <;> (try (simp_all; done))
        rename_i d' w' heq
        simp only [Pc.write1.injEq] at heq
        obtain ⟨rfl, rfl⟩ := heq
        refine ⟨h1', h2', h3.cons, hd, ?_⟩
        intro x hx
        rcases List.mem_cons.mp hx with rfl | hx
        · simp [setDisk_disk]
        · exact h5' x hx
      · simp only [Option.some.injEq] at hs
        subst hs
        apply inv_setPc hI
        constructor <;> intros <;> (try (simp_all; done))
        rename_i d' w' heq
        simp only [Pc.write1.injEq] at heq
        obtain ⟨rfl, rfl⟩ := heq
        exact ⟨h1', h2', h3.mono (by omega), hd, h5'⟩
      · simp only [Option.some.injEq] at hs
        subst hs
        apply inv_setPc h
        constructor <;> intros <;> (try (simp_all; done))
        rename_i d' w' heq
        simp only [Pc.write1.injEq] at heq
        obtain ⟨rfl, rfl⟩ := heq
        exact ⟨h1, h2, h3.mono (by omega), hd, h5⟩
    · simp at hs
  · rename_i d w1 w hpc
    split at hs
    · rename_i hd
      obtain ⟨h1, h2, h3, h4, h5⟩ := h.write2 p d w1 w hpc
      have hI : Inv c (s.setDisk d p (s.proc p).dblock) := by
        apply inv_setDisk h
        · intro hi
          obtain ⟨v, hv, _, h6, h7, h8, _⟩ := h2.vote
          exact ⟨v, hv, h6, h7, h8⟩
        · intro v hv hh
          have := h2.le v hv hh
          have := h2.bal
          omega
        · exact h1.log
      have h1' := (hI.write2 p d w1 w hpc).1
      have h2' := (hI.write2 p d w1 w hpc).2.1
      have h5' := (hI.write2 p d w1 w hpc).2.2.2.2
      split at hs
      · simp only [Option.some.injEq] at hs
        subst hs
        apply inv_setPc hI
        constructor <;> intros <;> (try (simp_all; done))
        rename_i d' w1' w' heq
        simp only [Pc.write2.injEq] at heq
        obtain ⟨rfl, rfl, rfl⟩ := heq
        refine ⟨h1', h2', h3.cons, hd, ?_⟩
        intro x hx
        rcases List.mem_cons.mp hx with rfl | hx
        · simp [setDisk_disk]
        · exact h5' x hx
      · simp only [Option.some.injEq] at hs
        subst hs
        apply inv_setPc hI
        constructor <;> intros <;> (try (simp_all; done))
        rename_i d' w1' w' heq
        simp only [Pc.write2.injEq] at heq
        obtain ⟨rfl, rfl, rfl⟩ := heq
        exact ⟨h1', h2', h3.mono (by omega), hd, h5'⟩
      · simp only [Option.some.injEq] at hs
        subst hs
        apply inv_setPc h
        constructor <;> intros <;> (try (simp_all; done))
        rename_i d' w1' w' heq
        simp only [Pc.write2.injEq] at heq
        obtain ⟨rfl, rfl, rfl⟩ := heq
        exact ⟨h1, h2, h3.mono (by omega), hd, h5⟩
    · simp at hs
  · simp at hs

theorem inv_writesDone {c : Cfg} {s s' : State} (h : Inv c s) {p : Nat}
    (hs : step c s (.writesDone p) = some s') : Inv c s' := by
  simp only [step] at hs
  split at hs
  · rename_i d w hpc
    obtain ⟨h1, h2, h3, h4, h5⟩ := h.write1 p d w hpc
    split at hs
    · simp at hs
    · rename_i hd
      have hdd : d = c.disks := by omega
      subst hdd
      split at hs
      · rename_i hm
        simp only [Option.some.injEq] at hs
        subst hs
        apply inv_setPc h
        constructor
        case read1 =>
          intro d' w1' r' buf' mx' heq
          simp only [Pc.read1.injEq] at heq
          obtain ⟨rfl, rfl, rfl, rfl, rfl⟩ := heq
          refine ⟨h1, h2, ⟨h3, hm, h5⟩, Sub.nil _, Nat.zero_le _, ?_, ?_, ?_⟩
          · simp [emptyBuf]
          · simp [Blk.zero]
          · simp [Blk.zero]
        case k2openR =>
          intro q d w1 w r buf d' w1' r' buf' mx hq hne heq hl hb
          simp only [Pc.read1.injEq] at heq
          obtain ⟨rfl, rfl, rfl, rfl, rfl⟩ := heq
          right
          intro x hx
          simp [emptyBuf]
        case k2wonR =>
          intro q w1 w d' w1' r' buf' mx hq hne heq hl hb
          simp only [Pc.read1.injEq] at heq
          obtain ⟨rfl, rfl, rfl, rfl, rfl⟩ := heq
          intro x hx
          simp [emptyBuf]
        case k2log =>
          intro e he d' w1' r' buf' mx heq hl hb
          simp only [Pc.read1.injEq] at heq
          obtain ⟨rfl, rfl, rfl, rfl, rfl⟩ := heq
          intro x hx
          simp [emptyBuf]
        all_goals (intros; simp_all)
      · simp only [Option.some.injEq] at hs
        subst hs
        exact inv_setPc h (move_idle c s p)
  · rename_i d w1 w hpc
    obtain ⟨h1, h2, h3, h4, h5⟩ := h.write2 p d w1 w hpc
    split at hs
    · simp at hs
    · rename_i hd
      have hdd : d = c.disks := by omega
      subst hdd
      split at hs
      · rename_i hm
        simp only [Option.some.injEq] at hs
        subst hs
        apply inv_setPc h
        constructor
        case read2 =>
          intro d' w1' w' r' buf' heq
          simp only [Pc.read2.injEq] at heq
          obtain ⟨rfl, rfl, rfl, rfl, rfl⟩ := heq
          exact ⟨h1, h2, ⟨h3, hm, h5⟩, Sub.nil _, Nat.zero_le _⟩
        case k1open =>
          intro d' w1' w' r' buf' heq v hv hl hb
          simp only [Pc.read2.injEq] at heq
          obtain ⟨rfl, rfl, rfl, rfl, rfl⟩ := heq
          right
          refine ⟨v, hv, hl, hb, fun x hx => ⟨by simp, ?_⟩⟩
          simp [emptyBuf]
        case k2openL =>
          intro d w1 w r buf q d' w1' r' buf' mx heq hne hq hl hb
          simp only [Pc.read2.injEq] at heq
          obtain ⟨rfl, rfl, rfl, rfl, rfl⟩ := heq
          left
          exact fun x hx => ⟨by simp, by simp [emptyBuf]⟩
        all_goals (intros; simp_all)
      · simp only [Option.some.injEq] at hs
        subst hs
        exact inv_setPc h (move_idle c s p)
  · simp at hs

theorem inv_readSector {c : Cfg} {s s' : State} (h : Inv c s) {p q : Nat}
    (hs : step c s (.readSector p q) = some s') : Inv c s' := by
  simp only [step] at hs
  split at hs
  · rename_i d w1 r buf mx hpc
    obtain ⟨h1, h2, h3, h4, h5, h6, h7, h8⟩ := h.read1 p d w1 r buf mx hpc
    split at hs
    · rename_i hd
      simp only [Option.some.injEq] at hs
      subst hs
      apply inv_setPc h
      have hsees : ∀ blk x w, (∀ y ∈ w, blk.lver < (s.disk y x).lver ∨
          (s.disk y x = blk ∧ blk.inp ≠ 0)) → Sees blk x w d r buf mx →
          Sees blk x w d r (fun y => if y = q then some (s.disk d q) else buf y) mx := by
        intro blk x w hw hsee y hy
        refine ⟨(hsee y hy).1, ?_⟩
        intro hyd k hk
        subst hyd
        simp only at hk
        split at hk
        · rename_i hxq
          simp only [Option.some.injEq] at hk
          subst hk
          subst hxq
          rcases hw y hy with h9 | ⟨h9, h10⟩
          · exact Or.inl h9
          · rw [h9]; exact Or.inr ⟨rfl, h10, rfl⟩
        · exact (hsee y hy).2 rfl k hk
      constructor
      case read1 =>
        intro d' w1' r' buf' mx' heq
        simp only [Pc.read1.injEq] at heq
        obtain ⟨rfl, rfl, rfl, rfl, rfl⟩ := heq
        refine ⟨h1, h2, h3, h4, h5, ?_, h7, h8⟩
        intro x k hk
        simp only at hk
        split at hk
        · simp only [Option.some.injEq] at hk
          subst hk
          exact h.disk _ _
        · exact h6 x k hk
      case k2openR =>
        intro x d0 w10 w r0 buf0 d' w1' r' buf' mx' hx hne heq hl hb
        simp only [Pc.read1.injEq] at heq
        obtain ⟨rfl, rfl, rfl, rfl, rfl⟩ := heq
        rcases h.k2open x d0 w10 w r0 buf0 p _ _ _ _ _ hx hpc hl hb with h9 | h9
        · exact Or.inl h9
        · right
          obtain ⟨_, g2, g3, _⟩ := h.read2 x d0 w10 w r0 buf0 hx
          refine hsees _ _ _ (fun y hy => Or.inr ⟨g3.eq y hy, g2.inp⟩) h9
      case k2wonR =>
        intro x w10 w d' w1' r' buf' mx' hx hne heq hl hb
        simp only [Pc.read1.injEq] at heq
        obtain ⟨rfl, rfl, rfl, rfl, rfl⟩ := heq
        have h9 := h.k2won x w10 w p _ _ _ _ _ hx hpc hl hb
        obtain ⟨_, g2, g3⟩ := h.won x w10 w hx
        exact hsees _ _ _ (fun y hy => Or.inr ⟨g3.eq y hy, g2.inp⟩) h9
      case k2log =>
        intro e he d' w1' r' buf' mx' heq hl hb
        simp only [Pc.read1.injEq] at heq
        obtain ⟨rfl, rfl, rfl, rfl, rfl⟩ := heq
        have h9 := h.k2log e he p _ _ _ _ _ hpc hl hb
        refine hsees _ _ _ (fun y hy => ?_) h9
        rcases h.logDisk e he y hy with h10 | h10
        · exact Or.inl h10
        · exact Or.inr ⟨h10, h.logInp e he⟩
      all_goals (intros; simp_all)
    · simp at hs
  · rename_i d w1 w r buf hpc
    obtain ⟨h1, h2, h3, h4, h5⟩ := h.read2 p d w1 w r buf hpc
    split at hs
    · rename_i hd
      simp only [Option.some.injEq] at hs
      subst hs
      apply inv_setPc h
      have hnp : ∀ x y, (y = q → x = d → Bad (s.proc p).dblock (s.disk d q)) →
          NotPassed (s.proc p).dblock d r buf x y →
          NotPassed (s.proc p).dblock d r (fun y => if y = q then some (s.disk d q) else buf y) x y := by
        intro x y hbad hn
        refine ⟨hn.1, ?_⟩
        intro hxd k hk
        simp only at hk
        split at hk
        · simp only [Option.some.injEq] at hk
          subst hk
          exact hbad (by assumption) hxd
        · exact hn.2 hxd k hk
      constructor
      case read2 =>
        intro d' w1' w' r' buf' heq
        simp only [Pc.read2.injEq] at heq
        obtain ⟨rfl, rfl, rfl, rfl, rfl⟩ := heq
        exact ⟨h1, h2, h3, h4, h5⟩
      case k1open =>
        intro d' w1' w' r' buf' heq v hv hl hb
        simp only [Pc.read2.injEq] at heq
        obtain ⟨rfl, rfl, rfl, rfl, rfl⟩ := heq
        rcases h.k1open p _ _ _ _ _ hpc v hv hl hb with h9 | ⟨u, hu, g1, g2, g3⟩
        · exact Or.inl h9
        · right
          refine ⟨u, hu, g1, g2, fun x hx => hnp x _ ?_ (g3 x hx)⟩
          intro hq hxd
          subst hxd
          subst hq
          have := h.voteDisk u hu x hx
          unfold Bad
          omega
      case k2openL =>
        intro d0 w10 w0 r0 buf0 x d' w1' r' buf' mx heq hne hx hl hb
        simp only [Pc.read2.injEq] at heq
        obtain ⟨rfl, rfl, rfl, rfl, rfl⟩ := heq
        rcases h.k2open p _ _ _ _ _ x d' w1' r' buf' mx hpc hx hl hb with h9 | h9
        · left
          intro y hy
          refine hnp y x ?_ (h9 y hy)
          intro hq hyd
          subst hyd
          subst hq
          obtain ⟨_, _, g3, _⟩ := h.read1 x d' w1' r' buf' mx hx
          have := g3.eq y hy
          unfold Bad
          rw [this]
          exact Or.inr ⟨hl, hb⟩
        · exact Or.inr h9
      all_goals (intros; simp_all)
    · simp at hs
  · simp at hs

theorem inv_readFail {c : Cfg} {s s' : State} (h : Inv c s) {p : Nat}
    (hs : step c s (.readFail p) = some s') : Inv c s' := by
  simp only [step] at hs
  split at hs
  · rename_i d w1 r buf mx hpc
    obtain ⟨h1, h2, h3, h4, h5, h6, h7, h8⟩ := h.read1 p d w1 r buf mx hpc
    split at hs
    · rename_i hd
      simp only [Option.some.injEq] at hs
      subst hs
      apply inv_setPc h
      have hsees : ∀ blk x w, Sees blk x w d r buf mx → Sees blk x w (d + 1) r emptyBuf mx := by
        intro blk x w hsee y hy
        exact ⟨(hsee y hy).1, by simp [emptyBuf]⟩
      constructor
      case read1 =>
        intro d' w1' r' buf' mx' heq
        simp only [Pc.read1.injEq] at heq
        obtain ⟨rfl, rfl, rfl, rfl, rfl⟩ := heq
        exact ⟨h1, h2, h3, h4.mono (by omega), hd, by simp [emptyBuf], h7, h8⟩
      case k2openR =>
        intro x d0 w10 w r0 buf0 d' w1' r' buf' mx' hx hne heq hl hb
        simp only [Pc.read1.injEq] at heq
        obtain ⟨rfl, rfl, rfl, rfl, rfl⟩ := heq
        rcases h.k2open x d0 w10 w r0 buf0 p _ _ _ _ _ hx hpc hl hb with h9 | h9
        · exact Or.inl h9
        · exact Or.inr (hsees _ _ _ h9)
      case k2wonR =>
        intro x w10 w d' w1' r' buf' mx' hx hne heq hl hb
        simp only [Pc.read1.injEq] at heq
        obtain ⟨rfl, rfl, rfl, rfl, rfl⟩ := heq
        exact hsees _ _ _ (h.k2won x w10 w p _ _ _ _ _ hx hpc hl hb)
      case k2log =>
        intro e he d' w1' r' buf' mx' heq hl hb
        simp only [Pc.read1.injEq] at heq
        obtain ⟨rfl, rfl, rfl, rfl, rfl⟩ := heq
        exact hsees _ _ _ (h.k2log e he p _ _ _ _ _ hpc hl hb)
      all_goals (intros; simp_all)
    · simp at hs
  · rename_i d w1 w r buf hpc
    obtain ⟨h1, h2, h3, h4, h5⟩ := h.read2 p d w1 w r buf hpc
    split at hs
    · rename_i hd
      simp only [Option.some.injEq] at hs
      subst hs
      apply inv_setPc h
      have hnp : ∀ x y, NotPassed (s.proc p).dblock d r buf x y →
          NotPassed (s.proc p).dblock (d + 1) r emptyBuf x y := by
        intro x y hn
        exact ⟨hn.1, by simp [emptyBuf]⟩
      constructor
      case read2 =>
        intro d' w1' w' r' buf' heq
        simp only [Pc.read2.injEq] at heq
        obtain ⟨rfl, rfl, rfl, rfl, rfl⟩ := heq
        exact ⟨h1, h2, h3, h4.mono (by omega), hd⟩
      case k1open =>
        intro d' w1' w' r' buf' heq v hv hl hb
        simp only [Pc.read2.injEq] at heq
        obtain ⟨rfl, rfl, rfl, rfl, rfl⟩ := heq
        rcases h.k1open p _ _ _ _ _ hpc v hv hl hb with h9 | ⟨u, hu, g1, g2, g3⟩
        · exact Or.inl h9
        · exact Or.inr ⟨u, hu, g1, g2, fun x hx => hnp x _ (g3 x hx)⟩
      case k2openL =>
        intro d0 w10 w0 r0 buf0 x d' w1' r' buf' mx heq hne hx hl hb
        simp only [Pc.read2.injEq] at heq
        obtain ⟨rfl, rfl, rfl, rfl, rfl⟩ := heq
        rcases h.k2open p _ _ _ _ _ x d' w1' r' buf' mx hpc hx hl hb with h9 | h9
        · exact Or.inl fun y hy => hnp y x (h9 y hy)
        · exact Or.inr h9
      all_goals (intros; simp_all)
    · simp at hs
  · simp at hs

theorem inv_readDone {c : Cfg} {s s' : State} (h : Inv c s) {p : Nat}
    (hs : step c s (.readDone p) = some s') : Inv c s' := by
  simp only [step] at hs
  split at hs
  · rename_i d w1 r buf mx hpc
    obtain ⟨h1, h2, h3, h4, h5, h6, h7, h8⟩ := h.read1 p d w1 r buf mx hpc
    split at hs
    · rename_i hd
      split at hs
      · simp at hs
      · rename_i l hcol
        have hc := collect_some hcol
        split at hs
        · simp only [Option.some.injEq] at hs
          subst hs
          exact inv_setPc h (move_idle c s p)
        · rename_i mx' hph
          obtain ⟨g1, g2, g3, g4⟩ := phase1Disk_ok hph
          simp only [Option.some.injEq] at hs
          subst hs
          apply inv_setPc h
          have hsees : ∀ blk x w, x < c.hosts → (s.proc p).dblock.lver = blk.lver →
              Sees blk x w d r buf mx →
              Sees blk x w (d + 1) (d :: r) emptyBuf mx' := by
            intro blk x w hxh hbl hsee y hy
            refine ⟨?_, by simp [emptyBuf]⟩
            intro hyr
            rcases List.mem_cons.mp hyr with rfl | hyr
            · obtain ⟨k, hkl, hk⟩ := hc.1 x hxh
              rcases (hsee y hy).2 rfl k hk with h9 | ⟨h9, h10, h11⟩
              · exfalso
                apply g1 k hkl
                exact Or.inl (by omega)
              · have := g3 k hkl (by omega) h10
                omega
            · have := (hsee y hy).1 hyr
              omega
          constructor
          case read1 =>
            intro d' w1' r' buf' mx' heq
            simp only [Pc.read1.injEq] at heq
            obtain ⟨rfl, rfl, rfl, rfl, rfl⟩ := heq
            refine ⟨h1, h2, h3, h4.cons, hd, by simp [emptyBuf], ?_, ?_⟩
            · intro hi
              rcases g4 with rfl | ⟨g5, g6, g7⟩
              · exact h7 hi
              · obtain ⟨x, hx⟩ := hc.2 _ g5
                obtain ⟨u, hu, g8, g9, g10⟩ := h6 x _ hx hi
                exact ⟨u, hu, by omega, g9, g10⟩
            · intro hi
              rcases g4 with rfl | ⟨g5, g6, g7⟩
              · exact h8 hi
              · exact absurd hi g7
          case k2openR =>
            intro x d0 w10 w r0 buf0 d' w1' r' buf' mx' hx hne heq hl hb
            simp only [Pc.read1.injEq] at heq
            obtain ⟨rfl, rfl, rfl, rfl, rfl⟩ := heq
            rcases h.k2open x d0 w10 w r0 buf0 p _ _ _ _ _ hx hpc hl hb with h9 | h9
            · exact Or.inl h9
            · exact Or.inr (hsees _ _ _ (h.read2 x _ _ _ _ _ hx).1.host hl h9)
          case k2wonR =>
            intro x w10 w d' w1' r' buf' mx' hx hne heq hl hb
            simp only [Pc.read1.injEq] at heq
            obtain ⟨rfl, rfl, rfl, rfl, rfl⟩ := heq
            exact hsees _ _ _ (h.won x _ _ hx).1.host hl (h.k2won x w10 w p _ _ _ _ _ hx hpc hl hb)
          case k2log =>
            intro e he d' w1' r' buf' mx' heq hl hb
            simp only [Pc.read1.injEq] at heq
            obtain ⟨rfl, rfl, rfl, rfl, rfl⟩ := heq
            exact hsees _ _ _ (h.logHost e he) hl (h.k2log e he p _ _ _ _ _ hpc hl hb)
          all_goals (intros; simp_all)
    · simp at hs
  · rename_i d w1 w r buf hpc
    obtain ⟨h1, h2, h3, h4, h5⟩ := h.read2 p d w1 w r buf hpc
    split at hs
    · rename_i hd
      split at hs
      · simp at hs
      · rename_i l hcol
        have hc := collect_some hcol
        split at hs
        · simp only [Option.some.injEq] at hs
          subst hs
          exact inv_setPc h (move_idle c s p)
        · rename_i hph
          have g1 := phase2Disk_ok hph
          simp only [Option.some.injEq] at hs
          subst hs
          apply inv_setPc h
          have hnp : ∀ x y, y < c.hosts → NotPassed (s.proc p).dblock d r buf x y →
              NotPassed (s.proc p).dblock (d + 1) (d :: r) emptyBuf x y := by
            intro x y hy hn
            refine ⟨?_, by simp [emptyBuf]⟩
            intro hx
            rcases List.mem_cons.mp hx with rfl | hx
            · obtain ⟨k, hkl, hk⟩ := hc.1 y hy
              exact g1 k hkl (hn.2 rfl k hk)
            · exact hn.1 hx
          constructor
          case read2 =>
            intro d' w1' w' r' buf' heq
            simp only [Pc.read2.injEq] at heq
            obtain ⟨rfl, rfl, rfl, rfl, rfl⟩ := heq
            exact ⟨h1, h2, h3, h4.cons, hd⟩
          case k1open =>
            intro d' w1' w' r' buf' heq v hv hl hb
            simp only [Pc.read2.injEq] at heq
            obtain ⟨rfl, rfl, rfl, rfl, rfl⟩ := heq
            rcases h.k1open p _ _ _ _ _ hpc v hv hl hb with h9 | ⟨u, hu, k1, k2, k3⟩
            · exact Or.inl h9
            · exact Or.inr ⟨u, hu, k1, k2, fun x hx => hnp x _ (h.voteHost u hu) (k3 x hx)⟩
          case k2openL =>
            intro d0 w10 w0 r0 buf0 x d' w1' r' buf' mx heq hne hx hl hb
            simp only [Pc.read2.injEq] at heq
            obtain ⟨rfl, rfl, rfl, rfl, rfl⟩ := heq
            rcases h.k2open p _ _ _ _ _ x d' w1' r' buf' mx hpc hx hl hb with h9 | h9
            · exact Or.inl fun y hy => hnp y x (h.read1 x _ _ _ _ _ hx).1.host (h9 y hy)
            · exact Or.inr h9
          all_goals (intros; simp_all)
    · simp at hs
  · simp at hs

/-- A host that has read a majority in phase 2 cannot be doomed. -/
theorem not_doomed {c : Cfg} {s : State} (h : Inv c s) {k : Blk} {d : Nat} {r : List Nat}
    {buf : Nat → Option Blk} (hsub : Sub r c.disks) (hmaj : majority c.disks r.length = true)
    (hd : Doomed s.votes k d r buf) : False := by
  obtain ⟨u, hu, _, _, h3⟩ := hd
  obtain ⟨x, hx, hx'⟩ := majority_inter (h.voteSub u hu) hsub (h.voteMaj u hu) hmaj
  exact (h3 x hx).1 hx'

theorem res_inj {m p q : Nat} (hp : p < m) (hq : q < m) (h : (p + 1) % m = (q + 1) % m) : p = q := by
  by_cases h1 : p + 1 = m
  · by_cases h2 : q + 1 = m
    · omega
    · rw [h1, Nat.mod_self, Nat.mod_eq_of_lt (by omega)] at h; omega
  · by_cases h2 : q + 1 = m
    · rw [h2, Nat.mod_self, Nat.mod_eq_of_lt (by omega)] at h; omega
    · rw [Nat.mod_eq_of_lt (by omega), Nat.mod_eq_of_lt (by omega)] at h; omega

theorem choose_lver (k mx : Blk) (i g n : Nat) : (choose k mx i g n).lver = k.lver := by
  unfold choose; split <;> rfl

theorem choose_mbal (k mx : Blk) (i g n : Nat) : (choose k mx i g n).mbal = k.mbal := by
  unfold choose; split <;> rfl

theorem choose_bal (k mx : Blk) (i g n : Nat) : (choose k mx i g n).bal = k.mbal := by
  unfold choose; split <;> rfl

theorem choose_inp (k mx : Blk) (i g n : Nat) (hi : i ≠ 0) : (choose k mx i g n).inp ≠ 0 := by
  unfold choose; split <;> simpa

theorem choose_val (k mx : Blk) (i g n : Nat) (h : mx.inp ≠ 0) : (choose k mx i g n).val = mx.val := by
  unfold choose; simp [h, Blk.val]

theorem inv_readsDone {c : Cfg} {s s' : State} (hc : c.hosts ≤ c.maxHosts) (h : Inv c s) {p now : Nat}
    (hs : step c s (.readsDone p now) = some s') : Inv c s' := by
  simp only [step] at hs
  split at hs
  · rename_i d w1 r buf mx hpc
    obtain ⟨h1, h2, h3, h4, h5, h6, h7, h8⟩ := h.read1 p d w1 r buf mx hpc
    split at hs
    · simp at hs
    · rename_i hd
      have hdd : d = c.disks := by omega
      subst hdd
      split at hs
      · rename_i hm
        simp only [Option.some.injEq] at hs
        generalize hk : choose (s.proc p).dblock mx (p + 1) (s.proc p).gen now = k at hs
        have k1 : k.lver = (s.proc p).dblock.lver := by rw [← hk, choose_lver]
        have k2 : k.mbal = (s.proc p).dblock.mbal := by rw [← hk, choose_mbal]
        have k3 : k.bal = (s.proc p).dblock.mbal := by rw [← hk, choose_bal]
        have k4 : k.inp ≠ 0 := by rw [← hk]; exact choose_inp _ _ _ _ _ (by omega)
        have k5 : mx.inp ≠ 0 → k.val = mx.val := by rw [← hk]; exact choose_val _ _ _ _ _
        -- the value of a vote that was seen
        have hseen : ∀ (blk : Blk) x w, Sub w c.disks → majority c.disks w.length = true →
            0 < blk.bal → Sees blk x w c.disks r buf mx →
            ∃ u ∈ s.votes, u.lver = k.lver ∧ blk.bal ≤ u.bal ∧ u.val = k.val := by
          intro blk x w hw hwm hpos hsee
          obtain ⟨y, hy, hyr⟩ := majority_inter hw h4 hwm hm
          have hbal := (hsee y hy).1 hyr
          have hi : mx.inp ≠ 0 := fun hi => by have := h8 hi; omega
          obtain ⟨u, hu, g1, g2, g3⟩ := h7 hi
          exact ⟨u, hu, by omega, by omega, by rw [g3, k5 hi]⟩
        have hs2 : s' = ((((s.setPc p .idle).addVote ⟨p, k.lver, k.bal, k.val, w1⟩).setProc p
            ⟨.idle, k, (s.proc p).gen⟩).setPc p (.write2 0 w1 [])) := by
          rw [← hs]
          simp only [State.setPc, State.setProc, State.addVote]
          congr 1
          funext x
          split <;> simp_all
        have hidle := inv_setPc h (move_idle c s p)
        have hv : Inv c ((s.setPc p .idle).addVote ⟨p, k.lver, k.bal, k.val, w1⟩) := by
          apply inv_addVote hidle
          case hidle => simp
          case hhost => exact h1.host
          case hres => simp only [k3]; exact h1.res
          case hsub => exact h3.sub
          case hmaj => exact h3.maj
          case hdisk =>
            intro x hx
            right
            simp only [setPc_disk]
            rw [h3.eq x hx]
            exact ⟨k1, by omega⟩
          case huniq =>
            intro u hu ⟨g1, g2⟩
            simp only at g1 g2
            have hr := h.voteRes u hu
            rw [g2, k3, h1.res] at hr
            have hh := res_inj (Nat.lt_of_lt_of_le h1.host hc)
              (Nat.lt_of_lt_of_le (h.voteHost u hu) hc) hr
            have := h2.lt u hu hh.symm
            unfold lexLt at this
            omega
          case hopen =>
            intro x d0 w10 w r0 buf0 hx hl hb
            simp only [setPc_pc, setPc_dblock] at hx hl hb ⊢
            split at hx
            · simp at hx
            · rename_i hne
              obtain ⟨g1, g2, g3, _⟩ := h.read2 x d0 w10 w r0 buf0 hx
              rcases h.k2open x d0 w10 w r0 buf0 p _ _ _ _ _ hx hpc (by omega) (by omega) with h9 | h9
              · right
                exact ⟨_, List.mem_cons_self, hl, hb, h9⟩
              · obtain ⟨u, hu, e1, e2, e3⟩ := hseen _ x w g3.sub g3.maj (by have := g2.bal; have := g1.pos; omega) h9
                obtain ⟨v, hv, v1, v2, v3, v4, v5⟩ := g2.vote
                by_cases hub : u.bal = (s.proc x).dblock.bal
                · left
                  rw [← e3]
                  have := h.voteUniq u hu v hv (by omega) (by omega)
                  rw [this, v4]
                · have hb2 := g2.bal
                  rcases h.k1open x d0 w10 w r0 buf0 hx u hu (by omega) (by omega) with e4 | e4
                  · left; rw [← e3, e4]
                  · exact Or.inr (doomed_mono _ e4)
          case hwon =>
            intro x w10 w hx hl hb
            simp only [setPc_pc, setPc_dblock] at hx hl hb ⊢
            split at hx
            · simp at hx
            · rename_i hne
              obtain ⟨g1, g2, g3⟩ := h.won x w10 w hx
              have h9 := h.k2won x w10 w p _ _ _ _ _ hx hpc (by omega) (by omega)
              obtain ⟨u, hu, e1, e2, e3⟩ := hseen _ x w g3.sub g3.maj (by have := g2.bal; have := g1.pos; omega) h9
              obtain ⟨v, hv, v1, v2, v3, v4, v5⟩ := g2.vote
              by_cases hub : u.bal = (s.proc x).dblock.bal
              · rw [← e3]
                have := h.voteUniq u hu v hv (by omega) (by omega)
                rw [this, v4]
              · have hb2 := g2.bal
                have := h.k1won x w10 w hx u hu (by omega) (by omega)
                rw [← e3, this]
          case hlog =>
            intro e he hl hb
            simp only [setPc_log] at he hl hb ⊢
            have h9 := h.k2log e he p _ _ _ _ _ hpc (by omega) (by omega)
            obtain ⟨v, hv, v1, v2, v3⟩ := h.logVote e he
            have hpos : 0 < e.blk.bal := by rw [h.logBal e he]; exact h.logPos e he
            obtain ⟨u, hu, e1, e2, e3⟩ := hseen _ e.host e.w (h.logSub e he) (h.logMaj e he) hpos h9
            by_cases hub : u.bal = e.blk.bal
            · rw [← e3]
              have := h.voteUniq u hu v hv (by omega) (by omega)
              rw [this, v3]
            · have hb2 := h.logBal e he
              have := h.k1log e he u hu (by omega) (by omega)
              rw [← e3, this]
        rw [hs2]
        have hI := inv_setIdle hv (p := p) (pr := ⟨.idle, k, (s.proc p).gen⟩) rfl
        apply inv_setPc hI
        constructor
        case write2 =>
          intro d' w1' w' heq
          simp only [Pc.write2.injEq] at heq
          obtain ⟨rfl, rfl, rfl⟩ := heq
          have hp : (((s.setPc p .idle).addVote ⟨p, k.lver, k.bal, k.val, w1⟩).setProc p
            ⟨.idle, k, (s.proc p).gen⟩).proc p = ⟨.idle, k, (s.proc p).gen⟩ := by simp [State.setProc]
          refine ⟨⟨h1.host, ?_, ?_, ?_⟩, ⟨?_, ?_, ?_, ?_⟩, Sub.nil _, Nat.zero_le _, by simp⟩ <;>
            rw [hp] <;> simp only
          · have := h1.pos; omega
          · rw [k2]; exact h1.res
          · intro e he hh; have := h1.log e he hh; omega
          · exact k4
          · omega
          · exact ⟨_, List.mem_cons_self, rfl, rfl, rfl, rfl, rfl⟩
          · intro u hu hh
            rcases List.mem_cons.mp hu with rfl | hu
            · right; exact ⟨rfl, Nat.le_refl _⟩
            · have := h2.lt u hu hh
              unfold lexLt at this
              omega
        all_goals (intros; simp_all)
      · simp only [Option.some.injEq] at hs
        subst hs
        exact inv_setPc h (move_idle c s p)
  · rename_i d w1 w r buf hpc
    obtain ⟨h1, h2, h3, h4, h5⟩ := h.read2 p d w1 w r buf hpc
    split at hs
    · simp at hs
    · rename_i hd
      have hdd : d = c.disks := by omega
      subst hdd
      split at hs
      · rename_i hm
        simp only [Option.some.injEq] at hs
        subst hs
        apply inv_setPc h
        constructor
        case won =>
          intro w1' w' heq
          simp only [Pc.won.injEq] at heq
          obtain ⟨rfl, rfl⟩ := heq
          exact ⟨h1, h2, h3⟩
        case k1won =>
          intro w1' w' heq v hv hl hb
          simp only [Pc.won.injEq] at heq
          obtain ⟨rfl, rfl⟩ := heq
          rcases h.k1open p _ _ _ _ _ hpc v hv hl hb with h9 | h9
          · exact h9
          · exact (not_doomed h h4 hm h9).elim
        case k2wonL =>
          intro w1' w' q d' w1'' r' buf' mx heq hne hq hl hb
          simp only [Pc.won.injEq] at heq
          obtain ⟨rfl, rfl⟩ := heq
          rcases h.k2open p _ _ _ _ _ q d' w1'' r' buf' mx hpc hq hl hb with h9 | h9
          · obtain ⟨_, _, g3, _⟩ := h.read1 q d' w1'' r' buf' mx hq
            obtain ⟨x, hx, hx'⟩ := majority_inter g3.sub h4 g3.maj hm
            exact absurd hx' (h9 x hx).1
          · exact h9
        all_goals (intros; simp_all)
      · simp only [Option.some.injEq] at hs
        subst hs
        exact inv_setPc h (move_idle c s p)
  · simp at hs

theorem inv_step {c : Cfg} {s s' : State} {a : Act} (hc : c.hosts ≤ c.maxHosts) (h : Inv c s)
    (ha : Allowed c s a) (hs : step c s a = some s') : Inv c s' := by
  cases a with
  | start p lver mbal gen => exact inv_start h ha hs
  | write p res => exact inv_write h hs
  | writesDone p => exact inv_writesDone h hs
  | readSector p q => exact inv_readSector h hs
  | readFail p => exact inv_readFail h hs
  | readDone p => exact inv_readDone h hs
  | readsDone p now => exact inv_readsDone hc h hs
  | leaderWritten p =>
    simp only [step] at hs
    split at hs
    · rename_i w1 w hpc
      simp only [Option.some.injEq] at hs
      subst hs
      exact inv_leaderWritten h hpc
    · simp at hs
  | quit p =>
    simp only [step, Option.some.injEq] at hs
    subst hs
    exact inv_setPc h (move_idle c s p)

theorem inv_reach {c : Cfg} {s : State} (hc : c.hosts ≤ c.maxHosts) (h : Reach c s) : Inv c s := by
  induction h with
  | init => exact inv_init c
  | step _ ha hs ih => exact inv_step hc ih ha hs

end Sanlock.Ballot
