import Verif.Lemmas.MultiLeaseInv2

/-!
# An acquire without interference
-/

namespace Sanlock.MultiLease

open Sanlock.Ballot (Blk Cfg WriteRes Pc majority Sub)
open Sanlock.Lease (Rec newLeader lands upd balHost)

theorem run_append {c : Cfg} {as bs : List Act} {s : State} : run c s (as ++ bs) = (run c s as).bind fun t => run c t bs := by
  induction as generalizing s with
  | nil => rfl
  | cons a rest ih =>
    simp only [List.cons_append, run]
    cases step c s a with
    | none => rfl
    | some t => simp only [Option.bind_some]; exact ih

theorem run_step {c : Cfg} {a : Act} {as : List Act} {s t : State} (h : step c s a = some t) : run c s (a :: as) = run c t as := by
  simp [run, h]

theorem run_app {c : Cfg} {as bs : List Act} {s t : State} (h : run c s as = some t) : run c s (as ++ bs) = run c t bs := by
  rw [run_append, h]; rfl

theorem brun_append {c : Cfg} {as bs : List Ballot.Act} {s t : Ballot.State} (h : Ballot.run c s as = some t) :
    Ballot.run c s (as ++ bs) = Ballot.run c t bs := by
  induction as generalizing s with
  | nil => simp only [Ballot.run, Option.some.injEq] at h; rw [h]; rfl
  | cons a rest ih =>
    simp only [List.cons_append, Ballot.run] at h ⊢
    cases hs : Ballot.step c s a with
    | none => simp [hs] at h
    | some u => simp only [hs, Option.bind_some] at h ⊢; exact ih h

theorem brun_step {c : Cfg} {a : Ballot.Act} {as : List Ballot.Act} {s t : Ballot.State} (h : Ballot.step c s a = some t) :
    Ballot.run c s (a :: as) = Ballot.run c t as := by
  simp [Ballot.run, h]

/-- The steps of the ballot, run inside `run_ballot`. -/
theorem run_bal {c : Cfg} {p : Nat} {as : List Ballot.Act} {s : State} {B' : Ballot.State} {cur : Rec} {mbal : Nat}
    (hph : (s.host p).ph = .ballot cur mbal) (ha : ∀ a ∈ as, balHost a = some p) (hr : Ballot.run c s.B as = some B') :
    ∃ f, run c s (as.map (.bal p)) = some { s with B := B', flag := f } := by
  induction as generalizing s with
  | nil =>
    simp only [Ballot.run, Option.some.injEq] at hr
    exact ⟨s.flag, by simp [run, ← hr]⟩
  | cons a rest ih =>
    simp only [Ballot.run] at hr
    cases hs : Ballot.step c s.B a with
    | none => simp [hs] at hr
    | some B1 =>
      simp only [hs, Option.bind_some] at hr
      have hst : step c s (.bal p a) = some { s with B := B1, flag := if writesFirst (s.B.proc p).pc a then upd s.flag p false else s.flag } := by
        simp only [step, hph, hs, if_pos (ha a (by simp))]
      obtain ⟨f, hf⟩ := ih (s := { s with B := B1, flag := if writesFirst (s.B.proc p).pc a then upd s.flag p false else s.flag })
        hph (fun x hx => ha x (by simp [hx])) hr
      exact ⟨f, by rw [List.map_cons, run_step hst]; exact hf⟩

/-! ## The ballot -/

def bWrites (bad : Bad) (p k n : Nat) : List Ballot.Act := (List.range' k n).map fun d => .write p (wr bad d)

def bRead (c : Cfg) (bad : Bad) (p d : Nat) : List Ballot.Act :=
  if bad d then [.readFail p] else (List.range' 0 c.hosts).map (fun q => .readSector p q) ++ [.readDone p]

def bReads (c : Cfg) (bad : Bad) (p k n : Nat) : List Ballot.Act := (List.range' k n).flatMap (bRead c bad p)

def good (bad : Bad) (l : List Nat) : Nat := l.countP fun d => !bad d

theorem good_cons (bad : Bad) (k : Nat) (l : List Nat) : good bad (k :: l) = (if bad k then 0 else 1) + good bad l := by
  simp only [good, List.countP_cons]
  cases bad k <;> simp <;> omega

theorem setProc_setProc (B : Ballot.State) (p : Nat) (a b : Ballot.Proc) : (B.setProc p a).setProc p b = B.setProc p b := by
  simp only [Ballot.State.setProc, Ballot.State.mk.injEq, and_true, true_and]
  funext x
  split <;> rfl

theorem setPc_setPc (B : Ballot.State) (p : Nat) (a b : Pc) : (B.setPc p a).setPc p b = B.setPc p b := by
  simp only [Ballot.State.setPc, setProc_setProc]
  simp [Ballot.State.setProc]

theorem setPc_self (B : Ballot.State) (p : Nat) (pc : Pc) : (B.setPc p pc).proc p = { B.proc p with pc := pc } := by
  simp [Ballot.State.setPc, Ballot.State.setProc]

/-- The state after host `p` wrote its block to the disks from `k` on. -/
structure Wrote (c : Cfg) (bad : Bad) (B B' : Ballot.State) (p k : Nat) : Prop where
  blk : (B'.proc p).dblock = (B.proc p).dblock
  gen : (B'.proc p).gen = (B.proc p).gen
  disk : ∀ x q, B'.disk x q = if q = p ∧ k ≤ x ∧ x < c.disks ∧ bad x = false then (B.proc p).dblock else B.disk x q

theorem wrote_step {c : Cfg} {bad : Bad} {B B1 B' : Ballot.State} {p k : Nat} (hk : k < c.disks)
    (hb : (B1.proc p).dblock = (B.proc p).dblock) (hg : (B1.proc p).gen = (B.proc p).gen)
    (hd : ∀ x q, B1.disk x q = if q = p ∧ x = k ∧ bad k = false then (B.proc p).dblock else B.disk x q)
    (h : Wrote c bad B1 B' p (k + 1)) : Wrote c bad B B' p k := by
  refine ⟨h.blk.trans hb, h.gen.trans hg, ?_⟩
  intro x q
  rw [h.disk, hd, hb]
  by_cases hq : q = p
  · by_cases hx : x = k
    · subst hx
      by_cases hbad : bad x = false
      · simp [hq, hbad, hk]
      · simp [hbad]
    · have : (k + 1 ≤ x) ↔ (k ≤ x) := by omega
      simp [hq, hx, this]
  · simp [hq]

theorem brun_write1 {c : Cfg} {bad : Bad} {p : Nat} (n : Nat) : ∀ (k : Nat) (B : Ballot.State) (w : List Nat), k + n = c.disks →
    (B.proc p).pc = .write1 k w → ∃ B' w', Ballot.run c B (bWrites bad p k n) = some B' ∧ (B'.proc p).pc = .write1 c.disks w' ∧
      w'.length = w.length + good bad (List.range' k n) ∧ Wrote c bad B B' p k := by
  induction n with
  | zero =>
    intro k B w hk hpc
    refine ⟨B, w, rfl, by rw [hpc]; simp only [Pc.write1.injEq, and_true]; omega, by simp [good], rfl, rfl, ?_⟩
    intro x q
    rw [if_neg (by omega)]
  | succ n ih =>
    intro k B w hk hpc
    simp only [bWrites, List.range'_succ, List.map_cons]
    cases hb : bad k with
    | true =>
      have hs : Ballot.step c B (.write p (wr bad k)) = some (B.setPc p (.write1 (k + 1) w)) := by
        simp only [Ballot.step, hpc, wr, hb]
        rw [if_pos (by omega)]
        rfl
      obtain ⟨B', w', h1, h2, h3, h4⟩ := ih (k + 1) (B.setPc p (.write1 (k + 1) w)) w (by omega) (by simp)
      refine ⟨B', w', by rw [brun_step hs]; exact h1, h2, by rw [h3, good_cons, hb]; simp, ?_⟩
      refine wrote_step (by omega) ?_ ?_ ?_ h4
      · simp
      · simp
      · intro x q; simp [hb]
    | false =>
      have hs : Ballot.step c B (.write p (wr bad k)) = some ((B.setDisk k p (B.proc p).dblock).setPc p (.write1 (k + 1) (k :: w))) := by
        simp only [Ballot.step, hpc, wr, hb]
        rw [if_pos (by omega)]
        rfl
      obtain ⟨B', w', h1, h2, h3, h4⟩ := ih (k + 1) ((B.setDisk k p (B.proc p).dblock).setPc p (.write1 (k + 1) (k :: w))) (k :: w)
        (by omega) (by simp)
      refine ⟨B', w', by rw [brun_step hs]; exact h1, h2, by rw [h3, good_cons, hb]; simp; omega, ?_⟩
      refine wrote_step (by omega) ?_ ?_ ?_ h4
      · simp [Ballot.State.setDisk]
      · simp [Ballot.State.setDisk]
      · intro x q
        simp only [Ballot.setPc_disk, setDisk_disk, hb, and_true]
        by_cases h5 : x = k ∧ q = p
        · rw [if_pos h5, if_pos ⟨h5.2, h5.1⟩]
        · rw [if_neg h5, if_neg (fun h => h5 ⟨h.2, h.1⟩)]

theorem brun_write2 {c : Cfg} {bad : Bad} {p : Nat} (n : Nat) : ∀ (k : Nat) (B : Ballot.State) (w1 w : List Nat), k + n = c.disks →
    (B.proc p).pc = .write2 k w1 w → ∃ B' w', Ballot.run c B (bWrites bad p k n) = some B' ∧ (B'.proc p).pc = .write2 c.disks w1 w' ∧
      w'.length = w.length + good bad (List.range' k n) ∧ Wrote c bad B B' p k := by
  induction n with
  | zero =>
    intro k B w1 w hk hpc
    refine ⟨B, w, rfl, by rw [hpc]; simp only [Pc.write2.injEq, and_true]; omega, by simp [good], rfl, rfl, ?_⟩
    intro x q
    rw [if_neg (by omega)]
  | succ n ih =>
    intro k B w1 w hk hpc
    simp only [bWrites, List.range'_succ, List.map_cons]
    cases hb : bad k with
    | true =>
      have hs : Ballot.step c B (.write p (wr bad k)) = some (B.setPc p (.write2 (k + 1) w1 w)) := by
        simp only [Ballot.step, hpc, wr, hb]
        rw [if_pos (by omega)]
        rfl
      obtain ⟨B', w', h1, h2, h3, h4⟩ := ih (k + 1) (B.setPc p (.write2 (k + 1) w1 w)) w1 w (by omega) (by simp)
      refine ⟨B', w', by rw [brun_step hs]; exact h1, h2, by rw [h3, good_cons, hb]; simp, ?_⟩
      refine wrote_step (by omega) ?_ ?_ ?_ h4
      · simp
      · simp
      · intro x q; simp [hb]
    | false =>
      have hs : Ballot.step c B (.write p (wr bad k)) = some ((B.setDisk k p (B.proc p).dblock).setPc p (.write2 (k + 1) w1 (k :: w))) := by
        simp only [Ballot.step, hpc, wr, hb]
        rw [if_pos (by omega)]
        rfl
      obtain ⟨B', w', h1, h2, h3, h4⟩ := ih (k + 1) ((B.setDisk k p (B.proc p).dblock).setPc p (.write2 (k + 1) w1 (k :: w))) w1 (k :: w)
        (by omega) (by simp)
      refine ⟨B', w', by rw [brun_step hs]; exact h1, h2, by rw [h3, good_cons, hb]; simp; omega, ?_⟩
      refine wrote_step (by omega) ?_ ?_ ?_ h4
      · simp [Ballot.State.setDisk]
      · simp [Ballot.State.setDisk]
      · intro x q
        simp only [Ballot.setPc_disk, setDisk_disk, hb, and_true]
        by_cases h5 : x = k ∧ q = p
        · rw [if_pos h5, if_pos ⟨h5.2, h5.1⟩]
        · rw [if_neg h5, if_neg (fun h => h5 ⟨h.2, h.1⟩)]

/-! ### Reading one disk -/

def sectors (p j n : Nat) : List Ballot.Act := (List.range' j n).map fun q => .readSector p q

theorem brun_sectors1 {c : Cfg} {p d : Nat} {w1 r : List Nat} {mx : Blk} (hd : d < c.disks) (n : Nat) :
    ∀ (j : Nat) (B : Ballot.State) (buf : Nat → Option Blk), (B.proc p).pc = .read1 d w1 r buf mx →
    ∃ buf', Ballot.run c B (sectors p j n) = some (B.setPc p (.read1 d w1 r buf' mx)) ∧
      ∀ x, buf' x = if j ≤ x ∧ x < j + n then some (B.disk d x) else buf x := by
  induction n with
  | zero =>
    intro j B buf hpc
    refine ⟨buf, ?_, fun x => by rw [if_neg (by omega)]⟩
    have : B.setPc p (.read1 d w1 r buf mx) = B := by
      rw [← hpc]
      simp only [Ballot.State.setPc, Ballot.State.setProc]
      congr
      funext x
      split
      · rename_i h; rw [h]
      · rfl
    rw [this]; rfl
  | succ n ih =>
    intro j B buf hpc
    simp only [sectors, List.range'_succ, List.map_cons]
    have hs : Ballot.step c B (.readSector p j) = some (B.setPc p (.read1 d w1 r (fun x => if x = j then some (B.disk d j) else buf x) mx)) := by
      simp only [Ballot.step, hpc]
      rw [if_pos hd]
    obtain ⟨buf', h1, h2⟩ := ih (j + 1) (B.setPc p (.read1 d w1 r (fun x => if x = j then some (B.disk d j) else buf x) mx)) _ (by simp; rfl)
    refine ⟨buf', ?_, ?_⟩
    · rw [brun_step hs]
      rw [setPc_setPc] at h1
      exact h1
    · intro x
      rw [h2]
      simp only [Ballot.setPc_disk]
      by_cases hx : x = j
      · subst hx
        rw [if_neg (by omega), if_pos rfl, if_pos (by omega)]
      · have : (j + 1 ≤ x ∧ x < j + 1 + n) ↔ (j ≤ x ∧ x < j + (n + 1)) := by omega
        simp [this, hx]

theorem brun_sectors2 {c : Cfg} {p d : Nat} {w1 w r : List Nat} (hd : d < c.disks) (n : Nat) :
    ∀ (j : Nat) (B : Ballot.State) (buf : Nat → Option Blk), (B.proc p).pc = .read2 d w1 w r buf →
    ∃ buf', Ballot.run c B (sectors p j n) = some (B.setPc p (.read2 d w1 w r buf')) ∧
      ∀ x, buf' x = if j ≤ x ∧ x < j + n then some (B.disk d x) else buf x := by
  induction n with
  | zero =>
    intro j B buf hpc
    refine ⟨buf, ?_, fun x => by rw [if_neg (by omega)]⟩
    have : B.setPc p (.read2 d w1 w r buf) = B := by
      rw [← hpc]
      simp only [Ballot.State.setPc, Ballot.State.setProc]
      congr
      funext x
      split
      · rename_i h; rw [h]
      · rfl
    rw [this]; rfl
  | succ n ih =>
    intro j B buf hpc
    simp only [sectors, List.range'_succ, List.map_cons]
    have hs : Ballot.step c B (.readSector p j) = some (B.setPc p (.read2 d w1 w r (fun x => if x = j then some (B.disk d j) else buf x))) := by
      simp only [Ballot.step, hpc]
      rw [if_pos hd]
    obtain ⟨buf', h1, h2⟩ := ih (j + 1) (B.setPc p (.read2 d w1 w r (fun x => if x = j then some (B.disk d j) else buf x))) _ (by simp; rfl)
    refine ⟨buf', ?_, ?_⟩
    · rw [brun_step hs]
      rw [setPc_setPc] at h1
      exact h1
    · intro x
      rw [h2]
      simp only [Ballot.setPc_disk]
      by_cases hx : x = j
      · subst hx
        rw [if_neg (by omega), if_pos rfl, if_pos (by omega)]
      · have : (j + 1 ≤ x ∧ x < j + 1 + n) ↔ (j ≤ x ∧ x < j + (n + 1)) := by omega
        simp [this, hx]

theorem mapM_some {α β : Type} {l : List α} {f : α → Option β} {g : α → β} (h : ∀ x ∈ l, f x = some (g x)) :
    l.mapM f = some (l.map g) := by
  induction l with
  | nil => rfl
  | cons a l ih =>
    rw [List.mapM_cons, h a (by simp), ih (fun x hx => h x (by simp [hx]))]
    rfl

theorem collect_some {n : Nat} {buf : Nat → Option Blk} {g : Nat → Blk} (h : ∀ x < n, buf x = some (g x)) :
    Ballot.collect n buf = some ((List.range n).map g) :=
  mapM_some fun x hx => h x (List.mem_range.mp hx)

theorem phase1Disk_ok {k mx : Blk} {l : List Blk} (h : ∀ b ∈ l, Ballot.phase1Blk k mx b = .ok mx) : Ballot.phase1Disk k mx l = .ok mx := by
  induction l with
  | nil => rfl
  | cons b l ih =>
    simp only [Ballot.phase1Disk, h b (by simp)]
    exact ih fun x hx => h x (by simp [hx])

theorem phase2Disk_ok {k : Blk} {l : List Blk} (h : ∀ b ∈ l, Ballot.phase2Blk k b = .ok ()) : Ballot.phase2Disk k l = .ok () := by
  induction l with
  | nil => rfl
  | cons b l ih =>
    simp only [Ballot.phase2Disk, h b (by simp)]
    exact ih fun x hx => h x (by simp [hx])

theorem brun_reads1 {c : Cfg} {bad : Bad} {p : Nat} {w1 : List Nat} {mx : Blk} (n : Nat) :
    ∀ (k : Nat) (B : Ballot.State) (r : List Nat), k + n = c.disks → (B.proc p).pc = .read1 k w1 r Ballot.emptyBuf mx →
    (∀ x < c.disks, ∀ q < c.hosts, Ballot.phase1Blk (B.proc p).dblock mx (B.disk x q) = .ok mx) →
    ∃ r', Ballot.run c B (bReads c bad p k n) = some (B.setPc p (.read1 c.disks w1 r' Ballot.emptyBuf mx)) ∧
      r'.length = r.length + good bad (List.range' k n) := by
  induction n with
  | zero =>
    intro k B r hk hpc _
    refine ⟨r, ?_, by simp [good]⟩
    have : B.setPc p (.read1 c.disks w1 r Ballot.emptyBuf mx) = B := by
      rw [show c.disks = k by omega, ← hpc]
      simp only [Ballot.State.setPc, Ballot.State.setProc]
      congr
      funext x
      split
      · rename_i h; rw [h]
      · rfl
    rw [this]; rfl
  | succ n ih =>
    intro k B r hk hpc hok
    simp only [bReads, List.range'_succ, List.flatMap_cons]
    have hkd : k < c.disks := by omega
    have hone : Ballot.run c B (bRead c bad p k) =
        some (B.setPc p (.read1 (k + 1) w1 (if bad k then r else k :: r) Ballot.emptyBuf mx)) := by
      cases hb : bad k with
      | true =>
        simp only [bRead, hb, if_true, Ballot.run, Ballot.step, hpc]
        rw [if_pos hkd]
        rfl
      | false =>
        simp only [bRead, hb, Bool.false_eq_true, if_false]
        obtain ⟨buf', h1, h2⟩ := brun_sectors1 hkd c.hosts 0 B Ballot.emptyBuf hpc
        rw [sectors] at h1
        rw [brun_append h1]
        have hcol : Ballot.collect c.hosts buf' = some ((List.range c.hosts).map (B.disk k)) :=
          collect_some fun x hx => by rw [h2, if_pos (by omega)]
        have hph : Ballot.phase1Disk (B.proc p).dblock mx ((List.range c.hosts).map (B.disk k)) = .ok mx := by
          refine phase1Disk_ok fun b hb => ?_
          obtain ⟨q, hq, rfl⟩ := List.mem_map.mp hb
          exact hok k hkd q (List.mem_range.mp hq)
        simp only [Ballot.run, Ballot.step, setPc_self, hcol, hph]
        rw [if_pos hkd, setPc_setPc]
        rfl
    rw [brun_append hone]
    obtain ⟨r', h1, h2⟩ := ih (k + 1) (B.setPc p (.read1 (k + 1) w1 (if bad k then r else k :: r) Ballot.emptyBuf mx))
      (if bad k then r else k :: r) (by omega) (by simp) (by simpa using hok)
    refine ⟨r', by rw [setPc_setPc] at h1; exact h1, ?_⟩
    rw [h2, good_cons]
    cases bad k <;> simp <;> omega

theorem brun_reads2 {c : Cfg} {bad : Bad} {p : Nat} {w1 w : List Nat} (n : Nat) :
    ∀ (k : Nat) (B : Ballot.State) (r : List Nat), k + n = c.disks → (B.proc p).pc = .read2 k w1 w r Ballot.emptyBuf →
    (∀ x < c.disks, ∀ q < c.hosts, Ballot.phase2Blk (B.proc p).dblock (B.disk x q) = .ok ()) →
    ∃ r', Ballot.run c B (bReads c bad p k n) = some (B.setPc p (.read2 c.disks w1 w r' Ballot.emptyBuf)) ∧
      r'.length = r.length + good bad (List.range' k n) := by
  induction n with
  | zero =>
    intro k B r hk hpc _
    refine ⟨r, ?_, by simp [good]⟩
    have : B.setPc p (.read2 c.disks w1 w r Ballot.emptyBuf) = B := by
      rw [show c.disks = k by omega, ← hpc]
      simp only [Ballot.State.setPc, Ballot.State.setProc]
      congr
      funext x
      split
      · rename_i h; rw [h]
      · rfl
    rw [this]; rfl
  | succ n ih =>
    intro k B r hk hpc hok
    simp only [bReads, List.range'_succ, List.flatMap_cons]
    have hkd : k < c.disks := by omega
    have hone : Ballot.run c B (bRead c bad p k) =
        some (B.setPc p (.read2 (k + 1) w1 w (if bad k then r else k :: r) Ballot.emptyBuf)) := by
      cases hb : bad k with
      | true =>
        simp only [bRead, hb, if_true, Ballot.run, Ballot.step, hpc]
        rw [if_pos hkd]
        rfl
      | false =>
        simp only [bRead, hb, Bool.false_eq_true, if_false]
        obtain ⟨buf', h1, h2⟩ := brun_sectors2 hkd c.hosts 0 B Ballot.emptyBuf hpc
        rw [sectors] at h1
        rw [brun_append h1]
        have hcol : Ballot.collect c.hosts buf' = some ((List.range c.hosts).map (B.disk k)) :=
          collect_some fun x hx => by rw [h2, if_pos (by omega)]
        have hph : Ballot.phase2Disk (B.proc p).dblock ((List.range c.hosts).map (B.disk k)) = .ok () := by
          refine phase2Disk_ok fun b hb => ?_
          obtain ⟨q, hq, rfl⟩ := List.mem_map.mp hb
          exact hok k hkd q (List.mem_range.mp hq)
        simp only [Ballot.run, Ballot.step, setPc_self, hcol, hph]
        rw [if_pos hkd, setPc_setPc]
        rfl
    rw [brun_append hone]
    obtain ⟨r', h1, h2⟩ := ih (k + 1) (B.setPc p (.read2 (k + 1) w1 w (if bad k then r else k :: r) Ballot.emptyBuf))
      (if bad k then r else k :: r) (by omega) (by simp) (by simpa using hok)
    refine ⟨r', by rw [setPc_setPc] at h1; exact h1, ?_⟩
    rw [h2, good_cons]
    cases bad k <;> simp <;> omega

def bPhase (c : Cfg) (bad : Bad) (p now : Nat) : List Ballot.Act :=
  bWrites bad p 0 c.disks ++ [.writesDone p] ++ bReads c bad p 0 c.disks ++ [.readsDone p now]

/-- A ballot without interference, for a version that nobody has tried yet. -/
theorem brun_ballot {c : Cfg} {bad : Bad} {p now n m g : Nat} {B : Ballot.State}
    (hm : majority c.disks (good bad (List.range' 0 c.disks)) = true)
    (hpr : B.proc p = ⟨.write1 0 [], { Blk.zero with lver := n, mbal := m }, g⟩)
    (hold : ∀ x < c.disks, ∀ q < c.hosts, (B.disk x q).lver < n) :
    ∃ B' w1 w, Ballot.run c B (bPhase c bad p now ++ bPhase c bad p now) = some B' ∧ (B'.proc p).pc = .won w1 w ∧
      (B'.proc p).dblock = ⟨n, m, m, p + 1, g, now⟩ := by
  obtain ⟨B1, w1, h1, h2, h3, h4⟩ := brun_write1 (c := c) (bad := bad) (p := p) c.disks 0 B [] (by omega) (by rw [hpr])
  have hb1 := h4.blk
  have hg1 := h4.gen
  rw [hpr] at hb1 hg1
  simp only [List.length_nil, Nat.zero_add] at h3
  have s2 : Ballot.step c B1 (.writesDone p) = some (B1.setPc p (.read1 0 w1 [] Ballot.emptyBuf Blk.zero)) := by
    simp only [Ballot.step, h2]
    rw [if_neg (by omega), h3, if_pos hm]
  obtain ⟨r1, k1, k2⟩ := brun_reads1 (c := c) (bad := bad) (p := p) (w1 := w1) (mx := Blk.zero) c.disks 0
    (B1.setPc p (.read1 0 w1 [] Ballot.emptyBuf Blk.zero)) [] (by omega) (by simp) (by
      intro x hx q hq
      simp only [Ballot.setPc_dblock, Ballot.setPc_disk, hb1]
      rw [h4.disk]
      split
      · rw [hpr]; simp [Ballot.phase1Blk, Blk.zero]
      · have := hold x hx q hq
        simp [Ballot.phase1Blk, this])
  simp only [List.length_nil, Nat.zero_add] at k2
  rw [setPc_setPc] at k1
  let K : Blk := ⟨n, m, m, p + 1, g, now⟩
  let B3 : Ballot.State := { (B1.setPc p (.read1 c.disks w1 r1 Ballot.emptyBuf Blk.zero)).setProc p ⟨.write2 0 w1 [], K, g⟩ with
    votes := ⟨p, n, m, K.val, w1⟩ :: B1.votes }
  have s4 : Ballot.step c (B1.setPc p (.read1 c.disks w1 r1 Ballot.emptyBuf Blk.zero)) (.readsDone p now) = some B3 := by
    simp only [Ballot.step, setPc_self]
    rw [if_neg (by omega), k2, if_pos hm, hb1, hg1]
    rfl
  have hB3 : B3.proc p = ⟨.write2 0 w1 [], K, g⟩ := by simp [B3, Ballot.State.setProc]
  obtain ⟨B4, w2, j1, j2, j3, j4⟩ := brun_write2 (c := c) (bad := bad) (p := p) c.disks 0 B3 w1 [] (by omega) (by rw [hB3])
  have hb4 := j4.blk
  rw [hB3] at hb4
  simp only [List.length_nil, Nat.zero_add] at j3
  have s6 : Ballot.step c B4 (.writesDone p) = some (B4.setPc p (.read2 0 w1 w2 [] Ballot.emptyBuf)) := by
    simp only [Ballot.step, j2]
    rw [if_neg (by omega), j3, if_pos hm]
  obtain ⟨r2, i1, i2⟩ := brun_reads2 (c := c) (bad := bad) (p := p) (w1 := w1) (w := w2) c.disks 0
    (B4.setPc p (.read2 0 w1 w2 [] Ballot.emptyBuf)) [] (by omega) (by simp) (by
      intro x hx q hq
      simp only [Ballot.setPc_dblock, Ballot.setPc_disk, hb4]
      rw [j4.disk, hB3]
      split
      · simp [Ballot.phase2Blk, K]
      · have : B3.disk x q = B1.disk x q := rfl
        rw [this, h4.disk, hpr]
        split
        · simp [Ballot.phase2Blk, K]
        · have := hold x hx q hq
          simp [Ballot.phase2Blk, K, this])
  simp only [List.length_nil, Nat.zero_add] at i2
  rw [setPc_setPc] at i1
  have s8 : Ballot.step c (B4.setPc p (.read2 c.disks w1 w2 r2 Ballot.emptyBuf)) (.readsDone p now) = some (B4.setPc p (.won w1 w2)) := by
    simp only [Ballot.step, setPc_self]
    rw [if_neg (by omega), i2, if_pos hm, setPc_setPc]
  refine ⟨B4.setPc p (.won w1 w2), w1, w2, ?_, by simp, by simp [hb4, K]⟩
  simp only [bPhase, List.append_assoc]
  rw [brun_append h1, List.singleton_append, brun_step s2, brun_append k1, List.singleton_append, brun_step s4,
    brun_append j1, List.singleton_append, brun_step s6, brun_append i1, brun_step s8]
  rfl

/-! ## The lease -/

theorem upd_self {α : Type} (f : Nat → α) (p : Nat) : upd f p (f p) = f := by
  funext x
  rw [Sanlock.Lease.upd_apply]
  split
  · rename_i h; rw [h]
  · rfl

theorem setHost_setHost (s : State) (p : Nat) (a b : Host) : (s.setHost p a).setHost p b = s.setHost p b := by
  simp only [State.setHost, upd_upd]

/-- Reading the disks. -/
theorem run_reads {c : Cfg} {bad : Bad} {p : Nat} (n : Nat) : ∀ (k : Nat) (s : State) (got : List Got), k + n = c.disks →
    (s.host p).ph = .call k got →
    run c s ((List.range' k n).map fun d => .readDisk p (!bad d)) = some (s.setPh p (.call c.disks
      (got ++ ((List.range' k n).filter fun d => !bad d).map fun d => ⟨d, s.ldr d, (s.B.disk d p).mbal⟩))) := by
  induction n with
  | zero =>
    intro k s got hk hph
    simp only [List.range'_zero, List.map_nil, run, List.filter_nil, List.append_nil, Option.some.injEq]
    rw [show c.disks = k by omega, ← hph, setPh_same (by rw [hph]; rfl)]
    simp only [State.setHost, upd_self]
  | succ n ih =>
    intro k s got hk hph
    have h0 : (s.host p).ph.own = 0 := by rw [hph]; rfl
    simp only [List.range'_succ, List.map_cons]
    have hs : step c s (.readDisk p (!bad k)) = some (s.setPh p (.call (k + 1)
        (if (!bad k) = true then got ++ [⟨k, s.ldr k, (s.B.disk k p).mbal⟩] else got))) := by
      simp only [step, hph]
      rw [if_pos (by omega)]
    rw [run_step hs]
    have := ih (k + 1) (s.setPh p (.call (k + 1) (if (!bad k) = true then got ++ [⟨k, s.ldr k, (s.B.disk k p).mbal⟩] else got)))
      (if (!bad k) = true then got ++ [⟨k, s.ldr k, (s.B.disk k p).mbal⟩] else got) (by omega) (by simp [State.setPh, setHost_self])
    rw [this]
    rw [setPh_same (s := s) h0, setPh_same (s := s) h0, setPh_same (by rw [setHost_self]; rfl), setHost_setHost, setHost_self]
    simp only [Option.some.injEq]
    congr 3
    cases hb : bad k
    · simp [hb, State.setHost]
    · simp [hb, State.setHost]

/-- Reading the disks again before the ballot. -/
theorem run_readsAgain {c : Cfg} {bad : Bad} {p mb : Nat} {cur : Rec} (n : Nat) : ∀ (k : Nat) (s : State) (got : List Got),
    k + n = c.disks → (s.host p).ph = .again cur mb k got →
    run c s ((List.range' k n).map fun d => .readDisk p (!bad d)) = some (s.setPh p (.again cur mb c.disks
      (got ++ ((List.range' k n).filter fun d => !bad d).map fun d => ⟨d, s.ldr d, 0⟩))) := by
  induction n with
  | zero =>
    intro k s got hk hph
    simp only [List.range'_zero, List.map_nil, run, List.filter_nil, List.append_nil, Option.some.injEq]
    rw [show c.disks = k by omega, ← hph, setPh_same (by rw [hph]; rfl)]
    simp only [State.setHost, upd_self]
  | succ n ih =>
    intro k s got hk hph
    have h0 : (s.host p).ph.own = 0 := by rw [hph]; rfl
    simp only [List.range'_succ, List.map_cons]
    have hs : step c s (.readDisk p (!bad k)) = some (s.setPh p (.again cur mb (k + 1)
        (if (!bad k) = true then got ++ [⟨k, s.ldr k, 0⟩] else got))) := by
      simp only [step, hph]
      rw [if_pos (by omega)]
    rw [run_step hs]
    have := ih (k + 1) (s.setPh p (.again cur mb (k + 1) (if (!bad k) = true then got ++ [⟨k, s.ldr k, 0⟩] else got)))
      (if (!bad k) = true then got ++ [⟨k, s.ldr k, 0⟩] else got) (by omega) (by simp [State.setPh, setHost_self])
    rw [this]
    rw [setPh_same (s := s) h0, setPh_same (s := s) h0, setPh_same (by rw [setHost_self]; rfl), setHost_setHost, setHost_self]
    simp only [Option.some.injEq]
    congr 3
    cases hb : bad k
    · simp [hb, State.setHost]
    · simp [hb, State.setHost]

/-- Writing the leader record. -/
theorem run_commits {c : Cfg} {bad : Bad} {p : Nat} {l : Rec} (n : Nat) : ∀ (k : Nat) (s : State) (w : List Nat) (lg : Bool),
    k + n = c.disks → (s.host p).ph = .commit l k w lg →
    ∃ s' w' lg', run c s ((List.range' k n).map fun d => .commitWrite p (wr bad d)) = some s' ∧
      (s'.host p).ph = .commit l c.disks w' lg' ∧ w'.length = w.length + good bad (List.range' k n) ∧
      ∀ x, s'.ldr x = if k ≤ x ∧ x < c.disks ∧ bad x = false then l else s.ldr x := by
  induction n with
  | zero =>
    intro k s w lg hk hph
    refine ⟨s, w, lg, rfl, by rw [hph]; simp only [Ph.commit.injEq, true_and, and_true]; omega, by simp [good], ?_⟩
    intro x
    rw [if_neg (by omega)]
  | succ n ih =>
    intro k s w lg hk hph
    simp only [List.range'_succ, List.map_cons]
    cases hb : bad k with
    | true =>
      have hs : step c s (.commitWrite p (wr bad k)) = some (s.setHost p { s.host p with ph := .commit l (k + 1) w lg }) := by
        simp only [step, hph, wr, hb, if_true, lands]
        rw [if_pos (by omega)]
        rfl
      obtain ⟨s', w', lg', h1, h2, h3, h4⟩ := ih (k + 1) (s.setHost p { s.host p with ph := .commit l (k + 1) w lg }) w lg (by omega)
        (by rw [setHost_self])
      refine ⟨s', w', lg', by rw [run_step hs]; exact h1, h2, by rw [h3, good_cons, hb]; simp, ?_⟩
      intro x
      rw [h4]
      by_cases hx : x = k
      · subst hx; simp [hb, State.setHost]
      · have : (k + 1 ≤ x) ↔ (k ≤ x) := by omega
        simp [this, State.setHost]
    | false =>
      have hldr : ∀ s1 : State, s1.ldr = (s.putLdr k l).ldr → ∀ x, (if k + 1 ≤ x ∧ x < c.disks ∧ bad x = false then l else s1.ldr x) =
          if k ≤ x ∧ x < c.disks ∧ bad x = false then l else s.ldr x := by
        intro s1 e x
        rw [e, putLdr_ldr]
        by_cases hx : x = k
        · subst hx
          rw [if_neg (by omega), if_pos rfl, if_pos ⟨Nat.le_refl _, by omega, hb⟩]
        · have : (k + 1 ≤ x) ↔ (k ≤ x) := by omega
          simp [this, hx]
      by_cases hcond : lg = false ∧ full c (s.putLdr k l) l.lver = true
      · have hs : step c s (.commitWrite p (wr bad k)) =
            some (((s.putLdr k l).log c p).setPh p (.commit l (k + 1) (k :: w) true)) := by
          simp only [step, hph, wr, hb, lands, Bool.false_eq_true, if_false]
          rw [if_pos (by omega), if_pos trivial, if_pos hcond]
          rfl
        obtain ⟨s', w', lg', h1, h2, h3, h4⟩ := ih (k + 1) (((s.putLdr k l).log c p).setPh p (.commit l (k + 1) (k :: w) true))
          (k :: w) true (by omega) (by simp [State.setPh, setHost_self])
        refine ⟨s', w', lg', by rw [run_step hs]; exact h1, h2, by rw [h3, good_cons, hb]; simp; omega, ?_⟩
        intro x
        rw [h4]
        refine hldr _ ?_ x
        simp only [State.setPh, State.setHost, State.log]
        split <;> rfl
      · have hs : step c s (.commitWrite p (wr bad k)) =
            some ((s.putLdr k l).setHost p { s.host p with ph := .commit l (k + 1) (k :: w) lg }) := by
          simp only [step, hph, wr, hb, lands, Bool.false_eq_true, if_false]
          rw [if_pos (by omega), if_pos trivial, if_neg hcond]
          rfl
        obtain ⟨s', w', lg', h1, h2, h3, h4⟩ := ih (k + 1) ((s.putLdr k l).setHost p { s.host p with ph := .commit l (k + 1) (k :: w) lg })
          (k :: w) lg (by omega) (by rw [setHost_self])
        refine ⟨s', w', lg', by rw [run_step hs]; exact h1, h2, by rw [h3, good_cons, hb]; simp; omega, ?_⟩
        intro x
        rw [h4]
        exact hldr _ rfl x

/-- The record on a majority of the disks does not depend on the ballot numbers read with it. -/
theorem pick_map {n : Nat} {ds : List Nat} {f : Nat → Rec} {m m' : Nat → Nat} :
    pick n (ds.map fun d => ⟨d, f d, m d⟩) = pick n (ds.map fun d => ⟨d, f d, m' d⟩) := by
  simp only [pick, List.find?_map, List.countP_map, Option.map_map]
  rfl

theorem lastOk_filter {n : Nat} {bad : Bad} {f : Nat → Rec} {m : Nat → Nat} (hn : 0 < n) (h : bad (n - 1) = false) :
    lastOk n (((List.range' 0 n).filter fun d => !bad d).map fun d => ⟨d, f d, m d⟩) = true := by
  obtain ⟨k, rfl⟩ : ∃ k, n = k + 1 := ⟨n - 1, by omega⟩
  simp only [Nat.add_sub_cancel] at h
  rw [List.range'_concat, List.filter_append]
  simp [lastOk, h]

theorem map_phase1 (c : Cfg) (bad : Bad) (p now : Nat) : (bPhase c bad p now).map (.bal p) = phase1 c bad p now := by
  simp only [bPhase, phase1, List.map_append, bWrites, ballotWrites, bReads, ballotReads, List.map_map, List.map_flatMap, List.map_cons,
    List.map_nil]
  congr 3
  funext d
  simp only [bRead, ballotRead]
  split
  · rfl
  · simp [Function.comp_def]

theorem balHost_phase {c : Cfg} {bad : Bad} {p now : Nat} : ∀ a ∈ bPhase c bad p now, balHost a = some p := by
  intro a ha
  simp only [bPhase, List.mem_append, List.mem_singleton, bWrites, bReads, List.mem_map, List.mem_flatMap] at ha
  rcases ha with ((⟨d, _, rfl⟩ | rfl) | ⟨d, _, ha⟩) | rfl
  · rfl
  · rfl
  · simp only [bRead] at ha
    split at ha
    · simp only [List.mem_singleton] at ha; rw [ha]; rfl
    · simp only [List.mem_append, List.mem_map, List.mem_singleton] at ha
      rcases ha with ⟨q, _, rfl⟩ | rfl <;> rfl
  · rfl

/-- The ballot and the new leader record, without interference, with a majority of the disks. -/
theorem run_rest {c : Cfg} {bad : Bad} {p now mb : Nat} {s4 : State} {r : Rec} (hph4 : (s4.host p).ph = .ballot r mb)
    (hm : majority c.disks (good bad (List.range' 0 c.disks)) = true)
    (hpr : s4.B.proc p = ⟨.write1 0 [], { Blk.zero with lver := r.lver + 1, mbal := mb }, (s4.host p).gen⟩)
    (hold : ∀ x < c.disks, ∀ q < c.hosts, (s4.B.disk x q).lver ≤ r.lver) :
    ∃ s' l, run c s4 (ballotAndCommit c bad p now) = some s' ∧ (s'.host p).ph = .held l ∧ l.lver = r.lver + 1 ∧ l.owner = p + 1 ∧
      l.gen = (s4.host p).gen ∧ ∀ x < c.disks, bad x = false → s'.ldr x = l := by
  obtain ⟨B5, w1, w, h5, hpc5, hblk5⟩ := brun_ballot (c := c) (bad := bad) (p := p) (now := now) (n := r.lver + 1) (m := mb)
    (g := (s4.host p).gen) (B := s4.B) hm hpr (by
      intro x hx q hq
      have := hold x hx q hq
      omega)
  obtain ⟨f, h6⟩ := run_bal hph4 (as := bPhase c bad p now ++ bPhase c bad p now) (by
    intro a ha
    rcases List.mem_append.mp ha with h | h <;> exact balHost_phase a h) h5
  rw [List.map_append, map_phase1] at h6
  let L : Rec := newLeader ⟨r.lver + 1, mb, mb, p + 1, (s4.host p).gen, now⟩ p (s4.host p).gen now
  let s6 : State := { s4 with B := B5, flag := f }
  have h7 : step c s6 (.commitStart p now) = some (s6.setPh p (.commit L 0 [] false)) := by
    simp only [step, show (s6.host p).ph = .ballot r mb from hph4, show (s6.B.proc p).pc = .won w1 w from hpc5]
    rw [show (s6.B.proc p).dblock = _ from hblk5]
  obtain ⟨s8, w8, lg8, h8, hph8, hw8, hl8⟩ := run_commits (c := c) (bad := bad) (p := p) (l := L) c.disks 0 (s6.setPh p (.commit L 0 [] false))
    [] false (by omega) (by simp [State.setPh, setHost_self])
  simp only [List.length_nil, Nat.zero_add] at hw8
  have h9 : step c s8 (.commitEnd p) = some ((if lg8 then s8 else s8.log c p).setHost p { s8.host p with ph := .held L }) := by
    simp only [step, hph8]
    rw [if_neg (by omega), hw8, if_pos hm, if_pos (show L.owner = p + 1 from rfl)]
  refine ⟨(if lg8 then s8 else s8.log c p).setHost p { s8.host p with ph := .held L }, L, ?_, ?_, rfl, rfl, rfl, ?_⟩
  · simp only [ballotAndCommit, commits, List.append_assoc]
    rw [← List.append_assoc, run_app h6]
    refine (run_step h7).trans ?_
    refine (run_app h8).trans ?_
    exact (run_step h9).trans rfl
  · rw [setHost_self]
  · intro x hx hb
    have : ((if lg8 then s8 else s8.log c p).setHost p { s8.host p with ph := .held L }).ldr x = s8.ldr x := by
      simp only [State.setHost, State.log]
      split
      · rfl
      · split <;> rfl
    rw [this, hl8, if_pos ⟨Nat.zero_le _, hx, hb⟩]

/-- `begin` and the reads of the disks. -/
theorem run_begin {c : Cfg} {bad : Bad} {p : Nat} {s : State} (hph : (s.host p).ph = .idle) (hal : (s.host p).alive = true)
    (hp : p < c.hosts) : run c s ([.begin p] ++ reads c bad p) = some (s.setHost p { s.host p with
      ph := .call c.disks (((List.range' 0 c.disks).filter fun d => !bad d).map fun d => ⟨d, s.ldr d, (s.B.disk d p).mbal⟩) }) := by
  have h1 : step c s (.begin p) = some (s.setPh p (.call 0 [])) := by
    simp only [step, hph]; rw [if_pos ⟨hal, hp⟩]
  have e1 : s.setPh p (.call 0 []) = s.setHost p { s.host p with ph := .call 0 [] } := setPh_same (by rw [hph]; rfl)
  rw [e1] at h1
  have h2 := run_reads (c := c) (bad := bad) (p := p) c.disks 0 (s.setHost p { s.host p with ph := .call 0 [] }) [] (by omega)
    (by rw [setHost_self])
  have e2 : ∀ ph, (s.setHost p { s.host p with ph := .call 0 [] }).setPh p ph = s.setHost p { s.host p with ph := ph } := by
    intro ph
    rw [setPh_same (by rw [setHost_self]; rfl), setHost_setHost, setHost_self]
  rw [e2] at h2
  exact (run_step h1).trans h2

/-- An acquire of a free lease without interference, with a majority of the disks, among them the last one. -/
theorem run_acquire {c : Cfg} {bad : Bad} {p max now : Nat} {s : State} {r : Rec} (hd : 0 < c.disks)
    (hph : (s.host p).ph = .idle) (hal : (s.host p).alive = true) (hp : p < c.hosts) (hpc : (s.B.proc p).pc = .idle)
    (hm : majority c.disks (good bad (List.range' 0 c.disks)) = true) (hlast : bad (c.disks - 1) = false)
    (hr : pick c.disks (((List.range' 0 c.disks).filter fun d => !bad d).map fun d => ⟨d, s.ldr d, 0⟩) = some r) (hts : r.ts = 0)
    (hold : ∀ x < c.disks, ∀ q < c.hosts, (s.B.disk x q).lver ≤ r.lver) (hmax : ∀ x < c.disks, (s.B.disk x p).mbal ≤ max) :
    ∃ s' l, run c s (acquire c bad p max now) = some s' ∧ (s'.host p).ph = .held l ∧ l.lver = r.lver + 1 ∧ l.owner = p + 1 ∧
      l.gen = (s.host p).gen ∧ ∀ x < c.disks, bad x = false → s'.ldr x = l := by
  have h2 := run_begin (c := c) (bad := bad) hph hal hp
  have hr' : pick c.disks (((List.range' 0 c.disks).filter fun d => !bad d).map fun d => ⟨d, s.ldr d, (s.B.disk d p).mbal⟩) = some r := by
    rw [← hr]; exact pick_map
  let mb := Ballot.ourMbal max c.maxHosts (p + 1)
  let H1 : Host := { s.host p with ph := .run r mb true, relv := Max.max (s.host p).relv r.lver }
  have h3 : step c (s.setHost p { s.host p with ph := .call c.disks (((List.range' 0 c.disks).filter fun d => !bad d).map
      fun d => ⟨d, s.ldr d, (s.B.disk d p).mbal⟩) }) (.readEnd p max) = some (s.setHost p H1) := by
    simp only [step, setHost_self]
    rw [if_neg (by omega), lastOk_filter hd hlast, if_neg (by decide)]
    simp only [hr']
    rw [if_pos ?_, if_pos (.inl hts), setHost_setHost]
    · simp only [List.all_eq_true, List.mem_map, List.mem_filter, decide_eq_true_eq]
      rintro g ⟨d, ⟨hd', _⟩, rfl⟩
      have := List.mem_range'_1.mp hd'
      exact hmax d (by omega)
  let B1 : Ballot.State := s.B.setProc p ⟨.write1 0 [], { Blk.zero with lver := r.lver + 1, mbal := mb }, (s.host p).gen⟩
  let s4 : State := ({ s with B := B1 } : State).setHost p { H1 with ph := .ballot r mb }
  have h4 : step c (s.setHost p H1) (.check p) = some s4 := by
    simp only [step, setHost_self, H1, decideRun]
    rw [if_neg (by omega), if_neg (by simp)]
    have hb : Ballot.step c s.B (.start p (r.lver + 1) mb (s.host p).gen) = some B1 := by
      simp only [Ballot.step, hpc]; rw [if_pos hp]
    have hb' : Ballot.step c (s.setHost p { s.host p with ph := .run r mb true, relv := Max.max (s.host p).relv r.lver }).B
      (.start p (r.lver + 1) mb (s.host p).gen) = some B1 := hb
    rw [hb']
    simp only [Option.some.injEq]
    rw [setPh_same (by show ((s.setHost p _).host p).ph.own = 0; rw [setHost_self]; rfl)]
    show (({ s with B := B1 } : State).setHost p _).setHost p _ = _
    rw [setHost_setHost]
    simp only [setHost_self]
    rfl
  have hg4 : (s4.host p).gen = (s.host p).gen := by simp only [s4, setHost_self, H1]
  obtain ⟨s', l, k1, k2, k3, k4, k5, k6⟩ := run_rest (c := c) (bad := bad) (p := p) (now := now) (s4 := s4) (r := r) (mb := mb)
    (by simp only [s4, setHost_self]) hm (by rw [hg4]; simp [s4, B1, State.setHost, Ballot.State.setProc]) hold
  refine ⟨s', l, ?_, k2, k3, k4, k5.trans hg4, k6⟩
  simp only [acquire, List.append_assoc]
  rw [← List.append_assoc]
  refine (run_app h2).trans ?_
  refine (run_step h3).trans ?_
  refine (run_step h4).trans ?_
  exact k1

/-- Taking over the lease of a host that is gone, without interference, with a majority of the disks, among them the last one. -/
theorem run_takeOver {c : Cfg} {bad : Bad} {p max now : Nat} {s : State} {r : Rec} (hd : 0 < c.disks)
    (hph : (s.host p).ph = .idle) (hal : (s.host p).alive = true) (hp : p < c.hosts) (hpc : (s.B.proc p).pc = .idle)
    (hm : majority c.disks (good bad (List.range' 0 c.disks)) = true) (hlast : bad (c.disks - 1) = false)
    (hr : pick c.disks (((List.range' 0 c.disks).filter fun d => !bad d).map fun d => ⟨d, s.ldr d, 0⟩) = some r) (hts : r.ts ≠ 0)
    (hown : r.owner ≠ p + 1)
    (hold : ∀ x < c.disks, ∀ q < c.hosts, (s.B.disk x q).lver ≤ r.lver) (hmax : ∀ x < c.disks, (s.B.disk x p).mbal ≤ max) :
    ∃ s' l, run c s (takeOver c bad p max now) = some s' ∧ (s'.host p).ph = .held l ∧ l.lver = r.lver + 1 ∧ l.owner = p + 1 ∧
      l.gen = (s.host p).gen ∧ ∀ x < c.disks, bad x = false → s'.ldr x = l := by
  have h2 := run_begin (c := c) (bad := bad) hph hal hp
  have hr' : pick c.disks (((List.range' 0 c.disks).filter fun d => !bad d).map fun d => ⟨d, s.ldr d, (s.B.disk d p).mbal⟩) = some r := by
    rw [← hr]; exact pick_map
  let mb := Ballot.ourMbal max c.maxHosts (p + 1)
  let H1 : Host := { s.host p with ph := .wait r max, relv := Max.max (s.host p).relv r.lver }
  have h3 : step c (s.setHost p { s.host p with ph := .call c.disks (((List.range' 0 c.disks).filter fun d => !bad d).map
      fun d => ⟨d, s.ldr d, (s.B.disk d p).mbal⟩) }) (.readEnd p max) = some (s.setHost p H1) := by
    simp only [step, setHost_self]
    rw [if_neg (by omega), lastOk_filter hd hlast, if_neg (by decide)]
    simp only [hr']
    rw [if_pos ?_, if_neg (fun h => h.elim hts fun h => hown h.1), setHost_setHost]
    · simp only [List.all_eq_true, List.mem_map, List.mem_filter, decide_eq_true_eq]
      rintro g ⟨d, ⟨hd', _⟩, rfl⟩
      have := List.mem_range'_1.mp hd'
      exact hmax d (by omega)
  have h4 : step c (s.setHost p H1) (.ownerGone p) = some (s.setHost p { H1 with ph := .run r mb false }) := by
    simp only [step, setHost_self, H1]
    rw [setPh_same (by rw [setHost_self]; rfl), setHost_setHost, setHost_self]
  have h5 : step c (s.setHost p { H1 with ph := .run r mb false }) (.check p) = some (s.setHost p { H1 with ph := .again r mb 0 [] }) := by
    simp only [step, setHost_self]
    rw [setPh_same (by rw [setHost_self]; rfl), setHost_setHost, setHost_self]
  have h6 := run_readsAgain (c := c) (bad := bad) (p := p) (mb := mb) (cur := r) c.disks 0 (s.setHost p { H1 with ph := .again r mb 0 [] }) []
    (by omega) (by rw [setHost_self])
  have e6 : ∀ ph, (s.setHost p { H1 with ph := .again r mb 0 [] }).setPh p ph = s.setHost p { H1 with ph := ph } := by
    intro ph
    rw [setPh_same (by rw [setHost_self]; rfl), setHost_setHost, setHost_self]
  rw [e6] at h6
  let B1 : Ballot.State := s.B.setProc p ⟨.write1 0 [], { Blk.zero with lver := r.lver + 1, mbal := mb }, (s.host p).gen⟩
  let s4 : State := ({ s with B := B1 } : State).setHost p { H1 with ph := .ballot r mb }
  have h7 : step c (s.setHost p { H1 with ph := .again r mb c.disks (((List.range' 0 c.disks).filter fun d => !bad d).map
      fun d => ⟨d, s.ldr d, 0⟩) }) (.againEnd p) = some s4 := by
    simp only [step, setHost_self]
    rw [if_neg (by omega)]
    simp only [hr, decideRun]
    rw [if_neg (by omega), if_neg (by simp)]
    have hb : Ballot.step c s.B (.start p (r.lver + 1) mb (s.host p).gen) = some B1 := by
      simp only [Ballot.step, hpc]; rw [if_pos hp]
    simp only [setHost_self]
    show (match Ballot.step c s.B (.start p (r.lver + 1) mb (s.host p).gen) with | none => _ | some B' => _) = _
    rw [hb]
    simp only [Option.some.injEq]
    rw [setPh_same (by show ((s.setHost p _).host p).ph.own = 0; rw [setHost_self]; rfl)]
    show (({ s with B := B1 } : State).setHost p _).setHost p _ = _
    rw [setHost_setHost]
    simp only [setHost_self]
    rfl
  have hg4 : (s4.host p).gen = (s.host p).gen := by simp only [s4, setHost_self, H1]
  obtain ⟨s', l, k1, k2, k3, k4, k5, k6⟩ := run_rest (c := c) (bad := bad) (p := p) (now := now) (s4 := s4) (r := r) (mb := mb)
    (by simp only [s4, setHost_self]) hm (by rw [hg4]; simp [s4, B1, State.setHost, Ballot.State.setProc]) hold
  refine ⟨s', l, ?_, k2, k3, k4, k5.trans hg4, k6⟩
  simp only [takeOver, List.append_assoc]
  rw [← List.append_assoc]
  refine (run_app h2).trans ?_
  refine (run_step h3).trans ?_
  refine (run_step h4).trans ?_
  refine (run_step h5).trans ?_
  refine (run_app h6).trans ?_
  refine (run_step h7).trans ?_
  exact k1

/-- Reading the disks in the release. -/
theorem run_readsRel {c : Cfg} {bad : Bad} {p : Nat} {last : Option Rec} (n : Nat) : ∀ (k : Nat) (s : State) (got : List Got),
    k + n = c.disks → (s.host p).ph = .rel last k got →
    run c s ((List.range' k n).map fun d => .readDisk p (!bad d)) = some (s.setPh p (.rel last c.disks
      (got ++ ((List.range' k n).filter fun d => !bad d).map fun d => ⟨d, s.ldr d, 0⟩))) := by
  induction n with
  | zero =>
    intro k s got hk hph
    simp only [List.range'_zero, List.map_nil, run, List.filter_nil, List.append_nil, Option.some.injEq]
    rw [show c.disks = k by omega, ← hph, setPh_same (by rw [hph]; rfl)]
    simp only [State.setHost, upd_self]
  | succ n ih =>
    intro k s got hk hph
    have h0 : (s.host p).ph.own = 0 := by rw [hph]; rfl
    simp only [List.range'_succ, List.map_cons]
    have hs : step c s (.readDisk p (!bad k)) = some (s.setPh p (.rel last (k + 1)
        (if (!bad k) = true then got ++ [⟨k, s.ldr k, 0⟩] else got))) := by
      simp only [step, hph]
      rw [if_pos (by omega)]
    rw [run_step hs]
    have := ih (k + 1) (s.setPh p (.rel last (k + 1) (if (!bad k) = true then got ++ [⟨k, s.ldr k, 0⟩] else got)))
      (if (!bad k) = true then got ++ [⟨k, s.ldr k, 0⟩] else got) (by omega) (by simp [State.setPh, setHost_self])
    rw [this]
    rw [setPh_same (s := s) h0, setPh_same (s := s) h0, setPh_same (by rw [setHost_self]; rfl), setHost_setHost, setHost_self]
    simp only [Option.some.injEq]
    congr 3
    cases hb : bad k
    · simp [hb, State.setHost]
    · simp [hb, State.setHost]

/-- Writing the released leader record. -/
theorem run_relWrites {c : Cfg} {bad : Bad} {p now : Nat} {l : Rec} (n : Nat) : ∀ (k : Nat) (s : State) (w : List Nat),
    k + n = c.disks → (s.host p).ph = .relW l k w →
    ∃ s' w', run c s ((List.range' k n).map fun d => .relWrite p (wr bad d) now) = some s' ∧
      (s'.host p).ph = .relW l c.disks w' ∧ w'.length = w.length + good bad (List.range' k n) ∧ (s'.host p).gen = (s.host p).gen ∧
      ∀ x, s'.ldr x = if k ≤ x ∧ x < c.disks ∧ bad x = false then
        { l with ts := 0, wid := p + 1, wgen := (s.host p).gen, wts := now } else s.ldr x := by
  induction n with
  | zero =>
    intro k s w hk hph
    refine ⟨s, w, rfl, by rw [hph]; simp only [Ph.relW.injEq, true_and, and_true]; omega, by simp [good], rfl, ?_⟩
    intro x
    rw [if_neg (by omega)]
  | succ n ih =>
    intro k s w hk hph
    simp only [List.range'_succ, List.map_cons]
    have hs : step c s (.relWrite p (wr bad k) now) = some ((if lands (wr bad k) = true then s.putLdr k
        { l with ts := 0, wid := p + 1, wgen := (s.host p).gen, wts := now } else s).setPh p
        (.relW l (k + 1) (if wr bad k = .ok then k :: w else w))) := by
      simp only [step, hph]
      rw [if_pos (by omega)]
    obtain ⟨s', w', h1, h2, h3, h4, h5⟩ := ih (k + 1) ((if lands (wr bad k) = true then s.putLdr k
        { l with ts := 0, wid := p + 1, wgen := (s.host p).gen, wts := now } else s).setPh p
        (.relW l (k + 1) (if wr bad k = .ok then k :: w else w))) (if wr bad k = .ok then k :: w else w) (by omega)
        (by simp [State.setPh, setHost_self])
    have hg : ((if lands (wr bad k) = true then s.putLdr k
        { l with ts := 0, wid := p + 1, wgen := (s.host p).gen, wts := now } else s).setPh p
        (.relW l (k + 1) (if wr bad k = .ok then k :: w else w)) |>.host p).gen = (s.host p).gen := by
      simp only [State.setPh, setHost_self]
      split <;> rfl
    refine ⟨s', w', (run_step hs).trans h1, h2, ?_, h4.trans hg, ?_⟩
    · rw [h3, good_cons]
      cases hb : bad k <;> simp [wr, hb] <;> omega
    · intro x
      rw [h5, hg]
      by_cases hx : k + 1 ≤ x ∧ x < c.disks ∧ bad x = false
      · rw [if_pos hx, if_pos ⟨by omega, hx.2⟩]
      · rw [if_neg hx]
        cases hb : bad k with
        | true =>
          have : ¬ (k ≤ x ∧ x < c.disks ∧ bad x = false) := by
            intro h
            by_cases hk' : x = k
            · rw [hk', hb] at h; simp at h
            · exact hx ⟨by omega, h.2⟩
          rw [if_neg this]
          simp [wr, hb, lands, State.setPh, State.setHost]
        | false =>
          by_cases hk' : x = k
          · rw [if_pos (show k ≤ x ∧ x < c.disks ∧ bad x = false from ⟨by omega, by omega, by rw [hk']; exact hb⟩)]
            simp [wr, hb, lands, State.setPh, State.setHost, State.putLdr, hk', Sanlock.Lease.upd_apply]
          · rw [if_neg (show ¬ (k ≤ x ∧ x < c.disks ∧ bad x = false) from fun h => hx ⟨by omega, h.2⟩)]
            simp [wr, hb, lands, State.setPh, State.setHost, State.putLdr, hk', Sanlock.Lease.upd_apply]

/-- The record that every readable disk has is found. -/
theorem pick_all {n : Nat} {ds : List Nat} {f : Nat → Rec} {l : Rec} (hm : majority n ds.length = true) (hl : ∀ d ∈ ds, f d = l) :
    pick n (ds.map fun d => ⟨d, f d, 0⟩) = some l := by
  cases ds with
  | nil => rw [majority_iff] at hm; simp at hm
  | cons d rest =>
    have h0 : ((d :: rest).map fun d => (⟨d, f d, 0⟩ : Got)).countP (fun h => same h.ldr (f d)) = (d :: rest).length := by
      rw [List.countP_map, List.countP_eq_length]
      intro x hx
      simp only [Function.comp, same, hl x hx, hl d (List.mem_cons_self ..), BEq.rfl, Bool.and_self]
    simp only [pick, List.map_cons, List.find?_cons]
    rw [List.map_cons] at h0
    rw [h0, hm]
    exact congrArg some (hl d (List.mem_cons_self ..))

/-- A release without interference. -/
theorem run_release {c : Cfg} {bad : Bad} {p now : Nat} {s : State} {l : Rec} (hph : (s.host p).ph = .held l)
    (hm : majority c.disks (good bad (List.range' 0 c.disks)) = true) (hl : ∀ x < c.disks, bad x = false → s.ldr x = l)
    (hts : l.ts ≠ 0) (hw : l.wid = p + 1) (ho : l.owner = p + 1) (hg : l.gen = (s.host p).gen) :
    ∃ s', run c s (releaseActs c bad p now) = some s' ∧ (s'.host p).ph = .idle ∧
      ∀ x < c.disks, bad x = false → (s'.ldr x).ts = 0 ∧ (s'.ldr x).lver = l.lver := by
  let s1 : State := ({ s with flag := if lands (wr bad 0) then upd s.flag p true else s.flag } : State).setPh p (.rel (some l) 0 [])
  have h1 : step c s (.release p (wr bad 0)) = some s1 := by
    simp only [step, hph, s1]
  have h2 := run_readsRel (c := c) (bad := bad) (p := p) (last := some l) c.disks 0 s1 [] (by omega) (by simp [s1, State.setPh, setHost_self])
  simp only [List.nil_append] at h2
  have hpick : pick c.disks (((List.range' 0 c.disks).filter fun d => !bad d).map fun d => ⟨d, s.ldr d, 0⟩) = some l := by
    refine pick_all ?_ ?_
    · rw [← List.countP_eq_length_filter]; exact hm
    · intro d hd
      obtain ⟨k1, k2⟩ := List.mem_filter.mp hd
      have := List.mem_range'_1.mp k1
      exact hl d (by omega) (by simpa using k2)
  let s2 := s1.setPh p (.rel (some l) c.disks (((List.range' 0 c.disks).filter fun d => !bad d).map fun d => ⟨d, s.ldr d, 0⟩))
  have hg2 : (s2.host p).gen = (s.host p).gen := by simp [s2, s1, State.setPh, setHost_self]
  have h3 : step c s2 (.relEnd p) = some (s2.setHost p { s2.host p with ph := .relW l 0 [], relv := Max.max (s2.host p).relv l.lver }) := by
    have e : (s2.host p).ph = .rel (some l) c.disks (((List.range' 0 c.disks).filter fun d => !bad d).map fun d => ⟨d, s.ldr d, 0⟩) := by
      simp [s2, State.setPh, setHost_self]
    simp only [step, e]
    rw [if_neg (by omega)]
    simp only [hpick, Option.getD_some]
    rw [if_neg (by simp [hw]), if_neg (by simp), if_neg hts, if_neg (by rw [hg2]; simp [ho, hg]), if_neg (by simp)]
  obtain ⟨s4, w4, h4, hph4, hw4, _, hl4⟩ := run_relWrites (c := c) (bad := bad) (p := p) (now := now) (l := l) c.disks 0
    (s2.setHost p { s2.host p with ph := .relW l 0 [], relv := Max.max (s2.host p).relv l.lver }) [] (by omega) (by rw [setHost_self])
  simp only [List.length_nil, Nat.zero_add] at hw4
  have h5 : step c s4 (.relWEnd p) = some (s4.setPh p .idle) := by
    simp only [step, hph4]
    rw [if_neg (by omega), hw4, if_pos hm]
  refine ⟨s4.setPh p .idle, ?_, by simp [State.setPh, setHost_self], ?_⟩
  · simp only [releaseActs, List.append_assoc]
    refine (run_step h1).trans ?_
    refine (run_app h2).trans ?_
    refine (run_step h3).trans ?_
    refine (run_app h4).trans ?_
    exact (run_step h5).trans rfl
  · intro x hx hb
    have : (s4.setPh p .idle).ldr x = s4.ldr x := rfl
    rw [this, hl4, if_pos ⟨Nat.zero_le _, hx, hb⟩]
    exact ⟨rfl, rfl⟩

/-! ## A lease that nobody can acquire any more -/

/-- No record is the same on a majority of the disks. -/
def NoMajority (c : Cfg) (ldr : Nat → Rec) : Prop :=
  ∀ d < c.disks, majority c.disks ((List.range c.disks).countP fun e => same (ldr e) (ldr d)) = false

/-- All hosts are idle or reading the disks. -/
structure Still (c : Cfg) (ldr : Nat → Rec) (s : State) : Prop where
  disks : s.ldr = ldr
  ph : ∀ p, (s.host p).ph = .idle ∨ ∃ d got, (s.host p).ph = .call d got ∧ (got.map (·.disk)).Nodup ∧
    (∀ g ∈ got, g.disk < d ∧ g.ldr = ldr g.disk) ∧ d ≤ c.disks

theorem pick_none {c : Cfg} {ldr : Nat → Rec} (h : NoMajority c ldr) {got : List Got} (hn : (got.map (·.disk)).Nodup)
    (hg : ∀ g ∈ got, g.disk < c.disks ∧ g.ldr = ldr g.disk) : pick c.disks got = none := by
  simp only [pick, Option.map_eq_none_iff, List.find?_eq_none]
  intro g hgm hmaj
  obtain ⟨hd, hl⟩ := hg g hgm
  have h1 := h g.disk hd
  rw [majority_iff] at hmaj
  have h2 : ((got.filter fun h => same h.ldr g.ldr).map (·.disk)).length ≤
      ((List.range c.disks).filter fun e => same (ldr e) (ldr g.disk)).length := by
    refine length_le_of_mem (List.Nodup.sublist (List.Sublist.map _ List.filter_sublist) hn) ?_
    intro x hx
    obtain ⟨k, hk, rfl⟩ := List.mem_map.mp hx
    obtain ⟨k1, k2⟩ := List.mem_filter.mp hk
    obtain ⟨k3, k4⟩ := hg k k1
    exact List.mem_filter.mpr ⟨List.mem_range.mpr k3, by rw [← k4, ← hl]; exact k2⟩
  rw [List.length_map, ← List.countP_eq_length_filter, ← List.countP_eq_length_filter] at h2
  have h3 : majority c.disks ((List.range c.disks).countP fun e => same (ldr e) (ldr g.disk)) = true := majority_iff.mpr (by omega)
  rw [h3] at h1
  exact absurd h1 (by decide)

theorem still_setPh {c : Cfg} {ldr : Nat → Rec} {s s' : State} {p : Nat} (h : Still c ldr s) (hl : s'.ldr = s.ldr)
    (hh : ∀ q, q ≠ p → (s'.host q).ph = (s.host q).ph) (hp : (s'.host p).ph = .idle ∨ ∃ d got, (s'.host p).ph = .call d got ∧
      (got.map (·.disk)).Nodup ∧ (∀ g ∈ got, g.disk < d ∧ g.ldr = ldr g.disk) ∧ d ≤ c.disks) : Still c ldr s' := by
  refine ⟨hl.trans h.disks, fun q => ?_⟩
  by_cases hq : q = p
  · rw [hq]; exact hp
  · rw [hh q hq]; exact h.ph q

theorem still_step {c : Cfg} {ldr : Nat → Rec} {s s' : State} {a : Act} (hno : NoMajority c ldr) (h : Still c ldr s)
    (hs : step c s a = some s') : Still c ldr s' := by
  have set1 : ∀ p ph, ((s.setPh p ph).host p).ph = ph := fun p ph => by simp [State.setPh, setHost_self]
  have set2 : ∀ p q ph, q ≠ p → ((s.setPh p ph).host q).ph = (s.host q).ph := fun p q ph hq => by
    simp [State.setPh, setHost_host, hq]
  cases a with
  | begin p =>
    simp only [step] at hs
    split at hs
    · split at hs
      · simp only [Option.some.injEq] at hs
        subst hs
        exact still_setPh h rfl (fun q hq => set2 p q _ hq) (.inr ⟨0, [], set1 _ _, by simp, by simp, Nat.zero_le _⟩)
      · simp at hs
    · simp at hs
  | readDisk p ok =>
    rcases h.ph p with h1 | ⟨d, got, h1, h2, h3, h4⟩
    · simp [step, h1] at hs
    · simp only [step, h1] at hs
      split at hs
      · rename_i hd
        simp only [Option.some.injEq] at hs
        subst hs
        refine still_setPh h rfl (fun q hq => set2 p q _ hq) (.inr ⟨d + 1, _, set1 _ _, ?_, ?_, hd⟩)
        · split
          · rw [List.map_append, List.nodup_append]
            refine ⟨h2, by simp, ?_⟩
            intro a ha b hb
            obtain ⟨g, hg, rfl⟩ := List.mem_map.mp ha
            have := (h3 g hg).1
            simp at hb
            omega
          · exact h2
        · intro g hg
          split at hg
          · rcases List.mem_append.mp hg with hg | hg
            · exact ⟨Nat.lt_succ_of_lt (h3 g hg).1, (h3 g hg).2⟩
            · simp at hg; rw [hg]; exact ⟨Nat.lt_succ_self _, by rw [h.disks]⟩
          · exact ⟨Nat.lt_succ_of_lt (h3 g hg).1, (h3 g hg).2⟩
      · simp at hs
  | readEnd p max =>
    rcases h.ph p with h1 | ⟨d, got, h1, h2, h3, h4⟩
    · simp [step, h1] at hs
    · simp only [step, h1] at hs
      split at hs
      · simp at hs
      split at hs
      · simp only [Option.some.injEq] at hs
        subst hs
        exact still_setPh h rfl (fun q hq => set2 p q _ hq) (.inl (set1 _ _))
      · rw [pick_none hno h2 (fun g hg => ⟨by have := (h3 g hg).1; omega, (h3 g hg).2⟩)] at hs
        simp only [Option.some.injEq] at hs
        subst hs
        exact still_setPh h rfl (fun q hq => set2 p q _ hq) (.inl (set1 _ _))
  | abort p =>
    rcases h.ph p with h1 | ⟨d, got, h1, _⟩
    · simp [step, h1] at hs
    · simp only [step, h1, Option.some.injEq] at hs
      subst hs
      exact still_setPh h rfl (fun q hq => set2 p q _ hq) (.inl (set1 _ _))
  | die p =>
    simp only [step, Option.some.injEq] at hs
    subst hs
    refine still_setPh h rfl (p := p) (fun q hq => ?_) (.inl ?_)
    · simp [setHost_host, hq]
    · rw [setHost_self]
  | join p =>
    simp only [step] at hs
    split at hs
    · simp at hs
    · simp only [Option.some.injEq] at hs
      subst hs
      refine still_setPh h rfl (p := p) (fun q hq => ?_) ?_
      · simp [setHost_host, hq]
      · rw [setHost_self]; exact h.ph p
  | ownerGone p => rcases h.ph p with h1 | ⟨d, got, h1, _⟩ <;> simp [step, h1] at hs
  | ownerReleased p => rcases h.ph p with h1 | ⟨d, got, h1, _⟩ <;> simp [step, h1] at hs
  | ownerLive p => rcases h.ph p with h1 | ⟨d, got, h1, _⟩ <;> simp [step, h1] at hs
  | restart p => rcases h.ph p with h1 | ⟨d, got, h1, _⟩ <;> simp [step, h1] at hs
  | check p => rcases h.ph p with h1 | ⟨d, got, h1, _⟩ <;> simp [step, h1] at hs
  | againEnd p => rcases h.ph p with h1 | ⟨d, got, h1, _⟩ <;> simp [step, h1] at hs
  | bal p a => rcases h.ph p with h1 | ⟨d, got, h1, _⟩ <;> simp [step, h1] at hs
  | retry p => rcases h.ph p with h1 | ⟨d, got, h1, _⟩ <;> simp [step, h1] at hs
  | retract p => rcases h.ph p with h1 | ⟨d, got, h1, _⟩ <;> simp [step, h1] at hs
  | commitStart p now => rcases h.ph p with h1 | ⟨d, got, h1, _⟩ <;> simp [step, h1] at hs
  | commitWrite p res => rcases h.ph p with h1 | ⟨d, got, h1, _⟩ <;> simp [step, h1] at hs
  | commitEnd p => rcases h.ph p with h1 | ⟨d, got, h1, _⟩ <;> simp [step, h1] at hs
  | release p res => rcases h.ph p with h1 | ⟨d, got, h1, _⟩ <;> simp [step, h1] at hs
  | dropX p => rcases h.ph p with h1 | ⟨d, got, h1, _⟩ <;> simp [step, h1] at hs
  | relEnd p => rcases h.ph p with h1 | ⟨d, got, h1, _⟩ <;> simp [step, h1] at hs
  | relErr p => rcases h.ph p with h1 | ⟨d, got, h1, _⟩ <;> simp [step, h1] at hs
  | relWrite p res now => rcases h.ph p with h1 | ⟨d, got, h1, _⟩ <;> simp [step, h1] at hs
  | relWEnd p => rcases h.ph p with h1 | ⟨d, got, h1, _⟩ <;> simp [step, h1] at hs

theorem still_run {c : Cfg} {ldr : Nat → Rec} {as : List Act} {s s' : State} (hno : NoMajority c ldr) (h : Still c ldr s)
    (hr : run c s as = some s') : Still c ldr s' := by
  induction as generalizing s with
  | nil => simp only [run, Option.some.injEq] at hr; rw [← hr]; exact h
  | cons a rest ih =>
    simp only [run] at hr
    cases hs : step c s a with
    | none => simp [hs] at hr
    | some t => simp only [hs, Option.bind_some] at hr; exact ih (still_step hno h hs) hr

end Sanlock.MultiLease
