import Verif.Lemmas.LeaseShareInv

/-!
# Exclusive and shared leases across hosts (C02, C23)

`HoldsX s p`: host index `p` was told by acquire (or convert) that it holds the lease exclusively and has not released it,
converted it or stopped since.  `HoldsS s p`: the same for a shared lease.  `ends_exclusive` and `ends_shared` below justify this
reading: only a step of the host itself that the user asked for ends either.

The executions at the end show what happens without the assumptions of `Allowed` and `AllowedX`.
-/

namespace Sanlock.Lease

open Sanlock.Ballot (Blk Cfg WriteRes)

/-- Host `p` holds the lease exclusively. -/
def HoldsX (s : State) (p : Nat) : Prop := ∃ l, (s.host p).ph = .heldX l

/-- Host `p` holds the lease shared. -/
def HoldsS (s : State) (p : Nat) : Prop := ∃ l, (s.host p).ph = .heldS l

/-! ## C02 -/

/-- **C02** under the assumptions of `Allowed`.  Two hosts that hold the lease exclusively are one host.  For any number of hosts,
any interleaving of their sector reads and writes, failing and late I/O, crashes and rejoining.

Partial: one disk, and the assumptions `Allowed` (see there; `stale_commit_violated` and the theorems after it show that they
are not always met by the code). -/
theorem exclusive_unique_partial {c : Cfg} {s : State} {p q : Nat} (hc : c.hosts ≤ c.maxHosts) (hd : c.disks = 1)
    (h : Reach c s) (hp : HoldsX s p) (hq : HoldsX s q) : p = q := by
  obtain ⟨low, hi, _⟩ := inv_reach hc hd h
  obtain ⟨l, hl⟩ := hp
  obtain ⟨l', hl'⟩ := hq
  have h1 := (ownOk_of_inv hi (p := p) (l := l) (by rw [hl]; rfl)).1.owner
  have h2 := (ownOk_of_inv hi (p := q) (l := l') (by rw [hl']; rfl)).1.owner
  omega

/-- While a host holds the lease exclusively, the leader record on disk names it, with its current generation, and is not
free; so a host that looks finds the owner. -/
theorem exclusive_on_disk {c : Cfg} {s : State} {p : Nat} (hc : c.hosts ≤ c.maxHosts) (hd : c.disks = 1)
    (h : Reach c s) (hp : HoldsX s p) : s.ldr.owner = p + 1 ∧ s.ldr.gen = (s.host p).gen ∧ s.ldr.ts ≠ 0 := by
  obtain ⟨low, hi, _⟩ := inv_reach hc hd h
  obtain ⟨l, hl⟩ := hp
  have O := (ownOk_of_inv hi (p := p) (l := l) (by rw [hl]; rfl)).1
  exact ⟨O.owner, O.gen, O.ts⟩

/-- A host that holds the lease is running and has joined. -/
theorem exclusive_alive {c : Cfg} {s : State} {p : Nat} (hc : c.hosts ≤ c.maxHosts) (hd : c.disks = 1)
    (h : Reach c s) (hp : HoldsX s p) : (s.host p).alive = true ∧ p < c.hosts := by
  obtain ⟨low, hi, _⟩ := inv_reach hc hd h
  obtain ⟨l, hl⟩ := hp
  exact (hi.host p).alive (by rw [hl]; simp)

/-! ## What ends a lease -/

/-- The host that takes a step. -/
def Act.host : Act → Nat
  | .begin p _ | .convert p | .read p _ | .ownerGone p | .ownerReleased p | .ownerLive p | .restart p | .check p
  | .bal p _ | .retry p | .abort p | .retract p | .commit p _ _ | .lostDone p _ | .lostRetry p | .eraseSelf p _
  | .decide p | .share p _ | .clearStep p _ | .clearErr p | .clearWrite p _ | .mb p _ | .undoWrite p _ | .releaseX p _
  | .ex2sh p _ | .dropX p | .relRead p | .relErr p | .relAgain p | .relWrite p _ _ | .releaseS p _ _ | .dropS p
  | .die p | .join p => p

theorem raise_ph (s : State) (a v p : Nat) : ((s.raise a v).host p).ph = (s.host p).ph := by
  by_cases h : p = a <;> simp [State.raise, State.setHost, upd_apply, h]

theorem putBlk_host (s : State) (a : Nat) (k : Blk) (fl : Bool) (mk : Option Nat) : (s.putBlk a k fl mk).host = s.host := rfl

theorem putOwn_host (s : State) (a : Nat) (fl : Bool) (mk : Option Nat) (w : Wr) : (s.putOwn a fl mk w).host = s.host := by
  simp only [State.putOwn]
  split
  · split <;> rfl
  · rfl

theorem setPh_ph (s : State) (a p : Nat) (ph : Ph) : ((s.setPh a ph).host p).ph = if p = a then ph else (s.host p).ph := by
  by_cases h : p = a <;> simp [State.setPh, State.setHost, upd_apply, h]

theorem setHost_ph (s : State) (a p : Nat) (h : Host) : ((s.setHost a h).host p).ph = if p = a then h.ph else (s.host p).ph := by
  by_cases h : p = a <;> simp [State.setHost, upd_apply, h]

theorem effects_ph (c : Cfg) (s : State) (m : Mode) (a p : Nat) (b : Ballot.Act) (B' : Ballot.State) :
    ((effects c s m a b B').host p).ph = (s.host p).ph := by
  simp only [effects]
  repeat' split
  all_goals by_cases h : p = a <;> simp [State.setHost, upd_apply, h]

/-- A step of one host does not change what another host is doing. -/
theorem phase_other {c : Cfg} {s s' : State} {a : Act} {p : Nat} (hs : step c s a = some s') (ha : a.host ≠ p) :
    (s'.host p).ph = (s.host p).ph := by
  have ha' : p ≠ a.host := fun h => ha h.symm
  cases a <;> simp only [Act.host] at ha' <;> simp only [step] at hs <;> repeat' split at hs
  all_goals first
    | (simp at hs; done)
    | (simp only [Option.some.injEq] at hs; subst hs
       first
         | (simp [setPh_ph, setHost_ph, grant, raise_ph, putOwn_host, putBlk_host, effects_ph, ha']; done)
         | (split <;> simp [setPh_ph, setHost_ph, grant, raise_ph, putOwn_host, putBlk_host, effects_ph, ha']))

/-- An exclusive lease ends only by a step of its holder: a release, a conversion to shared, dropping it, or stopping. -/
theorem ends_exclusive {c : Cfg} {s s' : State} {a : Act} {p : Nat} (hs : step c s a = some s') (h : HoldsX s p)
    (h' : ¬ HoldsX s' p) : (∃ w, a = .releaseX p w) ∨ (∃ w, a = .ex2sh p w) ∨ a = .dropX p ∨ a = .die p := by
  by_cases ha : a.host = p
  · obtain ⟨l, hl⟩ := h
    cases a <;> simp only [Act.host] at ha <;> subst ha <;> simp only [step, hl] at hs <;> try simp at hs
    all_goals first
      | (simp; done)
      | (exfalso; apply h'; rename_i x; obtain ⟨_, hs⟩ := hs; subst hs
         exact ⟨l, by simp [State.setHost, hl]⟩)
  · exact absurd ⟨h.choose, by rw [phase_other hs ha]; exact h.choose_spec⟩ h'

/-- A shared lease ends only by a step of its holder: a release, a request to convert it, dropping it, or stopping. -/
theorem ends_shared {c : Cfg} {s s' : State} {a : Act} {p : Nat} (hs : step c s a = some s') (h : HoldsS s p)
    (h' : ¬ HoldsS s' p) : (∃ w e, a = .releaseS p w e) ∨ a = .convert p ∨ a = .dropS p ∨ a = .die p := by
  by_cases ha : a.host = p
  · obtain ⟨l, hl⟩ := h
    cases a <;> simp only [Act.host] at ha <;> subst ha <;> simp only [step, hl] at hs <;> try simp at hs
    all_goals first
      | (simp; done)
      | (exfalso; apply h'; rename_i x; obtain ⟨_, hs⟩ := hs; subst hs
         exact ⟨l, by simp [State.setHost, hl]⟩)
  · exact absurd ⟨h.choose, by rw [phase_other hs ha]; exact h.choose_spec⟩ h'

/-! ## C23 -/

/-- A host has its shared marker on disk: it holds the lease shared, or it is on the way to or from that, including the time
in which it tries to convert the lease. -/
def Sharing (s : State) (p : Nat) : Prop := (s.host p).ph.shares? ≠ none

/-- **C23** under the assumptions of `AllowedX`: a host that holds the lease exclusively does so alone: no other host holds it
shared.

Partial: one disk, and the assumptions `Allowed` and `AllowedX`; `unseen_marker_violated` shows an execution in which only the
last of them is not met, and which the code can take. -/
theorem exclusive_alone_partial {c : Cfg} {s : State} {p q : Nat} (hc : c.hosts ≤ c.maxHosts) (hd : c.disks = 1)
    (h : ReachX c s) (hp : HoldsX s p) (hq : HoldsS s q) : False := by
  have h2 := inv2_reach hc hd h
  obtain ⟨l, hl⟩ := hp
  obtain ⟨l', hl'⟩ := hq
  by_cases hqp : q = p
  · subst hqp; rw [hl] at hl'; cases hl'
  · have := (h2.host p).ph
    rw [hl] at this
    have := this q hqp
    rw [hl'] at this
    cases this

/-- The same for hosts that are in the middle of getting, converting or giving up a shared lease. -/
theorem exclusive_no_sharing_partial {c : Cfg} {s : State} {p q : Nat} (hc : c.hosts ≤ c.maxHosts) (hd : c.disks = 1)
    (h : ReachX c s) (hp : HoldsX s p) (hqp : q ≠ p) : ¬ Sharing s q := by
  have h2 := inv2_reach hc hd h
  obtain ⟨l, hl⟩ := hp
  have := (h2.host p).ph
  rw [hl] at this
  exact fun hn => hn (this q hqp)

/-- While a host holds the lease shared, its marker with its current generation is on disk. -/
theorem shared_on_disk {c : Cfg} {s : State} {p : Nat} (hc : c.hosts ≤ c.maxHosts) (hd : c.disks = 1)
    (h : ReachX c s) (hp : HoldsS s p) : s.mark p = some (s.host p).gen := by
  have h2 := inv2_reach hc hd h
  obtain ⟨l, hl⟩ := hp
  exact (h2.shr p l (by rw [hl]; rfl)).mark

/-- A host that becomes exclusive holder had, at that moment, the leader record in its name on disk, and no other host was
sharing. -/
theorem granted_exclusive_partial {c : Cfg} {s s' : State} {a : Act} {p : Nat} (hc : c.hosts ≤ c.maxHosts) (hd : c.disks = 1)
    (h : ReachX c s) (ha : AllowedX c s a) (hs : step c s a = some s') (hp' : HoldsX s' p) :
    s'.ldr.owner = p + 1 ∧ s'.ldr.ts ≠ 0 ∧ ∀ q, q ≠ p → ¬ Sharing s' q := by
  have hr : ReachX c s' := .step h ha hs
  obtain ⟨h1, _, h3⟩ := exclusive_on_disk hc hd (reach_of_reachX hr) hp'
  exact ⟨h1, h3, fun q hq => exclusive_no_sharing_partial hc hd hr hp' hq⟩

/-- A host's shared marker is written for a shared acquire or conversion only while the leader record is in its name. -/
theorem marker_written_as_owner {c : Cfg} {s s' : State} {p : Nat} {w : Wr} (hc : c.hosts ≤ c.maxHosts) (hd : c.disks = 1)
    (h : Reach c s) (hs : step c s (.share p w) = some s' ∨ step c s (.ex2sh p w) = some s') :
    s.ldr.owner = p + 1 ∧ s.ldr.gen = (s.host p).gen ∧ s.ldr.ts ≠ 0 := by
  obtain ⟨low, hi, _⟩ := inv_reach hc hd h
  have key : ∀ l, (s.host p).ph.own? = some l → s.ldr.owner = p + 1 ∧ s.ldr.gen = (s.host p).gen ∧ s.ldr.ts ≠ 0 := by
    intro l hl
    have O := (ownOk_of_inv hi hl).1
    exact ⟨O.owner, O.gen, O.ts⟩
  rcases hs with hs | hs <;> simp only [step] at hs <;> split at hs
  · rename_i l hl; exact key l (by rw [hl]; rfl)
  · simp at hs
  · rename_i l hl; exact key l (by rw [hl]; rfl)
  · simp at hs

/-! ## Conversion to exclusive -/

/-- Host `p`, which shares the lease with record `l0`, is in the middle of making it exclusive. -/
def Converting (s : State) (p : Nat) (l0 : Rec) : Prop :=
  (s.host p).ph.mode? = some (.conv l0) ∨ (∃ last, (s.host p).ph = .rel last (.back l0)) ∨ ∃ l, (s.host p).ph = .relW l (.back l0)

/-- A conversion goes on until the host holds its shared lease again, as it was, or has got the lease and only has to take its
shared marker off the disk; or the host stops. -/
theorem convert_outcome {c : Cfg} {s s' : State} {a : Act} {p : Nat} {l0 : Rec} (hs : step c s a = some s')
    (h : Converting s p l0) : Converting s' p l0 ∨ (s'.host p).ph = .heldS l0 ∨ (∃ l, (s'.host p).ph = .doMb l) ∨ a = .die p := by
  by_cases ha : a.host = p
  · unfold Converting at h ⊢
    generalize hph : (s.host p).ph = ph at h
    cases a <;> simp only [Act.host] at ha <;> subst ha <;> simp only [step, hph] at hs <;> repeat' split at hs
    all_goals first
      | (simp at hs; done)
      | skip
    all_goals
      simp only [Option.some.injEq] at hs; subst hs
      rcases h with h | ⟨_, h⟩ | ⟨_, h⟩ <;>
        try simp only [Ph.mode?, reduceCtorEq, Option.some.injEq, Ph.rel.injEq, Ph.relW.injEq, Mode.conv.injEq] at h
    all_goals first
      | (simp [State.setHost]; done)
      | (obtain ⟨h1, h2⟩ := h; subst h1; subst h2
         simp [setPh_ph, raise_ph, Ph.mode?, relDone, relFailed, relRetry]; done)
      | (subst h
         simp [setPh_ph, setHost_ph, grant, raise_ph, putOwn_host, putBlk_host, effects_ph, Ph.mode?, failed, clearEnd, clearFail, hph]
         done)
      | (subst h; split <;>
         simp [setPh_ph, setHost_ph, grant, raise_ph, putOwn_host, putBlk_host, effects_ph, Ph.mode?, failed, clearEnd, clearFail]
         done)
      | (rename_i hx; exact absurd h (hx l0))
      | (rename_i hx _; exact absurd h (hx l0))
      | (rename_i hx _ _; exact absurd h (hx l0))
      | exact absurd h.2 id
      | (subst h; rename_i live _; cases live <;> simp [setPh_ph, Ph.mode?, clearEnd]; done)
      | (left; simp only [setHost_ph, hph, if_true]; first | exact .inl h | exact .inr (.inl ⟨_, h⟩) | exact .inr (.inr ⟨_, h⟩))
  · left
    unfold Converting at h ⊢
    rw [phase_other hs ha]; exact h

/-- A host that has got the lease by conversion becomes the exclusive holder with its next step, unless it stops. -/
theorem convert_success {c : Cfg} {s s' : State} {a : Act} {p : Nat} {l : Rec} (hs : step c s a = some s')
    (h : (s.host p).ph = .doMb l) : (s'.host p).ph = .doMb l ∨ (s'.host p).ph = .heldX l ∨ a = .die p := by
  by_cases ha : a.host = p
  · cases a <;> simp only [Act.host] at ha <;> subst ha <;> simp only [step, h] at hs <;> try simp at hs
    all_goals first
      | (subst hs; simp [setPh_ph]; done)
      | (simp; done)
      | (obtain ⟨_, hs⟩ := hs; subst hs; simp [setHost_ph, h])
  · exact .inl (by rw [phase_other hs ha]; exact h)

/-! ## Executions -/

/-- A write that succeeds. -/
def okW : Wr := ⟨.ok, Blk.zero, false⟩
def write (p : Nat) : List Act := [.bal p (.write p .ok), .bal p (.writesDone p)]
def readAll (n p : Nat) : List Act := (List.range n).map (fun q => .bal p (.readSector p q)) ++ [.bal p (.readDone p)]
/-- One phase of a ballot. -/
def half (n p now : Nat) : List Act := write p ++ readAll n p ++ [.bal p (.readsDone p now)]
def full (n p now : Nat) : List Act := half n p now ++ half n p now
/-- Acquire exclusively, no contention. -/
def acq (n p max now : Nat) : List Act :=
  [.begin p false, .read p max, .check p] ++ full n p now ++ [.commit p .ok now, .decide p]
def rel (p now : Nat) : List Act := [.releaseX p okW, .relRead p, .relWrite p .ok now]
/-- Acquire shared, no contention. -/
def sh (n p max now : Nat) : List Act :=
  [.begin p true, .read p max, .check p] ++ full n p now ++ [.commit p .ok now, .share p okW, .relRead p, .relWrite p .ok now]
def c2 : Cfg := ⟨1, 2, 2⟩
def c3 : Cfg := ⟨1, 3, 3⟩

/-- Execute steps under the assumptions of `AllowedX`. -/
def runX (c : Cfg) (s : State) : List Act → Option State
  | [] => some s
  | a :: rest => if AllowedX c s a then (step c s a).bind fun s' => runX c s' rest else none

theorem reach_runX {c : Cfg} {l : List Act} {s s' : State} (h : ReachX c s) (hs : runX c s l = some s') : ReachX c s' := by
  induction l generalizing s with
  | nil => simp only [runX, Option.some.injEq] at hs; subst hs; exact h
  | cons a rest ih =>
    simp only [runX] at hs
    split at hs
    · rename_i ha
      cases hx : step c s a with
      | none => rw [hx] at hs; simp at hs
      | some s1 => rw [hx] at hs; exact ih (.step h ha hx) hs
    · simp at hs

theorem reach_runAllowed {c : Cfg} {l : List Act} {s s' : State} (h : Reach c s) (hs : runAllowed c s l = some s') : Reach c s' := by
  induction l generalizing s with
  | nil => simp only [runAllowed, Option.some.injEq] at hs; subst hs; exact h
  | cons a rest ih =>
    simp only [runAllowed] at hs
    split at hs
    · rename_i ha
      cases hx : step c s a with
      | none => rw [hx] at hs; simp at hs
      | some s1 => rw [hx] at hs; exact ih (.step h ha hx) hs
    · simp at hs

/-- Execute steps, checking the assumptions of `Allowed` except for the steps `bad`. -/
def runBut (bad : Act → Bool) (c : Cfg) (s : State) : List Act → Option State
  | [] => some s
  | a :: rest => if bad a ∨ Allowed c s a then (step c s a).bind fun s' => runBut bad c s' rest else none

def isX : Ph → Bool
  | .heldX _ => true
  | _ => false

def isS : Ph → Bool
  | .heldS _ => true
  | _ => false

theorem holdsX_of {s : State} {p : Nat} (h : isX (s.host p).ph = true) : HoldsX s p := by
  cases hp : (s.host p).ph <;> simp [hp, isX] at h
  exact ⟨_, hp⟩

theorem holdsS_of {s : State} {p : Nat} (h : isS (s.host p).ph = true) : HoldsS s p := by
  cases hp : (s.host p).ph <;> simp [hp, isS] at h
  exact ⟨_, hp⟩

theorem any_spec {o : Option State} {f : State → Bool} (h : o.any f = true) : ∃ s, o = some s ∧ f s = true := by
  cases o with
  | none => simp at h
  | some s => exact ⟨s, rfl, h⟩

/-- Host 0 acquires and releases, then host 1 acquires: reached under all assumptions, so the theorems above apply. -/
example : ∃ s, ReachX c2 s ∧ HoldsX s 1 := by
  have h : ((runX c2 init ([.join 0, .join 1] ++ acq 2 0 0 5 ++ rel 0 6 ++ acq 2 1 2 7)).any fun s => isX (s.host 1).ph) = true := by
    decide +kernel
  obtain ⟨s, h1, h2⟩ := any_spec h
  exact ⟨s, reach_runX .init h1, holdsX_of h2⟩

/-- Two hosts share the lease. -/
example : ∃ s, ReachX c2 s ∧ HoldsS s 0 ∧ HoldsS s 1 := by
  have h : ((runX c2 init ([.join 0, .join 1] ++ sh 2 0 0 5 ++ sh 2 1 2 7)).any
      fun s => isS (s.host 0).ph && isS (s.host 1).ph) = true := by decide +kernel
  obtain ⟨s, h1, h2⟩ := any_spec h
  rw [Bool.and_eq_true] at h2
  exact ⟨s, reach_runX .init h1, holdsS_of h2.1, holdsS_of h2.2⟩

/-- A host that wants the lease exclusively finds it shared and gives it back. -/
example : ∃ s, ReachX c2 s ∧ HoldsS s 0 ∧ (s.host 1).ph = .idle := by
  have h : ((runX c2 init ([.join 0, .join 1] ++ sh 2 0 0 5 ++ acq 2 1 2 7 ++
      [.clearStep 1 false, .clearStep 1 false, .clearStep 1 false] ++ rel 1 9)).any
      fun s => isS (s.host 0).ph && decide ((s.host 1).ph = .idle)) = true := by decide +kernel
  obtain ⟨s, h1, h2⟩ := any_spec h
  rw [Bool.and_eq_true, decide_eq_true_eq] at h2
  exact ⟨s, reach_runX .init h1, holdsS_of h2.1, h2.2⟩

/-- A host that shared the lease has died; its marker is cleared and the lease granted exclusively. -/
example : ∃ s, ReachX c2 s ∧ HoldsX s 1 ∧ s.mark 0 = none := by
  have h : ((runX c2 init ([.join 0, .join 1] ++ sh 2 0 0 5 ++ [.die 0] ++ acq 2 1 2 7 ++
      [.clearStep 1 true, .clearWrite 1 .ok, .clearStep 1 false, .clearStep 1 false])).any
      fun s => isX (s.host 1).ph && decide (s.mark 0 = none)) = true := by decide +kernel
  obtain ⟨s, h1, h2⟩ := any_spec h
  rw [Bool.and_eq_true, decide_eq_true_eq] at h2
  exact ⟨s, reach_runX .init h1, holdsX_of h2.1, h2.2⟩

/-- A shared lease is converted to exclusive. -/
example : ∃ s, ReachX c2 s ∧ HoldsX s 0 := by
  have h : ((runX c2 init ([.join 0, .join 1] ++ sh 2 0 0 5 ++ [.convert 0, .read 0 1, .check 0] ++ full 2 0 8 ++
      [.commit 0 .ok 8, .decide 0, .mb 0 okW])).any fun s => isX (s.host 0).ph) = true := by decide +kernel
  obtain ⟨s, h1, h2⟩ := any_spec h
  exact ⟨s, reach_runX .init h1, holdsX_of h2⟩

/-- Both hosts share the lease: the conversion ends with the shared lease. -/
example : ∃ s, ReachX c2 s ∧ HoldsS s 0 ∧ HoldsS s 1 := by
  have h : ((runX c2 init ([.join 0, .join 1] ++ sh 2 0 0 5 ++ sh 2 1 2 7 ++ [.convert 0, .read 0 5, .check 0] ++ full 2 0 8 ++
      [.commit 0 .ok 8, .decide 0, .clearStep 0 false, .clearStep 0 false, .clearStep 0 false, .relRead 0, .relWrite 0 .ok 9])).any
      fun s => isS (s.host 0).ph && isS (s.host 1).ph) = true := by decide +kernel
  obtain ⟨s, h1, h2⟩ := any_spec h
  rw [Bool.and_eq_true] at h2
  exact ⟨s, reach_runX .init h1, holdsS_of h2.1, holdsS_of h2.2⟩

/-! ## Where the assumptions are needed -/

/-- What the following executions show: all steps but `bad` satisfy `Allowed`, and two hosts hold the lease exclusively. -/
def TwoHolders (bad : Act → Bool) (c : Cfg) (l : List Act) (p q : Nat) : Prop :=
  p ≠ q ∧ ∃ s, runBut bad c init l = some s ∧ HoldsX s p ∧ HoldsX s q

theorem twoHolders_of {bad : Act → Bool} {c : Cfg} {l : List Act} {p q : Nat} (hn : p ≠ q)
    (h : ((runBut bad c init l).any fun s => isX (s.host p).ph && isX (s.host q).ph) = true) : TwoHolders bad c l p q := by
  obtain ⟨s, h1, h2⟩ := any_spec h
  rw [Bool.and_eq_true] at h2
  exact ⟨hn, s, h1, holdsX_of h2.1, holdsX_of h2.2⟩

/-- Host 1 wins a ballot with host 0's value and is slow to write the leader record (a timed out write that lands late, or a
suspended host): the old record replaces a newer one. -/
def staleCommit : List Act := [.join 0, .join 1, .join 2, .begin 0 false, .read 0 0, .check 0] ++ full 3 0 5 ++
  [.begin 1 false, .read 1 1, .check 1] ++ full 3 1 6 ++ [.commit 0 .ok 7, .decide 0] ++ rel 0 8 ++
  [.begin 2 false, .read 2 5, .check 2] ++ half 3 2 9 ++ write 2 ++
  [.begin 0 false, .read 0 9, .check 0] ++ full 3 0 10 ++
  readAll 3 2 ++ [.retry 2, .check 2] ++ write 2 ++ readAll 3 2 ++ [.commit 0 .ok 11, .lostDone 0 okW, .retry 2, .check 2, .decide 2,
  .commit 1 .ok 12, .lostDone 1 okW, .begin 0 false, .read 0 13, .check 0] ++ full 3 0 14 ++ [.commit 0 .ok 14, .decide 0]

theorem stale_commit_violated :
    TwoHolders (fun | .commit 1 _ _ => true | _ => false) c3 staleCommit 0 2 :=
  twoHolders_of (by decide) (by decide +kernel)

/-- Host 0 proposes, dies, joins again and wins the ballot with the value it proposed in its former life (carried by host 1);
it is granted the lease with a record that carries the old generation, so that host 1 considers the owner gone. -/
def oldGeneration : List Act := [.join 0, .join 1, .begin 0 false, .read 0 0, .check 0] ++ half 2 0 5 ++ write 0 ++ [.die 0,
  .begin 1 false, .read 1 1, .check 1] ++ half 2 1 6 ++ write 1 ++ [.abort 1, .join 0, .begin 0 false, .read 0 4, .check 0] ++
  full 2 0 7 ++ [.commit 0 .ok 7, .decide 0] ++
  [.begin 1 false, .read 1 7, .ownerGone 1, .check 1] ++ full 2 1 8 ++ [.commit 1 .ok 8, .decide 1]

theorem old_generation_violated :
    TwoHolders (fun | .commit 0 _ _ => true | _ => false) c2 oldGeneration 0 1 :=
  twoHolders_of (by decide) (by decide +kernel)

/-- Host 1 asks for a shared lease and commits host 0's value; cleaning up it writes its block as it was initialised at the
start, which erases its vote for the version host 2 is working on.  No I/O error, no delay, nobody dies. -/
def failedShared : List Act := [.join 0, .join 1, .join 2, .begin 0 false, .read 0 0, .check 0] ++ half 3 0 5 ++ write 0 ++
  [.begin 1 true, .read 1 1, .check 1] ++ full 3 1 6 ++
  readAll 3 0 ++ [.retry 0, .check 0] ++ write 0 ++ readAll 3 0 ++
  [.begin 2 false, .read 2 5, .check 2] ++
  [.commit 1 .ok 7, .lostDone 1 okW, .retry 0, .check 0, .decide 0] ++ full 3 2 8 ++ [.commit 2 .ok 9, .decide 2]

theorem failed_shared_violated :
    TwoHolders (fun | .lostDone 1 _ => true | _ => false) c3 failedShared 0 2 :=
  twoHolders_of (by decide) (by decide +kernel)

/-- Host 1 wins with host 0's value, and the write of the leader record times out but reaches the disk.  Host 1 retracts, which
erases its vote for the version that host 2 is working on. -/
def retractedVote : List Act := [.join 0, .join 1, .join 2, .begin 0 false, .read 0 0, .check 0] ++ half 3 0 5 ++ write 0 ++
  [.begin 1 false, .read 1 1, .check 1] ++ full 3 1 6 ++
  readAll 3 0 ++ [.retry 0, .check 0] ++ write 0 ++ readAll 3 0 ++
  [.begin 2 false, .read 2 5, .check 2] ++
  [.commit 1 .errApplied 7, .eraseSelf 1 okW, .retry 0, .check 0, .decide 0] ++ full 3 2 8 ++ [.commit 2 .ok 9, .decide 2]

theorem retracted_vote_violated :
    TwoHolders (fun | .eraseSelf 1 _ => true | _ => false) c3 retractedVote 0 2 :=
  twoHolders_of (by decide) (by decide +kernel)

/-- Host 1 shares the lease and tries to convert it, but commits host 0's value.  When it then releases its shared lease it
writes the block it had before the conversion, which erases its vote.  No I/O error, no delay, nobody dies. -/
def failedConvert : List Act := [.join 0, .join 1, .join 2] ++ sh 3 1 0 4 ++ [.begin 0 false, .read 0 2, .check 0] ++ half 3 0 6 ++ write 0 ++
  [.convert 1, .read 1 4, .check 1] ++ full 3 1 7 ++ readAll 3 0 ++ [.retry 0, .check 0] ++ write 0 ++ readAll 3 0 ++
  [.begin 2 false, .read 2 8, .check 2, .commit 1 .ok 8, .lostDone 1 okW, .releaseS 1 okW false, .retry 0, .check 0, .decide 0,
   .clearStep 0 false, .clearStep 0 false, .clearStep 0 false, .clearStep 0 false] ++
  full 3 2 9 ++ [.commit 2 .ok 9, .decide 2]

theorem failed_convert_violated :
    TwoHolders (fun | .releaseS 1 _ _ => true | _ => false) c3 failedConvert 0 2 :=
  twoHolders_of (by decide) (by decide +kernel)

/-- Host 0 releases; its write of the free leader record is delayed until host 2 owns the lease. -/
def staleRelease : List Act := [.join 0, .join 1, .join 2, .begin 0 false, .read 0 0, .check 0] ++ full 3 0 5 ++
  [.begin 1 false, .read 1 1, .check 1] ++ full 3 1 6 ++ [.commit 0 .ok 7, .decide 0] ++ [.releaseX 0 okW, .relRead 0,
  .commit 1 .ok 8, .lostDone 1 okW] ++
  [.begin 2 false, .read 2 5, .ownerReleased 2, .check 2] ++ half 3 2 9 ++ write 2 ++
  [.begin 1 false, .read 1 9, .ownerReleased 1, .check 1] ++ full 3 1 10 ++
  readAll 3 2 ++ [.retry 2, .check 2] ++ write 2 ++ readAll 3 2 ++ [.commit 1 .ok 11, .lostDone 1 okW, .retry 2, .check 2, .decide 2,
  .relWrite 0 .ok 12, .begin 1 false, .read 1 14, .check 1] ++ full 3 1 15 ++ [.commit 1 .ok 15, .decide 1]

theorem stale_release_violated :
    TwoHolders (fun | .relWrite 0 _ _ => true | _ => false) c3 staleRelease 1 2 :=
  twoHolders_of (by decide) (by decide +kernel)

/-- Host 0 clears the block of a dead sharer, host 1, that had voted in a ballot host 2 still works on. -/
def clearedVote : List Act := [.join 0, .join 1, .join 2] ++ sh 3 1 0 4 ++ [.begin 0 false, .read 0 2, .check 0] ++ half 3 0 6 ++ write 0 ++
  [.convert 1, .read 1 4, .check 1] ++ full 3 1 7 ++ readAll 3 0 ++ [.retry 0, .check 0] ++ write 0 ++ readAll 3 0 ++
  [.begin 2 false, .read 2 8, .check 2, .commit 1 .ok 8, .die 1, .retry 0, .check 0, .decide 0, .clearStep 0 true, .clearStep 0 true,
   .clearWrite 0 .ok, .clearStep 0 true, .clearStep 0 true] ++
  full 3 2 9 ++ [.commit 2 .ok 9, .decide 2]

theorem cleared_vote_violated :
    TwoHolders (fun | .clearWrite .. => true | _ => false) c3 clearedVote 0 2 :=
  twoHolders_of (by decide) (by decide +kernel)

/-- Host 2 proposes, is overtaken, fails to read the leader and gives up without retracting; asked again it finds that its old
proposal has been committed by host 1, and takes the lease exclusively without ever having looked for shared markers.  Host 1
shares the lease.  All steps satisfy `Allowed`. -/
def unseenMarker : List Act := [.join 0, .join 1, .join 2] ++ sh 3 1 0 4 ++ [.begin 0 true, .read 0 2, .check 0] ++ full 3 0 5 ++
  [.commit 0 .ok 5, .die 0, .begin 2 false, .read 2 6, .ownerGone 2, .check 2] ++ half 3 2 6 ++ write 2 ++
  [.convert 1, .read 1 12, .ownerGone 1, .check 1] ++ full 3 1 7 ++ readAll 3 2 ++ [.retry 2, .abort 2, .begin 2 false, .read 2 17,
  .ownerGone 2, .commit 1 .ok 8, .lostDone 1 okW, .check 2, .decide 2]

theorem unseen_marker_violated : ∃ s, Reach c3 s ∧ HoldsS s 1 ∧ HoldsX s 2 := by
  have h : ((runAllowed c3 init unseenMarker).any fun s => isS (s.host 1).ph && isX (s.host 2).ph) = true := by decide +kernel
  obtain ⟨s, h1, h2⟩ := any_spec h
  rw [Bool.and_eq_true] at h2
  exact ⟨s, reach_runAllowed .init h1, holdsS_of h2.1, holdsX_of h2.2⟩

end Sanlock.Lease
