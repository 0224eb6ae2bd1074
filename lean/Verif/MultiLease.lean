import Verif.Lease

/-!
# An exclusive lease on several disks

Models `paxos_lease_acquire` and `paxos_lease_release` (`src/paxos_lease.c:1647-2408`) for a lease with any number of disks:
`_lease_read_num` (1442-1541) and `_leader_read_num` (1204-1305), which look for a leader record that is the same on a majority
of the disks, and `write_new_leader` (1583-1617), which writes the leader record disk by disk.  Any number of hosts; one step is
the read or write of one sector; the ballot is the one of `Verif/Ballot.lean`, which has any number of disks already.

Simplifications, besides those of `Verif/Lease.lean`:
* exclusive leases only: no sharing, no conversion;
* of what `_release_token` writes into the host's block (`src/resource.c:1075-1108`), only DBLOCK_FL_RELEASED on the first disk is
  modelled, the only copy that anybody looks at (`src/paxos_lease.c:1911`); the rest is taken to be what is there already.  The
  block is not erased after a failed acquire (`src/resource.c:1014-1034`); `Verif/Lease.lean` has that for one disk;
* the leader and the own block of one disk are read in one step by `_lease_read_num`.
-/

namespace Sanlock.MultiLease

open Sanlock.Ballot (Blk Cfg WriteRes Pc majority)
open Sanlock.Lease (Rec newLeader lands upd balHost)

/-- What one disk's read returned: leader record, and the `mbal` of the host's own block. -/
structure Got where
  disk : Nat
  ldr : Rec
  mbal : Nat
deriving DecidableEq, Repr

/-- `leaders_match` (`src/paxos_lease.c:1064-1069`): the first LEADER_COMPARE_LEN bytes (`src/leader.h:50`) end before the
timestamp; the fields about the writer come after it. -/
def same (a b : Rec) : Bool := a.lver == b.lver && a.owner == b.owner && a.gen == b.gen

/-- The leader record that is the same on a majority of the disks: the copy of the first disk that has it
(`src/paxos_lease.c:1247-1288`, `1477-1531`). -/
def pick (n : Nat) (got : List Got) : Option Rec :=
  (got.find? fun g => majority n (got.countP fun h => same h.ldr g.ldr)).map (·.ldr)

/-- The read of the last disk succeeded: `_lease_read_num` returns the result of the last disk's read, even if it found the
leader on a majority of the disks (`src/paxos_lease.c:1478-1541`: `rv` is not set after the loop). -/
def lastOk (n : Nat) (got : List Got) : Bool := (got.getLast?.map (·.disk)) == some (n - 1)

/-- Where a host is.  `d` is the loop variable over the disks. -/
inductive Ph where
  | idle
  /-- label `restart` of `paxos_lease_acquire`: in `_lease_read_num` -/
  | call (d : Nat) (got : List Got)
  /-- in the loop that watches the owner -/
  | wait (cur : Rec) (max : Nat)
  /-- label `retry_ballot` -/
  | run (cur : Rec) (mbal : Nat) (copy : Bool)
  /-- reading the leader again before the ballot, in `_leader_read_num` -/
  | again (cur : Rec) (mbal : Nat) (d : Nat) (got : List Got)
  /-- in `run_ballot` -/
  | ballot (cur : Rec) (mbal : Nat)
  /-- in `write_new_leader` after a ballot; `w` are the disks written successfully; `logged` is history: the ballot counts as
  completed -/
  | commit (l : Rec) (d : Nat) (w : List Nat) (logged : Bool)
  /-- holds the lease -/
  | held (l : Rec)
  /-- in `paxos_lease_release`, reading the leader -/
  | rel (last : Option Rec) (d : Nat) (got : List Got)
  /-- in `write_new_leader` of the release -/
  | relW (l : Rec) (d : Nat) (w : List Nat)
deriving DecidableEq, Repr

/-- One host. -/
structure Host where
  /-- joined the lockspace and running -/
  alive : Bool
  /-- `token->host_generation` -/
  gen : Nat
  ph : Ph
  /-- history: this host does not come to own the lease with a version up to this one any more -/
  relv : Nat

/-- A leader record that reached a disk (history). -/
structure Copy where
  disk : Nat
  lver : Nat
  owner : Nat
  gen : Nat
deriving DecidableEq, Repr

/-- The lease area: the blocks (`B.disk`), DBLOCK_FL_RELEASED of each host's block on the first disk, and the leader record of each
disk. -/
structure State where
  B : Ballot.State
  flag : Nat → Bool
  ldr : Nat → Rec
  host : Nat → Host
  wrote : List Copy

def State.setHost (s : State) (p : Nat) (h : Host) : State := { s with host := upd s.host p h }

/-- The version with which a host has committed itself, or another host, as the owner. -/
def Ph.own : Ph → Nat
  | .held l => l.lver
  | .commit l _ _ true => l.lver
  | _ => 0

/-- The host goes on; if it owned the lease, it does not any more. -/
def State.setPh (s : State) (p : Nat) (ph : Ph) : State :=
  s.setHost p { s.host p with ph := ph, relv := max (s.host p).relv (s.host p).ph.own }

/-- A leader record reaches disk `d`. -/
def State.putLdr (s : State) (d : Nat) (l : Rec) : State :=
  { s with ldr := upd s.ldr d l, wrote := ⟨d, l.lver, l.owner, l.gen⟩ :: s.wrote }

/-- Version `n` or a later one is on a majority of the disks. -/
def full (c : Cfg) (s : State) (n : Nat) : Bool :=
  majority c.disks ((List.range c.disks).countP fun d => n ≤ (s.ldr d).lver)

/-- The ballot of host `p` counts as completed (history). -/
def State.log (c : Cfg) (s : State) (p : Nat) : State :=
  match Ballot.step c s.B (.leaderWritten p) with
  | some B' => { s with B := B' }
  | none => s

inductive Act where
  /-- `sanlock_acquire` -/
  | begin (p : Nat)
  /-- read the next disk -/
  | readDisk (p : Nat) (ok : Bool)
  /-- end of `_lease_read_num`; `max` is `max_mbal` -/
  | readEnd (p max : Nat)
  | ownerGone (p : Nat)
  | ownerReleased (p : Nat)
  | ownerLive (p : Nat)
  | restart (p : Nat)
  /-- label `retry_ballot` -/
  | check (p : Nat)
  /-- end of the second read of the leader -/
  | againEnd (p : Nat)
  /-- a step of the ballot -/
  | bal (p : Nat) (a : Ballot.Act)
  | retry (p : Nat)
  /-- error return without T_RETRACT_PAXOS -/
  | abort (p : Nat)
  /-- error return with T_RETRACT_PAXOS -/
  | retract (p : Nat)
  /-- the ballot is won: make the new leader record -/
  | commitStart (p now : Nat)
  | commitWrite (p : Nat) (res : WriteRes)
  | commitEnd (p : Nat)
  /-- `sanlock_release`; `res` is the write of the host's block on the first disk -/
  | release (p : Nat) (res : WriteRes)
  | dropX (p : Nat)
  | relEnd (p : Nat)
  | relErr (p : Nat)
  | relWrite (p : Nat) (res : WriteRes) (now : Nat)
  | relWEnd (p : Nat)
  /-- the host stops: crash, reset by the watchdog, leaving the lockspace -/
  | die (p : Nat)
  /-- it joins again -/
  | join (p : Nat)

/-- After the leader has been read again as `tmp` (`src/paxos_lease.c:2027-2096`). -/
def decideRun (c : Cfg) (s : State) (p : Nat) (cur : Rec) (mbal : Nat) (tmp : Rec) : Option State :=
  if tmp.lver = cur.lver + 1 then
    if tmp.owner = p + 1 ∧ tmp.gen = (s.host p).gen then some (s.setPh p (.held tmp))
    else some (s.setPh p .idle)
  else if tmp ≠ cur then some (s.setPh p (.call 0 []))
  else
    match Ballot.step c s.B (.start p (cur.lver + 1) mbal (s.host p).gen) with
    | none => none
    | some B' => some ({ s with B := B' }.setPh p (.ballot cur mbal))

/-- A ballot step writes the block of host `p` on the first disk, with zero flags (`src/paxos_lease.c:156-246`). -/
def writesFirst (pc : Pc) : Ballot.Act → Bool
  | .write _ res =>
    match pc with
    | .write1 0 _ => lands res
    | .write2 0 _ _ => lands res
    | _ => false
  | _ => false

/-- One step.  `none`: the action does not apply. -/
def step (c : Cfg) (s : State) : Act → Option State
  | .begin p =>
    match (s.host p).ph with
    | .idle => if (s.host p).alive ∧ p < c.hosts then some (s.setPh p (.call 0 [])) else none
    | _ => none
  | .readDisk p ok =>
    match (s.host p).ph with
    | .call d got =>
      if d < c.disks then
        some (s.setPh p (.call (d + 1) (if ok then got ++ [⟨d, s.ldr d, (s.B.disk d p).mbal⟩] else got)))
      else none
    | .again cur mbal d got =>
      if d < c.disks then
        some (s.setPh p (.again cur mbal (d + 1) (if ok then got ++ [⟨d, s.ldr d, 0⟩] else got)))
      else none
    | .rel last d got =>
      if d < c.disks then
        some (s.setPh p (.rel last (d + 1) (if ok then got ++ [⟨d, s.ldr d, 0⟩] else got)))
      else none
    | _ => none
  | .readEnd p max =>
    -- `src/paxos_lease.c:1506-1541`, `1685-1771`, ballot number 2005-2010
    match (s.host p).ph with
    | .call d got =>
      if d < c.disks then none
      else if lastOk c.disks got = false then some (s.setPh p .idle)
      else
        match pick c.disks got with
        | none => some (s.setPh p .idle)
        | some l =>
          if got.all fun g => g.mbal ≤ max then
            let ph := if l.ts = 0 ∨ (l.owner = p + 1 ∧ l.gen ≤ (s.host p).gen) then
                Ph.run l (Ballot.ourMbal max c.maxHosts (p + 1)) true
              else Ph.wait l max
            some (s.setHost p { s.host p with ph := ph, relv := Max.max (s.host p).relv l.lver })
          else none
    | _ => none
  | .ownerGone p =>
    -- `src/paxos_lease.c:1837-1867`, `1932-1950`
    match (s.host p).ph with
    | .wait cur max => some (s.setPh p (.run cur (Ballot.ourMbal max c.maxHosts (p + 1)) false))
    | _ => none
  | .ownerReleased p =>
    -- `src/paxos_lease.c:1910-1924`
    match (s.host p).ph with
    | .wait cur max =>
      if cur.wid ≠ cur.owner ∧ cur.owner ≠ 0 ∧ s.flag (cur.owner - 1) then
        some (s.setPh p (.run cur (Ballot.ourMbal max c.maxHosts (p + 1)) false))
      else none
    | _ => none
  | .ownerLive p =>
    -- SANLK_ACQUIRE_IDLIVE, `src/paxos_lease.c:1926-1928`
    match (s.host p).ph with
    | .wait _ _ => some (s.setPh p .idle)
    | _ => none
  | .restart p =>
    -- `src/paxos_lease.c:1975-1984`
    match (s.host p).ph with
    | .wait _ _ => some (s.setPh p (.call 0 []))
    | _ => none
  | .check p =>
    -- `src/paxos_lease.c:2012-2025`
    match (s.host p).ph with
    | .run cur mbal true => decideRun c s p cur mbal cur
    | .run cur mbal false => some (s.setPh p (.again cur mbal 0 []))
    | _ => none
  | .againEnd p =>
    -- `src/paxos_lease.c:1266-1305`
    match (s.host p).ph with
    | .again cur mbal d got =>
      if d < c.disks then none
      else
        match pick c.disks got with
        | none => some (s.setPh p .idle)
        | some tmp => decideRun c s p cur mbal tmp
    | _ => none
  | .bal p a =>
    -- `run_ballot`
    match (s.host p).ph with
    | .ballot _ _ =>
      if balHost a = some p then
        match Ballot.step c s.B a with
        | none => none
        | some B' =>
          some { s with B := B', flag := if writesFirst (s.B.proc p).pc a then upd s.flag p false else s.flag }
      else none
    | _ => none
  | .retry p =>
    -- `src/paxos_lease.c:2099-2109`
    match (s.host p).ph, (s.B.proc p).pc with
    | .ballot cur mbal, .idle => some (s.setPh p (.run cur (Ballot.retryMbal mbal c.maxHosts) false))
    | _, _ => none
  | .abort p =>
    -- `src/resource.c:1861-1868`
    match (s.host p).ph with
    | .call _ _ => some (s.setPh p .idle)
    | .wait _ _ => some (s.setPh p .idle)
    | .run _ _ _ => some (s.setPh p .idle)
    | .again _ _ _ _ => some (s.setPh p .idle)
    | .ballot _ _ => some ({ s with B := s.B.setPc p .idle }.setPh p .idle)
    | _ => none
  | .retract p =>
    -- ballot failed in phase 2, `src/paxos_lease.c:885-900`, `src/resource.c:1870-1881`
    match (s.host p).ph with
    | .ballot _ _ => some ({ s with B := s.B.setPc p .idle }.setPh p (.rel none 0 []))
    | _ => none
  | .commitStart p now =>
    -- `src/paxos_lease.c:2117-2127`
    match (s.host p).ph, (s.B.proc p).pc with
    | .ballot _ _, .won _ _ =>
      some (s.setPh p (.commit (newLeader (s.B.proc p).dblock p (s.host p).gen now) 0 [] false))
    | _, _ => none
  | .commitWrite p res =>
    -- `src/paxos_lease.c:1594-1601`
    match (s.host p).ph with
    | .commit l d w lg =>
      if d < c.disks then
        let w' := if res = .ok then d :: w else w
        if lands res then
          let s1 := s.putLdr d l
          if lg = false ∧ full c s1 l.lver then some ((s1.log c p).setPh p (.commit l (d + 1) w' true))
          else some (s1.setHost p { s.host p with ph := .commit l (d + 1) w' lg })
        else some (s.setHost p { s.host p with ph := .commit l (d + 1) w' lg })
      else none
    | _ => none
  | .commitEnd p =>
    -- `src/paxos_lease.c:1603-1616`, `2150-2185`
    match (s.host p).ph with
    | .commit l d w lg =>
      if d < c.disks then none
      else if majority c.disks w.length then
        let s1 := if lg then s else s.log c p
        if l.owner = p + 1 then some (s1.setHost p { s.host p with ph := .held l })
        else some (s1.setHost p { s.host p with ph := .idle, relv := max (s.host p).relv l.lver })
      else some ({ s with B := s.B.setPc p .idle }.setPh p (.rel (some l) 0 []))
    | _ => none
  | .release p res =>
    -- `src/resource.c:1075-1108`
    match (s.host p).ph with
    | .held l =>
      some ({ s with flag := if lands res then upd s.flag p true else s.flag }.setPh p (.rel (some l) 0 []))
    | _ => none
  | .dropX p =>
    -- without disk access, `src/resource.c:983-992`
    match (s.host p).ph with
    | .held _ => some (s.setPh p .idle)
    | _ => none
  | .relEnd p =>
    -- `src/paxos_lease.c:2240-2389`
    match (s.host p).ph with
    | .rel last d got =>
      if d < c.disks then none
      else
        match pick c.disks got with
        | none => some (s.setPh p .idle)
        | some l =>
          let la := last.getD l
          if l.wid ≠ p + 1 then some (s.setPh p .idle)
          else if l.lver ≠ la.lver then some (s.setPh p .idle)
          else if l.ts = 0 then some (s.setPh p .idle)
          else if l.owner ≠ p + 1 ∨ l.gen ≠ (s.host p).gen then some (s.setPh p .idle)
          else if l ≠ la then some (s.setPh p .idle)
          else some (s.setHost p { s.host p with ph := .relW l 0 [], relv := max (s.host p).relv l.lver })
    | _ => none
  | .relErr p =>
    match (s.host p).ph with
    | .rel _ _ _ => some (s.setPh p .idle)
    | _ => none
  | .relWrite p res now =>
    -- `src/paxos_lease.c:2391-2407`, `1594-1601`
    match (s.host p).ph with
    | .relW l d w =>
      if d < c.disks then
        let s1 := if lands res then s.putLdr d { l with ts := 0, wid := p + 1, wgen := (s.host p).gen, wts := now } else s
        some (s1.setPh p (.relW l (d + 1) (if res = .ok then d :: w else w)))
      else none
    | _ => none
  | .relWEnd p =>
    -- the release may be repeated: `src/resource.c:2282-2346`
    match (s.host p).ph with
    | .relW l d w =>
      if d < c.disks then none
      else if majority c.disks w.length then some (s.setPh p .idle)
      else some (s.setPh p (.rel (some l) 0 []))
    | _ => none
  | .die p =>
    some ({ s with B := s.B.setPc p .idle }.setHost p
      { s.host p with alive := false, ph := .idle, relv := max (s.host p).relv (s.host p).ph.own })
  | .join p =>
    if (s.host p).alive then none
    else some (s.setHost p { s.host p with alive := true, gen := (s.host p).gen + 1 })

/-- A lease just initialised (`paxos_lease_init`, `src/paxos_lease.c:2410-2517`), nobody has joined. -/
def init : State where
  B := Ballot.init
  flag := fun _ => false
  ldr := fun _ => ⟨0, 0, 0, 0, 0, 0, 0⟩
  host := fun _ => ⟨false, 0, .idle, 0⟩
  wrote := []

/-- Host index `o` has not been running with generation `g` from now on: it stopped, or has joined again. -/
def Expired (s : State) (o g : Nat) : Prop :=
  g < (s.host o).gen ∨ (g = (s.host o).gen ∧ (s.host o).alive = false)

instance (s : State) (o g : Nat) : Decidable (Expired s o g) := inferInstanceAs (Decidable (_ ∨ _))

/-- What the environment must provide.

* `ownerGone`: the owner is judged gone only when it is (watchdog and host id leases: `Props/Reset.lean`, `Props/Delta.lean`).
* `commitWrite`, `relWrite`: a host does not overwrite a leader record of a later version than its own (it is not that slow).
* `commitStart`: a host that wins with a value it proposed itself proposed it in its present generation.
* `bal`: the clock does not show 0; and the first write of a ballot to the first disk reaches it (without that:
  `stale_flag_violated` in `Props/MultiLease.lean`). -/
def Allowed (_c : Cfg) (s : State) : Act → Prop
  | .ownerGone p =>
    match (s.host p).ph with
    | .wait cur _ => Expired s (cur.owner - 1) cur.gen
    | _ => True
  | .commitStart p _ => (s.B.proc p).dblock.inp = p + 1 → (s.B.proc p).dblock.inp2 = (s.host p).gen
  | .commitWrite p res =>
    match (s.host p).ph with
    | .commit l d _ _ => lands res = true → (s.ldr d).lver ≤ l.lver
    | _ => True
  | .relWrite p res _ =>
    match (s.host p).ph with
    | .relW l d _ => lands res = true → (s.ldr d).lver ≤ l.lver
    | _ => True
  | .bal _ (.readsDone _ now) => 0 < now
  | .bal p (.write _ res) =>
    match (s.B.proc p).pc with
    | .write1 0 _ => lands res = true
    | _ => True
  | _ => True

instance (c : Cfg) (s : State) (a : Act) : Decidable (Allowed c s a) := by
  cases a with
  | bal p a => cases a <;> simp only [Allowed] <;> (repeat' split) <;> infer_instance
  | _ => simp only [Allowed] <;> (repeat' split) <;> infer_instance

/-- Runs under the assumptions `Allowed`. -/
inductive Reach (c : Cfg) : State → Prop where
  | init : Reach c init
  | step {s s' : State} {a : Act} : Reach c s → Allowed c s a → step c s a = some s' → Reach c s'

/-- Execute steps without the assumptions. -/
def run (c : Cfg) (s : State) : List Act → Option State
  | [] => some s
  | a :: rest => (step c s a).bind fun s' => run c s' rest

/-- Execute steps, checking the assumptions. -/
def runAllowed (c : Cfg) (s : State) : List Act → Option State
  | [] => some s
  | a :: rest => if Allowed c s a then (step c s a).bind fun s' => runAllowed c s' rest else none

/-! ## Runs without interference -/

/-- The disks that answer a host with an error. -/
abbrev Bad := Nat → Bool

def wr (bad : Bad) (d : Nat) : WriteRes := if bad d then .err else .ok

/-- All disks of a lease read in turn. -/
def reads (c : Cfg) (bad : Bad) (p : Nat) : List Act := (List.range' 0 c.disks).map fun d => .readDisk p (!bad d)

/-- One disk read by `run_ballot`. -/
def ballotRead (c : Cfg) (bad : Bad) (p d : Nat) : List Act :=
  if bad d then [.bal p (.readFail p)]
  else (List.range' 0 c.hosts).map (fun q => .bal p (.readSector p q)) ++ [.bal p (.readDone p)]

def ballotWrites (c : Cfg) (bad : Bad) (p : Nat) : List Act := (List.range' 0 c.disks).map fun d => .bal p (.write p (wr bad d))

def ballotReads (c : Cfg) (bad : Bad) (p : Nat) : List Act := (List.range' 0 c.disks).flatMap (ballotRead c bad p)

/-- One phase of `run_ballot`: write the own block to all disks, read all blocks of all disks. -/
def phase1 (c : Cfg) (bad : Bad) (p now : Nat) : List Act :=
  ballotWrites c bad p ++ [.bal p (.writesDone p)] ++ ballotReads c bad p ++ [.bal p (.readsDone p now)]

/-- The new leader record written to all disks. -/
def commits (c : Cfg) (bad : Bad) (p : Nat) : List Act := (List.range' 0 c.disks).map fun d => .commitWrite p (wr bad d)

/-- The ballot and the new leader record, without interference. -/
def ballotAndCommit (c : Cfg) (bad : Bad) (p now : Nat) : List Act :=
  phase1 c bad p now ++ phase1 c bad p now ++ [.commitStart p now] ++ commits c bad p ++ [.commitEnd p]

/-- Acquire of a free lease, without interference. -/
def acquire (c : Cfg) (bad : Bad) (p max now : Nat) : List Act :=
  [.begin p] ++ reads c bad p ++ [.readEnd p max, .check p] ++ ballotAndCommit c bad p now

/-- Release, without interference. -/
def releaseActs (c : Cfg) (bad : Bad) (p now : Nat) : List Act :=
  [.release p (wr bad 0)] ++ reads c bad p ++ [.relEnd p] ++
    (List.range' 0 c.disks).map (fun d => .relWrite p (wr bad d) now) ++ [.relWEnd p]

/-- Acquire of a lease whose owner is gone, without interference. -/
def takeOver (c : Cfg) (bad : Bad) (p max now : Nat) : List Act :=
  [.begin p] ++ reads c bad p ++ [.readEnd p max, .ownerGone p, .check p] ++ reads c bad p ++ [.againEnd p] ++
    ballotAndCommit c bad p now

end Sanlock.MultiLease
