import Verif.Ballot

/-!
# Hosts acquiring, sharing, converting and releasing one lease

Models `paxos_lease_acquire` and `paxos_lease_release` (`src/paxos_lease.c:1647-2408`) together with the part of
`src/resource.c` that calls them (`acquire_token` 1822-1989, `_release_token` 998-1098, `resource_thread_release` 2282-2346,
`convert_sh2ex_token`, `convert_ex2sh_token`, `clear_dead_shared`) for any number of hosts, as steps of one sector read or
write each.  The ballot is the one of `Verif/Ballot.lean`, which it drives.

Simplifications:
* one disk (`num_disks == 1`) and no change of `num_hosts`; `uint64_t` values are natural numbers; host index `p` is host id
  `p + 1`; a sector is never torn or damaged;
* the leader record is reduced to the fields that take part in decisions; `flags` (the hint SHORT_HOLD), sizes and names are left out;
* how a host finds out that the owner is alive, dead or replaced (`Verif/Acquire.lean`, `Verif/Delta.lean`,
  `Props/Reset.lean`) is an input: the steps `ownerGone`, `ownerLive`, and the argument of `clearStep`;
* `max_mbal` may be any number not below the host's own `mbal` on disk (the code takes the largest of all blocks);
* a host may give up, restart the loop or repeat a ballot in more situations than the code does;
* a host that stops (`die`) has no writes in flight that reach the disk later.
-/

namespace Sanlock.Lease

open Sanlock.Ballot (Blk Cfg WriteRes Pc)

/-- `struct leader_record` (`src/leader.h`), the fields used here; `ts = 0` is LEASE_FREE. -/
structure Rec where
  lver : Nat
  owner : Nat
  gen : Nat
  ts : Nat
  wid : Nat
  wgen : Nat
  wts : Nat
deriving DecidableEq, Repr

/-- What the caller of `paxos_lease_acquire` wants: an exclusive lease, a shared lease, or (`convert_sh2ex_token`) to make
its shared lease, which it got with record `l0`, exclusive. -/
inductive Mode where
  | ex
  | sh
  | conv (l0 : Rec)
deriving DecidableEq, Repr

/-- What a host goes on with after `paxos_lease_release`: nothing; keep the lease shared (`acquire_token`); keep the shared
lease it has (`convert_sh2ex_token`); the lease is now shared (`convert_ex2sh_token`). -/
inductive Next where
  | gone
  | shared (l : Rec)
  | back (l0 : Rec)
  | down (l : Rec)
deriving DecidableEq, Repr

/-- Where a host is. -/
inductive Ph where
  | idle
  /-- label `restart` of `paxos_lease_acquire` -/
  | call (m : Mode)
  /-- in the loop that watches the owner -/
  | wait (m : Mode) (cur : Rec) (max : Nat)
  /-- label `retry_ballot` -/
  | run (m : Mode) (cur : Rec) (mbal : Nat) (copy : Bool)
  /-- in `run_ballot`, or about to write the leader record -/
  | ballot (m : Mode) (cur : Rec) (mbal : Nat)
  /-- another host has it -/
  | lost (m : Mode)
  /-- T_RETRACT_PAXOS, before the host block is written -/
  | retract (last : Option Rec)
  /-- `paxos_lease_acquire` returned success -/
  | granted (m : Mode) (l : Rec)
  /-- `clear_dead_shared` at host index `i` -/
  | clear (m : Mode) (l : Rec) (i : Nat) (live : Bool)
  /-- about to overwrite the block of the dead host `i` -/
  | clearW (m : Mode) (l : Rec) (i : Nat) (live : Bool)
  /-- label `do_mb` of `convert_sh2ex_token` -/
  | doMb (l : Rec)
  /-- the lease must be given back, other hosts share it -/
  | giveBack (l : Rec)
  /-- holds the lease exclusively -/
  | heldX (l : Rec)
  /-- R_UNDO_SHARED -/
  | undo (l : Rec)
  /-- in `paxos_lease_release`, before reading the leader -/
  | rel (last : Option Rec) (k : Next)
  /-- before writing the leader as free -/
  | relW (l : Rec) (k : Next)
  /-- holds the lease shared -/
  | heldS (l : Rec)
deriving DecidableEq, Repr

/-- The record an acquire in progress is based on (`cur_leader`). -/
def Ph.cur? : Ph → Option Rec
  | .wait _ c _ => some c
  | .run _ c _ _ => some c
  | .ballot _ c _ => some c
  | _ => none

/-- The record with which the host owns the lease. -/
def Ph.own? : Ph → Option Rec
  | .granted _ l => some l
  | .clear _ l _ _ => some l
  | .clearW _ l _ _ => some l
  | .doMb l => some l
  | .giveBack l => some l
  | .heldX l => some l
  | _ => none

/-- The mode of an acquire. -/
def Ph.mode? : Ph → Option Mode
  | .call m => some m
  | .wait m _ _ => some m
  | .run m _ _ _ => some m
  | .ballot m _ _ => some m
  | .lost m => some m
  | .granted m _ => some m
  | .clear m _ _ _ => some m
  | .clearW m _ _ _ => some m
  | _ => none

def Mode.shared? : Mode → Option Rec
  | .conv l => some l
  | _ => none

def Next.shared? : Next → Option Rec
  | .gone => none
  | .shared l => some l
  | .back l => some l
  | .down l => some l

/-- The record with which a host that shares the lease got it.  A host counts as sharing from the moment its shared marker
is written, also while it tries to convert the lease. -/
def Ph.shares? : Ph → Option Rec
  | .call m => m.shared?
  | .wait m _ _ => m.shared?
  | .run m _ _ _ => m.shared?
  | .ballot m _ _ => m.shared?
  | .lost m => m.shared?
  | .granted m _ => m.shared?
  | .clear m _ _ _ => m.shared?
  | .clearW m _ _ _ => m.shared?
  | .rel _ k => k.shared?
  | .relW _ k => k.shared?
  | .heldS l => some l
  | _ => none

/-- One host. -/
structure Host where
  /-- joined the lockspace and running -/
  alive : Bool
  /-- `token->host_generation` -/
  gen : Nat
  ph : Ph
  /-- `r->dblock` -/
  db : Blk
  /-- `run_ballot` was called in this `paxos_lease_acquire` -/
  balloted : Bool
  /-- `token->shared_count` -/
  cnt : Nat
  /-- `token->shared_bitmap` -/
  saw : Nat → Bool
  /-- shared markers in the buffer being read -/
  mbuf : Nat → Bool
  /-- history: phase 1 was completed since `cur_leader` was read -/
  voted : Bool
  /-- history: this host does not come to own the lease with a version up to this one any more -/
  relv : Nat
  /-- history: version of the leader record when the host began the second read of its ballot -/
  seen : Nat
  /-- history: the lease the host got last was granted with a leader record that it wrote itself -/
  mine : Bool

/-- The lease area: the blocks (`B.disk 0`), for each host block the flag DBLOCK_FL_RELEASED and the generation of a mode block
with MBLOCK_SHARED, and the leader record. -/
structure State where
  B : Ballot.State
  flag : Nat → Bool
  mark : Nat → Option Nat
  ldr : Rec
  host : Nat → Host

def upd {α : Type} (f : Nat → α) (p : Nat) (x : α) : Nat → α := fun q => if q = p then x else f q

@[simp] theorem upd_same {α : Type} (f : Nat → α) (p : Nat) (x : α) : upd f p x p = x := by simp [upd]

theorem upd_apply {α : Type} (f : Nat → α) (p : Nat) (x : α) (q : Nat) : upd f p x q = if q = p then x else f q := rfl

def State.setHost (s : State) (p : Nat) (h : Host) : State := { s with host := upd s.host p h }

def State.setPh (s : State) (p : Nat) (ph : Ph) : State := s.setHost p { s.host p with ph := ph }

/-- The sector of host `h` is overwritten: block, flag and marker. -/
def State.putBlk (s : State) (h : Nat) (k : Blk) (fl : Bool) (mk : Option Nat) : State :=
  { s with B := s.B.setDisk 0 h k, flag := upd s.flag h fl, mark := upd s.mark h mk }

/-- A write of a host block or of the leader record: its outcome, and what uninitialised memory contains. -/
structure Wr where
  res : WriteRes
  junk : Blk
  junkFlag : Bool
deriving DecidableEq, Repr

/-- The data reaches the disk. -/
def lands : WriteRes → Bool
  | .err => false
  | _ => true

/-- `write_host_block` with the host's own block (`src/resource.c:414-512`): a block with another host's id in it is replaced by
uninitialised memory. -/
def State.putOwn (s : State) (p : Nat) (fl : Bool) (mk : Option Nat) (w : Wr) : State :=
  let db := (s.host p).db
  if lands w.res then
    if db.inp ≠ 0 ∧ db.inp ≠ p + 1 then s.putBlk p w.junk w.junkFlag mk else s.putBlk p db fl mk
  else s

/-- The host gives up ownership of everything up to version `v` (history). -/
def State.raise (s : State) (p v : Nat) : State :=
  s.setHost p { s.host p with relv := max (s.host p).relv v }

/-- The new leader record of an acquire (`src/paxos_lease.c:2119-2127`). -/
def newLeader (db : Blk) (p gen now : Nat) : Rec := ⟨db.lver, db.inp, db.inp2, db.inp3, p + 1, gen, now⟩

/-- The local variable `dblock` of `paxos_lease_acquire`. -/
def localBlk (s : State) (p : Nat) : Blk := if (s.host p).balloted then (s.B.proc p).dblock else Blk.zero

/-- Success of `paxos_lease_acquire`. -/
def grant (s : State) (p : Nat) (m : Mode) (l : Rec) (mine : Bool) : State :=
  s.setHost p { s.host p with ph := .granted m l, db := localBlk s p, mine := mine }

/-- Outcome of a failed acquire that leaves nothing to clean up. -/
def failed : Mode → Ph
  | .ex => .idle
  | .sh => .idle
  | .conv l0 => .heldS l0

/-- After `paxos_lease_release` returned 0. -/
def relDone : Next → Ph
  | .gone => .idle
  | .shared l => .heldS l
  | .back l0 => .heldS l0
  | .down l => .heldS l

/-- After `paxos_lease_release` failed. -/
def relFailed : Next → Ph
  | .gone => .idle
  | .shared l => .undo l
  | .back l0 => .heldS l0
  | .down l => .heldX l

/-- After `paxos_lease_release` failed to write the leader: a shared acquire undoes its work, the others may repeat the
release (`src/resource.c:1470-1476`, `1512-1520`, `2340-2346`); giving up is the step `relErr`. -/
def relRetry (l : Rec) : Next → Ph
  | .shared l' => .undo l'
  | k => .rel (some l) k

inductive Act where
  /-- `sanlock_acquire`, exclusive or shared -/
  | begin (p : Nat) (shared : Bool)
  /-- `sanlock_convert` of a shared lease to exclusive -/
  | convert (p : Nat)
  /-- `paxos_lease_read` -/
  | read (p max : Nat)
  | ownerGone (p : Nat)
  | ownerReleased (p : Nat)
  | ownerLive (p : Nat)
  | restart (p : Nat)
  /-- compare the leader before the ballot -/
  | check (p : Nat)
  /-- a step of the ballot -/
  | bal (p : Nat) (a : Ballot.Act)
  | retry (p : Nat)
  /-- error return -/
  | abort (p : Nat)
  | retract (p : Nat)
  /-- write the leader record after a ballot -/
  | commit (p : Nat) (res : WriteRes) (now : Nat)
  | lostDone (p : Nat) (w : Wr)
  | lostRetry (p : Nat)
  | eraseSelf (p : Nat) (w : Wr)
  | decide (p : Nat)
  | share (p : Nat) (w : Wr)
  | clearStep (p : Nat) (dead : Bool)
  | clearErr (p : Nat)
  | clearWrite (p : Nat) (res : WriteRes)
  | mb (p : Nat) (w : Wr)
  | undoWrite (p : Nat) (w : Wr)
  | releaseX (p : Nat) (w : Wr)
  | ex2sh (p : Nat) (w : Wr)
  | dropX (p : Nat)
  | relRead (p : Nat)
  | relErr (p : Nat)
  | relAgain (p : Nat)
  | relWrite (p : Nat) (res : WriteRes) (now : Nat)
  | releaseS (p : Nat) (w : Wr) (erase : Bool)
  | dropS (p : Nat)
  /-- the host stops: crash, reset by the watchdog, leaving the lockspace -/
  | die (p : Nat)
  /-- it joins again -/
  | join (p : Nat)

/-- Host of a ballot step that `run_ballot` itself takes. -/
def balHost : Ballot.Act → Option Nat
  | .write p _ => some p
  | .writesDone p => some p
  | .readSector p _ => some p
  | .readFail p => some p
  | .readDone p => some p
  | .readsDone p _ => some p
  | _ => none

/-- Number of shared markers in the buffer. -/
def countMarks (mbuf : Nat → Bool) (n : Nat) : Nat := ((List.range n).filter mbuf).length

/-- What a ballot step of host `p` does besides (`B'` is the state of the ballot after it): `write_dblock` writes the flags
(zero) and the mode block of the sector too, which is empty or, with T_WRITE_DBLOCK_MBLOCK_SH, the shared marker
(`src/paxos_lease.c:156-246`); `check_mode_block` looks at every block of a complete phase 1 read (line 588; the markers seen
before an abort are dropped here). -/
def effects (c : Cfg) (s : State) (m : Mode) (p : Nat) (a : Ballot.Act) (B' : Ballot.State) : State :=
  match a with
  | .write _ res =>
    if lands res then
      { s with B := B', flag := upd s.flag p false,
               mark := upd s.mark p (if m.shared?.isSome then some (s.host p).gen else none) }
    else { s with B := B' }
  | .writesDone _ =>
    match (B'.proc p).pc with
    | .read2 .. => { s with B := B' }.setHost p { s.host p with seen := s.ldr.lver }
    | _ => { s with B := B' }
  | .readSector _ q =>
    { s with B := B' }.setHost p { s.host p with mbuf := upd (s.host p).mbuf q (s.mark q).isSome }
  | .readDone _ =>
    match (s.B.proc p).pc, (B'.proc p).pc with
    | .read1 .., .read1 .. =>
      { s with B := B' }.setHost p { s.host p with
        cnt := (s.host p).cnt + countMarks (s.host p).mbuf c.hosts
        saw := fun q => (s.host p).saw q || (decide (q < c.hosts) && (s.host p).mbuf q) }
    | _, _ => { s with B := B' }
  | .readsDone _ _ =>
    match (B'.proc p).pc with
    | .write2 .. => { s with B := B' }.setHost p { s.host p with voted := true }
    | _ => { s with B := B' }
  | _ => { s with B := B' }

/-- After the loop of `clear_dead_shared` (`src/resource.c:1946-1966`, `1401-1429`). -/
def clearEnd (m : Mode) (l : Rec) (live : Bool) : Ph :=
  match m, live with
  | .conv l0, true => .rel (some l) (.back l0)
  | .conv _, false => .doMb l
  | _, true => .giveBack l
  | _, false => .heldX l

/-- `clear_dead_shared` failed (`src/resource.c:1941-1945`, `1402-1407`). -/
def clearFail (m : Mode) (l : Rec) : Ph :=
  match m with
  | .conv l0 => .rel (some l) (.back l0)
  | _ => .giveBack l

/-- One step.  `none`: the action does not apply. -/
def step (c : Cfg) (s : State) : Act → Option State
  | .begin p shared =>
    -- `acquire_token` creates the resource; `src/resource.c:1793-1830`
    match (s.host p).ph with
    | .idle =>
      if (s.host p).alive ∧ p < c.hosts then
        some (s.setHost p { s.host p with
          ph := .call (if shared then .sh else .ex), db := Blk.zero, balloted := false, cnt := 0, saw := fun _ => false,
          mine := false })
      else none
    | _ => none
  | .convert p =>
    -- `src/resource.c:1324-1364`
    match (s.host p).ph with
    | .heldS l =>
      some (s.setHost p { s.host p with ph := .call (.conv l), balloted := false, cnt := 0, saw := fun _ => false })
    | _ => none
  | .read p max =>
    -- `src/paxos_lease.c:1685-1771`, ballot number 2005-2010
    match (s.host p).ph with
    | .call m =>
      if (s.B.disk 0 p).mbal ≤ max then
        let h := { s.host p with voted := false }
        if s.ldr.ts = 0 ∨ (s.ldr.owner = p + 1 ∧ s.ldr.gen ≤ (s.host p).gen) then
          some (s.setHost p { h with ph := .run m s.ldr (Ballot.ourMbal max c.maxHosts (p + 1)) true })
        else some (s.setHost p { h with ph := .wait m s.ldr max })
      else none
    | _ => none
  | .ownerGone p =>
    -- free, other or newer host id lease, or not renewed: `src/paxos_lease.c:1845-1867`, `1932-1950`
    match (s.host p).ph with
    | .wait m cur max => some (s.setPh p (.run m cur (Ballot.ourMbal max c.maxHosts (p + 1)) false))
    | _ => none
  | .ownerReleased p =>
    -- `src/paxos_lease.c:1910-1924`
    match (s.host p).ph with
    | .wait m cur max =>
      if cur.wid ≠ cur.owner ∧ cur.owner ≠ 0 ∧ s.flag (cur.owner - 1) then
        some (s.setPh p (.run m cur (Ballot.ourMbal max c.maxHosts (p + 1)) false))
      else none
    | _ => none
  | .ownerLive p =>
    -- SANLK_ACQUIRE_IDLIVE, `src/paxos_lease.c:1926-1928`
    match (s.host p).ph with
    | .wait m _ _ => some (s.setPh p (.lost m))
    | _ => none
  | .restart p =>
    -- `src/paxos_lease.c:1975-1984`
    match (s.host p).ph with
    | .wait m _ _ => some (s.setPh p (.call m))
    | _ => none
  | .check p =>
    -- `src/paxos_lease.c:2012-2096`
    match (s.host p).ph with
    | .run m cur mbal copy =>
      let tmp := if copy then cur else s.ldr
      if tmp.lver = cur.lver + 1 then
        if tmp.owner = p + 1 ∧ tmp.gen = (s.host p).gen then some (grant s p m tmp false)
        else some (s.setPh p (.lost m))
      else if tmp ≠ cur then some (s.setPh p (.call m))
      else
        match Ballot.step c s.B (.start p (cur.lver + 1) mbal (s.host p).gen) with
        | none => none
        | some B' => some ({ s with B := B' }.setHost p { s.host p with ph := .ballot m cur mbal, balloted := true })
    | _ => none
  | .bal p a =>
    -- `run_ballot`
    match (s.host p).ph with
    | .ballot m _ _ =>
      if balHost a = some p then
        match Ballot.step c s.B a with
        | none => none
        | some B' => some (effects c s m p a B')
      else none
    | _ => none
  | .retry p =>
    -- `src/paxos_lease.c:2099-2109`
    match (s.host p).ph, (s.B.proc p).pc with
    | .ballot m cur mbal, .idle => some (s.setPh p (.run m cur (Ballot.retryMbal mbal c.maxHosts) false))
    | _, _ => none
  | .abort p =>
    -- error returns of `paxos_lease_acquire` without T_RETRACT_PAXOS, `src/resource.c:1861-1868`, `1382`
    match (s.host p).ph with
    | .call m => some (s.setPh p (failed m))
    | .wait m _ _ => some (s.setPh p (failed m))
    | .run m _ _ _ => some (s.setPh p (failed m))
    | .ballot m _ _ => some ({ s with B := s.B.setPc p .idle }.setPh p (failed m))
    | _ => none
  | .retract p =>
    -- ballot failed in phase 2, `src/paxos_lease.c:885-900`, `src/resource.c:1870-1881`, `1366-1380`
    match (s.host p).ph with
    | .ballot m _ _ =>
      let ph := match m with
        | .conv l0 => Ph.rel none (.back l0)
        | _ => Ph.retract none
      some ({ s with B := s.B.setPc p .idle }.setPh p ph)
    | _ => none
  | .commit p res now =>
    -- `src/paxos_lease.c:2117-2185`
    match (s.host p).ph, (s.B.proc p).pc with
    | .ballot m _ _, .won _ w =>
      let k := (s.B.proc p).dblock
      let l := newLeader k p (s.host p).gen now
      let s1 : State :=
        if lands res then
          { s with ldr := l, B := { s.B.setPc p .idle with log := ⟨p, k, w⟩ :: s.B.log } }
        else { s with B := s.B.setPc p .idle }
      if res = .ok then
        if l.owner ≠ p + 1 then some (s1.setPh p (.lost m))
        else some (grant s1 p m l true)
      else
        let ph := match m with
          | .conv l0 => Ph.rel (some l) (.back l0)
          | _ => Ph.retract (some l)
        some (s1.setPh p ph)
    | _, _ => none
  | .lostDone p w =>
    -- `release_token_opened` with R_SHARED set writes the block, `src/resource.c:1834-1858`, `1062-1073`
    match (s.host p).ph with
    | .lost .ex => some (s.setPh p .idle)
    | .lost (.conv l0) => some (s.setPh p (.heldS l0))
    | .lost .sh =>
      some (((s.raise p (s.B.disk 0 p).lver).putOwn p true none w).setPh p .idle)
    | _ => none
  | .lostRetry p =>
    -- LFL_SHORT_HOLD, `src/resource.c:1843-1850`
    match (s.host p).ph with
    | .lost .sh => some (s.setPh p (.call .sh))
    | _ => none
  | .eraseSelf p w =>
    -- R_ERASE_ALL, `src/resource.c:1014-1034`
    match (s.host p).ph with
    | .retract last =>
      some (((s.raise p (s.B.disk 0 p).lver).putOwn p true none w).setPh p (.rel last .gone))
    | _ => none
  | .decide p =>
    -- `src/resource.c:1919-1929`, `1391-1399`
    match (s.host p).ph with
    | .granted .ex l => some (s.setPh p (if (s.host p).cnt = 0 then .heldX l else .clear .ex l 0 false))
    | .granted (.conv l0) l => some (s.setPh p (if (s.host p).cnt ≤ 1 then .doMb l else .clear (.conv l0) l 0 false))
    | _ => none
  | .share p w =>
    -- `src/resource.c:1895-1904`
    match (s.host p).ph with
    | .granted .sh l =>
      let s1 := (s.raise p (max l.lver (s.B.disk 0 p).lver)).putOwn p true (some (s.host p).gen) w
      some (s1.setPh p (if w.res = .ok then .rel (some l) (.shared l) else .undo l))
    | _ => none
  | .clearStep p dead =>
    -- `src/resource.c:594-651`
    match (s.host p).ph with
    | .clear m l i live =>
      if i < c.hosts then
        if i = p ∨ (s.host p).saw i = false then some (s.setPh p (.clear m l (i + 1) live))
        else
          match s.mark i with
          | none => some (s.setPh p (.clear m l (i + 1) live))
          | some g =>
            if g = 0 then some (s.setPh p (.clear m l (i + 1) live))
            else if dead then some (s.setPh p (.clearW m l i live))
            else some (s.setPh p (.clear m l (i + 1) true))
      else some (s.setPh p (clearEnd m l live))
    | _ => none
  | .clearErr p =>
    match (s.host p).ph with
    | .clear m l _ _ => some (s.setPh p (clearFail m l))
    | _ => none
  | .clearWrite p res =>
    -- `write_host_block(task, token, host_id, 0, 0, NULL)`, `src/resource.c:638-643`
    match (s.host p).ph with
    | .clearW m l i live =>
      let s1 := if lands res then (s.raise i (s.B.disk 0 i).lver).putBlk i Blk.zero false none else s
      some (s1.setPh p (if res = .ok then .clear m l (i + 1) live else clearFail m l))
    | _ => none
  | .mb p w =>
    -- `src/resource.c:1431-1446`
    match (s.host p).ph with
    | .doMb l => some ((s.putOwn p false none w).setPh p (.heldX l))
    | _ => none
  | .undoWrite p w =>
    -- `src/resource.c:1043-1060`
    match (s.host p).ph with
    | .undo l => some (((s.raise p (s.B.disk 0 p).lver).putOwn p true none w).setPh p (.rel (some l) .gone))
    | _ => none
  | .releaseX p w =>
    -- `src/resource.c:1075-1108`
    match (s.host p).ph with
    | .heldX l =>
      some (((s.raise p (max l.lver (s.B.disk 0 p).lver)).putOwn p true none w).setPh p (.rel (some l) .gone))
    | .giveBack l =>
      some (((s.raise p (max l.lver (s.B.disk 0 p).lver)).putOwn p true none w).setPh p (.rel (some l) .gone))
    | _ => none
  | .ex2sh p w =>
    -- `src/resource.c:1492-1510`
    match (s.host p).ph with
    | .heldX l =>
      if w.res = .ok then
        some (((s.raise p (max l.lver (s.B.disk 0 p).lver)).putOwn p true (some (s.host p).gen) w).setPh p
          (.rel (some l) (.down l)))
      else some (s.putOwn p true (some (s.host p).gen) w)
    | _ => none
  | .dropX p =>
    -- without disk access (`space_dead`, `nodisk`), `src/resource.c:983-992`
    match (s.host p).ph with
    | .heldX _ => some (s.setPh p .idle)
    | .giveBack _ => some (s.setPh p .idle)
    | _ => none
  | .relRead p =>
    -- `src/paxos_lease.c:2230-2389`
    match (s.host p).ph with
    | .rel last k =>
      let l := s.ldr
      let la := last.getD l
      if l.wid ≠ p + 1 then some (s.setPh p (relDone k))
      else if l.lver ≠ la.lver then some (s.setPh p (relFailed k))
      else if l.ts = 0 then some (s.setPh p (relFailed k))
      else if l.owner ≠ p + 1 ∨ l.gen ≠ (s.host p).gen then some (s.setPh p (relFailed k))
      else if l ≠ la then some (s.setPh p (relFailed k))
      else some ((s.raise p l.lver).setPh p (.relW l k))
    | _ => none
  | .relErr p =>
    match (s.host p).ph with
    | .rel _ k => some (s.setPh p (relFailed k))
    | _ => none
  | .relAgain p =>
    -- repeated from the start after a timeout: `resource_thread_release`, `src/resource.c:2282-2346`
    match (s.host p).ph with
    | .rel (some l) .gone => some (s.setPh p (.undo l))
    | .rel none .gone => some (s.setPh p (.retract none))
    | _ => none
  | .relWrite p res now =>
    -- `src/paxos_lease.c:2391-2407`
    match (s.host p).ph with
    | .relW l k =>
      let s1 := if lands res then { s with ldr := { l with ts := 0, wid := p + 1, wgen := (s.host p).gen, wts := now } } else s
      some (s1.setPh p (if res = .ok then relDone k else relRetry l k))
    | _ => none
  | .releaseS p w erase =>
    -- `src/resource.c:1062-1073`; with R_ERASE_ALL 1014-1034
    match (s.host p).ph with
    | .heldS _ =>
      some (((s.raise p (s.B.disk 0 p).lver).putOwn p true none w).setPh p (if erase then .rel none .gone else .idle))
    | _ => none
  | .dropS p =>
    match (s.host p).ph with
    | .heldS _ => some (s.setPh p .idle)
    | _ => none
  | .die p => some ({ s with B := s.B.setPc p .idle }.setHost p { s.host p with alive := false, ph := .idle })
  | .join p =>
    if (s.host p).alive then none
    else some (s.setHost p { s.host p with alive := true, gen := (s.host p).gen + 1 })

/-- A lease just initialised (`paxos_lease_init`, `src/paxos_lease.c:2410-2517`), nobody has joined. -/
def init : State where
  B := Ballot.init
  flag := fun _ => false
  mark := fun _ => none
  ldr := ⟨0, 0, 0, 0, 0, 0, 0⟩
  host := fun _ => ⟨false, 0, .idle, Blk.zero, false, 0, fun _ => false, fun _ => false, false, 0, 0, false⟩

/-- Host index `o` has not been running with generation `g` from now on: it stopped, or has joined again. -/
def Expired (s : State) (o g : Nat) : Prop :=
  g < (s.host o).gen ∨ (g = (s.host o).gen ∧ (s.host o).alive = false)

instance (s : State) (o g : Nat) : Decidable (Expired s o g) := inferInstanceAs (Decidable (_ ∨ _))

/-- No acquire in progress is still based on a record older than version `v`, and the leader record is not older. -/
def Quiet (c : Cfg) (s : State) (v : Nat) : Prop :=
  v ≤ s.ldr.lver ∧ ∀ x < c.hosts, ∀ cur ∈ (s.host x).ph.cur?, v ≤ cur.lver

instance (c : Cfg) (s : State) (v : Nat) : Decidable (Quiet c s v) := inferInstanceAs (Decidable (_ ∧ _))

/-- The copy of the host's block that `write_host_block` writes is up to date, or the difference concerns only versions that
nobody works on any more. -/
def GoodBlk (c : Cfg) (s : State) (p : Nat) : Prop :=
  ((s.host p).db.inp = 0 ∨ (s.host p).db.inp = p + 1) ∧
  ((s.host p).db = s.B.disk 0 p ∨ Quiet c s (max (s.host p).db.lver (s.B.disk 0 p).lver))

instance (c : Cfg) (s : State) (p : Nat) : Decidable (GoodBlk c s p) := inferInstanceAs (Decidable (_ ∧ _))

/-- The same for a write that sets DBLOCK_FL_RELEASED; moreover the host has no vote for a version still open. -/
def GoodRel (c : Cfg) (s : State) (p : Nat) : Prop :=
  GoodBlk c s p ∧ (s.B.disk 0 p).lver ≤ s.ldr.lver

instance (c : Cfg) (s : State) (p : Nat) : Decidable (GoodRel c s p) := inferInstanceAs (Decidable (_ ∧ _))

/-- The block the host has in memory is that of its own last successful ballot, and the one on disk is not from a later one.
`Lemmas/LeaseMine.lean` shows that they are then the same. -/
def OldBlk (s : State) (p : Nat) : Prop := (s.host p).mine = true ∧ (s.B.disk 0 p).lver = (s.host p).db.lver

instance (s : State) (p : Nat) : Decidable (OldBlk s p) := inferInstanceAs (Decidable (_ ∧ _))

/-- What the environment must provide.  For each condition there is an execution in `Props/Lease.lean` without it in which two
hosts hold the lease, or the reason is given here.

* `ownerGone`: the owner is judged gone only when it is (watchdog and host id leases: `Props/Reset.lean`, `Props/Delta.lean`).
* `commit`: from the beginning of the second read of its ballot until its leader record is written, no other host gets the lease
  with a later version.  (Before that time the ballot notices: see `Lemmas/LeaseMine.lean`.)
* `relWrite`: nor from reading the leader record until it is written as free.
* `commit`: a host that wins with a value it proposed itself proposed it in its present generation.
* `readsDone`: the clock does not show 0.
* writes of host blocks by a host whose record was written by another host, after a failed acquire, or after a failed conversion:
  `GoodRel`, `GoodBlk`; what the code writes is the block that is on disk, or it does not matter.
* `ex2sh`, and release after it: no I/O error. -/
def Allowed (c : Cfg) (s : State) : Act → Prop
  | .ownerGone p =>
    match (s.host p).ph with
    | .wait _ cur _ => Expired s (cur.owner - 1) cur.gen
    | _ => True
  | .commit p res _ =>
    (lands res = true → s.ldr.lver = (s.host p).seen ∨ s.ldr.lver ≤ (s.B.proc p).dblock.lver) ∧
    ((s.B.proc p).dblock.inp = p + 1 → (s.B.proc p).dblock.inp2 = (s.host p).gen)
  | .relWrite p res _ =>
    match (s.host p).ph with
    | .relW l (.down _) => s.ldr.lver ≤ l.lver ∧ res = .ok
    | .relW l _ => lands res = true → s.ldr.lver ≤ l.lver
    | _ => True
  | .bal _ (.readsDone _ now) => 0 < now
  | .lostDone p _ => (s.host p).ph = .lost .sh → GoodRel c s p
  | .eraseSelf p _ => GoodRel c s p
  | .share p _ => (s.host p).mine = true ∨ GoodRel c s p
  | .undoWrite p _ => OldBlk s p ∨ GoodRel c s p
  | .releaseX p _ => (s.host p).mine = true ∨ GoodRel c s p
  | .releaseS p _ _ => OldBlk s p ∨ GoodRel c s p
  | .ex2sh p w => ((s.host p).mine = true ∨ GoodRel c s p) ∧ lands w.res = decide (w.res = .ok)
  | .mb p _ => (s.host p).mine = true ∨
      ((s.host p).db = s.B.disk 0 p ∧ ((s.host p).db.inp = 0 ∨ (s.host p).db.inp = p + 1))
  | .clearWrite p res =>
    match (s.host p).ph with
    | .clearW _ _ i _ => lands res = true → Quiet c s (s.B.disk 0 i).lver
    | _ => True
  | .relErr p =>
    match (s.host p).ph with
    | .rel _ (.down _) => False
    | _ => True
  | _ => True

instance (c : Cfg) (s : State) (a : Act) : Decidable (Allowed c s a) := by
  cases a <;> simp only [Allowed] <;> (repeat' split) <;> infer_instance

/-- Runs under the assumptions `Allowed`. -/
inductive Reach (c : Cfg) : State → Prop where
  | init : Reach c init
  | step {s s' : State} {a : Act} : Reach c s → Allowed c s a → step c s a = some s' → Reach c s'

/-- What is needed for shared leases on top of `Allowed`.

* `clearStep`: a host found sharing is judged dead only when it is.
* `check`: a host that finds its own proposal committed by another host has completed the first phase of a ballot since it
  last read the lease in this call, and so has looked for shared markers. -/
def AllowedX (c : Cfg) (s : State) (a : Act) : Prop :=
  Allowed c s a ∧
  match a with
  | .clearStep p true =>
    match (s.host p).ph with
    | .clear _ _ i _ => ∀ g ∈ s.mark i, Expired s i g
    | _ => True
  | .check p =>
    match (s.host p).ph with
    | .run _ cur _ _ => s.ldr.lver = cur.lver + 1 → s.ldr.owner = p + 1 → (s.host p).voted = true
    | _ => True
  | _ => True

instance (c : Cfg) (s : State) (a : Act) : Decidable (AllowedX c s a) := by
  cases a <;> simp only [AllowedX] <;> (repeat' split) <;> infer_instance

/-- Runs under the assumptions `AllowedX`. -/
inductive ReachX (c : Cfg) : State → Prop where
  | init : ReachX c init
  | step {s s' : State} {a : Act} : ReachX c s → AllowedX c s a → step c s a = some s' → ReachX c s'

/-- Execute steps without the assumptions. -/
def run (c : Cfg) (s : State) : List Act → Option State
  | [] => some s
  | a :: rest => (step c s a).bind fun s' => run c s' rest

/-- Execute steps, checking the assumptions. -/
def runAllowed (c : Cfg) (s : State) : List Act → Option State
  | [] => some s
  | a :: rest => if Allowed c s a then (step c s a).bind fun s' => runAllowed c s' rest else none

end Sanlock.Lease
