import Verif.Wdmd

/-!
# Fencing: `fence_sanlock` and `fence_sanlockd`

`fence_sanlockd` on each host holds the lease of its host and keeps a connection to wdmd alive
(`fence_sanlock/fence_sanlockd.c:594-942`).  The agent `fence_sanlock -o off` on another host tries to get the lease of
the victim and asks for it (`action_off`, `fence_sanlock/fence_sanlock.in:230-349`).

The first part is the loop of the daemon, the second the agents and the victim with the lease on disk.  In the second
part sanlock is reduced to what the other models prove of it: a host gets the lease of another host that has not
released it only if that host has left the lockspace, has joined it again, or was reset (`Verif/Lease.lean`,
`Verif/Acquire.lean`, `Props/Reset.lean`).  When fence_sanlockd on the victim is killed, the lease, which is persistent,
stays as it is, and so does the lockspace (`SANLK_CONFIG_USED_BY_ORPHANS`): this is no step.
-/

namespace Sanlock.Fence

/-! ### The daemon -/

/-- The variables of `fence_sanlockd` (`fence_sanlockd.c:45-48`, `522`). -/
structure D where
  id : Nat
  /-- we_are_victim -/
  victim : Bool
  /-- we_are_fencing -/
  fencing : Bool
  /-- lockspace_recovery -/
  recovery : Bool
  /-- init_shutdown -/
  shutdown : Bool
  /-- live_time -/
  live : Nat
  /-- the loop has been left -/
  stopped : Bool
  /-- times of `wdmd_test_live`, newest first; each makes the connection expire EXPIRE_INTERVAL later -/
  lives : List Nat
deriving DecidableEq, Repr

/-- `LIVE_INTERVAL`, `EXPIRE_INTERVAL` (`fence_sanlockd.c:36-37`). -/
def liveInterval : Nat := 5
def expireInterval : Nat := 20

inductive Signal where
  | hup | term | usr1 | usr2
deriving DecidableEq, Repr

/-- `process_signals` (`fence_sanlockd.c:241-269`). -/
def D.signal (d : D) : Signal → D
  | .hup => { d with shutdown := true }
  | .term => { d with recovery := true }
  | .usr1 => { d with victim := true }
  | .usr2 => { d with fencing := true }

/-- `check_fence_agent` (`fence_sanlockd.c:414-503`): the victim of the first file of a running agent.  A file that
cannot be read, or whose agent does not run any more, is `none`. -/
def checkAgent (files : List (Option Nat)) : Option Nat := files.findSome? id

/-- Both flags (`fence_sanlockd.c:800-837`). -/
def duel (d : D) (files : List (Option Nat)) : D :=
  if d.victim && d.fencing then
    match checkAgent files with
    | some v => if d.id < v then { d with victim := false, fencing := false } else { d with fencing := false }
    | none => { d with fencing := false }
  else d

/-- Fencing someone else (`fence_sanlockd.c:839-860`). -/
def still (d : D) (files : List (Option Nat)) : D :=
  if !d.victim && d.fencing then
    match checkAgent files with
    | some _ => d
    | none => { d with fencing := false }
  else d

/-- `fence_sanlockd.c:887-921`. -/
def keepLive (d : D) (now : Nat) : D :=
  if !d.victim && !d.recovery && decide (now - d.live ≥ liveInterval) then
    { d with live := now, lives := now :: d.lives }
  else d

/-- One turn of the loop after `poll` (`fence_sanlockd.c:730-929`). -/
def D.pass (d : D) (now : Nat) (files : List (Option Nat)) : D :=
  if d.stopped then d
  else if d.shutdown then { d with stopped := true }
  else keepLive (still (duel d files) files) now

/-- The timeout of the next `poll` in seconds (`fence_sanlockd.c:923-928`): the rest of the live interval, or half a
second (here 1), and 10 while one of the flags is set. -/
def D.timeout (d : D) (now : Nat) : Nat :=
  if d.victim || d.recovery || d.fencing then 10
  else if d.live + liveInterval - now > 0 then d.live + liveInterval - now else 1

inductive Ev where
  | signal (s : Signal)
  | pass (now : Nat) (files : List (Option Nat))
deriving DecidableEq, Repr

def D.step (d : D) : Ev → D
  | .signal s => d.signal s
  | .pass now files => d.pass now files

def D.run (d : D) (es : List Ev) : D := es.foldl D.step d

/-- The daemon after its first `wdmd_test_live` (`fence_sanlockd.c:716-728`). -/
def D.init (id now : Nat) : D := ⟨id, false, false, false, false, now, false, [now]⟩

/-! ### The agents and the victim -/

/-- The leader record of the victim's lease; `held` is a timestamp that is not 0.  The generation of an owner other than
the victim is not looked at and left as 1. -/
structure Rec where
  owner : Nat
  gen : Nat
  held : Bool
deriving DecidableEq, Repr

/-- Where an agent is in `action_off`. -/
inductive Ag where
  | idle
  /-- before `sanlock client acquire`; `g` is the generation first read -/
  | trying (g : Nat)
  /-- before `sanlock client release` -/
  | releasing
  /-- the acquire has failed -/
  | waiting (g : Nat)
  /-- exit status 0 -/
  | ok
  /-- exit status 1 -/
  | failed
deriving DecidableEq, Repr

/-- The victim has host id `vid`; hosts are their host ids. -/
structure World where
  vid : Nat
  lease : Rec
  /-- number of times the victim has been reset -/
  boots : Nat
  /-- generation with which the victim is a member of the lockspace -/
  joined : Option Nat
  /-- generation in the victim's host lease on disk -/
  dgen : Nat
  /-- the victim has left the lockspace: the host lease is free -/
  dfree : Bool
  /-- sanlock on the victim was killed and the watchdog has not fired yet -/
  pending : Bool
  /-- fence_sanlockd on the victim holds the lease -/
  holds : Bool
  agent : Nat → Ag

inductive Act where
  /-- the victim joins the lockspace (`fence_sanlockd.c:675`) -/
  | join
  /-- fence_sanlockd on the victim gets its lease; `gone`: its present owner, another host, counts as dead -/
  | on (gone : Bool)
  /-- SIGHUP on the victim: the lease is released (`fence_sanlockd.c:931-932`) -/
  | off
  /-- the victim leaves the lockspace (`fence_sanlockd.c:933-934`) -/
  | leave
  /-- sanlock on the victim is killed -/
  | crash
  /-- the watchdog of the victim fires -/
  | reset
  /-- an agent on host `i` starts and reads the leader record (`fence_sanlock.in:231-247`); not on the victim itself -/
  | start (i : Nat)
  /-- it cannot read the record, or fence_sanlockd does not run on its host (`fence_sanlock.in:249-253`, `272-277`, `324-329`) -/
  | giveUp (i : Nat)
  /-- `sanlock client acquire` succeeds (`fence_sanlock.in:279-280`) -/
  | win (i : Nat) (gone : Bool)
  /-- and fails -/
  | lose (i : Nat)
  /-- `sanlock client release`, which may fail (`fence_sanlock.in:281-289`); the record is only
  changed if it names the caller (`paxos_lease_release`) -/
  | release (i : Nat) (ok : Bool)
  /-- the record is read again (`fence_sanlock.in:324-344`) -/
  | reread (i : Nat)
  /-- the agent is killed -/
  | die (i : Nat)
deriving DecidableEq

def World.setAg (w : World) (i : Nat) (a : Ag) : World := { w with agent := fun x => if x = i then a else w.agent x }

/-- The owner of the lease does not count as alive: what sanlock requires before it gives a held lease to another
host. -/
def ownerGone (w : World) (gone : Bool) : Bool :=
  if w.lease.owner = w.vid then
    w.dfree || decide (w.lease.gen < w.dgen) || (w.joined.isNone && !w.pending)
  else gone

def step (w : World) : Act → Option World
  | .join =>
    if w.joined.isNone then some { w with joined := some (w.dgen + 1), dgen := w.dgen + 1, dfree := false } else none
  | .on gone =>
    match w.joined with
    | some g =>
      if !w.holds && (!w.lease.held || w.lease.owner == w.vid || gone) then
        some { w with holds := true, lease := ⟨w.vid, g, true⟩ }
      else none
    | none => none
  | .off => if w.holds then some { w with holds := false, lease := { w.lease with held := false } } else none
  | .leave => if w.joined.isSome && !w.holds then some { w with joined := none, dfree := true } else none
  | .crash => if w.joined.isSome then some { w with joined := none, holds := false, pending := true } else none
  | .reset => some { w with boots := w.boots + 1, joined := none, holds := false, pending := false }
  | .start i =>
    match w.agent i with
    | .idle =>
      if i = w.vid then none
      else if !w.lease.held then some (w.setAg i .ok)
      else if w.lease.owner ≠ w.vid then some (w.setAg i .failed)
      else some (w.setAg i (.trying w.lease.gen))
    | _ => none
  | .giveUp i =>
    match w.agent i with
    | .trying _ | .waiting _ => some (w.setAg i .failed)
    | _ => none
  | .win i gone =>
    match w.agent i with
    | .trying _ =>
      if !w.lease.held || ownerGone w gone then some { w.setAg i .releasing with lease := ⟨i, 1, true⟩ } else none
    | _ => none
  | .lose i =>
    match w.agent i with
    | .trying g => some (w.setAg i (.waiting g))
    | _ => none
  | .release i ok =>
    match w.agent i with
    | .releasing =>
      if ok && w.lease.owner == i then some { w.setAg i .ok with lease := { w.lease with held := false } }
      else some (w.setAg i .ok)
    | _ => none
  | .reread i =>
    match w.agent i with
    | .waiting g =>
      if w.lease.owner ≠ w.vid then some (w.setAg i .failed)
      else if g < w.lease.gen then some (w.setAg i .ok)
      else some (w.setAg i (.trying g))
    | _ => none
  | .die i => some (w.setAg i .idle)

def run (w : World) : List Act → Option World
  | [] => some w
  | a :: as => (step w a).bind fun v => run v as

/-- Nobody has used the victim's lease yet. -/
def init (vid : Nat) : World := ⟨vid, ⟨0, 0, false⟩, 0, none, 0, true, false, false, fun _ => .idle⟩

end Sanlock.Fence
