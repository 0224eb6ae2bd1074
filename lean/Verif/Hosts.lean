import Verif.Liveness
import Verif.OwnerTest

/-!
# The list of hosts (`src/lockspace.c`, `src/cmd.c`, `src/client.c`)

`sanlock_get_hosts` from the host leases read to the list the program gets.  `Verif.Liveness` has what is remembered of one
host and its state; here are all hosts of a lockspace, the loop that fills the answer, and the program that receives it.
The main thread both looks at the leases (`check_other_leases`) and answers the command, so each is one step.
-/

namespace Sanlock.Hosts

open OnDisk Liveness

/-- `struct sanlk_host` (`src/sanlock.h:163-169`). -/
structure Host where
  id : Nat
  gen : UInt64
  ts : UInt64
  io : UInt16
  flags : Nat
deriving DecidableEq

/-- `SANLK_HOST_*` (`src/sanlock_admin.h:112-117`). -/
def code : Option Flag → Nat
  | none => 0
  | some .unknown => 1
  | some .free => 2
  | some .live => 3
  | some .fail => 4
  | some .dead => 5

/-- `struct space`: the fields used.  `status` is `host_status`, of `max_hosts` entries. -/
structure Space where
  name : List UInt8
  own : UInt64
  status : List HostStatus

/-- A lockspace just joined: `host_status` is zero. -/
def Space.fresh (name : List UInt8) (own : UInt64) (n : Nat) : Space := ⟨name, own, List.replicate n HostStatus.zero⟩

/-- The loop of `check_other_leases` over all hosts (`src/lockspace.c:392-480`), `secs i` being sector `i`. -/
def Space.check (p : Space) (now : UInt64) (secs : Nat → Leader) : Space :=
  { p with status := p.status.mapIdx fun i hs => checkOther p.name hs now (secs i) }

/-- The lockspace after any reads, oldest first. -/
def Space.after (p : Space) (reads : List (UInt64 × (Nat → Leader))) : Space :=
  reads.foldl (fun p r => p.check r.1 r.2) p

/-- One entry (`src/lockspace.c:1580-1584`).  `get_host_flag` looks at the clock anew for each host. -/
def entry (wd : Nat) (own : UInt64) (clk : Nat → UInt64) (i : Nat) (hs : HostStatus) : Host :=
  ⟨i + 1, hs.ownerGeneration, hs.timestamp, hs.ioTimeout, code (getHostFlag wd own hs (clk i))⟩

/-- The loop of `get_hosts` (`src/lockspace.c:1564-1589`) from host `i` on with `len` bytes used of `room`: the entries
written, the number of hosts counted, whether the room was too small.  An entry has 32 bytes. -/
def walk (wd : Nat) (own : UInt64) (clk : Nat → UInt64) (ask room : Nat) : Nat → List HostStatus → Nat → List Host × Nat × Bool
  | _, [], _ => ([], 0, false)
  | i, hs :: t, len =>
    if ask ≠ 0 ∧ ask ≠ i + 1 then walk wd own clk ask room (i + 1) t len
    else if ask = 0 ∧ hs.timestamp = 0 then walk wd own clk ask room (i + 1) t len
    else if len + 32 > room then
      let r := walk wd own clk ask room (i + 1) t len
      (r.1, r.2.1 + 1, true)
    else
      let r := walk wd own clk ask room (i + 1) t (len + 32)
      (entry wd own clk i hs :: r.1, r.2.1 + 1, r.2.2)

/-- `get_hosts` (`src/lockspace.c:1533-1596`) on what `_search_space` finds: the result, the entries and the count. -/
def getHosts (wd : Nat) (clk : Nat → UInt64) (room : Nat) (sp : Option Space) (ask : Nat) : Int × List Host × Nat :=
  match sp with
  | none => (Rv.ENOENT, [], 0)
  | some p =>
    if (p.status.head?).all (fun hs => hs.lastCheck = 0) then (Rv.EAGAIN, [], 0)
    else
      let r := walk wd p.own clk ask room 0 p.status 0
      (if r.2.2 then Rv.ENOSPC else 0, r.1, r.2.1)

/-- `cmd_get_hosts` with its buffer (`src/cmd.c:2889-2918`, `src/sanlock_internal.h:42`) and the rest of
`sanlock_get_hosts` (`src/client.c:332-370`): the result and the list, if it is set.  The program expects as many entries
as the count says; the daemon closes the connection after those it has sent. -/
def call (wd : Nat) (clk : Nat → UInt64) (sp : Option Space) (ask : Nat) : Int × Option (List Host) :=
  let r := getHosts wd clk 1048576 sp ask
  if r.1 < 0 ∧ r.1 ≠ Rv.ENOSPC then (r.1, none)
  else if r.2.1.length < r.2.2 then (-1, none)
  else (r.1, some r.2.1)

/-- The entries as `sanlock_test_resource_owners` looks at them. -/
def Host.test (h : Host) : OwnerTest.Host := ⟨h.id, h.gen.toNat, h.flags⟩

end Sanlock.Hosts
