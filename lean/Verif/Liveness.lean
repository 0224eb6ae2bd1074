import Verif.Verify

/-!
# What a host knows about other hosts (`lockspace.c`, `resource.c`)

`host_status` is updated from the host leases read with each renewal and used to report host states and to
decide whether a shared holder is alive.
-/

namespace Sanlock.Liveness

open OnDisk Verify

/-- `struct host_status` (sanlock_internal.h:171-183) without the fields for requests and the owner name,
which is only logged. -/
structure HostStatus where
  firstCheck : UInt64
  lastCheck : UInt64
  lastLive : UInt64
  ownerId : UInt64
  ownerGeneration : UInt64
  timestamp : UInt64
  ioTimeout : UInt16
  leaseBad : UInt16
deriving DecidableEq, Repr

/-- `calloc`ed. -/
def HostStatus.zero : HostStatus :=
  { firstCheck := 0, lastCheck := 0, lastLive := 0, ownerId := 0, ownerGeneration := 0, timestamp := 0,
    ioTimeout := 0, leaseBad := 0 }

/-- `check_other_leases` for one host (lockspace.c:392-480): `leader` is the decoded sector, which is not
verified. -/
def checkOther (space : List UInt8) (hs : HostStatus) (now : UInt64) (leader : Leader) : HostStatus :=
  let hs := { hs with lastCheck := now }
  let hs := if hs.firstCheck = 0 then { hs with firstCheck := now } else hs
  let bad := leader.magic ≠ deltaMagic ∨ strncmpEq 48 leader.spaceName.bytes space = false
  let hs := if bad then
      let n := hs.leaseBad + 1
      { hs with leaseBad := if n = 0 then 1 else n }
    else { hs with leaseBad := 0 }
  if hs.ownerId = leader.ownerId ∧ hs.ownerGeneration = leader.ownerGeneration ∧ hs.timestamp = leader.timestamp
  then hs
  else
    let hs := if hs.leaseBad = 0 then
        { hs with ownerId := leader.ownerId, ownerGeneration := leader.ownerGeneration, ioTimeout := leader.ioTimeout }
      else hs
    { hs with timestamp := leader.timestamp, lastLive := now }

/-- A sequence of reads. -/
def checkAll (space : List UInt8) (hs : HostStatus) (reads : List (UInt64 × Leader)) : HostStatus :=
  reads.foldl (fun hs r => checkOther space hs r.1 r.2) hs

/-- `calc_host_dead_seconds` and `calc_id_renewal_fail_seconds` for a 16 bit timeout: no overflow.
`wd` is the watchdog timeout. -/
def failSecs (io : UInt16) : UInt64 := UInt64.ofNat (8 * io.toNat)
def deadSecs (wd : Nat) (io : UInt16) : UInt64 := UInt64.ofNat (8 * io.toNat + wd)

/-- `SANLK_HOST_*` (sanlock_admin.h). -/
inductive Flag
  | unknown | free | live | fail | dead
deriving DecidableEq, Repr

/-- `get_host_flag` (lockspace.c:1487-1531): `none` is 0. Subtractions are unsigned 64 bit. -/
def getHostFlag (wd : Nat) (ownId : UInt64) (hs : HostStatus) (now : UInt64) : Option Flag :=
  if hs.timestamp = 0 then some .free
  else
    let last := if hs.lastLive = 0 then hs.firstCheck else hs.lastLive
    if ownId = hs.ownerId then some .live
    else if now - last ≤ failSecs hs.ioTimeout ∧ hs.firstCheck = hs.lastLive then some .unknown
    else if now - last ≤ failSecs hs.ioTimeout then some .live
    else if now - last > deadSecs wd hs.ioTimeout then some .dead
    else if now - last > failSecs hs.ioTimeout then some .fail
    else none

/-- `host_info` (lockspace.c:295-329) for a host that is found: a missing timeout is replaced by the own
one.  `none` stands for an error. -/
def hostInfo (ownIo : UInt16) (hs : Option HostStatus) : Option HostStatus :=
  hs.map fun h => if h.ioTimeout = 0 then { h with ioTimeout := ownIo } else h

/-- `host_live` (resource.c:335-394). -/
def hostLive (wd : Nat) (ownIo : UInt16) (hs : Option HostStatus) (gen now : UInt64) : Bool :=
  match hostInfo ownIo hs with
  | none => true
  | some hs =>
    if hs.lastCheck = 0 then true
    else if hs.timestamp = 0 then false
    else if hs.ownerGeneration > gen then false
    else if hs.lastLive = 0 ∧ now - hs.firstCheck > deadSecs wd hs.ioTimeout then false
    else if hs.lastLive ≠ 0 ∧ now - hs.lastLive > deadSecs wd hs.ioTimeout then false
    else true

end Sanlock.Liveness
