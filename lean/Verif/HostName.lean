import Verif.Delta

/-!
# The name of the host (`src/main.c`)

By its name a daemon knows whether a host lease that is held is its own.  `Verif.Delta` has the comparison and what is written to the lease.
-/

namespace Sanlock.HostName

/-- The bytes before the first zero. -/
def cstr (s : List UInt8) : List UInt8 := s.takeWhile (· ≠ 0)

/-- `-e` and `our_host_name` of the configuration (`src/main.c:2466`, 2862): `strncpy` of 48 bytes to an array of 49 that is zero. -/
def setting (s : List UInt8) : List UInt8 := (cstr s).take 48

/-- `setup_host_name` (`src/main.c:1476-1507`): the setting, or the UUID, a full stop and 11 bytes of the node name, in the array of 49 bytes
that is zero, as a string.  `uuid` has 36 characters. -/
def setup (setting uuid node : List UInt8) : List UInt8 :=
  if setting ≠ [] then setting.take 48
  else
    let s := (uuid ++ [46]).take 47
    let ret := uuid.length + 1
    cstr (if ret < 48 then s ++ node.take (48 - ret) else s)

end Sanlock.HostName
