/-!
# Size flags and lease area layout

Models `src/sizeflags.c` and the sector numbers used by `src/paxos_lease.c` and `src/delta_lease.c`.
-/

namespace Sanlock.SizeFlags

def M1 : Nat := 1048576
def M2 : Nat := 2097152
def M4 : Nat := 4194304
def M8 : Nat := 8388608

/-- `size_to_max_hosts` (`src/sizeflags.c:31-46`). -/
def sizeToMaxHosts (sector align : Nat) : Nat :=
  if align = M1 ∧ sector = 512 then 2000
  else if align = M1 ∧ sector = 4096 then 250
  else if align = M2 ∧ sector = 4096 then 500
  else if align = M4 ∧ sector = 4096 then 1000
  else if align = M8 ∧ sector = 4096 then 2000
  else 0

/-- `sector_size_to_align_size_old` (`src/sizeflags.c:54-61`); `none` is the return value -1. -/
def alignOld (sector : Nat) : Option Nat :=
  if sector = 512 then some M1 else if sector = 4096 then some M8 else none

/-- Is bit mask `m` set in `flags`? (`flags & m`) -/
def has (flags m : UInt32) : Bool := (flags &&& m) != 0

/-- Test a list of (mask, size) pairs in order; 0 if none is set.  Shape shared by all the
`*_align_flag_to_size`, `*_align_size_from_flag` and `*_sector_flag_to_size` functions. -/
def firstSize (flags : UInt32) : List (UInt32 × Nat) → Nat
  | [] => 0
  | (m, s) :: r => if has flags m then s else firstSize flags r

/-- Inverse direction: 0 if the size is unknown. -/
def flagOf (size : Nat) : List (UInt32 × Nat) → UInt32
  | [] => 0
  | (m, s) :: r => if size = s then m else flagOf size r

/-- `LFL_ALIGN_*`, `SANLK_LSF_ALIGN*`, `SANLK_RES_ALIGN*`, `SANLK_RIF_ALIGN*` all have these values
(`src/leader.h`, `src/sanlock.h`). -/
def alignTable : List (UInt32 × Nat) := [(0x10, M1), (0x20, M2), (0x40, M4), (0x80, M8)]
/-- `RHF_ALIGN_*` (`src/rindex_disk.h`). -/
def rhfTable : List (UInt32 × Nat) := [(1, M1), (2, M2), (4, M4), (8, M8)]
/-- `SANLK_*_SECTOR512/4K`. -/
def sectorTable : List (UInt32 × Nat) := [(0x100, 512), (0x200, 4096)]

/-- `leader_align_size_from_flag`, `sanlk_{lsf,res,rif}_align_flag_to_size`
(`src/sizeflags.c:94-105, 175-186, 239-250, 289-300`). -/
def alignOfFlags (flags : UInt32) : Nat := firstSize flags alignTable
/-- `leader_align_flag_from_size`, `sanlk_{lsf,res,rif}_align_size_to_flag`
(`src/sizeflags.c:80-92, 188-200, 252-264, 302-314`). -/
def flagOfAlign (a : Nat) : UInt32 := flagOf a alignTable
/-- `rindex_header_align_size_from_flag` (`src/sizeflags.c:125-136`). -/
def rhfAlignOfFlags (flags : UInt32) : Nat := firstSize flags rhfTable
/-- `rindex_header_align_flag_from_size` (`src/sizeflags.c:111-123`). -/
def rhfFlagOfAlign (a : Nat) : UInt32 := flagOf a rhfTable
/-- `sanlk_{lsf,res,rif}_sector_flag_to_size` (`src/sizeflags.c:142-149, 206-213, 270-277`). -/
def sectorOfFlags (flags : UInt32) : Nat := firstSize flags sectorTable
/-- `sanlk_{lsf,res,rif}_sector_size_to_flag` (`src/sizeflags.c:151-159, 215-223, 279-287`). -/
def flagOfSector (s : Nat) : UInt32 := flagOf s sectorTable

/-- `sanlk_{lsf,res}_align_flags_clear` (`src/sizeflags.c:167-173, 231-237`). -/
def alignFlagsClear (flags : UInt32) : UInt32 :=
  flags &&& ~~~0x10 &&& ~~~0x20 &&& ~~~0x40 &&& ~~~0x80
/-- `sanlk_{lsf,res}_sector_flags_clear` (`src/sizeflags.c:161-165, 225-229`). -/
def sectorFlagsClear (flags : UInt32) : UInt32 := flags &&& ~~~0x100 &&& ~~~0x200

/-- `sizes_from_flags` (`src/sizeflags.c:320-385`) for a known kind: `none` is the error return -1,
otherwise sector size, align size, max hosts (all zero if no flag is given). -/
def sizesFromFlags (flags : UInt32) : Option (Nat × Nat × Nat) :=
  let align := alignOfFlags flags
  let sector := sectorOfFlags flags
  if (sector = 0) ≠ (align = 0) then none
  else if sector = 0 then some (sector, align, 0)
  else
    let mh := sizeToMaxHosts sector align
    if mh = 0 then none else some (sector, align, mh)

/-- Byte offset of a sector in a lease area (`offset + sector_nr * sector_size`, `src/diskio.c:869-930`). -/
def sectorStart (sector nr : Nat) : Nat := nr * sector

/-- Sector of the leader record of a resource lease (`write_leader`, `src/paxos_lease.c:248-269`). -/
def leaderSector : Nat := 0
/-- Sector of the request record (`src/paxos_lease.c:76-110`). -/
def requestSector : Nat := 1
/-- Sector of the dblock of a host: `2 + host_id - 1` (`write_dblock`, `src/paxos_lease.c:216-246`). -/
def dblockSector (hostId : Nat) : Nat := 2 + hostId - 1
/-- Sector of a host's delta lease: `host_id - 1` (`src/delta_lease.c:251-287`). -/
def deltaSector (hostId : Nat) : Nat := hostId - 1
/-- `LVB_SECTOR` (`src/resource.c:660`). -/
def lvbSector : Nat := 2002

/-! ## Lemmas -/

theorem sizeToMaxHosts_pos {s a : Nat} (h : sizeToMaxHosts s a ≠ 0) :
    (s = 512 ∧ a = M1 ∧ sizeToMaxHosts s a = 2000) ∨ (s = 4096 ∧ a = M1 ∧ sizeToMaxHosts s a = 250) ∨
    (s = 4096 ∧ a = M2 ∧ sizeToMaxHosts s a = 500) ∨ (s = 4096 ∧ a = M4 ∧ sizeToMaxHosts s a = 1000) ∨
    (s = 4096 ∧ a = M8 ∧ sizeToMaxHosts s a = 2000) := by
  unfold sizeToMaxHosts at *
  split at h
  · rename_i h'; simp [h'.1, h'.2]
  · split at h
    · rename_i h'; simp [h'.1, h'.2]
    · split at h
      · rename_i h'; simp [h'.1, h'.2]
        decide
      · split at h
        · rename_i h'; simp [h'.1, h'.2]
          decide
        · split at h
          · rename_i h'; simp [h'.1, h'.2]
            decide
          · exact absurd rfl h

end Sanlock.SizeFlags
