/-!
# Return codes

`src/sanlock_rv.h`.  Functions of the model return an `Int` like the C functions: `SANLK_OK` is 1,
errors are negative.  Negative `errno` values are written with their Linux numbers.
-/

namespace Sanlock.Rv

/-- `src/sanlock_rv.h:12` -/
def OK : Int := 1
/-- `src/sanlock_rv.h:14-92`: the error codes. -/
def ERROR : Int := -201
def AIO_TIMEOUT : Int := -202
def WD_ERROR : Int := -203
def DBLOCK_READ : Int := -210
def DBLOCK_WRITE : Int := -211
def DBLOCK_LVER : Int := -212
def DBLOCK_MBAL : Int := -213
def DBLOCK_CHECKSUM : Int := -214
def LEADER_READ : Int := -220
def LEADER_WRITE : Int := -221
def LEADER_DIFF : Int := -222
def LEADER_MAGIC : Int := -223
def LEADER_VERSION : Int := -224
def LEADER_SECTORSIZE : Int := -225
def LEADER_LOCKSPACE : Int := -226
def LEADER_RESOURCE : Int := -227
def LEADER_NUMHOSTS : Int := -228
def LEADER_CHECKSUM : Int := -229
def ACQUIRE_LVER : Int := -240
def ACQUIRE_LOCKSPACE : Int := -241
def ACQUIRE_IDDISK : Int := -242
def ACQUIRE_IDLIVE : Int := -243
def ACQUIRE_OWNED : Int := -244
def ACQUIRE_OTHER : Int := -245
def ACQUIRE_SHRETRY : Int := -246
def ACQUIRE_OWNED_RETRY : Int := -247
def RELEASE_LVER : Int := -250
def RELEASE_OWNER : Int := -251
def RENEW_OWNER : Int := -260
def RENEW_DIFF : Int := -261
def HOSTID_BUSY : Int := -262

/-- Linux `errno` values used by the code, negated. -/
def EPERM : Int := -1
def ENOENT : Int := -2
def ESRCH : Int := -3
def E2BIG : Int := -7
def EAGAIN : Int := -11
def ENOMEM : Int := -12
def EBUSY : Int := -16
def EEXIST : Int := -17
def EINVAL : Int := -22
def ENOTTY : Int := -25
def ENOSPC : Int := -28
def ERANGE : Int := -34
def EALREADY : Int := -114
def EINPROGRESS : Int := -115
def EUCLEAN : Int := -117

end Sanlock.Rv
