import Verif.Base

/-!
# Model of device numbers

`/repo/src/safeposix/syscalls/fs_constants.rs` 178-198.
-/

namespace Verif.DevNo

/-- `makedev`, lines 178-183. -/
def makedev (maj min : BitVec 32) : BitVec 64 :=
  ((maj.setWidth 64 &&& 0x00000fff#64) <<< 8) |||
  ((maj.setWidth 64 &&& 0xfffff000#64) <<< 32) |||
  ((min.setWidth 64 &&& 0x000000ff#64) <<< 0) |||
  ((min.setWidth 64 &&& 0xffffff00#64) <<< 12)

/-- `major`, lines 186-188. -/
def major (d : BitVec 64) : BitVec 32 :=
  (((d &&& 0x00000000000fff00#64) >>> 8) ||| ((d &&& 0xfffff00000000000#64) >>> 32)).setWidth 32

/-- `minor`, lines 189-191. -/
def minor (d : BitVec 64) : BitVec 32 :=
  (((d &&& 0x00000000000000ff#64) >>> 0) ||| ((d &&& 0x00000ffffff00000#64) >>> 12)).setWidth 32

/-- `devtuple`, lines 193-198. -/
def devtuple (d : BitVec 64) : BitVec 32 × BitVec 32 := (major d, minor d)

end Verif.DevNo
