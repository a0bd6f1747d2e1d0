import Verif.DevNo
import Mathlib.Tactic.IntervalCases

/-!
# Device number properties: C30
-/

namespace Verif.DevNo

theorem major_makedev (a b : BitVec 32) : major (makedev a b) = a := by
  apply BitVec.eq_of_getLsbD_eq
  intro i hi
  unfold major makedev
  interval_cases i <;> simp

theorem minor_makedev (a b : BitVec 32) : minor (makedev a b) = b := by
  apply BitVec.eq_of_getLsbD_eq
  intro i hi
  unfold minor makedev
  interval_cases i <;> simp

theorem makedev_parts (d : BitVec 64) : makedev (major d) (minor d) = d := by
  apply BitVec.eq_of_getLsbD_eq
  intro i hi
  unfold minor makedev major
  interval_cases i <;> simp

/-- C30.  Splitting a device number built from a major and a minor number gives them
back, for all 32-bit values. -/
theorem devtuple_makedev (a b : BitVec 32) : devtuple (makedev a b) = (a, b) := by
  simp [devtuple, major_makedev, minor_makedev]

/-- C30.  Building is also a left inverse of splitting: every 64-bit device number is
`makedev` of its parts. -/
theorem makedev_devtuple (d : BitVec 64) :
    makedev (devtuple d).1 (devtuple d).2 = d := makedev_parts d

/-- C30.  Distinct pairs give distinct device numbers. -/
theorem makedev_injective (a b a' b' : BitVec 32) (h : makedev a b = makedev a' b') :
    a = a' ∧ b = b' := by
  have := congrArg devtuple h
  simpa [devtuple_makedev] using this

example : makedev 1#32 3#32 = 0x103#64 ∧ devtuple 0x103#64 = (1#32, 3#32) := by decide

end Verif.DevNo
