import Mathlib.Analysis.SpecialFunctions.Trigonometric.Basic
import Mathlib.Analysis.SpecialFunctions.Complex.Arg
/-! # Doubles where the code looks at NaN and infinity -/

namespace RL

/-- A `double`: a number, NaN or an infinity.  Used where the code tests `std::isnan`/`std::isinf` or where a
non-finite value is stored. -/
inductive Dbl where
  | fin (r : ℝ)
  | nan
  | inf (neg : Bool)

namespace Dbl

/-- `std::isnan`. -/
def isNan : Dbl → Bool
  | nan => true
  | _ => false

/-- `std::isinf`. -/
def isInf : Dbl → Bool
  | inf _ => true
  | _ => false

def isFin : Dbl → Bool
  | fin _ => true
  | _ => false

/-- The number, for values already known to be finite. -/
def val : Dbl → ℝ
  | fin r => r
  | _ => 0

@[simp] theorem val_fin (r : ℝ) : (fin r).val = r := rfl

/-- Division of two numbers.  Which zero the divisor is does not matter below (neither infinity is finite). -/
noncomputable def div (a b : ℝ) : Dbl :=
  if b = 0 then if a = 0 then nan else inf (decide (a < 0)) else fin (a / b)

/-- Product of a number and a double: infinity times zero is NaN. -/
noncomputable def smul (r : ℝ) : Dbl → Dbl
  | fin a => fin (r * a)
  | nan => nan
  | inf n => if r = 0 then nan else inf (n != decide (r < 0))

/-- Sum: infinities of opposite signs give NaN. -/
noncomputable def add : Dbl → Dbl → Dbl
  | fin a, fin b => fin (a + b)
  | nan, _ => nan
  | _, nan => nan
  | inf m, inf n => if m = n then inf m else nan
  | inf m, fin _ => inf m
  | fin _, inf n => inf n

end Dbl

/-- C `fmod`: the remainder of the division truncated towards zero. -/
noncomputable def fmod (a b : ℝ) : ℝ :=
  a - b * (if 0 ≤ a / b then (⌊a / b⌋ : ℝ) else (⌈a / b⌉ : ℝ))

/-- `angles::normalize_angle` of the ROS 2 package `angles` (library code used at filter_base.cpp:424-426,
ekf.cpp:192, ukf.cpp). -/
noncomputable def normalizeAngle (a : ℝ) : ℝ :=
  let r := fmod (a + Real.pi) (2 * Real.pi)
  if r ≤ 0 then r + Real.pi else r - Real.pi

/-- `atan2`: `Complex.arg` agrees with it on all finite arguments up to the sign of zero. -/
noncomputable def atan2 (y x : ℝ) : ℝ := Complex.arg ⟨x, y⟩

end RL
