import Verif.Model.Dbl
import Mathlib.LinearAlgebra.Matrix.NonsingularInverse
import Mathlib.LinearAlgebra.Matrix.Notation
import Mathlib.Analysis.SpecialFunctions.Trigonometric.Inverse
/-!
# tf2 linear algebra as used by the node

tf2 is library code (not in `/repo`); these are the formulas of `tf2/LinearMath`.  They are used in
ros_filter.cpp:2629-3436, ros_filter_utilities.cpp:106-120, 198-228, navsat_transform.cpp and
ros_robot_localization_listener.cpp.
-/

namespace RL
open Matrix

abbrev M3 := Matrix (Fin 3) (Fin 3) ℝ
abbrev V3 := Fin 3 → ℝ

/-- `tf2::Vector3::cross`. -/
def cross (a b : V3) : V3 := ![a 1 * b 2 - a 2 * b 1, a 2 * b 0 - a 0 * b 2, a 0 * b 1 - a 1 * b 0]

/-- `tf2::Transform`: basis and origin. -/
structure Tf where
  rot : M3
  org : V3

namespace Tf

/-- `Transform::getIdentity`. -/
def id : Tf := { rot := 1, org := 0 }

/-- `Transform::operator*` and `mult`. -/
def mul (a b : Tf) : Tf := { rot := a.rot * b.rot, org := a.rot.mulVec b.org + a.org }

/-- `Transform::inverse` (the basis is transposed). -/
def inv (a : Tf) : Tf := { rot := a.rotᵀ, org := a.rotᵀ.mulVec (-a.org) }

/-- `Transform::inverseTimes`. -/
def inverseTimes (a b : Tf) : Tf := { rot := a.rotᵀ * b.rot, org := a.rotᵀ.mulVec (b.org - a.org) }

/-- `Transform::operator()` on a point. -/
def apply (a : Tf) (v : V3) : V3 := a.rot.mulVec v + a.org

end Tf

/-- `tf2::Quaternion`. -/
structure Quat where
  x : ℝ
  y : ℝ
  z : ℝ
  w : ℝ

/-- `Quaternion::length2`. -/
def Quat.len2 (q : Quat) : ℝ := q.x * q.x + q.y * q.y + q.z * q.z + q.w * q.w

/-- `Quaternion::normalize`. -/
noncomputable def Quat.normalize (q : Quat) : Quat :=
  let l := Real.sqrt q.len2
  { x := q.x / l, y := q.y / l, z := q.z / l, w := q.w / l }

/-- `Quaternion::setRPY`. -/
noncomputable def Quat.ofRPY (roll pitch yaw : ℝ) : Quat :=
  let sy := Real.sin (yaw * 0.5)
  let cy := Real.cos (yaw * 0.5)
  let sp := Real.sin (pitch * 0.5)
  let cp := Real.cos (pitch * 0.5)
  let sr := Real.sin (roll * 0.5)
  let cr := Real.cos (roll * 0.5)
  { x := sr * cp * cy - cr * sp * sy
    y := cr * sp * cy + sr * cp * sy
    z := cr * cp * sy - sr * sp * cy
    w := cr * cp * cy + sr * sp * sy }

/-- `Matrix3x3::setRotation`. -/
noncomputable def Quat.mat (q : Quat) : M3 :=
  let s := 2 / q.len2
  let xs := q.x * s
  let ys := q.y * s
  let zs := q.z * s
  let wx := q.w * xs
  let wy := q.w * ys
  let wz := q.w * zs
  let xx := q.x * xs
  let xy := q.x * ys
  let xz := q.x * zs
  let yy := q.y * ys
  let yz := q.y * zs
  let zz := q.z * zs
  !![1 - (yy + zz), xy - wz, xz + wy;
     xy + wz, 1 - (xx + zz), yz - wx;
     xz - wy, yz + wx, 1 - (xx + yy)]

/-- `Matrix3x3::getRotation`. -/
noncomputable def quatOf (m : M3) : Quat :=
  let trace := m 0 0 + m 1 1 + m 2 2
  if trace > 0 then
    let s := Real.sqrt (trace + 1)
    let h := 0.5 / s
    { x := (m 2 1 - m 1 2) * h, y := (m 0 2 - m 2 0) * h, z := (m 1 0 - m 0 1) * h, w := s * 0.5 }
  else if m 0 0 < m 1 1 then
    if m 1 1 < m 2 2 then
      let s := Real.sqrt (m 2 2 - m 0 0 - m 1 1 + 1)
      let h := 0.5 / s
      { x := (m 0 2 + m 2 0) * h, y := (m 1 2 + m 2 1) * h, z := s * 0.5, w := (m 1 0 - m 0 1) * h }
    else
      let s := Real.sqrt (m 1 1 - m 2 2 - m 0 0 + 1)
      let h := 0.5 / s
      { x := (m 0 1 + m 1 0) * h, y := s * 0.5, z := (m 2 1 + m 1 2) * h, w := (m 0 2 - m 2 0) * h }
  else if m 0 0 < m 2 2 then
    let s := Real.sqrt (m 2 2 - m 0 0 - m 1 1 + 1)
    let h := 0.5 / s
    { x := (m 0 2 + m 2 0) * h, y := (m 1 2 + m 2 1) * h, z := s * 0.5, w := (m 1 0 - m 0 1) * h }
  else
    let s := Real.sqrt (m 0 0 - m 1 1 - m 2 2 + 1)
    let h := 0.5 / s
    { x := s * 0.5, y := (m 1 0 + m 0 1) * h, z := (m 2 0 + m 0 2) * h, w := (m 2 1 - m 1 2) * h }

/-- `Matrix3x3::setRPY`, which is `setEulerYPR`. -/
noncomputable def setRPY (roll pitch yaw : ℝ) : M3 :=
  let ci := Real.cos roll
  let cj := Real.cos pitch
  let ch := Real.cos yaw
  let si := Real.sin roll
  let sj := Real.sin pitch
  let sh := Real.sin yaw
  let cc := ci * ch
  let cs := ci * sh
  let sc := si * ch
  let ss := si * sh
  !![cj * ch, sj * sc - cs, sj * cc + ss;
     cj * sh, sj * ss + cc, sj * cs - sc;
     -sj, cj * si, cj * ci]

/-- `Matrix3x3::getRPY`, which is the first solution of `getEulerYPR`.  The result is roll, pitch, yaw. -/
noncomputable def getRPY (m : M3) : V3 :=
  if 1 ≤ |m 2 0| then
    let delta := atan2 (m 2 1) (m 2 2)
    if m 2 0 < 0 then ![delta, Real.pi / 2, 0] else ![delta, -(Real.pi / 2), 0]
  else
    let pitch := -Real.arcsin (m 2 0)
    ![atan2 (m 2 1 / Real.cos pitch) (m 2 2 / Real.cos pitch), pitch,
      atan2 (m 1 0 / Real.cos pitch) (m 0 0 / Real.cos pitch)]

/-- ros_filter_utilities.cpp:198-204 `quatToRPY`. -/
noncomputable def quatToRPY (q : Quat) : V3 := getRPY q.mat

/-- ros_filter_utilities.cpp:106-115 `getYaw`. -/
noncomputable def getYaw (q : Quat) : ℝ := getRPY q.mat 2

/-- ros_filter_utilities.cpp:206-218 `stateToTF`, on the six pose variables of a state. -/
noncomputable def stateToTF (x : Fin 15 → ℝ) : Tf :=
  { rot := (Quat.ofRPY (x 3) (x 4) (x 5)).mat, org := ![x 0, x 1, x 2] }

/-- ros_filter_utilities.cpp:220-228 `TFtoState`: the six pose variables are overwritten. -/
noncomputable def TFtoState (t : Tf) (x : Fin 15 → ℝ) : Fin 15 → ℝ
  | 0 => t.org 0
  | 1 => t.org 1
  | 2 => t.org 2
  | 3 => quatToRPY (quatOf t.rot) 0
  | 4 => quatToRPY (quatOf t.rot) 1
  | 5 => quatToRPY (quatOf t.rot) 2
  | i => x i

/-- A rotation: what a basis holds unless it was filled with something else. -/
def IsRot (m : M3) : Prop := m * mᵀ = 1 ∧ m.det = 1

end RL
