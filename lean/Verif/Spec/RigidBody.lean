import Mathlib.Data.Real.Basic
import Mathlib.LinearAlgebra.Matrix.Notation
import Mathlib.Analysis.SpecialFunctions.Trigonometric.Basic
/-!
# Rigid body motion with constant body acceleration

Written from the mechanics, without reference to the filter: orientation is `Rz(yaw) Ry(pitch) Rx(roll)`, body velocity
and acceleration are rotated into the world frame, the rotation matrix changes by `R ω×`.
-/

namespace RL.Body
open Matrix

abbrev Mat3 := Matrix (Fin 3) (Fin 3) ℝ
abbrev Vec3 := Fin 3 → ℝ

noncomputable def rotX (a : ℝ) : Mat3 := !![1, 0, 0; 0, Real.cos a, -Real.sin a; 0, Real.sin a, Real.cos a]
noncomputable def rotY (a : ℝ) : Mat3 := !![Real.cos a, 0, Real.sin a; 0, 1, 0; -Real.sin a, 0, Real.cos a]
noncomputable def rotZ (a : ℝ) : Mat3 := !![Real.cos a, -Real.sin a, 0; Real.sin a, Real.cos a, 0; 0, 0, 1]

/-- Body to world rotation of roll, pitch, yaw. -/
noncomputable def rot (e : Vec3) : Mat3 := rotZ (e 2) * rotY (e 1) * rotX (e 0)

/-- Cross product matrix. -/
def skew (w : Vec3) : Mat3 := !![0, -w 2, w 1; w 2, 0, -w 0; -w 1, w 0, 0]

/-- The kinematic state of a body: position and orientation in the world; the rest in the body frame. -/
structure Kin where
  pos : Vec3
  eul : Vec3
  vel : Vec3
  rate : Vec3
  acc : Vec3

/-- How fast roll, pitch and yaw change at body rates `w`. -/
noncomputable def eulerRates (e w : Vec3) : Vec3 :=
  ![w 0 + Real.sin (e 0) * Real.tan (e 1) * w 1 + Real.cos (e 0) * Real.tan (e 1) * w 2,
    Real.cos (e 0) * w 1 - Real.sin (e 0) * w 2,
    (Real.sin (e 0) * w 1 + Real.cos (e 0) * w 2) / Real.cos (e 1)]

/-- Motion over a short time: second order in the position, first order in the rest. -/
noncomputable def move (k : Kin) (dt : ℝ) : Kin where
  pos := k.pos + (rot k.eul).mulVec (dt • k.vel + (dt ^ 2 / 2) • k.acc)
  eul := k.eul + dt • eulerRates k.eul k.rate
  vel := k.vel + dt • k.acc
  rate := k.rate
  acc := k.acc

/-- The fifteen numbers of a kinematic state in the order of the state vector. -/
def Kin.vec (k : Kin) : Fin 15 → ℝ :=
  ![k.pos 0, k.pos 1, k.pos 2, k.eul 0, k.eul 1, k.eul 2, k.vel 0, k.vel 1, k.vel 2, k.rate 0, k.rate 1, k.rate 2,
    k.acc 0, k.acc 1, k.acc 2]
def kin (x : Fin 15 → ℝ) : Kin where
  pos := ![x 0, x 1, x 2]
  eul := ![x 3, x 4, x 5]
  vel := ![x 6, x 7, x 8]
  rate := ![x 9, x 10, x 11]
  acc := ![x 12, x 13, x 14]

end RL.Body
