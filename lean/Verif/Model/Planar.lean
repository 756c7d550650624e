import Verif.Model.Ekf
/-! # `forceTwoD`, ros_filter.cpp:378-406 -/

namespace RL

/-- The indices assigned in ros_filter.cpp:383-389, 391-397 and 399-405: z, roll, pitch, their rates, vertical
acceleration. -/
def offPlane : Fin 15 → Bool
  | 2 => true
  | 3 => true
  | 4 => true
  | 8 => true
  | 9 => true
  | 10 => true
  | 14 => true
  | _ => false

/-- ros_filter.cpp:378-406 `forceTwoD`, on value, covariance and update flags of a measurement. -/
noncomputable def forceTwoD (m : Payload) : Payload :=
  { m with
    z := fun i => if offPlane i then .fin 0 else m.z i
    R := .of fun i j => if i = j ∧ offPlane i = true then 1e-6 else m.R i j
    upd := fun i => if offPlane i then true else m.upd i }

end RL
