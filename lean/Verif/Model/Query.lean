import Verif.Model.Listener
import Verif.Model.Settings
import Verif.Model.Ukf
/-!
# Queries to the listener: the filter used for predictions, its noise, the service

Model of the constructor and `extrapolate` of `/repo/src/robot_localization_estimator.cpp`, of the constructor of
`/repo/src/ros_robot_localization_listener.cpp` and of `/repo/src/robot_localization_listener_node.cpp`.
-/

namespace RL.Listen

/-- robot_localization_estimator.cpp:54-56 and filter_base.cpp:46-77: the filter of the estimator is left as constructed,
except for its process noise: no control, no dynamic noise. -/
noncomputable def estPar : FilterPar :=
  { useControl := false, ctlTimeout := 0, ctlUpd := fun _ => false, accLim := 0, accGain := 0, decLim := 0, decGain := 0
    dynamic := false }

/-- robot_localization_estimator.cpp:171-194 `extrapolate` with an EKF: the time is rounded to nanoseconds; `none` when it
does not fit or the prediction is not finite. -/
noncomputable def predicted (Q : Mat15) (e : Full) (dt : ℝ) : Option Full :=
  (fromSeconds dt).bind fun n =>
    (Ekf.predict estPar Q 0 0 0 (toSec n) e.x e.P).map fun r => { x := r.1, P := r.2 }

/-- A prediction function that is the EKF's wherever that is finite (and anything elsewhere). -/
def Predicts (Q : Mat15) (ext : Full → ℝ → Full) : Prop := ∀ e dt r, predicted Q e dt = some r → ext e dt = r

/-- robot_localization_estimator.hpp:94-103 `FilterType`. -/
inductive FilterType where
  | ekf
  | ukf
  | notDefined
deriving DecidableEq

/-- ros_robot_localization_listener.cpp:54-66 `filterTypeFromString`. -/
def filterTypeFromString (s : String) : FilterType :=
  if s = "ekf" then .ekf else if s = "ukf" then .ukf else .notDefined

/-- The filter an estimator predicts with. -/
inductive EstFilter where
  | ekf
  | ukf (k : UkfConst)

/-- robot_localization_estimator.cpp:46-68, ukf.cpp:46-72: the filter of an estimator.  With fewer than three arguments
`setConstants` is not called: the weights are the zeros of `resize`, and `lambda_` is whatever the memory holds (`lam0`).
`none` when `setConstants` divides by zero and when there is no filter (a null pointer is dereferenced; the listener
returns before that, ros_robot_localization_listener.cpp:88-93). -/
noncomputable def estFilter (lam0 : ℝ) (t : FilterType) (args : List ℝ) : Option EstFilter :=
  match t with
  | .ekf => some .ekf
  | .ukf =>
    match args with
    | alpha :: kappa :: beta :: _ => (setConstants alpha kappa beta).map .ukf
    | _ => some (.ukf { lam := lam0, w := 0, c := 0 })
  | .notDefined => none

/-- robot_localization_estimator.cpp:171-194 `extrapolate` with either filter. -/
noncomputable def predictedWith (llt : Llt) (f : EstFilter) (Q : Mat15) (e : Full) (dt : ℝ) : Option Full :=
  match f with
  | .ekf => predicted Q e dt
  | .ukf k =>
    (fromSeconds dt).bind fun n =>
      (Ukf.predict estPar llt k Q 0 0 0 (toSec n) e.x e.P).map fun r => { x := r.1, P := r.2.1 }

/-- ros_robot_localization_listener.cpp:100-127: the process noise of the listener.  A list of the wrong length is logged
and read all the same: `none` for reading outside its bounds.  `fmt` is what writing a number to a stream with its default
precision and reading it again makes of it. -/
def readNoise (fmt : ℝ → ℝ) (param : Option (List ℝ)) : Option Mat15 :=
  let l := param.getD []
  if 225 ≤ l.length then some (.of fun i j => fmt (l.getD (15 * i.val + j.val) 0)) else none

/-- What the service sends: `float64[15]` and `float64[225]`. -/
structure Response where
  state : Fin 15 → ℝ
  covariance : Fin 225 → ℝ

/-- robot_localization_listener_node.cpp:69-98 `getStateCallback`: the value it returns is not used by rclcpp, the response
is sent in any case, with zeros where nothing was written.  `covariance.data()` is column-major. -/
def response : Answer → Option Response
  | .ub => none
  | .no => some { state := 0, covariance := 0 }
  | .state e => some { state := e.x, covariance := fun k => e.P ⟨k.val % 15, by omega⟩ ⟨k.val / 15, by omega⟩ }

end RL.Listen
