import Verif.Model.Dbl
import Verif.Model.FilterBase
import Mathlib.LinearAlgebra.Matrix.NonsingularInverse
/-!
# The extended Kalman filter

Model of `/repo/src/ekf.cpp` and of the numerical members of `/repo/src/filter_base.cpp`, over the reals.
State indices as in filter_common.hpp:42-58.
-/

namespace RL

abbrev State := Fin 15 → ℝ
abbrev Mat15 := Matrix (Fin 15) (Fin 15) ℝ

-- filter_common.hpp:42-58
abbrev iX : Fin 15 := 0
abbrev iY : Fin 15 := 1
abbrev iZ : Fin 15 := 2
abbrev iRoll : Fin 15 := 3
abbrev iPitch : Fin 15 := 4
abbrev iYaw : Fin 15 := 5
abbrev iVx : Fin 15 := 6
abbrev iVy : Fin 15 := 7
abbrev iVz : Fin 15 := 8
abbrev iVroll : Fin 15 := 9
abbrev iVpitch : Fin 15 := 10
abbrev iVyaw : Fin 15 := 11
abbrev iAx : Fin 15 := 12
abbrev iAy : Fin 15 := 13
abbrev iAz : Fin 15 := 14

/-- The parameters of a filter that are fixed once the node is configured (filter_base.cpp:275-310 and
`setUseDynamicProcessNoiseCovariance`). -/
structure FilterPar where
  useControl : Bool
  ctlTimeout : Int
  ctlUpd : Fin 6 → Bool
  accLim : Fin 6 → ℝ
  accGain : Fin 6 → ℝ
  decLim : Fin 6 → ℝ
  decGain : Fin 6 → ℝ
  dynamic : Bool

/-- filter_base.cpp:383-420 `computeControlAcceleration`. -/
noncomputable def computeControlAcceleration (state control accLim accGain decLim decGain : ℝ) : ℝ :=
  let error := control - state
  let sameSign : Prop := |error| ≤ |control| + 0.01
  let setPoint := open Classical in if sameSign then control else 0
  let decelerating : Prop := |setPoint| < |state|
  let limit := open Classical in if decelerating then decLim else accLim
  let gain := open Classical in if decelerating then decGain else accGain
  min (max (gain * error) (-limit)) limit

/-- The state index of the velocity controlled by a control index: `controlInd + POSITION_V_OFFSET`. -/
def velIdx (c : Fin 6) : Fin 15 := ⟨c.val + 6, by omega⟩

/-- filter_base.cpp:353-381 `prepareControl`: the control acceleration, recomputed from zero. -/
noncomputable def prepareControl (p : FilterPar) (ctl : Fin 6 → ℝ) (ctlTime ref : Int) (x : State) : Fin 6 → ℝ :=
  fun c =>
    if p.useControl then
      let timedOut : Bool := ref - ctlTime ≥ p.ctlTimeout
      if p.ctlUpd c then
        computeControlAcceleration (x (velIdx c)) (if timedOut then 0 else ctl c) (p.accLim c) (p.accGain c)
          (p.decLim c) (p.decGain c)
      else 0
    else 0

/-- The trigonometric values of ekf.cpp:246-256 and ukf.cpp:421-431. -/
structure Trig where
  sp : ℝ
  cp : ℝ
  cpi : ℝ
  tp : ℝ
  sr : ℝ
  cr : ℝ
  sy : ℝ
  cy : ℝ

noncomputable def trig (x : State) : Trig :=
  let sp := Real.sin (x iPitch)
  let cp := Real.cos (x iPitch)
  let cpi := 1 / cp
  { sp := sp, cp := cp, cpi := cpi, tp := sp * cpi
    sr := Real.sin (x iRoll), cr := Real.cos (x iRoll)
    sy := Real.sin (x iYaw), cy := Real.cos (x iYaw) }

/-- The entries `predict` assigns in `transfer_function_`, ekf.cpp:261-305; `none` for those it leaves alone. -/
noncomputable def fEntry (t : Trig) (dt : ℝ) : Fin 15 → Fin 15 → Option ℝ
  | 0, 6 => some (t.cy * t.cp * dt)
  | 0, 7 => some ((t.cy * t.sp * t.sr - t.sy * t.cr) * dt)
  | 0, 8 => some ((t.cy * t.sp * t.cr + t.sy * t.sr) * dt)
  | 0, 12 => some (0.5 * (t.cy * t.cp * dt) * dt)
  | 0, 13 => some (0.5 * ((t.cy * t.sp * t.sr - t.sy * t.cr) * dt) * dt)
  | 0, 14 => some (0.5 * ((t.cy * t.sp * t.cr + t.sy * t.sr) * dt) * dt)
  | 1, 6 => some (t.sy * t.cp * dt)
  | 1, 7 => some ((t.sy * t.sp * t.sr + t.cy * t.cr) * dt)
  | 1, 8 => some ((t.sy * t.sp * t.cr - t.cy * t.sr) * dt)
  | 1, 12 => some (0.5 * (t.sy * t.cp * dt) * dt)
  | 1, 13 => some (0.5 * ((t.sy * t.sp * t.sr + t.cy * t.cr) * dt) * dt)
  | 1, 14 => some (0.5 * ((t.sy * t.sp * t.cr - t.cy * t.sr) * dt) * dt)
  | 2, 6 => some (-t.sp * dt)
  | 2, 7 => some (t.cp * t.sr * dt)
  | 2, 8 => some (t.cp * t.cr * dt)
  | 2, 12 => some (0.5 * (-t.sp * dt) * dt)
  | 2, 13 => some (0.5 * (t.cp * t.sr * dt) * dt)
  | 2, 14 => some (0.5 * (t.cp * t.cr * dt) * dt)
  | 3, 9 => some dt
  | 3, 10 => some (t.sr * t.tp * dt)
  | 3, 11 => some (t.cr * t.tp * dt)
  | 4, 10 => some (t.cr * dt)
  | 4, 11 => some (-t.sr * dt)
  | 5, 10 => some (t.sr * t.cpi * dt)
  | 5, 11 => some (t.cr * t.cpi * dt)
  | 6, 12 => some dt
  | 7, 13 => some dt
  | 8, 14 => some dt
  | _, _ => none

/-- The entries of the Jacobian that differ from the transfer function, ekf.cpp:307-399. -/
noncomputable def jEntry (t : Trig) (dt : ℝ) (x : State) : Fin 15 → Fin 15 → Option ℝ :=
  let h := 0.5 * dt * dt
  fun
  | 0, 3 =>
    let y := t.cy * t.sp * t.cr + t.sy * t.sr
    let z := -t.cy * t.sp * t.sr + t.sy * t.cr
    some ((y * x iVy + z * x iVz) * dt + (y * x iAy + z * x iAz) * h)
  | 0, 4 =>
    let a := -t.cy * t.sp
    let y := t.cy * t.cp * t.sr
    let z := t.cy * t.cp * t.cr
    some ((a * x iVx + y * x iVy + z * x iVz) * dt + (a * x iAx + y * x iAy + z * x iAz) * h)
  | 0, 5 =>
    let a := -t.sy * t.cp
    let y := -t.sy * t.sp * t.sr - t.cy * t.cr
    let z := -t.sy * t.sp * t.cr + t.cy * t.sr
    some ((a * x iVx + y * x iVy + z * x iVz) * dt + (a * x iAx + y * x iAy + z * x iAz) * h)
  | 1, 3 =>
    let y := t.sy * t.sp * t.cr - t.cy * t.sr
    let z := -t.sy * t.sp * t.sr - t.cy * t.cr
    some ((y * x iVy + z * x iVz) * dt + (y * x iAy + z * x iAz) * h)
  | 1, 4 =>
    let a := -t.sy * t.sp
    let y := t.sy * t.cp * t.sr
    let z := t.sy * t.cp * t.cr
    some ((a * x iVx + y * x iVy + z * x iVz) * dt + (a * x iAx + y * x iAy + z * x iAz) * h)
  | 1, 5 =>
    let a := t.cy * t.cp
    let y := t.cy * t.sp * t.sr - t.sy * t.cr
    let z := t.cy * t.sp * t.cr + t.sy * t.sr
    some ((a * x iVx + y * x iVy + z * x iVz) * dt + (a * x iAx + y * x iAy + z * x iAz) * h)
  | 2, 3 =>
    let y := t.cp * t.cr
    let z := -t.cp * t.sr
    some ((y * x iVy + z * x iVz) * dt + (y * x iAy + z * x iAz) * h)
  | 2, 4 =>
    let a := -t.cp
    let y := -t.sp * t.sr
    let z := -t.sp * t.cr
    some ((a * x iVx + y * x iVy + z * x iVz) * dt + (a * x iAx + y * x iAy + z * x iAz) * h)
  | 3, 3 => some (1.0 + (t.cr * t.tp * x iVpitch - t.sr * t.tp * x iVyaw) * dt)
  | 3, 4 => some ((t.cpi * t.cpi * t.sr * x iVpitch + t.cpi * t.cpi * t.cr * x iVyaw) * dt)
  | 4, 3 => some ((-t.sr * x iVpitch - t.cr * x iVyaw) * dt)
  | 5, 3 => some ((t.cr * t.cpi * x iVpitch - t.sr * t.cpi * x iVyaw) * dt)
  | 5, 4 => some ((t.sr * t.tp * t.cpi * x iVpitch + t.cr * t.tp * t.cpi * x iVyaw) * dt)
  | _, _ => none

/-- The transfer function after the assignments, given what the member held before. -/
noncomputable def writeF (old : Mat15) (x : State) (dt : ℝ) : Mat15 :=
  .of fun i j => (fEntry (trig x) dt i j).getD (old i j)

/-- The Jacobian after ekf.cpp:386-399, given the transfer function. -/
noncomputable def writeJ (F : Mat15) (x : State) (dt : ℝ) : Mat15 :=
  .of fun i j => (jEntry (trig x) dt x i j).getD (F i j)

/-- filter_base.cpp:130-155 `computeDynamicProcessNoiseCovariance`, on top of what the member held before.  The norm of
the twist multiplies from both sides. -/
noncomputable def writeDyn (old Q : Mat15) (x : State) : Mat15 :=
  let v := Real.sqrt (∑ c : Fin 6, x (velIdx c) ^ 2)
  .of fun i j => if i.val < 6 ∧ j.val < 6 then v * Q i j * v else old i j

/-- filter_base.cpp:422-427 `wrapStateAngles`. -/
noncomputable def wrapStateAngles (x : State) : State :=
  fun i => if i = iRoll ∨ i = iPitch ∨ i = iYaw then normalizeAngle (x i) else x i

/-- ekf.cpp:414-431: the control terms. -/
noncomputable def applyControl (p : FilterPar) (ca : Fin 6 → ℝ) (dt : ℝ) (x : State) : State
  | 9 => x iVroll + ca 3 * dt
  | 10 => x iVpitch + ca 4 * dt
  | 11 => x iVyaw + ca 5 * dt
  | 12 => if p.ctlUpd 0 then ca 0 else x iAx
  | 13 => if p.ctlUpd 1 then ca 1 else x iAy
  | 14 => if p.ctlUpd 2 then ca 2 else x iAz
  | i => x i

/-- Seconds of a duration in nanoseconds (`filter_utilities::toSec`, filter_utilities.hpp:82-98). -/
noncomputable def toSec (d : Int) : ℝ := (d : ℝ) * 1e-9

/-- The matrices the filter object keeps between calls and partly overwrites: `transfer_function_`,
`transfer_function_jacobian_`, `dynamic_process_noise_covariance_`, `control_acceleration_`. -/
structure EkfMem where
  F : Mat15
  J : Mat15
  dyn : Mat15
  ca : Fin 6 → ℝ

/-- filter_base.cpp:111-125: default process noise. -/
noncomputable def defaultQ : Mat15 :=
  Matrix.diagonal ![0.05, 0.05, 0.06, 0.03, 0.03, 0.06, 0.025, 0.025, 0.04, 0.01, 0.01, 0.02, 0.01, 0.01, 0.015]

/-- filter_base.cpp:79-87, 127: the matrices after `reset`. -/
noncomputable def EkfMem.reset : EkfMem := { F := 1, J := 0, dyn := defaultQ, ca := 0 }

/-- filter_base.cpp:324-329 `setProcessNoiseCovariance`, effect on the memory. -/
def EkfMem.setQ (m : EkfMem) (Q : Mat15) : EkfMem := { m with dyn := Q }

/-- ekf.cpp:222-442 `predict` with the memory of the object.  The result is `none` when the division `1.0 / cp` is by
zero: what follows is then not finite. -/
noncomputable def Ekf.predictMem (p : FilterPar) (m : EkfMem) (Q : Mat15) (ctl : Fin 6 → ℝ) (ctlTime ref : Int)
    (dt : ℝ) (x : State) (P : Mat15) : EkfMem × Option (State × Mat15) :=
  let ca := prepareControl p ctl ctlTime ref x
  let F := writeF m.F x dt
  let J := writeJ F x dt
  let dyn := if p.dynamic then writeDyn m.dyn Q x else m.dyn
  let m' : EkfMem := { F := F, J := J, dyn := dyn, ca := ca }
  let x1 := applyControl p ca dt x
  let x2 := wrapStateAngles (F.mulVec x1)
  let P2 := J * P * J.transpose + dt • (if p.dynamic then dyn else Q)
  (m', if Real.cos (x iPitch) = 0 then none else some (x2, P2))

/-- The transfer function and Jacobian as functions of the state, that is, over the identity left by `reset`. -/
noncomputable def transferF (x : State) (dt : ℝ) : Mat15 := writeF 1 x dt
noncomputable def transferJ (x : State) (dt : ℝ) : Mat15 := writeJ (transferF x dt) x dt

/-- The process noise a prediction uses. -/
noncomputable def noiseQ (p : FilterPar) (Q : Mat15) (x : State) : Mat15 :=
  if p.dynamic then writeDyn Q Q x else Q

/-- `predict` without the memory of the object; `C15_no_hidden_memory` shows that this is what `predictMem` computes. -/
noncomputable def Ekf.predict (p : FilterPar) (Q : Mat15) (ctl : Fin 6 → ℝ) (ctlTime ref : Int) (dt : ℝ) (x : State)
    (P : Mat15) : Option (State × Mat15) :=
  let J := transferJ x dt
  if Real.cos (x iPitch) = 0 then none
  else some (wrapStateAngles ((transferF x dt).mulVec (applyControl p (prepareControl p ctl ctlTime ref x) dt x)),
    J * P * J.transpose + dt • noiseQ p Q x)

/-- `mahalanobis_thresh_`: a number, or the default `numeric_limits<double>::max()`, whose square is infinite. -/
inductive Thresh where
  | unlimited
  | sigmas (n : ℝ)

/-- What a measurement carries (measurement.hpp:56-101). -/
structure Payload where
  upd : Fin 15 → Bool
  z : Fin 15 → Dbl
  R : Mat15
  thresh : Thresh

/-- ekf.cpp:79-95: the indices to update. -/
def Payload.indices (m : Payload) : List (Fin 15) :=
  (List.finRange 15).filter (fun i => m.upd i && !(m.z i).isNan && !(m.z i).isInf)

/-- ekf.cpp:125-152: absolute value and floor on the diagonal. -/
noncomputable def sanitize (v : ℝ) : ℝ :=
  let a := if v < 0 then |v| else v
  if a < 1e-9 then 1e-9 else a

/-- ekf.cpp:118-153: the measurement covariance subset. -/
noncomputable def subR {n : ℕ} (e : Fin n → Fin 15) (R : Mat15) : Matrix (Fin n) (Fin n) ℝ :=
  .of fun i j => if i = j then sanitize (R (e i) (e j)) else R (e i) (e j)

/-- ekf.cpp:155-160: the state to measurement matrix. -/
def subH {n : ℕ} (e : Fin n → Fin 15) : Matrix (Fin n) (Fin 15) ℝ :=
  .of fun i j => if j = e i then 1 else 0

/-- filter_base.cpp:429-449 `checkMahalanobisThreshold`. -/
noncomputable def checkMahalanobis {n : ℕ} (y : Fin n → ℝ) (Sinv : Matrix (Fin n) (Fin n) ℝ) : Thresh → Prop
  | .unlimited => True
  | .sigmas k => ¬ (y ⬝ᵥ Sinv.mulVec y ≥ k * k)

/-- ekf.cpp:176-194: the innovation with wrapped angles. -/
noncomputable def innovation {n : ℕ} (e : Fin n → Fin 15) (z : Fin 15 → ℝ) (x : State) : Fin n → ℝ :=
  fun i =>
    let d := z (e i) - x (e i)
    if e i = iRoll ∨ e i = iPitch ∨ e i = iYaw then normalizeAngle d else d

/-- The innovation covariance and the gain, ekf.cpp:169-174. -/
noncomputable def innovCov {n : ℕ} (e : Fin n → Fin 15) (R P : Mat15) : Matrix (Fin n) (Fin n) ℝ :=
  subH e * (P * (subH e).transpose) + subR e R
noncomputable def gain {n : ℕ} (e : Fin n → Fin 15) (R P : Mat15) : Matrix (Fin 15) (Fin n) ℝ :=
  P * (subH e).transpose * (innovCov e R P)⁻¹

/-- ekf.cpp:203-216 with the given gain: state update with wrapping, Joseph form. -/
noncomputable def joseph {n : ℕ} (e : Fin n → Fin 15) (R : Mat15) (K : Matrix (Fin 15) (Fin n) ℝ) (P : Mat15) : Mat15 :=
  (1 - K * subH e) * P * (1 - K * subH e).transpose + K * subR e R * K.transpose

open Classical in
/-- ekf.cpp:97-219: the rest of `correct`, for given indices.  `none` when the innovation covariance is singular (the
inverse then has non-finite entries, every comparison with the distance fails and they are stored in the state). -/
noncomputable def correctAt {n : ℕ} (e : Fin n → Fin 15) (z : Fin 15 → ℝ) (R : Mat15) (thr : Thresh) (x : State)
    (P : Mat15) : Option (State × Mat15) :=
  if (innovCov e R P).det = 0 then none
  else if checkMahalanobis (innovation e z x) (innovCov e R P)⁻¹ thr then
    some (wrapStateAngles (x + (gain e R P).mulVec (innovation e z x)), joseph e R (gain e R P) P)
  else some (x, P)

/-- ekf.cpp:54-220 `correct`. -/
noncomputable def Ekf.correct (m : Payload) (x : State) (P : Mat15) : Option (State × Mat15) :=
  correctAt m.indices.get (fun i => (m.z i).val) m.R m.thresh x P

/-- filter_base.cpp:231-236: initialising copy of the state.  A selected non-finite value gives a state that is not
finite (`none`). -/
noncomputable def initState (m : Payload) (x : State) : Option State :=
  if ∀ i, m.upd i = true → (m.z i).isFin = true then some (fun i => if m.upd i then (m.z i).val else x i) else none

/-- filter_base.cpp:238-246: initialising copy of the covariance. -/
def initCov (m : Payload) (P : Mat15) : Mat15 :=
  .of fun i j => if m.upd i && m.upd j then m.R i j else P i j

/-- The EKF as a filter core.  The state is `none` once it contains a non-finite value (after that, nothing is said
about the covariance); `Ext` is trivial by `C15_no_hidden_memory`. -/
noncomputable def ekfCore (p : FilterPar) : Core where
  X := Option State
  Cov := Mat15
  Ext := Unit
  Par := Mat15
  Ctl := Fin 6 → ℝ
  Z := Payload
  predict := fun Q ctl ctlTime ref delta s =>
    match s.1.bind (fun x => Ekf.predict p Q ctl ctlTime ref (toSec delta) x s.2.1) with
    | some r => (some r.1, r.2, ())
    | none => (none, s.2.1, ())
  correct := fun m s =>
    match s.1.bind (fun x => Ekf.correct m x s.2.1) with
    | some r => (some r.1, r.2, ())
    | none => (none, s.2.1, ())
  initX := fun m x => x.bind (initState m)
  initCov := initCov
  zeroX := some 0
  setPoseCov := (1e-6 : ℝ) • 1
  resetCov := (1e-9 : ℝ) • 1
  resetPar := defaultQ

end RL
