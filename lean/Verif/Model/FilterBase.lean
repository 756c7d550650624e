/-!
# The filter object, as the node sees it

Model of `FilterBase` (`/repo/src/filter_base.cpp`, `/repo/include/robot_localization/filter_base.hpp`)
generically in the concrete filter: what `Ekf` and `Ukf` do in the virtual functions `predict` and `correct`
is a parameter (`Core`).  `Verif.Model.Ekf` and `Verif.Model.Ukf` give the two instances.

Times and durations are integers (nanoseconds); see DESIGN.md.
-/

namespace RL




/-- The parts of a filter that `FilterBase` leaves to its subclasses or that it only copies around.

* `X`    the state vector `state_`
* `Cov`  the covariance `estimate_error_covariance_`
* `Ext`  further mutable members of the subclass (`Ukf`: sigma points, `uncorrected_`)
* `Par`  parameters a node can set (`process_noise_covariance_`)
* `Ctl`  control vectors
* `Z`    what a measurement carries besides stamp, topic and control
-/
structure Core where
  X : Type
  Cov : Type
  Ext : Type
  Par : Type
  Ctl : Type
  Z : Type
  /-- `predict(reference_time, delta)`; arguments: parameters, control, control stamp, reference time, delta. -/
  predict : Par → Ctl → Int → Int → Int → X × Cov × Ext → X × Cov × Ext
  /-- `correct(measurement)`. -/
  correct : Z → X × Cov × Ext → X × Cov × Ext
  /-- The initialising copy of selected values, filter_base.cpp:231-236. -/
  initX : Z → X → X
  /-- The initialising copy of selected covariances, filter_base.cpp:238-246. -/
  initCov : Z → Cov → Cov
  /-- State after `reset()` (filter_base.cpp:77), also the vector `setPoseCallback` starts from
  (ros_filter.cpp:2319). -/
  zeroX : X
  /-- The covariance `setPoseCallback` starts from, ros_filter.cpp:2322-2323. -/
  setPoseCov : Cov
  /-- Covariance after `reset()`, filter_base.cpp:91-92. -/
  resetCov : Cov
  /-- Process noise after `reset()`, filter_base.cpp:110-127. -/
  resetPar : Par

/-- measurement.hpp:56-101 (`Measurement`): stamp, topic, payload and the control recorded at enqueueing. -/
structure Meas (C : Core) where
  time : Int
  topic : String
  z : C.Z
  ctl : C.Ctl
  ctlTime : Int

/-- The members of `FilterBase` that survive between calls (filter_base.hpp:330-470).  The matrices recomputed from
scratch in each call are not state; that this is right for the EKF is property C15. -/
structure Filt (C : Core) where
  initialized : Bool
  x : C.X
  cov : C.Cov
  ext : C.Ext
  predicted : C.X
  par : C.Par
  ctl : C.Ctl
  ctlTime : Int
  lastTime : Int
  sensorTimeout : Int

namespace Filt
variable {C : Core}

/-- filter_base.cpp:72-128 `reset`.  Subclass members (`ext`), control and control time are *not* touched. -/
def reset (f : Filt C) : Filt C :=
  { f with
    initialized := false
    x := C.zeroX
    predicted := C.zeroX
    cov := C.resetCov
    sensorTimeout := 33333333
    lastTime := 0
    par := C.resetPar }

/-- ekf.cpp:222 / ukf.cpp:310 `predict`, acting on the members it changes. -/
def predict (f : Filt C) (ref : Int) (delta : Int) : Filt C :=
  let r := C.predict f.par f.ctl f.ctlTime ref delta (f.x, f.cov, f.ext)
  { f with x := r.1, cov := r.2.1, ext := r.2.2 }

/-- ekf.cpp:54 / ukf.cpp:74 `correct`. -/
def correct (f : Filt C) (z : C.Z) : Filt C :=
  let r := C.correct z (f.x, f.cov, f.ext)
  { f with x := r.1, cov := r.2.1, ext := r.2.2 }

/-- filter_base.cpp:195-265 `processMeasurement`.  `validateDelta` (338-351) has an empty body. -/
def processMeasurement (f : Filt C) (m : Meas C) : Filt C :=
  if f.initialized then
    let delta := m.time - f.lastTime
    let f1 :=
      if delta > 0 then
        let g := f.predict m.time delta
        { g with predicted := g.x }
      else f
    let f2 := f1.correct m.z
    if delta ≥ 0 then { f2 with lastTime := m.time } else f2
  else
    -- `delta` keeps its initial value 0, so the stamp is always stored (251-260)
    { f with
      x := C.initX m.z f.x
      cov := C.initCov m.z f.cov
      initialized := true
      lastTime := m.time }

/-- filter_base.cpp:267-273 `setControl`. -/
def setControl (f : Filt C) (c : C.Ctl) (t : Int) : Filt C := { f with ctl := c, ctlTime := t }
/-- filter_base.cpp:312-316 `setEstimateErrorCovariance`. -/
def setCov (f : Filt C) (c : C.Cov) : Filt C := { f with cov := c }
/-- filter_base.cpp:318-322 `setLastMeasurementTime`. -/
def setLastTime (f : Filt C) (t : Int) : Filt C := { f with lastTime := t }
/-- filter_base.cpp:324-329 `setProcessNoiseCovariance`. -/
def setPar (f : Filt C) (p : C.Par) : Filt C := { f with par := p }
/-- filter_base.cpp:331-334 `setSensorTimeout`. -/
def setSensorTimeout (f : Filt C) (d : Int) : Filt C := { f with sensorTimeout := d }
/-- filter_base.cpp:336 `setState`. -/
def setState (f : Filt C) (x : C.X) : Filt C := { f with x := x }

end Filt
end RL
