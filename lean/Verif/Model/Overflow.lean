import Verif.Model.Throws
/-!
# The exception for times that do not fit into 64 bits

The operators of `rclcpp::Time` raise `std::overflow_error` (`std::underflow_error`) when a sum or difference does not fit
into an `int64_t`.  Nothing catches it (`/repo/src/ekf_node.cpp:38-57`, `ukf_node.cpp:38-59`), so it ends the node.  Here are
the functions of `Model/Node` again with this exception: `none` is a node that has ended.

Every operator of `rclcpp::Time` in the control flow is here, except two differences of readings of the clock at the end of a
cycle (`/repo/src/ros_filter.cpp:2261`, 2276).  Times in messages that are sent are not converted to seconds and nanoseconds
(which in 32 bits ends in 2038).
-/

namespace RL

/-- What an `int64_t` can hold. -/
def fits (t : Int) : Bool := decide (-9223372036854775808 ≤ t ∧ t ≤ 9223372036854775807)

/-- `a - b` for two `rclcpp::Time`, or for an `rclcpp::Time` and an `rclcpp::Duration`. -/
def subX (a b : Int) : Option Int := if fits (a - b) then some (a - b) else none

/-- `a + b` for an `rclcpp::Time` and an `rclcpp::Duration`. -/
def addX (a b : Int) : Option Int := if fits (a + b) then some (a + b) else none

variable {C : Core} {P : MQueue C}

/-- `predict` with `prepareControl` (filter_base.cpp:353-361): the age of the command is found when there is a control
term. -/
def Filt.predictX (ctl : Bool) (f : Filt C) (ref delta : Int) : Option (Filt C) :=
  if ctl then (subX ref f.ctlTime).map fun _ => f.predict ref delta else some (f.predict ref delta)

/-- filter_base.cpp:195-265 `processMeasurement`; the difference is that of line 208. -/
def Filt.processX (ctl : Bool) (f : Filt C) (m : Meas C) : Option (Filt C) :=
  if f.initialized then
    match subX m.time f.lastTime with
    | none => none
    | some delta =>
      match (if delta > 0 then (f.predictX ctl m.time delta).map fun g => { g with predicted := g.x } else some f) with
      | none => none
      | some f1 =>
        let f2 := f1.correct m.z
        some (if delta ≥ 0 then { f2 with lastTime := m.time } else f2)
  else
    some { f with
      x := C.initX m.z f.x
      cov := C.initCov m.z f.cov
      initialized := true
      lastTime := m.time }

namespace Node

/-- ros_filter.cpp:684-729. -/
def drainX (cfg : Cfg C) (now : Int) : Nat → Int → Node C P → Option (Node C P)
  | 0, _, n => some n
  | fuel + 1, restored, n =>
    match P.top n.queue with
    | none => some n
    | some m =>
      if now < m.time then some n
      else
        let q := P.pop n.queue
        let doCtl := cfg.useControl && decide (restored > 0)
        let f0 := if doCtl then n.filt.setControl m.ctl m.ctlTime else n.filt
        let restored' := if doCtl then restored - 1 else restored
        match f0.processX cfg.useControl m with
        | none => none
        | some f =>
          let save := match P.top q with
            | none => true
            | some m' => decide (m'.time ≠ f.lastTime)
          drainX cfg now fuel restored'
            { n with
              queue := q
              filt := f
              measHist := if cfg.smooth then m :: n.measHist else n.measHist
              stateHist := if cfg.smooth && save then f.snap :: n.stateHist else n.stateHist }

/-- ros_filter.cpp:752-763. -/
def predictToX (ctl : Bool) (n : Node C P) (now : Int) : Option (Node C P) :=
  match subX now n.filt.lastTime with
  | none => none
  | some d =>
    match n.filt.predictX ctl now d with
    | none => none
    | some g => (addX g.lastTime d).map fun t => { n with filt := g.setLastTime t }

/-- ros_filter.cpp:630-766; the nanosecond is taken off at 666, the age of the estimate is found at 734. -/
def integrateX (cfg : Cfg C) (n : Node C P) (now : Int) : Option (Node C P) :=
  match P.top n.queue with
  | some first =>
    let r :=
      if cfg.smooth && decide (first.time < n.filt.lastTime) then
        (subX first.time 1).map fun t =>
          let n' := (n.revertTo t).1
          (n', (P.size n'.queue : Int) - (P.size n.queue : Int))
      else some (n, 0)
    match r with
    | none => none
    | some r =>
      match drainX cfg now (P.size r.1.queue) r.2 r.1 with
      | none => none
      | some n1 => if n1.filt.initialized && cfg.predictToCurrent then n1.predictToX cfg.useControl now else some n1
  | none =>
    if n.filt.initialized then
      match subX now n.filt.lastTime with
      | none => none
      | some d =>
        if cfg.predictToCurrent || decide (d ≥ n.filt.sensorTimeout) then n.predictToX cfg.useControl now else some n
    else some n

/-- ros_filter.cpp:2108-2123. -/
def advanceX (cfg : Cfg C) (n : Node C P) (now now2 : Int) : Option (Node C P) :=
  if n.toggledOn then n.integrateX cfg now
  else
    some { n with
      queue := P.empty
      filt := if n.filt.initialized then n.filt.setLastTime now2 else n.filt }

/-- ros_filter.cpp:2095-2284; the stamp of the transform is found at 2130 whether or not it is sent, the begin of the history
at 2272. -/
def periodicX (cfg : Cfg C) (offset : Int) (n : Node C P) (now now2 : Int) (tfOk : Bool) : Option (Node C P × List (Out C)) :=
  if !n.enabled then some (n, [])
  else
    match n.advanceX cfg now now2 with
    | none => none
    | some a =>
      match (if a.filt.initialized then addX a.filt.lastTime offset else some 0) with
      | none => none
      | some _ =>
        let r := a.publish cfg tfOk
        if cfg.smooth then (subX r.1.filt.lastTime cfg.historyLength).map fun t => (r.1.clearExpired t, r.2) else some r

end Node

namespace Sys
variable (V : View C) (g : SysCfg C)

/-- Whether an operation with times overflows during an event; the callbacks compare times but do not add or subtract them. -/
def overflows (s : Sys C P) : Ev → Bool
  | .tick now now2 buf => (s.hub.node.periodicX g.cfg g.tfOffset now now2 (tfDue g.frames buf)).isNone
  | _ => false

/-- One step of a node that may end because of a stamp (`stepX`) or because a time overflows. -/
noncomputable def stepO (s : Sys C P) (e : Ev) : Option (Sys C P × List Sent) :=
  if s.overflows g e then none else s.stepX V g e

/-- A run of a node that may end; `none` when it has. -/
noncomputable def runO (s : Sys C P) : List Ev → Option (Sys C P × List Sent)
  | [] => some (s, [])
  | e :: es =>
    match s.stepO V g e with
    | none => none
    | some r =>
      match runO r.1 es with
      | none => none
      | some r' => some (r'.1, r.2 ++ r'.2)

end Sys
end RL
