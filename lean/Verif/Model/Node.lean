import Mathlib.Data.List.DropRight
import Verif.Model.Queue
/-!
# The filter node: queue, history, services, publication

Model of the control flow of `RosFilter<T>` (`/repo/src/ros_filter.cpp`), generic in the filter (`Core`) and in the
priority queue (`PQueue`).  Callbacks are atomic steps.  What `preparePose`/`prepareTwist`/`prepareAcceleration` make
of a message is part of the event here (`some z` prepared, `none` not transformable); `Verif.Model.Prepare` models
those functions.  `rclcpp::ok()` is taken to be true (a node that is shutting down is not modelled).
-/

namespace RL

/-- filter_state.hpp:53-86 (`FilterState`). -/
structure Snap (C : Core) where
  x : C.X
  cov : C.Cov
  lastTime : Int
  ctl : C.Ctl
  ctlTime : Int

/-- The parameters of the node that matter to its control flow (set once in `loadParams`). -/
structure Cfg (C : Core) where
  smooth : Bool                -- smooth_lagged_data, ros_filter.cpp:943
  historyLength : Int          -- |history_length|, 960
  predictToCurrent : Bool      -- predict_to_current_time, 933
  useControl : Bool            -- use_control after 1762-1771
  permitCorrected : Bool       -- permit_corrected_publication, 920
  publishTf : Bool             -- publish_tf, 914
  publishAccel : Bool          -- publish_acceleration, 917
  sensorTimeout : Int          -- sensor_timeout, 935-937
  processNoise : C.Par         -- of the filter: process_noise_covariance, 1863, or the filter's default
  initialCov : C.Cov           -- of the filter: initial_estimate_covariance, 1869, or the filter's default
  keptNoise : C.Par            -- of the node (105, 1863): the parameter, or zero (1841) when it is not set
  keptCov : C.Cov              -- of the node (106, 1869): the parameter, or zero (1841) when it is not set
  initialState : C.X           -- initial_state, 1080-1091 (zero vector if absent)
  disabledAtStartup : Bool     -- disabled_at_startup, 1094
  ctl0 : C.Ctl                 -- zero control vector, 1776-1777

abbrev MQueue (C : Core) := PQueue (Meas C) Meas.time

/-- The members of `RosFilter` (ros_filter.hpp:560-760) that the control flow reads and writes.  The two deques are
lists with the *newest* element first: `push_back` is cons, `back` is the head, `pop_front` removes the last. -/
structure Node (C : Core) (P : MQueue C) where
  filt : Filt C
  queue : P.Q
  stateHist : List (Snap C)
  measHist : List (Meas C)
  lastMsg : String → Option Int
  lastSetPose : Int
  ctl : C.Ctl
  ctlTime : Int
  lastPub : Int
  toggledOn : Bool
  enabled : Bool

/-- What a cycle sends out, with its stamp. -/
inductive Out (C : Core) where
  | odom (stamp : Int) (x : C.X) (cov : C.Cov)
  | tf (stamp : Int)
  | accel (stamp : Int)

variable {C : Core} {P : MQueue C}

/-- ros_filter.cpp:3439-3455 `saveFilterState`. -/
def Filt.snap (f : Filt C) : Snap C :=
  { x := f.x, cov := f.cov, lastTime := f.lastTime, ctl := f.ctl, ctlTime := f.ctlTime }

namespace Node

/-- ros_filter.cpp:153-185 `reset`. -/
def reset (cfg : Cfg C) (n : Node C P) : Node C P :=
  { n with
    queue := P.empty
    stateHist := []
    measHist := []
    lastSetPose := 0
    ctlTime := 0
    lastPub := 0
    lastMsg := fun _ => none
    filt := ((n.filt.reset.setSensorTimeout cfg.sensorTimeout).setPar cfg.keptNoise).setCov cfg.keptCov }

/-- ros_filter.cpp:201-221 `toggleFilterProcessingCallback`: new state and `status`. -/
def toggle (n : Node C P) (on : Bool) : Node C P × Bool :=
  if on = n.toggledOn then (n, false) else ({ n with toggledOn := on }, true)

/-- ros_filter.cpp:2356-2379 `enableFilterSrvCallback`. -/
def enable (n : Node C P) : Node C P := { n with enabled := true }

/-- ros_filter.cpp:333-355 `controlStampedCallback` (base frame messages; others are ignored).  The subscription only
exists when `use_control` is on (1785). -/
def control (cfg : Cfg C) (n : Node C P) (c : C.Ctl) (stamp : Int) : Node C P :=
  if cfg.useControl then
    { n with ctl := c, ctlTime := stamp, filt := n.filt.setControl c stamp }
  else n

/-- ros_filter.cpp:358-375 `enqueueMeasurement`. -/
def enqueue (n : Node C P) (topic : String) (z : C.Z) (stamp : Int) : Node C P :=
  let m : Meas C := { time := stamp, topic := topic, z := z, ctl := n.ctl, ctlTime := n.ctlTime }
  { n with queue := P.push n.queue m }

/-- The common shape of `accelerationCallback` (225-318), `poseCallback` (1939-2036) and `twistCallback` (2382-2471):
drop what is not newer than the last `set_pose`, drop what is older than the previous message of the topic, else
prepare, enqueue if preparation succeeded, and remember the stamp. -/
def sensor (n : Node C P) (topic : String) (stamp : Int) (prepared : Option C.Z) : Node C P :=
  if n.lastSetPose ≥ stamp then n
  else
    -- 243-246: an absent entry is created with this stamp, so the comparison below succeeds
    let last := (n.lastMsg topic).getD stamp
    if last ≤ stamp then
      let n1 := match prepared with
        | some z => n.enqueue topic z stamp
        | none => n
      { n1 with lastMsg := fun t => if t = topic then some stamp else n1.lastMsg t }
    else n

/-- ros_filter.cpp:2287-2339 `setPoseCallback`.  `prepared` is the state and covariance `preparePose` filled in;
when it fails its result is ignored and the values it was given (zero, `1e-6 I`) are used (2319-2334). -/
def setPose (n : Node C P) (stamp now : Int) (prepared : Option (C.X × C.Cov)) : Node C P :=
  let xc := prepared.getD (C.zeroX, C.setPoseCov)
  { n with
    queue := P.empty
    stateHist := []
    measHist := []
    lastSetPose := stamp
    filt := ((n.filt.setState xc.1).setCov xc.2).setLastTime now }

/-- ros_filter.cpp:3458-3540 `revertTo`; the Boolean is its return value. -/
def revertTo (n : Node C P) (t : Int) : Node C P × Bool :=
  let popped := n.stateHist.takeWhile (fun s => decide (s.lastTime > t))
  let rest := n.stateHist.dropWhile (fun s => decide (s.lastTime > t))
  -- 3471-3503: the last state popped (the oldest), unless an older one is left
  let target := match rest with
    | s :: _ => some s
    | [] => popped.getLast?
  let ok := !rest.isEmpty
  match target with
  | none => ({ n with stateHist := rest }, ok)
  | some s =>
    let gone := n.measHist.takeWhile (fun m => decide (m.time > t))
    let keep := n.measHist.dropWhile (fun m => decide (m.time > t))
    let restored := gone.filter (fun m => decide (s.lastTime ≤ m.time))
    ({ n with
        stateHist := rest
        measHist := keep
        queue := restored.foldl P.push n.queue
        filt := ((n.filt.setState s.x).setCov s.cov).setLastTime s.lastTime }, ok)

/-- ros_filter.cpp:684-729, the loop of `integrateMeasurements`.  `fuel` bounds the number of iterations;
`integrate` supplies the queue size, which is always enough (`drain_fuel` in `Verif.Proofs.NodeDrain`). -/
def drain (cfg : Cfg C) (now : Int) : Nat → Int → Node C P → Node C P
  | 0, _, n => n
  | fuel + 1, restored, n =>
    match P.top n.queue with
    | none => n
    | some m =>
      if now < m.time then n
      else
        let q := P.pop n.queue
        let doCtl := cfg.useControl && decide (restored > 0)
        let f0 := if doCtl then n.filt.setControl m.ctl m.ctlTime else n.filt
        let restored' := if doCtl then restored - 1 else restored
        let f := f0.processMeasurement m
        let save := match P.top q with
          | none => true
          | some m' => decide (m'.time ≠ f.lastTime)
        drain cfg now fuel restored'
          { n with
            queue := q
            filt := f
            measHist := if cfg.smooth then m :: n.measHist else n.measHist
            stateHist := if cfg.smooth && save then f.snap :: n.stateHist else n.stateHist }

/-- ros_filter.cpp:752-763: predict to the current time. -/
def predictTo (n : Node C P) (now : Int) : Node C P :=
  let d := now - n.filt.lastTime
  let g := n.filt.predict now d
  { n with filt := g.setLastTime (g.lastTime + d) }

/-- ros_filter.cpp:630-766 `integrateMeasurements`. -/
def integrate (cfg : Cfg C) (n : Node C P) (now : Int) : Node C P :=
  match P.top n.queue with
  | some first =>
    let r :=
      if cfg.smooth && decide (first.time < n.filt.lastTime) then
        let n' := (n.revertTo (first.time - 1)).1
        (n', (P.size n'.queue : Int) - (P.size n.queue : Int))
      else (n, 0)
    let n1 := drain cfg now (P.size r.1.queue) r.2 r.1
    if n1.filt.initialized && cfg.predictToCurrent then n1.predictTo now else n1
  | none =>
    let timeout := n.filt.initialized && decide (now - n.filt.lastTime ≥ n.filt.sensorTimeout)
    if n.filt.initialized && (cfg.predictToCurrent || timeout) then n.predictTo now else n

/-- ros_filter.cpp:3574-3603 `clearExpiredHistory`. -/
def clearExpired (n : Node C P) (cutoff : Int) : Node C P :=
  { n with
    measHist := n.measHist.rdropWhile (fun m => decide (m.time < cutoff))
    stateHist := n.stateHist.rdropWhile (fun s => decide (s.lastTime < cutoff)) }

/-- ros_filter.cpp:2108-2123, first part of `periodicUpdate`: integrate, or, when processing is switched off, discard
the queue and move the clock of an initialised filter to the present (`now2` is the time read at 2119). -/
def advance (cfg : Cfg C) (n : Node C P) (now now2 : Int) : Node C P :=
  if n.toggledOn then n.integrate cfg now
  else
    { n with
      queue := P.empty
      filt := if n.filt.initialized then n.filt.setLastTime now2 else n.filt }

/-- ros_filter.cpp:2125-2262, publication part of `periodicUpdate`.  Broadcasting also needs the world frame to be the
odom or map frame and, for map, an available transform; `tfOk` says whether the transform is sent when publication is
due.  `last_published_stamp_` is set in any case (2236). -/
def publish (cfg : Cfg C) (n : Node C P) (tfOk : Bool) : Node C P × List (Out C) :=
  if n.filt.initialized then
    let stamp := n.filt.lastTime
    let corrected := !cfg.permitCorrected && decide (n.lastPub ≥ stamp)
    let tfs := if cfg.publishTf && !corrected && tfOk then [Out.tf stamp] else []
    let od := if !corrected then [Out.odom stamp n.filt.x n.filt.cov] else []
    let ac := if !corrected && cfg.publishAccel then [Out.accel stamp] else []
    ({ n with lastPub := stamp }, tfs ++ od ++ ac)
  else (n, [])

/-- ros_filter.cpp:2095-2284 `periodicUpdate`.  `now` is the time read at 2106.
Diagnostics: `Verif.Model.Diag`. -/
def periodic (cfg : Cfg C) (n : Node C P) (now now2 : Int) (tfOk : Bool) : Node C P × List (Out C) :=
  if !n.enabled then (n, [])
  else
    let r := (n.advance cfg now now2).publish cfg tfOk
    (if cfg.smooth then r.1.clearExpired (r.1.filt.lastTime - cfg.historyLength) else r.1, r.2)

/-- Everything that can happen to a node. -/
inductive Event (C : Core) where
  | sensor (topic : String) (stamp : Int) (prepared : Option C.Z)
  | control (c : C.Ctl) (stamp : Int)
  | setPose (stamp now : Int) (prepared : Option (C.X × C.Cov))
  | reset
  | toggle (on : Bool)
  | enable
  | tick (now now2 : Int) (tfOk : Bool)

/-- One step of the node. -/
def step (cfg : Cfg C) (n : Node C P) : Event C → Node C P × List (Out C)
  | .sensor topic stamp z => (n.sensor topic stamp z, [])
  | .control c t => (n.control cfg c t, [])
  | .setPose stamp now r => (n.setPose stamp now r, [])
  | .reset => (n.reset cfg, [])
  | .toggle on => ((n.toggle on).1, [])
  | .enable => (n.enable, [])
  | .tick now now2 tfOk => n.periodic cfg now now2 tfOk

/-- A run: final state and everything sent, in order. -/
def run (cfg : Cfg C) (n : Node C P) : List (Event C) → Node C P × List (Out C)
  | [] => (n, [])
  | e :: es =>
    let r := n.step cfg e
    let r' := run cfg r.1 es
    (r'.1, r.2 ++ r'.2)

/-- The node after construction and `loadParams` at time `now` (ros_filter.cpp:85-133, 794-1874): the filter is
`FilterBase`'s constructor state with the configured values; `ext0`, `fctl0` are what the constructors leave in the
subclass members and in the (uninitialised) control vector of the filter. -/
def start (cfg : Cfg C) (P : MQueue C) (ext0 : C.Ext) (fctl0 : C.Ctl) (now : Int) : Node C P :=
  { filt :=
      { initialized := false, x := cfg.initialState, cov := cfg.initialCov, ext := ext0, predicted := C.zeroX
        par := cfg.processNoise, ctl := fctl0, ctlTime := 0, lastTime := now, sensorTimeout := cfg.sensorTimeout }
    queue := P.empty, stateHist := [], measHist := [], lastMsg := fun _ => none, lastSetPose := 0
    ctl := cfg.ctl0, ctlTime := 0, lastPub := 0, toggledOn := true, enabled := !cfg.disabledAtStartup }

end Node
end RL
