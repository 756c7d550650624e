import Verif.Model.NodePar
import Verif.Model.Output
import Verif.Model.Ukf
/-!
# The whole filter node, from the messages it gets to the messages it sends

What joins the parts: which input a message arrives at (`/repo/src/ros_filter.cpp:1225-1755`), what the callbacks take from
the node when they prepare a measurement, `controlCallback` (320-331), `setPoseCallback` with `preparePose` (2287-2355),
`resetSrvCallback` (187-199) and `periodicUpdate` with `differentiateMeasurements` and the messages themselves (2095-2247).

Simplified: the transforms known when something happens are part of the event.  An estimate that is not finite is any
state (`junk`) to the prepare functions.  The angular acceleration is a number also when it is not one in the program:
before the first cycle with an estimate, after one with an estimate that is not finite, and after two cycles at the same
time.
-/

namespace RL

/-- The parts of a filter as numbers. -/
structure View (C : Core) where
  state : C.X → Option State
  cov : C.Cov → Mat15
  meas : Payload → C.Z
  pose : State → Mat15 → C.X × C.Cov
  ctl : (Fin 6 → ℝ) → C.Ctl

/-- The extended Kalman filter. -/
def ekfView (p : FilterPar) : View (ekfCore p) where
  state := fun x => x
  cov := fun P => P
  meas := fun m => m
  pose := fun x P => (some x, P)
  ctl := fun u => u

/-- The settings of a node. -/
structure SysCfg (C : Core) where
  cfg : Cfg C
  frames : Frames
  inputs : Inputs
  twoD : Bool
  gravity : ℝ
  tfOffset : Int

/-- The settings found in the parameters. -/
noncomputable def NodeConf.sys (c : NodeConf) : SysCfg (ekfCore c.par) :=
  { cfg := c.cfg, frames := c.frames, inputs := c.inputs, twoD := c.sw.twoD, gravity := c.gravity, tfOffset := c.times.tfOffset }

/-- The unscented Kalman filter. -/
def ukfView (p : FilterPar) (llt : Llt) (k : UkfConst) : View (ukfCore p llt k) where
  state := fun x => x
  cov := fun P => P
  meas := fun m => m
  pose := fun x P => (some x, P)
  ctl := fun u => u

/-- The same settings for the node of `/repo/src/ukf_node.cpp:38-53`: `RosFilter` is a template over the filter
(ros_filter_types.hpp:41-42), `loadParams` is the same. -/
noncomputable def NodeConf.ukfSys (c : NodeConf) (llt : Llt) (k : UkfConst) : SysCfg (ukfCore c.par llt k) :=
  { cfg :=
      { smooth := c.cfg.smooth, historyLength := c.cfg.historyLength, predictToCurrent := c.cfg.predictToCurrent
        useControl := c.cfg.useControl, permitCorrected := c.cfg.permitCorrected, publishTf := c.cfg.publishTf
        publishAccel := c.cfg.publishAccel, sensorTimeout := c.cfg.sensorTimeout
        processNoise := c.noise, initialCov := c.cov, keptNoise := c.keptNoise, keptCov := c.keptCov
        initialState := some c.initial, disabledAtStartup := c.cfg.disabledAtStartup, ctl0 := (0 : Fin 6 → ℝ) }
    frames := c.frames, inputs := c.inputs, twoD := c.sw.twoD, gravity := c.gravity, tfOffset := c.times.tfOffset }

/-- ukf_node.cpp:43-48: the constants of the unscented filter; `none` when a parameter has the wrong type or
`setConstants` divides by zero. -/
noncomputable def loadUkf (o : Nav.Given) : Option UkfConst :=
  (readUkf o).bind fun a => setConstants a.1 a.2.1 a.2.2

/-- A running node: control flow, filter, memory of `preparePose`, and angular acceleration. -/
structure Sys (C : Core) (P : MQueue C) where
  hub : Hub C P
  diff : Differ

/-- What may happen: a message arrives at input number `i` of its kind, a command, a call of a service, a cycle. -/
inductive Sys.Ev where
  | odom (i : ℕ) (buf : TfBuffer) (junk : State) (msg : OdomMsg)
  | pose (i : ℕ) (buf : TfBuffer) (junk : State) (msg : PoseMsg)
  | twist (i : ℕ) (buf : TfBuffer) (junk : State) (msg : TwistMsg)
  | imu (i : ℕ) (buf : TfBuffer) (junk : State) (msg : ImuMsg)
  | command (now : Int) (u : Fin 6 → ℝ)
  | setPose (now : Int) (buf : TfBuffer) (junk : State) (msg : PoseMsg)
  | reset
  | toggle (on : Bool)
  | enable
  | tick (now now2 : Int) (buf : TfBuffer)

/-- What is sent, with the stamp of the estimate; `none`: some of its content is not finite. -/
inductive Sent where
  | odom (stamp : Int) (m : Option OdomMsg)
  | tf (stamp : Int) (m : Option TfMsg)
  | accel (stamp : Int) (m : Option AccelMsg)

namespace Sys
variable {C : Core} {P : MQueue C} (V : View C) (g : SysCfg C)

/-- What the prepare functions read from the node. -/
def ctx (s : Sys C P) (buf : TfBuffer) (junk : State) : PrepCtx :=
  { buf := buf, world := g.frames.world, base := g.frames.base, twoD := g.twoD
    state := (V.state s.hub.node.filt.x).getD junk, angAcc := s.diff.acc, gravity := g.gravity }

/-- ros_filter.cpp:2309-2319: what `setPoseCallback` hands to `preparePose`. -/
noncomputable def blankPose : Payload :=
  { upd := fun _ => true, z := fun _ => .fin 0, R := (1e-6 : ℝ) • 1, thresh := .unlimited }

/-- ros_filter.cpp:2319-2328: the pose asked for in the world frame, as a state and its covariance; also the answer of
`setPoseSrvCallback` (2341-2353), which calls `setPoseCallback`. -/
noncomputable def asked (c : PrepCtx) (msg : PoseMsg) : Option (C.X × C.Cov) :=
  (preparePose c { init := fun _ => none, prev := fun _ => none } msg.stamp msg "set_pose" c.world c.base false false false
    blankPose).2.map fun p => V.pose (fun i => (p.z i).val) p.R

/-- ros_filter.cpp:2170-2192: whether there is a transform to broadcast. -/
def tfDue (fr : Frames) (buf : TfBuffer) : Bool :=
  decide (fr.world = fr.odom) || (decide (fr.world = fr.map) && (buf fr.base fr.odom 0).isSome)

/-- ros_filter.cpp:2111-2114: the angular acceleration after the first part of a cycle has left the node as `a`. -/
noncomputable def differ (s : Sys C P) (now : Int) (a : Node C P) : Differ :=
  if s.hub.node.toggledOn then
    match V.state a.filt.x with
    | some x => s.diff.step a.filt.initialized now x (V.cov a.filt.cov)
    | none => s.diff
  else s.diff

/-- The messages of a cycle (ros_filter.cpp:2125-2247); `a` is the node and `d` the angular acceleration at that time. -/
noncomputable def render (buf : TfBuffer) (a : Node C P) (d : Differ) : Out C → Sent
  | .odom t x cov => .odom t ((V.state x).bind fun y => odomMessage g.frames true y (V.cov cov) t)
  | .tf t => .tf t ((V.state a.filt.x).bind fun y =>
      (odomMessage g.frames true y (V.cov a.filt.cov) t).bind fun m => broadcast g.frames buf g.tfOffset m)
  | .accel t => .accel t ((V.state a.filt.x).bind fun y => accelMessage g.frames true y (V.cov a.filt.cov) t d)

/-- ros_filter.cpp:2095-2284 `periodicUpdate`. -/
noncomputable def cycle (s : Sys C P) (now now2 : Int) (buf : TfBuffer) : Sys C P × List Sent :=
  if s.hub.node.enabled then
    let a := s.hub.node.advance g.cfg now now2
    let d := s.differ V now a
    let r := s.hub.node.periodic g.cfg now now2 (tfDue g.frames buf)
    ({ hub := { s.hub with node := r.1 }, diff := d }, r.2.map (render V g buf a d))
  else (s, [])

/-- One step.  A message for which there is no input, or none with a variable selected (1253, 1385, 1481, 1685), meets no
subscription. -/
noncomputable def step (s : Sys C P) : Ev → Sys C P × List Sent
  | .odom i buf junk msg =>
    match g.inputs.odomCds[i]? with
    | some (a, b) =>
      if a.sum + b.sum > 0 then ({ s with hub := s.hub.odomCallback V.meas (s.ctx V g buf junk) msg a b }, []) else (s, [])
    | none => (s, [])
  | .pose i buf junk msg =>
    match g.inputs.poseCds[i]? with
    | some a =>
      if a.sum > 0 then
        ({ s with hub := s.hub.poseCallback V.meas (s.ctx V g buf junk) msg a g.frames.world g.frames.base false }, [])
      else (s, [])
    | none => (s, [])
  | .twist i buf junk msg =>
    match g.inputs.twistCds[i]? with
    | some b =>
      if b.sum > 0 then ({ s with hub := s.hub.twistCallback V.meas (s.ctx V g buf junk) msg b g.frames.base }, []) else (s, [])
    | none => (s, [])
  | .imu i buf junk msg =>
    match g.inputs.imuCds[i]?, g.inputs.imus[i]? with
    | some (a, b, d), some set =>
      if a.sum + b.sum + d.sum > 0 then
        ({ s with hub := s.hub.imuCallback V.meas (s.ctx V g buf junk) msg a b d set.removeGravity }, [])
      else (s, [])
    | _, _ => (s, [])
  | .command now u => ({ s with hub := { s.hub with node := s.hub.node.control g.cfg (V.ctl u) now } }, [])
  | .setPose now buf junk msg =>
    ({ s with hub := { node := s.hub.node.setPose msg.stamp now (asked V (s.ctx V g buf junk) msg)
                       mem := { init := fun _ => none, prev := fun _ => none } } }, [])
  | .reset => ({ s with hub := { node := s.hub.node.reset g.cfg, mem := { init := fun _ => none, prev := fun _ => none } } }, [])
  | .toggle on => ({ s with hub := { s.hub with node := (s.hub.node.toggle on).1 } }, [])
  | .enable => ({ s with hub := { s.hub with node := s.hub.node.enable } }, [])
  | .tick now now2 buf => s.cycle V g now now2 buf

/-- A run and what is sent. -/
noncomputable def run (s : Sys C P) : List Ev → Sys C P × List Sent
  | [] => (s, [])
  | e :: es =>
    let r := s.step V g e
    let r' := run r.1 es
    (r'.1, r.2 ++ r'.2)

/-- The node after `initialize`; `d` is what the constructor leaves in the members for the angular acceleration. -/
def start (P : MQueue C) (ext0 : C.Ext) (fctl0 : C.Ctl) (now : Int) (d : Differ) : Sys C P :=
  { hub := { node := Node.start g.cfg P ext0 fctl0 now, mem := { init := fun _ => none, prev := fun _ => none } }, diff := d }

end Sys
end RL
