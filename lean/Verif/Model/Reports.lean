import Verif.Model.Callbacks
import Verif.Model.Diag
/-!
# Diagnostics for messages thrown away because of their stamp

The `addDiagnostic` calls in `accelerationCallback`, `imuCallback`, `odometryCallback`, `poseCallback` and `twistCallback`
(`/repo/src/ros_filter.cpp:295-305, 526-535, 1885-1896, 1948-1959, 2012-2026, 2390-2401, 2453-2461`), and the time at which
`periodicUpdate` publishes what has accumulated (2255-2268).
-/

namespace RL

/-- What the text of such a diagnostic says about the message: its time, or the `nanosec` field of its time only. -/
inductive StampNote where
  | beforeReset (stamp : Int)
  | beforeResetNs (nanosec : Int)
  | beforePrevious (nanosec : Int)

/-- builtin_interfaces/Time: the part of a time below a second. -/
def nanosec (stamp : Int) : Int := stamp % 1000000000

/-- The key under which all of them are filed. -/
def stampKey (topic : String) : String := topic ++ "_timestamp"

/-- A warning; `txt` writes the text. -/
def stampWarning (txt : String → StampNote → String) (topic : String) (note : StampNote) : DiagEv :=
  .add 1 (stampKey topic) (txt topic note) false

section
variable {C : Core} {P : MQueue C} (txt : String → StampNote → String)

/-- ros_filter.cpp:1948-1959, 2012-2026 (`poseCallback`) and 2390-2401, 2453-2461 (`twistCallback`). -/
def Node.stampReports (n : Node C P) (topic : String) (stamp : Int) : List DiagEv :=
  if n.stale stamp then [stampWarning txt topic (.beforeReset stamp)]
  else if (n.lastMsg topic).getD stamp ≤ stamp then []
  else [stampWarning txt topic (.beforePrevious (nanosec stamp))]

/-- ros_filter.cpp:232-234, 295-305 (`accelerationCallback`): nothing is said about messages before the last `set_pose`. -/
def Node.accelReports (n : Node C P) (topic : String) (stamp : Int) : List DiagEv :=
  if n.stale stamp then []
  else if (n.lastMsg topic).getD stamp ≤ stamp then []
  else [stampWarning txt topic (.beforePrevious (nanosec stamp))]

/-- ros_filter.cpp:1877-1936 `odometryCallback`. -/
noncomputable def Hub.odomReports (mk : Payload → C.Z) (c : PrepCtx) (h : Hub C P) (topic : String) (msg : OdomMsg)
    (poseCd twistCd : CallbackData) : List DiagEv :=
  if h.node.stale msg.stamp then [stampWarning txt topic (.beforeReset msg.stamp)]
  else
    let h1 :=
      if poseCd.sum > 0 then
        h.poseCallback mk c { frame := msg.frame, stamp := msg.stamp, pos := msg.pos, ori := msg.ori, cov := msg.poseCov }
          poseCd c.world (if poseCd.useChild then msg.child else c.base) false
      else h
    (if poseCd.sum > 0 then h.node.stampReports txt poseCd.topic msg.stamp else []) ++
      (if twistCd.sum > 0 then h1.node.stampReports txt twistCd.topic msg.stamp else [])

open Classical in
/-- ros_filter.cpp:513-627 `imuCallback`. -/
noncomputable def Hub.imuReports (mk : Payload → C.Z) (c : PrepCtx) (h : Hub C P) (topic : String) (msg : ImuMsg)
    (poseCd twistCd accelCd : CallbackData) : List DiagEv :=
  if h.node.stale msg.stamp then [stampWarning txt topic (.beforeResetNs (nanosec msg.stamp))]
  else
    let h1 :=
      if poseCd.sum > 0 ∧ ¬ |msg.oriCov 0 + 1| < 1e-9 then
        h.poseCallback mk c
          { frame := msg.frame, stamp := msg.stamp, pos := 0, ori := msg.ori, cov := angularCov msg.oriCov }
          poseCd c.base c.base true
      else h
    let h2 :=
      if twistCd.sum > 0 ∧ ¬ |msg.velCov 0 + 1| < 1e-9 then
        h1.twistCallback mk c
          { frame := msg.frame, stamp := msg.stamp, lin := fun _ => .fin 0, ang := msg.vel, cov := angularCov msg.velCov }
          twistCd c.base
      else h1
    (if poseCd.sum > 0 ∧ ¬ |msg.oriCov 0 + 1| < 1e-9 then h.node.stampReports txt poseCd.topic msg.stamp else []) ++
      (if twistCd.sum > 0 ∧ ¬ |msg.velCov 0 + 1| < 1e-9 then h1.node.stampReports txt twistCd.topic msg.stamp else []) ++
      (if accelCd.sum > 0 ∧ ¬ |msg.accCov 0 + 1| < 1e-9 then h2.node.accelReports txt accelCd.topic msg.stamp else [])

/-- A node with its diagnostics; `lastDiag` is `last_diag_time_`. -/
structure Reporter (C : Core) (P : MQueue C) where
  hub : Hub C P
  diag : Diag
  lastDiag : Int

/-- What may happen to it.  The context of a message (estimate, transforms, frames) is whatever it is when the message
arrives.  `other` is everything else that happens to a node except the cycle; `note` a diagnostic of another kind
(covariances, orientations, configuration); `timer` the timer of the updater (diagnostic_updater). -/
inductive Reporter.Ev (C : Core) where
  | odom (c : PrepCtx) (topic : String) (msg : OdomMsg) (poseCd twistCd : CallbackData)
  | imu (c : PrepCtx) (topic : String) (msg : ImuMsg) (poseCd twistCd accelCd : CallbackData) (grav : Bool)
  | pose (c : PrepCtx) (msg : PoseMsg) (cd : CallbackData) (target source : String)
  | twist (c : PrepCtx) (msg : TwistMsg) (cd : CallbackData) (target : String)
  | note (level : ℕ) (key text : String) (isStatic : Bool)
  | reset
  | setPose (stamp now : Int) (prepared : Option (C.X × C.Cov))
  | control (u : C.Ctl) (stamp : Int)
  | toggle (on : Bool)
  | enable
  | tick (now now2 : Int) (tfOk : Bool)
  | timer

/-- Settings: `print_diagnostics`, and `diagnostic_updater`'s period. -/
structure ReportCfg where
  print : Bool
  period : Int

/-- What is filed while a message is handled. -/
noncomputable def Reporter.filed (mk : Payload → C.Z) (r : Reporter C P) : Reporter.Ev C → List DiagEv
  | .odom c topic msg p t => r.hub.odomReports txt mk c topic msg p t
  | .imu c topic msg p t a _ => r.hub.imuReports txt mk c topic msg p t a
  | .pose _ msg cd _ _ => r.hub.node.stampReports txt cd.topic msg.stamp
  | .twist _ msg cd _ => r.hub.node.stampReports txt cd.topic msg.stamp
  | .note l k t s => [.add l k t s]
  | _ => []

/-- What happens to node and message memory.  `reset` and `set_pose` forget the memory of the prepare functions
(ros_filter.cpp:157-159, 2300-2302). -/
noncomputable def Reporter.moved (mk : Payload → C.Z) (cfg : Cfg C) (r : Reporter C P) : Reporter.Ev C → Hub C P
  | .odom c _ msg p t => r.hub.odomCallback mk c msg p t
  | .imu c _ msg p t a g => r.hub.imuCallback mk c msg p t a g
  | .pose c msg cd target source => r.hub.poseCallback mk c msg cd target source false
  | .twist c msg cd target => r.hub.twistCallback mk c msg cd target
  | .reset => { node := r.hub.node.reset cfg, mem := { init := fun _ => none, prev := fun _ => none } }
  | .setPose s n x => { node := r.hub.node.setPose s n x, mem := { init := fun _ => none, prev := fun _ => none } }
  | .control u t => { r.hub with node := r.hub.node.control cfg u t }
  | .toggle on => { r.hub with node := (r.hub.node.toggle on).1 }
  | .enable => { r.hub with node := r.hub.node.enable }
  | .tick now now2 tfOk => { r.hub with node := (r.hub.node.periodic cfg now now2 tfOk).1 }
  | .note .. => r.hub
  | .timer => r.hub

/-- ros_filter.cpp:2098-2104, 2255-2268: whether a report is published.  The updater only knows `aggregateDiagnostics` when
`print_diagnostics` is set (2050-2054). -/
def Reporter.due (g : ReportCfg) (r : Reporter C P) : Reporter.Ev C → Bool
  | .tick now _ _ => r.hub.node.enabled && g.print && (decide (now - r.lastDiag ≥ g.period) || decide (now - r.lastDiag < 0))
  | .timer => g.print
  | _ => false

/-- One step: what is filed is added, and a report is sent when it is due. -/
noncomputable def Reporter.step (mk : Payload → C.Z) (cfg : Cfg C) (g : ReportCfg) (r : Reporter C P)
    (e : Reporter.Ev C) : Reporter C P × Option DiagReport :=
  let d := r.diag.run (r.filed txt mk e)
  let hub := r.moved mk cfg e
  if r.due g e then
    ({ hub := hub, diag := d.aggregate.1, lastDiag := match e with | .tick now _ _ => now | _ => r.lastDiag }, some d.aggregate.2)
  else
    ({ hub := hub, diag := d, lastDiag := match e with | .reset => 0 | _ => r.lastDiag }, none)

/-- A run and the reports sent. -/
noncomputable def Reporter.run (mk : Payload → C.Z) (cfg : Cfg C) (g : ReportCfg) (r : Reporter C P) :
    List (Reporter.Ev C) → Reporter C P × List DiagReport
  | [] => (r, [])
  | e :: es =>
    let s := r.step txt mk cfg g e
    let s' := Reporter.run mk cfg g s.1 es
    (s'.1, s.2.toList ++ s'.2)

end
end RL
