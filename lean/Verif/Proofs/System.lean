import Verif.Model.System
import Verif.Spec.Fusion
/-! # What happens to the whole node is something that happens to its control flow -/

namespace RL
variable {C : Core} {P : MQueue C}

theorem Node.sensor_stale (n : Node C P) (topic : String) (stamp : Int) (z : Option C.Z) (h : n.stale stamp) :
    n.sensor topic stamp z = n := if_pos h

theorem Node.stale_sensor (n : Node C P) (topic : String) (stamp : Int) (z : Option C.Z) (stamp' : Int) :
    (n.sensor topic stamp z).stale stamp' ↔ n.stale stamp' := by
  unfold Node.stale Node.sensor
  split
  · rfl
  · dsimp only
    split
    · cases z <;> rfl
    · rfl

theorem Node.sensor_filt (n : Node C P) (topic : String) (stamp : Int) (z : Option C.Z) :
    (n.sensor topic stamp z).filt = n.filt := by
  unfold Node.sensor
  split
  · rfl
  · dsimp only
    split
    · cases z <;> rfl
    · rfl

/-- The measurement `poseCallback` asks for. -/
noncomputable def Hub.posePrep (c : PrepCtx) (h : Hub C P) (msg : PoseMsg) (cd : CallbackData) (target source : String) (imu : Bool) :
    Option Payload :=
  (preparePose c h.mem ((h.node.lastMsg cd.topic).getD msg.stamp) msg cd.topic target source cd.differential cd.relative imu
    cd.blank).2

theorem Hub.poseCallback_node (mk : Payload → C.Z) (c : PrepCtx) (h : Hub C P) (msg : PoseMsg) (cd : CallbackData)
    (target source : String) (imu : Bool) :
    (h.poseCallback mk c msg cd target source imu).node =
      h.node.sensor cd.topic msg.stamp ((h.posePrep c msg cd target source imu).map mk) := by
  unfold Hub.poseCallback
  split
  · rename_i hs
    rw [Node.sensor_stale _ _ _ _ hs]
  · rename_i hs
    dsimp only
    split
    · rfl
    · rename_i hl
      unfold Node.sensor
      rw [if_neg (show ¬ h.node.lastSetPose ≥ msg.stamp from hs)]
      dsimp only
      rw [if_neg hl]

/-- The pose of an odometry message. -/
def OdomMsg.asPose (msg : OdomMsg) : PoseMsg :=
  { frame := msg.frame, stamp := msg.stamp, pos := msg.pos, ori := msg.ori, cov := msg.poseCov }

/-- Its velocity. -/
def OdomMsg.asTwist (msg : OdomMsg) : TwistMsg :=
  { frame := msg.child, stamp := msg.stamp, lin := msg.lin, ang := msg.ang, cov := msg.twistCov }

/-- The orientation of an IMU message. -/
def ImuMsg.asPose (msg : ImuMsg) : PoseMsg :=
  { frame := msg.frame, stamp := msg.stamp, pos := 0, ori := msg.ori, cov := angularCov msg.oriCov }

/-- Its angular velocity. -/
def ImuMsg.asTwist (msg : ImuMsg) : TwistMsg :=
  { frame := msg.frame, stamp := msg.stamp, lin := fun _ => .fin 0, ang := msg.vel, cov := angularCov msg.velCov }

/-- What an odometry message does to the control flow. -/
noncomputable def Hub.odomEvents (mk : Payload → C.Z) (c : PrepCtx) (h : Hub C P) (msg : OdomMsg) (a b : CallbackData) :
    List (Node.Event C) :=
  (if a.sum > 0 then
    [.sensor a.topic msg.stamp ((h.posePrep c msg.asPose a c.world (if a.useChild then msg.child else c.base) false).map mk)]
   else []) ++
  (if b.sum > 0 then [.sensor b.topic msg.stamp ((prepareTwist c msg.asTwist c.base b.blank).map mk)] else [])

theorem Hub.odomCallback_node (mk : Payload → C.Z) (cfg : Cfg C) (c : PrepCtx) (h : Hub C P) (msg : OdomMsg) (a b : CallbackData) :
    h.node.run cfg (h.odomEvents mk c msg a b) = ((h.odomCallback mk c msg a b).node, []) := by
  unfold Hub.odomCallback Hub.odomEvents
  by_cases hs : h.node.stale msg.stamp
  · rw [if_pos hs]
    by_cases ha : a.sum > 0 <;> by_cases hb : b.sum > 0 <;>
      simp [ha, hb, Node.run, Node.step, Node.sensor_stale _ _ _ _ hs]
  · rw [if_neg hs]
    have e := Hub.poseCallback_node mk c h msg.asPose a c.world (if a.useChild then msg.child else c.base) false
    by_cases ha : a.sum > 0 <;> by_cases hb : b.sum > 0
    · simp only [if_pos ha, if_pos hb]
      exact Prod.ext (congrArg (fun n => Node.sensor n b.topic msg.stamp _) e.symm) rfl
    · simp only [if_pos ha, if_neg hb]
      exact Prod.ext e.symm rfl
    · simp only [if_neg ha, if_pos hb]
      rfl
    · simp only [if_neg ha, if_neg hb]
      rfl

open Classical in
/-- What an IMU message does to the control flow. -/
noncomputable def Hub.imuEvents (mk : Payload → C.Z) (c : PrepCtx) (h : Hub C P) (msg : ImuMsg) (a b d : CallbackData) (grav : Bool) :
    List (Node.Event C) :=
  (if a.sum > 0 ∧ ¬ |msg.oriCov 0 + 1| < 1e-9 then
    [.sensor a.topic msg.stamp ((h.posePrep c msg.asPose a c.base c.base true).map mk)] else []) ++
  ((if b.sum > 0 ∧ ¬ |msg.velCov 0 + 1| < 1e-9 then
    [.sensor b.topic msg.stamp ((prepareTwist c msg.asTwist c.base b.blank).map mk)] else []) ++
  (if d.sum > 0 ∧ ¬ |msg.accCov 0 + 1| < 1e-9 then
    [.sensor d.topic msg.stamp ((prepareAcceleration c grav msg c.base d.relative d.blank).map mk)] else []))

theorem Hub.imuCallback_node (mk : Payload → C.Z) (cfg : Cfg C) (c : PrepCtx) (h : Hub C P) (msg : ImuMsg) (a b d : CallbackData)
    (grav : Bool) :
    h.node.run cfg (h.imuEvents mk c msg a b d grav) = ((h.imuCallback mk c msg a b d grav).node, []) := by
  unfold Hub.imuCallback Hub.imuEvents
  by_cases hs : h.node.stale msg.stamp
  · rw [if_pos hs]
    split <;> split <;> split <;> simp [Node.run, Node.step, Node.sensor_stale _ _ _ _ hs]
  · rw [if_neg hs]
    have e := Hub.poseCallback_node mk c h msg.asPose a c.base c.base true
    by_cases ha : a.sum > 0 ∧ ¬ |msg.oriCov 0 + 1| < 1e-9 <;> by_cases hb : b.sum > 0 ∧ ¬ |msg.velCov 0 + 1| < 1e-9 <;>
      by_cases hd : d.sum > 0 ∧ ¬ |msg.accCov 0 + 1| < 1e-9
    · simp only [if_pos ha, if_pos hb, if_pos hd]
      exact Prod.ext (congrArg (fun n => Node.sensor (Node.sensor n b.topic msg.stamp _) d.topic msg.stamp _) e.symm) rfl
    · simp only [if_pos ha, if_pos hb, if_neg hd]
      exact Prod.ext (congrArg (fun n => Node.sensor n b.topic msg.stamp _) e.symm) rfl
    · simp only [if_pos ha, if_neg hb, if_pos hd]
      exact Prod.ext (congrArg (fun n => Node.sensor n d.topic msg.stamp _) e.symm) rfl
    · simp only [if_pos ha, if_neg hb, if_neg hd]
      exact Prod.ext e.symm rfl
    · simp only [if_neg ha, if_pos hb, if_pos hd]
      rfl
    · simp only [if_neg ha, if_pos hb, if_neg hd]
      rfl
    · simp only [if_neg ha, if_neg hb, if_pos hd]
      rfl
    · simp only [if_neg ha, if_neg hb, if_neg hd]
      rfl

namespace Sys
variable (V : View C) (g : SysCfg C)

/-- What an event does to the control flow. -/
noncomputable def events (s : Sys C P) : Ev → List (Node.Event C)
  | .odom i buf junk msg =>
    match g.inputs.odomCds[i]? with
    | some (a, b) => if a.sum + b.sum > 0 then s.hub.odomEvents V.meas (s.ctx V g buf junk) msg a b else []
    | none => []
  | .pose i buf junk msg =>
    match g.inputs.poseCds[i]? with
    | some a =>
      if a.sum > 0 then
        [.sensor a.topic msg.stamp
          ((s.hub.posePrep (s.ctx V g buf junk) msg a g.frames.world g.frames.base false).map V.meas)]
      else []
    | none => []
  | .twist i buf junk msg =>
    match g.inputs.twistCds[i]? with
    | some b =>
      if b.sum > 0 then
        [.sensor b.topic msg.stamp ((prepareTwist (s.ctx V g buf junk) msg g.frames.base b.blank).map V.meas)]
      else []
    | none => []
  | .imu i buf junk msg =>
    match g.inputs.imuCds[i]?, g.inputs.imus[i]? with
    | some (a, b, d), some set =>
      if a.sum + b.sum + d.sum > 0 then s.hub.imuEvents V.meas (s.ctx V g buf junk) msg a b d set.removeGravity else []
    | _, _ => []
  | .command now u => [.control (V.ctl u) now]
  | .setPose now buf junk msg => [.setPose msg.stamp now (asked V (s.ctx V g buf junk) msg)]
  | .reset => [.reset]
  | .toggle on => [.toggle on]
  | .enable => [.enable]
  | .tick now now2 buf => [.tick now now2 (tfDue g.frames buf)]

/-- How the messages of a step are made from what the control flow sends. -/
noncomputable def shown (s : Sys C P) : Ev → Out C → Sent
  | .tick now now2 buf =>
    let a := s.hub.node.advance g.cfg now now2
    render V g buf a (s.differ V now a)
  | _ => fun
    | .odom t _ _ => .odom t none
    | .tf t => .tf t none
    | .accel t => .accel t none

theorem step_eq (s : Sys C P) (e : Ev) :
    (s.step V g e).1.hub.node = (s.hub.node.run g.cfg (s.events V g e)).1 ∧
      (s.step V g e).2 = (s.hub.node.run g.cfg (s.events V g e)).2.map (s.shown V g e) := by
  cases e with
  | odom i buf junk msg =>
    simp only [step, events]
    cases g.inputs.odomCds[i]? with
    | none => exact ⟨rfl, rfl⟩
    | some ab =>
      obtain ⟨a, b⟩ := ab
      dsimp only
      split
      · rw [Hub.odomCallback_node]
        exact ⟨rfl, rfl⟩
      · exact ⟨rfl, rfl⟩
  | pose i buf junk msg =>
    simp only [step, events]
    cases g.inputs.poseCds[i]? with
    | none => exact ⟨rfl, rfl⟩
    | some a =>
      dsimp only
      split
      · exact ⟨Hub.poseCallback_node _ _ _ _ _ _ _ _, rfl⟩
      · exact ⟨rfl, rfl⟩
  | twist i buf junk msg =>
    simp only [step, events]
    cases g.inputs.twistCds[i]? with
    | none => exact ⟨rfl, rfl⟩
    | some b =>
      dsimp only
      split <;> exact ⟨rfl, rfl⟩
  | imu i buf junk msg =>
    simp only [step, events]
    cases g.inputs.imuCds[i]? with
    | none => exact ⟨rfl, rfl⟩
    | some abd =>
      obtain ⟨a, b, d⟩ := abd
      cases g.inputs.imus[i]? with
      | none => exact ⟨rfl, rfl⟩
      | some set =>
        dsimp only
        split
        · rw [Hub.imuCallback_node]
          exact ⟨rfl, rfl⟩
        · exact ⟨rfl, rfl⟩
  | command now u => exact ⟨rfl, rfl⟩
  | setPose now buf junk msg => exact ⟨rfl, rfl⟩
  | reset => exact ⟨rfl, rfl⟩
  | toggle on => exact ⟨rfl, rfl⟩
  | enable => exact ⟨rfl, rfl⟩
  | tick now now2 buf =>
    simp only [step, events, cycle, Node.run, Node.step, List.append_nil]
    cases he : s.hub.node.enabled with
    | true => exact ⟨rfl, rfl⟩
    | false =>
      have e : s.hub.node.periodic g.cfg now now2 (tfDue g.frames buf) = (s.hub.node, []) := by
        unfold Node.periodic
        rw [he]
        rfl
      rw [e]
      exact ⟨rfl, rfl⟩

/-- Something holds at every event of a run. -/
def Holds (A : Sys C P → Ev → Prop) : Sys C P → List Ev → Prop
  | _, [] => True
  | s, e :: es => A s e ∧ Holds A (s.step V g e).1 es

/-- What a whole run does to the control flow. -/
noncomputable def allEvents : Sys C P → List Ev → List (Node.Event C)
  | _, [] => []
  | s, e :: es => s.events V g e ++ allEvents (s.step V g e).1 es

end Sys

theorem Node.run_append (cfg : Cfg C) (n : Node C P) (as bs : List (Node.Event C)) :
    n.run cfg (as ++ bs) = (((n.run cfg as).1.run cfg bs).1, (n.run cfg as).2 ++ ((n.run cfg as).1.run cfg bs).2) := by
  induction as generalizing n with
  | nil => rfl
  | cons e as ih =>
    simp only [List.cons_append, Node.run]
    rw [ih]
    simp [List.append_assoc]

theorem Sys.run_node (V : View C) (g : SysCfg C) (es : List Sys.Ev) : ∀ s : Sys C P,
    (s.run V g es).1.hub.node = (s.hub.node.run g.cfg (s.allEvents V g es)).1 := by
  induction es with
  | nil => intro s; rfl
  | cons e es ih =>
    intro s
    show ((s.step V g e).1.run V g es).1.hub.node = (s.hub.node.run g.cfg (s.events V g e ++ (s.step V g e).1.allEvents V g es)).1
    rw [Node.run_append, ih, (s.step_eq V g e).1]

end RL
