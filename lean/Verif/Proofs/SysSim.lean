import Verif.Proofs.NodeSim
import Verif.Model.System
/-! # Two whole nodes that do the same, from the messages they get to the messages they send (helper lemmas for C144) -/

namespace RL

/-- The pose in an odometry message, as `odometryCallback` passes it on. -/
def OdomMsg.poseOf (m : OdomMsg) : PoseMsg :=
  { frame := m.frame, stamp := m.stamp, pos := m.pos, ori := m.ori, cov := m.poseCov }

/-- The twist in an odometry message, as `odometryCallback` passes it on. -/
def OdomMsg.twistOf (m : OdomMsg) : TwistMsg :=
  { frame := m.child, stamp := m.stamp, lin := m.lin, ang := m.ang, cov := m.twistCov }

/-- The orientation in an IMU message, as `imuCallback` passes it on. -/
def ImuMsg.poseOf (m : ImuMsg) : PoseMsg :=
  { frame := m.frame, stamp := m.stamp, pos := 0, ori := m.ori, cov := angularCov m.oriCov }

/-- The angular velocity in an IMU message, as `imuCallback` passes it on. -/
def ImuMsg.twistOf (m : ImuMsg) : TwistMsg :=
  { frame := m.frame, stamp := m.stamp, lin := fun _ => .fin 0, ang := m.vel, cov := angularCov m.velCov }

/-- No earlier poses. -/
def PoseMem.blank : PoseMem := { init := fun _ => none, prev := fun _ => none }

/-- Messages of two nodes that are related, and what the prepare functions make of them.  `Fine` is asked of a pose, `Src` of the frame whose pose or velocity it is, `CdPose` of
the settings of an input for poses, `Cd` of those of other inputs, `Zero` of a run with a reset or a pose that cannot be set. -/
structure MsgSim where
  CdPose : CallbackData → Prop
  Cd : CallbackData → Prop
  Zero : Prop
  Ctx : PrepCtx → PrepCtx → Prop
  Mem : PoseMem → PoseMem → Prop
  Pay : Payload → Payload → Prop
  Ask : Payload → Payload → Prop
  Pose : PoseMsg → PoseMsg → Prop
  Twist : TwistMsg → TwistMsg → Prop
  Imu : ImuMsg → ImuMsg → Prop
  Odom : OdomMsg → OdomMsg → Prop
  Src : PrepCtx → String → Prop
  Fine : PrepCtx → PoseMem → PoseMsg → CallbackData → String → Bool → Prop
  base : ∀ {c c'}, Ctx c c' → c'.base = c.base
  world : ∀ {c c'}, Ctx c c' → c'.world = c.world
  odomSrc : ∀ {c c' m m'}, Ctx c c' → Odom m m' → Src c m.child
  baseSrc : ∀ {c c'}, Ctx c c' → Src c c.base
  poseStamp : ∀ {m m'}, Pose m m' → m'.stamp = m.stamp
  twistStamp : ∀ {m m'}, Twist m m' → m'.stamp = m.stamp
  odomSame : ∀ {m m'}, Odom m m' → m'.stamp = m.stamp ∧ m'.child = m.child
  odomPose : ∀ {m m'}, Odom m m' → Pose m.poseOf m'.poseOf
  odomTwist : ∀ {m m'}, Odom m m' → Twist m.twistOf m'.twistOf
  imuSame : ∀ {m m'}, Imu m m' → m'.stamp = m.stamp ∧ m'.oriCov 0 = m.oriCov 0 ∧ m'.velCov 0 = m.velCov 0 ∧ m'.accCov 0 = m.accCov 0
  imuPose : ∀ {m m'}, Imu m m' → Pose m.poseOf m'.poseOf
  imuTwist : ∀ {m m'}, Imu m m' → Twist m.twistOf m'.twistOf
  mem0 : Mem .blank .blank
  twist : ∀ {c c' m m'}, Ctx c c' → Twist m m' → ∀ (cd : CallbackData) (target : String), Cd cd → Src c target →
    Option.Rel Pay (prepareTwist c m target cd.blank) (prepareTwist c' m' target cd.blank)
  accel : ∀ {c c' m m'}, Ctx c c' → Imu m m' → ∀ (cd : CallbackData) (target : String) (grav : Bool), Cd cd → Src c target →
    Option.Rel Pay (prepareAcceleration c grav m target cd.relative cd.blank)
      (prepareAcceleration c' grav m' target cd.relative cd.blank)
  pose : ∀ {c c' k k' m m'}, Ctx c c' → Mem k k' → Pose m m' → ∀ (last : Int) (cd : CallbackData) (target source : String)
    (imu : Bool), CdPose cd → Src c source → Fine c k m cd target imu →
    Mem (preparePose c k last m cd.topic target source cd.differential cd.relative imu cd.blank).1
      (preparePose c' k' last m' cd.topic target source cd.differential cd.relative imu cd.blank).1 ∧
    Option.Rel Pay (preparePose c k last m cd.topic target source cd.differential cd.relative imu cd.blank).2
      (preparePose c' k' last m' cd.topic target source cd.differential cd.relative imu cd.blank).2
  asked : ∀ {c c' m m'}, Ctx c c' → Pose m m' →
    Option.Rel Ask (preparePose c .blank m.stamp m "set_pose" c.world c.base false false false Sys.blankPose).2
      (preparePose c' .blank m'.stamp m' "set_pose" c'.world c'.base false false false Sys.blankPose).2

namespace Hub
variable {C : Core} {P : MQueue C} (mk : Payload → C.Z) (c : PrepCtx)

/-- `odometryCallback` after the first test. -/
noncomputable def odomParts (h : Hub C P) (m : OdomMsg) (a b : CallbackData) : Hub C P :=
  if b.sum > 0 then
    Hub.twistCallback mk c
      (if a.sum > 0 then h.poseCallback mk c m.poseOf a c.world (if a.useChild then m.child else c.base) false else h)
      m.twistOf b c.base
  else (if a.sum > 0 then h.poseCallback mk c m.poseOf a c.world (if a.useChild then m.child else c.base) false else h)

theorem odomCallback_eq (h : Hub C P) (m : OdomMsg) (a b : CallbackData) :
    h.odomCallback mk c m a b = if h.node.stale m.stamp then h else h.odomParts mk c m a b := rfl

open Classical in
/-- `imuCallback` after the first test: the orientation. -/
noncomputable def imuParts1 (h : Hub C P) (m : ImuMsg) (a : CallbackData) : Hub C P :=
  if a.sum > 0 ∧ ¬ |m.oriCov 0 + 1| < 1e-9 then h.poseCallback mk c m.poseOf a c.base c.base true else h

open Classical in
/-- The angular velocity. -/
noncomputable def imuParts2 (h : Hub C P) (m : ImuMsg) (b : CallbackData) : Hub C P :=
  if b.sum > 0 ∧ ¬ |m.velCov 0 + 1| < 1e-9 then h.twistCallback mk c m.twistOf b c.base else h

open Classical in
/-- The acceleration. -/
noncomputable def imuParts3 (h : Hub C P) (m : ImuMsg) (d : CallbackData) (grav : Bool) : Hub C P :=
  if d.sum > 0 ∧ ¬ |m.accCov 0 + 1| < 1e-9 then h.accelCallback mk c m d c.base grav else h

theorem imuCallback_eq (h : Hub C P) (m : ImuMsg) (a b d : CallbackData) (grav : Bool) :
    h.imuCallback mk c m a b d grav = if h.node.stale m.stamp then h
      else imuParts3 mk c (imuParts2 mk c (h.imuParts1 mk c m a) m b) m d grav := rfl

end Hub

variable {C C' : Core} {σ : CoreSim C C' 0} {P : MQueue C} {P' : MQueue C'} (κ : QueueSim σ P P') (M : MsgSim)

structure HubPair (h : Hub C P) (h' : Hub C' P') : Prop where
  node : NodeSim κ h.node h'.node
  mem : M.Mem h.mem h'.mem

namespace HubPair
variable {κ} {M} {h : Hub C P} {h' : Hub C' P'} {mk : Payload → C.Z} {mk' : Payload → C'.Z}

theorem posOf (t : Int) : Pos σ.low 0 t := Or.inl rfl

theorem same (hh : HubPair κ M h h') (topic : String) (ht : σ.Name topic topic) : h'.node.lastMsg topic = h.node.lastMsg topic := by
  have := hh.node.msg topic topic ht
  rw [this]
  cases h.node.lastMsg topic with
  | none => rfl
  | some t => exact congrArg some (Int.add_zero t)

theorem stale (hh : HubPair κ M h h') (stamp : Int) : h'.node.stale stamp ↔ h.node.stale stamp := by
  have := hh.node.pose.le (posOf (σ := σ) stamp)
  rw [Int.add_zero] at this
  exact this.symm

theorem told (hh : HubPair κ M h h') (hmk : ∀ {m m'}, M.Pay m m' → σ.Z (mk m) (mk' m')) {topic : String} (ht : σ.Name topic topic)
    (stamp : Int) {r r' : Option Payload} (hr : Option.Rel M.Pay r r') :
    NodeSim κ (h.node.sensor topic stamp (r.map mk)) (h'.node.sensor topic stamp (r'.map mk')) := by
  have := hh.node.sensor ht (posOf stamp) (z := r.map mk) (z' := r'.map mk') (by
    cases hr with
    | none => exact .none
    | some hr => exact .some (hmk hr))
  rwa [Int.add_zero] at this

theorem poseCallback (hh : HubPair κ M h h') (hmk : ∀ {m m'}, M.Pay m m' → σ.Z (mk m) (mk' m')) (hn : ∀ a, σ.Name a a)
    {c c' : PrepCtx} (hc : M.Ctx c c') {m m' : PoseMsg} (hm : M.Pose m m') (cd : CallbackData) (target source : String)
    (imu : Bool) (hcd : M.CdPose cd) (hs : M.Src c source) (hf : M.Fine c h.mem m cd target imu) :
    HubPair κ M (h.poseCallback mk c m cd target source imu) (h'.poseCallback mk' c' m' cd target source imu) := by
  unfold Hub.poseCallback
  simp only [M.poseStamp hm, hh.stale, hh.same _ (hn _)]
  split_ifs
  · exact hh
  · have := M.pose hc hh.mem hm ((h.node.lastMsg cd.topic).getD m.stamp) cd target source imu hcd hs hf
    exact ⟨hh.told hmk (hn _) _ this.2, this.1⟩
  · exact hh

theorem twistCallback (hh : HubPair κ M h h') (hmk : ∀ {m m'}, M.Pay m m' → σ.Z (mk m) (mk' m')) (hn : ∀ a, σ.Name a a)
    {c c' : PrepCtx} (hc : M.Ctx c c') {m m' : TwistMsg} (hm : M.Twist m m') (cd : CallbackData) (target : String) (hcd : M.Cd cd) (hs : M.Src c target) :
    HubPair κ M (h.twistCallback mk c m cd target) (h'.twistCallback mk' c' m' cd target) := by
  unfold Hub.twistCallback
  rw [M.twistStamp hm]
  exact ⟨hh.told hmk (hn _) _ (M.twist hc hm cd target hcd hs), hh.mem⟩

theorem accelCallback (hh : HubPair κ M h h') (hmk : ∀ {m m'}, M.Pay m m' → σ.Z (mk m) (mk' m')) (hn : ∀ a, σ.Name a a)
    {c c' : PrepCtx} (hc : M.Ctx c c') {m m' : ImuMsg} (hm : M.Imu m m') (cd : CallbackData) (target : String) (grav : Bool)
    (hcd : M.Cd cd) (hs : M.Src c target) :
    HubPair κ M (h.accelCallback mk c m cd target grav) (h'.accelCallback mk' c' m' cd target grav) := by
  unfold Hub.accelCallback
  rw [(M.imuSame hm).1]
  exact ⟨hh.told hmk (hn _) _ (M.accel hc hm cd target grav hcd hs), hh.mem⟩

theorem odomCallback (hh : HubPair κ M h h') (hmk : ∀ {m m'}, M.Pay m m' → σ.Z (mk m) (mk' m')) (hn : ∀ a, σ.Name a a)
    {c c' : PrepCtx} (hc : M.Ctx c c') {m m' : OdomMsg} (hm : M.Odom m m') (a b : CallbackData)
    (ha : M.CdPose a) (hb : M.Cd b) (hf : a.sum > 0 → M.Fine c h.mem m.poseOf a c.world false) :
    HubPair κ M (h.odomCallback mk c m a b) (h'.odomCallback mk' c' m' a b) := by
  have h1 : HubPair κ M
      (if a.sum > 0 then h.poseCallback mk c m.poseOf a c.world (if a.useChild then m.child else c.base) false else h)
      (if a.sum > 0 then h'.poseCallback mk' c' m'.poseOf a c'.world (if a.useChild then m'.child else c'.base) false else h') := by
    rw [M.world hc, M.base hc, (M.odomSame hm).2]
    split_ifs with h1
    · exact hh.poseCallback hmk hn hc (M.odomPose hm) a _ _ _ ha (M.odomSrc hc hm) (hf h1)
    · exact hh.poseCallback hmk hn hc (M.odomPose hm) a _ _ _ ha (M.baseSrc hc) (hf h1)
    · exact hh
  have h2 : HubPair κ M (h.odomParts mk c m a b) (h'.odomParts mk' c' m' a b) := by
    unfold Hub.odomParts
    by_cases hs : b.sum > 0
    · rw [if_pos hs, if_pos hs]
      have := h1.twistCallback hmk hn hc (M.odomTwist hm) b c.base hb (M.baseSrc hc)
      rw [M.base hc] at this ⊢
      exact this
    · rw [if_neg hs, if_neg hs]
      exact h1
  rw [Hub.odomCallback_eq, Hub.odomCallback_eq]
  simp only [(M.odomSame hm).1, hh.stale]
  by_cases hs : h.node.stale m.stamp
  · rw [if_pos hs, if_pos hs]
    exact hh
  · rw [if_neg hs, if_neg hs]
    exact h2

theorem imuCallback (hh : HubPair κ M h h') (hmk : ∀ {m m'}, M.Pay m m' → σ.Z (mk m) (mk' m')) (hn : ∀ a, σ.Name a a)
    {c c' : PrepCtx} (hc : M.Ctx c c') {m m' : ImuMsg} (hm : M.Imu m m') (a b d : CallbackData) (grav : Bool)
    (ca : M.CdPose a) (cb : M.Cd b) (cd : M.Cd d) (hf : a.sum > 0 → M.Fine c h.mem m.poseOf a c.base true) :
    HubPair κ M (h.imuCallback mk c m a b d grav) (h'.imuCallback mk' c' m' a b d grav) := by
  obtain ⟨hs, ho, hv, ha⟩ := M.imuSame hm
  have h1 : HubPair κ M (h.imuParts1 mk c m a) (h'.imuParts1 mk' c' m' a) := by
    unfold Hub.imuParts1
    rw [M.base hc, ho]
    split_ifs with h0
    · exact hh.poseCallback hmk hn hc (M.imuPose hm) a _ _ _ ca (M.baseSrc hc) (hf h0.1)
    · exact hh
  have h2 : HubPair κ M (Hub.imuParts2 mk c (h.imuParts1 mk c m a) m b) (Hub.imuParts2 mk' c' (h'.imuParts1 mk' c' m' a) m' b) := by
    unfold Hub.imuParts2
    rw [M.base hc, hv]
    split_ifs
    · exact h1.twistCallback hmk hn hc (M.imuTwist hm) b _ cb (M.baseSrc hc)
    · exact h1
  have h3 : HubPair κ M (Hub.imuParts3 mk c (Hub.imuParts2 mk c (h.imuParts1 mk c m a) m b) m d grav)
      (Hub.imuParts3 mk' c' (Hub.imuParts2 mk' c' (h'.imuParts1 mk' c' m' a) m' b) m' d grav) := by
    unfold Hub.imuParts3
    rw [M.base hc, ha]
    split_ifs
    · exact h2.accelCallback hmk hn hc hm d _ grav cd (M.baseSrc hc)
    · exact h2
  rw [Hub.imuCallback_eq, Hub.imuCallback_eq]
  simp only [hs, hh.stale]
  by_cases hs : h.node.stale m.stamp
  · rw [if_pos hs, if_pos hs]
    exact hh
  · rw [if_neg hs, if_neg hs]
    exact h3

end HubPair

/-! ## Whole nodes -/

/-- Two whole nodes.  `Clean` is asked of the estimate. -/
structure SysPair (σ : CoreSim C C' 0) (M : MsgSim) (V : View C) (V' : View C') (g : SysCfg C) (g' : SysCfg C') where
  Clean : C.X → C.Cov → Prop
  Diff : Differ → Differ → Prop
  Buf : TfBuffer → TfBuffer → Prop
  Junk : State → State → Prop
  Cmd : (Fin 6 → ℝ) → (Fin 6 → ℝ) → Prop
  Said : Sent → Sent → Prop
  frames : g'.frames = g.frames
  inputs : g'.inputs = g.inputs
  odomCds : ∀ (i : ℕ) a b, g.inputs.odomCds[i]? = some (a, b) → M.CdPose a ∧ M.Cd b
  poseCds : ∀ (i : ℕ) a, g.inputs.poseCds[i]? = some a → M.CdPose a
  twistCds : ∀ (i : ℕ) a, g.inputs.twistCds[i]? = some a → M.Cd a
  imuCds : ∀ (i : ℕ) a b d, g.inputs.imuCds[i]? = some (a, b, d) → M.CdPose a ∧ M.Cd b ∧ M.Cd d
  cfg : CfgSim σ g.cfg g'.cfg
  name : ∀ a, σ.Name a a
  meas : ∀ {m m'}, M.Pay m m' → σ.Z (V.meas m) (V'.meas m')
  pose : ∀ {m m'}, M.Ask m m' → σ.X (V.pose (fun i => (m.z i).val) m.R).1 (V'.pose (fun i => (m'.z i).val) m'.R).1 ∧
    σ.Cov (V.pose (fun i => (m.z i).val) m.R).2 (V'.pose (fun i => (m'.z i).val) m'.R).2
  cmd : ∀ {u u'}, Cmd u u' → ∀ t, σ.Ctl (V.ctl u) t (V'.ctl u') t
  zero : M.Zero → σ.X C.zeroX C'.zeroX ∧ σ.Cov C.setPoseCov C'.setPoseCov
  ctl0 : ∀ {u t u' t'}, σ.Ctl u t u' t' → σ.Ctl u 0 u' 0
  tfDue : ∀ {b b'}, Buf b b' → Sys.tfDue g.frames b' = Sys.tfDue g.frames b
  ctx : ∀ {x x' P d d' b b' j j'}, σ.X x x' → Clean x P → Diff d d' → Buf b b' → Junk j j' →
    M.Ctx { buf := b, world := g.frames.world, base := g.frames.base, twoD := g.twoD, state := (V.state x).getD j
            angAcc := d.acc, gravity := g.gravity }
      { buf := b', world := g'.frames.world, base := g'.frames.base, twoD := g'.twoD, state := (V'.state x').getD j'
        angAcc := d'.acc, gravity := g'.gravity }
  differ : ∀ {x x' P P' d d'}, σ.X x x' → σ.Cov P P' → Clean x P → Diff d d' → ∀ (init : Bool) (now : Int),
    Diff (match V.state x with | some y => d.step init now y (V.cov P) | none => d)
      (match V'.state x' with | some y => d'.step init now y (V'.cov P') | none => d')
  odom : ∀ {x x' P P'}, σ.X x x' → σ.Cov P P' → Clean x P → ∀ t,
    Said (.odom t ((V.state x).bind fun y => odomMessage g.frames true y (V.cov P) t))
      (.odom t ((V'.state x').bind fun y => odomMessage g'.frames true y (V'.cov P') t))
  tf : ∀ {x x' P P' b b'}, σ.X x x' → σ.Cov P P' → Clean x P → Buf b b' → ∀ t,
    Said (.tf t ((V.state x).bind fun y => (odomMessage g.frames true y (V.cov P) t).bind fun m =>
        broadcast g.frames b g.tfOffset m))
      (.tf t ((V'.state x').bind fun y => (odomMessage g'.frames true y (V'.cov P') t).bind fun m =>
        broadcast g'.frames b' g'.tfOffset m))
  accel : ∀ {x x' P P' d d'}, σ.X x x' → σ.Cov P P' → Clean x P → Diff d d' → ∀ t,
    Said (.accel t ((V.state x).bind fun y => accelMessage g.frames true y (V.cov P) t d))
      (.accel t ((V'.state x').bind fun y => accelMessage g'.frames true y (V'.cov P') t d'))

namespace SysPair
variable {κ} {M} {V : View C} {V' : View C'} {g : SysCfg C} {g' : SysCfg C'} (S : SysPair σ M V V' g g')

/-- The same event for both. -/
inductive EvSim : Sys.Ev → Sys.Ev → Prop
  | odom (i : ℕ) {b b' j j' m m'} (hb : S.Buf b b') (hj : S.Junk j j') (hm : M.Odom m m') : EvSim (.odom i b j m) (.odom i b' j' m')
  | pose (i : ℕ) {b b' j j' m m'} (hb : S.Buf b b') (hj : S.Junk j j') (hm : M.Pose m m') : EvSim (.pose i b j m) (.pose i b' j' m')
  | twist (i : ℕ) {b b' j j' m m'} (hb : S.Buf b b') (hj : S.Junk j j') (hm : M.Twist m m') :
      EvSim (.twist i b j m) (.twist i b' j' m')
  | imu (i : ℕ) {b b' j j' m m'} (hb : S.Buf b b') (hj : S.Junk j j') (hm : M.Imu m m') : EvSim (.imu i b j m) (.imu i b' j' m')
  | command (now : Int) {u u'} (h : S.Cmd u u') : EvSim (.command now u) (.command now u')
  | setPose (now : Int) {b b' j j' m m'} (hb : S.Buf b b') (hj : S.Junk j j') (hm : M.Pose m m') :
      EvSim (.setPose now b j m) (.setPose now b' j' m')
  | reset : EvSim .reset .reset
  | toggle (on : Bool) : EvSim (.toggle on) (.toggle on)
  | enable : EvSim .enable .enable
  | tick (now now2 : Int) {b b'} (hb : S.Buf b b') : EvSim (.tick now now2 b) (.tick now now2 b')

variable (M V g) in
/-- What is asked of an event. -/
def EvFine (s : Sys C P) : Sys.Ev → Prop
  | .odom i buf junk msg => ∀ a b, g.inputs.odomCds[i]? = some (a, b) → a.sum > 0 →
      M.Fine (s.ctx V g buf junk) s.hub.mem msg.poseOf a g.frames.world false
  | .pose i buf junk msg => ∀ a, g.inputs.poseCds[i]? = some a →
      M.Fine (s.ctx V g buf junk) s.hub.mem msg a g.frames.world false
  | .imu i buf junk msg => ∀ a b d, g.inputs.imuCds[i]? = some (a, b, d) → a.sum > 0 →
      M.Fine (s.ctx V g buf junk) s.hub.mem msg.poseOf a g.frames.base true
  | .setPose _ buf junk msg =>
      (preparePose (s.ctx V g buf junk) .blank msg.stamp msg "set_pose" g.frames.world g.frames.base false false false
        Sys.blankPose).2 = none → M.Zero
  | .reset => M.Zero
  | _ => True

/-- What is asked of a run: before and after every event the estimate is clean, and the poses in the messages are fine. -/
def RunFine (s : Sys C P) : List Sys.Ev → Prop
  | [] => S.Clean s.hub.node.filt.x s.hub.node.filt.cov
  | e :: es => S.Clean s.hub.node.filt.x s.hub.node.filt.cov ∧ EvFine M V g s e ∧ RunFine (s.step V g e).1 es

variable (κ) in
structure Alike (s : Sys C P) (s' : Sys C' P') : Prop where
  hub : HubPair κ M s.hub s'.hub
  diff : S.Diff s.diff s'.diff

theorem published {n : Node C P} {cfg : Cfg C} {tfOk : Bool} :
    (n.publish cfg tfOk).1.filt = n.filt ∧ ∀ t x Q, Out.odom t x Q ∈ (n.publish cfg tfOk).2 → x = n.filt.x ∧ Q = n.filt.cov := by
  unfold Node.publish
  dsimp only
  split_ifs <;> simp

theorem periodic_filt {n : Node C P} {cfg : Cfg C} {now now2 : Int} {tfOk : Bool} (he : n.enabled = true) :
    (n.periodic cfg now now2 tfOk).1.filt = (n.advance cfg now now2).filt ∧
    ∀ t x Q, Out.odom t x Q ∈ (n.periodic cfg now now2 tfOk).2 →
      x = (n.advance cfg now now2).filt.x ∧ Q = (n.advance cfg now now2).filt.cov := by
  obtain ⟨h1, h2⟩ := published (n := n.advance cfg now now2) (cfg := cfg) (tfOk := tfOk)
  unfold Node.periodic
  rw [if_neg (by simp [he])]
  dsimp only
  refine ⟨?_, h2⟩
  split_ifs
  · exact h1
  · exact h1

variable {S} {s : Sys C P} {s' : Sys C' P'}

theorem Alike.ctx (h : S.Alike κ s s') (hc : S.Clean s.hub.node.filt.x s.hub.node.filt.cov) {b b' j j'} (hb : S.Buf b b') (hj : S.Junk j j') :
    M.Ctx (s.ctx V g b j) (s'.ctx V' g' b' j') :=
  S.ctx h.hub.node.filt.x hc h.diff hb hj

theorem Alike.cycle (h : S.Alike κ s s') {now now2 : Int} {b b'} (hb : S.Buf b b')
    (hc : S.Clean (s.cycle V g now now2 b).1.hub.node.filt.x (s.cycle V g now now2 b).1.hub.node.filt.cov) :
    S.Alike κ (s.cycle V g now now2 b).1 (s'.cycle V' g' now now2 b').1 ∧
      List.Forall₂ S.Said (s.cycle V g now now2 b).2 (s'.cycle V' g' now now2 b').2 := by
  unfold Sys.cycle at hc ⊢
  rw [h.hub.node.enabled]
  cases he : s.hub.node.enabled with
  | false =>
    simp only [Bool.false_eq_true, if_false]
    exact ⟨h, .nil⟩
  | true =>
    have he' : s'.hub.node.enabled = true := h.hub.node.enabled.trans he
    simp only [he, if_true] at hc ⊢
    have hp := h.hub.node.periodic S.cfg (HubPair.posOf (σ := σ) now) (HubPair.posOf (σ := σ) now2) (Sys.tfDue g.frames b)
    have ha := h.hub.node.advance S.cfg (HubPair.posOf (σ := σ) now) (HubPair.posOf (σ := σ) now2)
    rw [Int.add_zero, Int.add_zero] at hp ha
    obtain ⟨e1, e2⟩ := periodic_filt (cfg := g.cfg) (now := now) (now2 := now2) (tfOk := Sys.tfDue g.frames b) he
    obtain ⟨-, e2'⟩ := periodic_filt (cfg := g'.cfg) (now := now) (now2 := now2) (tfOk := Sys.tfDue g.frames b) he'
    rw [e1] at hc
    have hd : S.Diff (s.differ V now (s.hub.node.advance g.cfg now now2)) (s'.differ V' now (s'.hub.node.advance g'.cfg now now2)) := by
      unfold Sys.differ
      rw [h.hub.node.on, ha.filt.init]
      cases s.hub.node.toggledOn with
      | false => exact h.diff
      | true => exact S.differ ha.filt.x ha.filt.cov hc h.diff _ _
    rw [S.frames, S.tfDue hb]
    refine ⟨⟨⟨hp.1, h.hub.mem⟩, hd⟩, ?_⟩
    have hl := hp.2
    revert hl e2 e2'
    generalize (s.hub.node.periodic g.cfg now now2 (Sys.tfDue g.frames b)).2 = l
    generalize (s'.hub.node.periodic g'.cfg now now2 (Sys.tfDue g.frames b)).2 = l'
    intro e2 e2' hl
    induction hl with
    | nil => exact .nil
    | cons hab _ ih =>
      refine .cons ?_ (ih (fun t x Q hm => e2 t x Q (List.mem_cons_of_mem _ hm)) (fun t x Q hm => e2' t x Q (List.mem_cons_of_mem _ hm)))
      cases hab with
      | odom hx hP =>
        obtain ⟨rfl, rfl⟩ := e2 _ _ _ List.mem_cons_self
        rw [Int.add_zero]
        exact S.odom hx hP hc _
      | tf t =>
        rw [Int.add_zero]
        exact S.tf ha.filt.x ha.filt.cov hc hb t
      | accel t =>
        rw [Int.add_zero]
        exact S.accel ha.filt.x ha.filt.cov hc hd t

/-- One step. -/
theorem Alike.step (h : S.Alike κ s s') {e e'} (he : S.EvSim e e') (hc : S.Clean s.hub.node.filt.x s.hub.node.filt.cov)
    (hf : EvFine M V g s e) (hc2 : S.Clean (s.step V g e).1.hub.node.filt.x (s.step V g e).1.hub.node.filt.cov) :
    S.Alike κ (s.step V g e).1 (s'.step V' g' e').1 ∧ List.Forall₂ S.Said (s.step V g e).2 (s'.step V' g' e').2 := by
  cases he with
  | odom i hb hj hm =>
    clear hc2
    simp only [Sys.step, S.inputs]
    cases hi : g.inputs.odomCds[i]? with
    | none => exact ⟨h, .nil⟩
    | some ab =>
      obtain ⟨a, b⟩ := ab
      dsimp only
      split_ifs
      · exact ⟨⟨h.hub.odomCallback S.meas S.name (h.ctx hc hb hj) hm a b (S.odomCds i a b hi).1 (S.odomCds i a b hi).2 (hf a b hi), h.diff⟩, .nil⟩
      · exact ⟨h, .nil⟩
  | pose i hb hj hm =>
    clear hc2
    simp only [Sys.step, S.inputs, S.frames]
    cases hi : g.inputs.poseCds[i]? with
    | none => exact ⟨h, .nil⟩
    | some a =>
      dsimp only
      split_ifs
      · exact ⟨⟨h.hub.poseCallback S.meas S.name (h.ctx hc hb hj) hm a _ _ _ (S.poseCds i a hi) (M.baseSrc (h.ctx hc hb hj)) (hf a hi), h.diff⟩, .nil⟩
      · exact ⟨h, .nil⟩
  | twist i hb hj hm =>
    clear hc2
    simp only [Sys.step, S.inputs, S.frames]
    cases hi : g.inputs.twistCds[i]? with
    | none => exact ⟨h, .nil⟩
    | some a =>
      dsimp only
      split_ifs
      · exact ⟨⟨h.hub.twistCallback S.meas S.name (h.ctx hc hb hj) hm a _ (S.twistCds i a hi) (M.baseSrc (h.ctx hc hb hj)), h.diff⟩, .nil⟩
      · exact ⟨h, .nil⟩
  | imu i hb hj hm =>
    clear hc2
    simp only [Sys.step, S.inputs]
    cases hi : g.inputs.imuCds[i]? with
    | none => exact ⟨h, .nil⟩
    | some abd =>
      obtain ⟨a, b, d⟩ := abd
      cases g.inputs.imus[i]? with
      | none => exact ⟨h, .nil⟩
      | some set =>
        dsimp only
        split_ifs
        · exact ⟨⟨h.hub.imuCallback S.meas S.name (h.ctx hc hb hj) hm a b d _ (S.imuCds i a b d hi).1
            (S.imuCds i a b d hi).2.1 (S.imuCds i a b d hi).2.2 (hf a b d hi), h.diff⟩, .nil⟩
        · exact ⟨h, .nil⟩
  | command now hu =>
    exact ⟨⟨⟨h.hub.node.control S.cfg (S.cmd hu now), h.hub.mem⟩, h.diff⟩, .nil⟩
  | setPose now hb hj hm =>
    clear hc2
    rename_i b b' j j' m m'
    refine ⟨⟨⟨?_, M.mem0⟩, h.diff⟩, .nil⟩
    have ha : Option.Rel (fun a b => σ.X a.1 b.1 ∧ σ.Cov a.2 b.2) (Sys.asked V (s.ctx V g b j) m) (Sys.asked V' (s'.ctx V' g' b' j') m') := by
      have := M.asked (h.ctx hc hb hj) hm
      unfold Sys.asked
      change Option.Rel M.Ask (preparePose (s.ctx V g b j) .blank m.stamp m "set_pose" _ _ false false false Sys.blankPose).2 _ at this
      change Option.Rel _ ((preparePose (s.ctx V g b j) .blank m.stamp m "set_pose" _ _ false false false Sys.blankPose).2.map _)
        ((preparePose (s'.ctx V' g' b' j') .blank m'.stamp m' "set_pose" _ _ false false false Sys.blankPose).2.map _)
      revert this
      generalize (preparePose (s.ctx V g b j) .blank m.stamp m "set_pose" _ _ false false false Sys.blankPose).2 = r
      generalize (preparePose (s'.ctx V' g' b' j') .blank m'.stamp m' "set_pose" _ _ false false false Sys.blankPose).2 = r'
      intro this
      cases this with
      | none => exact .none
      | some hm => exact .some (S.pose hm)
    have := h.hub.node.setPose (stamp := m.stamp) (HubPair.posOf (σ := σ) now) ha (fun hn => S.zero (hf (Option.map_eq_none_iff.1 hn)))
    rw [Int.add_zero, Int.add_zero, ← M.poseStamp hm] at this
    simpa only [Sys.step, M.poseStamp hm] using this
  | reset => exact ⟨⟨⟨h.hub.node.reset S.cfg (S.zero hf).1 S.ctl0, M.mem0⟩, h.diff⟩, .nil⟩
  | toggle on => exact ⟨⟨⟨(h.hub.node.step S.cfg (.toggle on)).1, h.hub.mem⟩, h.diff⟩, .nil⟩
  | enable => exact ⟨⟨⟨(h.hub.node.step S.cfg .enable).1, h.hub.mem⟩, h.diff⟩, .nil⟩
  | tick now now2 hb => exact h.cycle hb hc2

/-- Whole runs. -/
theorem Alike.run {es es'} (he : List.Forall₂ S.EvSim es es') (h : S.Alike κ s s') (hf : S.RunFine s es) :
    S.Alike κ (s.run V g es).1 (s'.run V' g' es').1 ∧ List.Forall₂ S.Said (s.run V g es).2 (s'.run V' g' es').2 := by
  induction he generalizing s s' with
  | nil => exact ⟨h, .nil⟩
  | cons hab _ ih =>
    obtain ⟨h1, h2, h3⟩ := hf
    have h4 := h.step hab h1 h2 (by
      rename_i l _ _
      cases l with
      | nil => exact h3
      | cons _ _ => exact h3.1)
    have h5 := ih h4.1 h3
    exact ⟨h5.1, List.rel_append h4.2 h5.2⟩

end SysPair
end RL
