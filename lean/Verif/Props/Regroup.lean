import Verif.Model.System
import Verif.Proofs.NodeSim
import Verif.Proofs.System
import Verif.Props.Origin
import Verif.Props.Streams
import Verif.Props.Callbacks
import Verif.Props.Arrival
import Verif.Props.FirstOdom
/-!
# C137: by which input a message comes in does not matter

Two nodes with the same settings, except that the same streams of messages come in by other inputs: numbered otherwise, or
the two halves of an odometry message by a pose input and a twist input.
-/

namespace RL

/-- Names for names: no two streams of one node become one of the other. -/
def OneToOne (N : String → String → Prop) : Prop := ∀ a b a' b', N a b → N a' b' → (a = a' ↔ b = b')

/-- Everything equal but the names. -/
def sameSim (C : Core) (N : String → String → Prop) (hN : OneToOne N) : CoreSim C C 0 where
  low := 0
  Name := N
  biunique := fun h h' => hN _ _ _ _ h h'
  X := Eq
  Cov := Eq
  Ext := Eq
  Par := Eq
  Z := Eq
  Ctl := fun u t u' t' => u = u' ∧ t = t'
  predict := by
    rintro q _ u t _ _ x _ P _ e _ ref delta - rfl ⟨rfl, rfl⟩ rfl rfl rfl
    rw [Int.add_zero]
    exact ⟨rfl, rfl, rfl⟩
  correct := by
    rintro z _ x _ P _ e _ rfl rfl rfl rfl
    exact ⟨rfl, rfl, rfl⟩
  initX := by
    rintro z _ x _ rfl rfl
    rfl
  initCov := by
    rintro z _ P _ rfl rfl
    rfl

/-- What two inputs have to have in common: everything but the name. -/
structure SameCd (N : String → String → Prop) (a a' : CallbackData) : Prop where
  topic : N a.topic a'.topic
  upd : a'.upd = a.upd
  sum : a'.sum = a.sum
  differential : a'.differential = a.differential
  relative : a'.relative = a.relative
  useChild : a'.useChild = a.useChild
  thresh : a'.thresh = a.thresh

/-- The same thing happening to two nodes with inputs `I` and `I'`.  A message arrives at both by inputs with the same
settings, or at one as odometry and at the other as a pose and a twist. -/
inductive Via (N : String → String → Prop) (I I' : Inputs) : Sys.Ev → List Sys.Ev → Prop
  | odom {i j a b a' b'} (buf junk m) (h : I.odomCds[i]? = some (a, b)) (h' : I'.odomCds[j]? = some (a', b')) (ha : SameCd N a a')
      (hb : SameCd N b b') : Via N I I' (.odom i buf junk m) [.odom j buf junk m]
  | halves {i j k a b a' b'} (buf junk m) (h : I.odomCds[i]? = some (a, b)) (hp : I'.poseCds[j]? = some a')
      (ht : I'.twistCds[k]? = some b') (ha : SameCd N a a') (hb : SameCd N b b') (hc : a.useChild = false) :
      Via N I I' (.odom i buf junk m) [.pose j buf junk m.asPose, .twist k buf junk m.asTwist]
  | pose {i j a a'} (buf junk m) (h : I.poseCds[i]? = some a) (h' : I'.poseCds[j]? = some a') (ha : SameCd N a a') :
      Via N I I' (.pose i buf junk m) [.pose j buf junk m]
  | twist {i j a a'} (buf junk m) (h : I.twistCds[i]? = some a) (h' : I'.twistCds[j]? = some a') (ha : SameCd N a a') :
      Via N I I' (.twist i buf junk m) [.twist j buf junk m]
  | imu {i j a b d a' b' d' s s'} (buf junk m) (h : I.imuCds[i]? = some (a, b, d)) (h' : I'.imuCds[j]? = some (a', b', d'))
      (hs : I.imus[i]? = some s) (hs' : I'.imus[j]? = some s') (ha : SameCd N a a') (hb : SameCd N b b') (hd : SameCd N d d')
      (hg : s'.removeGravity = s.removeGravity) : Via N I I' (.imu i buf junk m) [.imu j buf junk m]
  | command (now u) : Via N I I' (.command now u) [.command now u]
  | setPose (now buf junk m) : Via N I I' (.setPose now buf junk m) [.setPose now buf junk m]
  | reset : Via N I I' .reset [.reset]
  | toggle (on) : Via N I I' (.toggle on) [.toggle on]
  | enable : Via N I I' .enable [.enable]
  | tick (now now2 buf) : Via N I I' (.tick now now2 buf) [.tick now now2 buf]

section
variable {C : Core} {N : String → String → Prop} {hN : OneToOne N} {P P' : MQueue C}

/-- Memories of `preparePose` under other names. -/
structure MemSim (N : String → String → Prop) (m m' : PoseMem) : Prop where
  init : ∀ t t', N t t' → m'.init t' = m.init t
  prev : ∀ t t', N t t' → m'.prev t' = m.prev t

theorem preparePose_via (hN : OneToOne N) {m m' : PoseMem} (h : MemSim N m m') {t t' : String} (ht : N t t') (c : PrepCtx) (last : Int) (msg : PoseMsg)
    (target source : String) (differential relative imu : Bool) (p : Payload) :
    MemSim N (preparePose c m last msg t target source differential relative imu p).1
        (preparePose c m' last msg t' target source differential relative imu p).1 ∧
      (preparePose c m' last msg t' target source differential relative imu p).2 =
        (preparePose c m last msg t target source differential relative imu p).2 := by
  unfold preparePose
  dsimp only
  cases lookupTransformSafe c.buf (poseFrames c msg.frame target differential imu).1 (poseFrames c msg.frame target differential imu).2 (poseLookupTime msg.stamp) with
  | none => exact ⟨h, rfl⟩
  | some tf =>
    simp only
    unfold poseWith
    dsimp only
    rw [h.init t t' ht, h.prev t t' ht]
    by_cases hd : differential = true
    · simp only [hd, if_true]
      refine ⟨⟨h.init, fun s s' hs => ?_⟩, trivial⟩
      have hb := hN _ _ _ _ hs ht
      dsimp only
      by_cases he : s = t
      · rw [if_pos he, if_pos (hb.1 he)]
      · rw [if_neg he, if_neg fun hh => he (hb.2 hh)]
        exact h.prev s s' hs
    · simp only [hd, Bool.false_eq_true, if_false]
      refine ⟨?_, trivial⟩
      split
      · refine ⟨fun s s' hs => ?_, h.prev⟩
        have hb := hN _ _ _ _ hs ht
        dsimp only
        by_cases he : s = t
        · rw [if_pos he, if_pos (hb.1 he)]
        · rw [if_neg he, if_neg fun hh => he (hb.2 hh)]
          exact h.init s s' hs
      · exact h

/-- Two nodes that have got the same messages by different inputs. -/
structure SysSim (κ : QueueSim (sameSim C N hN) P P') (s : Sys C P) (s' : Sys C P') : Prop where
  node : NodeSim κ s.hub.node s'.hub.node
  mem : MemSim N s.hub.mem s'.hub.mem
  diff : s'.diff = s.diff

/-- Nothing but the inputs differs. -/
structure SameBut (g g' : SysCfg C) : Prop where
  cfg : g'.cfg = g.cfg
  frames : g'.frames = g.frames
  twoD : g'.twoD = g.twoD
  gravity : g'.gravity = g.gravity
  tfOffset : g'.tfOffset = g.tfOffset

variable {κ : QueueSim (sameSim C N hN) P P'}

theorem pos0 (t : Int) : Pos (sameSim C N hN).low 0 t := Or.inl rfl

theorem SameBut.sim {g g' : SysCfg C} (h : SameBut g g') : CfgSim (sameSim C N hN) g.cfg g'.cfg := by
  rw [h.cfg]
  exact ⟨rfl, rfl, rfl, rfl, rfl, rfl, rfl, rfl, rfl, rfl, rfl, rfl⟩

theorem NodeSim.stale_same {n : Node C P} {n' : Node C P'} (h : NodeSim κ n n') (t : Int) : n'.stale t ↔ n.stale t := by
  have := h.pose.le (pos0 (C := C) (N := N) (hN := hN) t)
  unfold Node.stale
  rw [Int.add_zero] at this
  exact this.symm

theorem NodeSim.last_same {n : Node C P} {n' : Node C P'} (h : NodeSim κ n n') {t t' : String} (ht : N t t') :
    n'.lastMsg t' = n.lastMsg t := by
  rw [h.msg t t' ht]
  simp

theorem NodeSim.sensor_same {n : Node C P} {n' : Node C P'} (h : NodeSim κ n n') {t t' : String} (ht : N t t') (stamp : Int)
    (z : Option C.Z) : NodeSim κ (n.sensor t stamp z) (n'.sensor t' stamp z) := by
  have hz : Option.Rel (sameSim C N hN).Z z z := by
    cases z with
    | none => exact .none
    | some z => exact .some rfl
  have := h.sensor (show (sameSim C N hN).Name t t' from ht) (pos0 stamp) hz
  rwa [Int.add_zero] at this

/-- Node and memory after a message. -/
structure HubSim (κ : QueueSim (sameSim C N hN) P P') (h : Hub C P) (h' : Hub C P') : Prop where
  node : NodeSim κ h.node h'.node
  mem : MemSim N h.mem h'.mem

theorem HubSim.pose {h : Hub C P} {h' : Hub C P'} (s : HubSim κ h h') (mk : Payload → C.Z) (c : PrepCtx) (msg : PoseMsg)
    {a a' : CallbackData} (ha : SameCd N a a') (target source : String) (imu : Bool) :
    HubSim κ (h.poseCallback mk c msg a target source imu) (h'.poseCallback mk c msg a' target source imu) := by
  unfold Hub.poseCallback
  by_cases hs : h.node.stale msg.stamp
  · rw [if_pos hs, if_pos ((s.node.stale_same _).2 hs)]
    exact s
  · rw [if_neg hs, if_neg fun hh => hs ((s.node.stale_same _).1 hh)]
    dsimp only
    rw [s.node.last_same ha.topic]
    split
    · have hb : a'.blank = a.blank := by
        unfold CallbackData.blank
        rw [ha.upd, ha.thresh]
      rw [ha.differential, ha.relative, hb]
      have := preparePose_via hN s.mem ha.topic c ((h.node.lastMsg a.topic).getD msg.stamp) msg target source a.differential a.relative imu a.blank
      refine ⟨?_, this.1⟩
      dsimp only
      rw [this.2]
      exact s.node.sensor_same ha.topic _ _
    · exact s

theorem HubSim.twist {h : Hub C P} {h' : Hub C P'} (s : HubSim κ h h') (mk : Payload → C.Z) (c : PrepCtx) (msg : TwistMsg)
    {a a' : CallbackData} (ha : SameCd N a a') (target : String) :
    HubSim κ (h.twistCallback mk c msg a target) (h'.twistCallback mk c msg a' target) := by
  have hb : a'.blank = a.blank := by
    unfold CallbackData.blank
    rw [ha.upd, ha.thresh]
  unfold Hub.twistCallback
  rw [hb]
  exact ⟨s.node.sensor_same ha.topic _ _, s.mem⟩

theorem HubSim.accel {h : Hub C P} {h' : Hub C P'} (s : HubSim κ h h') (mk : Payload → C.Z) (c : PrepCtx) (msg : ImuMsg)
    {a a' : CallbackData} (ha : SameCd N a a') (target : String) (grav : Bool) :
    HubSim κ (h.accelCallback mk c msg a target grav) (h'.accelCallback mk c msg a' target grav) := by
  have hb : a'.blank = a.blank := by
    unfold CallbackData.blank
    rw [ha.upd, ha.thresh]
  unfold Hub.accelCallback
  rw [hb, ha.relative]
  exact ⟨s.node.sensor_same ha.topic _ _, s.mem⟩

theorem HubSim.ite {h k : Hub C P} {h' k' : Hub C P'} {p q : Prop} [Decidable p] [Decidable q] (hpq : q ↔ p) (s : HubSim κ h h')
    (t : HubSim κ k k') : HubSim κ (if p then h else k) (if q then h' else k') := by
  by_cases hp : p
  · rw [if_pos hp, if_pos (hpq.2 hp)]
    exact s
  · rw [if_neg hp, if_neg fun hq => hp (hpq.1 hq)]
    exact t

theorem HubSim.odom {h : Hub C P} {h' : Hub C P'} (s : HubSim κ h h') (mk : Payload → C.Z) (c : PrepCtx) (msg : OdomMsg)
    {a a' b b' : CallbackData} (ha : SameCd N a a') (hb : SameCd N b b') :
    HubSim κ (h.odomCallback mk c msg a b) (h'.odomCallback mk c msg a' b') := by
  unfold Hub.odomCallback
  dsimp only
  apply HubSim.ite (s.node.stale_same _) s
  rw [ha.useChild]
  have h1 := HubSim.ite (show a'.sum > 0 ↔ a.sum > 0 by rw [ha.sum])
    (s.pose mk c { frame := msg.frame, stamp := msg.stamp, pos := msg.pos, ori := msg.ori, cov := msg.poseCov } ha c.world
      (if a.useChild then msg.child else c.base) false) s
  exact HubSim.ite (by rw [hb.sum]) (h1.twist mk c _ hb c.base) h1

theorem HubSim.imu {h : Hub C P} {h' : Hub C P'} (s : HubSim κ h h') (mk : Payload → C.Z) (c : PrepCtx) (msg : ImuMsg)
    {a a' b b' d d' : CallbackData} (ha : SameCd N a a') (hb : SameCd N b b') (hd : SameCd N d d') (grav : Bool) :
    HubSim κ (h.imuCallback mk c msg a b d grav) (h'.imuCallback mk c msg a' b' d' grav) := by
  unfold Hub.imuCallback
  dsimp only
  apply HubSim.ite (s.node.stale_same _) s
  have h1 := HubSim.ite (show a'.sum > 0 ∧ ¬ |msg.oriCov 0 + 1| < 1e-9 ↔ a.sum > 0 ∧ ¬ |msg.oriCov 0 + 1| < 1e-9 by rw [ha.sum])
    (s.pose mk c { frame := msg.frame, stamp := msg.stamp, pos := 0, ori := msg.ori, cov := angularCov msg.oriCov } ha c.base
      c.base true) s
  have h2 := HubSim.ite (show b'.sum > 0 ∧ ¬ |msg.velCov 0 + 1| < 1e-9 ↔ b.sum > 0 ∧ ¬ |msg.velCov 0 + 1| < 1e-9 by rw [hb.sum])
    (h1.twist mk c { frame := msg.frame, stamp := msg.stamp, lin := fun _ => .fin 0, ang := msg.vel, cov := angularCov msg.velCov }
      hb c.base) h1
  exact HubSim.ite (by rw [hd.sum]) (h2.accel mk c msg hd c.base grav) h2

theorem poseCallback_keeps (mk : Payload → C.Z) (c : PrepCtx) (h : Hub C P) (msg : PoseMsg) (cd : CallbackData)
    (target source : String) (imu : Bool) : (h.poseCallback mk c msg cd target source imu).node.filt = h.node.filt := by
  unfold Hub.poseCallback
  split
  · rfl
  · dsimp only
    split
    · exact Node.sensor_filt _ _ _ _
    · rfl

/-- The two halves of an odometry message one after the other. -/
theorem odomCallback_halves (mk : Payload → C.Z) (c : PrepCtx) (h : Hub C P) (msg : OdomMsg) (a b : CallbackData) (hc : a.useChild = false) :
    h.odomCallback mk c msg a b =
      let h1 := if a.sum > 0 then h.poseCallback mk c msg.asPose a c.world c.base false else h
      if b.sum > 0 then h1.twistCallback mk c msg.asTwist b c.base else h1 := by
  unfold Hub.odomCallback
  rw [hc]
  by_cases hs : h.node.stale msg.stamp
  · rw [if_pos hs]
    have e1 : h.poseCallback mk c msg.asPose a c.world c.base false = h := by
      unfold Hub.poseCallback
      rw [if_pos (show h.node.stale msg.asPose.stamp from hs)]
    have e2 : h.twistCallback mk c msg.asTwist b c.base = h := by
      unfold Hub.twistCallback
      rw [Node.sensor_stale _ _ _ _ (show h.node.stale msg.asTwist.stamp from hs)]
    dsimp only
    rw [e1, ite_self, e2, ite_self]
  · rw [if_neg hs]
    rfl

theorem SysSim.ctx {V : View C} {g g' : SysCfg C} (hg : SameBut g g') {s : Sys C P} {s' : Sys C P'} (h : SysSim κ s s') (buf : TfBuffer)
    (junk : State) : s'.ctx V g' buf junk = s.ctx V g buf junk := by
  unfold Sys.ctx
  rw [hg.frames, hg.twoD, hg.gravity, h.diff, show s'.hub.node.filt.x = s.hub.node.filt.x from (h.node.filt.x : _ = _).symm]

theorem SysSim.hub {s : Sys C P} {s' : Sys C P'} (h : SysSim κ s s') : HubSim κ s.hub s'.hub := ⟨h.node, h.mem⟩

theorem SysSim.put {s : Sys C P} {s' : Sys C P'} (h : SysSim κ s s') {k : Hub C P} {k' : Hub C P'} (hk : HubSim κ k k') :
    SysSim κ { s with hub := k } { s' with hub := k' } := ⟨hk.node, hk.mem, h.diff⟩

/-- A cycle. -/
theorem SysSim.cycle (V : View C) {g g' : SysCfg C} (hg : SameBut g g') {s : Sys C P} {s' : Sys C P'} (h : SysSim κ s s') (now now2 : Int)
    (buf : TfBuffer) : SysSim κ (s.cycle V g now now2 buf).1 (s'.cycle V g' now now2 buf).1 ∧
      (s'.cycle V g' now now2 buf).2 = (s.cycle V g now now2 buf).2 := by
  unfold Sys.cycle
  rw [h.node.enabled]
  split
  · have ha := h.node.advance (hg.sim (hN := hN)) (pos0 now) (pos0 now2)
    have hp := h.node.periodic (hg.sim (hN := hN)) (pos0 now) (pos0 now2) (Sys.tfDue g.frames buf)
    rw [Int.add_zero, Int.add_zero] at ha hp
    have ex : (s'.hub.node.advance g'.cfg now now2).filt.x = (s.hub.node.advance g.cfg now now2).filt.x := (ha.filt.x : _ = _).symm
    have ec : (s'.hub.node.advance g'.cfg now now2).filt.cov = (s.hub.node.advance g.cfg now now2).filt.cov :=
      (ha.filt.cov : _ = _).symm
    have ed : s'.differ V now (s'.hub.node.advance g'.cfg now now2) = s.differ V now (s.hub.node.advance g.cfg now now2) := by
      unfold Sys.differ
      rw [h.node.on, ex, ec, h.diff, ha.filt.init]
    dsimp only
    rw [hg.frames]
    refine ⟨⟨hp.1, h.mem, ed⟩, ?_⟩
    rw [ed]
    have hl := hp.2
    revert hl
    generalize (s.hub.node.periodic g.cfg now now2 (Sys.tfDue g.frames buf)).2 = l
    generalize (s'.hub.node.periodic g'.cfg now now2 (Sys.tfDue g.frames buf)).2 = l'
    intro hl
    induction hl with
    | nil => rfl
    | cons hab _ ih =>
      rw [List.map_cons, List.map_cons, ih]
      congr 1
      cases hab with
      | odom hx hP =>
        have hx : _ = _ := hx
        have hP : _ = _ := hP
        simp only [Sys.render, hx, hP, Int.add_zero, hg.frames]
      | tf t => simp only [Sys.render, ex, ec, Int.add_zero, hg.frames, hg.tfOffset]
      | accel t => simp only [Sys.render, ex, ec, Int.add_zero, hg.frames]
  · exact ⟨h, rfl⟩

/-- One thing that happens. -/
theorem SysSim.via (V : View C) {g g' : SysCfg C} (hg : SameBut g g') {s : Sys C P} {s' : Sys C P'} (h : SysSim κ s s') {e : Sys.Ev}
    {es : List Sys.Ev} (he : Via N g.inputs g'.inputs e es) :
    SysSim κ (s.step V g e).1 (s'.run V g' es).1 ∧ (s'.run V g' es).2 = (s.step V g e).2 := by
  cases he with
  | odom buf junk m h1 h2 ha hb =>
    simp only [Sys.run, Sys.step, h1, h2, ha.sum, hb.sum, h.ctx hg]
    split
    · exact ⟨h.put (h.hub.odom _ _ _ ha hb), rfl⟩
    · exact ⟨h, rfl⟩
  | halves buf junk m h1 h2 h3 ha hb hc =>
    rename_i i j k a b a' b'
    have hw := congrArg Frames.world hg.frames
    have hbs := congrArg Frames.base hg.frames
    have e1 : SysSim κ { s with hub := if a.sum > 0 then s.hub.poseCallback V.meas (s.ctx V g buf junk) m.asPose a g.frames.world g.frames.base false else s.hub }
        (s'.step V g' (.pose j buf junk m.asPose)).1 := by
      simp only [Sys.step, h2, ha.sum, h.ctx hg, hw, hbs]
      split
      · exact h.put (h.hub.pose _ _ _ ha _ _ _)
      · exact h
    have o1 : (s'.step V g' (.pose j buf junk m.asPose)).2 = [] := by
      simp only [Sys.step, h2]
      split <;> rfl
    have ec : ({ s with hub := if a.sum > 0 then s.hub.poseCallback V.meas (s.ctx V g buf junk) m.asPose a g.frames.world g.frames.base false else s.hub } : Sys C P).ctx V g buf junk =
        s.ctx V g buf junk := by
      unfold Sys.ctx
      dsimp only
      split
      · rw [poseCallback_keeps]
      · rfl
    have e2 := e1.ctx (V := V) hg buf junk
    rw [ec] at e2
    have es : s.step V g (.odom i buf junk m) = ({ s with hub := s.hub.odomCallback V.meas (s.ctx V g buf junk) m a b }, []) := by
      simp only [Sys.step, h1]
      split
      · rfl
      · rename_i hz
        unfold Hub.odomCallback
        rw [if_neg (show ¬ a.sum > 0 by omega), if_neg (show ¬ b.sum > 0 by omega), ite_self]
    rw [es, odomCallback_halves _ _ _ _ _ _ hc]
    show SysSim κ _ ((s'.step V g' (.pose j buf junk m.asPose)).1.step V g' (.twist k buf junk m.asTwist)).1 ∧ (s'.step V g' (.pose j buf junk m.asPose)).2 ++
      (((s'.step V g' (.pose j buf junk m.asPose)).1.step V g' (.twist k buf junk m.asTwist)).2 ++ []) = []
    rw [o1]
    revert e1 e2
    generalize (s'.step V g' (.pose j buf junk m.asPose)).1 = t
    intro e1 e2
    simp only [Sys.step, h3, hb.sum, e2, hbs]
    dsimp only [Sys.ctx]
    split
    · exact ⟨e1.put (e1.hub.twist V.meas (s.ctx V g buf junk) m.asTwist hb g.frames.base), rfl⟩
    · exact ⟨e1, rfl⟩
  | pose buf junk m h1 h2 ha =>
    have hw := congrArg Frames.world hg.frames
    have hb := congrArg Frames.base hg.frames
    simp only [Sys.run, Sys.step, h1, h2, ha.sum, h.ctx hg, hw, hb]
    split
    · exact ⟨h.put (h.hub.pose _ _ _ ha _ _ _), rfl⟩
    · exact ⟨h, rfl⟩
  | twist buf junk m h1 h2 ha =>
    have hb := congrArg Frames.base hg.frames
    simp only [Sys.run, Sys.step, h1, h2, ha.sum, h.ctx hg, hb]
    split
    · exact ⟨h.put (h.hub.twist _ _ _ ha _), rfl⟩
    · exact ⟨h, rfl⟩
  | imu buf junk m h1 h2 h3 h4 ha hb hd hr =>
    simp only [Sys.run, Sys.step, h1, h2, h3, h4, ha.sum, hb.sum, hd.sum, h.ctx hg, hr]
    split
    · exact ⟨h.put (h.hub.imu _ _ _ ha hb hd _), rfl⟩
    · exact ⟨h, rfl⟩
  | command now u =>
    refine ⟨?_, rfl⟩
    exact h.put ⟨h.node.control hg.sim ⟨rfl, rfl⟩, h.mem⟩
  | setPose now buf junk m =>
    simp only [Sys.run, Sys.step, h.ctx hg]
    refine ⟨h.put ⟨?_, ⟨fun _ _ _ => rfl, fun _ _ _ => rfl⟩⟩, rfl⟩
    have hr : Option.Rel (fun a b => (sameSim C N hN).X a.1 b.1 ∧ (sameSim C N hN).Cov a.2 b.2)
        (Sys.asked V (s.ctx V g buf junk) m) (Sys.asked V (s.ctx V g buf junk) m) := by
      cases Sys.asked V (s.ctx V g buf junk) m with
      | none => exact .none
      | some r => exact .some ⟨rfl, rfl⟩
    have := h.node.setPose (stamp := m.stamp) (pos0 now) hr fun _ => ⟨rfl, rfl⟩
    rwa [Int.add_zero, Int.add_zero] at this
  | reset =>
    refine ⟨h.put ⟨h.node.reset hg.sim rfl fun hh => ⟨hh.1, rfl⟩, ⟨fun _ _ _ => rfl, fun _ _ _ => rfl⟩⟩, rfl⟩
  | toggle on =>
    have := (h.node.step hg.sim (EventSim.toggle on)).1
    exact ⟨h.put ⟨this, h.mem⟩, rfl⟩
  | enable =>
    have := (h.node.step hg.sim EventSim.enable).1
    exact ⟨h.put ⟨this, h.mem⟩, rfl⟩
  | tick now now2 buf =>
    have := h.cycle V hg now now2 buf
    simp only [Sys.run, Sys.step, List.append_nil]
    exact this


theorem Sys.run_append (V : View C) (g : SysCfg C) (s : Sys C P) (as bs : List Sys.Ev) :
    s.run V g (as ++ bs) = ((s.run V g as).1.run V g bs |>.1, (s.run V g as).2 ++ ((s.run V g as).1.run V g bs).2) := by
  induction as generalizing s with
  | nil => rfl
  | cons a as ih => simp only [List.cons_append, Sys.run, ih, List.append_assoc]

theorem SysSim.run (V : View C) {g g' : SysCfg C} (hg : SameBut g g') {es : List Sys.Ev} {ess : List (List Sys.Ev)}
    (he : List.Forall₂ (Via N g.inputs g'.inputs) es ess) : ∀ {s : Sys C P} {s' : Sys C P'}, SysSim κ s s' →
    SysSim κ (s.run V g es).1 (s'.run V g' ess.flatten).1 ∧ (s'.run V g' ess.flatten).2 = (s.run V g es).2 := by
  induction he with
  | nil => intro s s' h; exact ⟨h, rfl⟩
  | cons h1 _ ih =>
    intro s s' h
    obtain ⟨a, b⟩ := h.via V hg h1
    obtain ⟨c, d⟩ := ih a
    rw [List.flatten_cons, Sys.run_append]
    exact ⟨c, by rw [b, d]; rfl⟩

/-- C137, what is left of the claim: two nodes that get the same messages by inputs with the same settings send the same
messages, in every run, whatever the numbers of the inputs, and whether the halves of an odometry message come together or by
two inputs.  Missing: odometry inputs that select accelerations, see `C137_accelerations_differ`. -/
theorem C137_same_partial (κ : QueueSim (sameSim C N hN) P P') (V : View C) {g g' : SysCfg C} (hg : SameBut g g') (ext0 : C.Ext) (fctl0 : C.Ctl)
    (now : Int) (d : Differ) {es : List Sys.Ev} {ess : List (List Sys.Ev)} (he : List.Forall₂ (Via N g.inputs g'.inputs) es ess) :
    ((Sys.start g' P' ext0 fctl0 now d).run V g' ess.flatten).2 = ((Sys.start g P ext0 fctl0 now d).run V g es).2 := by
  refine (SysSim.run (κ := κ) V hg he ⟨?_, ⟨fun _ _ _ => rfl, fun _ _ _ => rfl⟩, rfl⟩).2
  have := NodeSim.start (κ := κ) (hg.sim (hN := hN)) (show (sameSim C N hN).X g.cfg.initialState g'.cfg.initialState from by rw [hg.cfg]; rfl)
    (by rw [hg.cfg]) (by rw [hg.cfg]; exact ⟨rfl, rfl⟩) (e := ext0) (e' := ext0) rfl (u := fctl0) (u' := fctl0) ⟨rfl, rfl⟩ now
  rwa [Int.add_zero] at this

end

/-- C137: whatever streams are numbered otherwise, or come in by an input of another kind, their names do for the above. -/
theorem C137_names (π : Stream → Stream) (hπ : Function.Injective π) :
    OneToOne fun t t' => ∃ s : Stream, t = s.name ∧ t' = (π s).name := by
  rintro _ _ _ _ ⟨s, rfl, rfl⟩ ⟨r, rfl, rfl⟩
  constructor
  · intro h
    rw [C69_names_differ _ _ h]
  · intro h
    rw [hπ (C69_names_differ _ _ h)]

/-- C137: a pose input and a twist input with the settings of an odometry input are what the above asks for, if no
acceleration is selected. -/
theorem C137_halves {N : String → String → Prop} {s : SensorPar} {a b : CallbackData} (h : odomData s = some (a, b)) (hl : s.config.length = 15)
    (hna : ∀ i, 12 ≤ i → ¬ Selects s.config i) (hc : s.useChild = false) {np nt : String} (hp : N (s.name ++ "_pose") np)
    (ht : N (s.name ++ "_twist") nt) :
    ∃ a' b', poseData { s with name := np } = some a' ∧ twistData { s with name := nt } = some b' ∧ SameCd N a a' ∧ SameCd N b b' := by
  unfold odomData odomVecs at h
  simp only [Option.bind_eq_bind, Option.bind_eq_some_iff] at h
  obtain ⟨v, ⟨p, h1, t, h2, hv⟩, fp, hfp, ft, hft, h4⟩ := h
  cases hv
  cases h4
  have hpl : p.length = 15 := by rw [fillFalse_length h1, hl]
  have e : fillFalse 12 3 p = some p := by
    obtain ⟨w, e, hw, -⟩ := fillFalse_some (off := 12) (n := 3) (v := p) (by omega)
    rw [e]
    congr 1
    refine List.ext_getElem hw fun i hi hi' => ?_
    have hg := fillFalse_get e i
    rw [List.getD_eq_getElem _ _ hi, List.getD_eq_getElem _ _ hi'] at hg
    rw [hg]
    split
    · have hq := fillFalse_get h1 i
      rw [List.getD_eq_getElem _ _ hi', if_neg (by omega)] at hq
      rw [hq]
      have := hna i (by omega)
      unfold Selects at this
      simpa using this
    · rfl
  refine ⟨{ topic := np, upd := fp, sum := sumTrue p, differential := s.differential, relative := s.rel, useChild := false, thresh := s.poseThresh },
    { topic := nt, upd := ft, sum := sumTrue t, differential := false, relative := false, useChild := false, thresh := s.twistThresh }, ?_, ?_,
    ⟨hp, rfl, rfl, rfl, rfl, hc.symm, rfl⟩, ⟨ht, rfl, rfl, rfl, rfl, rfl, rfl⟩⟩
  · simp only [poseData, poseVec, h1, e, hfp, Option.bind_eq_bind, Option.bind_some]
    rfl
  · simp only [twistData, twistVec, h2, hft, Option.bind_eq_bind, Option.bind_some]
    rfl

/-- C137 does not hold for odometry inputs that select an acceleration: both halves of what comes in by them are said to
measure an acceleration of zero, exactly; a pose input with the same settings measures none. -/
theorem C137_accelerations_differ (c : PrepCtx) (h2 : c.twoD = false) (pmsg : PoseMsg) (s : SensorPar) (a b a' : CallbackData) (np : String)
    (hcd : odomData s = some (a, b)) (hcd' : poseData { s with name := np } = some a') (hd : s.differential = false) (i : Fin 15)
    (hi : 12 ≤ i.val) (hs : Selects s.config i.val) (target source : String) (mem mem' : PoseMem) (last last' : Int) :
    (∀ r, (preparePose c mem last pmsg a.topic target source a.differential a.relative false a.blank).2 = some r →
      FusesZeroAcceleration r i) ∧
    (∀ r, (preparePose c mem' last' pmsg a'.topic target source a'.differential a'.relative false a'.blank).2 = some r →
      r.upd i = false) := by
  refine ⟨fun r hr => (C32_odom_fuses_zero_acceleration c h2 ⟨pmsg.frame, pmsg.stamp, fun _ => .fin 0, fun _ => .fin 0, 0⟩ pmsg s a b hcd i hi hs
    target).2 hd mem last source r hr, fun r hr => ?_⟩
  obtain ⟨hu, hd'⟩ := poseData_spec hcd'
  have := preparePose_fuses c mem' last' pmsg a'.topic target source _ _ _ _ r (fun i => i.val < 12) hr ?_ (fun _ i h => h.2)
    (fun _ => Or.inl fun i h => by omega)
  · cases hr : r.upd i with
    | false => rfl
    | true =>
      exfalso
      rcases this i hr with h | ⟨h, -⟩
      · omega
      · rw [h2] at h; cases h
  · intro _ j r' ht
    rcases poseUpd_true _ _ _ ht with ⟨h1, -⟩ | ⟨-, h1, -⟩ | ⟨h1, h2⟩
    · omega
    · omega
    · rw [show a'.blank.upd j = a'.upd j from rfl, hu] at h2
      by_contra hlt
      split_ifs at h2
      all_goals first | cases h2 | omega

/-- Settings that select an acceleration, and both inputs made from them. -/
example : ∃ s : SensorPar, Selects s.config 12 ∧ s.differential = false ∧ (∃ a b, odomData s = some (a, b) ∧ 0 < a.sum ∧ 0 < b.sum) ∧
    ∃ a', poseData { s with name := "pose0" } = some a' ∧ 0 < a'.sum := by
  refine ⟨{ name := "odom0", config := [true] ++ List.replicate 11 false ++ [true, false, false], differential := false, relative := false
            useChild := false, poseThresh := .unlimited, twistThresh := .unlimited, accelThresh := .unlimited }, by simp [Selects], rfl,
    ⟨_, _, rfl, by decide, by decide⟩, _, rfl, by decide⟩

open Nav (Given)

/-- C137: two nodes whose parameters differ only in those of the inputs differ in nothing but the inputs.  With control, the
IMUs have to be the same, since commands are not used where an IMU measures the acceleration. -/
theorem C137_nodes {o o' : Given} {c c' : NodeConf} (h : loadNode o = some c) (h' : loadNode o' = some c')
    (hs : ∀ n ∈ switchNames, o n = o' n) (hp : ∀ n ∈ plainNames, o n = o' n) (hj : o "reset_on_time_jump" = o' "reset_on_time_jump")
    (hi : ¬ o.On "use_control" ∨ c'.inputs.imus.map (fun s => s.par.config) = c.inputs.imus.map (fun s => s.par.config)) :
    c' = { c with inputs := c'.inputs } := by
  have hd := (C102_settings_partial h).sw.useControl
  have h1 := readSwitches_congr hs (Or.inl (by simp only [Given.bool, hj]))
  have h2 : readFrames o = readFrames o' := by
    simp only [readFrames, Given.string?, hp "map_frame" (by decide), hp "odom_frame" (by decide), hp "base_link_frame" (by decide),
      hp "base_link_frame_output" (by decide), hp "world_frame" (by decide), hp "tf_prefix" (by decide)]
  have h3 : readTimes o = readTimes o' := by
    simp only [readTimes, Given.double, Given.double?, hp "transform_time_offset" (by decide), hp "transform_timeout" (by decide),
      hp "frequency" (by decide), hp "sensor_timeout" (by decide), hp "history_length" (by decide), hp "control_timeout" (by decide)]
  have h4 : ∀ b, readControlLists o b = readControlLists o' b := fun b => by
    simp only [readControlLists, Given.bools?, Given.doubles?, hp "control_config" (by decide), hp "acceleration_limits" (by decide),
      hp "acceleration_gains" (by decide), hp "deceleration_limits" (by decide), hp "deceleration_gains" (by decide)]
  have h6 : ∀ n ∈ plainNames, ∀ m, readCov o n m = readCov o' n m := fun n hn m => by
    simp only [readCov, Given.doubles?, hp n hn]
  have h7 : o.double "gravitational_acceleration" 9.80665 = o'.double "gravitational_acceleration" 9.80665 := by
    simp only [Given.double, hp "gravitational_acceleration" (by decide)]
  have h8 : o.doubles? "initial_state" = o'.doubles? "initial_state" := by
    simp only [Given.doubles?, hp "initial_state" (by decide)]
  unfold loadNode at h h'
  obtain ⟨x1, e1, h⟩ := Option.bind_eq_some_iff.1 h
  obtain ⟨x2, e2, h⟩ := Option.bind_eq_some_iff.1 h
  obtain ⟨x3, e3, h⟩ := Option.bind_eq_some_iff.1 h
  obtain ⟨x4, e4, h⟩ := Option.bind_eq_some_iff.1 h
  obtain ⟨x5, e5, h⟩ := Option.bind_eq_some_iff.1 h
  obtain ⟨x6, e6, h⟩ := Option.bind_eq_some_iff.1 h
  obtain ⟨x7, -, h⟩ := Option.bind_eq_some_iff.1 h
  obtain ⟨x8, e8, h⟩ := Option.bind_eq_some_iff.1 h
  obtain ⟨x9, e9, h⟩ := Option.bind_eq_some_iff.1 h
  obtain ⟨x10, e10, h⟩ := Option.bind_eq_some_iff.1 h
  injection h with h
  subst h
  rw [← h1, e1, ← h7, e2, ← h2, e3, ← h3, e4, ← h8, e6, ← h6 _ (by decide), e9, ← h6 _ (by decide), e10] at h'
  simp only [← h4, Option.bind_eq_bind, Option.bind_some, e5] at h'
  obtain ⟨y7, -, h'⟩ := Option.bind_eq_some_iff.1 h'
  obtain ⟨y8, f8, h'⟩ := Option.bind_eq_some_iff.1 h'
  injection h' with h'
  subst h'
  have : y8 = x8 := by
    rcases hi with hu | hi
    · have hn : ¬ x1.useControl = true := fun hx => hu (hd.1 hx)
      unfold readControlLists at e5
      rw [if_neg hn] at e5
      injection e5 with e5
      subst e5
      unfold finalControl at e8 f8
      obtain ⟨u, e12, e11⟩ := Option.bind_eq_some_iff.1 e8
      obtain ⟨v, f12, f11⟩ := Option.bind_eq_some_iff.1 f8
      injection e11 with e11
      injection f11 with f11
      rw [← e11, ← f11, imuControl_none _ u e12, imuControl_none _ v f12]
    · rw [show y7.imus.map (fun s => s.par.config) = x7.imus.map (fun s => s.par.config) from hi, e8] at f8
      injection f8 with f8
      exact f8.symm
  rw [this]

/-- C137 for the node of the extended Kalman filter, from its parameters to what it sends. -/
theorem C137_ekf_nodes_partial {o o' : Given} {c c' : NodeConf} (h : loadNode o = some c) (h' : loadNode o' = some c')
    (hs : ∀ n ∈ switchNames, o n = o' n) (hp : ∀ n ∈ plainNames, o n = o' n) (hj : o "reset_on_time_jump" = o' "reset_on_time_jump")
    (hi : ¬ o.On "use_control" ∨ c'.inputs.imus.map (fun s => s.par.config) = c.inputs.imus.map (fun s => s.par.config))
    (π : Stream → Stream) (hπ : Function.Injective π) {es : List Sys.Ev} {ess : List (List Sys.Ev)}
    (he : List.Forall₂ (Via (fun t t' => ∃ s : Stream, t = s.name ∧ t' = (π s).name) c.inputs c'.inputs) es ess)
    (fctl0 : Fin 6 → ℝ) (now : Int) (d : Differ) :
    ((Sys.start c'.sys (demoQ c'.par) () fctl0 now d).run (ekfView c'.par) c'.sys ess.flatten).2 =
      ((Sys.start c.sys (demoQ c.par) () fctl0 now d).run (ekfView c.par) c.sys es).2 := by
  have hc := C137_nodes h h' hs hp hj hi
  generalize c'.inputs = I at *
  subst hc
  exact C137_same_partial (hN := C137_names π hπ) (QueueSim.sorted _) (ekfView c.par) (g := c.sys) (g' := ({ c with inputs := I } : NodeConf).sys) ⟨rfl, rfl, rfl, rfl, rfl⟩ () fctl0 now d he

/-- The parameters of the node of `slowParams`, with the odometry message coming in by two inputs. -/
def splitParams : Given := fun n =>
  if n = "pose0" then some (.string "wheels/pose")
  else if n = "pose0_config" then some (.bools ([true] ++ List.replicate 5 false ++ [true] ++ List.replicate 8 false))
  else if n = "twist0" then some (.string "wheels/twist")
  else if n = "twist0_config" then some (.bools ([true] ++ List.replicate 5 false ++ [true] ++ List.replicate 8 false))
  else none

theorem split_typed : NodeTyped splitParams where
  bools := by simp [switchNames, splitParams]
  strings := by simp [splitParams]
  doubles := by simp [splitParams]
  fits := by simp [Fits, splitParams]
  frequency := by
    intro f hf
    have : f = 30 := by
      rcases hf with hf | ⟨-, hf⟩
      · simp [splitParams] at hf
      · exact hf
    subst this
    norm_num
  initial := by simp [splitParams]
  covs := by simp [splitParams]
  config := by simp [Nav.Given.On, splitParams]
  lists := by simp [splitParams]

theorem split_starts : ∃ c, loadNode splitParams = some c := by
  obtain ⟨c, h, -⟩ := C102_starts split_typed (a := 0) (b := 1) (c := 1) (d := 0)
    ⟨fun i hi => absurd hi (by omega), fun i hi => absurd hi (by omega), by rw [name0]; simp [splitParams]⟩
    ⟨fun i hi => by
      have : i = 0 := by omega
      subst this
      rw [name0]
      exact ⟨"wheels/pose", by simp [splitParams]⟩,
     fun i hi => by
      have : i = 0 := by omega
      subst this
      rw [name0]
      constructor <;> simp [splitParams],
     by rw [name1]; simp [splitParams]⟩
    ⟨fun i hi => by
      have : i = 0 := by omega
      subst this
      rw [name0]
      exact ⟨"wheels/twist", by simp [splitParams]⟩,
     fun i hi => by
      have : i = 0 := by omega
      subst this
      rw [name0]
      constructor <;> simp [splitParams],
     by rw [name1]; simp [splitParams]⟩
    ⟨fun i hi => absurd hi (by omega), fun i hi => absurd hi (by omega), by rw [name0]; simp [splitParams]⟩
  exact ⟨c, h⟩

/-- What is read for the inputs. -/
theorem split_input {c : NodeConf} (h : loadNode splitParams = some c) :
    (∃ a, poseData { slowSet.par with name := "pose0" } = some a ∧ c.inputs.poseCds[0]? = some a) ∧
    ∃ b, twistData { slowSet.par with name := "twist0" } = some b ∧ c.inputs.twistCds[0]? = some b := by
  have h1 := loadNode_inputs h
  unfold readInputs at h1
  obtain ⟨x1, -, h1⟩ := Option.bind_eq_some_iff.1 h1
  obtain ⟨x2, -, h1⟩ := Option.bind_eq_some_iff.1 h1
  obtain ⟨l, e3, h1⟩ := Option.bind_eq_some_iff.1 h1
  obtain ⟨x4, -, h1⟩ := Option.bind_eq_some_iff.1 h1
  obtain ⟨k, e5, h1⟩ := Option.bind_eq_some_iff.1 h1
  obtain ⟨x6, -, h1⟩ := Option.bind_eq_some_iff.1 h1
  obtain ⟨x7, -, h1⟩ := Option.bind_eq_some_iff.1 h1
  obtain ⟨x8, -, h1⟩ := Option.bind_eq_some_iff.1 h1
  injection h1 with h1
  have s0 := sensorsFrom_some e3 0 (Nat.zero_le _)
  have t0 := sensorsFrom_some e5 0 (Nat.zero_le _)
  rw [Nat.zero_add] at s0 t0
  have e : sensorAt splitParams "pose" (readPose splitParams) 0 =
      some (some { par := { slowSet.par with name := "pose0" }, topic := "wheels/pose", queueSize := 10, removeGravity := false }) := by
    unfold sensorAt
    rw [name0]
    simp [Nav.Given.string?, Nav.Given.bool, Nav.Given.bools, Nav.Given.int, Nav.Given.thresh, splitParams, readPose, loadUpdateConfig, slowSet]
  have e' : sensorAt splitParams "twist" (readTwist splitParams) 0 =
      some (some { par := { slowSet.par with name := "twist0" }, topic := "wheels/twist", queueSize := 10, removeGravity := false }) := by
    unfold sensorAt
    rw [name0]
    simp [Nav.Given.string?, Nav.Given.bools, Nav.Given.int, Nav.Given.thresh, splitParams, readTwist, loadUpdateConfig, slowSet]
  rw [e] at s0
  rw [e'] at t0
  injection s0 with s0
  injection t0 with t0
  have hp : c.inputs.poses[0]? = some { par := { slowSet.par with name := "pose0" }, topic := "wheels/pose", queueSize := 10, removeGravity := false } := by
    rw [← h1]
    exact s0.symm
  have ht : c.inputs.twists[0]? = some { par := { slowSet.par with name := "twist0" }, topic := "wheels/twist", queueSize := 10, removeGravity := false } := by
    rw [← h1]
    exact t0.symm
  constructor
  · obtain ⟨s', a, -, h2, -⟩ := (C102_settings_partial h).inputs.poses.1 0 (List.getElem?_eq_some_iff.1 hp).1
    obtain ⟨s'', h3, h4⟩ := (loadNode_made h).pose 0 a h2
    rw [hp] at h3
    injection h3 with h3
    subst h3
    exact ⟨a, h4, h2⟩
  · obtain ⟨s', a, -, h2, -⟩ := (C102_settings_partial h).inputs.twists.1 0 (List.getElem?_eq_some_iff.1 ht).1
    obtain ⟨s'', h3, h4⟩ := (loadNode_made h).twist 0 a h2
    rw [ht] at h3
    injection h3 with h3
    subst h3
    exact ⟨a, h4, h2⟩

/-- Which stream becomes which. -/
def splitStreams : Stream → Stream
  | .odomPose n => .pose n
  | .odomTwist n => .twist n
  | .pose n => .odomPose n
  | .twist n => .odomTwist n
  | s => s

/-- A node that gets odometry and one that gets its halves send the same, and do send something. -/
example : ∃ c c', loadNode slowParams = some c ∧ loadNode splitParams = some c' ∧ ∀ junk d,
    let l := ((Sys.start c'.sys (demoQ c'.par) () (0 : Fin 6 → ℝ) 0 d).run (ekfView c'.par) c'.sys
      [.pose 0 noTf junk slowMsg.asPose, .twist 0 noTf junk slowMsg.asTwist, .tick 2000000000 2000000000 noTf]).2
    l = ((Sys.start c.sys (demoQ c.par) () (0 : Fin 6 → ℝ) 0 d).run (ekfView c.par) c.sys
      [.odom 0 noTf junk slowMsg, .tick 2000000000 2000000000 noTf]).2 ∧ l ≠ [] := by
  obtain ⟨c, h, hsent⟩ := C119_first_odometry
  obtain ⟨c', h'⟩ := split_starts
  refine ⟨c, c', h, h', fun junk d => ?_⟩
  obtain ⟨-, a, b, hab, hcd⟩ := slow_input h
  obtain ⟨⟨a', ha', hp⟩, b', hb', ht⟩ := split_input h'
  obtain ⟨a2, b2, ea, eb, sa, sb⟩ := C137_halves (N := fun t t' => ∃ s : Stream, t = s.name ∧ t' = (splitStreams s).name) hab rfl
    (fun i hi => by
      unfold Selects slowSet
      simp only [List.getD_eq_getElem?_getD]
      rcases Nat.lt_or_ge i 15 with hlt | hge
      · interval_cases i <;> simp
      · rw [List.getElem?_eq_none (by simpa using hge)]; simp) rfl (np := "pose0") (nt := "twist0")
    ⟨.odomPose 0, by simp [Stream.name, slowSet, name0], by simp [Stream.name, splitStreams, name0]⟩
    ⟨.odomTwist 0, by simp [Stream.name, slowSet, name0], by simp [Stream.name, splitStreams, name0]⟩
  rw [ha'] at ea
  rw [hb'] at eb
  injection ea with ea
  injection eb with eb
  subst ea eb
  have key := C137_ekf_nodes_partial h h' (by simp [switchNames, slowParams, splitParams]) (by simp [plainNames, slowParams, splitParams])
    (by simp [slowParams, splitParams]) (Or.inl (by simp [Nav.Given.On, slowParams])) splitStreams
    (by intro s t hst; cases s <;> cases t <;> simp_all [splitStreams])
    (es := [.odom 0 noTf junk slowMsg, .tick 2000000000 2000000000 noTf])
    (ess := [[.pose 0 noTf junk slowMsg.asPose, .twist 0 noTf junk slowMsg.asTwist], [.tick 2000000000 2000000000 noTf]])
    (.cons (.halves noTf junk slowMsg hcd hp ht sa sb (odomData_full hab rfl).2.2.2.2.2.2.1) (.cons (.tick _ _ _) .nil)) (0 : Fin 6 → ℝ) 0 d
  refine ⟨key, ?_⟩
  obtain ⟨m, hm, -⟩ := hsent junk d
  exact List.ne_nil_of_mem (key ▸ hm)

end RL
