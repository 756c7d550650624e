import Verif.Props.SystemPlane
import Verif.Props.FirstWord
/-! # C120: why differential inputs are left out -/

namespace RL
open Matrix Real Body
open Nav (Given)

theorem Dbl.div_zero_num (a : ℝ) : (Dbl.div a 0).isFin = false := by
  unfold Dbl.div
  rw [if_pos rfl]
  split <;> rfl

theorem Dbl.smul_num {r : ℝ} {a : Dbl} (h : a.isFin = false) : (Dbl.smul r a).isFin = false := by
  cases a with
  | fin x => cases h
  | nan => rfl
  | inf n =>
    unfold Dbl.smul
    dsimp only
    split <;> rfl

theorem Dbl.add_num {a b : Dbl} (h : a.isFin = false) : (a.add b).isFin = false := by
  cases a with
  | fin x => cases h
  | nan => cases b <;> rfl
  | inf n =>
    cases b with
    | fin x => rfl
    | nan => rfl
    | inf m =>
      unfold Dbl.add
      dsimp only
      split <;> rfl

/-- The second of two poses with the same stamp, of a differential input, is a velocity that is not a number. -/
theorem preparePose_again (c : PrepCtx) (hb : SaneBuf c.buf) (mem : PoseMem) (old : Tf × M6) (msg : PoseMsg) (topic : String)
    (hm : mem.prev topic = some old) (relative : Bool) (u : Fin 15 → Bool) (hu : u 0 = true) (thr : Thresh) :
    ∃ q, (preparePose c mem msg.stamp msg topic c.world c.base true relative false (blank u thr)).2 = some q ∧
      q.upd 6 = true ∧ (q.z 6).isFin = false := by
  have e1 : (poseFrames c msg.frame c.world true false).1 = (poseFrames c msg.frame c.world true false).2 := by
    unfold poseFrames
    split
    · split <;> rfl
    · rfl
  unfold preparePose
  dsimp only
  rw [e1, hb.lookup_self]
  dsimp only
  unfold poseWith
  simp only [Bool.false_eq_true, if_false, if_true, hm, Option.bind_some]
  unfold prepareTwist
  have hl : ∀ (t : Tf) (r : M6) (s : M6) (p : Tf), lookupTransformSafe c.buf c.base
      (if (diffTwist t r s old.1 old.2 p msg.stamp msg.stamp c.base).frame = "" then c.base
        else (diffTwist t r s old.1 old.2 p msg.stamp msg.stamp c.base).frame)
      (diffTwist t r s old.1 old.2 p msg.stamp msg.stamp c.base).stamp = some Tf.id := by
    intro t r s p
    show lookupTransformSafe c.buf c.base (if c.base = "" then c.base else c.base) msg.stamp = _
    rw [ite_self]
    exact hb.lookup_self _ _
  rw [hl]
  refine ⟨_, rfl, ?_, ?_⟩
  · have e : ∀ p : Payload, p.upd 6 = true → (finish c p).upd 6 = true := by
      intro p hp
      unfold finish
      split
      · unfold forceTwoD
        simp [hp]
      · exact hp
    refine e _ ?_
    have e3 : ∀ v : Fin 3 → Bool, maskAxes (1 : M3) v 0 = v 0 := fun v => maskAxes_one v 0
    refine (e3 _).trans ?_
    show diffUpd (poseUpd 1 u) 6 = true
    rw [poseUpd_one]
    exact hu
  · have e : ∀ p : Payload, (p.z 6).isFin = false → ((finish c p).z 6).isFin = false := by
      intro p hp
      unfold finish
      split
      · exact hp
      · exact hp
    refine e _ ?_
    show ((mulDbl (1 : M3) _ 0).add _).isFin = false
    refine Dbl.add_num ?_
    unfold mulDbl
    refine Dbl.add_num (Dbl.add_num (Dbl.smul_num ?_))
    show (Dbl.div _ (toSec msg.stamp - toSec msg.stamp)).isFin = false
    rw [sub_self]
    exact Dbl.div_zero_num _

theorem preparePose_once (c : PrepCtx) (hb : SaneBuf c.buf) (mem : PoseMem) (msg : PoseMsg) (topic : String)
    (hm : mem.prev topic = none) (last : Int) (relative : Bool) (u : Fin 15 → Bool) (thr : Thresh) :
    (preparePose c mem last msg topic c.world c.base true relative false (blank u thr)).2 = none ∧
      ∃ old, (preparePose c mem last msg topic c.world c.base true relative false (blank u thr)).1.prev topic = some old := by
  have e1 : (poseFrames c msg.frame c.world true false).1 = (poseFrames c msg.frame c.world true false).2 := by
    unfold poseFrames
    split
    · split <;> rfl
    · rfl
  unfold preparePose
  dsimp only
  rw [e1, hb.lookup_self]
  dsimp only
  unfold poseWith
  simp only [if_true, hm]
  exact ⟨rfl, _, rfl⟩

/-- A first pose of which no measurement is made. -/
theorem Hub.pose_nothing {C : Core} {P : MQueue C} {mk : Payload → C.Z} {c : PrepCtx} {h : Hub C P} {msg : PoseMsg} {cd : CallbackData}
    {target source : String} {imu : Bool} (h0 : h.node.lastSetPose < msg.stamp) (hl : h.node.lastMsg cd.topic = none)
    (hz : (preparePose c h.mem msg.stamp msg cd.topic target source cd.differential cd.relative imu cd.blank).2 = none) :
    h.poseCallback mk c msg cd target source imu =
      { node := { h.node with lastMsg := fun t => if t = cd.topic then some msg.stamp else h.node.lastMsg t }
        mem := (preparePose c h.mem msg.stamp msg cd.topic target source cd.differential cd.relative imu cd.blank).1 } := by
  unfold Hub.poseCallback
  rw [if_neg (show ¬ h.node.stale msg.stamp from not_le.2 h0)]
  dsimp only
  rw [hl, Option.getD_none, if_pos le_rfl, hz]
  unfold Node.sensor
  rw [if_neg (show ¬ h.node.lastSetPose ≥ msg.stamp from not_le.2 h0)]
  dsimp only
  rw [hl, Option.getD_none, if_pos le_rfl]
  rfl

/-- C120 is false for differential inputs, in 2D mode or not: when the first pose of one comes twice, with one stamp, the node
divides by the time between the two, takes the quotient over as its velocity, and sends it. -/
theorem C120_twice {o : Given} {c : NodeConf} (h : loadNode o = some c) (hp : ¬ o.On "predict_to_current_time")
    (hdis : ¬ o.On "disabled_at_startup") (i : ℕ) (set : SensorSet) (hs : c.inputs.poses[i]? = some set)
    (hl : set.par.config.length = 15) (hdiff : set.par.differential = true) (hsel : Selects set.par.config 0)
    (Q : MQueue (ekfCore c.par)) (ctl0 : Fin 6 → ℝ) (t0 : Int) (d : Differ) (buf : TfBuffer) (hb : SaneBuf buf) (junk : State)
    (msg msg' : PoseMsg) (h0 : 0 < msg.stamp) (he : msg'.stamp = msg.stamp) (now now2 : Int) (hn : msg.stamp ≤ now) (buf2 : TfBuffer) :
    Sent.odom msg.stamp none ∈ ((Sys.start c.sys Q () ctl0 t0 d).run (ekfView c.par) c.sys
      [.pose i buf junk msg, .pose i buf junk msg', .tick now now2 buf2]).2 := by
  have doc := C102_settings_partial h
  have hp' : c.sw.predictToCurrent = false := by
    rw [Bool.eq_false_iff, Ne, doc.sw.predictToCurrent]
    exact hp
  have hdis' : c.sw.disabled = false := by
    rw [Bool.eq_false_iff, Ne, doc.sw.disabled]
    exact hdis
  obtain ⟨a, hcd, ha⟩ : ∃ a, c.inputs.poseCds[i]? = some a ∧ poseData set.par = some a := by
    obtain ⟨s', a, h1, h2, -⟩ := doc.inputs.poses.1 i (List.getElem?_eq_some_iff.1 hs).1
    obtain ⟨s'', h3, h4⟩ := (loadNode_made h).pose i a h2
    rw [hs] at h3
    injection h3 with h3
    exact ⟨a, h2, h3 ▸ h4⟩
  obtain ⟨h1, ht, -, h4, h5, hsum⟩ := poseData_full ha hl
  rw [hdiff] at h4
  have hu : a.upd 0 = true := (h1 0).2 ⟨by simp, hsel⟩
  have hsum' : a.sum > 0 := hsum.2 ⟨0, hu⟩
  have hcd' : c.sys.inputs.poseCds[i]? = some a := hcd
  set s := Sys.start c.sys Q () ctl0 t0 d with hs0
  -- the first message
  obtain ⟨f1, old, f2⟩ := preparePose_once (s.ctx (ekfView c.par) c.sys buf junk) hb s.hub.mem msg a.topic rfl msg.stamp a.relative a.upd a.thresh
  set s1 := (s.step (ekfView c.par) c.sys (.pose i buf junk msg)).1 with hs1
  set n1 : Node (ekfCore c.par) Q := { Node.start c.sys.cfg Q () ctl0 t0 with lastMsg := fun t => if t = a.topic then some msg.stamp else none } with hn1
  have e0 : s1.hub = s.hub.poseCallback (ekfView c.par).meas (s.ctx (ekfView c.par) c.sys buf junk) msg a c.sys.frames.world
      c.sys.frames.base false := by
    rw [hs1]
    simp only [Sys.step]
    rw [hcd']
    dsimp only
    rw [if_pos hsum']
  rw [Hub.pose_nothing (show s.hub.node.lastSetPose < msg.stamp from h0) rfl (by rw [h4]; exact f1)] at e0
  have en : s1.hub.node = n1 := by
    rw [e0]
    rfl
  -- the second message
  have hm2 : s1.hub.mem.prev a.topic = some old := by
    rw [e0, h4]
    exact f2
  obtain ⟨q, g1, g2, g3⟩ := preparePose_again (s1.ctx (ekfView c.par) c.sys buf junk) hb s1.hub.mem old msg' a.topic hm2 a.relative a.upd hu a.thresh
  have hev : s1.events (ekfView c.par) c.sys (.pose i buf junk msg') = [.sensor a.topic msg.stamp (some q)] := by
    simp only [Sys.events]
    rw [hcd']
    dsimp only
    rw [if_pos hsum']
    unfold Hub.posePrep
    rw [h4]
    have hlast : (s1.hub.node.lastMsg a.topic).getD msg'.stamp = msg'.stamp := by
      rw [en]
      show (if a.topic = a.topic then some msg.stamp else none).getD msg'.stamp = _
      rw [if_pos rfl, he]
      rfl
    rw [hlast]
    have g1' : (preparePose (s1.ctx (ekfView c.par) c.sys buf junk) s1.hub.mem msg'.stamp msg' a.topic
      c.sys.frames.world c.sys.frames.base true a.relative false a.blank).2 = some q := g1
    rw [g1', he]
    rfl
  have k1 := (s1.step_eq (ekfView c.par) c.sys (.pose i buf junk msg')).1
  rw [hev] at k1
  have k2 : (s1.step (ekfView c.par) c.sys (.pose i buf junk msg')).1.hub.node = n1.sensor a.topic msg.stamp (some q) := by
    rw [← en]
    exact k1
  have ho : Out.odom msg.stamp ((ekfCore c.par).initX q c.sys.cfg.initialState) ((ekfCore c.par).initCov q c.sys.cfg.initialCov) ∈
      ((n1.sensor a.topic msg.stamp (some q)).periodic c.sys.cfg now now2 (Sys.tfDue c.sys.frames buf2)).2 :=
    Node.first_out c.sys.cfg Q () ctl0 t0 a.topic msg.stamp (fun t => if t = a.topic then some msg.stamp else none)
      (by simp) q now now2 (Sys.tfDue c.sys.frames buf2) h0 hn hp' hdis'
  rw [← k2] at ho
  have hx : (ekfCore c.par).initX q c.sys.cfg.initialState = (none : Option State) := by
    show initState q c.initial = none
    unfold initState
    rw [if_neg]
    intro hall
    have := hall 6 g2
    rw [g3] at this
    cases this
  show _ ∈ _ ++ (_ ++ (_ ++ []))
  rw [List.append_nil]
  refine List.mem_append_right _ (List.mem_append_right _ ?_)
  rw [((s1.step (ekfView c.par) c.sys (.pose i buf junk msg')).1.step_eq (ekfView c.par) c.sys (.tick now now2 buf2)).2]
  refine List.mem_map.2 ⟨.odom msg.stamp ((ekfCore c.par).initX q c.sys.cfg.initialState) ((ekfCore c.par).initCov q c.sys.cfg.initialCov), ?_, ?_⟩
  · show _ ∈ _ ++ []
    rw [List.append_nil]
    exact ho
  · rw [hx]
    rfl

/-- Parameters of a node with one differential input for poses. -/
def echoParams : Given := fun n =>
  if n = "pose0" then some (.string "scanner")
  else if n = "pose0_differential" then some (.bool true)
  else if n = "pose0_config" then some (.bools (List.replicate 6 true ++ List.replicate 9 false))
  else none

theorem echo_typed : NodeTyped echoParams where
  bools := by simp [switchNames, echoParams]
  strings := by simp [echoParams]
  doubles := by simp [echoParams]
  fits := by simp [Fits, echoParams]
  frequency := by
    intro f hf
    have : f = 30 := by
      rcases hf with hf | ⟨-, hf⟩
      · simp [echoParams] at hf
      · exact hf
    subst this
    norm_num
  initial := by simp [echoParams]
  covs := by simp [echoParams]
  config := by simp [Nav.Given.On, echoParams]
  lists := by simp [echoParams]

theorem echo_sensor : SensorTyped echoParams ("pose" ++ "0") := by
  constructor <;> simp [echoParams]

/-- The hypotheses of `C120_twice` can be met. -/
example : ∃ c set, loadNode echoParams = some c ∧ ¬ echoParams.On "predict_to_current_time" ∧ ¬ echoParams.On "disabled_at_startup" ∧
    c.inputs.poses[0]? = some set ∧ set.par.config.length = 15 ∧ set.par.differential = true ∧ Selects set.par.config 0 := by
  obtain ⟨c, h, -⟩ := C102_starts echo_typed (a := 0) (b := 1) (c := 0) (d := 0)
    ⟨fun i hi => absurd hi (by omega), fun i hi => absurd hi (by omega), by rw [name0]; simp [echoParams]⟩
    ⟨fun i hi => by
      have : i = 0 := by omega
      subst this
      rw [name0]
      exact ⟨"scanner", by simp [echoParams]⟩,
     fun i hi => by
      have : i = 0 := by omega
      subst this
      rw [name0]
      exact echo_sensor,
     by rw [name1]; simp [echoParams]⟩
    ⟨fun i hi => absurd hi (by omega), fun i hi => absurd hi (by omega), by rw [name0]; simp [echoParams]⟩
    ⟨fun i hi => absurd hi (by omega), fun i hi => absurd hi (by omega), by rw [name0]; simp [echoParams]⟩
  have h' := loadNode_inputs h
  unfold readInputs at h'
  obtain ⟨l, -, h'⟩ := Option.bind_eq_some_iff.1 h'
  obtain ⟨x2, -, h'⟩ := Option.bind_eq_some_iff.1 h'
  obtain ⟨x3, e3, h'⟩ := Option.bind_eq_some_iff.1 h'
  obtain ⟨x4, -, h'⟩ := Option.bind_eq_some_iff.1 h'
  obtain ⟨x5, -, h'⟩ := Option.bind_eq_some_iff.1 h'
  obtain ⟨x6, -, h'⟩ := Option.bind_eq_some_iff.1 h'
  obtain ⟨x7, -, h'⟩ := Option.bind_eq_some_iff.1 h'
  obtain ⟨x8, -, h'⟩ := Option.bind_eq_some_iff.1 h'
  injection h' with h'
  have s0 := sensorsFrom_some e3 0 (Nat.zero_le _)
  rw [Nat.zero_add] at s0
  have e : ∃ set, sensorAt echoParams "pose" (readPose echoParams) 0 = some (some set) ∧ set.par.config.length = 15 ∧
      set.par.differential = true ∧ Selects set.par.config 0 := by
    unfold sensorAt
    rw [name0]
    simp [Nav.Given.string?, Nav.Given.bools, Nav.Given.int, Nav.Given.thresh, Given.string?, Given.bools, Given.bool, Nav.Given.bool,
      Given.int, Given.thresh, echoParams, readPose, loadUpdateConfig, Selects]
  obtain ⟨set, e, a1, a2, a3⟩ := e
  rw [e] at s0
  injection s0 with s0
  refine ⟨c, set, h, by simp [Nav.Given.On, echoParams], by simp [Nav.Given.On, echoParams], ?_, a1, a2, a3⟩
  rw [← h']
  exact s0.symm

end RL
