import Verif.Proofs.SysSim
import Verif.Props.Mirror
import Verif.Props.MirrorMsg
/-! # C144: left and right are treated alike by the whole node, from the messages it gets to the messages it sends -/

namespace RL
open Matrix Real

/-- An odometry message in the mirror. -/
noncomputable def OdomMsg.mirror (m : OdomMsg) : OdomMsg :=
  { m with pos := m.pos.mirror, ori := m.ori.mirror, poseCov := mirror36 m.poseCov
           lin := fun i => (m.lin i).smul (flip3 i), ang := fun i => (m.ang i).smul (-flip3 i), twistCov := mirror36 m.twistCov }

/-- The transforms known, in the mirror. -/
def TfBuffer.mirror (b : TfBuffer) : TfBuffer := fun x y t => (b x y t).map Tf.mirror

/-- What happens to a node, in the mirror. -/
noncomputable def Sys.Ev.mirror : Sys.Ev → Sys.Ev
  | .odom i buf junk m => .odom i buf.mirror (State.rescaled 1 (-1) junk) m.mirror
  | .pose i buf junk m => .pose i buf.mirror (State.rescaled 1 (-1) junk) m.mirror
  | .twist i buf junk m => .twist i buf.mirror (State.rescaled 1 (-1) junk) m.mirror
  | .imu i buf junk m => .imu i buf.mirror (State.rescaled 1 (-1) junk) m.mirror
  | .command now u => .command now (ctlRescaled 1 (-1) u)
  | .setPose now buf junk m => .setPose now buf.mirror (State.rescaled 1 (-1) junk) m.mirror
  | .reset => .reset
  | .toggle on => .toggle on
  | .enable => .enable
  | .tick now now2 buf => .tick now now2 buf.mirror

/-- The settings of a node, in the mirror: only the initial estimate and the covariances are seen in it. -/
noncomputable def SysCfg.mirror {p : FilterPar} (g : SysCfg (ekfCore p)) : SysCfg (ekfCore p) :=
  { cfg := g.cfg.rescaled 1 (-1), frames := g.frames, inputs := g.inputs, twoD := g.twoD, gravity := g.gravity
    tfOffset := g.tfOffset }

/-- What `differentiateMeasurements` remembers, in the mirror. -/
def Differ.mirror (d : Differ) : Differ :=
  { lastTime := d.lastTime, lastRate := d.lastRate.mirrorTurn, acc := d.acc.mirrorTurn, cov := d.cov.mirror }

/-- Two quaternions for the same rotation. -/
def Quat.Same (q q' : Quat) : Prop := q' = q ∨ q' = q.opp

/-- The second message is the first one in the mirror. -/
structure OdomMsg.Mirrors (m m' : OdomMsg) : Prop where
  frame : m'.frame = m.frame
  child : m'.child = m.child
  stamp : m'.stamp = m.stamp
  pos : m'.pos = m.pos.mirror
  ori : m.ori.mirror.Same m'.ori
  poseCov : m'.poseCov = mirror36 m.poseCov
  lin : ∀ i, m'.lin i = (m.lin i).smul (flip3 i)
  ang : ∀ i, m'.ang i = (m.ang i).smul (-flip3 i)
  twistCov : m'.twistCov = mirror36 m.twistCov

/-- The second transform is the first one in the mirror. -/
structure TfMsg.Mirrors (m m' : TfMsg) : Prop where
  frame : m'.frame = m.frame
  child : m'.child = m.child
  stamp : m'.stamp = m.stamp
  org : m'.org = m.org.mirror
  ori : m.ori.mirror.Same m'.ori

/-- The second message is the first one in the mirror. -/
structure AccelMsg.Mirrors (m m' : AccelMsg) : Prop where
  frame : m'.frame = m.frame
  stamp : m'.stamp = m.stamp
  lin : m'.lin = m.lin.mirror
  ang : m'.ang = m.ang.mirrorTurn
  cov : m'.cov = mirror36 m.cov

/-- What the second node sends is what the first one sends, in the mirror. -/
inductive Sent.Mirrors : Sent → Sent → Prop
  | odom (t : Int) {m m' : Option OdomMsg} (h : Option.Rel OdomMsg.Mirrors m m') : Sent.Mirrors (.odom t m) (.odom t m')
  | tf (t : Int) {m m' : Option TfMsg} (h : Option.Rel TfMsg.Mirrors m m') : Sent.Mirrors (.tf t m) (.tf t m')
  | accel (t : Int) {m m' : Option AccelMsg} (h : Option.Rel AccelMsg.Mirrors m m') : Sent.Mirrors (.accel t m) (.accel t m')

/-- The filter with marks (`markedCore`), as numbers. -/
def markedView (p : FilterPar) : View (markedCore p) where
  state := fun x => (x : Option State × Prop).1
  cov := fun P => (P : Mat15 × Prop).1
  meas := fun m => m
  pose := fun x P => ((some x, True), (P, True))
  ctl := fun u => u

/-- The same settings; the initial estimate is marked. -/
def SysCfg.marked {p : FilterPar} (g : SysCfg (ekfCore p)) : SysCfg (markedCore p) :=
  { cfg := g.cfg.marked, frames := g.frames, inputs := g.inputs, twoD := g.twoD, gravity := g.gravity, tfOffset := g.tfOffset }

/-- No roll or yaw in a pose message is exactly half a turn. -/
def NoHalfTurns (c : PrepCtx) (mem : PoseMem) (msg : PoseMsg) (cd : CallbackData) (target : String) (imu : Bool) : Prop :=
  ∀ t, lookupTransformSafe c.buf (poseFrames c msg.frame target cd.differential imu).1
      (poseFrames c msg.frame target cd.differential imu).2 (poseLookupTime msg.stamp) = some t →
    NoHalfTurn t msg (mem.prev cd.topic) cd.differential imu

section
variable {p : FilterPar} {P : MQueue (markedCore p)} (g : SysCfg (markedCore p))

/-- No half turn in the message that arrives. -/
def Sys.ClearEv (s : Sys (markedCore p) P) : Sys.Ev → Prop
  | .odom i buf junk msg => ∀ a b, g.inputs.odomCds[i]? = some (a, b) → a.sum > 0 →
      NoHalfTurns (s.ctx (markedView p) g buf junk) s.hub.mem msg.poseOf a g.frames.world false
  | .pose i buf junk msg => ∀ a, g.inputs.poseCds[i]? = some a →
      NoHalfTurns (s.ctx (markedView p) g buf junk) s.hub.mem msg a g.frames.world false
  | .imu i buf junk msg => ∀ a b d, g.inputs.imuCds[i]? = some (a, b, d) → a.sum > 0 →
      NoHalfTurns (s.ctx (markedView p) g buf junk) s.hub.mem msg.poseOf a g.frames.base true
  | _ => True

/-- No measurement exactly half a turn away has gone into the estimate. -/
def Sys.ClearNow (s : Sys (markedCore p) P) : Prop :=
  (s.hub.node.filt.x : Option State × Prop).2 ∧ (s.hub.node.filt.cov : Mat15 × Prop).2

/-- No half turn in a run. -/
noncomputable def Sys.ClearRun (s : Sys (markedCore p) P) : List Sys.Ev → Prop
  | [] => s.ClearNow
  | e :: es => s.ClearNow ∧ s.ClearEv g e ∧ Sys.ClearRun (s.step (markedView p) g e).1 es

end

section helpers
variable {p : FilterPar}

theorem angularCov_mirror (a : Fin 9 → ℝ) : angularCov (mirror9 a) = mirror36 (angularCov a) := by
  funext k
  unfold angularCov mirror36
  dsimp only
  by_cases h : 3 ≤ k.val / 6 ∧ 3 ≤ k.val % 6
  · rw [dif_pos h, dif_pos h]
    fin_cases k <;> simp at h <;> simp [mirror9, flip3, flip6]
  · rw [dif_neg h, dif_neg h]
    simp

theorem blank_mirror (cd : CallbackData) : cd.blank.rescaled 1 (-1) = cd.blank := by
  unfold CallbackData.blank Payload.rescaled
  simp only [Payload.mk.injEq, and_true, true_and]
  refine ⟨?_, ?_⟩
  · funext i
    simp [Dbl.smul]
  · ext i j
    simp [rescaleCov]

theorem blankPose_mirror : Sys.blankPose.rescaled 1 (-1) = Sys.blankPose := by
  unfold Sys.blankPose Payload.rescaled
  simp only [Payload.mk.injEq, and_true, true_and]
  refine ⟨?_, ?_⟩
  · funext i
    simp [Dbl.smul]
  · ext i j
    by_cases h : i = j
    · subst h
      fin_cases i <;> simp [rescaleCov, unitOf]
    · simp [rescaleCov, h]

theorem ofRPY_mirror (r q y : ℝ) (a b c : ℤ) :
    (Quat.ofRPY r q y).mirror.Same (Quat.ofRPY (-r + a * (2 * π)) (q + b * (2 * π)) (-y + c * (2 * π))) := by
  have e : ∀ (x : ℝ) (k : ℤ), (x + k * (2 * π)) * 0.5 = x * 0.5 + k * π := fun x k => by ring
  unfold Quat.ofRPY Quat.Same Quat.mirror Quat.opp
  simp only [e, sin_add_int_mul_pi, cos_add_int_mul_pi, neg_mul, sin_neg, cos_neg, Quat.mk.injEq]
  rcases Int.even_or_odd a with ha | ha <;> rcases Int.even_or_odd b with hb | hb <;> rcases Int.even_or_odd c with hc | hc <;>
    simp only [ha.neg_one_zpow, hb.neg_one_zpow, hc.neg_one_zpow]
  all_goals first
    | exact Or.inl ⟨by ring1, by ring1, by ring1, by ring1⟩
    | exact Or.inr ⟨by ring1, by ring1, by ring1, by ring1⟩

theorem Dbl.fin_smul (a u : ℝ) (h : u = 1 ∨ u = -1) : (Dbl.fin a).smul u = .fin (u * a) := by
  rcases h with rfl | rfl <;> simp [Dbl.smul]

theorem sameScaled_vals {x x' : State} (h : SameScaled 1 (-1) x x') (i : Fin 15) (hi : ¬ (i = iRoll ∨ i = iPitch ∨ i = iYaw)) :
    x' i = unitOf 1 (-1) i * x i := by
  obtain ⟨k, hk, -, rfl⟩ := h
  simp [hk i hi]

theorem odomMessage_mirror (fr : Frames) {x x' : State} (h : SameScaled 1 (-1) x x') (P : Mat15) (t : Int) :
    Option.Rel OdomMsg.Mirrors (odomMessage fr true x P t) (odomMessage fr true x' (rescaleCov 1 (-1) P) t) := by
  have v := sameScaled_vals h
  refine .some ⟨rfl, rfl, rfl, ?_, ?_, ?_, ?_, ?_, ?_⟩
  · funext i
    fin_cases i
    · simpa [V3.mirror, flip3, unitOf] using v 0 (by decide)
    · simpa [V3.mirror, flip3, unitOf] using v 1 (by decide)
    · simpa [V3.mirror, flip3, unitOf] using v 2 (by decide)
  · obtain ⟨k, -, -, rfl⟩ := h
    have := ofRPY_mirror (x 3) (x 4) (x 5) (k 3) (k 4) (k 5)
    simpa [unitOf] using this
  · funext k
    fin_cases k <;> simp [mirror36, rescaleCov, unitOf, flip6]
  · intro i
    fin_cases i
    · simp [flip3, Dbl.fin_smul, v 6 (by decide), unitOf]
    · simp [flip3, Dbl.fin_smul, v 7 (by decide), unitOf]
    · simp [flip3, Dbl.fin_smul, v 8 (by decide), unitOf]
  · intro i
    fin_cases i
    · simp [flip3, Dbl.fin_smul, v 9 (by decide), unitOf]
    · simp [flip3, Dbl.fin_smul, v 10 (by decide), unitOf]
    · simp [flip3, Dbl.fin_smul, v 11 (by decide), unitOf]
  · funext k
    fin_cases k <;> simp [mirror36, rescaleCov, unitOf, flip6]

theorem Quat.Same.mat {q q' : Quat} (h : q.Same q') : q'.mat = q.mat := by
  rcases h with rfl | rfl
  · rfl
  · exact Quat.mat_opp q

theorem broadcast_mirror (fr : Frames) (b : TfBuffer) (offset : Int) {m m' : OdomMsg} (h : m.Mirrors m') :
    Option.Rel TfMsg.Mirrors (broadcast fr b offset m) (broadcast fr b.mirror offset m') := by
  unfold broadcast
  dsimp only
  rw [h.frame, h.stamp, h.child]
  split_ifs
  · exact .some ⟨rfl, rfl, rfl, h.pos, h.ori⟩
  · unfold TfBuffer.mirror
    cases b fr.base fr.odom 0 with
    | none => exact .none
    | some t =>
      refine .some ?_
      have e : (TfMsg.tf { frame := m.frame, child := m.child, stamp := m.stamp + offset, org := m'.pos, ori := m'.ori }).mul t.mirror =
          Tf.mirror ((TfMsg.tf { frame := m.frame, child := m.child, stamp := m.stamp + offset, org := m.pos, ori := m.ori }).mul t) := by
        rw [← Tf.mirror_mul]
        congr 1
        unfold TfMsg.tf Tf.mirror
        dsimp only
        rw [h.pos, h.ori.mat, Quat.mat_mirror]
      refine ⟨rfl, rfl, rfl, ?_, ?_⟩
      · dsimp only
        rw [e]
        rfl
      · dsimp only
        rw [e]
        exact quatOf_mirror _
  · exact .none

theorem accelMessage_mirror (fr : Frames) {x x' : State} (h : SameScaled 1 (-1) x x') (P : Mat15) (t : Int) (d : Differ) :
    Option.Rel AccelMsg.Mirrors (accelMessage fr true x P t d) (accelMessage fr true x' (rescaleCov 1 (-1) P) t d.mirror) := by
  have v := sameScaled_vals h
  refine .some ⟨rfl, rfl, ?_, rfl, ?_⟩
  · funext i
    fin_cases i
    · simpa [V3.mirror, flip3, unitOf] using v 12 (by decide)
    · simpa [V3.mirror, flip3, unitOf] using v 13 (by decide)
    · simpa [V3.mirror, flip3, unitOf] using v 14 (by decide)
  · funext k
    fin_cases k <;> simp [mirror36, rescaleCov, unitOf, flip6, Differ.mirror, M3.mirror, flip3]

theorem differ_mirror (d : Differ) (init : Bool) (now : Int) {x x' : State} (h : SameScaled 1 (-1) x x') (P : Mat15) :
    d.mirror.step init now x' (rescaleCov 1 (-1) P) = (d.step init now x P).mirror := by
  have v := sameScaled_vals h
  have e9 : x' 9 = -x 9 := by simpa [unitOf] using v 9 (by decide)
  have e10 : x' 10 = x 10 := by simpa [unitOf] using v 10 (by decide)
  have e11 : x' 11 = -x 11 := by simpa [unitOf] using v 11 (by decide)
  unfold Differ.step
  cases init with
  | false => rfl
  | true =>
    simp only [if_true, Differ.mirror, Differ.mk.injEq, true_and]
    refine ⟨?_, ?_, ?_⟩
    · funext i
      fin_cases i <;> simp [V3.mirrorTurn, flip3, e9, e10, e11]
    · funext i
      fin_cases i <;> simp [V3.mirrorTurn, flip3, e9, e10, e11] <;> ring
    · ext i j
      fin_cases i <;> fin_cases j <;> simp [M3.mirror, flip3, rescaleCov, unitOf] <;> ring

/-- The filter in the mirror, with measurements that count up to full turns. -/
noncomputable def mirrorMsgSim (p : FilterPar) (hp : p.Fits 1 (-1)) : CoreSim (markedCore p) (ekfCore p) 0 where
  low := 0
  X := (mirrorSim p hp).X
  Cov := (mirrorSim p hp).Cov
  Ext := (mirrorSim p hp).Ext
  Par := (mirrorSim p hp).Par
  Z z z' := Payload.Mirrors z z'
  Ctl := (mirrorSim p hp).Ctl
  predict := (mirrorSim p hp).predict
  correct := by
    rintro z z' x x' P P' e e' hz hx hP he
    have h := (mirrorSim p hp).correct (z := z) (z' := Payload.rescaled 1 (-1) z) rfl hx hP he
    have e2 : (ekfCore p).correct z' (x', P', e') = (ekfCore p).correct (Payload.rescaled 1 (-1) z) (x', P', e') := by
      cases x' with
      | none => rfl
      | some y =>
        show (match Ekf.correct z' y P' with
          | some r => (some r.1, r.2, ())
          | none => (none, P', ()) : Option State × Mat15 × Unit) =
          match Ekf.correct (Payload.rescaled 1 (-1) z) y P' with
          | some r => (some r.1, r.2, ())
          | none => (none, P', ())
        rw [show Ekf.correct (z' : Payload) y P' = _ from correct_mirrors hz y P']
    rw [e2]
    exact h
  initX := by
    rintro z z' ⟨x, a⟩ x' hz hx ha
    replace hx := hx ha
    show Option.Rel (SameScaled 1 (-1)) (Option.bind x (initState z)) (Option.bind x' (initState z'))
    cases hx with
    | none => exact .none
    | some hx => exact (C144_started hz hx 0).1
  initCov := by
    rintro z z' ⟨P, b⟩ P' hz hP hb
    replace hP : P' = rescaleCov 1 (-1) P := hP hb
    subst hP
    exact (C144_started hz (State.rescaled_same 0) P).2

/-- The messages in the mirror. -/
noncomputable def mirrorMessages : MsgSim where
  CdPose _ := True
  Cd _ := True
  Zero := True
  Ctx := PrepCtx.Mirrors
  Mem m m' := m' = m.mirror
  Pay := Payload.Mirrors
  Ask := Payload.Mirrors
  Pose m m' := m' = m.mirror
  Twist m m' := m' = m.mirror
  Imu m m' := m' = m.mirror
  Odom m m' := m' = m.mirror
  Src _ _ := True
  Fine := NoHalfTurns
  odomSrc _ _ := trivial
  baseSrc _ := trivial
  base h := h.base
  world h := h.world
  poseStamp := by rintro m _ rfl; rfl
  twistStamp := by rintro m _ rfl; rfl
  odomSame := by rintro m _ rfl; exact ⟨rfl, rfl⟩
  odomPose := by rintro m _ rfl; rfl
  odomTwist := by rintro m _ rfl; rfl
  imuSame := by rintro m _ rfl; exact ⟨rfl, mirror9_zero _, mirror9_zero _, mirror9_zero _⟩
  imuPose := by
    rintro m _ rfl
    unfold ImuMsg.poseOf ImuMsg.mirror PoseMsg.mirror
    simp only [angularCov_mirror, V3.mirror_zero]
  imuTwist := by
    rintro m _ rfl
    unfold ImuMsg.twistOf ImuMsg.mirror TwistMsg.mirror
    simp only [angularCov_mirror, TwistMsg.mk.injEq, true_and, and_true]
    funext i
    rw [Dbl.fin_smul _ _ (flip3_cases i), mul_zero]
  mem0 := rfl
  twist := by
    rintro c c' m _ hc rfl cd target - -
    have h := C144_twist hc m target cd.blank
    rw [blank_mirror] at h
    rw [h]
    cases prepareTwist c m target cd.blank with
    | none => exact .none
    | some q => exact .some q.mirrors_rescaled
  accel := by
    rintro c c' m _ hc rfl cd target grav - -
    have h := C144_acceleration hc grav m target cd.relative cd.blank
    rw [blank_mirror] at h
    rw [h]
    cases prepareAcceleration c grav m target cd.relative cd.blank with
    | none => exact .none
    | some q => exact .some q.mirrors_rescaled
  pose := by
    rintro c c' k _ m _ hc rfl rfl last cd target source imu - - hf
    have h := C144_pose hc k last m cd.topic target source cd.differential cd.relative imu cd.blank hf
    rwa [blank_mirror] at h
  asked := by
    rintro c c' m _ hc rfl
    have h := C144_absolute hc .blank m.stamp m "set_pose" c.world c.base false Sys.blankPose
    rw [blankPose_mirror] at h
    rw [hc.world, hc.base]
    exact h.2

theorem unit_cases (i : Fin 15) : unitOf 1 (-1) i = 1 ∨ unitOf 1 (-1) i = -1 := by
  fin_cases i <;> simp [unitOf]

theorem Payload.Mirrors.same {m m' : Payload} (h : m.Mirrors m') :
    SameScaled 1 (-1) (fun i => (m.z i).val) (fun i => (m'.z i).val) := by
  choose k hk0 hk using fun i => (h.fin i).2.2.2
  refine ⟨k, fun i hi => hk0 i fun hr => hi (hr.elim Or.inl fun h => Or.inr (Or.inr h)), fun e => by norm_num at e, ?_⟩
  funext i
  rw [hk i]
  congr 1
  show ((m.z i).smul (unitOf 1 (-1) i)).val = unitOf 1 (-1) i * (m.z i).val
  rcases unit_cases i with e | e <;> rw [e] <;> cases m.z i <;> simp [Dbl.smul, Dbl.val]

/-- Two whole nodes, the second in the mirror. -/
noncomputable def mirrorNodes (p : FilterPar) (hp : p.Fits 1 (-1)) (g : SysCfg (ekfCore p)) :
    SysPair (mirrorMsgSim p hp) mirrorMessages (markedView p) (ekfView p) g.marked g.mirror where
  Clean x P := (x : Option State × Prop).2 ∧ (P : Mat15 × Prop).2
  Diff d d' := d' = d.mirror
  Buf b b' := b' = b.mirror
  Junk := SameScaled 1 (-1)
  Cmd u u' := u' = ctlRescaled 1 (-1) u
  Said := Sent.Mirrors
  frames := rfl
  inputs := rfl
  odomCds _ _ _ _ := ⟨trivial, trivial⟩
  poseCds _ _ _ := trivial
  twistCds _ _ _ := trivial
  imuCds _ _ _ _ _ := ⟨trivial, trivial, trivial⟩
  cfg := ⟨rfl, rfl, rfl, rfl, rfl, rfl, rfl, rfl, rfl, fun _ => rfl, rfl, fun _ => rfl⟩
  name _ := rfl
  meas h := h
  pose h := ⟨fun _ => .some h.same, fun _ => h.R⟩
  cmd h t := ⟨h, rfl⟩
  zero _ := ⟨fun _ => .some ⟨0, fun _ _ => rfl, fun _ => rfl, by funext i; simp⟩, fun _ => (rescaled_setPoseCov (Or.inr rfl)).symm⟩
  ctl0 h := ⟨h.1, rfl⟩
  tfDue := by
    rintro b _ rfl
    unfold Sys.tfDue TfBuffer.mirror
    rw [Option.isSome_map]
  ctx := by
    rintro ⟨x, a⟩ x' ⟨P, b'⟩ d _ b _ j j' hx hc rfl rfl hj
    refine ⟨rfl, rfl, rfl, rfl, rfl, ?_, rfl⟩
    replace hx := hx hc.1
    cases hx with
    | none => exact hj
    | some hx => exact hx
  differ := by
    rintro ⟨x, a⟩ x' ⟨P, b'⟩ P' d _ hx hP hc rfl init now
    replace hx := hx hc.1
    replace hP : P' = rescaleCov 1 (-1) P := hP hc.2
    subst hP
    cases hx with
    | none => rfl
    | some hx => exact differ_mirror d init now hx P
  odom := by
    rintro ⟨x, a⟩ x' ⟨P, b'⟩ P' hx hP hc t
    replace hx := hx hc.1
    replace hP : P' = rescaleCov 1 (-1) P := hP hc.2
    subst hP
    cases hx with
    | none => exact .odom t .none
    | some hx => exact .odom t (odomMessage_mirror g.frames hx P t)
  tf := by
    rintro ⟨x, a⟩ x' ⟨P, b'⟩ P' b _ hx hP hc rfl t
    replace hx := hx hc.1
    replace hP : P' = rescaleCov 1 (-1) P := hP hc.2
    subst hP
    cases hx with
    | none => exact .tf t .none
    | some hx =>
      have h := odomMessage_mirror g.frames hx P t
      refine .tf t ?_
      simp only [markedView, ekfView, Option.bind_some]
      change Option.Rel _ ((odomMessage g.frames true _ P t).bind _) ((odomMessage g.frames true _ (rescaleCov 1 (-1) P) t).bind _)
      revert h
      generalize odomMessage g.frames true _ P t = r
      generalize odomMessage g.frames true _ (rescaleCov 1 (-1) P) t = r'
      intro h
      cases h with
      | none => exact .none
      | some h => exact broadcast_mirror g.frames b g.tfOffset h
  accel := by
    rintro ⟨x, a⟩ x' ⟨P, b'⟩ P' d _ hx hP hc rfl t
    replace hx := hx hc.1
    replace hP : P' = rescaleCov 1 (-1) P := hP hc.2
    subst hP
    cases hx with
    | none => exact .accel t .none
    | some hx => exact .accel t (accelMessage_mirror g.frames hx P t d)

theorem relSame {α : Type} (a : Option α) : Option.Rel Eq a a := by
  cases a with
  | none => exact .none
  | some a => exact .some rfl

/-- The same messages. -/
def sameMessages : MsgSim where
  CdPose _ := True
  Cd _ := True
  Zero := True
  Ctx := Eq
  Mem := Eq
  Pay := Eq
  Ask := Eq
  Pose := Eq
  Twist := Eq
  Imu := Eq
  Odom := Eq
  Src _ _ := True
  Fine _ _ _ _ _ _ := True
  odomSrc _ _ := trivial
  baseSrc _ := trivial
  base h := by rw [h]
  world h := by rw [h]
  poseStamp h := by rw [h]
  twistStamp h := by rw [h]
  odomSame h := by rw [h]; exact ⟨rfl, rfl⟩
  odomPose h := by rw [h]
  odomTwist h := by rw [h]
  imuSame h := by rw [h]; exact ⟨rfl, rfl, rfl, rfl⟩
  imuPose h := by rw [h]
  imuTwist h := by rw [h]
  mem0 := rfl
  twist := by
    rintro c _ m _ rfl rfl cd target - -
    exact relSame _
  accel := by
    rintro c _ m _ rfl rfl cd target grav - -
    exact relSame _
  pose := by
    rintro c _ k _ m _ rfl rfl rfl last cd target source imu - - -
    exact ⟨rfl, relSame _⟩
  asked := by
    rintro c _ m _ rfl rfl
    exact relSame _

/-- Marks change nothing in a whole node. -/
noncomputable def unmarkNodes (p : FilterPar) (g : SysCfg (ekfCore p)) :
    SysPair (unmarkSim p) sameMessages (markedView p) (ekfView p) g.marked g where
  Clean _ _ := True
  Diff := Eq
  Buf := Eq
  Junk := Eq
  Cmd := Eq
  Said := Eq
  frames := rfl
  inputs := rfl
  odomCds _ _ _ _ := ⟨trivial, trivial⟩
  poseCds _ _ _ := trivial
  twistCds _ _ _ := trivial
  imuCds _ _ _ _ _ := ⟨trivial, trivial, trivial⟩
  cfg := ⟨rfl, rfl, rfl, rfl, rfl, rfl, rfl, rfl, rfl, rfl, rfl, rfl⟩
  name _ := rfl
  meas h := h.symm
  pose := by rintro m _ rfl; exact ⟨rfl, rfl⟩
  cmd h t := ⟨h.symm, rfl⟩
  zero _ := ⟨rfl, rfl⟩
  ctl0 h := ⟨h.1, rfl⟩
  tfDue h := by rw [h]
  ctx := by rintro x _ P d _ b _ j _ rfl - rfl rfl rfl; rfl
  differ := by rintro x _ P _ d _ rfl rfl - rfl init now; rfl
  odom := by rintro x _ P _ rfl rfl - t; rfl
  tf := by rintro x _ P _ b _ rfl rfl - rfl t; rfl
  accel := by rintro x _ P _ d _ rfl rfl - rfl t; rfl

theorem clearRun_fine (hp : p.Fits 1 (-1)) (g : SysCfg (ekfCore p)) {P : MQueue (markedCore p)} (s : Sys (markedCore p) P)
    (es : List Sys.Ev) (h : s.ClearRun g.marked es) : (mirrorNodes p hp g).RunFine s es := by
  induction es generalizing s with
  | nil => exact h
  | cons e es ih => exact ⟨h.1, by cases e <;> first | exact h.2.1 | trivial | exact fun _ => trivial, ih _ h.2.2⟩

theorem unmark_fine (g : SysCfg (ekfCore p)) {P : MQueue (markedCore p)} (s : Sys (markedCore p) P)
    (es : List Sys.Ev) : (unmarkNodes p g).RunFine s es := by
  induction es generalizing s with
  | nil => trivial
  | cons e es ih =>
    refine ⟨trivial, ?_, ih _⟩
    cases e <;> first | trivial | exact fun _ => trivial | exact fun _ _ => trivial | exact fun _ _ _ _ => trivial | exact fun _ _ _ _ _ => trivial

/-- The marks change nothing in what is sent. -/
theorem sent_unmarked (g : SysCfg (ekfCore p)) (u : Fin 6 → ℝ) (now : Int) (d : Differ) (es : List Sys.Ev) :
    (Sys.run (ekfView p) g (Sys.start g (PQueue.sortedList _ _) () u now d) es).2 =
      (Sys.run (markedView p) g.marked (Sys.start g.marked (PQueue.sortedList _ _) () u now d) es).2 := by
  have hst : (unmarkNodes p g).Alike (QueueSim.sorted _) (Sys.start g.marked (PQueue.sortedList _ _) () u now d)
      (Sys.start g (PQueue.sortedList _ _) () u now d) := by
    refine ⟨⟨?_, rfl⟩, rfl⟩
    have := NodeSim.start (κ := QueueSim.sorted (unmarkSim p)) (g := g.cfg.marked) (g' := g.cfg) (unmarkNodes p g).cfg rfl rfl
      ⟨rfl, rfl⟩ (e := ()) (e' := ()) trivial (u := u) (u' := u) ⟨rfl, rfl⟩ now
    rwa [Int.add_zero] at this
  have he : List.Forall₂ (unmarkNodes p g).EvSim es es := by
    rw [List.forall₂_same]
    intro e _
    cases e with
    | odom i b j m => exact .odom i rfl rfl rfl
    | pose i b j m => exact .pose i rfl rfl rfl
    | twist i b j m => exact .twist i rfl rfl rfl
    | imu i b j m => exact .imu i rfl rfl rfl
    | command now u => exact .command now rfl
    | setPose now b j m => exact .setPose now rfl rfl rfl
    | reset => exact .reset
    | toggle on => exact .toggle on
    | enable => exact .enable
    | tick now now2 b => exact .tick now now2 rfl
  have := (hst.run he (unmark_fine g _ es)).2
  exact (List.forall₂_eq_eq_eq ▸ this : (_ : List Sent) = _).symm

end helpers

/-- C144 for the whole node: when everything that happens to the node is told as seen in the mirror (messages, mountings,
commands, poses that are set, the initial estimate and the noise), then the messages it sends are those seen in the mirror,
for every run without half turns (`Sys.ClearRun`): no roll or yaw is measured exactly half a turn away from the estimate or
exactly half a turn. -/
theorem C144_node (p : FilterPar) (hc : p.useControl = false ∨ ∀ c, 0 ≤ p.accLim c ∧ 0 ≤ p.decLim c)
    (g : SysCfg (ekfCore p)) (u : Fin 6 → ℝ) (now : Int) (d : Differ) (es : List Sys.Ev)
    (hf : Sys.ClearRun g.marked (Sys.start g.marked (PQueue.sortedList _ _) () u now d) es) :
    List.Forall₂ Sent.Mirrors
      (Sys.run (ekfView p) g (Sys.start g (PQueue.sortedList _ _) () u now d) es).2
      (Sys.run (ekfView p) g.mirror (Sys.start g.mirror (PQueue.sortedList _ _) () (ctlRescaled 1 (-1) u) now d.mirror)
        (es.map Sys.Ev.mirror)).2 := by
  have hp : p.Fits 1 (-1) := ⟨Or.inl rfl, Or.inr hc⟩
  have hst : (mirrorNodes p hp g).Alike (QueueSim.sorted _) (Sys.start g.marked (PQueue.sortedList _ _) () u now d)
      (Sys.start g.mirror (PQueue.sortedList _ _) () (ctlRescaled 1 (-1) u) now d.mirror) := by
    refine ⟨⟨?_, rfl⟩, rfl⟩
    have := NodeSim.start (κ := QueueSim.sorted (mirrorMsgSim p hp)) (g := g.cfg.marked) (g' := g.mirror.cfg)
      (mirrorNodes p hp g).cfg (fun _ => by
        show Option.Rel (SameScaled 1 (-1)) g.cfg.initialState (Option.map (State.rescaled 1 (-1)) g.cfg.initialState)
        cases g.cfg.initialState with
        | none => exact .none
        | some x => exact .some x.rescaled_same) rfl
      ⟨rfl, rfl⟩ (e := ()) (e' := ()) trivial (u := u) (u' := ctlRescaled 1 (-1) u) ⟨rfl, rfl⟩ now
    rwa [Int.add_zero] at this
  have he : List.Forall₂ (mirrorNodes p hp g).EvSim es (es.map Sys.Ev.mirror) := by
    rw [List.forall₂_map_right_iff, List.forall₂_same]
    intro e _
    cases e with
    | odom i b j m => exact .odom i rfl j.rescaled_same rfl
    | pose i b j m => exact .pose i rfl j.rescaled_same rfl
    | twist i b j m => exact .twist i rfl j.rescaled_same rfl
    | imu i b j m => exact .imu i rfl j.rescaled_same rfl
    | command now u => exact .command now rfl
    | setPose now b j m => exact .setPose now rfl j.rescaled_same rfl
    | reset => exact .reset
    | toggle on => exact .toggle on
    | enable => exact .enable
    | tick now now2 b => exact .tick now now2 rfl
  rw [sent_unmarked]
  exact (hst.run he (clearRun_fine hp g _ es hf)).2

/-! ## Nodes that measure no angles -/

/-- None of roll, pitch and yaw is selected. -/
def CallbackData.NoAngles (cd : CallbackData) : Prop := ∀ i : Fin 15, i = iRoll ∨ i = iPitch ∨ i = iYaw → cd.upd i = false

/-- No input selects an angle, none takes differences of poses, and no orientation of an IMU is used. -/
structure Inputs.NoAngles (n : Inputs) : Prop where
  odom : ∀ (i : ℕ) a b, n.odomCds[i]? = some (a, b) → a.NoAngles ∧ a.differential = false ∧ b.NoAngles
  pose : ∀ (i : ℕ) a, n.poseCds[i]? = some a → a.NoAngles ∧ a.differential = false
  twist : ∀ (i : ℕ) a, n.twistCds[i]? = some a → a.NoAngles
  imu : ∀ (i : ℕ) a b d, n.imuCds[i]? = some (a, b, d) → ¬ a.sum > 0 ∧ a.NoAngles ∧ b.NoAngles ∧ d.NoAngles

section helpers
variable {p : FilterPar}

/-- A measurement of neither roll nor yaw. -/
def Payload.NoTurn (m : Payload) : Prop := m.upd iRoll = false ∧ m.upd iYaw = false

theorem Payload.NoTurn.clear {m : Payload} (h : m.NoTurn) (x : Option State) : ¬ m.HalfTurn x := by
  rintro ⟨y, -, i, hi, hry, -⟩
  have := (List.mem_filter.1 hi).2
  rcases hry with rfl | rfl
  · rw [h.1] at this; simp at this
  · rw [h.2] at this; simp at this

/-- The marks hold while neither roll nor yaw is measured. -/
noncomputable def keptSim (p : FilterPar) : CoreSim (markedCore p) (markedCore p) 0 where
  low := 0
  X x x' := x' = x ∧ (x : Option State × Prop).2
  Cov P P' := P' = P ∧ (P : Mat15 × Prop).2
  Ext _ _ := True
  Par q q' := q' = q
  Z z z' := z' = z ∧ Payload.NoTurn z
  Ctl u t u' t' := u' = u ∧ t' = t
  predict := by
    rintro q _ u t _ _ x _ P _ e e' ref delta - rfl ⟨rfl, rfl⟩ ⟨rfl, hx⟩ ⟨rfl, hP⟩ -
    rw [Int.add_zero]
    exact ⟨⟨rfl, hx, hP⟩, ⟨rfl, hx, hP⟩, trivial⟩
  correct := by
    rintro z _ x _ P _ e e' ⟨rfl, hz⟩ ⟨rfl, hx⟩ ⟨rfl, hP⟩ -
    exact ⟨⟨rfl, ⟨hx, hP⟩, hz.clear _⟩, ⟨rfl, ⟨hx, hP⟩, hz.clear _⟩, trivial⟩
  initX := by
    rintro z _ x _ ⟨rfl, -⟩ ⟨rfl, hx⟩
    exact ⟨rfl, hx⟩
  initCov := by
    rintro z _ P _ ⟨rfl, -⟩ ⟨rfl, hP⟩
    exact ⟨rfl, hP⟩

theorem relKept {α : Type} {Q : α → Prop} (a : Option α) (h : ∀ b, a = some b → Q b) : Option.Rel (fun x y => y = x ∧ Q x) a a := by
  cases a with
  | none => exact .none
  | some a => exact .some ⟨rfl, h a rfl⟩

theorem finish_spatial {c : PrepCtx} (h : c.twoD = false) (m : Payload) : finish c m = m := by
  unfold finish
  simp [h]

theorem maskAxes_none (r : M3) (i : Fin 3) : maskAxes r (fun _ => false) i = false := by
  have h : ¬ (0 : ℝ) ≥ 1e-6 := by norm_num
  simp [maskAxes]
  norm_num

/-- Messages without angles. -/
def plainMessages : MsgSim where
  CdPose cd := cd.NoAngles
  Cd cd := cd.NoAngles
  Zero := True
  Ctx c c' := c' = c ∧ c.twoD = false
  Mem := Eq
  Pay m m' := m' = m ∧ m.NoTurn
  Ask := Eq
  Pose := Eq
  Twist := Eq
  Imu := Eq
  Odom := Eq
  Src _ _ := True
  Fine _ _ _ cd _ _ := cd.differential = false
  odomSrc _ _ := trivial
  baseSrc _ := trivial
  base h := by rw [h.1]
  world h := by rw [h.1]
  poseStamp h := by rw [h]
  twistStamp h := by rw [h]
  odomSame h := by rw [h]; exact ⟨rfl, rfl⟩
  odomPose h := by rw [h]
  odomTwist h := by rw [h]
  imuSame h := by rw [h]; exact ⟨rfl, rfl, rfl, rfl⟩
  imuPose h := by rw [h]
  imuTwist h := by rw [h]
  mem0 := rfl
  twist := by
    rintro c _ m _ ⟨rfl, h2⟩ rfl cd target hcd -
    refine relKept _ fun q hq => ?_
    obtain ⟨t, -, rfl⟩ := Option.map_eq_some_iff.1 hq
    unfold twistPayload
    dsimp only
    rw [finish_spatial h2]
    exact ⟨hcd iRoll (Or.inl rfl), hcd iYaw (Or.inr (Or.inr rfl))⟩
  accel := by
    rintro c _ m _ ⟨rfl, h2⟩ rfl cd target grav hcd -
    refine relKept _ fun q hq => ?_
    obtain ⟨t, -, rfl⟩ := Option.map_eq_some_iff.1 hq
    unfold accelPayload
    dsimp only
    rw [finish_spatial h2]
    exact ⟨hcd iRoll (Or.inl rfl), hcd iYaw (Or.inr (Or.inr rfl))⟩
  pose := by
    rintro c _ k _ m _ ⟨rfl, h2⟩ rfl rfl last cd target source imu hcd - hd
    refine ⟨rfl, relKept _ fun q hq => ?_⟩
    unfold preparePose at hq
    dsimp only at hq
    split at hq
    · cases hq
    · unfold poseWith at hq
      rw [hd] at hq
      simp only [Bool.false_eq_true, if_false, Option.some.injEq] at hq
      rw [finish_spatial h2] at hq
      subst hq
      have e : (fun i : Fin 3 => cd.blank.upd (axis 3 (by omega) i)) = fun _ => false := by
        funext i
        refine hcd _ ?_
        fin_cases i
        · exact Or.inl rfl
        · exact Or.inr (Or.inl rfl)
        · exact Or.inr (Or.inr rfl)
      refine ⟨?_, ?_⟩
      · show poseUpd _ _ iRoll = false
        unfold poseUpd
        rw [e]
        exact maskAxes_none _ 0
      · show poseUpd _ _ iYaw = false
        unfold poseUpd
        rw [e]
        exact maskAxes_none _ 2
  asked := by
    rintro c _ m _ ⟨rfl, -⟩ rfl
    exact relSame _

/-- A whole node without angles. -/
noncomputable def plainNodes (p : FilterPar) (g : SysCfg (ekfCore p)) (h2 : g.twoD = false) (hi : g.inputs.NoAngles) :
    SysPair (keptSim p) plainMessages (markedView p) (markedView p) g.marked g.marked where
  Clean _ _ := True
  Diff := Eq
  Buf := Eq
  Junk := Eq
  Cmd := Eq
  Said := Eq
  frames := rfl
  inputs := rfl
  odomCds i a b h := ⟨(hi.odom i a b h).1, (hi.odom i a b h).2.2⟩
  poseCds i a h := (hi.pose i a h).1
  twistCds i a h := hi.twist i a h
  imuCds i a b d h := (hi.imu i a b d h).2
  cfg := ⟨rfl, rfl, rfl, rfl, rfl, rfl, rfl, rfl, rfl, ⟨rfl, trivial⟩, rfl, ⟨rfl, trivial⟩⟩
  name _ := rfl
  meas h := h
  pose := by rintro m _ rfl; exact ⟨⟨rfl, trivial⟩, ⟨rfl, trivial⟩⟩
  cmd h t := ⟨h.symm, rfl⟩
  zero _ := ⟨⟨rfl, trivial⟩, ⟨rfl, trivial⟩⟩
  ctl0 h := ⟨h.1, rfl⟩
  tfDue h := by rw [h]
  ctx := by rintro x _ P d _ b _ j _ ⟨rfl, -⟩ - rfl rfl rfl; exact ⟨rfl, h2⟩
  differ := by rintro x _ P _ d _ ⟨rfl, -⟩ ⟨rfl, -⟩ - rfl init now; rfl
  odom := by rintro x _ P _ ⟨rfl, -⟩ ⟨rfl, -⟩ - t; rfl
  tf := by rintro x _ P _ b _ ⟨rfl, -⟩ ⟨rfl, -⟩ - rfl t; rfl
  accel := by rintro x _ P _ d _ ⟨rfl, -⟩ ⟨rfl, -⟩ - rfl t; rfl

theorem plain_event (g : SysCfg (ekfCore p)) (h2 : g.twoD = false) (hi : g.inputs.NoAngles) (e : Sys.Ev) :
    (plainNodes p g h2 hi).EvSim e e := by
  cases e with
  | odom i b j m => exact .odom i rfl rfl rfl
  | pose i b j m => exact .pose i rfl rfl rfl
  | twist i b j m => exact .twist i rfl rfl rfl
  | imu i b j m => exact .imu i rfl rfl rfl
  | command now u => exact .command now rfl
  | setPose now b j m => exact .setPose now rfl rfl rfl
  | reset => exact .reset
  | toggle on => exact .toggle on
  | enable => exact .enable
  | tick now now2 b => exact .tick now now2 rfl

theorem plain_clear (g : SysCfg (ekfCore p)) (h2 : g.twoD = false) (hi : g.inputs.NoAngles) {P : MQueue (markedCore p)}
    {κ : QueueSim (keptSim p) P P} (s : Sys (markedCore p) P) (hs : (plainNodes p g h2 hi).Alike κ s s) (es : List Sys.Ev) :
    s.ClearRun g.marked es := by
  induction es generalizing s with
  | nil => exact ⟨hs.hub.node.filt.x.2, hs.hub.node.filt.cov.2⟩
  | cons e es ih =>
    have h1 : SysPair.EvFine plainMessages (markedView p) g.marked s e := by
      cases e with
      | odom i b j m => exact fun a b h _ => (hi.odom i a b h).2.1
      | pose i b j m => exact fun a h => (hi.pose i a h).2
      | imu i b j m => exact fun a b d h ha => ((hi.imu i a b d h).1 ha).elim
      | setPose n b j m => exact fun _ => trivial
      | _ => trivial
    refine ⟨⟨hs.hub.node.filt.x.2, hs.hub.node.filt.cov.2⟩, ?_, ih _ (hs.step (plain_event g h2 hi e) trivial h1 trivial).1⟩
    cases e with
    | odom i b j m =>
      intro a b h _ t _
      rw [(hi.odom i a b h).2.1]
      exact ⟨fun e => (nomatch e), fun e => (nomatch e)⟩
    | pose i b j m =>
      intro a h t _
      rw [(hi.pose i a h).2]
      exact ⟨fun e => (nomatch e), fun e => (nomatch e)⟩
    | imu i b j m => exact fun a b d h ha => ((hi.imu i a b d h).1 ha).elim
    | _ => trivial

end helpers

/-- C144 for a whole node that measures positions, velocities and accelerations, but no angles: no exception at all. -/
theorem C144_node_without_angles (p : FilterPar) (hc : p.useControl = false ∨ ∀ c, 0 ≤ p.accLim c ∧ 0 ≤ p.decLim c)
    (g : SysCfg (ekfCore p)) (h2 : g.twoD = false) (hi : g.inputs.NoAngles) (u : Fin 6 → ℝ) (now : Int) (d : Differ)
    (es : List Sys.Ev) :
    List.Forall₂ Sent.Mirrors
      (Sys.run (ekfView p) g (Sys.start g (PQueue.sortedList _ _) () u now d) es).2
      (Sys.run (ekfView p) g.mirror (Sys.start g.mirror (PQueue.sortedList _ _) () (ctlRescaled 1 (-1) u) now d.mirror)
        (es.map Sys.Ev.mirror)).2 := by
  refine C144_node p hc g u now d es (plain_clear g h2 hi (κ := QueueSim.sorted _) _ ?_ es)
  refine ⟨⟨?_, rfl⟩, rfl⟩
  have := NodeSim.start (κ := QueueSim.sorted (keptSim p)) (g := g.cfg.marked) (g' := g.cfg.marked) (plainNodes p g h2 hi).cfg
    ⟨rfl, trivial⟩ rfl ⟨rfl, rfl⟩ (e := ()) (e' := ()) trivial (u := u) (u' := u) ⟨rfl, rfl⟩ now
  rwa [Int.add_zero] at this

/-- Noise and initial variances without correlations and an initial estimate at rest at the origin, looking along the
first axis. -/
structure SysCfg.Symmetric {p : FilterPar} (g : SysCfg (ekfCore p)) : Prop where
  noise : ∀ i j, i ≠ j → (g.cfg.processNoise : Mat15) i j = 0
  keptNoise : ∀ i j, i ≠ j → (g.cfg.keptNoise : Mat15) i j = 0
  cov : ∀ i j, i ≠ j → (g.cfg.initialCov : Mat15) i j = 0
  keptCov : ∀ i j, i ≠ j → (g.cfg.keptCov : Mat15) i j = 0
  start : g.cfg.initialState = (some 0 : Option State)
  command : g.cfg.ctl0 = (0 : Fin 6 → ℝ)

section helpers

theorem diag_mirror {M : Mat15} (h : ∀ i j, i ≠ j → M i j = 0) : rescaleCov 1 (-1) M = M := by
  ext i j
  show unitOf 1 (-1) i * M i j * unitOf 1 (-1) j = M i j
  by_cases e : i = j
  · subst e
    rcases unit_cases i with u | u <;> rw [u] <;> ring
  · rw [h i j e, mul_zero, zero_mul]

theorem SysCfg.Symmetric.mirror {p : FilterPar} {g : SysCfg (ekfCore p)} (h : g.Symmetric) : g.mirror = g := by
  obtain ⟨⟨a1, a2, a3, a4, a5, a6, a7, a8, a9, a10, a11, a12, a13, a14, a15⟩, fr, inp, d2, gr, off⟩ := g
  obtain ⟨h1, h2, h3, h4, h5, h6⟩ := h
  dsimp only at h1 h2 h3 h4 h5 h6
  subst h5 h6
  unfold SysCfg.mirror Cfg.rescaled
  have e0 : Option.map (State.rescaled 1 (-1)) (some 0 : Option State) = some 0 := by
    show some _ = some _
    congr 1
    funext i
    simp [State.rescaled]
  have e1 : ctlRescaled 1 (-1) (0 : Fin 6 → ℝ) = 0 := by
    funext i
    simp [ctlRescaled]
  have := diag_mirror h1
  have := diag_mirror h2
  have := diag_mirror h3
  have := diag_mirror h4
  simp only [*]

end helpers

/-- The same node, told the same story as seen in the mirror, answers with what is seen in the mirror: nothing in the node
prefers one side. -/
theorem C144_same_node (p : FilterPar) (hc : p.useControl = false ∨ ∀ c, 0 ≤ p.accLim c ∧ 0 ≤ p.decLim c)
    (g : SysCfg (ekfCore p)) (hg : g.Symmetric) (h2 : g.twoD = false) (hi : g.inputs.NoAngles) (now : Int) (es : List Sys.Ev) :
    List.Forall₂ Sent.Mirrors
      (Sys.run (ekfView p) g (Sys.start g (PQueue.sortedList _ _) () (0 : Fin 6 → ℝ) now ⟨0, 0, 0, 0⟩) es).2
      (Sys.run (ekfView p) g (Sys.start g (PQueue.sortedList _ _) () (0 : Fin 6 → ℝ) now ⟨0, 0, 0, 0⟩)
        (es.map Sys.Ev.mirror)).2 := by
  have h := C144_node_without_angles p hc g h2 hi 0 now ⟨0, 0, 0, 0⟩ es
  have e1 : ctlRescaled 1 (-1) (0 : Fin 6 → ℝ) = 0 := by
    funext i
    simp [ctlRescaled]
  have e2 : Differ.mirror ⟨0, 0, 0, 0⟩ = ⟨0, 0, 0, 0⟩ := by
    unfold Differ.mirror
    have a : V3.mirrorTurn 0 = 0 := by
      funext i
      simp [V3.mirrorTurn]
    have b : M3.mirror 0 = 0 := by
      ext i j
      simp [M3.mirror]
    rw [a, b]
  rw [hg.mirror, e1, e2] at h
  exact h

/-- Wheel odometry: forward and sideways speed and the rate of turning. -/
def slideCd : CallbackData :=
  { topic := "wheels", upd := fun i => decide (i = 6 ∨ i = 7 ∨ i = 11), sum := 3, differential := false, relative := false
    useChild := false, thresh := .unlimited }

/-- A node that listens to wheels. -/
noncomputable def slideCfg : SysCfg (ekfCore plainPar) :=
  { cfg := { demoCfg plainPar with initialCov := (1 : Mat15), processNoise := (1 : Mat15), keptCov := (1 : Mat15), keptNoise := (1 : Mat15) }
    frames := { world := "odom", map := "map", odom := "odom", base := "base_link", baseOut := "base_link" }
    inputs := { odoms := [], poses := [], twists := [], imus := [], odomCds := [], poseCds := [], twistCds := [slideCd], imuCds := [] }
    twoD := false, gravity := 9.8, tfOffset := 0 }

/-- A turn to the left while driving forward and sliding to the left. -/
def slideMsg : TwistMsg :=
  { frame := "base_link", stamp := 1, lin := ![.fin 1, .fin 2, .fin 0], ang := ![.fin 0, .fin 0, .fin 3], cov := fun _ => 0 }

/-- Non-vacuity: the settings of the wheels meet all conditions. -/
example (now : Int) (es : List Sys.Ev) :
    List.Forall₂ Sent.Mirrors
      (Sys.run (ekfView plainPar) slideCfg (Sys.start slideCfg (PQueue.sortedList _ _) () (0 : Fin 6 → ℝ) now ⟨0, 0, 0, 0⟩) es).2
      (Sys.run (ekfView plainPar) slideCfg (Sys.start slideCfg (PQueue.sortedList _ _) () (0 : Fin 6 → ℝ) now ⟨0, 0, 0, 0⟩)
        (es.map Sys.Ev.mirror)).2 := by
  have d : ∀ i j : Fin 15, i ≠ j → (1 : Mat15) i j = 0 := fun i j h => Matrix.one_apply_ne h
  refine C144_same_node plainPar (Or.inl rfl) slideCfg ⟨d, d, d, d, rfl, rfl⟩ rfl ⟨?_, ?_, ?_, ?_⟩ now es
  · intro i a b h
    simp [slideCfg] at h
  · intro i a h
    simp [slideCfg] at h
  · intro i a h
    have : a = slideCd := by
      rcases i with _ | i
      · simpa [slideCfg] using h.symm
      · simp [slideCfg] at h
    subst this
    rintro i (rfl | rfl | rfl) <;> rfl
  · intro i a b d h
    simp [slideCfg] at h

/-- Something is sent: the messages of one cycle after the wheels were heard. -/
example : (Sys.run (ekfView plainPar) slideCfg (Sys.start slideCfg (PQueue.sortedList _ _) () (0 : Fin 6 → ℝ) 0 ⟨0, 0, 0, 0⟩)
    [.twist 0 (fun _ _ _ => some Tf.id) 0 slideMsg, .tick 3 3 (fun _ _ _ => none)]).2.length = 3 := by
  have key : ∀ q : Payload, (Sys.cycle (ekfView plainPar) slideCfg (P := PQueue.sortedList _ _)
      { hub := { node := (Node.start slideCfg.cfg (PQueue.sortedList _ _) () (0 : Fin 6 → ℝ) 0).sensor "wheels" 1 (some q), mem := .blank }
        diff := ⟨0, 0, 0, 0⟩ } 3 3 (fun _ _ _ => none)).2.length = 3 := by
    intro q
    simp [Sys.cycle, slideCfg, Node.start, Node.sensor, Node.enqueue, Node.periodic, Node.advance, Node.integrate, Sys.tfDue,
      Node.drain, Node.publish, PQueue.sortedList, PQueue.insertSorted, PQueue.size, Filt.processMeasurement, demoCfg]
  simp only [Sys.run, List.length_append, List.length_nil, Nat.add_zero]
  exact (Nat.zero_add _).trans (key _)

end RL
