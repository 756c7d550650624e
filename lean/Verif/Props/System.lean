import Verif.Proofs.SystemInv
import Verif.Props.Arrival
import Verif.Props.Truth
import Verif.Props.Output
import Verif.Props.NodePar
import Verif.Props.Callbacks
/-! # C117: honest messages give honest messages -/

namespace RL
open Matrix Real Body
open Nav (Given)

/-! ## What it means for a message to be honest -/

/-- Where a body is. -/
noncomputable def _root_.RL.Body.Kin.tf (k : Kin) : Tf := { rot := rot k.eul, org := k.pos }

/-- Not pointing straight up or down or lying on its back. -/
def HeadUp (k : Kin) : Prop := 0 < cos (k.eul 1)

/-- In the plane, level. -/
def InPlane (k : Kin) : Prop :=
  k.pos 2 = 0 ∧ k.eul 0 = 0 ∧ k.eul 1 = 0 ∧ k.vel 2 = 0 ∧ k.rate 0 = 0 ∧ k.rate 1 = 0 ∧ k.acc 2 = 0

/-- Two frames do not move against each other: whatever is known about frame `b` in frame `a` is `T`. -/
structure Fixed (buf : TfBuffer) (a b : String) (T : Tf) : Prop where
  rot : IsRot T.rot
  known : ∀ time t, buf a b time = some t → t = T
  self : a = b → T = Tf.id

/-- A pose of the frame `source` in the frame `frame` is that of a robot that is at `k` in the world. -/
def TellsPose (buf : TfBuffer) (fr : Frames) (frame source : String) (pos : V3) (ori : Quat) (k : Kin) : Prop :=
  ori.len2 = 1 ∧ ∃ T S : Tf, Fixed buf fr.world frame T ∧ T.mul { rot := ori.mat, org := pos } = k.tf.mul S ∧
    (source = fr.base ∧ S = Tf.id ∨
      source ≠ fr.base ∧ IsRot S.rot ∧ Fixed buf source fr.base S.inv ∧ buf source fr.base 0 ≠ none)

/-- A place in the frame `frame` is where a robot is that is at `k` in the world; nothing is said about how it is turned. -/
def TellsPlace (buf : TfBuffer) (fr : Frames) (frame source : String) (pos : V3) (k : Kin) : Prop :=
  source = fr.base ∧ ∃ T : Tf, Fixed buf fr.world frame T ∧ T.rot.mulVec pos + T.org = k.pos

/-- No frame means the base. -/
def ownFrame (base frame : String) : String := if frame = "" then base else frame

/-- Velocities in the frame `frame`, fixed on a robot that moves as `k` does. -/
def TellsTwist (buf : TfBuffer) (fr : Frames) (frame : String) (lin ang : Fin 3 → Dbl) (k : Kin) : Prop :=
  ∃ (T : Tf) (l a : V3), Fixed buf fr.base (ownFrame fr.base frame) T ∧ (∀ i, lin i = .fin (l i)) ∧ (∀ i, ang i = .fin (a i)) ∧
    T.rot.mulVec a = k.rate ∧ T.rot.mulVec l = k.vel + (skew k.rate).mulVec T.org

/-- A field of an IMU message is marked as absent. -/
def Withheld (cov : Fin 9 → ℝ) : Prop := |cov 0 + 1| < 1e-9

/-- As long as nothing has been fused, what is not told is as it is in the initial state. -/
def Rest {p : FilterPar} {Q : MQueue (ekfCore p)} (n : Node (ekfCore p) Q) (k : Kin) (told : Fin 15 → Prop) : Prop :=
  n.filt.initialized = false → ∀ x0 : State, n.filt.x = some x0 → ∀ i, ¬ told i → SameVal i (x0 i) (k.vec i)

/-- The estimate is finite. -/
def Finite' {p : FilterPar} {Q : MQueue (ekfCore p)} (n : Node (ekfCore p) Q) : Prop := ∃ x : State, n.filt.x = some x

/-- A message that tells the truth about the motion `f`, in the state `s` of the node.  Inputs are used as they are (not
differential, not relative); those that are not IMUs do not select accelerations, or there is none.  An input that does not
select the orientation need not know it.  An IMU sits on the robot as the base does.  A pose is set to where the robot stands. -/
def TrueMessage (c : NodeConf) {Q : MQueue (ekfCore c.par)} (f : Int → Kin) (s : Sys (ekfCore c.par) Q) : Sys.Ev → Prop
  | .odom i buf _ msg => SaneBuf buf ∧ ∀ set, c.inputs.odoms[i]? = some set → set.par.config.length = 15 ∧
      (∀ j : Fin 15, 12 ≤ j.val → Selects set.par.config j.val → (f msg.stamp).vec j = 0) ∧
      ((∃ j : Fin 15, ¬ (6 ≤ j.val ∧ j.val < 12) ∧ Selects set.par.config j.val) →
        (set.par.differential = false ∧ set.par.relative = false) ∧
        (TellsPose buf c.frames msg.frame (if set.par.useChild then msg.child else c.frames.base) msg.pos msg.ori (f msg.stamp) ∨
          (∀ j : Fin 15, 3 ≤ j.val → j.val < 6 → ¬ Selects set.par.config j.val) ∧
          TellsPlace buf c.frames msg.frame (if set.par.useChild then msg.child else c.frames.base) msg.pos (f msg.stamp)) ∧
        Rest s.hub.node (f msg.stamp) fun j => msg.frame = c.frames.world ∧ ¬ (6 ≤ j.val ∧ j.val < 12) ∧ Selects set.par.config j.val) ∧
      ((∃ j : Fin 15, 6 ≤ j.val ∧ Selects set.par.config j.val) →
        TellsTwist buf c.frames msg.child msg.lin msg.ang (f msg.stamp) ∧
        (ownFrame c.frames.base msg.child = c.frames.base ∨ Finite' s.hub.node) ∧
        Rest s.hub.node (f msg.stamp) fun j => ownFrame c.frames.base msg.child = c.frames.base ∧ 6 ≤ j.val ∧
          Selects set.par.config j.val)
  | .pose i buf _ msg => SaneBuf buf ∧ ∀ set, c.inputs.poses[i]? = some set → set.par.config.length = 15 ∧
      ((∃ j : Fin 15, j.val < 6 ∧ Selects set.par.config j.val) →
        (set.par.differential = false ∧ set.par.relative = false) ∧
        (TellsPose buf c.frames msg.frame c.frames.base msg.pos msg.ori (f msg.stamp) ∨
          (∀ j : Fin 15, 3 ≤ j.val → j.val < 6 → ¬ Selects set.par.config j.val) ∧
          TellsPlace buf c.frames msg.frame c.frames.base msg.pos (f msg.stamp)) ∧
        Rest s.hub.node (f msg.stamp) fun j => msg.frame = c.frames.world ∧ j.val < 6 ∧ Selects set.par.config j.val)
  | .twist i buf _ msg => SaneBuf buf ∧ ∀ set, c.inputs.twists[i]? = some set → set.par.config.length = 15 ∧
      (∀ j : Fin 15, 12 ≤ j.val → Selects set.par.config j.val → (f msg.stamp).vec j = 0) ∧
      ((∃ j : Fin 15, 6 ≤ j.val ∧ Selects set.par.config j.val) →
        TellsTwist buf c.frames msg.frame msg.lin msg.ang (f msg.stamp) ∧
        (ownFrame c.frames.base msg.frame = c.frames.base ∨ Finite' s.hub.node) ∧
        Rest s.hub.node (f msg.stamp) fun j => ownFrame c.frames.base msg.frame = c.frames.base ∧ 6 ≤ j.val ∧
          Selects set.par.config j.val)
  | .imu i buf _ msg => SaneBuf buf ∧ msg.frame = c.frames.base ∧ ∀ set, c.inputs.imus[i]? = some set →
      set.par.config.length = 15 ∧
      ((∃ j : Fin 15, (3 ≤ j.val ∧ j.val < 6) ∧ Selects set.par.config j.val) → ¬ Withheld msg.oriCov →
        (set.par.differential = false ∧ set.par.relative = false) ∧
        (msg.ori.len2 = 1 ∧ msg.ori.mat = rot (f msg.stamp).eul) ∧
        Rest s.hub.node (f msg.stamp) fun j => (3 ≤ j.val ∧ j.val < 6) ∧ Selects set.par.config j.val) ∧
      ((∃ j : Fin 15, (9 ≤ j.val ∧ j.val < 12) ∧ Selects set.par.config j.val) → ¬ Withheld msg.velCov →
        (∀ i, msg.vel i = .fin ((f msg.stamp).rate i)) ∧
        Rest s.hub.node (f msg.stamp) fun j => (9 ≤ j.val ∧ j.val < 12) ∧ Selects set.par.config j.val) ∧
      ((∃ j : Fin 15, 12 ≤ j.val ∧ Selects set.par.config j.val) → ¬ Withheld msg.accCov →
        set.par.relative = false ∧
        (if set.removeGravity then ¬ Withheld msg.oriCov ∧ (msg.ori.len2 = 1 ∧ msg.ori.mat = rot (f msg.stamp).eul) ∧
            msg.acc = (f msg.stamp).acc + (rot (f msg.stamp).eul)ᵀ.mulVec ![0, 0, c.gravity]
          else msg.acc = (f msg.stamp).acc) ∧
        Rest s.hub.node (f msg.stamp) fun j => 12 ≤ j.val ∧ Selects set.par.config j.val)
  | .setPose now buf _ msg => SaneBuf buf ∧ (s.hub.node.filt.initialized = true →
      TellsPose buf c.frames msg.frame c.frames.base msg.pos msg.ori (f now) ∧
      (buf c.frames.world msg.frame 0 ≠ none ∨ msg.frame = c.frames.world) ∧
      (f now).vel = 0 ∧ (f now).rate = 0 ∧ (f now).acc = 0)
  | _ => True

/-- At a cycle the robot rests, or the node is switched on and every pending measurement is not older than the estimate or,
with smoothing, than some state in the history. -/
def NotTooLate (c : NodeConf) {Q : MQueue (ekfCore c.par)} (f : Int → Kin) (s : Sys (ekfCore c.par) Q) : Sys.Ev → Prop
  | .tick _ _ _ => Rests f ∨ s.hub.node.toggledOn = true ∧ (s.hub.node.filt.initialized = true →
      ∀ m ∈ Q.elems s.hub.node.queue, s.hub.node.filt.lastTime ≤ m.time ∨
        c.cfg.smooth = true ∧ ∃ h ∈ s.hub.node.stateHist, h.lastTime < m.time)
  | _ => True

/-- The clock does not run backwards, starting at `k`; no message is older than the last cycle (or the last pose that was
set) when it arrives; nobody switches the processing off. -/
def Timely : Int → List Sys.Ev → Prop
  | _, [] => True
  | k, .tick now now2 _ :: es => k ≤ now ∧ now ≤ now2 ∧ Timely now2 es
  | k, .setPose now _ _ _ :: es => k ≤ now ∧ Timely now es
  | k, .odom _ _ _ msg :: es => k ≤ msg.stamp ∧ Timely k es
  | k, .pose _ _ _ msg :: es => k ≤ msg.stamp ∧ Timely k es
  | k, .twist _ _ _ msg :: es => k ≤ msg.stamp ∧ Timely k es
  | k, .imu _ _ _ msg :: es => k ≤ msg.stamp ∧ Timely k es
  | k, .toggle on :: es => on = true ∧ Timely k es
  | k, _ :: es => Timely k es

/-- A message that is sent tells the truth about the motion `f`. -/
def TellsTruth (c : NodeConf) (f : Int → Kin) : Sent → Prop
  | .odom t (some m) => m.stamp = t ∧ m.frame = c.frames.world ∧ m.child = c.frames.baseOut ∧
      ({ rot := m.ori.mat, org := m.pos } : Tf) = (f t).tf ∧
      (∀ i, m.lin i = .fin ((f t).vel i)) ∧ ∀ i, m.ang i = .fin ((f t).rate i)
  | .tf t (some m) => m.stamp = t + c.times.tfOffset ∧ (c.frames.world = c.frames.odom →
      m.frame = c.frames.odom ∧ m.child = c.frames.baseOut ∧ m.tf = (f t).tf)
  | .accel t (some m) => m.stamp = t ∧ m.frame = c.frames.baseOut ∧ m.lin = (f t).acc
  | _ => True

/-! ## What the prepare functions make of it -/

/-- The measurement has the right value of a variable. -/
def Says (k : Kin) (q : Payload) (i : Fin 15) : Prop := ∃ v, q.z i = .fin v ∧ SameVal i v (k.vec i)

theorem SameVal.rfl' (i : Fin 15) (a : ℝ) : SameVal i a a := ⟨fun _ => ⟨0, by simp⟩, fun _ => rfl⟩

theorem reads_of_says {k : Kin} {q : Payload} (h : ∀ i, q.upd i = true → Says k q i) : Reads k q := by
  intro i v hu hv
  obtain ⟨w, h1, h2⟩ := h i hu
  rw [hv] at h1
  injection h1 with h1
  rwa [h1]

theorem level_off {k : Kin} (h : InPlane k) (i : Fin 15) (hi : offPlane i = true) : k.vec i = 0 := by
  obtain ⟨a, b, d, e, g, u, v⟩ := h
  fin_cases i
  case «2» => exact a
  case «3» => exact b
  case «4» => exact d
  case «8» => exact e
  case «9» => exact g
  case «10» => exact u
  case «14» => exact v
  all_goals exact absurd hi (by decide)

theorem says_finish {c : PrepCtx} {k : Kin} (hp : c.twoD = true → InPlane k) {q : Payload} {i : Fin 15} (h : Says k q i) :
    Says k (finish c q) i := by
  unfold finish
  split
  · rename_i ht
    by_cases hi : offPlane i = true
    · refine ⟨0, ?_, ?_⟩
      · show (if offPlane i = true then Dbl.fin 0 else q.z i) = _
        rw [if_pos hi]
      · rw [level_off (hp ht) i hi]
        exact SameVal.rfl' _ _
    · obtain ⟨v, h1, h2⟩ := h
      refine ⟨v, ?_, h2⟩
      show (if offPlane i = true then Dbl.fin 0 else q.z i) = _
      rw [if_neg hi, h1]
  · exact h

theorem reads_finish {c : PrepCtx} {k : Kin} (hp : c.twoD = true → InPlane k) {q : Payload}
    (h : ∀ i, q.upd i = true → Says k q i) : Reads k (finish c q) := by
  apply reads_of_says
  intro i hu
  by_cases hq : q.upd i = true
  · exact says_finish hp (h i hq)
  · unfold finish at hu ⊢
    split at hu
    · rename_i ht
      have hu : (if offPlane i = true then true else q.upd i) = true := hu
      by_cases hi : offPlane i = true
      · rw [if_pos ht]
        refine ⟨0, ?_, ?_⟩
        · show (if offPlane i = true then Dbl.fin 0 else q.z i) = _
          rw [if_pos hi]
        · rw [level_off (hp ht) i hi]
          exact SameVal.rfl' _ _
      · rw [if_neg hi] at hu
        exact absurd hu hq
    · exact absurd hu hq

theorem finish_upd {c : PrepCtx} {q : Payload} {i : Fin 15} (h : (finish c q).upd i = false) : q.upd i = false := by
  unfold finish at h
  split at h
  · have h : (if offPlane i = true then true else q.upd i) = false := h
    split at h
    · cases h
    · exact h
  · exact h

theorem Fixed.lookup {buf : TfBuffer} {a b : String} {T t : Tf} (h : Fixed buf a b T) {time : Int}
    (hl : lookupTransformSafe buf a b time = some t) : t = T := by
  unfold lookupTransformSafe at hl
  cases h1 : buf a b time with
  | some u =>
    rw [h1] at hl
    injection hl with hl
    rw [← hl]
    exact h.known _ _ h1
  | none =>
    cases h2 : buf a b 0 with
    | some u =>
      rw [h1, h2] at hl
      injection hl with hl
      rw [← hl]
      exact h.known _ _ h2
    | none =>
      rw [h1, h2] at hl
      dsimp only at hl
      split at hl
      · rename_i hab
        injection hl with hl
        rw [← hl, h.self hab]
      · cases hl

theorem lookup_known {buf : TfBuffer} {a b : String} {T : Tf} (h : Fixed buf a b T) (hk : buf a b 0 ≠ none ∨ b = a) (time : Int) :
    lookupTransformSafe buf a b time = some T := by
  cases hl : lookupTransformSafe buf a b time with
  | some t => rw [h.lookup hl]
  | none =>
    unfold lookupTransformSafe at hl
    cases h1 : buf a b time with
    | some u => rw [h1] at hl; cases hl
    | none =>
      cases h2 : buf a b 0 with
      | some u => rw [h1, h2] at hl; cases hl
      | none =>
        rw [h1, h2] at hl
        rcases hk with hk | hk
        · exact absurd h2 hk
        · dsimp only at hl
          rw [if_pos hk.symm] at hl
          cases hl

theorem msgPose_unit {msg : PoseMsg} (h : msg.ori.len2 = 1) : msgPose msg = { rot := msg.ori.mat, org := msg.pos } := by
  have hn : ¬ (msg.ori.x = 0 ∧ msg.ori.y = 0 ∧ msg.ori.z = 0 ∧ msg.ori.w = 0) := by
    rintro ⟨a, b, d, e⟩
    unfold Quat.len2 at h
    rw [a, b, d, e] at h
    norm_num at h
  have hl : ¬ |Real.sqrt msg.ori.len2 - 1| > 0.01 := by
    rw [h]
    norm_num
  unfold msgPose
  simp only [if_neg hn, if_neg hl]

/-- The angles in a rotation matrix are those it was made of, but for full turns. -/
theorem getRPY_rot {k : Kin} (hu : HeadUp k) (i : Fin 3) : ∃ n : ℤ, getRPY (rot k.eul) i = k.eul i + n * (2 * π) := by
  obtain ⟨n, hn⟩ := normalizeAngle_mod (k.eul 1)
  have hs := normalizeAngle_spec (k.eul 1)
  have hc : 0 < cos (normalizeAngle (k.eul 1)) := by
    rw [hn, cos_add_int_mul_two_pi]
    exact hu
  have hab : -(π / 2) < normalizeAngle (k.eul 1) ∧ normalizeAngle (k.eul 1) < π / 2 := by
    constructor
    · by_contra hlt
      push Not at hlt
      have := cos_nonpos_of_pi_div_two_le_of_le (x := -normalizeAngle (k.eul 1)) (by linarith) (by linarith [hs.1, pi_pos])
      rw [cos_neg] at this
      linarith
    · by_contra hlt
      push Not at hlt
      have := cos_nonpos_of_pi_div_two_le_of_le (x := normalizeAngle (k.eul 1)) hlt (by linarith [hs.2.1, pi_pos])
      linarith
  have e : rot k.eul = setRPY (k.eul 0) (normalizeAngle (k.eul 1)) (k.eul 2) := by
    rw [setRPY_eq]
    unfold rot rotY
    simp [hn, cos_add_int_mul_two_pi, sin_add_int_mul_two_pi]
  rw [e, getRPY_setRPY _ _ _ hab.1 hab.2]
  fin_cases i
  · exact normalizeAngle_mod _
  · exact ⟨n, hn⟩
  · exact normalizeAngle_mod _

theorem preparePose_flat (c : PrepCtx) (mem : PoseMem) (last : Int) (msg : PoseMsg) (topic target source : String) (imu : Bool)
    (p : Payload) :
    (preparePose c mem last msg topic target source false false imu p).2 =
      (preparePose { c with twoD := false } mem last msg topic target source false false imu p).2.map (finish c) := by
  unfold preparePose
  have e1 : poseFrames { c with twoD := false } msg.frame target false imu = poseFrames c msg.frame target false imu := rfl
  have e2 : ∀ t, sourceTf { c with twoD := false } source t = sourceTf c source t := fun _ => rfl
  simp only [e1, e2]
  cases lookupTransformSafe c.buf (poseFrames c msg.frame target false imu).1 (poseFrames c msg.frame target false imu).2
      (poseLookupTime msg.stamp) with
  | none => rfl
  | some t => simp [poseWith, finish]

theorem prepareTwist_flat (c : PrepCtx) (msg : TwistMsg) (target : String) (p : Payload) :
    prepareTwist c msg target p = (prepareTwist { c with twoD := false } msg target p).map (finish c) := by
  unfold prepareTwist
  simp only
  cases lookupTransformSafe c.buf target (if msg.frame = "" then target else msg.frame) msg.stamp with
  | none => rfl
  | some t => simp [twistPayload, finish, PrepCtx.omega]

theorem prepareAcceleration_flat (c : PrepCtx) (rg : Bool) (msg : ImuMsg) (target : String) (rel : Bool) (p : Payload) :
    prepareAcceleration c rg msg target rel p = (prepareAcceleration { c with twoD := false } rg msg target rel p).map (finish c) := by
  unfold prepareAcceleration
  simp only
  cases lookupTransformSafe c.buf target (if msg.frame = "" then c.base else msg.frame) msg.stamp with
  | none => rfl
  | some t => simp [accelPayload, finish, PrepCtx.omega, gravityPart]

theorem pose_says {k : Kin} (hu : HeadUp k) {q : Payload} (h : MeasuresPose q k.tf) (i : Fin 15) (hi : i.val < 6) : Says k q i := by
  obtain ⟨i, hlt⟩ := i
  change i < 6 at hi
  by_cases h3 : i < 3
  · have e := h.pos ⟨i, h3⟩
    simp only [axis, zero_add] at e
    refine ⟨_, e, ?_⟩
    interval_cases i <;> exact SameVal.rfl' _ _
  · obtain ⟨j, rfl⟩ : ∃ j, i = 3 + j := ⟨i - 3, by omega⟩
    have hj : j < 3 := by omega
    refine ⟨_, h.ori ⟨j, hj⟩, ?_, ?_⟩
    · intro _
      have := getRPY_rot hu ⟨j, hj⟩
      interval_cases j <;> exact this
    · intro hn
      exfalso
      apply hn
      interval_cases j
      · exact Or.inl rfl
      · exact Or.inr (Or.inl rfl)
      · exact Or.inr (Or.inr rfl)

theorem poseUpd_above (r : M3) (u : Fin 15 → Bool) (i : Fin 15) (hi : 6 ≤ i.val) : poseUpd r u i = u i := by
  unfold poseUpd put
  rw [dif_neg (by omega), dif_neg (by omega)]

/-- What `preparePose` makes of an honest pose. -/
theorem preparePose_told (c : PrepCtx) (fr : Frames) (hcw : c.world = fr.world) (hcb : c.base = fr.base) (hb : SaneBuf c.buf)
    (hw : c.world ≠ "") (mem : PoseMem) (last : Int) (msg : PoseMsg) (topic source : String) (p : Payload) (k : Kin)
    (hm : TellsPose c.buf fr msg.frame source msg.pos msg.ori k) (q : Payload)
    (hq : (preparePose c mem last msg topic c.world source false false false p).2 = some q) :
    ∃ q0, q = finish c q0 ∧ MeasuresPose q0 k.tf ∧ (∀ i : Fin 15, 6 ≤ i.val → q0.upd i = p.upd i ∧ q0.z i = p.z i) ∧
      (msg.frame = c.world → q0.upd = p.upd) := by
  obtain ⟨hu, T, S, hT, he, hS⟩ := hm
  rw [preparePose_flat] at hq
  obtain ⟨q0, h0, rfl⟩ := Option.map_eq_some_iff.1 hq
  refine ⟨q0, rfl, ?_⟩
  have e1 : poseFrames { c with twoD := false } msg.frame c.world false false = (c.world, msg.frame) := by simp [poseFrames, hw]
  unfold preparePose at h0
  simp only [e1] at h0
  cases hl : lookupTransformSafe c.buf c.world msg.frame (poseLookupTime msg.stamp) with
  | none => rw [hl] at h0; cases h0
  | some t =>
    rw [hl] at h0
    rw [hcw] at hl
    have ht := hT.lookup hl
    subst ht
    dsimp only at h0
    have hsrc : ∃ src : Option Tf, sourceTf { c with twoD := false } source (poseLookupTime msg.stamp) = src ∧
        (∀ s, src = some s → IsRot s.rot) ∧ S.mul (src.getD Tf.id) = Tf.id := by
      rcases hS with ⟨h1, h2⟩ | ⟨h1, h2, h3, h4⟩
      · refine ⟨none, ?_, fun s hs => absurd hs (by simp), ?_⟩
        · unfold sourceTf
          rw [if_neg (by simp [hcb, h1])]
        · rw [h2]
          exact Tf.mul_id _
      · refine ⟨some S.inv, ?_, fun s hs => ?_, Tf.mul_inv h2⟩
        swap
        · injection hs with hs
          rw [← hs]
          exact h3.rot
        unfold sourceTf
        rw [if_pos (by rw [hcb]; exact h1), hcb]
        exact lookup_known h3 (Or.inl h4) _
    obtain ⟨src, e2, e3, e4⟩ := hsrc
    rw [e2] at h0
    obtain ⟨q', h1, h2⟩ := poseWith_measures { c with twoD := false } rfl mem last t hT.rot src e3 msg topic source p
    rw [h1] at h0
    cases h0
    rw [← Tf.mul_assoc, msgPose_unit hu, he, Tf.mul_assoc, e4, Tf.mul_id] at h2
    refine ⟨h2, ?_, ?_⟩
    · intro i hi
      simp only [poseWith, finish, Bool.false_eq_true, if_false, Option.some.injEq] at h1
      subst h1
      refine ⟨poseUpd_above _ _ i hi, ?_⟩
      dsimp only
      unfold put
      rw [dif_neg (by omega), dif_neg (by omega)]
    · intro hf
      have hid : t = Tf.id := hT.self (by rw [hf, hcw])
      simp only [poseWith, finish, Bool.false_eq_true, if_false, Option.some.injEq] at h1
      subst h1
      rw [hid]
      exact poseUpd_one _

/-- What `preparePose` makes of an honest place. -/
theorem preparePose_place (c : PrepCtx) (fr : Frames) (hcw : c.world = fr.world) (hcb : c.base = fr.base)
    (hw : c.world ≠ "") (mem : PoseMem) (last : Int) (msg : PoseMsg) (topic source : String) (p : Payload) (k : Kin)
    (hm : TellsPlace c.buf fr msg.frame source msg.pos k) (q : Payload)
    (hq : (preparePose c mem last msg topic c.world source false false false p).2 = some q) :
    ∃ q0, q = finish c q0 ∧ (∀ i : Fin 15, i.val < 3 → Says k q0 i) ∧
      ((∀ j : Fin 15, 3 ≤ j.val → j.val < 6 → p.upd j = false) → ∀ i : Fin 15, 3 ≤ i.val → i.val < 6 → q0.upd i = false) ∧
      (∀ i : Fin 15, 6 ≤ i.val → q0.upd i = p.upd i ∧ q0.z i = p.z i) ∧
      (msg.frame = c.world → q0.upd = p.upd) := by
  obtain ⟨rfl, T, hT, he⟩ := hm
  rw [preparePose_flat] at hq
  obtain ⟨q0, h0, rfl⟩ := Option.map_eq_some_iff.1 hq
  refine ⟨q0, rfl, ?_⟩
  have e1 : poseFrames { c with twoD := false } msg.frame c.world false false = (c.world, msg.frame) := by simp [poseFrames, hw]
  unfold preparePose at h0
  simp only [e1] at h0
  cases hl : lookupTransformSafe c.buf c.world msg.frame (poseLookupTime msg.stamp) with
  | none => rw [hl] at h0; cases h0
  | some t =>
    rw [hl] at h0
    rw [hcw] at hl
    have ht := hT.lookup hl
    subst ht
    dsimp only at h0
    have e2 : sourceTf { c with twoD := false } fr.base (poseLookupTime msg.stamp) = none := by
      unfold sourceTf
      rw [if_neg (by simp [hcb])]
    rw [e2] at h0
    obtain ⟨q', h1, h2⟩ := poseWith_measures { c with twoD := false } rfl mem last t hT.rot none (fun _ h => (by cases h)) msg topic fr.base p
    rw [h1] at h0
    cases h0
    have eupd : q0.upd = poseUpd t.rot p.upd := by
      simp only [poseWith, finish, Bool.false_eq_true, if_false, Option.some.injEq] at h1
      rw [← h1]
    have ez : ∀ i : Fin 15, 6 ≤ i.val → q0.z i = p.z i := by
      intro i hi
      simp only [poseWith, finish, Bool.false_eq_true, if_false, Option.some.injEq] at h1
      subst h1
      dsimp only
      unfold put
      rw [dif_neg (by omega), dif_neg (by omega)]
    refine ⟨?_, ?_, ?_, ?_⟩
    · rintro ⟨i, hlt⟩ (h3 : i < 3)
      have e := h2.pos ⟨i, h3⟩
      simp only [axis, zero_add] at e
      refine ⟨_, e, ?_⟩
      have ho : (t.mul ((msgPose msg).mul ((none : Option Tf).getD Tf.id))).org = k.pos := by
        show (t.mul ((msgPose msg).mul Tf.id)).org = k.pos
        rw [Tf.mul_id, ← he]
        rfl
      rw [ho]
      interval_cases i <;> exact SameVal.rfl' _ _
    · intro hn i h3 h6
      rw [eupd]
      by_contra hc
      rw [Bool.not_eq_false] at hc
      rcases poseUpd_true _ _ _ hc with ⟨h, -⟩ | ⟨-, -, j, hj3, hj6, hj⟩ | ⟨h, -⟩
      · omega
      · rw [hn j hj3 hj6] at hj
        cases hj
      · omega
    · intro i hi
      exact ⟨by rw [eupd]; exact poseUpd_above _ _ i hi, ez i hi⟩
    · intro hf
      have hid : t = Tf.id := hT.self (by rw [hf, hcw])
      rw [eupd, hid]
      exact poseUpd_one _

/-- What `prepareTwist` makes of an honest velocity. -/
theorem prepareTwist_told (c : PrepCtx) (fr : Frames) (hcb : c.base = fr.base) (msg : TwistMsg) (p : Payload) (k : Kin)
    (hm : TellsTwist c.buf fr msg.frame msg.lin msg.ang k)
    (ho : ownFrame c.base msg.frame = c.base ∨ c.omega = k.rate) (q : Payload) (hq : prepareTwist c msg c.base p = some q) :
    ∃ q0, q = finish c q0 ∧ (∀ i : Fin 15, 6 ≤ i.val → i.val < 12 → Says k q0 i) ∧
      (∀ i : Fin 15, ¬ (6 ≤ i.val ∧ i.val < 12) → q0.upd i = p.upd i ∧ q0.z i = p.z i) ∧
      (ownFrame c.base msg.frame = c.base → q0.upd = p.upd) := by
  obtain ⟨T, l, a, hT, hl, hang, e1, e2⟩ := hm
  rw [prepareTwist_flat] at hq
  obtain ⟨q0, h0, rfl⟩ := Option.map_eq_some_iff.1 hq
  refine ⟨q0, rfl, ?_⟩
  cases hlk : lookupTransformSafe c.buf c.base (ownFrame c.base msg.frame) msg.stamp with
  | none =>
    unfold prepareTwist at h0
    rw [show lookupTransformSafe ({ c with twoD := false } : PrepCtx).buf c.base (if msg.frame = "" then c.base else msg.frame)
      msg.stamp = none from hlk] at h0
    cases h0
  | some t =>
    obtain ⟨q1, h1, h2, h3, -, h5, h6, h7, -⟩ := prepareTwist_val { c with twoD := false } rfl msg c.base p t hlk
    obtain rfl : q1 = q0 := Option.some.inj (h1.symm.trans h0)
    have ht : t = T := hT.lookup (by rw [← hcb]; exact hlk)
    subst ht
    have hself : ownFrame c.base msg.frame = c.base → t = Tf.id := fun h => hT.self (by rw [← hcb, h])
    have hlin : msg.lin = fun i => .fin (l i) := funext hl
    have hang' : msg.ang = fun i => .fin (a i) := funext hang
    have hcr : cross t.org c.omega = -(skew k.rate).mulVec t.org := by
      rcases ho with ho | ho
      · rw [hself ho]
        funext i
        fin_cases i <;> simp [cross, Tf.id]
      · rw [ho]
        funext i
        fin_cases i <;> simp [cross, skew, Matrix.mulVec, dotProduct, Fin.sum_univ_three] <;> ring
    have v6 : ∀ i : Fin 3, q1.z (axis 6 (by omega) i) = .fin (k.vel i) := by
      intro i
      rw [h2, hlin, mulDbl_fin, e2]
      show Dbl.fin (_ + cross t.org c.omega i) = _
      rw [hcr]
      simp
    have v9 : ∀ i : Fin 3, q1.z (axis 9 (by omega) i) = .fin (k.rate i) := by
      intro i
      rw [h3, hang', mulDbl_fin, e1]
    refine ⟨?_, h7, ?_⟩
    · intro i a1 a2
      obtain ⟨i, hlt⟩ := i
      change 6 ≤ i at a1
      change i < 12 at a2
      by_cases h9 : i < 9
      · obtain ⟨j, rfl⟩ : ∃ j, i = 6 + j := ⟨i - 6, by omega⟩
        have hj : j < 3 := by omega
        refine ⟨_, v6 ⟨j, hj⟩, ?_⟩
        interval_cases j <;> exact SameVal.rfl' _ _
      · obtain ⟨j, rfl⟩ : ∃ j, i = 9 + j := ⟨i - 9, by omega⟩
        have hj : j < 3 := by omega
        refine ⟨_, v9 ⟨j, hj⟩, ?_⟩
        interval_cases j <;> exact SameVal.rfl' _ _
    · intro hs
      have hid := hself hs
      funext i
      by_cases hi : 6 ≤ i.val ∧ i.val < 12
      · obtain ⟨i, hlt⟩ := i
        change 6 ≤ i ∧ i < 12 at hi
        have e : t.rot = 1 := by rw [hid]; rfl
        by_cases h9 : i < 9
        · obtain ⟨j, rfl⟩ : ∃ j, i = 6 + j := ⟨i - 6, by omega⟩
          have := h5 ⟨j, by omega⟩
          rw [e, maskAxes_one] at this
          exact this
        · obtain ⟨j, rfl⟩ : ∃ j, i = 9 + j := ⟨i - 9, by omega⟩
          have := h6 ⟨j, by omega⟩
          rw [e, maskAxes_one] at this
          exact this
      · exact (h7 i hi).1

/-- What `preparePose` makes of an honest orientation of an IMU. -/
theorem prepareAtt_told (c : PrepCtx) (hb : SaneBuf c.buf) (hw : c.base ≠ "") (mem : PoseMem) (last : Int) (msg : PoseMsg)
    (topic : String) (p : Payload) (k : Kin) (hk : HeadUp k) (hf : msg.frame = c.base) (hu : msg.ori.len2 = 1)
    (hm : msg.ori.mat = rot k.eul) (q : Payload)
    (hq : (preparePose c mem last msg topic c.base c.base false false true p).2 = some q) :
    ∃ q0, q = finish c q0 ∧ (∀ i : Fin 15, 3 ≤ i.val → i.val < 6 → Says k q0 i) ∧ q0.upd = p.upd := by
  rw [preparePose_flat] at hq
  obtain ⟨q0, h0, rfl⟩ := Option.map_eq_some_iff.1 hq
  refine ⟨q0, rfl, ?_⟩
  have hr : (msgPose msg).rot = rot k.eul := by rw [msgPose_unit hu]; exact hm
  have hv : |(msgPose msg).rot 2 0| < 1 := by
    have e : (rot k.eul) 2 0 = -sin (k.eul 1) := by simp [rot, rotX, rotY, rotZ, Matrix.mul_apply, Fin.sum_univ_three]
    rw [hr, e, abs_neg, ← sq_lt_one_iff_abs_lt_one]
    have : 0 < cos (k.eul 1) := hk
    nlinarith [sin_sq_add_cos_sq (k.eul 1)]
  obtain ⟨q', h1, h2, h3, -⟩ := preparePose_level { c with twoD := false } hb rfl mem last msg topic p hw hf hv
  rw [show (preparePose { c with twoD := false } mem last msg topic c.base c.base false false true p).2 = some q' from h1] at h0
  cases h0
  refine ⟨?_, h3⟩
  intro i a1 a2
  obtain ⟨i, hlt⟩ := i
  change 3 ≤ i at a1
  change i < 6 at a2
  obtain ⟨j, rfl⟩ : ∃ j, i = 3 + j := ⟨i - 3, by omega⟩
  have hj : j < 3 := by omega
  refine ⟨_, h2 ⟨j, hj⟩, ?_, ?_⟩
  · intro _
    rw [hr]
    have := getRPY_rot hk ⟨j, hj⟩
    interval_cases j <;> exact this
  · intro hn
    exfalso
    apply hn
    interval_cases j
    · exact Or.inl rfl
    · exact Or.inr (Or.inl rfl)
    · exact Or.inr (Or.inr rfl)

/-- What `prepareTwist` makes of an honest angular velocity of an IMU. -/
theorem prepareRate_told (c : PrepCtx) (hb : SaneBuf c.buf) (msg : TwistMsg) (p : Payload) (k : Kin) (hf : msg.frame = c.base)
    (hl : ∀ i, (msg.lin i).isFin = true) (ha : ∀ i, msg.ang i = .fin (k.rate i)) (q : Payload) (hq : prepareTwist c msg c.base p = some q) :
    ∃ q0, q = finish c q0 ∧ (∀ i : Fin 15, 9 ≤ i.val → i.val < 12 → Says k q0 i) ∧ q0.upd = p.upd := by
  rw [prepareTwist_flat] at hq
  obtain ⟨q0, h0, rfl⟩ := Option.map_eq_some_iff.1 hq
  refine ⟨q0, rfl, ?_⟩
  obtain ⟨q1, h1, -, h2, h3, -⟩ := prepareTwist_base { c with twoD := false } hb rfl msg p hf hl
    fun i => by rw [ha]; rfl
  obtain rfl : q1 = q0 := Option.some.inj (h1.symm.trans h0)
  refine ⟨?_, h3⟩
  intro i a1 a2
  obtain ⟨i, hlt⟩ := i
  change 9 ≤ i at a1
  change i < 12 at a2
  obtain ⟨j, rfl⟩ : ∃ j, i = 9 + j := ⟨i - 9, by omega⟩
  have hj : j < 3 := by omega
  refine ⟨k.rate ⟨j, hj⟩, (h2 ⟨j, hj⟩).trans (ha _), ?_⟩
  interval_cases j <;> exact SameVal.rfl' _ _

theorem imuData_rel {s : SensorPar} {a b d : CallbackData} (h : imuData s = some (a, b, d)) : d.relative = s.rel := by
  unfold imuData at h
  simp only [Option.bind_eq_bind, Option.bind_eq_some_iff] at h
  obtain ⟨_, -, _, -, _, -, _, -, _, -, _, -, h⟩ := h
  cases h
  rfl

/-- What `prepareAcceleration` makes of an honest acceleration. -/
theorem prepareAcc_told (c : PrepCtx) (hb : SaneBuf c.buf) (rg : Bool) (msg : ImuMsg) (p : Payload) (k : Kin)
    (hf : msg.frame = c.base)
    (hm : if rg then ¬ Withheld msg.oriCov ∧ (msg.ori.len2 = 1 ∧ msg.ori.mat = rot k.eul) ∧
        msg.acc = k.acc + (rot k.eul)ᵀ.mulVec ![0, 0, c.gravity] else msg.acc = k.acc) (q : Payload)
    (hq : prepareAcceleration c rg msg c.base false p = some q) :
    ∃ q0, q = finish c q0 ∧ (∀ i : Fin 15, 12 ≤ i.val → Says k q0 i) ∧ q0.upd = p.upd := by
  rw [prepareAcceleration_flat] at hq
  obtain ⟨q0, h0, rfl⟩ := Option.map_eq_some_iff.1 hq
  refine ⟨q0, rfl, ?_⟩
  have hl : lookupTransformSafe c.buf c.base (if msg.frame = "" then c.base else msg.frame) msg.stamp = some Tf.id := by
    rw [hf, ite_self]
    exact hb.lookup_self _ _
  obtain ⟨q1, h1, h2⟩ := prepareAcceleration_val { c with twoD := false } rfl rg msg c.base false p Tf.id hl
  obtain rfl : q1 = q0 := Option.some.inj (h1.symm.trans h0)
  have e1 : ∀ v : V3, cross (Tf.id).org v = 0 := by
    intro v
    funext i
    fin_cases i <;> simp [cross, Tf.id]
  have e2 : ∀ v : V3, cross 0 v = 0 := by
    intro v
    funext i
    fin_cases i <;> simp [cross]
  have hv : ∀ i : Fin 3, q1.z (axis 12 (by omega) i) = .fin (k.acc i) := by
    intro i
    rw [h2, e1, e1, e2]
    congr 1
    cases rg with
    | false =>
      have hm : msg.acc = k.acc := hm
      rw [hm]
      simp [Tf.id]
    | true =>
      obtain ⟨m1, ⟨m2, m3⟩, m4⟩ : ¬ Withheld msg.oriCov ∧ (msg.ori.len2 = 1 ∧ msg.ori.mat = rot k.eul) ∧
        msg.acc = k.acc + (rot k.eul)ᵀ.mulVec ![0, 0, c.gravity] := hm
      have hn : msg.ori ≠ ⟨0, 0, 0, 0⟩ := by
        intro hn
        rw [hn] at m2
        norm_num [Quat.len2] at m2
      have hatt : msg.att = rot k.eul := by
        unfold ImuMsg.att
        rw [msgPose_unit (by exact m2)]
        exact m3
      rw [if_pos rfl, gravityPart_id { c with twoD := false } msg hn m1, hatt, m4]
      simp [Tf.id]
  refine ⟨?_, ?_⟩
  · intro i a1
    obtain ⟨i, hlt⟩ := i
    change 12 ≤ i at a1
    obtain ⟨j, rfl⟩ : ∃ j, i = 12 + j := ⟨i - 12, by omega⟩
    have hj : j < 3 := by omega
    refine ⟨_, hv ⟨j, hj⟩, ?_⟩
    interval_cases j <;> exact SameVal.rfl' _ _
  · unfold prepareAcceleration at h1
    rw [show lookupTransformSafe ({ c with twoD := false } : PrepCtx).buf c.base
      (if msg.frame = "" then ({ c with twoD := false } : PrepCtx).base else msg.frame) msg.stamp = some Tf.id from hl,
      Option.map_some, Option.some.injEq] at h1
    subst h1
    simp only [accelPayload, finish, Bool.false_eq_true, if_false]
    funext i
    have e : (Tf.id).rot = (1 : M3) := rfl
    simp only [e, put, maskAxes_one]
    split
    · congr 1
      apply Fin.ext
      simp [axis]
      omega
    · rfl

/-! ## From an input to the control flow -/

theorem mapM_get {A B : Type} {f : A → Option B} {l : List A} {r : List B} (h : l.mapM f = some r) {i : ℕ} {d : B}
    (hd : r[i]? = some d) : ∃ s, l[i]? = some s ∧ f s = some d := by
  obtain ⟨h1, h2⟩ := mapM_some h
  have hi : i < l.length := by
    rw [← h1]
    exact (List.getElem?_eq_some_iff.1 hd).1
  obtain ⟨d', e1, e2⟩ := h2 i l[i] (List.getElem?_eq_getElem hi)
  rw [hd] at e1
  injection e1 with e1
  exact ⟨l[i], List.getElem?_eq_getElem hi, by rw [e2, e1]⟩

/-- The callback data are those of the inputs. -/
structure Inputs.Made (i : Inputs) : Prop where
  odom : ∀ (k : ℕ) d, i.odomCds[k]? = some d → ∃ s : SensorSet, i.odoms[k]? = some s ∧ odomData s.par = some d
  pose : ∀ (k : ℕ) d, i.poseCds[k]? = some d → ∃ s : SensorSet, i.poses[k]? = some s ∧ poseData s.par = some d
  twist : ∀ (k : ℕ) d, i.twistCds[k]? = some d → ∃ s : SensorSet, i.twists[k]? = some s ∧ twistData s.par = some d
  imu : ∀ (k : ℕ) d, i.imuCds[k]? = some d → ∃ s : SensorSet, i.imus[k]? = some s ∧ imuData s.par = some d

theorem readInputs_made {o : Given} {i : Inputs} (h : readInputs o = some i) : i.Made := by
  unfold readInputs at h
  obtain ⟨x1, h1, h⟩ := Option.bind_eq_some_iff.1 h
  obtain ⟨x2, h2, h⟩ := Option.bind_eq_some_iff.1 h
  obtain ⟨x3, h3, h⟩ := Option.bind_eq_some_iff.1 h
  obtain ⟨x4, h4, h⟩ := Option.bind_eq_some_iff.1 h
  obtain ⟨x5, h5, h⟩ := Option.bind_eq_some_iff.1 h
  obtain ⟨x6, h6, h⟩ := Option.bind_eq_some_iff.1 h
  obtain ⟨x7, h7, h⟩ := Option.bind_eq_some_iff.1 h
  obtain ⟨x8, h8, h⟩ := Option.bind_eq_some_iff.1 h
  injection h with h
  subst h
  exact ⟨fun k d hd => mapM_get h2 hd, fun k d hd => mapM_get h4 hd, fun k d hd => mapM_get h6 hd, fun k d hd => mapM_get h8 hd⟩

theorem imuControl_none : ∀ (imus : List (List Bool)) (u : List Bool),
    imus.foldlM imuControl (List.replicate 6 false) = some u → u = List.replicate 6 false := by
  intro imus
  induction imus with
  | nil =>
    intro u h
    injection h with h
    exact h.symm
  | cons v imus ih =>
    intro u h
    rw [List.foldlM_cons, Option.bind_eq_bind, Option.bind_eq_some_iff] at h
    obtain ⟨w, hw, h⟩ := h
    unfold imuControl at hw
    obtain ⟨a, -, hw⟩ := Option.bind_eq_some_iff.1 hw
    have e : w = List.replicate 6 false := by
      have : some (List.replicate 6 false) = some w := hw
      injection this with this
      exact this.symm
    rw [e] at h
    exact ih u h

/-- What is used about the parameters of a node without control. -/
theorem loadNode_made {o : Given} {c : NodeConf} (h : loadNode o = some c) : c.inputs.Made := by
  unfold loadNode at h
  obtain ⟨x1, e1, h⟩ := Option.bind_eq_some_iff.1 h
  obtain ⟨x2, e2, h⟩ := Option.bind_eq_some_iff.1 h
  obtain ⟨x3, e3, h⟩ := Option.bind_eq_some_iff.1 h
  obtain ⟨x4, e4, h⟩ := Option.bind_eq_some_iff.1 h
  obtain ⟨p, e5, h⟩ := Option.bind_eq_some_iff.1 h
  obtain ⟨x6, e6, h⟩ := Option.bind_eq_some_iff.1 h
  obtain ⟨i, e7, h⟩ := Option.bind_eq_some_iff.1 h
  obtain ⟨s, e8, h⟩ := Option.bind_eq_some_iff.1 h
  obtain ⟨x9, e9, h⟩ := Option.bind_eq_some_iff.1 h
  obtain ⟨x10, e10, h⟩ := Option.bind_eq_some_iff.1 h
  injection h with h
  subst h
  exact readInputs_made e7

theorem loadNode_plain {o : Given} {c : NodeConf} (h : loadNode o = some c) (hu : ¬ o.On "use_control") :
    c.inputs.Made ∧ ∀ i, c.par.ctlUpd i = false := by
  have hd := (C102_settings_partial h).sw.useControl
  unfold loadNode at h
  obtain ⟨x1, e1, h⟩ := Option.bind_eq_some_iff.1 h
  obtain ⟨x2, e2, h⟩ := Option.bind_eq_some_iff.1 h
  obtain ⟨x3, e3, h⟩ := Option.bind_eq_some_iff.1 h
  obtain ⟨x4, e4, h⟩ := Option.bind_eq_some_iff.1 h
  obtain ⟨p, e5, h⟩ := Option.bind_eq_some_iff.1 h
  obtain ⟨x6, e6, h⟩ := Option.bind_eq_some_iff.1 h
  obtain ⟨i, e7, h⟩ := Option.bind_eq_some_iff.1 h
  obtain ⟨s, e8, h⟩ := Option.bind_eq_some_iff.1 h
  obtain ⟨x9, e9, h⟩ := Option.bind_eq_some_iff.1 h
  obtain ⟨x10, e10, h⟩ := Option.bind_eq_some_iff.1 h
  injection h with h
  subst h
  refine ⟨readInputs_made e7, fun a => ?_⟩
  have hn : ¬ x1.useControl = true := fun hx => hu (hd.1 hx)
  unfold readControlLists at e5
  rw [if_neg hn] at e5
  injection e5 with e5
  subst e5
  unfold finalControl at e8
  obtain ⟨u, e12, e11⟩ := Option.bind_eq_some_iff.1 e8
  injection e11 with e11
  subst e11
  have := imuControl_none _ u e12
  subst this
  show (List.replicate 6 false).getD a.val false = false
  fin_cases a <;> rfl

section Step
variable {c : NodeConf} {Q : MQueue (ekfCore c.par)} {f : Int → Kin} {s : Sys (ekfCore c.par) Q}

/-- A measurement that is right, for a filter in the state `n`. -/
def Right (f : Int → Kin) (n : Node (ekfCore c.par) Q) (stamp : Int) (z : Option Payload) : Prop :=
  ∀ m : Payload, z = some m → Reads (f stamp) m ∧ (n.filt.initialized = false →
    ∀ x0 : State, n.filt.x = some x0 → ∀ i, m.upd i = false → SameVal i (x0 i) ((f stamp).vec i))

theorem right_of {n : Node (ekfCore c.par) Q} {stamp : Int} {z : Option Payload} {told : Fin 15 → Prop}
    (hr : Rest n (f stamp) told) {k : PrepCtx} (hl : k.twoD = true → InPlane (f stamp))
    (h : ∀ m : Payload, z = some m → ∃ q, m = finish k q ∧ (∀ i, q.upd i = true → Says (f stamp) q i) ∧ ∀ i, told i → q.upd i = true) :
    Right f n stamp z := by
  intro m hm
  obtain ⟨q, rfl, h1, h2⟩ := h m hm
  refine ⟨reads_finish hl h1, fun hi x0 hx i hu => hr hi x0 hx i fun ht => ?_⟩
  have := h2 i ht
  rw [finish_upd hu] at this
  cases this

theorem posePrep_right {n : Node (ekfCore c.par) Q} (hw : c.frames.world ≠ "") (h : Hub (ekfCore c.par) Q) {k : PrepCtx}
    (hkw : k.world = c.frames.world) (hkb : k.base = c.frames.base) (hb : SaneBuf k.buf) (msg : PoseMsg)
    (hup : HeadUp (f msg.stamp)) (hl : k.twoD = true → InPlane (f msg.stamp)) (a : CallbackData) (hd : a.differential = false)
    (hrel : a.relative = false) (source : String)
    (ht : TellsPose k.buf c.frames msg.frame source msg.pos msg.ori (f msg.stamp) ∨
      (∀ j : Fin 15, 3 ≤ j.val → j.val < 6 → a.upd j = false) ∧ TellsPlace k.buf c.frames msg.frame source msg.pos (f msg.stamp))
    (hz : ∀ i : Fin 15, 6 ≤ i.val → a.upd i = true → (f msg.stamp).vec i = 0)
    (hr : Rest n (f msg.stamp) fun j => msg.frame = c.frames.world ∧ a.upd j = true) :
    Right f n msg.stamp (h.posePrep k msg a k.world source false) := by
  refine right_of hr hl fun m hm => ?_
  unfold Hub.posePrep at hm
  rw [hd, hrel] at hm
  obtain ⟨q, e, h1, h2, h3⟩ : ∃ q, m = finish k q ∧ (∀ i : Fin 15, i.val < 6 → q.upd i = true → Says (f msg.stamp) q i) ∧
      (∀ i : Fin 15, 6 ≤ i.val → q.upd i = a.blank.upd i ∧ q.z i = a.blank.z i) ∧ (msg.frame = k.world → q.upd = a.blank.upd) := by
    rcases ht with ht | ⟨hno, ht⟩
    · obtain ⟨q, e, h1, h2, h3⟩ := preparePose_told k c.frames hkw hkb hb (by rw [hkw]; exact hw) _ _ msg _ source a.blank _ ht m hm
      exact ⟨q, e, fun i hi _ => pose_says hup h1 i hi, h2, h3⟩
    · obtain ⟨q, e, h1, h4, h2, h3⟩ := preparePose_place k c.frames hkw hkb (by rw [hkw]; exact hw) _ _ msg _ source a.blank _ ht m hm
      refine ⟨q, e, fun i hi hu => ?_, h2, h3⟩
      by_cases hi3 : i.val < 3
      · exact h1 i hi3
      · rw [h4 hno i (by omega) hi] at hu
        cases hu
  refine ⟨q, e, fun i hu => ?_, fun i hi => ?_⟩
  · by_cases hi : i.val < 6
    · exact h1 i hi hu
    · obtain ⟨h4, h5⟩ := h2 i (by omega)
      have ha : a.upd i = true := by
        rw [h4] at hu
        exact hu
      refine ⟨0, h5, ?_⟩
      rw [hz i (by omega) ha]
      exact SameVal.rfl' _ _
  · rw [h3 (by rw [hi.1, hkw])]
    exact hi.2

theorem twistPrep_right {n : Node (ekfCore c.par) Q} {k : PrepCtx} (hkb : k.base = c.frames.base) (msg : TwistMsg)
    (hl : k.twoD = true → InPlane (f msg.stamp)) (b : CallbackData)
    (ht : TellsTwist k.buf c.frames msg.frame msg.lin msg.ang (f msg.stamp))
    (ho : ownFrame c.frames.base msg.frame = c.frames.base ∨ k.omega = (f msg.stamp).rate)
    (hz : ∀ i : Fin 15, 12 ≤ i.val → b.upd i = true → (f msg.stamp).vec i = 0)
    (hs : ∀ i : Fin 15, b.upd i = true → 6 ≤ i.val)
    (hr : Rest n (f msg.stamp) fun j => ownFrame c.frames.base msg.frame = c.frames.base ∧ b.upd j = true) :
    Right f n msg.stamp (prepareTwist k msg k.base b.blank) := by
  refine right_of hr hl fun m hm => ?_
  rw [← hkb] at ho
  obtain ⟨q, e, h1, h2, h3⟩ := prepareTwist_told k c.frames hkb msg b.blank _ ht ho m hm
  refine ⟨q, e, fun i hu => ?_, fun i hi => ?_⟩
  · by_cases hi : 6 ≤ i.val ∧ i.val < 12
    · exact h1 i hi.1 hi.2
    · obtain ⟨h4, h5⟩ := h2 i hi
      have ha : b.upd i = true := by
        rw [h4] at hu
        exact hu
      have := hs i ha
      refine ⟨0, h5, ?_⟩
      rw [hz i (by omega) ha]
      exact SameVal.rfl' _ _
  · rw [h3 (by rw [hkb]; exact hi.1)]
    exact hi.2

theorem along_of {cfg : Cfg (ekfCore c.par)} {n : Node (ekfCore c.par) Q} (as : List (Node.Event (ekfCore c.par)))
    (h : ∀ a ∈ as, ∃ topic stamp, ∃ z : Option Payload, a = .sensor topic stamp z ∧ Right f n stamp z) :
    Along cfg (Agrees f cfg) n as := by
  induction as generalizing n with
  | nil => trivial
  | cons a as ih =>
    obtain ⟨topic, stamp, z, rfl, hz⟩ := h a List.mem_cons_self
    refine ⟨hz, ih fun b hb => ?_⟩
    obtain ⟨topic', stamp', z', e, hz'⟩ := h b (List.mem_cons_of_mem _ hb)
    refine ⟨topic', stamp', z', e, ?_⟩
    unfold Right at hz' ⊢
    rw [show (n.step cfg (.sensor topic stamp z)).1.filt = n.filt from Node.sensor_filt n _ _ _]
    exact hz'

theorem kin_turns {y : State} {k : Kin} (h : UpToTurns y k.vec) :
    Body.pose y = k.tf ∧ (kin y).vel = k.vel ∧ (kin y).rate = k.rate ∧ (kin y).acc = k.acc := by
  have hv : ∀ i : Fin 15, i.val ≠ 3 → i.val ≠ 4 → i.val ≠ 5 → y i = k.vec i := by
    intro i h3 h4 h5
    refine (h i).2 fun hi => ?_
    rcases hi with rfl | rfl | rfl
    · exact h3 rfl
    · exact h4 rfl
    · exact h5 rfl
  obtain ⟨a, ha⟩ := (h 3).1 (Or.inl rfl)
  obtain ⟨b, hb⟩ := (h 4).1 (Or.inr (Or.inl rfl))
  obtain ⟨d, hd⟩ := (h 5).1 (Or.inr (Or.inr rfl))
  have ea : y 3 = k.eul 0 + a * (2 * π) := ha
  have eb : y 4 = k.eul 1 + b * (2 * π) := hb
  have ed : y 5 = k.eul 2 + d * (2 * π) := hd
  refine ⟨?_, ?_, ?_, ?_⟩
  · unfold Body.pose Kin.tf
    congr 1
    · unfold rot rotX rotY rotZ
      simp [ea, eb, ed, Real.sin_add_int_mul_two_pi, Real.cos_add_int_mul_two_pi]
    · funext i
      fin_cases i
      · exact hv 0 (by decide) (by decide) (by decide)
      · exact hv 1 (by decide) (by decide) (by decide)
      · exact hv 2 (by decide) (by decide) (by decide)
  · funext i
    fin_cases i
    · exact hv 6 (by decide) (by decide) (by decide)
    · exact hv 7 (by decide) (by decide) (by decide)
    · exact hv 8 (by decide) (by decide) (by decide)
  · funext i
    fin_cases i
    · exact hv 9 (by decide) (by decide) (by decide)
    · exact hv 10 (by decide) (by decide) (by decide)
    · exact hv 11 (by decide) (by decide) (by decide)
  · funext i
    fin_cases i
    · exact hv 12 (by decide) (by decide) (by decide)
    · exact hv 13 (by decide) (by decide) (by decide)
    · exact hv 14 (by decide) (by decide) (by decide)

/-- A motion the motion model integrates exactly turns at one rate. -/
theorem Follows.rate (hf : Follows f) (s t : Int) : (f s).rate = (f t).rate := by
  have h := hf t (s - t)
  rw [show t + (s - t) = s by omega] at h
  have key : ∀ i : Fin 3, (f s).rate i = (f t).rate i := by
    intro i
    fin_cases i
    · exact (h 9).2 (by unfold angular; decide)
    · exact (h 10).2 (by unfold angular; decide)
    · exact (h 11).2 (by unfold angular; decide)
  exact funext key

/-- With a finite estimate the angular velocity the node goes by is the true one. -/
theorem omega_true (hc : ∀ i, c.par.ctlUpd i = false) (hf : Follows f) (hi : (ekfTruth c.par hc f hf).Inv s.hub.node) (stamp : Int)
    (hfin : Finite' s.hub.node) (hr : Rest s.hub.node (f stamp) fun _ => False) (buf : TfBuffer) (junk : State) :
    (s.ctx (ekfView c.par) c.sys buf junk).omega = (f stamp).rate := by
  obtain ⟨x, hx⟩ := hfin
  have e : (s.ctx (ekfView c.par) c.sys buf junk).state = x := by
    show (Option.getD (s.hub.node.filt.x : Option State) junk) = x
    rw [hx]
    rfl
  have hs : (s.ctx (ekfView c.par) c.sys buf junk).omega = (kin x).rate := by
    unfold PrepCtx.omega
    rw [e]
    rfl
  rw [hs]
  cases hin : s.hub.node.filt.initialized with
  | true =>
    have := hi.est hin x hx
    rw [(kin_turns this).2.2.1]
    exact hf.rate _ _
  | false =>
    have : UpToTurns x (f stamp).vec := fun i => hr hin x hx i id
    exact (kin_turns this).2.2.1

theorem rest_weaken {n : Node (ekfCore c.par) Q} {k : Kin} {A B : Fin 15 → Prop} (h : Rest n k A) (hab : ∀ i, A i → B i) : Rest n k B :=
  fun hi x hx i hn => h hi x hx i fun ha => hn (hab i ha)

theorem preparePose_found (k : PrepCtx) (hw : k.world ≠ "") (mem : PoseMem) (last : Int) (msg : PoseMsg) (topic source : String)
    (p : Payload) {t : Tf} (h : lookupTransformSafe k.buf k.world msg.frame (poseLookupTime msg.stamp) = some t) :
    ∃ q, (preparePose k mem last msg topic k.world source false false false p).2 = some q := by
  have e1 : poseFrames k msg.frame k.world false false = (k.world, msg.frame) := by simp [poseFrames, hw]
  unfold preparePose
  simp only [e1, h, poseWith, Bool.false_eq_true, if_false]
  exact ⟨_, rfl⟩

/-- The pose asked for is where the robot stands. -/
theorem asked_true (hw : c.frames.world ≠ "") (now : Int) (hup : HeadUp (f now)) (hl : c.sw.twoD = true → InPlane (f now)) (buf : TfBuffer)
    (hb : SaneBuf buf) (junk : State) (msg : PoseMsg) (ht : TellsPose buf c.frames msg.frame c.frames.base msg.pos msg.ori (f now))
    (hk : buf c.frames.world msg.frame 0 ≠ none ∨ msg.frame = c.frames.world) (hv : (f now).vel = 0) (hr : (f now).rate = 0)
    (ha : (f now).acc = 0) :
    ∃ (x : State) (cov : Mat15), Sys.asked (ekfView c.par) (s.ctx (ekfView c.par) c.sys buf junk) msg = some (some x, cov) ∧
      UpToTurns x (f now).vec := by
  set k := s.ctx (ekfView c.par) c.sys buf junk with hkdef
  obtain ⟨-, T, S, hT, -⟩ := id ht
  obtain ⟨q, hq⟩ := preparePose_found k hw { init := fun _ => none, prev := fun _ => none } msg.stamp msg "set_pose" k.base
    Sys.blankPose (lookup_known hT hk (poseLookupTime msg.stamp))
  refine ⟨fun i => (q.z i).val, q.R, ?_, ?_⟩
  · unfold Sys.asked
    rw [hq]
    rfl
  · obtain ⟨q0, e, h1, h2, -⟩ := preparePose_told k c.frames rfl rfl hb hw _ _ msg _ _ _ _ ht q hq
    intro i
    have hs : Says (f now) q0 i := by
      by_cases hi : i.val < 6
      · exact pose_says hup h1 i hi
      · refine ⟨0, (h2 i (by omega)).2, ?_⟩
        have : (f now).vec i = 0 := by
          unfold Kin.vec
          rw [hv, hr, ha]
          fin_cases i <;> first | rfl | exact absurd (by decide) hi
        rw [this]
        exact SameVal.rfl' _ _
    obtain ⟨v, h3, h4⟩ := says_finish (c := k) hl hs
    rw [← e] at h3
    dsimp only
    rw [h3]
    exact h4

/-- TrueMessage messages are right for the control flow. -/
theorem events_agree (hin : c.inputs.Made) (hc : ∀ i, c.par.ctlUpd i = false) (hw : c.frames.world ≠ "") (hbn : c.frames.base ≠ "")
    (hf : Follows f) (hup : ∀ t, HeadUp (f t)) (hlev : c.sw.twoD = true → ∀ t, InPlane (f t))
    (hi : (ekfTruth c.par hc f hf).Inv s.hub.node) (e : Sys.Ev) (h : TrueMessage c f s e) (hl : NotTooLate c f s e) :
    Along c.cfg (Agrees f c.cfg) s.hub.node (s.events (ekfView c.par) c.sys e) := by
  cases e with
  | odom i buf junk msg =>
    obtain ⟨hb, h⟩ := h
    simp only [Sys.events]
    cases hcd : c.sys.inputs.odomCds[i]? with
    | none => trivial
    | some d =>
      obtain ⟨a, b⟩ := d
      obtain ⟨set, hset, hdata⟩ := hin.odom i _ hcd
      obtain ⟨hlen, hacc, hp, ht⟩ := h set hset
      obtain ⟨ua, ub, -, -, da, ra, ca, sa, sb⟩ := odomData_full hdata hlen
      dsimp only
      split
      · unfold Hub.odomEvents
        set k := s.ctx (ekfView c.par) c.sys buf junk with hk
        have p1 : a.sum > 0 → Right f s.hub.node msg.stamp
            (s.hub.posePrep k msg.asPose a k.world (if a.useChild then msg.child else k.base) false) := by
          intro hs
          obtain ⟨j, hj⟩ := sa.1 hs
          obtain ⟨⟨m1, m2⟩, m3, m4⟩ := hp ⟨j, (ua j).1 hj⟩
          refine posePrep_right hw s.hub rfl rfl hb msg.asPose (hup _) (fun h2 => hlev h2 _) a (by rw [da]; exact m1)
            (by rw [ra, SensorPar.rel, m1, m2]; rfl) _ ?_ (fun i h6 hu => ?_) (rest_weaken m4 fun j hj => ⟨hj.1, (ua j).2 hj.2⟩)
          · rw [ca]
            exact m3.imp id fun h => ⟨fun j h3 h6 => Bool.eq_false_iff.2 fun hj => h.1 j h3 h6 ((ua j).1 hj).2, h.2⟩
          · have := (ua i).1 hu
            exact hacc i (by omega) this.2
        have p2 : b.sum > 0 → Right f s.hub.node msg.stamp (prepareTwist k msg.asTwist k.base b.blank) := by
          intro hs
          obtain ⟨j, hj⟩ := sb.1 hs
          obtain ⟨m1, m2, m3⟩ := ht ⟨j, (ub j).1 hj⟩
          refine twistPrep_right rfl msg.asTwist (fun h2 => hlev h2 _) b m1 ?_ (fun i h12 hu => hacc i h12 ((ub i).1 hu).2)
            (fun i hu => ((ub i).1 hu).1) (rest_weaken m3 fun j hj => ⟨hj.1, (ub j).2 hj.2⟩)
          by_cases hd : ownFrame c.frames.base msg.child = c.frames.base
          · exact Or.inl hd
          · exact Or.inr (omega_true hc hf hi msg.stamp (m2.resolve_left hd) (rest_weaken m3 fun j hj => hd hj.1) buf junk)
        have em : ∀ z : Option Payload, z.map (ekfView c.par).meas = z := fun z => by cases z <;> rfl
        rw [em, em]
        refine along_of (f := f) _ fun x hx => ?_
        rcases List.mem_append.1 hx with hx | hx
        · split at hx
          · rename_i hs
            rw [List.mem_singleton] at hx
            exact ⟨_, _, _, hx, p1 hs⟩
          · cases hx
        · split at hx
          · rename_i hs
            rw [List.mem_singleton] at hx
            exact ⟨_, _, _, hx, p2 hs⟩
          · cases hx
      · trivial
  | pose i buf junk msg =>
    obtain ⟨hb, h⟩ := h
    simp only [Sys.events]
    cases hcd : c.sys.inputs.poseCds[i]? with
    | none => trivial
    | some a =>
      obtain ⟨set, hset, hdata⟩ := hin.pose i _ hcd
      obtain ⟨hlen, hp⟩ := h set hset
      obtain ⟨ua, -, -, da, ra, sa⟩ := poseData_full hdata hlen
      dsimp only
      split
      · rename_i hs
        obtain ⟨j, hj⟩ := sa.1 hs
        obtain ⟨⟨m1, m2⟩, m3, m4⟩ := hp ⟨j, (ua j).1 hj⟩
        set k := s.ctx (ekfView c.par) c.sys buf junk with hk
        have p1 : Right f s.hub.node msg.stamp (s.hub.posePrep k msg a k.world c.frames.base false) :=
          posePrep_right hw s.hub rfl rfl hb msg (hup _) (fun h2 => hlev h2 _) a (by rw [da]; exact m1)
            (by rw [ra, SensorPar.rel, m1, m2]; rfl) _
            (m3.imp id fun h => ⟨fun j h3 h6 => Bool.eq_false_iff.2 fun hj => h.1 j h3 h6 ((ua j).1 hj).2, h.2⟩)
            (fun i h6 hu => absurd ((ua i).1 hu).1 (by omega))
            (rest_weaken m4 fun j hj => ⟨hj.1, (ua j).2 hj.2⟩)
        refine ⟨?_, trivial⟩
        rw [show (s.hub.posePrep k msg a c.sys.frames.world c.sys.frames.base false).map (ekfView c.par).meas =
          s.hub.posePrep k msg a k.world c.frames.base false from by
            show Option.map _ (s.hub.posePrep k msg a k.world c.frames.base false) = _
            cases s.hub.posePrep k msg a k.world c.frames.base false <;> rfl]
        exact p1
      · trivial
  | twist i buf junk msg =>
    obtain ⟨hb, h⟩ := h
    simp only [Sys.events]
    cases hcd : c.sys.inputs.twistCds[i]? with
    | none => trivial
    | some b =>
      obtain ⟨set, hset, hdata⟩ := hin.twist i _ hcd
      obtain ⟨hlen, hacc, ht⟩ := h set hset
      obtain ⟨ub, -, -, sb⟩ := twistData_full hdata hlen
      dsimp only
      split
      · rename_i hs
        obtain ⟨j, hj⟩ := sb.1 hs
        obtain ⟨m1, m2, m3⟩ := ht ⟨j, (ub j).1 hj⟩
        set k := s.ctx (ekfView c.par) c.sys buf junk with hk
        have p2 : Right f s.hub.node msg.stamp (prepareTwist k msg k.base b.blank) := by
          refine twistPrep_right rfl msg (fun h2 => hlev h2 _) b m1 ?_ (fun i h12 hu => hacc i h12 ((ub i).1 hu).2)
            (fun i hu => ((ub i).1 hu).1) (rest_weaken m3 fun j hj => ⟨hj.1, (ub j).2 hj.2⟩)
          by_cases hd : ownFrame c.frames.base msg.frame = c.frames.base
          · exact Or.inl hd
          · exact Or.inr (omega_true hc hf hi msg.stamp (m2.resolve_left hd) (rest_weaken m3 fun j hj => hd hj.1) buf junk)
        refine ⟨?_, trivial⟩
        rw [show (prepareTwist k msg c.sys.frames.base b.blank).map (ekfView c.par).meas = prepareTwist k msg k.base b.blank from by
            show Option.map _ (prepareTwist k msg k.base b.blank) = _
            cases prepareTwist k msg k.base b.blank <;> rfl]
        exact p2
      · trivial
  | imu i buf junk msg =>
    obtain ⟨hb, hfr, h⟩ := h
    simp only [Sys.events]
    cases hcd : c.sys.inputs.imuCds[i]? with
    | none => trivial
    | some d =>
      obtain ⟨a, b, d⟩ := d
      obtain ⟨set, hset, hdata⟩ := hin.imu i _ hcd
      obtain ⟨hlen, hp, ht, ha⟩ := h set hset
      obtain ⟨ua, ub, ud, -, -, da, ra, sa, sb, sd⟩ := imuData_full hdata hlen
      have hdr := imuData_rel hdata
      rw [show c.sys.inputs.imus[i]? = some set from hset]
      dsimp only
      split
      · unfold Hub.imuEvents
        set k := s.ctx (ekfView c.par) c.sys buf junk with hk
        have p1 : a.sum > 0 ∧ ¬ |msg.oriCov 0 + 1| < 1e-9 → Right f s.hub.node msg.stamp
            (s.hub.posePrep k msg.asPose a k.base k.base true) := by
          rintro ⟨hs, hn⟩
          obtain ⟨j, hj⟩ := sa.1 hs
          obtain ⟨⟨m1, m2⟩, ⟨m3, m4⟩, m5⟩ := hp ⟨j, (ua j).1 hj⟩ hn
          refine right_of (k := k) m5 (fun h2 => hlev h2 _) fun m hm => ?_
          unfold Hub.posePrep at hm
          rw [show a.differential = false from by rw [da]; exact m1, show a.relative = false from by rw [ra, SensorPar.rel, m1, m2]; rfl] at hm
          obtain ⟨q, e, h1, h2⟩ := prepareAtt_told k hb hbn _ _ msg.asPose _ _ _ (hup _) hfr m3 m4 m hm
          refine ⟨q, e, fun i hu => ?_, fun i hi => ?_⟩
          · rw [h2] at hu
            have := (ua i).1 hu
            exact h1 i this.1.1 this.1.2
          · rw [h2]
            exact (ua i).2 hi
        have p2 : b.sum > 0 ∧ ¬ |msg.velCov 0 + 1| < 1e-9 → Right f s.hub.node msg.stamp
            (prepareTwist k msg.asTwist k.base b.blank) := by
          rintro ⟨hs, hn⟩
          obtain ⟨j, hj⟩ := sb.1 hs
          obtain ⟨m1, m2⟩ := ht ⟨j, (ub j).1 hj⟩ hn
          refine right_of (k := k) m2 (fun h2 => hlev h2 _) fun m hm => ?_
          obtain ⟨q, e, h1, h2⟩ := prepareRate_told k hb msg.asTwist _ _ hfr (fun _ => rfl) m1 m hm
          refine ⟨q, e, fun i hu => ?_, fun i hi => ?_⟩
          · rw [h2] at hu
            have := (ub i).1 hu
            exact h1 i this.1.1 this.1.2
          · rw [h2]
            exact (ub i).2 hi
        have p3 : d.sum > 0 ∧ ¬ |msg.accCov 0 + 1| < 1e-9 → Right f s.hub.node msg.stamp
            (prepareAcceleration k set.removeGravity msg k.base d.relative d.blank) := by
          rintro ⟨hs, hn⟩
          obtain ⟨j, hj⟩ := sd.1 hs
          obtain ⟨m1, m2, m3⟩ := ha ⟨j, (ud j).1 hj⟩ hn
          refine right_of (k := k) m3 (fun h2 => hlev h2 _) fun m hm => ?_
          rw [show d.relative = false from by rw [hdr, SensorPar.rel, m1]; rfl] at hm
          obtain ⟨q, e, h1, h2⟩ := prepareAcc_told k hb set.removeGravity msg _ _ hfr m2 m hm
          refine ⟨q, e, fun i hu => ?_, fun i hi => ?_⟩
          · rw [h2] at hu
            exact h1 i ((ud i).1 hu).1
          · rw [h2]
            exact (ud i).2 hi
        have em : ∀ z : Option Payload, z.map (ekfView c.par).meas = z := fun z => by cases z <;> rfl
        rw [em, em, em]
        refine along_of (f := f) _ fun x hx => ?_
        rcases List.mem_append.1 hx with hx | hx
        · split at hx
          · rename_i hs
            rw [List.mem_singleton] at hx
            exact ⟨_, _, _, hx, p1 hs⟩
          · cases hx
        · rcases List.mem_append.1 hx with hx | hx
          · split at hx
            · rename_i hs
              rw [List.mem_singleton] at hx
              exact ⟨_, _, _, hx, p2 hs⟩
            · cases hx
          · split at hx
            · rename_i hs
              rw [List.mem_singleton] at hx
              exact ⟨_, _, _, hx, p3 hs⟩
            · cases hx
      · trivial
  | command now u => exact ⟨trivial, trivial⟩
  | setPose now buf junk msg =>
    obtain ⟨hb, h⟩ := h
    refine ⟨fun hin => ?_, trivial⟩
    obtain ⟨h1, h2, h3, h4, h5⟩ := h hin
    exact asked_true hw now (hup _) (fun h2 => hlev h2 _) buf hb junk msg h1 h2 h3 h4 h5
  | reset => exact ⟨trivial, trivial⟩
  | toggle on => exact ⟨trivial, trivial⟩
  | enable => exact ⟨trivial, trivial⟩
  | tick now now2 buf => exact ⟨hl, trivial⟩

theorem Truth.keeps {C : Core} {P : MQueue C} {T : Truth C} {cfg : Cfg C} (es : List (Node.Event C)) : ∀ n : Node C P, T.Inv n →
    Along cfg (T.Fair cfg) n es → T.Inv (n.run cfg es).1 := by
  induction es with
  | nil => intro n h _; exact h
  | cons e es ih =>
    intro n h ha
    exact ih _ (Truth.step h ha.1).1 ha.2

theorem odomMessage_true {t : Int} {y : State} (h : UpToTurns y (f t).vec) (cov : Mat15) :
    TellsTruth c f (.odom t (odomMessage c.frames true y cov t)) := by
  obtain ⟨m, e, h1, h2, h3, -, h4, h5, h6, -⟩ := (C41_odometry c.frames true y cov t).2 rfl
  obtain ⟨k1, k2, k3, -⟩ := kin_turns h
  rw [e]
  exact ⟨h1, h2, h3, h4.trans k1, fun i => by rw [h5, k2], fun i => by rw [h6, k3]⟩

/-- What a step sends is the truth, and the node stays right. -/
theorem step_true (hin : c.inputs.Made) (hc : ∀ i, c.par.ctlUpd i = false) (hw : c.frames.world ≠ "") (hbn : c.frames.base ≠ "")
    (hf : Follows f) (hup : ∀ t, HeadUp (f t)) (hlev : c.sw.twoD = true → ∀ t, InPlane (f t))
    (hi : (ekfTruth c.par hc f hf).Inv s.hub.node) (e : Sys.Ev) (h : TrueMessage c f s e) (hl : NotTooLate c f s e) :
    (ekfTruth c.par hc f hf).Inv (s.step (ekfView c.par) c.sys e).1.hub.node ∧
      ∀ m ∈ (s.step (ekfView c.par) c.sys e).2, TellsTruth c f m := by
  obtain ⟨e1, e2⟩ := s.step_eq (ekfView c.par) c.sys e
  have ha := Along.imp (fun n e => fair_of_agrees hc hf n e) _ _ (events_agree hin hc hw hbn hf hup hlev hi e h hl)
  refine ⟨by rw [e1]; exact Truth.keeps _ _ hi ha, fun m hm => ?_⟩
  rw [e2] at hm
  obtain ⟨o, ho, rfl⟩ := List.mem_map.1 hm
  have out : ∀ t x cov, Out.odom t x cov ∈ (s.hub.node.run c.sys.cfg (s.events (ekfView c.par) c.sys e)).2 →
      (ekfTruth c.par hc f hf).ok t x := Truth.run _ _ hi ha
  cases e with
  | tick now now2 buf =>
    have hrun : (s.hub.node.run c.sys.cfg (s.events (ekfView c.par) c.sys (.tick now now2 buf))).2 =
        (s.hub.node.periodic c.cfg now now2 (Sys.tfDue c.frames buf)).2 := by
      show (s.hub.node.periodic c.cfg now now2 (Sys.tfDue c.frames buf)).2 ++ [] = _
      rw [List.append_nil]
    rw [hrun] at ho out
    unfold Sys.shown
    dsimp only
    cases o with
    | odom t x cov =>
      cases hx : (x : Option State) with
      | none =>
        subst hx
        trivial
      | some y =>
        subst hx
        exact odomMessage_true (out t _ cov ho y rfl) cov
    | tf t =>
      have hod := periodic_outs _ _ _ _ _ _ (Or.inl ho)
      have hok := out _ _ _ hod
      show TellsTruth c f (.tf t (Option.bind ((s.hub.node.advance c.cfg now now2).filt.x : Option State) fun y =>
        (odomMessage c.frames true y (s.hub.node.advance c.cfg now now2).filt.cov t).bind fun m =>
          broadcast c.frames buf c.times.tfOffset m))
      cases hx : ((s.hub.node.advance c.cfg now now2).filt.x : Option State) with
      | none => trivial
      | some y =>
        have hy := hok y hx
        obtain ⟨m, em, h1, h2, h3, -, h4, -⟩ :=
          (C41_odometry c.frames true y (s.hub.node.advance c.cfg now now2).filt.cov t).2 rfl
        rw [Option.bind_some, em, Option.bind_some]
        cases hbm : broadcast c.frames buf c.times.tfOffset m with
        | none => trivial
        | some b =>
          refine ⟨?_, fun hwo => ?_⟩
          · unfold broadcast at hbm
            dsimp only at hbm
            split at hbm
            · injection hbm with hbm
              rw [← hbm, ← h1]
            · split at hbm
              · obtain ⟨u, -, hbm⟩ := Option.map_eq_some_iff.1 hbm
                rw [← hbm, ← h1]
              · cases hbm
          · obtain ⟨b', eb, b1, b2, -, b4⟩ := C42_odom_to_base c.frames buf c.times.tfOffset true y _ t m em hwo
            rw [hbm] at eb
            injection eb with eb
            rw [eb]
            exact ⟨b1, b2, b4.trans (kin_turns hy).1⟩
    | accel t =>
      have hod := periodic_outs _ _ _ _ _ _ (Or.inr ho)
      have hok := out _ _ _ hod
      show TellsTruth c f (.accel t (Option.bind ((s.hub.node.advance c.cfg now now2).filt.x : Option State) fun y =>
        accelMessage c.frames true y (s.hub.node.advance c.cfg now now2).filt.cov t _))
      cases hx : ((s.hub.node.advance c.cfg now now2).filt.x : Option State) with
      | none => trivial
      | some y =>
        have hy := hok y hx
        rw [Option.bind_some]
        obtain ⟨m, em, h1, h2, h3, -⟩ := (C41_acceleration c.frames true y (s.hub.node.advance c.cfg now now2).filt.cov t
          (s.differ (ekfView c.par) now (s.hub.node.advance c.cfg now now2))).2 rfl
        have e' : TellsTruth c f (.accel t (some m)) := ⟨h1, h2, h3.trans (kin_turns hy).2.2.2⟩
        rw [← em] at e'
        exact e'
  | _ => cases o <;> trivial

/-! ## Messages that are never late -/

/-- No pending measurement is older than the estimate, and the estimate is not from the future. -/
structure Ahead (cfg : Cfg (ekfCore c.par)) (k : Int) (n : Node (ekfCore c.par) Q) : Prop where
  hist : HInv cfg k n
  queue : ∀ m ∈ Q.elems n.queue, n.filt.lastTime ≤ m.time
  on : n.toggledOn = true

theorem Ahead.sensor {cfg : Cfg (ekfCore c.par)} {k : Int} {n : Node (ekfCore c.par) Q} (h : Ahead cfg k n) (hk : 0 ≤ k) (topic : String)
    (stamp : Int) (z : Option (ekfCore c.par).Z) (hs : k ≤ stamp) : Ahead cfg k (n.sensor topic stamp z) := by
  refine ⟨h.hist.step hk (.sensor topic stamp z) trivial, fun m hm => ?_, ?_⟩
  · rw [Node.sensor_filt]
    rcases sensor_mem hm with hm | ⟨_, -, -, -, hm⟩
    · exact h.queue m hm
    · rw [hm]
      exact h.hist.clock.trans hs
  · rw [(n.sensor_spec topic stamp z []).2.2.2.2.2.2.1]
    exact h.on

theorem Ahead.sensors {cfg : Cfg (ekfCore c.par)} {k : Int} (hk : 0 ≤ k) (es : List (Node.Event (ekfCore c.par))) :
    ∀ n : Node (ekfCore c.par) Q, Ahead cfg k n → (∀ e ∈ es, ∃ topic stamp z, e = .sensor topic stamp z ∧ k ≤ stamp) →
    Ahead cfg k (n.run cfg es).1 := by
  induction es with
  | nil => intro n h _; exact h
  | cons e es ih =>
    intro n h he
    obtain ⟨topic, stamp, z, rfl, hs⟩ := he e List.mem_cons_self
    exact ih _ (h.sensor hk topic stamp z hs) fun e' he' => he e' (List.mem_cons_of_mem _ he')

theorem Ahead.tick {cfg : Cfg (ekfCore c.par)} {k now now2 : Int} {n : Node (ekfCore c.par) Q} (h : Ahead cfg k n) (hk : 0 ≤ k)
    (h1 : k ≤ now) (h2 : now ≤ now2) (tfOk : Bool) : Ahead cfg now2 (n.periodic cfg now now2 tfOk).1 := by
  refine ⟨h.hist.periodic h1 h2 tfOk, ?_, by rw [(Node.periodic_inputs cfg n now now2 tfOk).toggledOn]; exact h.on⟩
  by_cases he : n.enabled = true
  · have hi : HInv cfg now (n.integrate cfg now) := (h.hist.mono h1).integrate
    have ha : n.advance cfg now now2 = n.integrate cfg now := by
      unfold Node.advance
      rw [if_pos h.on]
    have key : ∀ m ∈ Q.elems (n.integrate cfg now).queue, (n.integrate cfg now).filt.lastTime ≤ m.time := by
      intro m hm
      cases ht : Q.top n.queue with
      | some first =>
        have hq : ∃ r : Node (ekfCore c.par) Q × Int, (n.integrate cfg now).queue = (Node.drain cfg now (Q.size r.1.queue) r.2 r.1).queue := by
          refine ⟨if cfg.smooth && decide (first.time < n.filt.lastTime) then
            ((n.revertTo (first.time - 1)).1, (Q.size (n.revertTo (first.time - 1)).1.queue : Int) - (Q.size n.queue : Int)) else (n, 0), ?_⟩
          unfold Node.integrate
          rw [ht]
          dsimp only
          generalize (if (cfg.smooth && decide (first.time < n.filt.lastTime)) = true then
            ((n.revertTo (first.time - 1)).1, (Q.size (n.revertTo (first.time - 1)).1.queue : Int) - (Q.size n.queue : Int)) else (n, 0)) = r
          split <;> rfl
        obtain ⟨r, hq⟩ := hq
        rw [hq] at hm
        have := Node.drain_left cfg now _ r.2 r.1 (Nat.le_refl _) m hm
        exact hi.clock.trans (by omega)
      | none =>
        have hq : (n.integrate cfg now).queue = n.queue := by
          unfold Node.integrate
          rw [ht]
          dsimp only
          split <;> rfl
        rw [hq, (Q.top_none _).1 ht] at hm
        exact absurd hm (Multiset.notMem_zero m)
    obtain ⟨p, hp⟩ := Node.periodic_enabled cfg n now now2 tfOk he
    rw [hp, ha]
    split <;> exact key
  · rw [Node.periodic_disabled cfg n now now2 tfOk (by simpa using he)]
    exact h.queue

/-- A step that is in time keeps the node ahead; `e :: es` is what is still to come. -/
theorem Ahead.next {k : Int} (h : Ahead c.cfg k s.hub.node) (hk : 0 ≤ k) (e : Sys.Ev) (es : List Sys.Ev) (ht : Timely k (e :: es)) :
    ∃ k', 0 ≤ k' ∧ Ahead c.cfg k' (s.step (ekfView c.par) c.sys e).1.hub.node ∧ Timely k' es := by
  rw [(s.step_eq (ekfView c.par) c.sys e).1]
  cases e with
  | odom i buf junk msg =>
    refine ⟨k, hk, Ahead.sensors hk _ _ h ?_, ht.2⟩
    intro x hx
    simp only [Sys.events] at hx
    split at hx
    · split at hx
      · unfold Hub.odomEvents at hx
        rcases List.mem_append.1 hx with hx | hx <;>
        · split at hx
          · rw [List.mem_singleton] at hx
            exact ⟨_, _, _, hx, ht.1⟩
          · cases hx
      · cases hx
    · cases hx
  | pose i buf junk msg =>
    refine ⟨k, hk, Ahead.sensors hk _ _ h ?_, ht.2⟩
    intro x hx
    simp only [Sys.events] at hx
    split at hx
    · split at hx
      · rw [List.mem_singleton] at hx
        exact ⟨_, _, _, hx, ht.1⟩
      · cases hx
    · cases hx
  | twist i buf junk msg =>
    refine ⟨k, hk, Ahead.sensors hk _ _ h ?_, ht.2⟩
    intro x hx
    simp only [Sys.events] at hx
    split at hx
    · split at hx
      · rw [List.mem_singleton] at hx
        exact ⟨_, _, _, hx, ht.1⟩
      · cases hx
    · cases hx
  | imu i buf junk msg =>
    refine ⟨k, hk, Ahead.sensors hk _ _ h ?_, ht.2⟩
    intro x hx
    simp only [Sys.events] at hx
    split at hx
    · split at hx
      · unfold Hub.imuEvents at hx
        have one : ∀ (p : Prop) [Decidable p] (a : Node.Event (ekfCore c.par)), x ∈ (if p then [a] else []) → x = a := by
          intro p _ a hx
          split at hx
          · exact List.mem_singleton.1 hx
          · cases hx
        rcases List.mem_append.1 hx with hx | hx
        · exact ⟨_, _, _, one _ _ hx, ht.1⟩
        · rcases List.mem_append.1 hx with hx | hx
          · exact ⟨_, _, _, one _ _ hx, ht.1⟩
          · exact ⟨_, _, _, one _ _ hx, ht.1⟩
      · cases hx
    · cases hx
  | command now u =>
    refine ⟨k, hk, ⟨h.hist.step hk (.control _ now) trivial, ?_, ?_⟩, ht⟩
    · show ∀ m ∈ Q.elems (s.hub.node.control c.cfg _ now).queue, (s.hub.node.control c.cfg _ now).filt.lastTime ≤ m.time
      unfold Node.control
      split <;> exact h.queue
    · show (s.hub.node.control c.cfg _ now).toggledOn = true
      unfold Node.control
      split <;> exact h.on
  | setPose now buf junk msg =>
    refine ⟨now, hk.trans ht.1, ⟨h.hist.step hk (.setPose msg.stamp now _) ⟨ht.1, trivial⟩, ?_, h.on⟩, ht.2⟩
    intro m hm
    have hm : m ∈ Q.elems Q.empty := hm
    rw [Q.elems_empty] at hm
    exact absurd hm (Multiset.notMem_zero m)
  | reset =>
    refine ⟨k, hk, ⟨h.hist.step hk .reset trivial, ?_, h.on⟩, ht⟩
    intro m hm
    have hm : m ∈ Q.elems Q.empty := hm
    rw [Q.elems_empty] at hm
    exact absurd hm (Multiset.notMem_zero m)
  | toggle on =>
    have e : (s.hub.node.toggle on).1 = s.hub.node := by
      unfold Node.toggle
      rw [if_pos (ht.1.trans h.on.symm)]
    refine ⟨k, hk, ?_, ht.2⟩
    show Ahead c.cfg k (s.hub.node.toggle on).1
    rw [e]
    exact h
  | enable =>
    refine ⟨k, hk, ⟨h.hist.step hk .enable trivial, ?_, ?_⟩, ht⟩
    · exact h.queue
    · exact h.on
  | tick now now2 buf => exact ⟨now2, (hk.trans ht.1).trans ht.2.1, h.tick hk ht.1 ht.2.1 _, ht.2.2⟩

theorem run_true (hin : c.inputs.Made) (hc : ∀ i, c.par.ctlUpd i = false) (hw : c.frames.world ≠ "") (hbn : c.frames.base ≠ "")
    (hf : Follows f) (hup : ∀ t, HeadUp (f t)) (hlev : c.sw.twoD = true → ∀ t, InPlane (f t)) (es : List Sys.Ev) :
    ∀ s : Sys (ekfCore c.par) Q, (ekfTruth c.par hc f hf).Inv s.hub.node →
    s.Holds (ekfView c.par) c.sys (fun s e => TrueMessage c f s e ∧ NotTooLate c f s e) es →
    ∀ m ∈ (s.run (ekfView c.par) c.sys es).2, TellsTruth c f m := by
  induction es with
  | nil => intro s _ _ m hm; cases hm
  | cons e es ih =>
    intro s hi ha m hm
    obtain ⟨h1, h2⟩ := step_true hin hc hw hbn hf hup hlev hi e ha.1.1 ha.1.2
    have hm : m ∈ (s.step (ekfView c.par) c.sys e).2 ++ ((s.step (ekfView c.par) c.sys e).1.run (ekfView c.par) c.sys es).2 := hm
    rcases List.mem_append.1 hm with hm | hm
    · exact h2 m hm
    · exact ih _ h1 ha.2 m hm

theorem timely_holds (es : List Sys.Ev) : ∀ (k : Int) (s : Sys (ekfCore c.par) Q), 0 ≤ k → Ahead c.cfg k s.hub.node → Timely k es →
    s.Holds (ekfView c.par) c.sys (TrueMessage c f) es →
    s.Holds (ekfView c.par) c.sys (fun s e => TrueMessage c f s e ∧ NotTooLate c f s e) es := by
  induction es with
  | nil => intro k s _ _ _ _; trivial
  | cons e es ih =>
    intro k s hk h ht ha
    obtain ⟨k', hk', h', ht'⟩ := h.next hk e es ht
    refine ⟨⟨ha.1, ?_⟩, ih k' _ hk' h' ht' ha.2⟩
    cases e with
    | tick now now2 buf => exact Or.inr ⟨h.on, fun _ m hm => Or.inl (h.queue m hm)⟩
    | _ => trivial

end Step

/-- C117: from the parameters and the messages to the messages.  A node without control gets messages that tell the truth
about a motion its motion model integrates exactly; at each cycle the pending measurements are not too late (see C97).  Then
everything it sends is true, whatever the covariances, thresholds and settings. -/
theorem C117_honest_partial {o : Given} {c : NodeConf} (h : loadNode o = some c) (hu : ¬ o.On "use_control")
    (hw : c.frames.world ≠ "") (hb : c.frames.base ≠ "") (Q : MQueue (ekfCore c.par)) (f : Int → Kin) (hf : Follows f)
    (hup : ∀ t, HeadUp (f t)) (hlev : o.On "two_d_mode" → ∀ t, InPlane (f t)) (ctl0 : Fin 6 → ℝ) (now : Int) (d : Differ)
    (es : List Sys.Ev) (ha : (Sys.start c.sys Q () ctl0 now d).Holds (ekfView c.par) c.sys
      (fun s e => TrueMessage c f s e ∧ NotTooLate c f s e) es) :
    ∀ m ∈ ((Sys.start c.sys Q () ctl0 now d).run (ekfView c.par) c.sys es).2, TellsTruth c f m := by
  obtain ⟨h1, h2⟩ := loadNode_plain h hu
  exact run_true h1 h2 hw hb hf hup (fun ht => hlev ((C102_settings_partial h).sw.twoD.1 ht)) es _
    (Truth.start c.cfg Q () ctl0 now) ha

/-- C117: no message is older than the last cycle when it arrives. -/
theorem C117_timely {o : Given} {c : NodeConf} (h : loadNode o = some c) (hu : ¬ o.On "use_control")
    (hw : c.frames.world ≠ "") (hb : c.frames.base ≠ "") (Q : MQueue (ekfCore c.par)) (f : Int → Kin) (hf : Follows f)
    (hup : ∀ t, HeadUp (f t)) (hlev : o.On "two_d_mode" → ∀ t, InPlane (f t)) (ctl0 : Fin 6 → ℝ) (now : Int) (hn : 0 ≤ now) (d : Differ)
    (es : List Sys.Ev) (ht : Timely now es)
    (ha : (Sys.start c.sys Q () ctl0 now d).Holds (ekfView c.par) c.sys (TrueMessage c f) es) :
    ∀ m ∈ ((Sys.start c.sys Q () ctl0 now d).run (ekfView c.par) c.sys es).2, TellsTruth c f m := by
  refine C117_honest_partial h hu hw hb Q f hf hup hlev ctl0 now d es (timely_holds es now _ hn ⟨HInv.start c.cfg Q () ctl0 now, ?_, rfl⟩ ht ha)
  intro m hm
  have hm : m ∈ Q.elems Q.empty := hm
  rw [Q.elems_empty] at hm
  exact absurd hm (Multiset.notMem_zero m)

end RL
