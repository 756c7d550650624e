import Verif.Props.HeadingMsg
import Verif.Props.SystemPlane
import Verif.Props.MirrorNode
import Verif.Props.BetterMessages
import Verif.Props.Arrival
/-! # C151: how a sensor is turned on the robot does not matter -/

namespace RL
open Matrix

/-- The rotation `S` of two vectors at once. -/
def twice (S : M3) : M6 := Matrix.reindex finSumFinEquiv finSumFinEquiv (Matrix.fromBlocks S 0 0 S)

/-- The velocities of `m` as a sensor reports them that is turned by `S` against that of `m`. -/
structure TwistMsg.Turned (S : M3) (m m' : TwistMsg) : Prop where
  stamp : m'.stamp = m.stamp
  lin : ∃ v : V3, m.lin = (fun i => .fin (v i)) ∧ m'.lin = fun i => .fin (Sᵀ.mulVec v i)
  ang : ∃ v : V3, m.ang = (fun i => .fin (v i)) ∧ m'.ang = fun i => .fin (Sᵀ.mulVec v i)
  cov : msgCov m'.cov = (twice S)ᵀ * msgCov m.cov * twice S

/-- The rates and accelerations of `m` as an IMU reports them that is turned by `S` against that of `m`; it declares the
same fields absent. -/
structure ImuMsg.Turned (S : M3) (m m' : ImuMsg) : Prop where
  stamp : m'.stamp = m.stamp
  vel : ∃ v : V3, m.vel = (fun i => .fin (v i)) ∧ m'.vel = fun i => .fin (Sᵀ.mulVec v i)
  acc : m'.acc = Sᵀ.mulVec m.acc
  velCov : msgCov3 m'.velCov = Sᵀ * msgCov3 m.velCov * S
  accCov : msgCov3 m'.accCov = Sᵀ * msgCov3 m.accCov * S
  noVel : |m'.velCov 0 + 1| < 1e-9 ↔ |m.velCov 0 + 1| < 1e-9
  noAcc : |m'.accCov 0 + 1| < 1e-9 ↔ |m.accCov 0 + 1| < 1e-9

/-- The place `t` on the robot, turned by `S`, in two buffers. -/
structure TurnedFrame (S : M3) (t : Tf) (base : String) (buf buf' : TfBuffer) (frame frame' : String) (stamp : Int) : Prop where
  rot : IsRot S
  named : frame ≠ "" ∧ frame' ≠ ""
  mount : IsRot t.rot
  known : buf base frame stamp = some t
  known' : buf' base frame' stamp = some ⟨t.rot * S, t.org⟩

/-- A rotation about the vertical. -/
def Vertical (r : M3) : Prop := r 0 2 = 0 ∧ r 1 2 = 0 ∧ r 2 0 = 0 ∧ r 2 1 = 0

/-- All or none of three axes are selected; for a sensor that stands upright before and after it is turned, both or none of the
first two. -/
def CallbackData.AllAxes (cd : CallbackData) (off : ℕ) (h : off + 2 < 15) (S : M3) (t : Tf) : Prop :=
  cd.upd ⟨off, by omega⟩ = cd.upd ⟨off + 1, by omega⟩ ∧
    (cd.upd ⟨off + 1, by omega⟩ = cd.upd ⟨off + 2, by omega⟩ ∨ Vertical S ∧ Vertical t.rot)

/-- Two robots of which all happens to the second that happens to the first, except that sensors of velocities, rates and
accelerations may be turned, with other frame names.  Of those, all or none of the velocities, of the rates and of the
accelerations are selected, of upright ones both or none of the horizontal ones; odometry of those is not used for poses, IMUs of those are not used for orientations and do not
remove gravity. -/
inductive Sys.Ev.Remounted (base : String) (n : Inputs) : Sys.Ev → Sys.Ev → Prop
  | same (e : Sys.Ev) : Remounted base n e e
  | odom (i : ℕ) (buf buf' : TfBuffer) (junk : State) (m m' : OdomMsg) (S : M3) (t : Tf)
      (hn : ∀ a b : CallbackData, n.odomCds[i]? = some (a, b) → a.sum = 0 ∧ b.AllAxes 6 (by omega) S t ∧ b.AllAxes 9 (by omega) S t)
      (hf : TurnedFrame S t base buf buf' m.child m'.child m.stamp) (h : m.asTwist.Turned S m'.asTwist) :
      Remounted base n (.odom i buf junk m) (.odom i buf' junk m')
  | twist (i : ℕ) (buf buf' : TfBuffer) (junk : State) (m m' : TwistMsg) (S : M3) (t : Tf)
      (hn : ∀ b : CallbackData, n.twistCds[i]? = some b → b.AllAxes 6 (by omega) S t ∧ b.AllAxes 9 (by omega) S t)
      (hf : TurnedFrame S t base buf buf' m.frame m'.frame m.stamp) (h : m.Turned S m') :
      Remounted base n (.twist i buf junk m) (.twist i buf' junk m')
  | imu (i : ℕ) (buf buf' : TfBuffer) (junk : State) (m m' : ImuMsg) (S : M3) (t : Tf)
      (hn : ∀ a b d : CallbackData, n.imuCds[i]? = some (a, b, d) → a.sum = 0 ∧ b.AllAxes 6 (by omega) S t ∧ b.AllAxes 9 (by omega) S t ∧
        d.AllAxes 12 (by omega) S t)
      (hg : ∀ set : SensorSet, n.imus[i]? = some set → set.removeGravity = false)
      (hf : TurnedFrame S t base buf buf' m.frame m'.frame m.stamp) (h : m.Turned S m') :
      Remounted base n (.imu i buf junk m) (.imu i buf' junk m')

theorem rot6d_twice (S : M3) : rot6d S = twice S := by
  ext i j
  fin_cases i <;> fin_cases j <;> rfl

theorem turned_back {S : M3} (hS : IsRot S) (r : M3) (C : M3) : r * S * (Sᵀ * C * S) * (r * S)ᵀ = r * C * rᵀ := by
  rw [transpose_mul]
  calc r * S * (Sᵀ * C * S) * (Sᵀ * rᵀ) = r * (S * Sᵀ) * C * (S * Sᵀ) * rᵀ := by simp only [Matrix.mul_assoc]
    _ = r * C * rᵀ := by rw [hS.1, Matrix.mul_one, Matrix.mul_one]

theorem turned_back6 {S : M3} (hS : IsRot S) (r : M3) (C : M6) :
    rot6d (r * S) * ((rot6d S)ᵀ * C * rot6d S) * (rot6d (r * S))ᵀ = rot6d r * C * (rot6d r)ᵀ := by
  have e : rot6d S * (rot6d S)ᵀ = 1 := by rw [rot6d_transpose, rot6d_mul, hS.1, rot6d_one]
  rw [← rot6d_mul, transpose_mul]
  calc rot6d r * rot6d S * ((rot6d S)ᵀ * C * rot6d S) * ((rot6d S)ᵀ * (rot6d r)ᵀ)
      = rot6d r * (rot6d S * (rot6d S)ᵀ) * C * (rot6d S * (rot6d S)ᵀ) * (rot6d r)ᵀ := by simp only [Matrix.mul_assoc]
    _ = rot6d r * C * (rot6d r)ᵀ := by rw [e, Matrix.mul_one, Matrix.mul_one]

theorem turned_vec {S : M3} (hS : IsRot S) (r : M3) (v : V3) : (r * S).mulVec (Sᵀ.mulVec v) = r.mulVec v := by
  rw [mulVec_mulVec, Matrix.mul_assoc, hS.1, Matrix.mul_one]

theorem turned_read {S : M3} (hS : IsRot S) (r : M3) {l l' : Fin 3 → Dbl}
    (h : ∃ v : V3, l = (fun i => .fin (v i)) ∧ l' = fun i => .fin (Sᵀ.mulVec v i)) : mulDbl (r * S) l' = mulDbl r l := by
  obtain ⟨v, rfl, rfl⟩ := h
  funext i
  rw [mulDbl_fin, mulDbl_fin, turned_vec hS]

theorem vertical_mul {r S : M3} (hr : Vertical r) (hS : Vertical S) : Vertical (r * S) := by
  obtain ⟨a, b, c, d⟩ := hr
  obtain ⟨a', b', c', d'⟩ := hS
  refine ⟨?_, ?_, ?_, ?_⟩ <;> rw [Matrix.mul_apply, Fin.sum_univ_three] <;> simp [*]

theorem mask_vertical {r : M3} (hr : IsRot r) (hv : Vertical r) {u : Fin 3 → Bool} (h : u 0 = u 1) (i : Fin 3) :
    maskAxes r u i = u i := by
  obtain ⟨a, b, c, d⟩ := hv
  have e : ∀ i, r i 0 ^ 2 + r i 1 ^ 2 + r i 2 ^ 2 = 1 := fun i => by
    have : (r * rᵀ) i i = 1 := by rw [hr.1, Matrix.one_apply_eq]
    rw [Matrix.mul_apply, Fin.sum_univ_three] at this
    simpa [sq] using this
  have key : (∑ j, if u j then r i j ^ 2 else 0) = if u i then 1 else 0 := by
    rw [← e i, Fin.sum_univ_three]
    fin_cases i
    · simp [a, ← h]
      split <;> ring
    · simp [b, ← h]
      split <;> ring
    · simp [c, d]
  have m := maskAxes_eq r u i
  rw [key] at m
  cases hu : u i
  · rw [hu] at m
    refine Bool.eq_false_iff.mpr fun h => ?_
    have := m.mp h
    norm_num at this
  · rw [hu] at m
    refine m.mpr ?_
    norm_num

theorem turned_mask {S : M3} {t : Tf} (hS : IsRot S) (ht : IsRot t.rot) {cd : CallbackData} {off : ℕ} {ho : off + 2 < 15}
    (h : cd.AllAxes off ho S t) :
    maskAxes (t.rot * S) (fun i => cd.blank.upd (axis off ho i)) = maskAxes t.rot (fun i => cd.blank.upd (axis off ho i)) := by
  obtain ⟨h0, h1 | ⟨h1, h2⟩⟩ := h
  · exact maskAxes_same (ht.mul hS) ht h0 h1
  · funext i
    rw [mask_vertical (ht.mul hS) (vertical_mul h2 h1) h0, mask_vertical ht h2 h0]

/-- What is made of the velocities does not depend on how the sensor is turned. -/
theorem twist_turned {c c' : PrepCtx} (hcc : c' = { c with buf := c'.buf }) {m m' : TwistMsg} {S : M3} {t : Tf} {target : String}
    (hf : TurnedFrame S t target c.buf c'.buf m.frame m'.frame m.stamp) (hs : m'.stamp = m.stamp)
    (hl : ∃ v : V3, m.lin = (fun i => .fin (v i)) ∧ m'.lin = fun i => .fin (Sᵀ.mulVec v i))
    (ha : ∃ v : V3, m.ang = (fun i => .fin (v i)) ∧ m'.ang = fun i => .fin (Sᵀ.mulVec v i))
    (hR : ∀ r : M3, putBlock 6 6 0 (rot6d (r * S) * msgCov m'.cov * (rot6d (r * S))ᵀ) =
      putBlock 6 6 0 (rot6d r * msgCov m.cov * (rot6d r)ᵀ)) {cd : CallbackData} (h6 : cd.AllAxes 6 (by omega) S t) (h9 : cd.AllAxes 9 (by omega) S t) :
    prepareTwist c' m' target cd.blank = prepareTwist c m target cd.blank := by
  obtain ⟨hS, ⟨n, n'⟩, ht, b, b'⟩ := hf
  have om : c'.omega = c.omega := by rw [hcc]; rfl
  have td : c'.twoD = c.twoD := by rw [hcc]
  unfold prepareTwist
  rw [if_neg n, if_neg n', hs]
  unfold lookupTransformSafe
  rw [b, b']
  simp only [Option.map_some, twistPayload, finish, td, om, turned_read hS t.rot hl, turned_read hS t.rot ha, turned_mask hS ht h6,
    turned_mask hS ht h9, (C43_matrix_to_quaternion ht).2, (C43_matrix_to_quaternion (ht.mul hS)).2, copyCov6_eq]
  have e := hR t.rot
  change putBlock 6 6 cd.blank.R _ = putBlock 6 6 cd.blank.R _ at e
  rw [e]

theorem accel_turned {c c' : PrepCtx} (hcc : c' = { c with buf := c'.buf }) {m m' : ImuMsg} {S : M3} {t : Tf} {target : String}
    (hf : TurnedFrame S t target c.buf c'.buf m.frame m'.frame m.stamp) (h : m.Turned S m') {cd : CallbackData}
    (h12 : cd.AllAxes 12 (by omega) S t) (rel : Bool) :
    prepareAcceleration c' false m' target rel cd.blank = prepareAcceleration c false m target rel cd.blank := by
  obtain ⟨hS, ⟨n, n'⟩, ht, b, b'⟩ := hf
  have om : c'.omega = c.omega := by rw [hcc]; rfl
  have td : c'.twoD = c.twoD := by rw [hcc]
  have aa : c'.angAcc = c.angAcc := by rw [hcc]
  unfold prepareAcceleration
  rw [if_neg n, if_neg n', h.stamp]
  unfold lookupTransformSafe
  rw [b, b']
  simp only [Option.map_some, accelPayload, finish, td, om, aa, Bool.false_eq_true, if_false, h.acc, turned_vec hS, turned_mask hS ht h12,
    (C43_matrix_to_quaternion ht).2, (C43_matrix_to_quaternion (ht.mul hS)).2, copyCov3_eq, h.accCov, turned_back hS]

variable {C : Core} {P : MQueue C}

theorem step_remounted (V : View C) {g : SysCfg C} (s : Sys C P) {e e' : Sys.Ev}
    (h : e.Remounted g.frames.base g.inputs e') : s.step V g e' = s.step V g e := by
  cases h with
  | same => rfl
  | odom i buf buf' junk m m' S t hn hf h =>
    simp only [Sys.step]
    cases hcd : g.inputs.odomCds[i]? with
    | none => rfl
    | some ab =>
      obtain ⟨a, b⟩ := ab
      obtain ⟨ha, h6, h9⟩ := hn a b hcd
      have na : ¬ a.sum > 0 := by omega
      have hR : ∀ r : M3, putBlock 6 6 0 (rot6d (r * S) * msgCov m'.asTwist.cov * (rot6d (r * S))ᵀ) =
          putBlock 6 6 0 (rot6d r * msgCov m.asTwist.cov * (rot6d r)ᵀ) := fun r => by
        rw [h.cov, ← rot6d_twice, turned_back6 hf.rot]
      have e1 := twist_turned (c := s.ctx V g buf junk) (c' := s.ctx V g buf' junk) rfl (m := m.asTwist) (m' := m'.asTwist)
        hf h.stamp h.lin h.ang hR h6 h9
      have hs : m'.stamp = m.stamp := h.stamp
      simp only [OdomMsg.asTwist, hs] at e1
      have b1 : (s.ctx V g buf' junk).base = g.frames.base := rfl
      have b2 : (s.ctx V g buf junk).base = g.frames.base := rfl
      simp only [Hub.odomCallback, Hub.twistCallback, if_neg na, hs, b1, b2, e1]
  | twist i buf buf' junk m m' S t hn hf h =>
    simp only [Sys.step]
    cases hcd : g.inputs.twistCds[i]? with
    | none => rfl
    | some b =>
      obtain ⟨h6, h9⟩ := hn b hcd
      have hR : ∀ r : M3, putBlock 6 6 0 (rot6d (r * S) * msgCov m'.cov * (rot6d (r * S))ᵀ) =
          putBlock 6 6 0 (rot6d r * msgCov m.cov * (rot6d r)ᵀ) := fun r => by
        rw [h.cov, ← rot6d_twice, turned_back6 hf.rot]
      have := twist_turned (c := s.ctx V g buf junk) (c' := s.ctx V g buf' junk) rfl hf h.stamp h.lin h.ang hR h6 h9
      simp only [Hub.twistCallback, this, h.stamp]
  | imu i buf buf' junk m m' S t hn hg hf h =>
    simp only [Sys.step]
    cases hcd : g.inputs.imuCds[i]? with
    | none => rfl
    | some abd =>
      obtain ⟨a, b, d⟩ := abd
      obtain ⟨ha, h6, h9, h12⟩ := hn a b d hcd
      cases hset : g.inputs.imus[i]? with
      | none => rfl
      | some set =>
        have na : ∀ q : Prop, ¬ (a.sum > 0 ∧ q) := fun q h => by omega
        have hR : ∀ r : M3, putBlock 6 6 0 (rot6d (r * S) * msgCov (angularCov m'.velCov) * (rot6d (r * S))ᵀ) =
            putBlock 6 6 0 (rot6d r * msgCov (angularCov m.velCov) * (rot6d r)ᵀ) := fun r => by
          rw [angular_block, angular_block, h.velCov, turned_back hf.rot]
        have e1 := twist_turned (c := s.ctx V g buf junk) (c' := s.ctx V g buf' junk) rfl (m := m.asTwist) (m' := m'.asTwist)
          hf h.stamp ⟨0, rfl, by rw [mulVec_zero]; rfl⟩ h.vel hR h6 h9
        have e2 := accel_turned (c := s.ctx V g buf junk) (c' := s.ctx V g buf' junk) rfl hf h h12 d.relative
        simp only [ImuMsg.asTwist, h.stamp] at e1
        have b1 : (s.ctx V g buf' junk).base = g.frames.base := rfl
        have b2 : (s.ctx V g buf junk).base = g.frames.base := rfl
        simp only [Hub.imuCallback, Hub.twistCallback, Hub.accelCallback, if_neg (na _), h.stamp, h.noVel, h.noAcc, hg set hset,
          b1, b2, e1, e2]

/-- C151: two robots with any filter, of which the second has its sensors of velocities, rates and accelerations turned in any
way, in the same places; the sensors report what they measure, and its covariances, in their own directions, and all or
none of three axes of a turned sensor are selected, or, for sensors that stand upright, both or none of the horizontal ones.  Then the nodes do and send exactly the same. -/
theorem C151_turned (V : View C) (g : SysCfg C) {es es' : List Sys.Ev}
    (h : List.Forall₂ (Sys.Ev.Remounted g.frames.base g.inputs) es es') : ∀ s : Sys C P, s.run V g es' = s.run V g es := by
  induction h with
  | nil => exact fun _ => rfl
  | cons he _ ih =>
    intro s
    show (_, _) = (_, _)
    rw [step_remounted V s he, ih]

/-- A sensor turned by a quarter turn to the left. -/
def leftTurn : M3 := !![0, -1, 0; 1, 0, 0; 0, 0, 1]

theorem leftTurn_rot : IsRot leftTurn := by
  refine ⟨?_, ?_⟩
  · ext i j
    fin_cases i <;> fin_cases j <;> simp [leftTurn, Matrix.mul_apply, Fin.sum_univ_three]
  · simp [leftTurn, Matrix.det_fin_three]

/-- Non-vacuity: a radar looking to the left of the robot, which sees the robot's forward speed as a speed to its right, in place
of one looking forward. -/
example (s : Sys (ekfCore plainPar) (PQueue.sortedList _ _)) :
    s.run (ekfView plainPar) slideCfg
      [.twist 0 (fun _ _ _ => some ⟨leftTurn, ![1, 2, 0]⟩) 0 ⟨"left", 1, ![.fin 2, .fin (-1), .fin 0], ![.fin 0, .fin 0, .fin 3], evenCov 1⟩,
        .tick 3 3 (fun _ _ _ => none)] =
    s.run (ekfView plainPar) slideCfg
      [.twist 0 (fun _ _ _ => some ⟨1, ![1, 2, 0]⟩) 0 ⟨"front", 1, ![.fin 1, .fin 2, .fin 0], ![.fin 0, .fin 0, .fin 3], evenCov 1⟩,
        .tick 3 3 (fun _ _ _ => none)] := by
  refine C151_turned (ekfView plainPar) slideCfg (.cons (.twist _ _ _ _ _ _ leftTurn ⟨1, ![1, 2, 0]⟩ ?_ ?_ ?_) (.cons (.same _) .nil)) s
  · intro b h
    have : b = slideCd := by simpa [slideCfg] using h.symm
    subst this
    have v : Vertical leftTurn ∧ Vertical (1 : M3) := by
      refine ⟨⟨?_, ?_, ?_, ?_⟩, ?_, ?_, ?_, ?_⟩ <;> simp [leftTurn]
    exact ⟨⟨rfl, Or.inr v⟩, ⟨rfl, Or.inr v⟩⟩
  · exact ⟨leftTurn_rot, ⟨by decide, by decide⟩, IsRot.one, rfl, by rw [Matrix.one_mul]⟩
  · refine ⟨rfl, ⟨![1, 2, 0], ?_, ?_⟩, ⟨![0, 0, 3], ?_, ?_⟩, ?_⟩
    · funext i
      fin_cases i <;> rfl
    · funext i
      fin_cases i <;> simp [leftTurn, Matrix.mulVec, dotProduct, Fin.sum_univ_three]
    · funext i
      fin_cases i <;> rfl
    · funext i
      fin_cases i <;> simp [leftTurn, Matrix.mulVec, dotProduct, Fin.sum_univ_three]
    · show msgCov (evenCov 1) = (twice leftTurn)ᵀ * msgCov (evenCov 1) * twice leftTurn
      rw [evenCov_eq, one_smul, Matrix.mul_one, ← rot6d_twice, rot6d_transpose_mul leftTurn_rot]

/-- A covariance of three equal variances. -/
def evenCov3 : Fin 9 → ℝ := fun k => if k.val = 0 ∨ k.val = 4 ∨ k.val = 8 then 1 else 0

/-- Non-vacuity: an IMU turned to the left reports the robot's forward acceleration as one to its right. -/
example : ImuMsg.Turned leftTurn
    ⟨"front", 1, ⟨0, 0, 0, 1⟩, fun _ => 0, fun i => .fin ((![0, 0, 3] : V3) i), evenCov3, ![1, 2, 0], evenCov3⟩
    ⟨"left", 1, ⟨0, 0, 0, 1⟩, fun _ => 0, fun i => .fin ((![0, 0, 3] : V3) i), evenCov3, ![2, -1, 0], evenCov3⟩ := by
  have e : msgCov3 evenCov3 = leftTurnᵀ * msgCov3 evenCov3 * leftTurn := by
    have e1 : msgCov3 evenCov3 = 1 := by
      rw [← copyCov3_eq]
      ext i j
      fin_cases i <;> fin_cases j <;> simp [copyCov3, evenCov3]
    rw [e1, Matrix.mul_one, leftTurn_rot.transpose_mul]
  refine ⟨rfl, ⟨![0, 0, 3], rfl, ?_⟩, ?_, e, e, Iff.rfl, Iff.rfl⟩
  · funext i
    fin_cases i <;> simp [leftTurn, Matrix.mulVec, dotProduct, Fin.sum_univ_three]
  · funext i
    fin_cases i <;> simp [leftTurn, Matrix.mulVec, dotProduct, Fin.sum_univ_three]

theorem put_speed0 {α : Type} (f : Fin 15 → α) (u w : Fin 3 → α) : put 9 (put 6 f u) w 6 = u 0 := rfl

theorem put_speed1 {α : Type} (f : Fin 15 → α) (u w : Fin 3 → α) : put 9 (put 6 f u) w 7 = u 1 := rfl

/-- C151, refuted for a sensor of one direction: a robot that drives straight ahead with speed `v`, and a sensor, turned by
an angle with cosine `k` and sine `s`, that measures the speed along its own first axis, `k v`, without error.  The node takes this
for a measurement of both speeds of the robot, with the values `k² v` and `k s v` in place of `v` and 0. -/
theorem C151_one_direction (c : PrepCtx) (h2 : c.twoD = false) {k s v : ℝ} (hk : 1e-6 ≤ |k|) (hs : 1e-6 ≤ |s|)
    {frame target : String} (hf : frame ≠ "") {stamp : Int} (cov : Fin 36 → ℝ)
    (hb : c.buf target frame stamp = some ⟨!![k, -s, 0; s, k, 0; 0, 0, 1], 0⟩) {cd : CallbackData} (hcd : ∀ i, cd.upd i = decide (i = 6)) :
    ∃ q, prepareTwist c ⟨frame, stamp, ![.fin (k * v), .fin 0, .fin 0], fun _ => .fin 0, cov⟩ target cd.blank = some q ∧
      q.upd 6 = true ∧ q.upd 7 = true ∧ q.z 6 = .fin (k ^ 2 * v) ∧ q.z 7 = .fin (k * s * v) := by
  have hu : ∀ i : Fin 3, cd.blank.upd (axis 6 (by omega) i) = decide (i = 0) := fun i => by
    refine (hcd _).trans ?_
    fin_cases i <;> rfl
  have cr : cross 0 c.omega = 0 := by
    funext i
    fin_cases i <;> simp [cross]
  unfold prepareTwist lookupTransformSafe
  rw [if_neg hf]
  simp only [hb, Option.map_some]
  refine ⟨_, rfl, ?_, ?_, ?_, ?_⟩
  · simp only [twistPayload, finish, h2, Bool.false_eq_true, if_false]
    show maskAxes _ _ 0 = true
    rw [maskAxes_eq, Fin.sum_univ_three, hu, hu, hu]
    simpa [Real.sqrt_sq_eq_abs] using hk
  · simp only [twistPayload, finish, h2, Bool.false_eq_true, if_false]
    show maskAxes _ _ 1 = true
    rw [maskAxes_eq, Fin.sum_univ_three, hu, hu, hu]
    simpa [Real.sqrt_sq_eq_abs] using hs
  · simp only [twistPayload, finish, h2, Bool.false_eq_true, if_false, cr]
    rw [put_speed0]
    simp [mulDbl, Dbl.smul, Dbl.add]
    ring
  · simp only [twistPayload, finish, h2, Bool.false_eq_true, if_false, cr]
    rw [put_speed1]
    simp [mulDbl, Dbl.smul, Dbl.add]
    ring

/-- Non-vacuity: at 1 m/s, a sensor turned by about 53 degrees makes 0.36 m/s forward and 0.48 m/s to the left of it. -/
example (c : PrepCtx) (h2 : c.twoD = false) (hb : c.buf = fun _ _ _ => some ⟨!![3 / 5, -(4 / 5), 0; 4 / 5, 3 / 5, 0; 0, 0, 1], 0⟩) :
    ∃ q, prepareTwist c ⟨"radar", 1, ![.fin (3 / 5 * 1), .fin 0, .fin 0], fun _ => .fin 0, fun _ => 0⟩ "base_link"
        ({ slideCd with upd := fun i => decide (i = 6) } : CallbackData).blank = some q ∧
      q.upd 6 = true ∧ q.upd 7 = true ∧ q.z 6 = .fin ((3 / 5) ^ 2 * 1) ∧ q.z 7 = .fin (3 / 5 * (4 / 5) * 1) :=
  C151_one_direction c h2 (by rw [abs_of_pos (by norm_num)]; norm_num) (by rw [abs_of_pos (by norm_num)]; norm_num) (by decide) _
    (by rw [hb]) (fun _ => rfl)

end RL
