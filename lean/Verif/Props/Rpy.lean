import Verif.Proofs.Geometry
import Mathlib.Analysis.Real.Pi.Bounds
/-!
# C43: orientations survive the conversions between angles, quaternions and matrices
-/

namespace RL
open Matrix Real

theorem mat_of_unit {q : Quat} (hq : q.len2 = 1) : q.mat =
    !![1 - 2 * (q.y * q.y + q.z * q.z), 2 * (q.x * q.y - q.w * q.z), 2 * (q.x * q.z + q.w * q.y);
       2 * (q.x * q.y + q.w * q.z), 1 - 2 * (q.x * q.x + q.z * q.z), 2 * (q.y * q.z - q.w * q.x);
       2 * (q.x * q.z - q.w * q.y), 2 * (q.y * q.z + q.w * q.x), 1 - 2 * (q.x * q.x + q.y * q.y)] := by
  ext i j
  fin_cases i <;> fin_cases j <;> simp [Quat.mat, hq] <;> ring

/-- How the skew part of a rotation depends on its symmetric part. -/
theorem rot_skew {m : M3} (h : IsRot m) :
    let t := m 0 0 + m 1 1 + m 2 2
    let x := m 2 1 - m 1 2
    let y := m 0 2 - m 2 0
    let z := m 1 0 - m 0 1
    y * y + z * z = 2 * (1 + t) * (1 - m 0 0) ∧ x * x + z * z = 2 * (1 + t) * (1 - m 1 1) ∧
      x * x + y * y = 2 * (1 + t) * (1 - m 2 2) ∧ x * y = (1 + t) * (m 0 1 + m 1 0) ∧
      x * z = (1 + t) * (m 0 2 + m 2 0) ∧ y * z = (1 + t) * (m 1 2 + m 2 1) := by
  intro t x y z
  obtain ⟨c00, c01, c02, c10, c11, c12, c20, c21, c22⟩ := h.cof
  have r00 := h.row 0 0
  have r11 := h.row 1 1
  have r22 := h.row 2 2
  have r01 := h.row 0 1
  have r02 := h.row 0 2
  have r12 := h.row 1 2
  have k00 := h.col 0 0
  have k11 := h.col 1 1
  have k22 := h.col 2 2
  have k01 := h.col 0 1
  have k02 := h.col 0 2
  have k12 := h.col 1 2
  simp at r00 r11 r22 r01 r02 r12 k00 k11 k22 k01 k02 k12
  simp only [t, x, y, z]
  generalize m 0 0 = a at *
  generalize m 0 1 = b at *
  generalize m 0 2 = c at *
  generalize m 1 0 = d at *
  generalize m 1 1 = e at *
  generalize m 1 2 = f at *
  generalize m 2 0 = g at *
  generalize m 2 1 = i at *
  generalize m 2 2 = j at *
  refine ⟨?_, ?_, ?_, ?_, ?_, ?_⟩
  · linear_combination r00 + k00 - 2 * c11 - 2 * c22
  · linear_combination r11 + k11 - 2 * c00 - 2 * c22
  · linear_combination r22 + k22 - 2 * c00 - 2 * c11
  · linear_combination -c01 - c10 - r01 - k01
  · linear_combination -c02 - c20 - r02 - k02
  · linear_combination -c12 - c21 - r12 - k12

/-- The half angle formulas behind `getRotation`, for one of its branches. -/
theorem quat_branch {m : M3} (h : IsRot m) {s : ℝ} (hs : s * s = m 0 0 + m 1 1 + m 2 2 + 1) (h0 : s ≠ 0) :
    let k := 0.5 / s
    let q : Quat := { x := (m 2 1 - m 1 2) * k, y := (m 0 2 - m 2 0) * k, z := (m 1 0 - m 0 1) * k, w := s * 0.5 }
    q.len2 = 1 ∧ q.mat = m := by
  intro k q
  obtain ⟨p0, p1, p2, p3, p4, p5⟩ := rot_skew h
  have hk : k * s = 1 / 2 := by simp only [k]; field_simp; norm_num
  have hkk : k * k * (1 + (m 0 0 + m 1 1 + m 2 2)) = 1 / 4 := by
    have : 1 + (m 0 0 + m 1 1 + m 2 2) = s * s := by rw [hs]; ring
    rw [this]
    linear_combination (k * s + 1 / 2) * hk
  have hl : q.len2 = 1 := by
    simp only [Quat.len2, q]
    linear_combination (k * k / 2) * (p0 + p1 + p2) + (3 - (m 0 0 + m 1 1 + m 2 2)) * hkk + (1 / 4) * hs
  refine ⟨hl, ?_⟩
  rw [mat_of_unit hl]
  ext i j
  fin_cases i <;> fin_cases j <;> simp [q]
  · linear_combination (-2 * k * k) * p0 - 4 * (1 - m 0 0) * hkk
  · linear_combination (2 * k * k) * p3 + 2 * (m 0 1 + m 1 0) * hkk - (m 1 0 - m 0 1) * hk
  · linear_combination (2 * k * k) * p4 + 2 * (m 0 2 + m 2 0) * hkk + (m 0 2 - m 2 0) * hk
  · linear_combination (2 * k * k) * p3 + 2 * (m 0 1 + m 1 0) * hkk + (m 1 0 - m 0 1) * hk
  · linear_combination (-2 * k * k) * p1 - 4 * (1 - m 1 1) * hkk
  · linear_combination (2 * k * k) * p5 + 2 * (m 1 2 + m 2 1) * hkk - (m 2 1 - m 1 2) * hk
  · linear_combination (2 * k * k) * p4 + 2 * (m 0 2 + m 2 0) * hkk - (m 0 2 - m 2 0) * hk
  · linear_combination (2 * k * k) * p5 + 2 * (m 1 2 + m 2 1) * hkk + (m 2 1 - m 1 2) * hk
  · linear_combination (-2 * k * k) * p2 - 4 * (1 - m 2 2) * hkk

/-- Half turns about the axes. -/
def turnX : M3 := !![1, 0, 0; 0, -1, 0; 0, 0, -1]
def turnY : M3 := !![-1, 0, 0; 0, 1, 0; 0, 0, -1]
def turnZ : M3 := !![-1, 0, 0; 0, -1, 0; 0, 0, 1]

theorem isRot_turns : IsRot turnX ∧ IsRot turnY ∧ IsRot turnZ := by
  refine ⟨⟨?_, ?_⟩, ⟨?_, ?_⟩, ⟨?_, ?_⟩⟩
  all_goals first
    | (ext i j; fin_cases i <;> fin_cases j <;> simp [turnX, turnY, turnZ, Matrix.mul_apply, Fin.sum_univ_three])
    | (rw [det_fin_three]; simp [turnX, turnY, turnZ])

theorem quat_branch_x {m : M3} (h : IsRot m) {s : ℝ} (hs : s * s = m 0 0 - m 1 1 - m 2 2 + 1) (h0 : s ≠ 0) :
    let k := 0.5 / s
    let q : Quat := { x := s * 0.5, y := (m 1 0 + m 0 1) * k, z := (m 2 0 + m 0 2) * k, w := (m 2 1 - m 1 2) * k }
    q.len2 = 1 ∧ q.mat = m := by
  intro k q
  have hn := h.mul isRot_turns.1
  obtain ⟨l, e⟩ := quat_branch hn (s := s) (by simp [mul3, turnX]; linarith) h0
  simp only [mul3, turnX] at l e
  simp at l e
  have hl : q.len2 = 1 := by
    simp only [Quat.len2, q, k] at l ⊢
    linarith
  refine ⟨hl, ?_⟩
  rw [mat_of_unit hl]
  rw [mat_of_unit l] at e
  ext i j
  have e' := congrFun (congrFun e i) j
  rw [mul3] at e'
  clear e
  simp only [Quat.len2, q, k] at hl
  fin_cases i <;> fin_cases j <;> simp [turnX, q, k] at e' ⊢ <;> linarith

theorem quat_branch_y {m : M3} (h : IsRot m) {s : ℝ} (hs : s * s = m 1 1 - m 2 2 - m 0 0 + 1) (h0 : s ≠ 0) :
    let k := 0.5 / s
    let q : Quat := { x := (m 0 1 + m 1 0) * k, y := s * 0.5, z := (m 2 1 + m 1 2) * k, w := (m 0 2 - m 2 0) * k }
    q.len2 = 1 ∧ q.mat = m := by
  intro k q
  have hn := h.mul isRot_turns.2.1
  obtain ⟨l, e⟩ := quat_branch hn (s := s) (by simp [mul3, turnY]; linarith) h0
  simp only [mul3, turnY] at l e
  simp at l e
  have hl : q.len2 = 1 := by
    simp only [Quat.len2, q, k] at l ⊢
    linarith
  refine ⟨hl, ?_⟩
  rw [mat_of_unit hl]
  rw [mat_of_unit l] at e
  ext i j
  have e' := congrFun (congrFun e i) j
  rw [mul3] at e'
  clear e
  simp only [Quat.len2, q, k] at hl
  fin_cases i <;> fin_cases j <;> simp [turnY, q, k] at e' ⊢ <;> linarith

theorem quat_branch_z {m : M3} (h : IsRot m) {s : ℝ} (hs : s * s = m 2 2 - m 0 0 - m 1 1 + 1) (h0 : s ≠ 0) :
    let k := 0.5 / s
    let q : Quat := { x := (m 0 2 + m 2 0) * k, y := (m 1 2 + m 2 1) * k, z := s * 0.5, w := (m 1 0 - m 0 1) * k }
    q.len2 = 1 ∧ q.mat = m := by
  intro k q
  have hn := h.mul isRot_turns.2.2
  obtain ⟨l, e⟩ := quat_branch hn (s := s) (by simp [mul3, turnZ]; linarith) h0
  simp only [mul3, turnZ] at l e
  simp at l e
  have hl : q.len2 = 1 := by
    simp only [Quat.len2, q, k] at l ⊢
    linarith
  refine ⟨hl, ?_⟩
  rw [mat_of_unit hl]
  rw [mat_of_unit l] at e
  ext i j
  have e' := congrFun (congrFun e i) j
  rw [mul3] at e'
  clear e
  simp only [Quat.len2, q, k] at hl
  fin_cases i <;> fin_cases j <;> simp [turnZ, q, k] at e' ⊢ <;> linarith

theorem sqrt_branch {a : ℝ} (h : 0 < a) : √a * √a = a ∧ √a ≠ 0 :=
  ⟨mul_self_sqrt h.le, (sqrt_pos.mpr h).ne'⟩

/-- C43: the quaternion `tf2` extracts from a rotation matrix is a unit quaternion and describes that rotation. -/
theorem C43_matrix_to_quaternion {m : M3} (h : IsRot m) : (quatOf m).len2 = 1 ∧ (quatOf m).mat = m := by
  unfold quatOf
  by_cases ht : m 0 0 + m 1 1 + m 2 2 > 0
  · obtain ⟨a, b⟩ := sqrt_branch (a := m 0 0 + m 1 1 + m 2 2 + 1) (by linarith)
    rw [if_pos ht]
    exact quat_branch h a b
  · rw [if_neg ht]
    by_cases h1 : m 0 0 < m 1 1
    · rw [if_pos h1]
      by_cases h2 : m 1 1 < m 2 2
      · obtain ⟨a, b⟩ := sqrt_branch (a := m 2 2 - m 0 0 - m 1 1 + 1) (by linarith)
        rw [if_pos h2]
        exact quat_branch_z h a b
      · obtain ⟨a, b⟩ := sqrt_branch (a := m 1 1 - m 2 2 - m 0 0 + 1) (by linarith)
        rw [if_neg h2]
        exact quat_branch_y h a b
    · rw [if_neg h1]
      by_cases h2 : m 0 0 < m 2 2
      · obtain ⟨a, b⟩ := sqrt_branch (a := m 2 2 - m 0 0 - m 1 1 + 1) (by linarith)
        rw [if_pos h2]
        exact quat_branch_z h a b
      · obtain ⟨a, b⟩ := sqrt_branch (a := m 0 0 - m 1 1 - m 2 2 + 1) (by linarith)
        rw [if_neg h2]
        exact quat_branch_x h a b

/-- A half turn takes the last branch of the extraction. -/
example : IsRot turnX ∧ ¬ turnX 0 0 + turnX 1 1 + turnX 2 2 > 0 :=
  ⟨isRot_turns.1, by simp [turnX]⟩

/-- What `getRPY` returns for the matrix of given angles away from the vertical. -/
theorem getRPY_setRPY (r p y : ℝ) (h1 : -(π / 2) < p) (h2 : p < π / 2) :
    getRPY (setRPY r p y) = ![normalizeAngle r, p, normalizeAngle y] := by
  have hc : 0 < cos p := cos_pos_of_mem_Ioo ⟨h1, h2⟩
  have hs : |(setRPY r p y) 2 0| < 1 := by
    have e : (setRPY r p y) 2 0 = -sin p := by simp [setRPY]
    rw [e, abs_neg, ← sq_lt_one_iff_abs_lt_one]
    nlinarith [sin_sq_add_cos_sq p]
  have hp : -arcsin ((setRPY r p y) 2 0) = p := by
    have e : (setRPY r p y) 2 0 = -sin p := by simp [setRPY]
    rw [e, arcsin_neg, arcsin_sin h1.le h2.le, neg_neg]
  have a1 := atan2_pos one_pos r
  have a2 := atan2_pos one_pos y
  simp only [one_mul] at a1 a2
  unfold getRPY
  rw [if_neg (not_le.mpr hs)]
  simp only [hp]
  have e1 : (setRPY r p y) 2 1 / cos p = sin r := by simp [setRPY]; field_simp
  have e2 : (setRPY r p y) 2 2 / cos p = cos r := by simp [setRPY]; field_simp
  have e3 : (setRPY r p y) 1 0 / cos p = sin y := by simp [setRPY]; field_simp
  have e4 : (setRPY r p y) 0 0 / cos p = cos y := by simp [setRPY]; field_simp
  rw [e1, e2, e3, e4, a1, a2]

/-- C43: angles to quaternion and back, away from the vertical: the same angles, normalised. -/
theorem C43_same_angles (r p y : ℝ) (h1 : -(π / 2) < p) (h2 : p < π / 2) :
    quatToRPY (Quat.ofRPY r p y) = ![normalizeAngle r, p, normalizeAngle y] := by
  unfold quatToRPY
  rw [mat_ofRPY, getRPY_setRPY r p y h1 h2]

theorem cos_sin_atan2 {y x : ℝ} (h : x ^ 2 + y ^ 2 = 1) : cos (atan2 y x) = x ∧ sin (atan2 y x) = y := by
  have hn : ‖(⟨x, y⟩ : ℂ)‖ = 1 := by
    rw [Complex.norm_def, Complex.normSq_mk]
    rw [show x * x + y * y = 1 by nlinarith]
    simp
  have h0 : (⟨x, y⟩ : ℂ) ≠ 0 := by
    intro e
    rw [e] at hn
    simp at hn
  constructor
  · unfold atan2
    rw [Complex.cos_arg h0, hn]
    simp
  · unfold atan2
    rw [Complex.sin_arg, hn]
    simp

/-- C43: rotation to angles and back is the same rotation, unless the body points straight up or down. -/
theorem C43_same_rotation_partial {m : M3} (h : IsRot m) (hv : |m 2 0| < 1) :
    setRPY (getRPY m 0) (getRPY m 1) (getRPY m 2) = m := by
  obtain ⟨c00, c01, c02, c10, c11, c12, c20, c21, c22⟩ := h.cof
  have r22 := h.row 2 2
  have k00 := h.col 0 0
  simp at r22 k00
  obtain ⟨v1, v2⟩ := abs_lt.mp hv
  have hs : sin (-arcsin (m 2 0)) = -m 2 0 := by rw [sin_neg, sin_arcsin v1.le v2.le]
  have hcp : 0 < cos (-arcsin (m 2 0)) := by
    rw [cos_neg]
    refine cos_pos_of_mem_Ioo ⟨?_, ?_⟩
    · exact neg_pi_div_two_lt_arcsin.mpr v1
    · exact arcsin_lt_pi_div_two.mpr v2
  have hc2 : cos (-arcsin (m 2 0)) ^ 2 = 1 - m 2 0 ^ 2 := by
    have := sin_sq_add_cos_sq (-arcsin (m 2 0))
    rw [hs] at this
    linarith
  unfold getRPY
  rw [if_neg (not_le.mpr hv)]
  simp only [cons_val_zero, cons_val_one, cons_val]
  generalize -arcsin (m 2 0) = q at *
  have hq : cos q ≠ 0 := hcp.ne'
  have u1 : (m 2 2 / cos q) ^ 2 + (m 2 1 / cos q) ^ 2 = 1 := by
    field_simp
    rw [hc2]
    linarith
  have u2 : (m 0 0 / cos q) ^ 2 + (m 1 0 / cos q) ^ 2 = 1 := by
    field_simp
    rw [hc2]
    linarith
  obtain ⟨w1, w2⟩ := cos_sin_atan2 u1
  obtain ⟨w3, w4⟩ := cos_sin_atan2 u2
  unfold setRPY
  rw [w1, w2, w3, w4, hs]
  ext i j
  fin_cases i <;> fin_cases j <;> simp <;> field_simp <;> try rw [hc2]
  · linear_combination (-1) * c01 - m 2 0 * c12
  · linear_combination (-1) * c02 + m 2 0 * c11
  · linear_combination (-1) * c11 + m 2 0 * c02
  · linear_combination (-1) * c12 - m 2 0 * c01

example : IsRot (setRPY 3 1 (-2)) ∧ |(setRPY 3 1 (-2)) 2 0| < 1 := by
  refine ⟨isRot_setRPY _ _ _, ?_⟩
  have : (setRPY 3 1 (-2)) 2 0 = -sin 1 := by simp [setRPY]
  rw [this, abs_neg, abs_of_pos (sin_pos_of_pos_of_lt_pi one_pos (by linarith [pi_gt_three]))]
  calc sin 1 < sin (π / 2) := sin_lt_sin_of_lt_of_le_pi_div_two (by linarith [pi_gt_three])
        le_rfl (by linarith [pi_gt_three])
    _ = 1 := sin_pi_div_two

/-- C43 fails for a body pointing straight down: the angles returned are those of zero roll and yaw, whatever they were,
so a rolled body comes back unrolled. -/
theorem C43_vertical_forgets (r y : ℝ) : quatToRPY (Quat.ofRPY r (π / 2) y) = ![0, π / 2, 0] := by
  unfold quatToRPY getRPY
  rw [mat_ofRPY]
  have a : atan2 0 0 = 0 := by unfold atan2; exact Complex.arg_zero
  simp [setRPY, a]

theorem C43_vertical_changes_rotation :
    setRPY (quatToRPY (Quat.ofRPY π (π / 2) 0) 0) (quatToRPY (Quat.ofRPY π (π / 2) 0) 1)
      (quatToRPY (Quat.ofRPY π (π / 2) 0) 2) ≠ (Quat.ofRPY π (π / 2) 0).mat := by
  rw [C43_vertical_forgets, mat_ofRPY]
  intro e
  have := congrFun (congrFun e 1) 1
  simp [setRPY] at this
  linarith

/-- C43: a state turned into a transform and back is the same state, if its angles are normalised and it is not
vertical. -/
theorem C43_state_round_trip (x z : Fin 15 → ℝ) (hr : -π < x 3 ∧ x 3 ≤ π) (hp : -(π / 2) < x 4 ∧ x 4 < π / 2)
    (hy : -π < x 5 ∧ x 5 ≤ π) (i : Fin 15) :
    TFtoState (stateToTF x) z i = if i.val < 6 then x i else z i := by
  have hm := (C43_matrix_to_quaternion (isRot_setRPY (x 3) (x 4) (x 5))).2
  have e : quatToRPY (quatOf (stateToTF x).rot) = ![x 3, x 4, x 5] := by
    unfold quatToRPY stateToTF
    simp only
    rw [mat_ofRPY, hm, getRPY_setRPY _ _ _ hp.1 hp.2, normalizeAngle_of_mem hr.1 hr.2, normalizeAngle_of_mem hy.1 hy.2]
  fin_cases i <;> simp [TFtoState, e] <;> simp [stateToTF]

example : ∃ x : Fin 15 → ℝ, (-π < x 3 ∧ x 3 ≤ π) ∧ (-(π / 2) < x 4 ∧ x 4 < π / 2) ∧ (-π < x 5 ∧ x 5 ≤ π) ∧ x 3 ≠ 0 :=
  ⟨fun _ => 1, by constructor <;> linarith [pi_gt_three], by constructor <;> linarith [pi_gt_three],
    by constructor <;> linarith [pi_gt_three], one_ne_zero⟩

end RL
