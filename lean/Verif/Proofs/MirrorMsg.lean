import Verif.Props.Mounted
import Verif.Props.Rescale
/-! # Vectors, rotations and covariances in a mirror (helper lemmas for C144) -/

namespace RL
open Matrix Real

/-- The mirror exchanges left and right: the sign of each axis of a vector. -/
def flip3 : V3 := ![1, -1, 1]

/-- A position, velocity or acceleration in the mirror. -/
def V3.mirror (v : V3) : V3 := fun i => flip3 i * v i

/-- An angular velocity or angular acceleration in the mirror: the sense of a turn about the vertical or the forward axis
is reversed. -/
def V3.mirrorTurn (v : V3) : V3 := fun i => -flip3 i * v i

/-- A rotation in the mirror. -/
def M3.mirror (m : M3) : M3 := .of fun i j => flip3 i * m i j * flip3 j

/-- An orientation in the mirror. -/
def Quat.mirror (q : Quat) : Quat := ⟨-q.x, q.y, -q.z, q.w⟩

/-- A pose or a mounting in the mirror. -/
def Tf.mirror (t : Tf) : Tf := ⟨t.rot.mirror, t.org.mirror⟩

/-- The signs of a pose or a twist. -/
def flip6 : Fin 6 → ℝ := ![1, -1, 1, -1, 1, -1]

/-- The covariance of a pose or a twist in the mirror. -/
def M6.mirror (m : M6) : M6 := .of fun i j => flip6 i * m i j * flip6 j

theorem flip3_cases (i : Fin 3) : flip3 i = 1 ∨ flip3 i = -1 := by fin_cases i <;> simp [flip3]

theorem flip6_cases (i : Fin 6) : flip6 i = 1 ∨ flip6 i = -1 := by fin_cases i <;> simp [flip6]

theorem flip3_sq (i : Fin 3) : flip3 i * flip3 i = 1 := by rcases flip3_cases i with h | h <;> simp [h]

theorem flip6_sq (i : Fin 6) : flip6 i * flip6 i = 1 := by rcases flip6_cases i with h | h <;> simp [h]

theorem M3.mirror_eq (m : M3) : m.mirror = diagonal flip3 * m * diagonal flip3 := by
  ext i j
  simp [M3.mirror]

theorem M6.mirror_eq (m : M6) : m.mirror = diagonal flip6 * m * diagonal flip6 := by
  ext i j
  simp [M6.mirror]

theorem flip3_mul : (diagonal flip3 : M3) * diagonal flip3 = 1 := by
  rw [diagonal_mul_diagonal, ← diagonal_one]
  exact congrArg _ (funext flip3_sq)

theorem flip6_mul : (diagonal flip6 : M6) * diagonal flip6 = 1 := by
  rw [diagonal_mul_diagonal, ← diagonal_one]
  exact congrArg _ (funext flip6_sq)

theorem M3.mirror_mul (a b : M3) : a.mirror * b.mirror = M3.mirror (a * b) := by
  simp only [M3.mirror_eq]
  calc _ = diagonal flip3 * a * ((diagonal flip3 * diagonal flip3) * (b * diagonal flip3)) := by simp only [Matrix.mul_assoc]
    _ = _ := by rw [flip3_mul, Matrix.one_mul]; simp only [Matrix.mul_assoc]

theorem M6.mirror_mul (a b : M6) : a.mirror * b.mirror = M6.mirror (a * b) := by
  simp only [M6.mirror_eq]
  calc _ = diagonal flip6 * a * ((diagonal flip6 * diagonal flip6) * (b * diagonal flip6)) := by simp only [Matrix.mul_assoc]
    _ = _ := by rw [flip6_mul, Matrix.one_mul]; simp only [Matrix.mul_assoc]

theorem M3.mirror_transpose (a : M3) : a.mirrorᵀ = M3.mirror aᵀ := by
  ext i j
  show flip3 j * a j i * flip3 i = flip3 i * a j i * flip3 j
  ring

theorem M6.mirror_transpose (a : M6) : a.mirrorᵀ = M6.mirror aᵀ := by
  ext i j
  show flip6 j * a j i * flip6 i = flip6 i * a j i * flip6 j
  ring

theorem M6.mirror_add (a b : M6) : a.mirror + b.mirror = M6.mirror (a + b) := by
  ext i j
  show flip6 i * a i j * flip6 j + flip6 i * b i j * flip6 j = flip6 i * (a i j + b i j) * flip6 j
  ring

theorem M6.mirror_smul (r : ℝ) (a : M6) : r • a.mirror = M6.mirror (r • a) := by
  ext i j
  show r * (flip6 i * a i j * flip6 j) = flip6 i * (r * a i j) * flip6 j
  ring

theorem M3.mirror_one : M3.mirror 1 = 1 := by
  rw [M3.mirror_eq, Matrix.mul_one, flip3_mul]

theorem M3.mirror_inv (a : M3) : a.mirror⁻¹ = M3.mirror a⁻¹ := by
  have h : (diagonal flip3 : M3)⁻¹ = diagonal flip3 := inv_eq_right_inv flip3_mul
  simp only [M3.mirror_eq, Matrix.mul_inv_rev, h, Matrix.mul_assoc]

theorem mirror_mulVec3 (m : M3) (v : V3) : m.mirror.mulVec v.mirror = V3.mirror (m.mulVec v) := by
  funext i
  simp only [V3.mirror, M3.mirror, mulVec, dotProduct, of_apply, Finset.mul_sum]
  refine Finset.sum_congr rfl fun j _ => ?_
  linear_combination (flip3 i * m i j * v j) * flip3_sq j

theorem V3.mirror_add (a b : V3) : a.mirror + b.mirror = V3.mirror (a + b) := by
  funext i
  show flip3 i * a i + flip3 i * b i = flip3 i * (a i + b i)
  ring

theorem V3.mirror_sub (a b : V3) : a.mirror - b.mirror = V3.mirror (a - b) := by
  funext i
  show flip3 i * a i - flip3 i * b i = flip3 i * (a i - b i)
  ring

theorem V3.mirror_zero : V3.mirror 0 = 0 := by
  funext i
  exact mul_zero _

theorem mirror_up (g : ℝ) : V3.mirror ![0, 0, g] = ![0, 0, g] := by
  funext i
  fin_cases i <;> simp [V3.mirror, flip3]

/-- A lever and a turn give a velocity. -/
theorem cross_mirror (a w : V3) : cross a.mirror w.mirrorTurn = V3.mirror (cross a w) := by
  funext i
  fin_cases i <;> simp [cross, V3.mirror, V3.mirrorTurn, flip3] <;> ring

theorem Tf.mirror_mul (a b : Tf) : a.mirror.mul b.mirror = (a.mul b).mirror := by
  simp only [Tf.mul, Tf.mirror, M3.mirror_mul, mirror_mulVec3, V3.mirror_add]

theorem Tf.mirror_inverseTimes (a b : Tf) : a.mirror.inverseTimes b.mirror = (a.inverseTimes b).mirror := by
  simp only [Tf.inverseTimes, Tf.mirror, M3.mirror_transpose, M3.mirror_mul, V3.mirror_sub, mirror_mulVec3]

theorem Tf.mirror_id : Tf.id.mirror = Tf.id := by
  simp only [Tf.mirror, Tf.id, M3.mirror_one, V3.mirror_zero]

theorem Quat.len2_mirror (q : Quat) : q.mirror.len2 = q.len2 := by
  simp only [Quat.len2, Quat.mirror]
  ring

theorem Quat.normalize_mirror (q : Quat) : q.mirror.normalize = q.normalize.mirror := by
  unfold Quat.normalize
  rw [Quat.len2_mirror]
  simp only [Quat.mirror, neg_div]

theorem Quat.mat_mirror (q : Quat) : q.mirror.mat = q.mat.mirror := by
  unfold Quat.mat
  rw [Quat.len2_mirror]
  ext i j
  fin_cases i <;> fin_cases j <;> simp [M3.mirror, flip3, Quat.mirror] <;> ring

/-- The opposite quaternion is the same rotation. -/
def Quat.opp (q : Quat) : Quat := ⟨-q.x, -q.y, -q.z, -q.w⟩

theorem Quat.mat_opp (q : Quat) : q.opp.mat = q.mat := by
  have h : q.opp.len2 = q.len2 := by
    simp only [Quat.len2, Quat.opp]
    ring
  unfold Quat.mat
  rw [h]
  ext i j
  fin_cases i <;> fin_cases j <;> simp [Quat.opp] <;> ring

theorem quatOf_mirror (m : M3) : quatOf m.mirror = (quatOf m).mirror ∨ quatOf m.mirror = (quatOf m).mirror.opp := by
  have e : ∀ i j, m.mirror i j = flip3 i * m i j * flip3 j := fun _ _ => rfl
  have f0 : flip3 0 = 1 := rfl
  have f1 : flip3 1 = -1 := rfl
  have f2 : flip3 2 = 1 := rfl
  unfold quatOf
  simp only [e, f0, f1, f2, one_mul, mul_one, mul_neg, neg_mul, neg_neg]
  split_ifs
  · left
    simp only [Quat.mirror, Quat.mk.injEq]
    exact ⟨by ring, trivial, by ring, trivial⟩
  · right
    simp only [Quat.mirror, Quat.opp, Quat.mk.injEq]
    refine ⟨?_, ?_, ?_, ?_⟩ <;> ring
  · left
    simp only [Quat.mirror, Quat.mk.injEq]
    exact ⟨by ring, trivial, by ring, trivial⟩
  · right
    simp only [Quat.mirror, Quat.opp, Quat.mk.injEq]
    refine ⟨?_, ?_, ?_, ?_⟩ <;> ring
  · right
    simp only [Quat.mirror, Quat.opp, Quat.mk.injEq]
    refine ⟨?_, ?_, ?_, ?_⟩ <;> ring

theorem mat_quatOf_mirror (m : M3) : (quatOf m.mirror).mat = M3.mirror (quatOf m).mat := by
  rcases quatOf_mirror m with h | h
  · rw [h, Quat.mat_mirror]
  · rw [h, Quat.mat_opp, Quat.mat_mirror]

theorem setRPY_mirror (r p y : ℝ) : setRPY (-r) p (-y) = M3.mirror (setRPY r p y) := by
  ext i j
  fin_cases i <;> fin_cases j <;> simp [setRPY, M3.mirror, flip3] <;> ring

theorem atan2_mirror (y x : ℝ) : atan2 (-y) x = if atan2 y x = π then π else -atan2 y x :=
  Complex.arg_conj ⟨x, y⟩

/-- Roll and yaw of a mirrored rotation have the other sign, up to a full turn where they are half a turn; pitch is the
same. -/
theorem getRPY_mirror (m : M3) :
    (getRPY m.mirror 0 = if getRPY m 0 = π then π else -getRPY m 0) ∧ getRPY m.mirror 1 = getRPY m 1 ∧
    (getRPY m.mirror 2 = if getRPY m 2 = π then π else -getRPY m 2) := by
  have e : ∀ i j, m.mirror i j = flip3 i * m i j * flip3 j := fun _ _ => rfl
  have f0 : flip3 0 = 1 := rfl
  have f1 : flip3 1 = -1 := rfl
  have f2 : flip3 2 = 1 := rfl
  have hp : ¬ (0 : ℝ) = π := pi_pos.ne
  unfold getRPY
  simp only [e, f0, f1, f2, one_mul, mul_one, mul_neg, neg_mul, neg_div]
  by_cases h : 1 ≤ |m 2 0|
  · rw [if_pos h, if_pos h]
    by_cases h' : m 2 0 < 0
    · rw [if_pos h', if_pos h']
      refine ⟨atan2_mirror _ _, rfl, ?_⟩
      show (0 : ℝ) = if (0 : ℝ) = π then π else -0
      rw [if_neg hp, neg_zero]
    · rw [if_neg h', if_neg h']
      refine ⟨atan2_mirror _ _, rfl, ?_⟩
      show (0 : ℝ) = if (0 : ℝ) = π then π else -0
      rw [if_neg hp, neg_zero]
  · rw [if_neg h, if_neg h]
    exact ⟨atan2_mirror _ _, rfl, atan2_mirror _ _⟩

theorem turn_mirror (a : ℝ) : ∃ k : ℤ, (if a = π then π else -a) = -a + k * (2 * π) := by
  by_cases h : a = π
  · exact ⟨1, by rw [if_pos h, h]; push_cast; ring⟩
  · exact ⟨0, by rw [if_neg h]; push_cast; ring⟩

theorem quatToRPY_mirror (m : M3) : quatToRPY (quatOf m.mirror) = getRPY (M3.mirror (quatOf m).mat) := by
  unfold quatToRPY
  rw [mat_quatOf_mirror]

theorem rpy_mirror_mod (m : M3) : (∃ k : ℤ, quatToRPY (quatOf m.mirror) 0 = -quatToRPY (quatOf m) 0 + k * (2 * π)) ∧
    quatToRPY (quatOf m.mirror) 1 = quatToRPY (quatOf m) 1 ∧
    ∃ k : ℤ, quatToRPY (quatOf m.mirror) 2 = -quatToRPY (quatOf m) 2 + k * (2 * π) := by
  rw [quatToRPY_mirror]
  obtain ⟨h0, h1, h2⟩ := getRPY_mirror (quatOf m).mat
  obtain ⟨k, hk⟩ := turn_mirror (getRPY (quatOf m).mat 0)
  obtain ⟨l, hl⟩ := turn_mirror (getRPY (quatOf m).mat 2)
  exact ⟨⟨k, h0.trans hk⟩, h1, ⟨l, h2.trans hl⟩⟩

/-- The angles of a rotation that is no half turn. -/
theorem rpy_mirror {m : M3} (h0 : quatToRPY (quatOf m) 0 ≠ π) (h2 : quatToRPY (quatOf m) 2 ≠ π) :
    quatToRPY (quatOf m.mirror) = V3.mirrorTurn (quatToRPY (quatOf m)) := by
  rw [quatToRPY_mirror]
  obtain ⟨e0, e1, e2⟩ := getRPY_mirror (quatOf m).mat
  replace h0 : getRPY (quatOf m).mat 0 ≠ π := h0
  replace h2 : getRPY (quatOf m).mat 2 ≠ π := h2
  rw [if_neg h0] at e0
  rw [if_neg h2] at e2
  funext i
  fin_cases i
  · refine e0.trans ?_
    simp [V3.mirrorTurn, flip3, quatToRPY]
  · refine e1.trans ?_
    simp [V3.mirrorTurn, flip3, quatToRPY]
  · refine e2.trans ?_
    simp [V3.mirrorTurn, flip3, quatToRPY]

/-! ## Covariances -/

theorem rot6d_mirror (r : M3) : rot6d r.mirror = M6.mirror (rot6d r) := by
  ext i j
  fin_cases i <;> fin_cases j <;> simp [rot6d, M6.mirror, M3.mirror, flip3, flip6]

theorem unit_block (i : Fin 6) : unitOf 1 (-1) ⟨i.val, by omega⟩ = flip6 i ∧ unitOf 1 (-1) ⟨6 + i.val, by omega⟩ = flip6 i := by
  fin_cases i <;> simp [unitOf, flip6]

theorem unit_acc (i : Fin 3) : unitOf 1 (-1) ⟨12 + i.val, by omega⟩ = flip3 i := by
  fin_cases i <;> simp [unitOf, flip3]

theorem putBlock6_mirror {off : ℕ} (ho : off + 6 ≤ 15) (hs : ∀ i : Fin 6, unitOf 1 (-1) ⟨off + i.val, by omega⟩ = flip6 i)
    (R : Mat15) (c : M6) : putBlock 6 off (rescaleCov 1 (-1) R) c.mirror = rescaleCov 1 (-1) (putBlock 6 off R c) := by
  ext i j
  by_cases h : (off ≤ i.val ∧ i.val < off + 6) ∧ (off ≤ j.val ∧ j.val < off + 6)
  · have hi := hs ⟨i.val - off, by omega⟩
    have hj := hs ⟨j.val - off, by omega⟩
    have ei : (⟨off + (i.val - off), by omega⟩ : Fin 15) = i := Fin.ext (by simp only; omega)
    have ej : (⟨off + (j.val - off), by omega⟩ : Fin 15) = j := Fin.ext (by simp only; omega)
    rw [ei] at hi
    rw [ej] at hj
    simp only [putBlock, rescaleCov, of_apply, dif_pos h, M6.mirror, hi, hj]
  · simp only [putBlock, rescaleCov, of_apply, dif_neg h]

theorem putBlock3_mirror (R : Mat15) (c : M3) :
    putBlock 3 12 (rescaleCov 1 (-1) R) c.mirror = rescaleCov 1 (-1) (putBlock 3 12 R c) := by
  ext i j
  by_cases h : (12 ≤ i.val ∧ i.val < 12 + 3) ∧ (12 ≤ j.val ∧ j.val < 12 + 3)
  · have hi := unit_acc ⟨i.val - 12, by omega⟩
    have hj := unit_acc ⟨j.val - 12, by omega⟩
    have ei : (⟨12 + (i.val - 12), by omega⟩ : Fin 15) = i := Fin.ext (by simp only; omega)
    have ej : (⟨12 + (j.val - 12), by omega⟩ : Fin 15) = j := Fin.ext (by simp only; omega)
    rw [ei] at hi
    rw [ej] at hj
    simp only [putBlock, rescaleCov, of_apply, dif_pos h, M3.mirror, hi, hj]
  · simp only [putBlock, rescaleCov, of_apply, dif_neg h]

theorem maskAxes_mirror (r : M3) (u : Fin 3 → Bool) : maskAxes r.mirror u = maskAxes r u := by
  funext i
  have h : ∀ j, (r.mirror * diagonal fun j => if u j then (1 : ℝ) else 0) i j *
      (r.mirror * diagonal fun j => if u j then (1 : ℝ) else 0) i j =
      (r * diagonal fun j => if u j then (1 : ℝ) else 0) i j * (r * diagonal fun j => if u j then (1 : ℝ) else 0) i j := by
    intro j
    simp only [mul_diagonal, M3.mirror, of_apply]
    linear_combination (r i j * r i j * (if u j then 1 else 0) * (if u j then 1 else 0)) *
      (flip3_sq i * (flip3 j * flip3 j) + flip3_sq j)
  unfold maskAxes
  simp only [h]

theorem poseUpd_mirror (r : M3) (u : Fin 15 → Bool) : poseUpd r.mirror u = poseUpd r u := by
  simp only [poseUpd, maskAxes_mirror]

/-! ## Values -/

theorem smul_signs {s t : ℝ} (hs : s = 1 ∨ s = -1) (ht : t = 1 ∨ t = -1) (m : ℝ) (v : Dbl) :
    Dbl.smul (t * m * s) (Dbl.smul s v) = Dbl.smul t (Dbl.smul m v) := by
  cases v with
  | fin a =>
    rcases hs with rfl | rfl <;> simp [Dbl.smul] <;> ring
  | nan => rfl
  | inf n =>
    by_cases hm : m = 0
    · subst hm
      rcases hs with rfl | rfl <;> rcases ht with rfl | rfl <;> simp [Dbl.smul]
    · rcases lt_or_gt_of_ne hm with h | h
      · rcases hs with rfl | rfl <;> rcases ht with rfl | rfl <;> simp [Dbl.smul, hm, h, not_lt.2 h.le, not_lt.2 (zero_le_one' ℝ)]
      · rcases hs with rfl | rfl <;> rcases ht with rfl | rfl <;> simp [Dbl.smul, hm, h, not_lt.2 h.le, not_lt.2 (zero_le_one' ℝ)]

theorem smul_add_signs {s : ℝ} (hs : s = 1 ∨ s = -1) (v w : Dbl) :
    (Dbl.smul s v).add (Dbl.smul s w) = Dbl.smul s (v.add w) := by
  rcases hs with rfl | rfl <;> cases v <;> cases w <;> simp [Dbl.smul, Dbl.add]
  · split_ifs <;> simp
  · ring
  · split_ifs <;> simp

theorem div_signs {s : ℝ} (hs : s = 1 ∨ s = -1) (a b : ℝ) : Dbl.div (s * a) b = Dbl.smul s (Dbl.div a b) := by
  unfold Dbl.div
  rcases hs with rfl | rfl
  · by_cases hb : b = 0
    · by_cases ha : a = 0
      · simp [hb, ha, Dbl.smul]
      · simp [hb, ha, Dbl.smul, not_lt.2 (zero_le_one' ℝ)]
    · simp [hb, Dbl.smul]
  · by_cases hb : b = 0
    · by_cases ha : a = 0
      · simp [hb, ha, Dbl.smul]
      · rcases lt_or_gt_of_ne ha with h | h <;> simp [hb, ha, Dbl.smul, h, not_lt.2 h.le]
    · simp [hb, Dbl.smul, neg_div]

theorem mulDbl_signs {s : Fin 3 → ℝ} (hs : ∀ i, s i = 1 ∨ s i = -1) (m : M3) (v : Fin 3 → Dbl)
    (hm : ∀ i j, m.mirror i j = s i * m i j * s j) :
    mulDbl m.mirror (fun i => (v i).smul (s i)) = fun i => (mulDbl m v i).smul (s i) := by
  funext i
  simp only [mulDbl, hm, smul_signs (hs _) (hs i), smul_add_signs (hs i)]

theorem put_mirror {off : ℕ} (ho : off + 3 ≤ 15) {s : Fin 3 → ℝ} (hs : ∀ i : Fin 3, unitOf 1 (-1) ⟨off + i.val, by omega⟩ = s i)
    (z : Fin 15 → Dbl) (v : Fin 3 → Dbl) :
    put off (fun i => (z i).smul (unitOf 1 (-1) i)) (fun i => (v i).smul (s i)) =
      fun i => (put off z v i).smul (unitOf 1 (-1) i) := by
  funext i
  by_cases h : off ≤ i.val ∧ i.val < off + 3
  · have hi := hs ⟨i.val - off, by omega⟩
    have ei : (⟨off + (i.val - off), by omega⟩ : Fin 15) = i := Fin.ext (by simp only; omega)
    rw [ei] at hi
    simp only [put, dif_pos h, hi]
  · simp only [put, dif_neg h]

theorem forceTwoD_mirror (p : Payload) : forceTwoD (p.rescaled 1 (-1)) = (forceTwoD p).rescaled 1 (-1) := by
  unfold forceTwoD Payload.rescaled
  simp only [Payload.mk.injEq, and_true, true_and]
  refine ⟨?_, ?_⟩
  · funext i
    by_cases h : offPlane i
    · simp [h, Dbl.smul]
    · simp [h]
  · ext i j
    simp only [rescaleCov, of_apply]
    by_cases h : i = j ∧ offPlane i = true
    · rw [if_pos h, if_pos h]
      obtain ⟨rfl, -⟩ := h
      linear_combination (-1e-6 : ℝ) * unitOf_sq (s := -1) (Or.inr rfl) i
    · rw [if_neg h, if_neg h]

end RL
