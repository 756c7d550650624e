import Verif.Proofs.EkfCov
import Verif.Proofs.Angle
import Verif.Proofs.NodeDrain
import Verif.Spec.EkfDemo
import Mathlib.Analysis.Real.Pi.Bounds
/-! # C04 to C08, C10, C14: the correction of the EKF -/

namespace RL
open Matrix Real

/-! ## C04: angles -/

/-- The angular components. -/
def angular : Fin 15 → Prop := fun i => i = 3 ∨ i = 4 ∨ i = 5

/-- `x` is the normalised form of `y`: angles in (-pi, pi], equal up to whole turns, everything else equal. -/
def NormalFormOf (x y : State) : Prop :=
  (∀ i, angular i → -π < x i ∧ x i ≤ π ∧ ∃ k : ℤ, x i = y i - k * (2 * π)) ∧ ∀ i, ¬ angular i → x i = y i

theorem wrap_normal (y : State) : NormalFormOf (wrapStateAngles y) y := by
  constructor
  · intro i hi
    have : wrapStateAngles y i = normalizeAngle (y i) := if_pos hi
    rw [this]; exact normalizeAngle_spec _
  · intro i hi; exact if_neg hi

/-- C04, prediction: the new state is the normal form of the raw one, transfer function times controlled state. -/
theorem C04_predict (p : FilterPar) (Q : Mat15) (ctl : Fin 6 → ℝ) (ct ref : Int) (dt : ℝ) (x : State) (P : Mat15)
    (x' : State) (P' : Mat15) (h : Ekf.predict p Q ctl ct ref dt x P = some (x', P')) :
    NormalFormOf x' ((transferF x dt).mulVec (applyControl p (prepareControl p ctl ct ref x) dt x)) := by
  unfold Ekf.predict at h
  dsimp only at h
  split at h
  · cases h
  · simp only [Option.some.injEq, Prod.mk.injEq] at h
    rw [← h.1]; exact wrap_normal _

/-- C04, correction: either the estimate is untouched, or the new state is the normal form of a state that differs from
the old one by the gain times an innovation whose angular components are normalised differences. -/
theorem C04_correct (m : Payload) (x : State) (P : Mat15) (x' : State) (P' : Mat15)
    (h : Ekf.correct m x P = some (x', P')) :
    (x' = x ∧ P' = P) ∨
    ∃ y : Fin m.indices.length → ℝ, NormalFormOf x' (x + (gain m.indices.get m.R P).mulVec y) ∧
      ∀ i, (angular (m.indices.get i) → -π < y i ∧ y i ≤ π ∧
          ∃ k : ℤ, y i = (m.z (m.indices.get i)).val - x (m.indices.get i) - k * (2 * π)) ∧
        (¬ angular (m.indices.get i) → y i = (m.z (m.indices.get i)).val - x (m.indices.get i)) := by
  unfold Ekf.correct correctAt at h
  split at h
  · cases h
  · split at h
    · simp only [Option.some.injEq, Prod.mk.injEq] at h
      right
      refine ⟨innovation m.indices.get (fun i => (m.z i).val) x, ?_, fun i => ⟨fun hi => ?_, fun hi => ?_⟩⟩
      · rw [← h.1]; exact wrap_normal _
      · have : innovation m.indices.get (fun i => (m.z i).val) x i =
            normalizeAngle ((m.z (m.indices.get i)).val - x (m.indices.get i)) := if_pos hi
        rw [this]; exact normalizeAngle_spec _
      · exact if_neg hi
    · simp only [Option.some.injEq, Prod.mk.injEq] at h
      left; exact ⟨h.1.symm, h.2.symm⟩

/-- C04 along calls: once the angles are normal they stay normal under any predictions and corrections. -/
theorem C04_stays_normal (m : Payload) (x : State) (P : Mat15) (x' : State) (P' : Mat15)
    (h : Ekf.correct m x P = some (x', P')) (hx : ∀ i, angular i → -π < x i ∧ x i ≤ π) :
    ∀ i, angular i → -π < x' i ∧ x' i ≤ π := by
  rcases C04_correct m x P x' P' h with ⟨rfl, -⟩ | ⟨y, hy, -⟩
  · exact hx
  · intro i hi
    exact ⟨(hy.1 i hi).1, (hy.1 i hi).2.1⟩

/-- An angle of 4 radians is brought to 4 - 2 pi; other components may be anything. -/
example : NormalFormOf (wrapStateAngles (fun _ => 4)) (fun _ => 4) ∧ wrapStateAngles (fun _ => 4) 5 = 4 - 2 * π ∧
    wrapStateAngles (fun _ => 4) 6 = 4 := by
  refine ⟨wrap_normal _, ?_, (wrap_normal _).2 6 (by simp [angular])⟩
  have e : wrapStateAngles (fun _ => 4) 5 = normalizeAngle 4 := by simp [wrapStateAngles]
  have h := normalizeAngle_add_two_pi (4 - 2 * π) 1
  have h3 := Real.pi_gt_three
  have h4 := Real.pi_lt_d2
  rw [normalizeAngle_of_mem (a := 4 - 2 * π) (by linarith) (by linarith)] at h
  rw [e, ← h]
  congr 1
  push_cast; ring

/-! ## C05: non-finite values -/

/-- The payload with the non-finite components deselected. -/
def Payload.finitePart (m : Payload) : Payload := { m with upd := fun i => m.upd i && (m.z i).isFin }

/-- C05, partial.  For an initialised filter a measurement with non-finite components has exactly the effect of the same
measurement with those components deselected.  Missing: the first measurement, where it is false (below). -/
theorem C05_nonfinite_ignored_partial (m : Payload) (x : State) (P : Mat15) :
    Ekf.correct m x P = Ekf.correct m.finitePart x P := by
  have : m.indices = m.finitePart.indices := by
    unfold Payload.indices Payload.finitePart
    refine List.filter_congr (fun i _ => ?_)
    show (m.upd i && !(m.z i).isNan && !(m.z i).isInf) =
      (m.upd i && (m.z i).isFin && !(m.z i).isNan && !(m.z i).isInf)
    cases m.z i <;> cases m.upd i <;> rfl
  unfold Ekf.correct
  rw [← this]
  rfl

/-- C05 is false for the first measurement: if a selected value is not finite, the state is not finite afterwards, while
with the component deselected it is. -/
theorem C05_first_measurement_contaminates (m : Payload) (x : State) (i : Fin 15) (hu : m.upd i = true)
    (hz : (m.z i).isFin = false) :
    initState m x = none ∧ initState m.finitePart x ≠ none := by
  constructor
  · unfold initState
    rw [if_neg]
    intro h
    rw [h i hu] at hz
    cases hz
  · unfold initState
    rw [if_pos]
    · simp
    · intro j hj
      simp only [Payload.finitePart, Bool.and_eq_true] at hj
      exact hj.2

/-- and it never becomes finite again. -/
theorem C05_contamination_is_permanent (p : FilterPar) (f : Filt (ekfCore p)) (hi : f.initialized = true) (hx : f.x = none)
    (ms : List (Meas (ekfCore p))) : (ms.foldl Filt.processMeasurement f).x = none := by
  induction ms generalizing f with
  | nil => exact hx
  | cons m ms ih =>
    refine ih _ (Filt.processMeasurement_initialized f m) ?_
    have hc : ∀ g : Filt (ekfCore p), g.x = none → (g.correct m.z).x = none := by
      intro g hg
      simp [Filt.correct, ekfCore, hg]
    have hp : (f.predict m.time (m.time - f.lastTime)).x = none := by
      simp [Filt.predict, ekfCore, hx]
    unfold Filt.processMeasurement
    simp only [hi, if_true]
    split <;> split <;> first | exact hc _ hp | exact hc _ hx

/-- A measurement of x and y in which y is NaN. -/
example : ∃ (m : Payload) (i : Fin 15), m.upd i = true ∧ (m.z i).isFin = false ∧ m.indices = [0] :=
  ⟨demoZ (fun i => decide (i.val < 2)) (fun i => if i = 0 then .fin 1 else .nan), 1, rfl, rfl, rfl⟩

/-! ## C06: the gate -/

theorem subH_mul {n : ℕ} (e : Fin n → Fin 15) {k : Type} [Fintype k] (A : Matrix (Fin 15) k ℝ) :
    subH e * A = A.submatrix e id := by
  ext i j
  simp [subH, Matrix.mul_apply]

theorem mul_subH_transpose {n : ℕ} (e : Fin n → Fin 15) {k : Type} [Fintype k] (A : Matrix k (Fin 15) ℝ) :
    A * (subH e)ᵀ = A.submatrix id e := by
  ext i j
  simp [subH, Matrix.mul_apply]

/-- The innovation covariance is the covariance of the measured variables plus that of the measurement. -/
theorem innovCov_eq {n : ℕ} (e : Fin n → Fin 15) (R P : Mat15) : innovCov e R P = P.submatrix e e + subR e R := by
  unfold innovCov
  rw [mul_subH_transpose, subH_mul]
  rfl

/-- The squared Mahalanobis distance of an innovation. -/
noncomputable def mahalanobisSq {n : ℕ} (e : Fin n → Fin 15) (z : Fin 15 → ℝ) (R : Mat15) (x : State) (P : Mat15) : ℝ :=
  innovation e z x ⬝ᵥ ((P.submatrix e e + subR e R)⁻¹).mulVec (innovation e z x)

/-- C06.  With a usable innovation covariance and a threshold of `k` sigmas: below `k * k` the correction is made, at or
above it nothing is changed at all. -/
theorem C06_gate {n : ℕ} (e : Fin n → Fin 15) (z : Fin 15 → ℝ) (R : Mat15) (k : ℝ) (x : State) (P : Mat15)
    (hS : (P.submatrix e e + subR e R).det ≠ 0) :
    (mahalanobisSq e z R x P < k * k → correctAt e z R (.sigmas k) x P = correctAt e z R .unlimited x P) ∧
    (k * k ≤ mahalanobisSq e z R x P → correctAt e z R (.sigmas k) x P = some (x, P)) := by
  rw [← innovCov_eq] at hS
  unfold mahalanobisSq
  rw [← innovCov_eq]
  constructor
  · intro h
    simp [correctAt, hS, checkMahalanobis, h]
  · intro h
    have : ¬ (innovation e z x ⬝ᵥ ((innovCov e R P)⁻¹).mulVec (innovation e z x) < k * k) := not_lt.2 h
    simp [correctAt, hS, checkMahalanobis, this]

/-- C06.  With the default threshold every measurement with usable innovation covariance is applied, whatever the
innovation. -/
theorem C06_default_never_rejects {n : ℕ} (e : Fin n → Fin 15) (z : Fin 15 → ℝ) (R : Mat15) (x : State) (P : Mat15)
    (hS : (P.submatrix e e + subR e R).det ≠ 0) :
    correctAt e z R .unlimited x P =
      some (wrapStateAngles (x + (gain e R P).mulVec (innovation e z x)), joseph e R (gain e R P) P) := by
  rw [← innovCov_eq] at hS
  simp [correctAt, hS, checkMahalanobis]

/-- C06.  All or nothing: the estimate after a finite correction is either the unconditional one or the old one. -/
theorem C06_all_or_nothing {n : ℕ} (e : Fin n → Fin 15) (z : Fin 15 → ℝ) (R : Mat15) (thr : Thresh) (x : State) (P : Mat15)
    (r : State × Mat15) (h : correctAt e z R thr x P = some r) :
    r = (x, P) ∨ correctAt e z R .unlimited x P = some r := by
  by_cases hd : (innovCov e R P).det = 0
  · simp [correctAt, hd] at h
  · by_cases hc : checkMahalanobis (innovation e z x) (innovCov e R P)⁻¹ thr
    · right
      simp only [correctAt, hd, hc, if_true, if_false] at h
      simp [correctAt, hd, checkMahalanobis, h]
    · left
      simp only [correctAt, hd, hc, if_false, Option.some.injEq] at h
      exact h.symm

/-- A measurement of x with value 3 and unit variance on a state 0 with unit variance: squared distance 9/2, accepted at
3 sigma, rejected at 2 sigma. -/
example : mahalanobisSq (![0] : Fin 1 → Fin 15) (fun _ => 3) 1 0 1 = 9 / 2 ∧
    ((1 : Mat15).submatrix (![0] : Fin 1 → Fin 15) ![0] + subR ![0] 1).det ≠ 0 := by
  have h1 : ((1 : Mat15).submatrix (![0] : Fin 1 → Fin 15) ![0] + subR ![0] 1) = Matrix.of ![![2]] := by
    ext i j
    fin_cases i; fin_cases j
    show (1 : Mat15) 0 0 + (if (0 : Fin 1) = 0 then sanitize ((1 : Mat15) 0 0) else (1 : Mat15) 0 0) = 2
    rw [if_pos rfl, Matrix.one_apply_eq]
    norm_num [sanitize]
  have h2 : (Matrix.of ![![2]] : Matrix (Fin 1) (Fin 1) ℝ)⁻¹ = Matrix.of ![![1/2]] := by
    refine Matrix.inv_eq_left_inv ?_
    ext i j
    fin_cases i; fin_cases j
    simp
  constructor
  · unfold mahalanobisSq
    rw [h1, h2]
    have : innovation (![0] : Fin 1 → Fin 15) (fun _ => 3) 0 = fun _ => 3 := by
      funext i
      fin_cases i
      show (if (0 : Fin 15) = 3 ∨ (0 : Fin 15) = 4 ∨ (0 : Fin 15) = 5 then normalizeAngle (3 - 0) else (3 : ℝ) - 0) = 3
      rw [if_neg (by decide)]
      norm_num
    rw [this]
    simp [Matrix.mulVec, dotProduct]
    norm_num
  · rw [h1]; simp

/-! ## C07: deselected variables -/

/-- Two measurements agree on what they select. -/
def Payload.Agree (a b : Payload) : Prop :=
  a.upd = b.upd ∧ (∀ i, a.upd i = true → a.z i = b.z i) ∧
    (∀ i j, a.upd i = true → a.upd j = true → a.R i j = b.R i j) ∧ a.thresh = b.thresh

/-- C07.  A correction does not depend on values, variances and covariances of deselected variables. -/
theorem C07_deselected_irrelevant (a b : Payload) (h : a.Agree b) (x : State) (P : Mat15) :
    Ekf.correct a x P = Ekf.correct b x P := by
  obtain ⟨hu, hz, hR, ht⟩ := h
  have hidx : b.indices = a.indices := by
    unfold Payload.indices
    refine List.filter_congr (fun i _ => ?_)
    rw [← hu]
    by_cases h : a.upd i = true
    · rw [hz i h]
    · simp [h]
  have key : ∀ (l : List (Fin 15)), (∀ i ∈ l, a.upd i = true) → ∀ (z z' : Fin 15 → ℝ) (R R' : Mat15),
      (∀ i, a.upd i = true → z i = z' i) → (∀ i j, a.upd i = true → a.upd j = true → R i j = R' i j) → ∀ thr,
      correctAt l.get z R thr x P = correctAt l.get z' R' thr x P := by
    intro l hl z z' R R' h1 h2 thr
    have hm : ∀ i : Fin l.length, a.upd (l.get i) = true := fun i => hl _ (List.get_mem _ _)
    have e1 : innovation l.get z x = innovation l.get z' x := by
      funext i
      unfold innovation
      rw [h1 _ (hm i)]
    have e2 : subR l.get R = subR l.get R' := by
      ext i j
      simp only [subR, Matrix.of_apply]
      rw [h2 _ _ (hm i) (hm j)]
    have e3 : innovCov l.get R P = innovCov l.get R' P := by unfold innovCov; rw [e2]
    have e4 : gain l.get R P = gain l.get R' P := by unfold gain; rw [e3]
    unfold correctAt joseph
    rw [e1, e2, e3, e4]
  unfold Ekf.correct
  rw [hidx, ← ht]
  exact key a.indices (fun i hi => by
      have := List.mem_iff_get.1 hi
      obtain ⟨j, rfl⟩ := this
      exact a.indices_upd j) _ _ _ _ (fun i h => by rw [hz i h]) hR _

/-- Two different measurements that agree on x, the only variable selected. -/
example : ∃ a b : Payload, a.Agree b ∧ a.z 1 ≠ b.z 1 ∧ a.R 1 1 ≠ b.R 1 1 ∧ a.upd 0 = true := by
  refine ⟨⟨fun i => decide (i = 0), fun _ => .fin 1, 1, .unlimited⟩,
    ⟨fun i => decide (i = 0), fun i => if i = 0 then .fin 1 else .nan, Matrix.of fun i j => if i = 0 ∧ j = 0 then 1 else 7, .unlimited⟩,
    ⟨rfl, ?_, ?_, rfl⟩, ?_, ?_, rfl⟩
  · intro i hi; simp at hi; simp [hi]
  · intro i j hi hj; simp at hi hj; subst hi hj; simp
  · simp
  · simp

/-! ## C08: optimality -/

/-- C08.  Under a covariance prior and a measurement covariance, when the innovation covariance is invertible, the
posterior is below the prior and below what any other gain would give. -/
theorem C08_optimal {n : ℕ} (e : Fin n → Fin 15) (R P : Mat15) (hP : P.PosSemidef) (hR : (R.submatrix e e).PosSemidef)
    (hS : (P.submatrix e e + subR e R).det ≠ 0) :
    (P - joseph e R (gain e R P) P).PosSemidef ∧
      ∀ L : Matrix (Fin 15) (Fin n) ℝ, (joseph e R L P - joseph e R (gain e R P) P).PosSemidef := by
  have hRs := subR_psd hR
  have hSpsd : (innovCov e R P).PosSemidef := by
    rw [innovCov_eq]; exact (hP.submatrix e).add hRs
  rw [← innovCov_eq] at hS
  have all : ∀ L : Matrix (Fin 15) (Fin n) ℝ, (joseph e R L P - joseph e R (gain e R P) P).PosSemidef := by
    intro L
    have := joseph_square (PosSemidef.symm' hP) (PosSemidef.symm' hRs) (subH e) (isUnit_iff_ne_zero.2 hS) L
    have e : joseph e R L P - joseph e R (gain e R P) P = (L - gain e R P) * innovCov e R P * (L - gain e R P)ᵀ := by
      unfold joseph
      rw [this]
      unfold gain innovCov
      abel
    rw [e]
    exact psd_congr hSpsd _
  refine ⟨?_, all⟩
  have h0 := all 0
  have : joseph e R 0 P = P := by simp [joseph]
  rwa [this] at h0

/-- C08.  The posterior covariance is the textbook one, `(1 - K H) P = P - K S Kᵀ`. -/
theorem C08_textbook {n : ℕ} (e : Fin n → Fin 15) (R P : Mat15) (hP : P.PosSemidef) (hR : (R.submatrix e e).PosSemidef)
    (hS : (P.submatrix e e + subR e R).det ≠ 0) :
    let S := P.submatrix e e + subR e R
    let K := P.submatrix id e * S⁻¹
    joseph e R (gain e R P) P = P - K * S * Kᵀ ∧ joseph e R (gain e R P) P = P - K * P.submatrix e id := by
  intro S K
  rw [← innovCov_eq] at hS
  have hRs := subR_psd hR
  have h := joseph_eq (PosSemidef.symm' hP) (PosSemidef.symm' hRs) (subH e) (isUnit_iff_ne_zero.2 hS)
  have hK : gain e R P = K := by
    unfold gain
    rw [innovCov_eq, mul_subH_transpose]
  have hK' : P * (subH e)ᵀ * (subH e * (P * (subH e)ᵀ) + subR e R)⁻¹ = K := hK
  have hS' : subH e * (P * (subH e)ᵀ) + subR e R = S := innovCov_eq e R P
  dsimp only at h
  rw [hK', hS'] at h
  unfold joseph
  rw [hK]
  refine ⟨h.1, h.2.trans ?_⟩
  rw [Matrix.sub_mul, Matrix.one_mul, Matrix.mul_assoc, subH_mul]

/-- C08.  Usable: measurements with independent errors always give an invertible innovation covariance, thanks to the
floor on the variances. -/
theorem C08_independent_errors_usable {n : ℕ} (e : Fin n → Fin 15) (R P : Mat15) (hP : P.PosSemidef)
    (hR : ∀ i j, i ≠ j → R (e i) (e j) = 0) : (P.submatrix e e + subR e R).det ≠ 0 := by
  have hd : subR e R = diagonal (fun i => sanitize (R (e i) (e i))) := by
    ext i j
    by_cases h : i = j
    · subst h; simp [subR]
    · simp [subR, h, hR i j h]
  have hpos : (subR e R).PosDef := by
    rw [hd]
    refine PosDef.diagonal (fun i => ?_)
    have h9 : (0 : ℝ) < 1e-9 := by norm_num
    have : ∀ a : ℝ, 0 < if a < 1e-9 then 1e-9 else a := by
      intro a
      split
      · exact h9
      · rename_i h2; exact h9.trans_le (not_lt.1 h2)
    exact this _
  have : (P.submatrix e e + subR e R).PosDef := PosDef.posSemidef_add (hP.submatrix e) hpos
  exact (this.isUnit.map Matrix.detMonoidHom).ne_zero

/-- C08 needs more than positive variances: two perfectly correlated components on a certain estimate have a singular
innovation covariance, and the state is then not finite. -/
theorem C08_correlated_errors_unusable :
    ∃ (m : Payload) (x : State) (P : Mat15), m.GoodR ∧ P.PosSemidef ∧ Ekf.correct m x P = none := by
  let v : Fin 15 → ℝ := fun _ => 1
  refine ⟨⟨fun i => decide (i.val < 2), fun _ => .fin 0, vecMulVec v v, .unlimited⟩, 0, 0, ?_, PosSemidef.zero, ?_⟩
  · have := posSemidef_vecMulVec_self_star v
    have h : (vecMulVec v v).PosSemidef := by simpa using this
    exact h.submatrix _
  · have key : ∀ (l : List (Fin 15)), l = [0, 1] →
        correctAt l.get (fun i => (Dbl.fin 0).val) (vecMulVec v v) .unlimited 0 0 = none := by
      rintro l rfl
      unfold correctAt
      rw [if_pos]
      rw [innovCov_eq]
      have : (0 : Mat15).submatrix [0, 1].get [0, 1].get + subR [(0 : Fin 15), 1].get (vecMulVec v v) =
          Matrix.of fun (_ _ : Fin 2) => (1 : ℝ) := by
        ext i j
        have hs : sanitize 1 = 1 := by unfold sanitize; norm_num
        simp only [Matrix.add_apply, subR, Matrix.of_apply, Matrix.submatrix_apply, Matrix.zero_apply, vecMulVec_apply, v, mul_one, hs]
        simp
      rw [this, Matrix.det_fin_two]
      simp
    exact key _ (by rfl)

/-- Prior 1, independent unit variances. -/
example : (1 : Mat15).PosSemidef ∧ ((1 : Mat15).submatrix (![0, 5] : Fin 2 → Fin 15) ![0, 5]).PosSemidef :=
  ⟨PosSemidef.one, PosSemidef.one.submatrix _⟩

/-! ## C14: variances -/

/-- C14.  The variances used are the absolute values raised to at least 1e-9; the covariances are as supplied. -/
theorem C14_sanitised {n : ℕ} (e : Fin n → Fin 15) (R : Mat15) (i j : Fin n) :
    subR e R i i = max |R (e i) (e i)| 1e-9 ∧ (i ≠ j → subR e R i j = R (e i) (e j)) := by
  constructor
  · simp only [subR, Matrix.of_apply, if_true, sanitize]
    have hn : ¬ ((1e-9 : ℝ) < 0) := by norm_num
    rcases lt_or_ge (R (e i) (e i)) 0 with h | h
    · rw [if_pos h]
      split
      · rename_i h2; rw [max_eq_right h2.le]
      · rename_i h2; rw [max_eq_left (not_lt.1 h2)]
    · rw [if_neg (not_lt.2 h), abs_of_nonneg h]
      split
      · rename_i h2; rw [max_eq_right h2.le]
      · rename_i h2; rw [max_eq_left (not_lt.1 h2)]
  · intro h
    simp [subR, h]

/-- A negative variance and a zero variance. -/
example : subR (![0, 1] : Fin 2 → Fin 15) (diagonal fun i => if i = 0 then -4 else 0) 0 0 = 4 ∧
    subR (![0, 1] : Fin 2 → Fin 15) (diagonal fun i => if i = 0 then -4 else 0) 1 1 = 1e-9 := by
  constructor
  · rw [(C14_sanitised _ _ 0 1).1]; norm_num
  · rw [(C14_sanitised _ _ 1 0).1]; norm_num

/-! ## C10: the first measurement -/

/-- C10.  The first measurement (finite in what it selects) copies exactly the selected values and covariances, keeps the
rest, initialises the filter and sets its clock; parameters, control and the filter's other members stay. -/
theorem C10_first_measurement (p : FilterPar) (f : Filt (ekfCore p)) (m : Meas (ekfCore p)) (x : State)
    (hi : f.initialized = false) (hx : f.x = some x) (z : Payload) (hz : m.z = z)
    (hfin : ∀ i, z.upd i = true → (z.z i).isFin = true) :
    let g := f.processMeasurement m
    (∃ x', g.x = some x' ∧ ∀ i, (z.upd i = true → z.z i = .fin (x' i)) ∧ (z.upd i = false → x' i = x i)) ∧
    (∃ P' : Mat15, g.cov = P' ∧ ∀ i j, (z.upd i = true → z.upd j = true → P' i j = z.R i j) ∧
      (z.upd i = false ∨ z.upd j = false → P' i j = (show Mat15 from f.cov) i j)) ∧
    g.initialized = true ∧ g.lastTime = m.time ∧ g.par = f.par ∧ g.ctl = f.ctl ∧ g.ctlTime = f.ctlTime := by
  intro g
  have hg : g = { f with x := (ekfCore p).initX m.z f.x, cov := (ekfCore p).initCov m.z f.cov, initialized := true, lastTime := m.time } := by
    show f.processMeasurement m = _
    unfold Filt.processMeasurement
    simp only [hi, Bool.false_eq_true, if_false]
  rw [hg]
  refine ⟨⟨fun i => if z.upd i then (z.z i).val else x i, ?_, ?_⟩, ⟨initCov z f.cov, ?_, ?_⟩, rfl, rfl, rfl, rfl, rfl⟩
  · show (f.x).bind (initState m.z) = _
    rw [hx, hz]
    show initState z x = _
    unfold initState
    rw [if_pos hfin]
  · intro i
    refine ⟨fun hu => ?_, fun hu => by simp [hu]⟩
    have := hfin i hu
    cases hzi : z.z i with
    | fin r => simp [hu, hzi]
    | nan => rw [hzi] at this; cases this
    | inf b => rw [hzi] at this; cases this
  · show initCov m.z f.cov = _
    rw [hz]
  · intro i j
    refine ⟨fun h1 h2 => by simp [initCov, h1, h2], fun h => ?_⟩
    rcases h with h | h <;> simp [initCov, h]

example : ∀ i, (demoZ (fun i => decide (i.val < 3)) (fun _ => .fin 2)).upd i = true →
    ((demoZ (fun i => decide (i.val < 3)) (fun _ => .fin 2)).z i).isFin = true := fun _ _ => rfl

end RL
