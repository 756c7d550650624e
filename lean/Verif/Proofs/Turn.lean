import Mathlib.LinearAlgebra.Matrix.NonsingularInverse
import Verif.Model.Ekf
import Verif.Proofs.Angle
/-! # Turning the world frame about its vertical axis (helper lemmas for C92) -/

namespace RL
open Matrix

/-- The linear part of the turn: positions are turned, everything else stays. -/
noncomputable def turn (θ : ℝ) : Mat15 := .of fun i j =>
  match i, j with
  | 0, 0 => Real.cos θ
  | 0, 1 => -Real.sin θ
  | 1, 0 => Real.sin θ
  | 1, 1 => Real.cos θ
  | i, j => if i = j then 1 else 0

theorem turn_apply (θ : ℝ) (i j : Fin 15) : turn θ i j =
    if i = 0 then (if j = 0 then Real.cos θ else if j = 1 then -Real.sin θ else 0)
    else if i = 1 then (if j = 0 then Real.sin θ else if j = 1 then Real.cos θ else 0)
    else if i = j then 1 else 0 := by
  have h : ∀ i j : Fin 15, turn θ i j = match i, j with
    | 0, 0 => Real.cos θ
    | 0, 1 => -Real.sin θ
    | 1, 0 => Real.sin θ
    | 1, 1 => Real.cos θ
    | i, j => if i = j then 1 else 0 := fun _ _ => rfl
  rw [h]
  fin_cases i <;> fin_cases j <;> simp

theorem sum_two (f : Fin 15 → ℝ) (h : ∀ k, k ≠ 0 → k ≠ 1 → f k = 0) : ∑ k, f k = f 0 + f 1 := by
  rw [← Finset.sum_subset (Finset.subset_univ ({0, 1} : Finset (Fin 15))), Finset.sum_pair (by decide)]
  intro k _ hk
  simp only [Finset.mem_insert, Finset.mem_singleton, not_or] at hk
  exact h k hk.1 hk.2

/-- Rows after a turn. -/
theorem turn_sum (θ : ℝ) (f : Fin 15 → ℝ) (i : Fin 15) : ∑ k, turn θ i k * f k =
    if i = 0 then Real.cos θ * f 0 - Real.sin θ * f 1
    else if i = 1 then Real.sin θ * f 0 + Real.cos θ * f 1 else f i := by
  by_cases h0 : i = 0
  · subst h0
    rw [sum_two _ fun k h0 h1 => by simp [turn_apply, h0, h1]]
    simp [turn_apply]
    ring
  · by_cases h1 : i = 1
    · subst h1
      rw [sum_two _ fun k h0 h1 => by simp [turn_apply, h0, h1]]
      simp [turn_apply]
    · simp [turn_apply, h0, h1]

theorem turn_mul (θ : ℝ) {n : Type} (M : Matrix (Fin 15) n ℝ) (i : Fin 15) (j : n) : (turn θ * M) i j =
    if i = 0 then Real.cos θ * M 0 j - Real.sin θ * M 1 j
    else if i = 1 then Real.sin θ * M 0 j + Real.cos θ * M 1 j else M i j := by
  rw [Matrix.mul_apply]
  exact turn_sum θ (fun k => M k j) i

theorem turn_mulVec (θ : ℝ) (x : State) (i : Fin 15) : (turn θ).mulVec x i =
    if i = 0 then Real.cos θ * x 0 - Real.sin θ * x 1
    else if i = 1 then Real.sin θ * x 0 + Real.cos θ * x 1 else x i := turn_sum θ x i

/-- Columns after a turn. -/
theorem mul_turn (θ : ℝ) {n : Type} (M : Matrix n (Fin 15) ℝ) (i : n) (j : Fin 15) : (M * turn θ) i j =
    if j = 0 then M i 0 * Real.cos θ + M i 1 * Real.sin θ
    else if j = 1 then -(M i 0 * Real.sin θ) + M i 1 * Real.cos θ else M i j := by
  rw [Matrix.mul_apply]
  by_cases h0 : j = 0
  · subst h0
    rw [sum_two _ fun k h0 h1 => by simp [turn_apply, h0, h1]]
    simp [turn_apply]
  · by_cases h1 : j = 1
    · subst h1
      rw [sum_two _ fun k h0 h1 => by simp [turn_apply, h0, h1]]
      simp [turn_apply]
    · rw [Finset.sum_eq_single j]
      · by_cases h : j = 0 <;> simp_all [turn_apply]
      · intro k _ hk
        simp [turn_apply, h0, h1, hk]
      · simp

theorem mul_turnT (θ : ℝ) {n : Type} (M : Matrix n (Fin 15) ℝ) (i : n) (j : Fin 15) : (M * (turn θ).transpose) i j =
    if j = 0 then Real.cos θ * M i 0 - Real.sin θ * M i 1
    else if j = 1 then Real.sin θ * M i 0 + Real.cos θ * M i 1 else M i j := by
  rw [Matrix.mul_apply]
  simp only [Matrix.transpose_apply, mul_comm (M i _)]
  exact turn_sum θ (M i) j

theorem turn_orth (θ : ℝ) : turn θ * (turn θ).transpose = 1 := by
  ext i j
  have := Real.sin_sq_add_cos_sq θ
  rw [mul_turnT]
  simp only [turn_apply, Matrix.one_apply]
  by_cases i0 : i = 0
  · subst i0
    by_cases j0 : j = 0
    · subst j0
      simp
      linarith
    · by_cases j1 : j = 1
      · subst j1
        simp
        ring
      · simp [j0, j1, Ne.symm j0]
  · by_cases i1 : i = 1
    · subst i1
      by_cases j0 : j = 0
      · subst j0
        simp
        ring
      · by_cases j1 : j = 1
        · subst j1
          simp
          linarith
        · simp [j0, j1, Ne.symm j1]
    · by_cases j0 : j = 0
      · subst j0
        simp [i0, i1]
      · by_cases j1 : j = 1
        · subst j1
          simp [i0, i1]
        · simp [i0, i1, j0, j1]

theorem turn_orth' (θ : ℝ) : (turn θ).transpose * turn θ = 1 := mul_eq_one_comm.1 (turn_orth θ)

/-- Two states that describe the same motion in world frames turned by `θ`; headings count up to full turns. -/
structure SameTurned (θ : ℝ) (x x' : State) : Prop where
  px : x' 0 = Real.cos θ * x 0 - Real.sin θ * x 1
  py : x' 1 = Real.sin θ * x 0 + Real.cos θ * x 1
  yaw : ∃ k : ℤ, x' 5 = x 5 + θ + k * (2 * Real.pi)
  rest : ∀ i, i ≠ 0 → i ≠ 1 → i ≠ 5 → x' i = x i

theorem SameTurned.eq {θ : ℝ} {x x' : State} (h : SameTurned θ x x') :
    ∃ k : ℤ, x' = (turn θ).mulVec x + (θ + k * (2 * Real.pi)) • Pi.single 5 1 := by
  obtain ⟨k, hk⟩ := h.yaw
  refine ⟨k, ?_⟩
  funext i
  rw [Pi.add_apply, turn_mulVec, Pi.smul_apply, smul_eq_mul]
  by_cases h0 : i = 0
  · subst h0; simp [h.px]
  · by_cases h1 : i = 1
    · subst h1; simp [h.py]
    · by_cases h5 : i = 5
      · subst h5
        simp [hk]
        ring
      · simp [h0, h1, h5, h.rest i h0 h1 h5]

theorem SameTurned.of_eq {θ : ℝ} {x x' : State} (k : ℤ)
    (h : x' = (turn θ).mulVec x + (θ + k * (2 * Real.pi)) • Pi.single 5 1) : SameTurned θ x x' := by
  have e : ∀ i, x' i = (turn θ).mulVec x i + (θ + k * (2 * Real.pi)) * (Pi.single 5 1 : State) i := by
    intro i
    rw [h]
    rfl
  refine ⟨?_, ?_, ⟨k, ?_⟩, fun i h0 h1 h5 => ?_⟩
  · rw [e, turn_mulVec]; simp
  · rw [e, turn_mulVec]; simp
  · rw [e, turn_mulVec]; simp; ring
  · rw [e, turn_mulVec]; simp [h0, h1, h5]

theorem SameTurned.wrap {θ : ℝ} {x x' : State} (h : SameTurned θ x x') :
    SameTurned θ (wrapStateAngles x) (wrapStateAngles x') := by
  obtain ⟨k, hk⟩ := h.yaw
  refine ⟨h.px, h.py, ?_, fun i h0 h1 h5 => ?_⟩
  · obtain ⟨a, ha⟩ := (normalizeAngle_spec (x 5)).2.2
    obtain ⟨b, hb⟩ := (normalizeAngle_spec (x' 5)).2.2
    show ∃ k : ℤ, normalizeAngle (x' 5) = normalizeAngle (x 5) + θ + k * (2 * Real.pi)
    refine ⟨k - b + a, ?_⟩
    rw [ha, hb, hk]
    push_cast
    ring
  · unfold wrapStateAngles
    rw [h.rest i h0 h1 h5]

theorem sin_turned {θ : ℝ} {x x' : State} (h : SameTurned θ x x') :
    Real.sin (x' 5) = Real.sin θ * Real.cos (x 5) + Real.cos θ * Real.sin (x 5) := by
  obtain ⟨k, hk⟩ := h.yaw
  rw [hk, Real.sin_add_int_mul_two_pi, Real.sin_add]
  ring

theorem cos_turned {θ : ℝ} {x x' : State} (h : SameTurned θ x x') :
    Real.cos (x' 5) = Real.cos θ * Real.cos (x 5) - Real.sin θ * Real.sin (x 5) := by
  obtain ⟨k, hk⟩ := h.yaw
  rw [hk, Real.cos_add_int_mul_two_pi, Real.cos_add]
  ring

theorem trig_turned {θ : ℝ} {x x' : State} (h : SameTurned θ x x') : trig x' = { trig x with
    sy := Real.sin θ * (trig x).cy + Real.cos θ * (trig x).sy
    cy := Real.cos θ * (trig x).cy - Real.sin θ * (trig x).sy } := by
  have h3 : x' iRoll = x iRoll := h.rest 3 (by decide) (by decide) (by decide)
  have h4 : x' iPitch = x iPitch := h.rest 4 (by decide) (by decide) (by decide)
  unfold trig
  simp only [h3, h4]
  congr 1
  · exact sin_turned h
  · exact cos_turned h

/-- The trigonometric values after a turn with the given sine and cosine. -/
noncomputable def Trig.turned (s c : ℝ) (t : Trig) : Trig := { t with sy := s * t.cy + c * t.sy, cy := c * t.cy - s * t.sy }

theorem fEntry_rest (s c : ℝ) (t : Trig) (dt : ℝ) (i j : Fin 15) (h0 : i ≠ 0) (h1 : i ≠ 1) :
    fEntry (t.turned s c) dt i j = fEntry t dt i j := by
  fin_cases i
  · exact absurd rfl h0
  · exact absurd rfl h1
  all_goals fin_cases j <;> rfl

theorem fEntry_left (t : Trig) (dt : ℝ) (i j : Fin 15) (h : j.val < 6) : fEntry t dt i j = none := by
  have : j = 0 ∨ j = 1 ∨ j = 2 ∨ j = 3 ∨ j = 4 ∨ j = 5 := by omega
  rcases this with rfl | rfl | rfl | rfl | rfl | rfl <;> fin_cases i <;> rfl

theorem fEntry_turned (s c : ℝ) (t : Trig) (dt : ℝ) (j : Fin 15) :
    (∃ a b, fEntry t dt 0 j = some a ∧ fEntry t dt 1 j = some b ∧ fEntry (t.turned s c) dt 0 j = some (c * a - s * b) ∧
      fEntry (t.turned s c) dt 1 j = some (s * a + c * b)) ∨
    (∀ t, fEntry t dt 0 j = none ∧ fEntry t dt 1 j = none) := by
  fin_cases j <;> first
    | exact Or.inr fun _ => ⟨rfl, rfl⟩
    | (refine Or.inl ⟨_, _, rfl, rfl, ?_, ?_⟩ <;> exact congrArg some (by simp only [Trig.turned]; ring))

/-- The transfer function in the turned frame. -/
theorem transferF_turned {θ : ℝ} {x x' : State} (h : SameTurned θ x x') (dt : ℝ) :
    transferF x' dt * turn θ = turn θ * transferF x dt := by
  have ht : trig x' = (trig x).turned (Real.sin θ) (Real.cos θ) := trig_turned h
  ext i j
  rw [mul_turn, turn_mul]
  have hF : ∀ (y : State) i j, transferF y dt i j = (fEntry (trig y) dt i j).getD ((1 : Mat15) i j) := fun _ _ _ => rfl
  have hl : ∀ (y : State) (i j : Fin 15), j.val < 6 → transferF y dt i j = (1 : Mat15) i j := by
    intro y i j hj
    rw [hF, fEntry_left _ _ _ _ hj]
    rfl
  by_cases j0 : j = 0
  · subst j0
    simp only [if_true, hl x' _ 0 (by decide), hl x' _ 1 (by decide), hl x _ 0 (by decide), Matrix.one_apply]
    by_cases i0 : i = 0
    · subst i0; simp
    · by_cases i1 : i = 1
      · subst i1; simp
      · simp [i0, i1]
  · by_cases j1 : j = 1
    · subst j1
      simp only [if_true, hl x' _ 0 (by decide), hl x' _ 1 (by decide), hl x _ 1 (by decide), Matrix.one_apply]
      by_cases i0 : i = 0
      · subst i0; simp
      · by_cases i1 : i = 1
        · subst i1; simp
        · simp [i0, i1]
    · rw [if_neg j0, if_neg j1]
      simp only [hF, ht]
      by_cases i0 : i = 0
      · subst i0
        rw [if_pos rfl]
        rcases fEntry_turned (Real.sin θ) (Real.cos θ) (trig x) dt j with ⟨a, b, ha, hb, ha', hb'⟩ | hn
        · rw [ha, hb, ha']
          rfl
        · rw [(hn _).1, (hn _).1, (hn _).2]
          simp [Matrix.one_apply, Ne.symm j0, Ne.symm j1]
      · by_cases i1 : i = 1
        · subst i1
          rw [if_neg (by decide), if_pos rfl]
          rcases fEntry_turned (Real.sin θ) (Real.cos θ) (trig x) dt j with ⟨a, b, ha, hb, ha', hb'⟩ | hn
          · rw [ha, hb, hb']
            rfl
          · rw [(hn _).2, (hn _).1, (hn _).2]
            simp [Matrix.one_apply, Ne.symm j0, Ne.symm j1]
        · rw [if_neg i0, if_neg i1, fEntry_rest _ _ _ _ _ _ i0 i1]

theorem jEntry_turned (s c : ℝ) (t : Trig) (dt : ℝ) (x : State) (j : Fin 15) :
    (∃ a b, jEntry t dt x 0 j = some a ∧ jEntry t dt x 1 j = some b ∧
      jEntry (t.turned s c) dt x 0 j = some (c * a - s * b) ∧ jEntry (t.turned s c) dt x 1 j = some (s * a + c * b)) ∨
    (∀ t, jEntry t dt x 0 j = none ∧ jEntry t dt x 1 j = none) := by
  fin_cases j <;> first
    | exact Or.inr fun _ => ⟨rfl, rfl⟩
    | (refine Or.inl ⟨_, _, rfl, rfl, ?_, ?_⟩ <;> exact congrArg some (by simp only [Trig.turned]; ring))

theorem jEntry_rest (s c : ℝ) (t : Trig) (dt : ℝ) (x : State) (i j : Fin 15) (h0 : i ≠ 0) (h1 : i ≠ 1) :
    jEntry (t.turned s c) dt x i j = jEntry t dt x i j := by
  fin_cases i
  · exact absurd rfl h0
  · exact absurd rfl h1
  all_goals fin_cases j <;> rfl

theorem jEntry_left (t : Trig) (dt : ℝ) (x : State) (i j : Fin 15) (h : j.val < 3) : jEntry t dt x i j = none := by
  have : j = 0 ∨ j = 1 ∨ j = 2 := by omega
  rcases this with rfl | rfl | rfl <;> fin_cases i <;> rfl

theorem jEntry_congr (t : Trig) (dt : ℝ) {x x' : State} (h : ∀ i : Fin 15, 6 ≤ i.val → x' i = x i) :
    jEntry t dt x' = jEntry t dt x := by
  unfold jEntry
  simp only [h iVx (by decide), h iVy (by decide), h iVz (by decide), h iAx (by decide), h iAy (by decide),
    h iAz (by decide), h iVpitch (by decide), h iVyaw (by decide)]

theorem SameTurned.upper {θ : ℝ} {x x' : State} (h : SameTurned θ x x') : ∀ i : Fin 15, 6 ≤ i.val → x' i = x i :=
  fun i hi => h.rest i (by rintro rfl; exact absurd hi (by decide)) (by rintro rfl; exact absurd hi (by decide))
    (by rintro rfl; exact absurd hi (by decide))

/-- The Jacobian in the turned frame. -/
theorem transferJ_turned {θ : ℝ} {x x' : State} (h : SameTurned θ x x') (dt : ℝ) :
    transferJ x' dt * turn θ = turn θ * transferJ x dt := by
  have ht : trig x' = (trig x).turned (Real.sin θ) (Real.cos θ) := trig_turned h
  have hF := transferF_turned h dt
  ext i j
  have hFij := congrFun (congrFun hF i) j
  rw [mul_turn, turn_mul] at hFij ⊢
  have hJ : ∀ i j, transferJ x dt i j = (jEntry (trig x) dt x i j).getD (transferF x dt i j) := fun _ _ => rfl
  have hJ' : ∀ i j, transferJ x' dt i j =
      (jEntry ((trig x).turned (Real.sin θ) (Real.cos θ)) dt x i j).getD (transferF x' dt i j) := by
    intro i j
    rw [← jEntry_congr _ dt h.upper, ← ht]
    rfl
  have hl : ∀ (i j : Fin 15), j.val < 3 → transferJ x dt i j = transferF x dt i j := by
    intro i j hj
    rw [hJ, jEntry_left _ _ _ _ _ hj]
    rfl
  have hl' : ∀ (i j : Fin 15), j.val < 3 → transferJ x' dt i j = transferF x' dt i j := by
    intro i j hj
    rw [hJ', jEntry_left _ _ _ _ _ hj]
    rfl
  by_cases j0 : j = 0
  · subst j0
    simpa only [hl _ 0 (by decide), hl' _ 0 (by decide), hl' _ 1 (by decide)] using hFij
  · by_cases j1 : j = 1
    · subst j1
      simpa only [hl _ 1 (by decide), hl' _ 0 (by decide), hl' _ 1 (by decide)] using hFij
    · rw [if_neg j0, if_neg j1] at hFij ⊢
      simp only [hJ, hJ']
      rcases jEntry_turned (Real.sin θ) (Real.cos θ) (trig x) dt x j with ⟨a, b, ha, hb, ha', hb'⟩ | hn
      · by_cases i0 : i = 0
        · subst i0
          rw [if_pos rfl, ha, hb, ha']
          rfl
        · by_cases i1 : i = 1
          · subst i1
            rw [if_neg (by decide), if_pos rfl, ha, hb, hb']
            rfl
          · rw [if_neg i0, if_neg i1] at hFij ⊢
            rw [jEntry_rest _ _ _ _ _ _ _ i0 i1, hFij]
      · by_cases i0 : i = 0
        · subst i0
          rw [if_pos rfl] at hFij ⊢
          rw [(hn _).1, (hn _).1, (hn _).2]
          exact hFij
        · by_cases i1 : i = 1
          · subst i1
            rw [if_neg (by decide), if_pos rfl] at hFij ⊢
            rw [(hn _).2, (hn _).1, (hn _).2]
            exact hFij
          · rw [if_neg i0, if_neg i1] at hFij ⊢
            rw [jEntry_rest _ _ _ _ _ _ _ i0 i1, hFij]

/-- A covariance in the turned frame. -/
noncomputable def turnCov (θ : ℝ) (P : Mat15) : Mat15 := turn θ * P * (turn θ).transpose

theorem turnCov_add (θ : ℝ) (P Q : Mat15) : turnCov θ (P + Q) = turnCov θ P + turnCov θ Q := by
  unfold turnCov
  rw [Matrix.mul_add, Matrix.add_mul]

theorem turnCov_smul (θ r : ℝ) (P : Mat15) : turnCov θ (r • P) = r • turnCov θ P := by
  unfold turnCov
  rw [Matrix.mul_smul, Matrix.smul_mul]

theorem turnCov_one (θ : ℝ) : turnCov θ 1 = 1 := by
  unfold turnCov
  rw [Matrix.mul_one, turn_orth]

/-- Entries of a covariance in the turned frame. -/
theorem turnCov_apply (θ : ℝ) (P : Mat15) (i j : Fin 15) : turnCov θ P i j =
    (fun f : Fin 15 → ℝ => if j = 0 then Real.cos θ * f 0 - Real.sin θ * f 1
      else if j = 1 then Real.sin θ * f 0 + Real.cos θ * f 1 else f j) (fun k => if i = 0 then Real.cos θ * P 0 k - Real.sin θ * P 1 k
        else if i = 1 then Real.sin θ * P 0 k + Real.cos θ * P 1 k else P i k) := by
  unfold turnCov
  rw [mul_turnT]
  simp only [turn_mul]

theorem noiseQ_turned (p : FilterPar) {θ : ℝ} {x x' : State} (h : SameTurned θ x x') (Q : Mat15) :
    noiseQ p (turnCov θ Q) x' = turnCov θ (noiseQ p Q x) := by
  unfold noiseQ
  split
  · have hv : ∀ c : Fin 6, x' (velIdx c) = x (velIdx c) := fun c => h.upper _ (by simp [velIdx])
    unfold writeDyn
    simp only [hv]
    generalize Real.sqrt (∑ c : Fin 6, x (velIdx c) ^ 2) = v
    ext i j
    rw [Matrix.of_apply, turnCov_apply, turnCov_apply]
    simp only [Matrix.of_apply]
    by_cases i0 : i = 0
    · subst i0
      by_cases j0 : j = 0
      · subst j0; simp; ring
      · by_cases j1 : j = 1
        · subst j1; simp; ring
        · by_cases j6 : j.val < 6
          · simp [j0, j1, j6]; ring
          · simp [j0, j1, j6]
    · by_cases i1 : i = 1
      · subst i1
        by_cases j0 : j = 0
        · subst j0; simp; ring
        · by_cases j1 : j = 1
          · subst j1; simp; ring
          · by_cases j6 : j.val < 6
            · simp [j0, j1, j6]; ring
            · simp [j0, j1, j6]
      · by_cases i6 : i.val < 6
        · by_cases j0 : j = 0
          · subst j0; simp [i0, i1, i6]; ring
          · by_cases j1 : j = 1
            · subst j1; simp [i0, i1, i6]; ring
            · by_cases j6 : j.val < 6 <;> simp [i0, i1, i6, j0, j1, j6]
        · by_cases j0 : j = 0
          · subst j0; simp [i0, i1, i6]
          · by_cases j1 : j = 1
            · subst j1; simp [i0, i1, i6]
            · simp [i0, i1, i6, j0, j1]
  · rfl

theorem applyControl_turned (p : FilterPar) {θ : ℝ} {x x' : State} (h : SameTurned θ x x') (ca : Fin 6 → ℝ) (dt : ℝ) :
    SameTurned θ (applyControl p ca dt x) (applyControl p ca dt x') := by
  refine ⟨h.px, h.py, h.yaw, fun i h0 h1 h5 => ?_⟩
  have hi := h.rest i h0 h1 h5
  fin_cases i
  all_goals first
    | exact hi
    | exact congrArg (fun a => a + ca 3 * dt) hi
    | exact congrArg (fun a => a + ca 4 * dt) hi
    | exact congrArg (fun a => a + ca 5 * dt) hi
    | exact congrArg (fun a => if p.ctlUpd 0 then ca 0 else a) hi
    | exact congrArg (fun a => if p.ctlUpd 1 then ca 1 else a) hi
    | exact congrArg (fun a => if p.ctlUpd 2 then ca 2 else a) hi

theorem transferF_heading (x : State) (dt : ℝ) : (transferF x dt).mulVec (Pi.single 5 1) = Pi.single 5 1 := by
  rw [Matrix.mulVec_single_one]
  funext i
  show (fEntry (trig x) dt i 5).getD ((1 : Mat15) i 5) = _
  rw [fEntry_left _ _ _ _ (by decide), Option.getD_none, Matrix.one_apply, Pi.single_apply]

/-- One prediction in the turned frame. -/
theorem predict_turned (p : FilterPar) {θ : ℝ} {x x' : State} (h : SameTurned θ x x') (Q : Mat15) (ctl : Fin 6 → ℝ)
    (ct ref : Int) (dt : ℝ) (P : Mat15) :
    Option.Rel (fun r r' => SameTurned θ r.1 r'.1 ∧ r'.2 = turnCov θ r.2)
      (Ekf.predict p Q ctl ct ref dt x P) (Ekf.predict p (turnCov θ Q) ctl ct ref dt x' (turnCov θ P)) := by
  have hc : prepareControl p ctl ct ref x' = prepareControl p ctl ct ref x := by
    funext c
    unfold prepareControl
    rw [h.upper (velIdx c) (by simp [velIdx])]
  have h4 : x' iPitch = x iPitch := h.rest 4 (by decide) (by decide) (by decide)
  unfold Ekf.predict
  simp only [h4, hc]
  split
  · exact .none
  · refine .some ⟨?_, ?_⟩
    · apply SameTurned.wrap
      obtain ⟨k, hk⟩ := (applyControl_turned p h (prepareControl p ctl ct ref x) dt).eq
      refine SameTurned.of_eq k ?_
      rw [hk, Matrix.mulVec_add, Matrix.mulVec_smul, transferF_heading, Matrix.mulVec_mulVec, transferF_turned h,
        ← Matrix.mulVec_mulVec]
    · dsimp only
      rw [turnCov_add, turnCov_smul, noiseQ_turned p h]
      congr 1
      have hJ := transferJ_turned h dt
      have hJt : (turn θ).transpose * (transferJ x' dt).transpose = (transferJ x dt).transpose * (turn θ).transpose := by
        rw [← Matrix.transpose_mul, hJ, Matrix.transpose_mul]
      unfold turnCov
      calc transferJ x' dt * (turn θ * P * (turn θ).transpose) * (transferJ x' dt).transpose
          = (transferJ x' dt * turn θ) * P * ((turn θ).transpose * (transferJ x' dt).transpose) := by
            simp only [Matrix.mul_assoc]
        _ = turn θ * (transferJ x dt * P * (transferJ x dt).transpose) * (turn θ).transpose := by
            rw [hJ, hJt]
            simp only [Matrix.mul_assoc]

theorem conj_mul₁ {m : Type} [Fintype m] [DecidableEq m] (T A P : Matrix m m ℝ) (hT : T.transpose * T = 1) :
    T * A * T.transpose * (T * P * T.transpose) * (T * A * T.transpose).transpose = T * (A * P * A.transpose) * T.transpose := by
  rw [Matrix.transpose_mul, Matrix.transpose_mul, Matrix.transpose_transpose]
  calc T * A * T.transpose * (T * P * T.transpose) * (T * (A.transpose * T.transpose))
      = T * A * (T.transpose * T) * P * (T.transpose * T) * A.transpose * T.transpose := by simp only [Matrix.mul_assoc]
    _ = T * (A * P * A.transpose) * T.transpose := by
      rw [hT, Matrix.mul_one, Matrix.mul_one]
      simp only [Matrix.mul_assoc]

theorem conj_mul₂ {m k : Type} [Fintype m] [Fintype k] [DecidableEq k] (T : Matrix m m ℝ) (K : Matrix m k ℝ)
    (U R : Matrix k k ℝ) (hU : U.transpose * U = 1) :
    T * K * U.transpose * (U * R * U.transpose) * (T * K * U.transpose).transpose = T * (K * R * K.transpose) * T.transpose := by
  rw [Matrix.transpose_mul, Matrix.transpose_mul, Matrix.transpose_transpose]
  calc T * K * U.transpose * (U * R * U.transpose) * (U * (K.transpose * T.transpose))
      = T * K * (U.transpose * U) * R * (U.transpose * U) * K.transpose * T.transpose := by simp only [Matrix.mul_assoc]
    _ = T * (K * R * K.transpose) * T.transpose := by
      rw [hU, Matrix.mul_one, Matrix.mul_one]
      simp only [Matrix.mul_assoc]

section Correct
variable {n : ℕ} {e : Fin n → Fin 15}

theorem subH_mul_apply {m : Type} (M : Matrix (Fin 15) m ℝ) (a : Fin n) (j : m) : (subH e * M) a j = M (e a) j := by
  rw [Matrix.mul_apply]
  simp [subH]

theorem mul_subHT_apply {m : Type} (M : Matrix m (Fin 15) ℝ) (i : m) (b : Fin n) : (M * (subH e).transpose) i b = M i (e b) := by
  rw [Matrix.mul_apply]
  simp [subH]

/-- The turn of the measured values. -/
noncomputable def turnSub (θ : ℝ) (e : Fin n → Fin 15) : Matrix (Fin n) (Fin n) ℝ := subH e * turn θ * (subH e).transpose

theorem turnSub_mul (θ : ℝ) (he : Function.Injective e) (hc : (∃ a, e a = 0) ↔ ∃ a, e a = 1) :
    turnSub θ e * subH e = subH e * turn θ := by
  ext a j
  have hU : ∀ a b, turnSub θ e a b = turn θ (e a) (e b) := by
    intro a b
    unfold turnSub
    rw [mul_subHT_apply, subH_mul_apply]
  rw [subH_mul_apply, Matrix.mul_apply]
  simp only [hU, subH, Matrix.of_apply, mul_ite, mul_one, mul_zero]
  by_cases hj : ∃ b, e b = j
  · obtain ⟨b, rfl⟩ := hj
    rw [Finset.sum_eq_single b]
    · simp
    · intro b' _ hb'
      rw [if_neg fun h => hb' (he h).symm]
    · simp
  · rw [Finset.sum_eq_zero fun b _ => if_neg fun h => hj ⟨b, h.symm⟩, turn_apply]
    have hne : e a ≠ j := fun h => hj ⟨a, h⟩
    by_cases h0 : e a = 0
    · have j0 : j ≠ 0 := fun h => hne (h0.trans h.symm)
      have j1 : j ≠ 1 := fun h => hj (h ▸ hc.1 ⟨a, h0⟩)
      simp [h0, j0, j1]
    · by_cases h1 : e a = 1
      · have j1 : j ≠ 1 := fun h => hne (h1.trans h.symm)
        have j0 : j ≠ 0 := fun h => hj (h ▸ hc.2 ⟨a, h1⟩)
        simp [h1, j0, j1]
      · simp [h0, h1, hne]

theorem subH_subHT (he : Function.Injective e) : subH e * (subH e).transpose = 1 := by
  ext a b
  rw [mul_subHT_apply, Matrix.one_apply]
  simp [subH, he.eq_iff, eq_comm]

theorem turnSub_orth (θ : ℝ) (he : Function.Injective e) (hc : (∃ a, e a = 0) ↔ ∃ a, e a = 1) :
    turnSub θ e * (turnSub θ e).transpose = 1 := by
  have : (turnSub θ e).transpose = subH e * ((turn θ).transpose * (subH e).transpose) := by
    unfold turnSub
    rw [Matrix.transpose_mul, Matrix.transpose_mul, Matrix.transpose_transpose]
  rw [this, ← Matrix.mul_assoc, turnSub_mul θ he hc, Matrix.mul_assoc, ← Matrix.mul_assoc (turn θ), turn_orth, Matrix.one_mul,
    subH_subHT he]

theorem turnSub_orth' (θ : ℝ) (he : Function.Injective e) (hc : (∃ a, e a = 0) ↔ ∃ a, e a = 1) :
    (turnSub θ e).transpose * turnSub θ e = 1 := mul_eq_one_comm.1 (turnSub_orth θ he hc)

theorem sanitize_of_le {v : ℝ} (h : 1e-9 ≤ v) : sanitize v = v := by
  unfold sanitize
  have : ¬ v < 0 := by
    have : (0 : ℝ) < 1e-9 := by norm_num
    linarith
  simp [this, not_lt.2 h]

theorem subR_plain (R : Mat15) (h : ∀ a, 1e-9 ≤ R (e a) (e a)) : subR e R = subH e * R * (subH e).transpose := by
  ext a b
  rw [mul_subHT_apply, subH_mul_apply]
  unfold subR
  rw [Matrix.of_apply]
  split
  · rename_i hab
    subst hab
    exact sanitize_of_le (h a)
  · rfl

/-- One correction in the turned frame. -/
theorem correctAt_turned {θ : ℝ} (he : Function.Injective e) (hc : (∃ a, e a = 0) ↔ ∃ a, e a = 1) {x x' : State}
    (h : SameTurned θ x x') (z z' : Fin 15 → ℝ) (R : Mat15) (hR : ∀ a, 1e-9 ≤ R (e a) (e a))
    (hR' : ∀ a, 1e-9 ≤ turnCov θ R (e a) (e a)) (thr : Thresh) (P : Mat15)
    (hy : innovation e z' x' = (turnSub θ e).mulVec (innovation e z x)) :
    Option.Rel (fun r r' => SameTurned θ r.1 r'.1 ∧ r'.2 = turnCov θ r.2)
      (correctAt e z R thr x P) (correctAt e z' (turnCov θ R) thr x' (turnCov θ P)) := by
  have hUU := turnSub_orth θ he hc
  have hUU' := turnSub_orth' θ he hc
  have hUH := turnSub_mul θ he hc
  revert hUU hUU' hUH hy
  generalize turnSub θ e = U
  intro hy hUU hUU' hUH
  have hHt : (turn θ).transpose * (subH e).transpose = (subH e).transpose * U.transpose := by
    rw [← Matrix.transpose_mul, ← hUH, Matrix.transpose_mul]
  have hUtH : U.transpose * subH e = subH e * (turn θ).transpose := by
    calc U.transpose * subH e = U.transpose * (subH e * turn θ) * (turn θ).transpose := by
          rw [Matrix.mul_assoc, Matrix.mul_assoc, turn_orth, Matrix.mul_one]
      _ = subH e * (turn θ).transpose := by
          rw [← hUH, ← Matrix.mul_assoc, hUU', Matrix.one_mul]
  have hsub : ∀ M : Mat15, subH e * turnCov θ M * (subH e).transpose = U * (subH e * M * (subH e).transpose) * U.transpose := by
    intro M
    unfold turnCov
    calc subH e * (turn θ * M * (turn θ).transpose) * (subH e).transpose
        = (subH e * turn θ) * M * ((turn θ).transpose * (subH e).transpose) := by simp only [Matrix.mul_assoc]
      _ = U * (subH e * M * (subH e).transpose) * U.transpose := by
        rw [← hUH, hHt]
        simp only [Matrix.mul_assoc]
  have hsR : subR e (turnCov θ R) = U * subR e R * U.transpose := by
    rw [subR_plain _ hR', subR_plain _ hR, hsub]
  have hS : innovCov e (turnCov θ R) (turnCov θ P) = U * innovCov e R P * U.transpose := by
    unfold innovCov
    rw [hsR, Matrix.mul_add, Matrix.add_mul, ← Matrix.mul_assoc, hsub, Matrix.mul_assoc (subH e)]
  have hdU : U.det * U.transpose.det = 1 := by rw [← Matrix.det_mul, hUU, Matrix.det_one]
  have hdet : (innovCov e (turnCov θ R) (turnCov θ P)).det = (innovCov e R P).det := by
    rw [hS, Matrix.det_mul, Matrix.det_mul, mul_right_comm, hdU, one_mul]
  unfold correctAt
  rw [hdet]
  by_cases hd : (innovCov e R P).det = 0
  · rw [if_pos hd, if_pos hd]
    exact .none
  rw [if_neg hd, if_neg hd]
  have hinv : (innovCov e (turnCov θ R) (turnCov θ P))⁻¹ = U * (innovCov e R P)⁻¹ * U.transpose := by
    apply Matrix.inv_eq_right_inv
    rw [hS]
    calc U * innovCov e R P * U.transpose * (U * (innovCov e R P)⁻¹ * U.transpose)
        = U * innovCov e R P * (U.transpose * U) * (innovCov e R P)⁻¹ * U.transpose := by simp only [Matrix.mul_assoc]
      _ = 1 := by
        rw [hUU', Matrix.mul_one, Matrix.mul_assoc U, Matrix.mul_nonsing_inv _ (isUnit_iff_ne_zero.2 hd), Matrix.mul_one, hUU]
  have hgain : gain e (turnCov θ R) (turnCov θ P) = turn θ * gain e R P * U.transpose := by
    unfold gain
    rw [hinv]
    unfold turnCov
    calc turn θ * P * (turn θ).transpose * (subH e).transpose * (U * (innovCov e R P)⁻¹ * U.transpose)
        = turn θ * P * ((turn θ).transpose * (subH e).transpose) * U * (innovCov e R P)⁻¹ * U.transpose := by
          simp only [Matrix.mul_assoc]
      _ = turn θ * P * (subH e).transpose * (U.transpose * U) * (innovCov e R P)⁻¹ * U.transpose := by
          rw [hHt]
          simp only [Matrix.mul_assoc]
      _ = turn θ * (P * (subH e).transpose * (innovCov e R P)⁻¹) * U.transpose := by
          rw [hUU', Matrix.mul_one]
          simp only [Matrix.mul_assoc]
  have hmah : checkMahalanobis (innovation e z' x') (innovCov e (turnCov θ R) (turnCov θ P))⁻¹ thr ↔
      checkMahalanobis (innovation e z x) (innovCov e R P)⁻¹ thr := by
    cases thr with
    | unlimited => exact Iff.rfl
    | sigmas k =>
      unfold checkMahalanobis
      have : (innovation e z' x') ⬝ᵥ (innovCov e (turnCov θ R) (turnCov θ P))⁻¹.mulVec (innovation e z' x') =
          (innovation e z x) ⬝ᵥ (innovCov e R P)⁻¹.mulVec (innovation e z x) := by
        rw [hy, hinv, Matrix.mulVec_mulVec, Matrix.mul_assoc, hUU', Matrix.mul_one, ← Matrix.mulVec_mulVec,
          Matrix.dotProduct_mulVec, ← Matrix.mulVec_transpose, Matrix.mulVec_mulVec, hUU', Matrix.one_mulVec]
      rw [this]
  by_cases hm : checkMahalanobis (innovation e z x) (innovCov e R P)⁻¹ thr
  · rw [if_pos hm, if_pos (hmah.2 hm)]
    refine .some ⟨?_, ?_⟩
    · apply SameTurned.wrap
      obtain ⟨k, hk⟩ := h.eq
      refine SameTurned.of_eq k ?_
      rw [hy, hk, hgain, Matrix.mulVec_mulVec, Matrix.mul_assoc, hUU', Matrix.mul_one, Matrix.mulVec_add,
        Matrix.mulVec_mulVec]
      abel
    · dsimp only
      unfold joseph
      rw [hgain, hsR, turnCov_add]
      have hA : 1 - turn θ * gain e R P * U.transpose * subH e = turn θ * (1 - gain e R P * subH e) * (turn θ).transpose := by
        rw [Matrix.mul_sub, Matrix.sub_mul, Matrix.mul_one, turn_orth, Matrix.mul_assoc _ U.transpose, hUtH]
        simp only [Matrix.mul_assoc]
      rw [hA]
      unfold turnCov
      rw [conj_mul₁ _ _ _ (turn_orth' θ), conj_mul₂ _ _ _ _ hUU']
  · rw [if_neg hm, if_neg fun h' => hm (hmah.1 h')]
    exact .some ⟨h, rfl⟩

end Correct

end RL
