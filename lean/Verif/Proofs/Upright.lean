import Verif.Props.PrepareCov
import Verif.Proofs.Planar
/-! # Covariances of a sensor that stands upright, in 2D mode -/

namespace RL
open Matrix Body

/-- Height, roll and pitch are measured independently of everything else, roll and pitch equally well. -/
structure Level6 (C : M6) : Prop where
  alone : ∀ i j : Fin 6, i.val = 2 ∨ i.val = 3 ∨ i.val = 4 → i ≠ j → C i j = 0 ∧ C j i = 0
  even : C 3 3 = C 4 4

/-- The third axis is measured independently of the others. -/
def Level3 (C : M3) : Prop := ∀ j : Fin 3, j ≠ 2 → C 2 j = 0 ∧ C j 2 = 0

/-- Every transform is a turn about the vertical. -/
def Standing (buf : TfBuffer) : Prop := ∀ a b s t, buf a b s = some t → ∃ yaw, t.rot = rotZ yaw

theorem rotZ_zero : rotZ 0 = 1 := by
  ext i j
  fin_cases i <;> fin_cases j <;> simp [rotZ]

theorem lookup_upright {buf : TfBuffer} (hu : Standing buf) {a b : String} {s : Int} {t : Tf}
    (h : lookupTransformSafe buf a b s = some t) : ∃ yaw, t.rot = rotZ yaw := by
  unfold lookupTransformSafe at h
  split at h
  · rename_i x hx
    injection h with h
    rw [← h]
    exact hu _ _ _ _ hx
  · split at h
    · rename_i x hx
      injection h with h
      rw [← h]
      exact hu _ _ _ _ hx
    · split at h
      · injection h with h
        rw [← h]
        exact ⟨0, rotZ_zero.symm⟩
      · cases h

/-- A matrix that acts on the space of `E` as a number. -/
def Scalar {n : Type} [Fintype n] (E C : Matrix n n ℝ) : Prop := ∃ v : ℝ, C * E = v • E ∧ E * C = v • E

theorem Scalar.conj {n : Type} [Fintype n] [DecidableEq n] {E C R : Matrix n n ℝ} (h : Scalar E C) (hR : R * E = E * R)
    (hR' : Rᵀ * E = E * Rᵀ) (ho : R * Rᵀ = 1) : Scalar E (R * C * Rᵀ) := by
  obtain ⟨v, h1, h2⟩ := h
  refine ⟨v, ?_, ?_⟩
  · rw [Matrix.mul_assoc, hR', ← Matrix.mul_assoc, Matrix.mul_assoc R C E, h1, Matrix.mul_smul, Matrix.smul_mul, hR, Matrix.mul_assoc,
      ho, Matrix.mul_one]
  · rw [← Matrix.mul_assoc, ← Matrix.mul_assoc, ← hR, Matrix.mul_assoc R E C, h2, Matrix.mul_smul, Matrix.smul_mul, hR, Matrix.mul_assoc,
      ho, Matrix.mul_one]

def eUp : M6 := diagonal fun i => if i.val = 2 then 1 else 0
def eTilt : M6 := diagonal fun i => if i.val = 3 ∨ i.val = 4 then 1 else 0

theorem scalar_diag {n : Type} [Fintype n] [DecidableEq n] (d : n → ℝ) (C : Matrix n n ℝ) (v : ℝ) :
    (C * diagonal d = v • diagonal d ∧ diagonal d * C = v • diagonal d) ↔
      ∀ i j, C i j * d j = v * diagonal d i j ∧ d i * C i j = v * diagonal d i j := by
  constructor
  · rintro ⟨h1, h2⟩ i j
    have a := congrFun (congrFun h1 i) j
    have b := congrFun (congrFun h2 i) j
    rw [mul_diagonal, Matrix.smul_apply, smul_eq_mul] at a
    rw [diagonal_mul, Matrix.smul_apply, smul_eq_mul] at b
    exact ⟨a, b⟩
  · intro h
    constructor <;> ext i j
    · rw [mul_diagonal, Matrix.smul_apply, smul_eq_mul]
      exact (h i j).1
    · rw [diagonal_mul, Matrix.smul_apply, smul_eq_mul]
      exact (h i j).2

theorem level6_iff (C : M6) : Level6 C ↔ Scalar eUp C ∧ Scalar eTilt C := by
  constructor
  · intro h
    refine ⟨⟨C 2 2, (scalar_diag _ _ _).2 fun i j => ?_⟩, ⟨C 3 3, (scalar_diag _ _ _).2 fun i j => ?_⟩⟩
    · by_cases hij : i = j
      · subst hij
        rw [diagonal_apply_eq]
        by_cases hi : i.val = 2
        · obtain rfl : i = 2 := Fin.ext hi
          simp
        · simp [hi]
      · rw [diagonal_apply_ne _ hij, mul_zero]
        constructor
        · by_cases hj : j.val = 2
          · rw [(h.alone j i (Or.inl hj) (Ne.symm hij)).2, zero_mul]
          · simp [hj]
        · by_cases hi : i.val = 2
          · rw [(h.alone i j (Or.inl hi) hij).1, mul_zero]
          · simp [hi]
    · by_cases hij : i = j
      · subst hij
        rw [diagonal_apply_eq]
        by_cases hi : i.val = 3 ∨ i.val = 4
        · have : C i i = C 3 3 := by
            rcases hi with hi | hi
            · obtain rfl : i = 3 := Fin.ext hi
              rfl
            · obtain rfl : i = 4 := Fin.ext hi
              exact h.even.symm
          rw [this, if_pos hi]
          simp
        · simp [hi]
      · rw [diagonal_apply_ne _ hij, mul_zero]
        constructor
        · by_cases hj : j.val = 3 ∨ j.val = 4
          · rw [(h.alone j i (Or.inr hj) (Ne.symm hij)).2, zero_mul]
          · simp [hj]
        · by_cases hi : i.val = 3 ∨ i.val = 4
          · rw [(h.alone i j (Or.inr hi) hij).1, mul_zero]
          · simp [hi]
  · rintro ⟨⟨v, hv⟩, ⟨w, hw⟩⟩
    have hv := (scalar_diag _ _ _).1 hv
    have hw := (scalar_diag _ _ _).1 hw
    constructor
    · rintro i j hi hij
      rcases hi with hi | hi
      · have a := (hv i j).2
        have b := (hv j i).1
        rw [diagonal_apply_ne _ hij, if_pos hi, mul_zero, one_mul] at a
        rw [diagonal_apply_ne _ hij.symm, if_pos hi, mul_zero, mul_one] at b
        exact ⟨a, b⟩
      · have a := (hw i j).2
        have b := (hw j i).1
        rw [diagonal_apply_ne _ hij, if_pos hi, mul_zero, one_mul] at a
        rw [diagonal_apply_ne _ hij.symm, if_pos hi, mul_zero, mul_one] at b
        exact ⟨a, b⟩
    · have a := (hw 3 3).1
      have b := (hw 4 4).1
      simp at a b
      rw [a, b]

theorem rotZ_comm (a : ℝ) : rot6d (rotZ a) * eUp = eUp * rot6d (rotZ a) ∧ rot6d (rotZ a) * eTilt = eTilt * rot6d (rotZ a) ∧
    (rot6d (rotZ a))ᵀ * eUp = eUp * (rot6d (rotZ a))ᵀ ∧ (rot6d (rotZ a))ᵀ * eTilt = eTilt * (rot6d (rotZ a))ᵀ := by
  refine ⟨?_, ?_, ?_, ?_⟩ <;> ext i j <;> simp only [eUp, eTilt] <;> rw [mul_diagonal, diagonal_mul] <;>
    fin_cases i <;> fin_cases j <;> simp [rot6d, rotZ]

theorem isRot_turn (a : ℝ) : IsRot (rotZ a) := by
  have : rotZ a = setRPY 0 0 a := by
    rw [setRPY_eq]
    simp [rot, rotX, rotY, rotZ]
  rw [this]
  exact isRot_setRPY _ _ _

theorem Level6.turn {C : M6} (h : Level6 C) (a : ℝ) : Level6 (rot6d (rotZ a) * C * (rot6d (rotZ a))ᵀ) := by
  obtain ⟨h1, h2, h3, h4⟩ := rotZ_comm a
  have ho := rot6d_mul_transpose (isRot_turn a)
  obtain ⟨a1, a2⟩ := (level6_iff C).1 h
  exact (level6_iff _).2 ⟨a1.conj h1 h3 ho, a2.conj h2 h4 ho⟩

theorem Level6.back {C : M6} (h : Level6 C) (a : ℝ) : Level6 ((rot6d (rotZ a))ᵀ * C * rot6d (rotZ a)) := by
  obtain ⟨h1, h2, h3, h4⟩ := rotZ_comm a
  have ho := rot6d_transpose_mul (isRot_turn a)
  obtain ⟨a1, a2⟩ := (level6_iff C).1 h
  have e : (rot6d (rotZ a))ᵀ * C * rot6d (rotZ a) = (rot6d (rotZ a))ᵀ * C * (rot6d (rotZ a))ᵀᵀ := by rw [transpose_transpose]
  rw [e]
  exact (level6_iff _).2 ⟨a1.conj h3 (by rwa [transpose_transpose]) (by rwa [transpose_transpose]),
    a2.conj h4 (by rwa [transpose_transpose]) (by rwa [transpose_transpose])⟩

theorem Level6.add {C D : M6} (h : Level6 C) (h' : Level6 D) : Level6 (C + D) where
  alone i j hi hij := by
    obtain ⟨a, b⟩ := h.alone i j hi hij
    obtain ⟨c, d⟩ := h'.alone i j hi hij
    rw [Matrix.add_apply, Matrix.add_apply, a, b, c, d, add_zero]
    exact ⟨rfl, rfl⟩
  even := by rw [Matrix.add_apply, Matrix.add_apply, h.even, h'.even]

theorem Level6.smul {C : M6} (h : Level6 C) (v : ℝ) : Level6 (v • C) where
  alone i j hi hij := by
    obtain ⟨a, b⟩ := h.alone i j hi hij
    rw [Matrix.smul_apply, Matrix.smul_apply, a, b, smul_zero]
    exact ⟨rfl, rfl⟩
  even := by rw [Matrix.smul_apply, Matrix.smul_apply, h.even]

theorem Level3.turn {C : M3} (h : Level3 C) (a : ℝ) : Level3 (rotZ a * C * (rotZ a)ᵀ) := by
  obtain ⟨a1, a2⟩ := h 0 (by decide)
  obtain ⟨b1, b2⟩ := h 1 (by decide)
  intro j hj
  fin_cases j
  · simp [Matrix.mul_apply, Fin.sum_univ_three, rotZ, vecMul, dotProduct, a1, a2, b1, b2]
  · simp [Matrix.mul_apply, Fin.sum_univ_three, rotZ, vecMul, dotProduct, a1, a2, b1, b2]
  · exact absurd rfl hj

/-! ## Measurements -/

/-- The variables off the plane are measured independently of everything else. -/
def LevelR (M : Mat15) : Prop := ∀ i j, offPlane i = true → i ≠ j → M i j = 0 ∧ M j i = 0

theorem forceTwoD_split {p : Payload} (h : LevelR p.R) :
    (forceTwoD p).R = diagonal (fun i => if offPlane i then (0 : ℝ) else 1) * p.R *
      (diagonal (fun i => if offPlane i then (0 : ℝ) else 1))ᵀ + diagonal fun i => if offPlane i then (1e-6 : ℝ) else 0 := by
  ext i j
  rw [diagonal_transpose, Matrix.add_apply, mul_diagonal, diagonal_mul]
  show (if i = j ∧ offPlane i = true then (1e-6 : ℝ) else p.R i j) = _
  by_cases hij : i = j
  · subst hij
    rw [diagonal_apply_eq]
    cases hi : offPlane i <;> simp
  · rw [if_neg (fun h => hij h.1), diagonal_apply_ne _ hij, add_zero]
    cases hi : offPlane i with
    | true => simp [(h i j hi hij).1]
    | false =>
      cases hj : offPlane j with
      | true => simp [(h j i hj (Ne.symm hij)).2]
      | false => simp

theorem forceTwoD_psd {p : Payload} (h : LevelR p.R) (hp : p.R.PosSemidef) : (forceTwoD p).R.PosSemidef := by
  rw [forceTwoD_split h]
  refine (psd_conj hp _).add (PosSemidef.diagonal fun i => ?_)
  dsimp only
  split <;> norm_num

theorem offPlane_block {i : Fin 15} {off : ℕ} (ho : off = 0 ∨ off = 6) (hi : offPlane i = true) (hr : off ≤ i.val ∧ i.val < off + 6) :
    i.val - off = 2 ∨ i.val - off = 3 ∨ i.val - off = 4 := by
  rcases ho with rfl | rfl <;> (revert hi hr; revert i; decide)

theorem LevelR.block6 {R : Mat15} (hR : ∀ i j, i ≠ j → R i j = 0) {C : M6} (h : Level6 C) {off : ℕ} (ho : off = 0 ∨ off = 6) :
    LevelR (putBlock 6 off R C) := by
  intro i j hi hij
  simp only [putBlock, of_apply]
  constructor
  · split
    · rename_i hb
      exact (h.alone _ _ (offPlane_block ho hi hb.1) (fun e => hij (Fin.ext (by have := Fin.mk.inj e; omega)))).1
    · exact hR i j hij
  · split
    · rename_i hb
      exact (h.alone _ _ (offPlane_block ho hi hb.2) (fun e => hij (Fin.ext (by have := Fin.mk.inj e; omega)))).2
    · exact hR j i (Ne.symm hij)

theorem LevelR.block3 {C : M3} (h : Level3 C) : LevelR (putBlock 3 12 0 C) := by
  intro i j hi hij
  simp only [putBlock, of_apply]
  have key : ∀ i : Fin 15, offPlane i = true → 12 ≤ i.val → i = 14 := by decide
  constructor
  · split
    · rename_i hb
      have := key i hi hb.1.1
      subst this
      exact (h _ (fun e => hij (Fin.ext (by have := congrArg Fin.val e; simp at this ⊢; omega)))).1
    · rfl
  · split
    · rename_i hb
      have := key i hi hb.2.1
      subst this
      exact (h _ (fun e => hij (Fin.ext (by have := congrArg Fin.val e; simp at this ⊢; omega)))).2
    · rfl

end RL
