import Verif.Model.Planar
import Verif.Proofs.Motion
import Verif.Proofs.Angle
import Mathlib.LinearAlgebra.Matrix.NonsingularInverse
/-! # Matrices without terms between planar and other variables

`Blk a b M`: entries of `M` between rows and columns of different classes are zero.  Equivalently `M` intertwines the
reflections; that form gives closure under inverse. -/

namespace RL
open Matrix
set_option linter.unusedSectionVars false
variable {m n k : Type} [Fintype m] [Fintype n] [Fintype k] [DecidableEq m] [DecidableEq n] [DecidableEq k]

/-- No terms between classes. -/
def Blk (a : m → Bool) (b : n → Bool) (M : Matrix m n ℝ) : Prop := ∀ i j, a i ≠ b j → M i j = 0

/-- The vector lies in the plane. -/
def Flat (a : m → Bool) (v : m → ℝ) : Prop := ∀ i, a i = true → v i = 0

/-- The reflection at the plane. -/
def refl (a : m → Bool) : Matrix m m ℝ := diagonal fun i => if a i then -1 else 1

theorem refl_mul_refl (a : m → Bool) : refl a * refl a = 1 := by
  unfold refl
  rw [diagonal_mul_diagonal, ← diagonal_one]
  congr 1
  funext i
  by_cases h : a i = true <;> simp [h]

theorem blk_iff {a : m → Bool} {b : n → Bool} {M : Matrix m n ℝ} : Blk a b M ↔ refl a * M = M * refl b := by
  constructor
  · intro h
    ext i j
    simp only [refl, diagonal_mul, mul_diagonal]
    by_cases hab : a i = b j
    · rw [hab, mul_comm]
    · rw [h i j hab]; simp
  · intro h i j hab
    have e := congrFun (congrFun h i) j
    simp only [refl, diagonal_mul, mul_diagonal] at e
    cases h1 : a i <;> cases h2 : b j <;> rw [h1, h2] at e hab <;> norm_num at e hab
    · linarith
    · linarith

theorem Blk.mul {a : m → Bool} {b : n → Bool} {c : k → Bool} {M : Matrix m n ℝ} {N : Matrix n k ℝ}
    (h : Blk a b M) (h' : Blk b c N) : Blk a c (M * N) := by
  rw [blk_iff] at *
  rw [← Matrix.mul_assoc, h, Matrix.mul_assoc, h', Matrix.mul_assoc]

theorem Blk.add {a : m → Bool} {b : n → Bool} {M N : Matrix m n ℝ} (h : Blk a b M) (h' : Blk a b N) :
    Blk a b (M + N) := fun i j e => by rw [Matrix.add_apply, h i j e, h' i j e, add_zero]

theorem Blk.sub {a : m → Bool} {b : n → Bool} {M N : Matrix m n ℝ} (h : Blk a b M) (h' : Blk a b N) :
    Blk a b (M - N) := fun i j e => by rw [Matrix.sub_apply, h i j e, h' i j e, sub_zero]

theorem Blk.smul {a : m → Bool} {b : n → Bool} {M : Matrix m n ℝ} (h : Blk a b M) (r : ℝ) : Blk a b (r • M) :=
  fun i j e => by rw [Matrix.smul_apply, h i j e, smul_zero]

theorem Blk.transpose {a : m → Bool} {b : n → Bool} {M : Matrix m n ℝ} (h : Blk a b M) : Blk b a Mᵀ :=
  fun i j e => h j i (Ne.symm e)

theorem Blk.one (a : m → Bool) : Blk a a (1 : Matrix m m ℝ) := by
  intro i j e
  exact Matrix.one_apply_ne (fun h => e (by rw [h]))

theorem Blk.inv {a : m → Bool} {M : Matrix m m ℝ} (h : Blk a a M) : Blk a a M⁻¹ := by
  rw [blk_iff] at *
  have hr : (refl a)⁻¹ = refl a := Matrix.inv_eq_left_inv (refl_mul_refl a)
  have e := congrArg (·⁻¹) h
  simp only [Matrix.mul_inv_rev, hr] at e
  exact e.symm

theorem Blk.mulVec {a : m → Bool} {b : n → Bool} {M : Matrix m n ℝ} (h : Blk a b M) {v : n → ℝ} (hv : Flat b v) :
    Flat a (M.mulVec v) := by
  intro i hi
  refine Finset.sum_eq_zero fun j _ => ?_
  show M i j * v j = 0
  by_cases hb : b j = true
  · rw [hv j hb, mul_zero]
  · rw [h i j (by rw [hi]; exact fun e => hb e.symm), zero_mul]

theorem Flat.add {a : m → Bool} {v w : m → ℝ} (h : Flat a v) (h' : Flat a w) : Flat a (v + w) :=
  fun i hi => by rw [Pi.add_apply, h i hi, h' i hi, add_zero]

/-! ## The filter's matrices -/

theorem trig_flat {x : State} (h : Flat offPlane x) : (trig x).sp = 0 ∧ (trig x).tp = 0 ∧ (trig x).sr = 0 := by
  have h3 : x iRoll = 0 := h 3 rfl
  have h4 : x iPitch = 0 := h 4 rfl
  simp [trig, h3, h4]

theorem transferF_blk {x : State} (h : Flat offPlane x) (dt : ℝ) : Blk offPlane offPlane (transferF x dt) := by
  obtain ⟨hp, ht, hr⟩ := trig_flat h
  intro i j hij
  fin_cases i
  · rw [show (⟨0, by omega⟩ : Fin 15) = 0 from rfl, transferF_row0]
    fin_cases j <;> first | exact absurd rfl hij | simp [hp, ht, hr]
  · rw [show (⟨1, by omega⟩ : Fin 15) = 1 from rfl, transferF_row1]
    fin_cases j <;> first | exact absurd rfl hij | simp [hp, ht, hr]
  · rw [show (⟨2, by omega⟩ : Fin 15) = 2 from rfl, transferF_row2]
    fin_cases j <;> first | exact absurd rfl hij | simp [hp, ht, hr]
  · rw [show (⟨3, by omega⟩ : Fin 15) = 3 from rfl, transferF_row3]
    fin_cases j <;> first | exact absurd rfl hij | simp [hp, ht, hr]
  · rw [show (⟨4, by omega⟩ : Fin 15) = 4 from rfl, transferF_row4]
    fin_cases j <;> first | exact absurd rfl hij | simp [hp, ht, hr]
  · rw [show (⟨5, by omega⟩ : Fin 15) = 5 from rfl, transferF_row5]
    fin_cases j <;> first | exact absurd rfl hij | simp [hp, ht, hr]
  all_goals fin_cases j <;> first | exact absurd rfl hij | rfl

theorem transferJ_blk {x : State} (h : Flat offPlane x) (dt : ℝ) : Blk offPlane offPlane (transferJ x dt) := by
  obtain ⟨hp, ht, hr⟩ := trig_flat h
  have h8 : x 8 = 0 := h 8 rfl
  have h10 : x 10 = 0 := h 10 rfl
  have h14 : x 14 = 0 := h 14 rfl
  intro i j hij
  fin_cases i
  · rw [show (⟨0, by omega⟩ : Fin 15) = 0 from rfl, transferJ_row0]
    fin_cases j <;> first | exact absurd rfl hij | simp [hp, ht, hr, h8, h10, h14]
  · rw [show (⟨1, by omega⟩ : Fin 15) = 1 from rfl, transferJ_row1]
    fin_cases j <;> first | exact absurd rfl hij | simp [hp, ht, hr, h8, h10, h14]
  · rw [show (⟨2, by omega⟩ : Fin 15) = 2 from rfl, transferJ_row2]
    fin_cases j <;> first | exact absurd rfl hij | simp [hp, ht, hr, h8, h10, h14]
  · rw [show (⟨3, by omega⟩ : Fin 15) = 3 from rfl, transferJ_row3]
    fin_cases j <;> first | exact absurd rfl hij | simp [hp, ht, hr, h8, h10, h14]
  · rw [show (⟨4, by omega⟩ : Fin 15) = 4 from rfl, transferJ_row4]
    fin_cases j <;> first | exact absurd rfl hij | simp [hp, ht, hr, h8, h10, h14]
  · rw [show (⟨5, by omega⟩ : Fin 15) = 5 from rfl, transferJ_row5]
    fin_cases j <;> first | exact absurd rfl hij | simp [hp, ht, hr, h8, h10, h14]
  all_goals fin_cases j <;> first | exact absurd rfl hij | rfl

theorem wrap_flat {x : State} (h : Flat offPlane x) : Flat offPlane (wrapStateAngles x) := by
  intro i hi
  unfold wrapStateAngles
  rw [h i hi]
  split
  · exact normalizeAngle_zero
  · rfl

theorem noiseQ_blk {Q : Mat15} (h : Blk offPlane offPlane Q) (p : FilterPar) (x : State) :
    Blk offPlane offPlane (noiseQ p Q x) := by
  intro i j hij
  unfold noiseQ
  split
  · simp only [writeDyn, Matrix.of_apply, h i j hij]
    split <;> simp
  · exact h i j hij

end RL
