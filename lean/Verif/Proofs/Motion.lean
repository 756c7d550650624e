import Verif.Model.Ekf
import Mathlib.Analysis.SpecialFunctions.Trigonometric.Deriv
import Mathlib.Analysis.Calculus.Deriv.Inv
import Mathlib.Analysis.Calculus.FDeriv.Mul
import Mathlib.Analysis.Calculus.FDeriv.Pi
import Mathlib.Topology.Algebra.Module.FiniteDimension
/-! # The motion model written out, and its derivative -/

namespace RL
open Matrix Real

theorem sum15 (f : Fin 15 → ℝ) : ∑ i, f i = f 0 + f 1 + f 2 + f 3 + f 4 + f 5 + f 6 + f 7 + f 8 + f 9 + f 10 + f 11 +
    f 12 + f 13 + f 14 := by
  simp [Fin.sum_univ_succ]
  ring

theorem transferF_row0 (x : State) (dt : ℝ) : transferF x dt 0 =
    ![1, 0, 0, 0, 0, 0, (trig x).cy * (trig x).cp * dt,
      ((trig x).cy * (trig x).sp * (trig x).sr - (trig x).sy * (trig x).cr) * dt,
      ((trig x).cy * (trig x).sp * (trig x).cr + (trig x).sy * (trig x).sr) * dt, 0, 0, 0,
      0.5 * ((trig x).cy * (trig x).cp * dt) * dt,
      0.5 * (((trig x).cy * (trig x).sp * (trig x).sr - (trig x).sy * (trig x).cr) * dt) * dt,
      0.5 * (((trig x).cy * (trig x).sp * (trig x).cr + (trig x).sy * (trig x).sr) * dt) * dt] := by
  funext j
  fin_cases j <;> rfl

theorem transferF_row1 (x : State) (dt : ℝ) : transferF x dt 1 =
    ![0, 1, 0, 0, 0, 0, (trig x).sy * (trig x).cp * dt,
      ((trig x).sy * (trig x).sp * (trig x).sr + (trig x).cy * (trig x).cr) * dt,
      ((trig x).sy * (trig x).sp * (trig x).cr - (trig x).cy * (trig x).sr) * dt, 0, 0, 0,
      0.5 * ((trig x).sy * (trig x).cp * dt) * dt,
      0.5 * (((trig x).sy * (trig x).sp * (trig x).sr + (trig x).cy * (trig x).cr) * dt) * dt,
      0.5 * (((trig x).sy * (trig x).sp * (trig x).cr - (trig x).cy * (trig x).sr) * dt) * dt] := by
  funext j
  fin_cases j <;> rfl

theorem transferF_row2 (x : State) (dt : ℝ) : transferF x dt 2 =
    ![0, 0, 1, 0, 0, 0, -(trig x).sp * dt, (trig x).cp * (trig x).sr * dt, (trig x).cp * (trig x).cr * dt, 0, 0, 0,
      0.5 * (-(trig x).sp * dt) * dt, 0.5 * ((trig x).cp * (trig x).sr * dt) * dt,
      0.5 * ((trig x).cp * (trig x).cr * dt) * dt] := by
  funext j
  fin_cases j <;> rfl

theorem transferF_row3 (x : State) (dt : ℝ) : transferF x dt 3 =
    ![0, 0, 0, 1, 0, 0, 0, 0, 0, dt, (trig x).sr * (trig x).tp * dt, (trig x).cr * (trig x).tp * dt, 0, 0, 0] := by
  funext j
  fin_cases j <;> rfl

theorem transferF_row4 (x : State) (dt : ℝ) : transferF x dt 4 =
    ![0, 0, 0, 0, 1, 0, 0, 0, 0, 0, (trig x).cr * dt, -(trig x).sr * dt, 0, 0, 0] := by
  funext j
  fin_cases j <;> rfl

theorem transferF_row5 (x : State) (dt : ℝ) : transferF x dt 5 =
    ![0, 0, 0, 0, 0, 1, 0, 0, 0, 0, (trig x).sr * (trig x).cpi * dt, (trig x).cr * (trig x).cpi * dt, 0, 0, 0] := by
  funext j
  fin_cases j <;> rfl

theorem transferF_row6 (x : State) (dt : ℝ) : transferF x dt 6 =
    ![0, 0, 0, 0, 0, 0, 1, 0, 0, 0, 0, 0, dt, 0, 0] := by
  funext j
  fin_cases j <;> rfl

theorem transferF_row7 (x : State) (dt : ℝ) : transferF x dt 7 =
    ![0, 0, 0, 0, 0, 0, 0, 1, 0, 0, 0, 0, 0, dt, 0] := by
  funext j
  fin_cases j <;> rfl

theorem transferF_row8 (x : State) (dt : ℝ) : transferF x dt 8 =
    ![0, 0, 0, 0, 0, 0, 0, 0, 1, 0, 0, 0, 0, 0, dt] := by
  funext j
  fin_cases j <;> rfl

theorem transferF_row9 (x : State) (dt : ℝ) : transferF x dt 9 =
    ![0, 0, 0, 0, 0, 0, 0, 0, 0, 1, 0, 0, 0, 0, 0] := by
  funext j
  fin_cases j <;> rfl

theorem transferF_row10 (x : State) (dt : ℝ) : transferF x dt 10 =
    ![0, 0, 0, 0, 0, 0, 0, 0, 0, 0, 1, 0, 0, 0, 0] := by
  funext j
  fin_cases j <;> rfl

theorem transferF_row11 (x : State) (dt : ℝ) : transferF x dt 11 =
    ![0, 0, 0, 0, 0, 0, 0, 0, 0, 0, 0, 1, 0, 0, 0] := by
  funext j
  fin_cases j <;> rfl

theorem transferF_row12 (x : State) (dt : ℝ) : transferF x dt 12 =
    ![0, 0, 0, 0, 0, 0, 0, 0, 0, 0, 0, 0, 1, 0, 0] := by
  funext j
  fin_cases j <;> rfl

theorem transferF_row13 (x : State) (dt : ℝ) : transferF x dt 13 =
    ![0, 0, 0, 0, 0, 0, 0, 0, 0, 0, 0, 0, 0, 1, 0] := by
  funext j
  fin_cases j <;> rfl

theorem transferF_row14 (x : State) (dt : ℝ) : transferF x dt 14 =
    ![0, 0, 0, 0, 0, 0, 0, 0, 0, 0, 0, 0, 0, 0, 1] := by
  funext j
  fin_cases j <;> rfl

theorem transferJ_row0 (x : State) (dt : ℝ) : transferJ x dt 0 =
    ![1, 0, 0,
      (((trig x).cy * (trig x).sp * (trig x).cr + (trig x).sy * (trig x).sr) * x 7 + (-(trig x).cy * (trig x).sp * (trig x).sr + (trig x).sy * (trig x).cr) * x 8) * dt + (((trig x).cy * (trig x).sp * (trig x).cr + (trig x).sy * (trig x).sr) * x 13 + (-(trig x).cy * (trig x).sp * (trig x).sr + (trig x).sy * (trig x).cr) * x 14) * (0.5 * dt * dt),
      ((-(trig x).cy * (trig x).sp) * x 6 + ((trig x).cy * (trig x).cp * (trig x).sr) * x 7 + ((trig x).cy * (trig x).cp * (trig x).cr) * x 8) * dt + ((-(trig x).cy * (trig x).sp) * x 12 + ((trig x).cy * (trig x).cp * (trig x).sr) * x 13 + ((trig x).cy * (trig x).cp * (trig x).cr) * x 14) * (0.5 * dt * dt),
      ((-(trig x).sy * (trig x).cp) * x 6 + (-(trig x).sy * (trig x).sp * (trig x).sr - (trig x).cy * (trig x).cr) * x 7 + (-(trig x).sy * (trig x).sp * (trig x).cr + (trig x).cy * (trig x).sr) * x 8) * dt + ((-(trig x).sy * (trig x).cp) * x 12 + (-(trig x).sy * (trig x).sp * (trig x).sr - (trig x).cy * (trig x).cr) * x 13 + (-(trig x).sy * (trig x).sp * (trig x).cr + (trig x).cy * (trig x).sr) * x 14) * (0.5 * dt * dt),
      (trig x).cy * (trig x).cp * dt, ((trig x).cy * (trig x).sp * (trig x).sr - (trig x).sy * (trig x).cr) * dt,
      ((trig x).cy * (trig x).sp * (trig x).cr + (trig x).sy * (trig x).sr) * dt, 0, 0, 0,
      0.5 * ((trig x).cy * (trig x).cp * dt) * dt,
      0.5 * (((trig x).cy * (trig x).sp * (trig x).sr - (trig x).sy * (trig x).cr) * dt) * dt,
      0.5 * (((trig x).cy * (trig x).sp * (trig x).cr + (trig x).sy * (trig x).sr) * dt) * dt] := by
  funext j
  fin_cases j <;> rfl

theorem transferJ_row1 (x : State) (dt : ℝ) : transferJ x dt 1 =
    ![0, 1, 0,
      (((trig x).sy * (trig x).sp * (trig x).cr - (trig x).cy * (trig x).sr) * x 7 + (-(trig x).sy * (trig x).sp * (trig x).sr - (trig x).cy * (trig x).cr) * x 8) * dt + (((trig x).sy * (trig x).sp * (trig x).cr - (trig x).cy * (trig x).sr) * x 13 + (-(trig x).sy * (trig x).sp * (trig x).sr - (trig x).cy * (trig x).cr) * x 14) * (0.5 * dt * dt),
      ((-(trig x).sy * (trig x).sp) * x 6 + ((trig x).sy * (trig x).cp * (trig x).sr) * x 7 + ((trig x).sy * (trig x).cp * (trig x).cr) * x 8) * dt + ((-(trig x).sy * (trig x).sp) * x 12 + ((trig x).sy * (trig x).cp * (trig x).sr) * x 13 + ((trig x).sy * (trig x).cp * (trig x).cr) * x 14) * (0.5 * dt * dt),
      (((trig x).cy * (trig x).cp) * x 6 + ((trig x).cy * (trig x).sp * (trig x).sr - (trig x).sy * (trig x).cr) * x 7 + ((trig x).cy * (trig x).sp * (trig x).cr + (trig x).sy * (trig x).sr) * x 8) * dt + (((trig x).cy * (trig x).cp) * x 12 + ((trig x).cy * (trig x).sp * (trig x).sr - (trig x).sy * (trig x).cr) * x 13 + ((trig x).cy * (trig x).sp * (trig x).cr + (trig x).sy * (trig x).sr) * x 14) * (0.5 * dt * dt),
      (trig x).sy * (trig x).cp * dt, ((trig x).sy * (trig x).sp * (trig x).sr + (trig x).cy * (trig x).cr) * dt,
      ((trig x).sy * (trig x).sp * (trig x).cr - (trig x).cy * (trig x).sr) * dt, 0, 0, 0,
      0.5 * ((trig x).sy * (trig x).cp * dt) * dt,
      0.5 * (((trig x).sy * (trig x).sp * (trig x).sr + (trig x).cy * (trig x).cr) * dt) * dt,
      0.5 * (((trig x).sy * (trig x).sp * (trig x).cr - (trig x).cy * (trig x).sr) * dt) * dt] := by
  funext j
  fin_cases j <;> rfl

theorem transferJ_row2 (x : State) (dt : ℝ) : transferJ x dt 2 =
    ![0, 0, 1,
      (((trig x).cp * (trig x).cr) * x 7 + (-(trig x).cp * (trig x).sr) * x 8) * dt + (((trig x).cp * (trig x).cr) * x 13 + (-(trig x).cp * (trig x).sr) * x 14) * (0.5 * dt * dt),
      ((-(trig x).cp) * x 6 + (-(trig x).sp * (trig x).sr) * x 7 + (-(trig x).sp * (trig x).cr) * x 8) * dt + ((-(trig x).cp) * x 12 + (-(trig x).sp * (trig x).sr) * x 13 + (-(trig x).sp * (trig x).cr) * x 14) * (0.5 * dt * dt),
      0, -(trig x).sp * dt, (trig x).cp * (trig x).sr * dt, (trig x).cp * (trig x).cr * dt, 0, 0, 0,
      0.5 * (-(trig x).sp * dt) * dt, 0.5 * ((trig x).cp * (trig x).sr * dt) * dt,
      0.5 * ((trig x).cp * (trig x).cr * dt) * dt] := by
  funext j
  fin_cases j <;> rfl

theorem transferJ_row3 (x : State) (dt : ℝ) : transferJ x dt 3 =
    ![0, 0, 0, 1.0 + ((trig x).cr * (trig x).tp * x 10 - (trig x).sr * (trig x).tp * x 11) * dt,
      ((trig x).cpi * (trig x).cpi * (trig x).sr * x 10 + (trig x).cpi * (trig x).cpi * (trig x).cr * x 11) * dt, 0,
      0, 0, 0, dt, (trig x).sr * (trig x).tp * dt, (trig x).cr * (trig x).tp * dt, 0, 0, 0] := by
  funext j
  fin_cases j <;> rfl

theorem transferJ_row4 (x : State) (dt : ℝ) : transferJ x dt 4 =
    ![0, 0, 0, (-(trig x).sr * x 10 - (trig x).cr * x 11) * dt, 1, 0, 0, 0, 0, 0, (trig x).cr * dt,
      -(trig x).sr * dt, 0, 0, 0] := by
  funext j
  fin_cases j <;> rfl

theorem transferJ_row5 (x : State) (dt : ℝ) : transferJ x dt 5 =
    ![0, 0, 0, ((trig x).cr * (trig x).cpi * x 10 - (trig x).sr * (trig x).cpi * x 11) * dt,
      ((trig x).sr * (trig x).tp * (trig x).cpi * x 10 + (trig x).cr * (trig x).tp * (trig x).cpi * x 11) * dt, 1, 0,
      0, 0, 0, (trig x).sr * (trig x).cpi * dt, (trig x).cr * (trig x).cpi * dt, 0, 0, 0] := by
  funext j
  fin_cases j <;> rfl

theorem transferJ_row6 (x : State) (dt : ℝ) : transferJ x dt 6 =
    ![0, 0, 0, 0, 0, 0, 1, 0, 0, 0, 0, 0, dt, 0, 0] := by
  funext j
  fin_cases j <;> rfl

theorem transferJ_row7 (x : State) (dt : ℝ) : transferJ x dt 7 =
    ![0, 0, 0, 0, 0, 0, 0, 1, 0, 0, 0, 0, 0, dt, 0] := by
  funext j
  fin_cases j <;> rfl

theorem transferJ_row8 (x : State) (dt : ℝ) : transferJ x dt 8 =
    ![0, 0, 0, 0, 0, 0, 0, 0, 1, 0, 0, 0, 0, 0, dt] := by
  funext j
  fin_cases j <;> rfl

theorem transferJ_row9 (x : State) (dt : ℝ) : transferJ x dt 9 =
    ![0, 0, 0, 0, 0, 0, 0, 0, 0, 1, 0, 0, 0, 0, 0] := by
  funext j
  fin_cases j <;> rfl

theorem transferJ_row10 (x : State) (dt : ℝ) : transferJ x dt 10 =
    ![0, 0, 0, 0, 0, 0, 0, 0, 0, 0, 1, 0, 0, 0, 0] := by
  funext j
  fin_cases j <;> rfl

theorem transferJ_row11 (x : State) (dt : ℝ) : transferJ x dt 11 =
    ![0, 0, 0, 0, 0, 0, 0, 0, 0, 0, 0, 1, 0, 0, 0] := by
  funext j
  fin_cases j <;> rfl

theorem transferJ_row12 (x : State) (dt : ℝ) : transferJ x dt 12 =
    ![0, 0, 0, 0, 0, 0, 0, 0, 0, 0, 0, 0, 1, 0, 0] := by
  funext j
  fin_cases j <;> rfl

theorem transferJ_row13 (x : State) (dt : ℝ) : transferJ x dt 13 =
    ![0, 0, 0, 0, 0, 0, 0, 0, 0, 0, 0, 0, 0, 1, 0] := by
  funext j
  fin_cases j <;> rfl

theorem transferJ_row14 (x : State) (dt : ℝ) : transferJ x dt 14 =
    ![0, 0, 0, 0, 0, 0, 0, 0, 0, 0, 0, 0, 0, 0, 1] := by
  funext j
  fin_cases j <;> rfl

theorem transferF_mulVec0 (x : State) (dt : ℝ) (v : State) : (transferF x dt).mulVec v 0 =
      v 0 + ((trig x).cy * (trig x).cp * dt) * v 6 +
        (((trig x).cy * (trig x).sp * (trig x).sr - (trig x).sy * (trig x).cr) * dt) * v 7 +
        (((trig x).cy * (trig x).sp * (trig x).cr + (trig x).sy * (trig x).sr) * dt) * v 8 +
        (0.5 * ((trig x).cy * (trig x).cp * dt) * dt) * v 12 +
        (0.5 * (((trig x).cy * (trig x).sp * (trig x).sr - (trig x).sy * (trig x).cr) * dt) * dt) * v 13 +
        (0.5 * (((trig x).cy * (trig x).sp * (trig x).cr + (trig x).sy * (trig x).sr) * dt) * dt) * v 14 := by
  show ∑ j, transferF x dt 0 j * v j = _
  rw [transferF_row0, sum15]
  simp

theorem transferF_mulVec1 (x : State) (dt : ℝ) (v : State) : (transferF x dt).mulVec v 1 =
      v 1 + ((trig x).sy * (trig x).cp * dt) * v 6 +
        (((trig x).sy * (trig x).sp * (trig x).sr + (trig x).cy * (trig x).cr) * dt) * v 7 +
        (((trig x).sy * (trig x).sp * (trig x).cr - (trig x).cy * (trig x).sr) * dt) * v 8 +
        (0.5 * ((trig x).sy * (trig x).cp * dt) * dt) * v 12 +
        (0.5 * (((trig x).sy * (trig x).sp * (trig x).sr + (trig x).cy * (trig x).cr) * dt) * dt) * v 13 +
        (0.5 * (((trig x).sy * (trig x).sp * (trig x).cr - (trig x).cy * (trig x).sr) * dt) * dt) * v 14 := by
  show ∑ j, transferF x dt 1 j * v j = _
  rw [transferF_row1, sum15]
  simp

theorem transferF_mulVec2 (x : State) (dt : ℝ) (v : State) : (transferF x dt).mulVec v 2 =
      v 2 + (-(trig x).sp * dt) * v 6 + ((trig x).cp * (trig x).sr * dt) * v 7 +
        ((trig x).cp * (trig x).cr * dt) * v 8 + (0.5 * (-(trig x).sp * dt) * dt) * v 12 +
        (0.5 * ((trig x).cp * (trig x).sr * dt) * dt) * v 13 +
        (0.5 * ((trig x).cp * (trig x).cr * dt) * dt) * v 14 := by
  show ∑ j, transferF x dt 2 j * v j = _
  rw [transferF_row2, sum15]
  simp

theorem transferF_mulVec3 (x : State) (dt : ℝ) (v : State) : (transferF x dt).mulVec v 3 =
      v 3 + (dt) * v 9 + ((trig x).sr * (trig x).tp * dt) * v 10 + ((trig x).cr * (trig x).tp * dt) * v 11 := by
  show ∑ j, transferF x dt 3 j * v j = _
  rw [transferF_row3, sum15]
  simp

theorem transferF_mulVec4 (x : State) (dt : ℝ) (v : State) : (transferF x dt).mulVec v 4 =
      v 4 + ((trig x).cr * dt) * v 10 + (-(trig x).sr * dt) * v 11 := by
  show ∑ j, transferF x dt 4 j * v j = _
  rw [transferF_row4, sum15]
  simp

theorem transferF_mulVec5 (x : State) (dt : ℝ) (v : State) : (transferF x dt).mulVec v 5 =
      v 5 + ((trig x).sr * (trig x).cpi * dt) * v 10 + ((trig x).cr * (trig x).cpi * dt) * v 11 := by
  show ∑ j, transferF x dt 5 j * v j = _
  rw [transferF_row5, sum15]
  simp

theorem transferF_mulVec6 (x : State) (dt : ℝ) (v : State) : (transferF x dt).mulVec v 6 =
      v 6 + (dt) * v 12 := by
  show ∑ j, transferF x dt 6 j * v j = _
  rw [transferF_row6, sum15]
  simp

theorem transferF_mulVec7 (x : State) (dt : ℝ) (v : State) : (transferF x dt).mulVec v 7 =
      v 7 + (dt) * v 13 := by
  show ∑ j, transferF x dt 7 j * v j = _
  rw [transferF_row7, sum15]
  simp

theorem transferF_mulVec8 (x : State) (dt : ℝ) (v : State) : (transferF x dt).mulVec v 8 =
      v 8 + (dt) * v 14 := by
  show ∑ j, transferF x dt 8 j * v j = _
  rw [transferF_row8, sum15]
  simp

theorem transferF_mulVec9 (x : State) (dt : ℝ) (v : State) : (transferF x dt).mulVec v 9 =
      v 9 := by
  show ∑ j, transferF x dt 9 j * v j = _
  rw [transferF_row9, sum15]
  simp

theorem transferF_mulVec10 (x : State) (dt : ℝ) (v : State) : (transferF x dt).mulVec v 10 =
      v 10 := by
  show ∑ j, transferF x dt 10 j * v j = _
  rw [transferF_row10, sum15]
  simp

theorem transferF_mulVec11 (x : State) (dt : ℝ) (v : State) : (transferF x dt).mulVec v 11 =
      v 11 := by
  show ∑ j, transferF x dt 11 j * v j = _
  rw [transferF_row11, sum15]
  simp

theorem transferF_mulVec12 (x : State) (dt : ℝ) (v : State) : (transferF x dt).mulVec v 12 =
      v 12 := by
  show ∑ j, transferF x dt 12 j * v j = _
  rw [transferF_row12, sum15]
  simp

theorem transferF_mulVec13 (x : State) (dt : ℝ) (v : State) : (transferF x dt).mulVec v 13 =
      v 13 := by
  show ∑ j, transferF x dt 13 j * v j = _
  rw [transferF_row13, sum15]
  simp

theorem transferF_mulVec14 (x : State) (dt : ℝ) (v : State) : (transferF x dt).mulVec v 14 =
      v 14 := by
  show ∑ j, transferF x dt 14 j * v j = _
  rw [transferF_row14, sum15]
  simp

theorem transferJ_mulVec0 (x : State) (dt : ℝ) (v : State) : (transferJ x dt).mulVec v 0 =
      v 0 +
        ((((trig x).cy * (trig x).sp * (trig x).cr + (trig x).sy * (trig x).sr) * x 7 + (-(trig x).cy * (trig x).sp * (trig x).sr + (trig x).sy * (trig x).cr) * x 8) * dt + (((trig x).cy * (trig x).sp * (trig x).cr + (trig x).sy * (trig x).sr) * x 13 + (-(trig x).cy * (trig x).sp * (trig x).sr + (trig x).sy * (trig x).cr) * x 14) * (0.5 * dt * dt)) * v 3 +
        (((-(trig x).cy * (trig x).sp) * x 6 + ((trig x).cy * (trig x).cp * (trig x).sr) * x 7 + ((trig x).cy * (trig x).cp * (trig x).cr) * x 8) * dt + ((-(trig x).cy * (trig x).sp) * x 12 + ((trig x).cy * (trig x).cp * (trig x).sr) * x 13 + ((trig x).cy * (trig x).cp * (trig x).cr) * x 14) * (0.5 * dt * dt)) * v 4 +
        (((-(trig x).sy * (trig x).cp) * x 6 + (-(trig x).sy * (trig x).sp * (trig x).sr - (trig x).cy * (trig x).cr) * x 7 + (-(trig x).sy * (trig x).sp * (trig x).cr + (trig x).cy * (trig x).sr) * x 8) * dt + ((-(trig x).sy * (trig x).cp) * x 12 + (-(trig x).sy * (trig x).sp * (trig x).sr - (trig x).cy * (trig x).cr) * x 13 + (-(trig x).sy * (trig x).sp * (trig x).cr + (trig x).cy * (trig x).sr) * x 14) * (0.5 * dt * dt)) * v 5 +
        ((trig x).cy * (trig x).cp * dt) * v 6 +
        (((trig x).cy * (trig x).sp * (trig x).sr - (trig x).sy * (trig x).cr) * dt) * v 7 +
        (((trig x).cy * (trig x).sp * (trig x).cr + (trig x).sy * (trig x).sr) * dt) * v 8 +
        (0.5 * ((trig x).cy * (trig x).cp * dt) * dt) * v 12 +
        (0.5 * (((trig x).cy * (trig x).sp * (trig x).sr - (trig x).sy * (trig x).cr) * dt) * dt) * v 13 +
        (0.5 * (((trig x).cy * (trig x).sp * (trig x).cr + (trig x).sy * (trig x).sr) * dt) * dt) * v 14 := by
  show ∑ j, transferJ x dt 0 j * v j = _
  rw [transferJ_row0, sum15]
  simp

theorem transferJ_mulVec1 (x : State) (dt : ℝ) (v : State) : (transferJ x dt).mulVec v 1 =
      v 1 +
        ((((trig x).sy * (trig x).sp * (trig x).cr - (trig x).cy * (trig x).sr) * x 7 + (-(trig x).sy * (trig x).sp * (trig x).sr - (trig x).cy * (trig x).cr) * x 8) * dt + (((trig x).sy * (trig x).sp * (trig x).cr - (trig x).cy * (trig x).sr) * x 13 + (-(trig x).sy * (trig x).sp * (trig x).sr - (trig x).cy * (trig x).cr) * x 14) * (0.5 * dt * dt)) * v 3 +
        (((-(trig x).sy * (trig x).sp) * x 6 + ((trig x).sy * (trig x).cp * (trig x).sr) * x 7 + ((trig x).sy * (trig x).cp * (trig x).cr) * x 8) * dt + ((-(trig x).sy * (trig x).sp) * x 12 + ((trig x).sy * (trig x).cp * (trig x).sr) * x 13 + ((trig x).sy * (trig x).cp * (trig x).cr) * x 14) * (0.5 * dt * dt)) * v 4 +
        ((((trig x).cy * (trig x).cp) * x 6 + ((trig x).cy * (trig x).sp * (trig x).sr - (trig x).sy * (trig x).cr) * x 7 + ((trig x).cy * (trig x).sp * (trig x).cr + (trig x).sy * (trig x).sr) * x 8) * dt + (((trig x).cy * (trig x).cp) * x 12 + ((trig x).cy * (trig x).sp * (trig x).sr - (trig x).sy * (trig x).cr) * x 13 + ((trig x).cy * (trig x).sp * (trig x).cr + (trig x).sy * (trig x).sr) * x 14) * (0.5 * dt * dt)) * v 5 +
        ((trig x).sy * (trig x).cp * dt) * v 6 +
        (((trig x).sy * (trig x).sp * (trig x).sr + (trig x).cy * (trig x).cr) * dt) * v 7 +
        (((trig x).sy * (trig x).sp * (trig x).cr - (trig x).cy * (trig x).sr) * dt) * v 8 +
        (0.5 * ((trig x).sy * (trig x).cp * dt) * dt) * v 12 +
        (0.5 * (((trig x).sy * (trig x).sp * (trig x).sr + (trig x).cy * (trig x).cr) * dt) * dt) * v 13 +
        (0.5 * (((trig x).sy * (trig x).sp * (trig x).cr - (trig x).cy * (trig x).sr) * dt) * dt) * v 14 := by
  show ∑ j, transferJ x dt 1 j * v j = _
  rw [transferJ_row1, sum15]
  simp

theorem transferJ_mulVec2 (x : State) (dt : ℝ) (v : State) : (transferJ x dt).mulVec v 2 =
      v 2 +
        ((((trig x).cp * (trig x).cr) * x 7 + (-(trig x).cp * (trig x).sr) * x 8) * dt + (((trig x).cp * (trig x).cr) * x 13 + (-(trig x).cp * (trig x).sr) * x 14) * (0.5 * dt * dt)) * v 3 +
        (((-(trig x).cp) * x 6 + (-(trig x).sp * (trig x).sr) * x 7 + (-(trig x).sp * (trig x).cr) * x 8) * dt + ((-(trig x).cp) * x 12 + (-(trig x).sp * (trig x).sr) * x 13 + (-(trig x).sp * (trig x).cr) * x 14) * (0.5 * dt * dt)) * v 4 +
        (-(trig x).sp * dt) * v 6 + ((trig x).cp * (trig x).sr * dt) * v 7 + ((trig x).cp * (trig x).cr * dt) * v 8 +
        (0.5 * (-(trig x).sp * dt) * dt) * v 12 + (0.5 * ((trig x).cp * (trig x).sr * dt) * dt) * v 13 +
        (0.5 * ((trig x).cp * (trig x).cr * dt) * dt) * v 14 := by
  show ∑ j, transferJ x dt 2 j * v j = _
  rw [transferJ_row2, sum15]
  simp

theorem transferJ_mulVec3 (x : State) (dt : ℝ) (v : State) : (transferJ x dt).mulVec v 3 =
      (1.0 + ((trig x).cr * (trig x).tp * x 10 - (trig x).sr * (trig x).tp * x 11) * dt) * v 3 +
        (((trig x).cpi * (trig x).cpi * (trig x).sr * x 10 + (trig x).cpi * (trig x).cpi * (trig x).cr * x 11) * dt) * v 4 +
        (dt) * v 9 + ((trig x).sr * (trig x).tp * dt) * v 10 + ((trig x).cr * (trig x).tp * dt) * v 11 := by
  show ∑ j, transferJ x dt 3 j * v j = _
  rw [transferJ_row3, sum15]
  simp

theorem transferJ_mulVec4 (x : State) (dt : ℝ) (v : State) : (transferJ x dt).mulVec v 4 =
      ((-(trig x).sr * x 10 - (trig x).cr * x 11) * dt) * v 3 + v 4 + ((trig x).cr * dt) * v 10 +
        (-(trig x).sr * dt) * v 11 := by
  show ∑ j, transferJ x dt 4 j * v j = _
  rw [transferJ_row4, sum15]
  simp

theorem transferJ_mulVec5 (x : State) (dt : ℝ) (v : State) : (transferJ x dt).mulVec v 5 =
      (((trig x).cr * (trig x).cpi * x 10 - (trig x).sr * (trig x).cpi * x 11) * dt) * v 3 +
        (((trig x).sr * (trig x).tp * (trig x).cpi * x 10 + (trig x).cr * (trig x).tp * (trig x).cpi * x 11) * dt) * v 4 +
        v 5 + ((trig x).sr * (trig x).cpi * dt) * v 10 + ((trig x).cr * (trig x).cpi * dt) * v 11 := by
  show ∑ j, transferJ x dt 5 j * v j = _
  rw [transferJ_row5, sum15]
  simp

theorem transferJ_mulVec6 (x : State) (dt : ℝ) (v : State) : (transferJ x dt).mulVec v 6 =
      v 6 + (dt) * v 12 := by
  show ∑ j, transferJ x dt 6 j * v j = _
  rw [transferJ_row6, sum15]
  simp

theorem transferJ_mulVec7 (x : State) (dt : ℝ) (v : State) : (transferJ x dt).mulVec v 7 =
      v 7 + (dt) * v 13 := by
  show ∑ j, transferJ x dt 7 j * v j = _
  rw [transferJ_row7, sum15]
  simp

theorem transferJ_mulVec8 (x : State) (dt : ℝ) (v : State) : (transferJ x dt).mulVec v 8 =
      v 8 + (dt) * v 14 := by
  show ∑ j, transferJ x dt 8 j * v j = _
  rw [transferJ_row8, sum15]
  simp

theorem transferJ_mulVec9 (x : State) (dt : ℝ) (v : State) : (transferJ x dt).mulVec v 9 =
      v 9 := by
  show ∑ j, transferJ x dt 9 j * v j = _
  rw [transferJ_row9, sum15]
  simp

theorem transferJ_mulVec10 (x : State) (dt : ℝ) (v : State) : (transferJ x dt).mulVec v 10 =
      v 10 := by
  show ∑ j, transferJ x dt 10 j * v j = _
  rw [transferJ_row10, sum15]
  simp

theorem transferJ_mulVec11 (x : State) (dt : ℝ) (v : State) : (transferJ x dt).mulVec v 11 =
      v 11 := by
  show ∑ j, transferJ x dt 11 j * v j = _
  rw [transferJ_row11, sum15]
  simp

theorem transferJ_mulVec12 (x : State) (dt : ℝ) (v : State) : (transferJ x dt).mulVec v 12 =
      v 12 := by
  show ∑ j, transferJ x dt 12 j * v j = _
  rw [transferJ_row12, sum15]
  simp

theorem transferJ_mulVec13 (x : State) (dt : ℝ) (v : State) : (transferJ x dt).mulVec v 13 =
      v 13 := by
  show ∑ j, transferJ x dt 13 j * v j = _
  rw [transferJ_row13, sum15]
  simp

theorem transferJ_mulVec14 (x : State) (dt : ℝ) (v : State) : (transferJ x dt).mulVec v 14 =
      v 14 := by
  show ∑ j, transferJ x dt 14 j * v j = _
  rw [transferJ_row14, sum15]
  simp

end RL
