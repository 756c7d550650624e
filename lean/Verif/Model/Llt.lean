import Verif.Model.Ukf
/-!
# The Cholesky factorisation of Eigen

`Eigen::LLT<MatrixXd, Lower>` as in `Eigen/src/Cholesky/LLT.h` (`llt_inplace<Scalar, Lower>::unblocked`, which is what runs for
fewer than 32 rows), over the reals.  Eigen is not in this sandbox: this is written from memory of its
published source and not checked against it.  `ukf.cpp:391-392` uses
the result without asking `info()` whether there is one.
-/

namespace RL

/-- For ukf.cpp:391-392.  The square of the next entry on the diagonal: `x = mat(k, k) - A10.squaredNorm()`. -/
noncomputable def lltPivot (A : Mat15) (k : Fin 15) : ℝ := A k k - ∑ j ∈ Finset.univ.filter (· < k), A k j ^ 2

/-- For ukf.cpp:391-392.  One column: `mat(k, k) = sqrt(x)`, `A21 -= A20 * A10.adjoint()`, `A21 /= sqrt(x)`. -/
noncomputable def lltColumn (A : Mat15) (k : Fin 15) : Mat15 :=
  .of fun i j =>
    if j = k then
      if i = k then Real.sqrt (lltPivot A k)
      else if k < i then (A i k - ∑ j ∈ Finset.univ.filter (· < k), A i j * A k j) / Real.sqrt (lltPivot A k)
      else A i j
    else A i j

open Classical in
/-- For ukf.cpp:391-392.  The loop over the columns, in place.  `if (x <= 0) return k;`: the rest of the matrix is left as it is. -/
noncomputable def lltLoop (k : ℕ) (A : Mat15) : Mat15 :=
  if h : k < 15 then
    if lltPivot A ⟨k, h⟩ ≤ 0 then A else lltLoop (k + 1) (lltColumn A ⟨k, h⟩)
  else A
termination_by 15 - k

/-- ukf.cpp:391-392 `llt().matrixL()`: the lower triangle of what the loop leaves. -/
noncomputable def eigenL (A : Mat15) : Mat15 := .of fun i j => if j ≤ i then lltLoop 0 A i j else 0

end RL
