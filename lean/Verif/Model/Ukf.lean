import Verif.Model.Ekf
import Mathlib.LinearAlgebra.Matrix.PosDef
import Mathlib.Data.Real.StarOrdered
/-!
# The unscented Kalman filter

Model of `/repo/src/ukf.cpp` over the reals.  `Eigen::LLT` is a parameter (`Llt`).
-/

namespace RL

/-- The index of a sigma point.  `.inl ()` is `sigma_points_[0]`, `.inr (.inl i)` is `sigma_points_[i + 1]`,
`.inr (.inr i)` is `sigma_points_[i + 1 + STATE_SIZE]` (ukf.cpp:397-404). -/
abbrev Sig := Unit ⊕ Fin 15 ⊕ Fin 15

/-- `Eigen::LLT<MatrixXd>::matrixL`, for every matrix some matrix; for a positive definite one, its lower triangular
factor. -/
structure Llt where
  L : Mat15 → Mat15
  mul_transpose : ∀ A : Mat15, A.PosDef → L A * (L A).transpose = A
  lower : ∀ A : Mat15, A.PosDef → ∀ i j, i < j → L A i j = 0
  diag : ∀ A : Mat15, A.PosDef → ∀ i, 0 < L A i i

/-- What `setConstants` computes: `lambda_`, `state_weights_`, `covar_weights_`. -/
structure UkfConst where
  lam : ℝ
  w : Sig → ℝ
  c : Sig → ℝ

/-- ukf.cpp:58-72 `setConstants`; `none` when it divides by zero. -/
noncomputable def setConstants (alpha kappa beta : ℝ) : Option UkfConst :=
  let lam := alpha * alpha * (15 + kappa) - 15
  let w0 := lam / (15 + lam)
  let w : Sig → ℝ := Sum.elim (fun _ => w0) (fun _ => 1 / (2 * (15 + lam)))
  let c : Sig → ℝ := Sum.elim (fun _ => w0 + (1 - alpha * alpha + beta)) (fun i => w (.inr i))
  if 15 + lam = 0 then none else some { lam := lam, w := w, c := c }

/-- ukf.cpp:387-405 `generateSigmaPoints`. -/
noncomputable def sigmaPoints (llt : Llt) (k : UkfConst) (x : State) (P : Mat15) : Sig → State :=
  let L := llt.L ((15 + k.lam) • P)
  Sum.elim (fun _ => x) (Sum.elim (fun i => x + fun r => L r i) (fun i => x - fun r => L r i))

/-- The angular state variables, as tested in ukf.cpp:246-248 and elsewhere. -/
def angularIdx (i : Fin 15) : Prop := i = iRoll ∨ i = iPitch ∨ i = iYaw
instance : DecidablePred angularIdx := fun i => inferInstanceAs (Decidable (i = iRoll ∨ i = iPitch ∨ i = iYaw))

/-- The weighted average of angles: ukf.cpp:198-203, 213-235 and 322-348. -/
noncomputable def angleMean (w : Sig → ℝ) (a : Sig → ℝ) : ℝ :=
  atan2 (∑ s, w s * Real.sin (a s)) (∑ s, w s * Real.cos (a s))

/-- ukf.cpp:206-236: the predicted measurement.  (The angular entries are overwritten in every iteration; what the last
one leaves is this.) -/
noncomputable def predictedMeas {n : ℕ} (e : Fin n → Fin 15) (k : UkfConst) (pts : Sig → State) : Fin n → ℝ :=
  fun i => if angularIdx (e i) then angleMean k.w (fun s => pts s (e i)) else ∑ s, k.w s * pts s (e i)

/-- ukf.cpp:242, 250: a sigma point in measurement space minus the predicted measurement. -/
noncomputable def measDiff {n : ℕ} (e : Fin n → Fin 15) (zhat : Fin n → ℝ) (pt : State) : Fin n → ℝ :=
  fun i => if angularIdx (e i) then normalizeAngle (pt (e i) - zhat i) else pt (e i) - zhat i

/-- ukf.cpp:243, 251: a sigma point minus the state.  The loop normalises entry `i` of the *state* difference when
measured variable number `i` is angular. -/
noncomputable def stateDiff {n : ℕ} (e : Fin n → Fin 15) (d : State) : State :=
  fun r => if h : r.val < n then (if angularIdx (e ⟨r.val, h⟩) then normalizeAngle (d r) else d r) else d r

/-- ukf.cpp:241-259: `predicted_meas_covar` and `cross_covar`. -/
noncomputable def measCovar {n : ℕ} (e : Fin n → Fin 15) (k : UkfConst) (pts : Sig → State) : Matrix (Fin n) (Fin n) ℝ :=
  let zhat := predictedMeas e k pts
  ∑ s, k.c s • Matrix.vecMulVec (measDiff e zhat (pts s)) (measDiff e zhat (pts s))
noncomputable def crossCovar {n : ℕ} (e : Fin n → Fin 15) (k : UkfConst) (pts : Sig → State) (x : State) :
    Matrix (Fin 15) (Fin n) ℝ :=
  let zhat := predictedMeas e k pts
  ∑ s, k.c s • Matrix.vecMulVec (stateDiff e (pts s - x)) (measDiff e zhat (pts s))

/-- ukf.cpp:269-279: the innovation. -/
noncomputable def ukfInnovation {n : ℕ} (e : Fin n → Fin 15) (z : Fin 15 → ℝ) (zhat : Fin n → ℝ) : Fin n → ℝ :=
  fun i => if angularIdx (e i) then normalizeAngle (z (e i) - zhat i) else z (e i) - zhat i

/-- The members of `Ukf` that survive between calls: `sigma_points_`, `uncorrected_`. -/
structure UkfMem where
  pts : Sig → State
  uncorrected : Bool

/-- ukf.cpp:43-49 and 66-68: after construction and `setConstants`. -/
def UkfMem.init : UkfMem := { pts := fun _ => 0, uncorrected := true }

open Classical in
/-- ukf.cpp:92-308: `correct` with the given sigma points, for given indices.  Result: state, covariance, and whether
the correction was applied; `none` when the innovation covariance is singular. -/
noncomputable def ukfCorrectAt {n : ℕ} (e : Fin n → Fin 15) (k : UkfConst) (pts : Sig → State) (z : Fin 15 → ℝ) (R : Mat15)
    (thr : Thresh) (x : State) (P : Mat15) : Option (State × Mat15 × Bool) :=
  let Pzz := measCovar e k pts
  let S := Pzz + subR e R
  let K := crossCovar e k pts x * S⁻¹
  let y := ukfInnovation e z (predictedMeas e k pts)
  if S.det = 0 then none
  else if checkMahalanobis y S⁻¹ thr then
    some (wrapStateAngles (x + K.mulVec y), P - K * Pzz * K.transpose, true)
  else some (x, P, false)

/-- ukf.cpp:88-90: the sigma points `correct` works with. -/
noncomputable def UkfMem.refresh (llt : Llt) (k : UkfConst) (m : UkfMem) (x : State) (P : Mat15) : Sig → State :=
  if m.uncorrected then m.pts else sigmaPoints llt k x P

/-- ukf.cpp:74-308 `correct`. -/
noncomputable def Ukf.correct (llt : Llt) (k : UkfConst) (m : Payload) (x : State) (P : Mat15) (mem : UkfMem) :
    Option (State × Mat15 × UkfMem) :=
  let pts := mem.refresh llt k x P
  (ukfCorrectAt m.indices.get k pts (fun i => (m.z i).val) m.R m.thresh x P).map fun r =>
    (r.1, r.2.1, { pts := pts, uncorrected := mem.uncorrected && !r.2.2 })

/-- ukf.cpp:407-485 `projectSigmaPoint`: the transfer function is the one of the EKF (ekf.cpp:261-305); the entries it
does not assign keep the values of the identity set by `reset`. -/
noncomputable def projectPoint (dt : ℝ) (x : State) : State := (transferF x dt).mulVec x

/-- ukf.cpp:330-348: the predicted state. -/
noncomputable def ukfMean (k : UkfConst) (pts : Sig → State) : State :=
  fun i => if angularIdx i then angleMean k.w (fun s => pts s i) else ∑ s, k.w s * pts s i

/-- ukf.cpp:354-358. -/
noncomputable def wrapDiff (d : State) : State := fun i => if angularIdx i then normalizeAngle (d i) else d i

/-- ukf.cpp:351-362. -/
noncomputable def ukfCovar (k : UkfConst) (pts : Sig → State) (x : State) : Mat15 :=
  ∑ s, k.c s • Matrix.vecMulVec (wrapDiff (pts s - x)) (wrapDiff (pts s - x))

open Classical in
/-- ukf.cpp:310-385 `predict`.  `prepareControl` (318) only sets `control_acceleration_`, which nothing below reads.
The result is `none` when some sigma point has a pitch whose cosine is zero. -/
noncomputable def Ukf.predict (p : FilterPar) (llt : Llt) (k : UkfConst) (Q : Mat15) (_ctl : Fin 6 → ℝ) (_ctlTime _ref : Int)
    (dt : ℝ) (x : State) (P : Mat15) : Option (State × Mat15 × UkfMem) :=
  let pts0 := sigmaPoints llt k x P
  let pts := fun s => projectPoint dt (pts0 s)
  let x1 := ukfMean k pts
  if ∃ s, Real.cos (pts0 s iPitch) = 0 then none
  else some (wrapStateAngles x1, ukfCovar k pts x1 + dt • noiseQ p Q x1, { pts := pts, uncorrected := true })

/-- The UKF as a filter core; conventions as for `ekfCore`. -/
noncomputable def ukfCore (p : FilterPar) (llt : Llt) (k : UkfConst) : Core where
  X := Option State
  Cov := Mat15
  Ext := UkfMem
  Par := Mat15
  Ctl := Fin 6 → ℝ
  Z := Payload
  predict := fun Q ctl ctlTime ref delta s =>
    match s.1.bind (fun x => Ukf.predict p llt k Q ctl ctlTime ref (toSec delta) x s.2.1) with
    | some r => (some r.1, r.2.1, r.2.2)
    | none => (none, s.2.1, s.2.2)
  correct := fun m s =>
    match s.1.bind (fun x => Ukf.correct llt k m x s.2.1 s.2.2) with
    | some r => (some r.1, r.2.1, r.2.2)
    | none => (none, s.2.1, s.2.2)
  initX := fun m x => x.bind (initState m)
  initCov := initCov
  zeroX := some 0
  setPoseCov := (1e-6 : ℝ) • 1
  resetCov := (1e-9 : ℝ) • 1
  resetPar := defaultQ

end RL
