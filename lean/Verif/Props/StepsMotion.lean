import Verif.Props.Steps
import Verif.Props.Separate
/-! # C104: how often the filter runs its cycle does not matter for velocities, rates and accelerations -/

namespace RL
open Matrix Real Body

section
variable {p : FilterPar} {P : MQueue (ekfCore p)}

/-- The velocities after the time `T` without measurements; rates and accelerations are taken to be constant. -/
def Coasted (T : ℝ) (x y : State) : Prop :=
  y iVx = x iVx + T * x iAx ∧ y iVy = x iVy + T * x iAy ∧ y iVz = x iVz + T * x iAz ∧ ∀ i : Fin 15, 9 ≤ i.val → y i = x i

/-- The covariance of rates and accelerations after the time `T` without measurements. -/
def Blurred (T : ℝ) (Q M M' : Mat15) : Prop := ∀ i j : Fin 15, 9 ≤ i.val → 9 ≤ j.val → M' i j = M i j + T * Q i j

theorem Coasted.trans {s t : ℝ} {x y z : State} (h : Coasted s x y) (k : Coasted t y z) : Coasted (s + t) x z := by
  obtain ⟨h1, h2, h3, h4⟩ := h
  obtain ⟨k1, k2, k3, k4⟩ := k
  refine ⟨?_, ?_, ?_, fun i hi => (k4 i hi).trans (h4 i hi)⟩
  · rw [k1, h1, h4 iAx (by decide)]
    ring
  · rw [k2, h2, h4 iAy (by decide)]
    ring
  · rw [k3, h3, h4 iAz (by decide)]
    ring

theorem Blurred.trans {s t : ℝ} {Q L M N : Mat15} (h : Blurred s Q L M) (k : Blurred t Q M N) : Blurred (s + t) Q L N := by
  intro i j hi hj
  rw [k i j hi hj, h i j hi hj]
  ring

theorem transferJ_rates (x : State) (dt : ℝ) : ∀ i j : Fin 15, 9 ≤ i.val → transferJ x dt i j = (1 : Mat15) i j := by
  intro i j h
  show (jEntry (trig x) dt x i j).getD ((fEntry (trig x) dt i j).getD ((1 : Mat15) i j)) = (1 : Mat15) i j
  revert h
  fin_cases i <;> first
    | exact fun h => absurd h (by decide)
    | (fin_cases j <;> exact fun _ => rfl)

theorem predict_motion (hc : ∀ c, p.ctlUpd c = false) {Q M : Mat15} {u : Fin 6 → ℝ} {t ref : Int} {dt : ℝ} {x : State}
    {r : State × Mat15} (h : Ekf.predict p Q u t ref dt x M = some r) : Coasted dt x r.1 ∧ Blurred dt Q M r.2 := by
  unfold Ekf.predict at h
  dsimp only at h
  split at h
  · cases h
  injection h with h
  rw [← h, applyControl_none p hc, C03_rigid_body]
  dsimp only
  constructor
  · refine ⟨?_, ?_, ?_, ?_⟩
    · rw [wrap_motion _ _ (by decide)]
      rfl
    · rw [wrap_motion _ _ (by decide)]
      rfl
    · rw [wrap_motion _ _ (by decide)]
      rfl
    · intro i hi
      rw [wrap_motion _ i (by omega)]
      revert hi
      fin_cases i <;> first
        | exact fun h => absurd h (by decide)
        | exact fun _ => rfl
  · intro i j hi hj
    rw [Matrix.add_apply, Matrix.smul_apply, smul_eq_mul, noiseQ_motion p Q x i j (Or.inl (by omega))]
    congr 1
    simp only [Matrix.mul_apply, Matrix.transpose_apply, transferJ_rates x dt i _ hi, transferJ_rates x dt j _ hj,
      Matrix.one_apply, ite_mul, mul_ite, one_mul, mul_one, zero_mul, mul_zero, Finset.sum_ite_eq, Finset.mem_univ, if_true]

theorem predictTo_motion (hc : ∀ c, p.ctlUpd c = false) (n : Node (ekfCore p) P) (t : Int) {y : State}
    (hy : (n.predictTo t).filt.x = some y) : ∃ x, n.filt.x = some x ∧ (n.predictTo t).filt.lastTime = t ∧
      (n.predictTo t).filt.par = n.filt.par ∧ Coasted (toSec (t - n.filt.lastTime)) x y ∧
      Blurred (toSec (t - n.filt.lastTime)) n.filt.par n.filt.cov (n.predictTo t).filt.cov := by
  obtain ⟨x, hx, e⟩ := ekf_predict_some (p := p) (Q := n.filt.par) (P := n.filt.cov) (u := n.filt.ctl) (t := n.filt.ctlTime)
    (ref := t) (delta := t - n.filt.lastTime) (x := n.filt.x) (y := y) hy
  refine ⟨x, hx, ?_, rfl, predict_motion hc e⟩
  show n.filt.lastTime + (t - n.filt.lastTime) = t
  omega

/-- C104, partial: whatever the robot does and whatever cycles are run, the velocities, rates and accelerations afterwards,
as long as the estimate is finite, and the covariances of rates and accelerations depend on the time the filter has come
to only.  The covariances of the velocities depend on the cycles (`C104_velocity_variance`), like those of the positions. -/
theorem C104_motion_partial (hc : ∀ c, p.ctlUpd c = false) (cfg : Cfg (ekfCore p)) (ts : List (Int × Int × Bool))
    (n : Node (ekfCore p) P) (hn : Idle n) {y : State} (hy : (n.run cfg (cycles ts)).1.filt.x = some y) :
    let m := (n.run cfg (cycles ts)).1
    ∃ x, n.filt.x = some x ∧ Coasted (toSec (m.filt.lastTime - n.filt.lastTime)) x y ∧
      Blurred (toSec (m.filt.lastTime - n.filt.lastTime)) n.filt.par n.filt.cov m.filt.cov := by
  induction ts generalizing n with
  | nil =>
    intro m
    have e : toSec (m.filt.lastTime - n.filt.lastTime) = 0 := by
      show toSec (n.filt.lastTime - n.filt.lastTime) = 0
      rw [sub_self]
      simp [toSec]
    rw [e]
    refine ⟨y, hy, ⟨?_, ?_, ?_, fun _ _ => rfl⟩, fun i j _ _ => ?_⟩
    · ring
    · ring
    · ring
    · show n.filt.cov i j = n.filt.cov i j + 0 * n.filt.par i j
      ring
  | cons t ts ih =>
    obtain ⟨h1, h2⟩ := idle_tick cfg n hn t.1 t.2.1 t.2.2
    obtain ⟨m1, hm1⟩ : ∃ m1, m1 = (n.step cfg (.tick t.1 t.2.1 t.2.2)).1 := ⟨_, rfl⟩
    have er : (n.run cfg (cycles (t :: ts))).1 = (m1.run cfg (cycles ts)).1 := by
      rw [hm1]
      rfl
    intro m
    have em : m = (m1.run cfg (cycles ts)).1 := er
    rw [← hm1] at h1 h2
    rw [er] at hy
    obtain ⟨z, g1, g2, g3⟩ := ih m1 h1 hy
    rw [← em] at g2 g3
    rcases h2 with ⟨h2, -⟩ | h2
    · rw [h2] at g1 g2 g3
      exact ⟨z, g1, g2, g3⟩
    · rw [h2] at g1 g2 g3
      obtain ⟨x, k1, k2, k3, k4, k5⟩ := predictTo_motion hc n t.1 g1
      rw [k2] at g2 g3
      rw [k3] at g3
      have e : toSec (m.filt.lastTime - n.filt.lastTime) = toSec (t.1 - n.filt.lastTime) + toSec (m.filt.lastTime - t.1) := by
        rw [← toSec_add]
        congr 1
        omega
      rw [e]
      exact ⟨x, k1, k4.trans g2, k5.trans g3⟩

end

/-- C104, partial: two schedules that end at the same time give the same velocities, rates and accelerations, and the same
covariances of rates and accelerations. -/
theorem C104_schedules_partial {p : FilterPar} {P : MQueue (ekfCore p)} (hc : ∀ c, p.ctlUpd c = false) (cfg : Cfg (ekfCore p))
    (ts ts' : List (Int × Int × Bool)) (n : Node (ekfCore p) P) (hn : Idle n)
    (ht : (n.run cfg (cycles ts)).1.filt.lastTime = (n.run cfg (cycles ts')).1.filt.lastTime) {y y' : State}
    (hy : (n.run cfg (cycles ts)).1.filt.x = some y) (hy' : (n.run cfg (cycles ts')).1.filt.x = some y') :
    (∀ i : Fin 15, 6 ≤ i.val → y' i = y i) ∧ ∀ i j : Fin 15, 9 ≤ i.val → 9 ≤ j.val →
      ((n.run cfg (cycles ts')).1.filt.cov : Mat15) i j = ((n.run cfg (cycles ts)).1.filt.cov : Mat15) i j := by
  obtain ⟨x, h1, ⟨a1, a2, a3, a4⟩, h3⟩ := C104_motion_partial hc cfg ts n hn hy
  obtain ⟨x', k1, ⟨b1, b2, b3, b4⟩, k3⟩ := C104_motion_partial hc cfg ts' n hn hy'
  have e : some x = some x' := h1.symm.trans k1
  injection e with e
  subst e
  constructor
  · intro i hi
    by_cases h9 : 9 ≤ i.val
    · rw [a4 i h9, b4 i h9]
    · rw [← ht] at b1 b2 b3
      have : i = iVx ∨ i = iVy ∨ i = iVz := by
        revert hi h9
        revert i
        decide
      rcases this with rfl | rfl | rfl
      · rw [a1, b1]
      · rw [a2, b2]
      · rw [a3, b3]
  · intro i j hi hj
    rw [h3 i j hi hj, k3 i j hi hj, ht]

/-- The robot of `C104_turning`, for which the positions differ. -/
example : ∃ one more : State,
    ((placed (circle 0)).run nowCfg (cycles [(3000000000, 3000000000, false)])).1.filt.x = some one ∧
    ((placed (circle 0)).run nowCfg (cycles [(2000000000, 2000000000, false), (3000000000, 3000000000, false)])).1.filt.x = some more ∧
    one 1 ≠ more 1 ∧ ∀ i : Fin 15, 6 ≤ i.val → more i = one i := by
  obtain ⟨one, more, h1, h2, h3, h4, h5⟩ := C104_turning
  obtain ⟨hi, -⟩ := placed_at (circle 0) (by simp [circle])
  refine ⟨one, more, h1, h2, by rw [h3, h4]; exact h5.ne, (C104_schedules_partial (fun _ => rfl) nowCfg
    [(3000000000, 3000000000, false)] [(2000000000, 2000000000, false), (3000000000, 3000000000, false)] _ hi ?_ h1 h2).1⟩
  obtain ⟨j0, i2⟩ := idle_tick nowCfg _ hi 2000000000 2000000000 false
  have i1 := (idle_tick nowCfg _ hi 3000000000 3000000000 false).2.resolve_left (by simp [nowCfg])
  have i3 := (idle_tick nowCfg _ j0 3000000000 3000000000 false).2.resolve_left (by simp [nowCfg])
  have e : ∀ (m : Node (ekfCore plainPar) (demoQ plainPar)) (t : Int), (m.predictTo t).filt.lastTime = t := by
    intro m t
    show m.filt.lastTime + (t - m.filt.lastTime) = t
    omega
  show ((placed (circle 0)).step nowCfg (.tick 3000000000 3000000000 false)).1.filt.lastTime =
    (((placed (circle 0)).step nowCfg (.tick 2000000000 2000000000 false)).1.step nowCfg (.tick 3000000000 3000000000 false)).1.filt.lastTime
  rw [i1, i3, e, e]

/-- C104, refuted for the variance of a velocity: with noise on the acceleration, two predictions of one second make the
robot less sure of its velocity than one of two seconds. -/
theorem C104_velocity_variance : ∃ one half more : State × Mat15,
    Ekf.predict plainPar 1 0 0 0 2 0 0 = some one ∧ Ekf.predict plainPar 1 0 0 0 1 0 0 = some half ∧
    Ekf.predict plainPar 1 0 0 0 1 half.1 half.2 = some more ∧ one.2 iVx iVx = 2 ∧ more.2 iVx iVx = 3 := by
  have step : ∀ (dt : ℝ) (x : State) (M : Mat15), x iPitch = 0 → ∃ r : State × Mat15,
      Ekf.predict plainPar 1 0 0 0 dt x M = some r ∧ r.2 = transferJ x dt * M * (transferJ x dt)ᵀ + dt • 1 ∧
      r.1 = wrapStateAngles ((transferF x dt).mulVec x) := by
    intro dt x M hx
    refine ⟨_, if_neg (by rw [hx]; simp), rfl, ?_⟩
    dsimp only
    rw [applyControl_none plainPar (fun _ => rfl)]
  obtain ⟨one, h1, h2, -⟩ := step 2 0 0 rfl
  obtain ⟨half, k1, k2, k3⟩ := step 1 0 0 rfl
  have kp : half.1 iPitch = 0 := by
    rw [k3, Matrix.mulVec_zero]
    show normalizeAngle 0 = 0
    exact normalizeAngle_zero
  obtain ⟨more, l1, l2, -⟩ := step 1 half.1 half.2 kp
  refine ⟨one, half, more, h1, k1, l1, ?_, ?_⟩
  · rw [h2]
    simp
  · rw [l2, k2]
    have row : ∀ j, transferJ half.1 1 iVx j = if j = iVx ∨ j = iAx then 1 else 0 := by
      intro j
      show (jEntry (trig half.1) 1 half.1 6 j).getD ((fEntry (trig half.1) 1 6 j).getD ((1 : Mat15) 6 j)) = _
      fin_cases j <;> simp [jEntry, fEntry, iVx, iAx]
      rfl
    simp only [mul_zero, zero_mul, zero_add, one_smul, mul_one, Matrix.add_apply, Matrix.mul_apply, Matrix.transpose_apply, row]
    simp only [row, Fin.sum_univ_succ, Fin.sum_univ_zero, iVx, iAx]
    norm_num [Fin.ext_iff]

end RL
