import Verif.Model.Ekf
import Verif.Proofs.EkfCov
import Verif.Proofs.Motion
import Verif.Spec.EkfDemo
/-!
# C11, C12, C15: control acceleration, dynamic process noise, no hidden memory
-/

namespace RL
open Matrix

/-! ## C11 -/

/-- Does the command ask for less speed than there is?  Either the speed is above the commanded one, or it is in the
opposite direction by more than the tolerance of 0.01. -/
def Braking (state control : ℝ) : Prop :=
  (0 ≤ control ∧ (control < state ∨ state < -0.01 ∨ state < -control)) ∨
    (control < 0 ∧ (state < control ∨ 0.01 < state ∨ -control < state))

theorem decelerating_iff (s c : ℝ) :
    (|open Classical in if |c - s| ≤ |c| + 0.01 then c else 0| < |s|) ↔ Braking s c := by
  classical
  unfold Braking
  have h01 : (0.01 : ℝ) = 1 / 100 := by norm_num
  rw [h01]
  by_cases hs : |c - s| ≤ |c| + 1 / 100
  · rw [if_pos hs]
    rcases le_or_gt 0 c with hc | hc <;> rcases le_or_gt 0 s with h1 | h1
    · rw [abs_of_nonneg hc, abs_of_nonneg h1]
      constructor
      · intro h; exact Or.inl ⟨hc, Or.inl h⟩
      · rintro (⟨_, h | h | h⟩ | ⟨h, _⟩) <;> linarith
    · rw [abs_of_nonneg hc] at hs ⊢
      rw [abs_of_neg h1]
      rw [abs_of_nonneg (by linarith)] at hs
      constructor
      · intro h; exact Or.inl ⟨hc, Or.inr (Or.inr (by linarith))⟩
      · rintro (⟨_, h | h | h⟩ | ⟨h, _⟩) <;> linarith
    · rw [abs_of_neg hc] at hs ⊢
      rw [abs_of_nonneg h1]
      rw [abs_of_neg (by linarith)] at hs
      constructor
      · intro h; exact Or.inr ⟨hc, Or.inr (Or.inr (by linarith))⟩
      · rintro (⟨h, _⟩ | ⟨_, h | h | h⟩) <;> linarith
    · rw [abs_of_neg hc, abs_of_neg h1]
      constructor
      · intro h; exact Or.inr ⟨hc, Or.inl (by linarith)⟩
      · rintro (⟨h, _⟩ | ⟨_, h | h | h⟩) <;> linarith
  · rw [if_neg hs, abs_zero]
    push Not at hs
    have hne : s ≠ 0 := by
      rintro rfl
      rw [sub_zero] at hs
      linarith
    refine ⟨fun _ => ?_, fun _ => abs_pos.2 hne⟩
    rcases le_or_gt 0 c with hc | hc
    · refine Or.inl ⟨hc, ?_⟩
      by_contra hcon
      push Not at hcon
      rw [abs_of_nonneg hc, abs_of_nonneg (by linarith [hcon.1])] at hs
      linarith [hcon.2.1]
    · refine Or.inr ⟨hc, ?_⟩
      by_contra hcon
      push Not at hcon
      rw [abs_of_neg hc, abs_of_nonpos (by linarith [hcon.1])] at hs
      linarith [hcon.2.1]

open Classical in
/-- C11: the acceleration is the gain times the velocity error, cut off at the limit; deceleration limit and gain are
used exactly when the command asks for less speed. -/
theorem C11_formula (s c al ag dl dg : ℝ) : computeControlAcceleration s c al ag dl dg =
    if Braking s c then min (max (dg * (c - s)) (-dl)) dl else min (max (ag * (c - s)) (-al)) al := by
  unfold computeControlAcceleration
  simp only [decelerating_iff]
  split <;> rfl

/-- C11: never more than the configured deceleration or acceleration limit. -/
theorem C11_bounded (s c al ag dl dg : ℝ) (ha : 0 ≤ al) (hd : 0 ≤ dl) :
    (Braking s c → |computeControlAcceleration s c al ag dl dg| ≤ dl) ∧
      (¬ Braking s c → |computeControlAcceleration s c al ag dl dg| ≤ al) := by
  rw [C11_formula]
  constructor <;> intro h
  · rw [if_pos h]
    exact abs_le.2 ⟨le_min (le_max_right _ _) (by linarith), min_le_right _ _⟩
  · rw [if_neg h]
    exact abs_le.2 ⟨le_min (le_max_right _ _) (by linarith), min_le_right _ _⟩

theorem clamp_between {g e l : ℝ} (hg : 0 ≤ g) (hl : 0 ≤ l) {dt : ℝ} (hdt : 0 ≤ dt) (h : g * dt ≤ 1) :
    (0 ≤ e → 0 ≤ min (max (g * e) (-l)) l * dt ∧ min (max (g * e) (-l)) l * dt ≤ e) ∧
      (e ≤ 0 → e ≤ min (max (g * e) (-l)) l * dt ∧ min (max (g * e) (-l)) l * dt ≤ 0) := by
  constructor
  · intro he
    have h1 : 0 ≤ g * e := mul_nonneg hg he
    have h2 : max (g * e) (-l) = g * e := max_eq_left (by linarith)
    rw [h2]
    refine ⟨mul_nonneg (le_min h1 hl) hdt, ?_⟩
    calc min (g * e) l * dt ≤ g * e * dt := mul_le_mul_of_nonneg_right (min_le_left _ _) hdt
      _ = (g * dt) * e := by ring
      _ ≤ 1 * e := mul_le_mul_of_nonneg_right h he
      _ = e := one_mul _
  · intro he
    have h1 : g * e ≤ 0 := mul_nonpos_of_nonneg_of_nonpos hg he
    have h2 : min (max (g * e) (-l)) l = max (g * e) (-l) := min_eq_left (max_le (by linarith) (by linarith))
    rw [h2]
    refine ⟨?_, mul_nonpos_of_nonpos_of_nonneg (max_le h1 (by linarith)) hdt⟩
    calc e = 1 * e := (one_mul _).symm
      _ ≤ (g * dt) * e := mul_le_mul_of_nonpos_right h he
      _ = g * e * dt := by ring
      _ ≤ max (g * e) (-l) * dt := mul_le_mul_of_nonneg_right (le_max_left _ _) hdt

/-- C11: the acceleration is directed at the command, never away from it; and while gain times step is at most one, the
velocity does not overshoot the command. -/
theorem C11_directed (s c al ag dl dg : ℝ) (ha : 0 ≤ al) (hd : 0 ≤ dl) (hag : 0 ≤ ag) (hdg : 0 ≤ dg) (dt : ℝ)
    (hdt : 0 ≤ dt) (h1 : ag * dt ≤ 1) (h2 : dg * dt ≤ 1) :
    (s ≤ c → s ≤ s + computeControlAcceleration s c al ag dl dg * dt ∧
      s + computeControlAcceleration s c al ag dl dg * dt ≤ c) ∧
    (c ≤ s → c ≤ s + computeControlAcceleration s c al ag dl dg * dt ∧
      s + computeControlAcceleration s c al ag dl dg * dt ≤ s) := by
  have key : (0 ≤ c - s → 0 ≤ computeControlAcceleration s c al ag dl dg * dt ∧
      computeControlAcceleration s c al ag dl dg * dt ≤ c - s) ∧
      (c - s ≤ 0 → c - s ≤ computeControlAcceleration s c al ag dl dg * dt ∧
      computeControlAcceleration s c al ag dl dg * dt ≤ 0) := by
    rw [C11_formula]
    split
    · exact clamp_between hdg hd hdt h2
    · exact clamp_between hag ha hdt h1
  constructor <;> intro h
  · have := key.1 (by linarith)
    constructor <;> linarith [this.1, this.2]
  · have := key.2 (by linarith)
    constructor <;> linarith [this.1, this.2]

/-- C11: sign of the acceleration, whatever the gain. -/
theorem C11_sign (s c al ag dl dg : ℝ) (ha : 0 ≤ al) (hd : 0 ≤ dl) (hag : 0 ≤ ag) (hdg : 0 ≤ dg) :
    0 ≤ computeControlAcceleration s c al ag dl dg * (c - s) := by
  have key : ∀ g l : ℝ, 0 ≤ g → 0 ≤ l → 0 ≤ min (max (g * (c - s)) (-l)) l * (c - s) := by
    intro g l hg hl
    rcases le_or_gt 0 (c - s) with h | h
    · refine mul_nonneg (le_min (le_max_of_le_left (mul_nonneg hg h)) hl) h
    · refine mul_nonneg_of_nonpos_of_nonpos (min_le_of_left_le (max_le ?_ (by linarith))) h.le
      exact mul_nonpos_of_nonneg_of_nonpos hg h.le
  rw [C11_formula]
  split
  · exact key _ _ hdg hd
  · exact key _ _ hag ha

/-- Limits are used as given: with a negative one, the "limited" acceleration is that negative number whatever the
command, so a robot commanded forward is predicted to accelerate backward. -/
theorem C11_negative_limit : computeControlAcceleration 0 1 (-1) 1 (-1) 1 = -1 := by
  rw [C11_formula]
  have e : min (max (1 * ((1 : ℝ) - 0)) (- -1)) (-1) = -1 := by norm_num
  split <;> exact e

/-- C11 for a prediction: zero for axes not under control and without `use_control`; a command whose age is at least the
timeout counts as a zero command, a younger one as given. -/
theorem C11_prepared (p : FilterPar) (ctl : Fin 6 → ℝ) (ct ref : Int) (x : State) (c : Fin 6) :
    ((p.useControl = false ∨ p.ctlUpd c = false) → prepareControl p ctl ct ref x c = 0) ∧
    (p.useControl = true → p.ctlUpd c = true → p.ctlTimeout ≤ ref - ct →
      prepareControl p ctl ct ref x c =
        computeControlAcceleration (x (velIdx c)) 0 (p.accLim c) (p.accGain c) (p.decLim c) (p.decGain c)) ∧
    (p.useControl = true → p.ctlUpd c = true → ref - ct < p.ctlTimeout →
      prepareControl p ctl ct ref x c =
        computeControlAcceleration (x (velIdx c)) (ctl c) (p.accLim c) (p.accGain c) (p.decLim c) (p.decGain c)) := by
  refine ⟨?_, ?_, ?_⟩
  · rintro (h | h)
    · simp [prepareControl, h]
    · simp [prepareControl, h]
  · intro h1 h2 h3
    simp [prepareControl, h1, h2, h3]
  · intro h1 h2 h3
    simp [prepareControl, h1, h2, not_le.2 h3]

/-- C11, consequence: an expired command stops influencing predictions altogether. -/
theorem C11_expired_command (p : FilterPar) (Q : Mat15) (ctl ctl' : Fin 6 → ℝ) (ct ct' ref : Int) (dt : ℝ) (x : State)
    (P : Mat15) (h : p.ctlTimeout ≤ ref - ct) (h' : p.ctlTimeout ≤ ref - ct') :
    Ekf.predict p Q ctl ct ref dt x P = Ekf.predict p Q ctl' ct' ref dt x P := by
  have e : prepareControl p ctl ct ref x = prepareControl p ctl' ct' ref x := by
    funext c
    by_cases hu : p.useControl = true
    · by_cases hc : p.ctlUpd c = true
      · rw [(C11_prepared p ctl ct ref x c).2.1 hu hc h, (C11_prepared p ctl' ct' ref x c).2.1 hu hc h']
      · simp only [Bool.not_eq_true] at hc
        rw [(C11_prepared p ctl ct ref x c).1 (Or.inr hc), (C11_prepared p ctl' ct' ref x c).1 (Or.inr hc)]
    · simp only [Bool.not_eq_true] at hu
      rw [(C11_prepared p ctl ct ref x c).1 (Or.inl hu), (C11_prepared p ctl' ct' ref x c).1 (Or.inl hu)]
  unfold Ekf.predict
  rw [e]

/-- Accelerating forward from rest, and braking. -/
example : computeControlAcceleration 0 3 2 1 5 1 = 2 ∧ computeControlAcceleration 3 1 1 4 5 1 = -2 := by
  constructor
  · rw [C11_formula, if_neg (by unfold Braking; norm_num)]; norm_num
  · rw [C11_formula, if_pos (by unfold Braking; norm_num)]; norm_num

example : 0 ≤ (2 : ℝ) * 0.1 ∧ (2 : ℝ) * 0.1 ≤ 1 := by norm_num

/-! ## C12 -/

/-- C12: with dynamic noise the pose block is multiplied by the squared speed, the rest is as configured; without, the
configured matrix is used. -/
theorem C12_dynamic_noise (p : FilterPar) (Q : Mat15) (x : State) (i j : Fin 15) : noiseQ p Q x i j =
    if p.dynamic = true ∧ i.val < 6 ∧ j.val < 6 then
      (x 6 ^ 2 + x 7 ^ 2 + x 8 ^ 2 + x 9 ^ 2 + x 10 ^ 2 + x 11 ^ 2) * Q i j else Q i j := by
  unfold noiseQ
  by_cases hd : p.dynamic = true
  · simp only [hd, if_true, true_and, writeDyn, Matrix.of_apply]
    have e : ∑ c : Fin 6, x (velIdx c) ^ 2 = x 6 ^ 2 + x 7 ^ 2 + x 8 ^ 2 + x 9 ^ 2 + x 10 ^ 2 + x 11 ^ 2 :=
      Fin.sum_univ_six _
    rw [e]
    split
    · have h0 : 0 ≤ x 6 ^ 2 + x 7 ^ 2 + x 8 ^ 2 + x 9 ^ 2 + x 10 ^ 2 + x 11 ^ 2 := by positivity
      rw [mul_comm (Real.sqrt _) (Q i j), mul_assoc, Real.mul_self_sqrt h0, mul_comm]
    · rfl
  · simp [hd]

/-- C12: the scaled noise is a covariance if the configured one is and has no terms between pose and the rest. -/
theorem C12_is_covariance (p : FilterPar) (Q : Mat15) (hQ : Q.PosSemidef) (x : State)
    (hd : p.dynamic = true → ∀ i j : Fin 15, i.val < 6 → 6 ≤ j.val → Q i j = 0 ∧ Q j i = 0) :
    (noiseQ p Q x).PosSemidef := by
  refine noiseQ_psd hQ (fun h => ?_) x
  intro i j hij
  rcases hij with ⟨hi, hj⟩ | ⟨hi, hj⟩
  · exact (hd h i j hi (not_lt.1 hj)).1
  · exact (hd h j i hj (not_lt.1 hi)).2

theorem noise_not_psd {N : Mat15} {i j : Fin 15} (hij : i ≠ j) (h : N i i - N i j - N j i + N j j < 0) :
    ¬ N.PosSemidef := by
  intro hN
  have h1 := hN.dotProduct_mulVec_nonneg (fun k => if k = i then 1 else if k = j then -1 else 0)
  have e : star (fun k : Fin 15 => if k = i then (1 : ℝ) else if k = j then -1 else 0) =
      Pi.single i 1 - Pi.single j 1 := by
    funext k
    by_cases hk : k = i
    · subst hk; simp [hij]
    · by_cases hk' : k = j
      · subst hk'; simp [hk]
      · simp [hk, hk']
  have e' : (fun k : Fin 15 => if k = i then (1 : ℝ) else if k = j then -1 else 0) =
      Pi.single i 1 - Pi.single j 1 := by
    simpa using e
  rw [e, e'] at h1
  simp only [Matrix.mulVec_sub, sub_dotProduct, dotProduct_sub, single_one_dotProduct, Matrix.mulVec_single_one,
    Matrix.col_apply] at h1
  linarith

/-- Noise that couples position and velocity. -/
noncomputable def crossQ : Mat15 := Matrix.vecMulVec (Pi.single 0 1 + Pi.single 6 1) (Pi.single 0 1 + Pi.single 6 1)

/-- C12, the condition is needed: a configured noise covariance that couples a pose with a velocity variable stops being
a covariance when the robot stands still. -/
theorem C12_cross_terms (p : FilterPar) (hd : p.dynamic = true) :
    crossQ.PosSemidef ∧ ¬ (noiseQ p crossQ (0 : State)).PosSemidef := by
  constructor
  · have h := posSemidef_vecMulVec_self_star (Pi.single 0 1 + Pi.single 6 1 : Fin 15 → ℝ)
    simpa [crossQ] using h
  · refine noise_not_psd (i := 0) (j := 6) (by decide) ?_
    simp only [C12_dynamic_noise, hd]
    have e : ∀ i j : Fin 15, crossQ i j = (Pi.single 0 1 + Pi.single 6 1 : Fin 15 → ℝ) i *
      (Pi.single 0 1 + Pi.single 6 1 : Fin 15 → ℝ) j := fun i j => rfl
    simp only [e]
    simp

example : (0 : ℝ) < noiseQ { plainPar with dynamic := true } defaultQ (fun _ => 1) 0 0 ∧
    ∀ i j : Fin 15, i.val < 6 → 6 ≤ j.val → defaultQ i j = 0 ∧ defaultQ j i = 0 := by
  constructor
  · rw [C12_dynamic_noise]
    simp [defaultQ]
    norm_num
  · intro i j hi hj
    have : i ≠ j := by rintro rfl; omega
    exact ⟨Matrix.diagonal_apply_ne _ this, Matrix.diagonal_apply_ne _ this.symm⟩

/-! ## C15 -/

/-- What can be done to the matrices an EKF object keeps: reset, new process noise, prediction from any state with any
control and step. -/
inductive MemOp where
  | reset
  | setQ (Q : Mat15)
  | predict (ctl : Fin 6 → ℝ) (ct ref : Int) (dt : ℝ) (x : State) (P : Mat15)

/-- Memory and configured process noise along such operations. -/
noncomputable def MemOp.apply (p : FilterPar) : EkfMem × Mat15 → MemOp → EkfMem × Mat15
  | _, .reset => (EkfMem.reset, defaultQ)
  | (m, _), .setQ Q => (m.setQ Q, Q)
  | (m, Q), .predict ctl ct ref dt x P => ((Ekf.predictMem p m Q ctl ct ref dt x P).1, Q)

theorem fEntry_isSome (t t' : Trig) (dt dt' : ℝ) (i j : Fin 15) :
    (fEntry t dt i j).isSome = (fEntry t' dt' i j).isSome := by
  fin_cases i <;> fin_cases j <;> rfl

/-- The memory is harmless: whatever it holds is overwritten or is what a fresh object holds. -/
def MemOk (m : EkfMem) (Q : Mat15) : Prop :=
  (∀ x dt, writeF m.F x dt = transferF x dt) ∧ ∀ x, writeDyn m.dyn Q x = writeDyn Q Q x

theorem writeF_writeF (M : Mat15) (x y : State) (dt dt' : ℝ) : writeF (writeF M x dt) y dt' = writeF M y dt' := by
  ext i j
  simp only [writeF, Matrix.of_apply]
  have h := fEntry_isSome (trig x) (trig y) dt dt' i j
  cases h1 : fEntry (trig y) dt' i j with
  | some v => rfl
  | none =>
    rw [h1] at h
    cases h2 : fEntry (trig x) dt i j with
    | some v => rw [h2] at h; cases h
    | none => rfl

theorem writeDyn_writeDyn (M Q : Mat15) (x y : State) : writeDyn (writeDyn M Q x) Q y = writeDyn M Q y := by
  ext i j
  simp only [writeDyn, Matrix.of_apply]
  split <;> rfl

theorem MemOk.apply (p : FilterPar) {s : EkfMem × Mat15} (h : MemOk s.1 s.2) (o : MemOp) :
    MemOk (o.apply p s).1 (o.apply p s).2 := by
  obtain ⟨m, Q⟩ := s
  cases o with
  | reset => exact ⟨fun _ _ => rfl, fun _ => rfl⟩
  | setQ Q' => exact ⟨h.1, fun _ => rfl⟩
  | predict ctl ct ref dt x P =>
    refine ⟨fun y dt' => ?_, fun y => ?_⟩
    · show writeF (writeF m.F x dt) y dt' = _
      rw [writeF_writeF]; exact h.1 y dt'
    · show writeDyn (if p.dynamic then writeDyn m.dyn Q x else m.dyn) Q y = _
      split
      · rw [writeDyn_writeDyn]; exact h.2 y
      · exact h.2 y

/-- C15: whatever predictions, resets and changes of the process noise an object has been through, its next prediction
is the function `Ekf.predict` of the configured noise, the control, the step and the estimate. -/
theorem C15_no_hidden_memory (p : FilterPar) (ops : List MemOp) (ctl : Fin 6 → ℝ) (ct ref : Int) (dt : ℝ) (x : State)
    (P : Mat15) :
    let s := ops.foldl (MemOp.apply p) (EkfMem.reset, defaultQ)
    (Ekf.predictMem p s.1 s.2 ctl ct ref dt x P).2 = Ekf.predict p s.2 ctl ct ref dt x P := by
  have hk : ∀ (ops : List MemOp) (s : EkfMem × Mat15), MemOk s.1 s.2 →
      MemOk (ops.foldl (MemOp.apply p) s).1 (ops.foldl (MemOp.apply p) s).2 := by
    intro ops
    induction ops with
    | nil => exact fun s h => h
    | cons o ops ih => exact fun s h => ih _ (h.apply p o)
  intro s
  have h : MemOk s.1 s.2 := hk ops _ ⟨fun _ _ => rfl, fun _ => rfl⟩
  simp only [Ekf.predictMem, Ekf.predict, h.1, noiseQ, transferJ]
  by_cases hd : p.dynamic = true
  · simp only [hd, if_true, h.2]
  · simp only [hd]; rfl

/-- C15: two objects with different histories but the same configured noise predict the same from the same estimate. -/
theorem C15_same_prediction (p : FilterPar) (ops ops' : List MemOp) (ctl : Fin 6 → ℝ) (ct ref : Int) (dt : ℝ) (x : State)
    (P : Mat15) :
    let s := ops.foldl (MemOp.apply p) (EkfMem.reset, defaultQ)
    let s' := ops'.foldl (MemOp.apply p) (EkfMem.reset, defaultQ)
    s.2 = s'.2 →
    (Ekf.predictMem p s.1 s.2 ctl ct ref dt x P).2 = (Ekf.predictMem p s'.1 s'.2 ctl ct ref dt x P).2 := by
  intro s s' h
  rw [C15_no_hidden_memory p ops, C15_no_hidden_memory p ops']
  show Ekf.predict p s.2 ctl ct ref dt x P = Ekf.predict p s'.2 ctl ct ref dt x P
  rw [h]

/-- Without the overwriting a stale entry would be seen: a memory that is not harmless predicts differently. -/
example : ¬ MemOk { EkfMem.reset with F := 0 } defaultQ := by
  intro h
  have h1 := congrFun (congrFun (h.1 0 0) 9) 9
  have e : writeF (0 : Mat15) 0 0 9 9 = 0 := rfl
  have e' : transferF (0 : State) 0 9 9 = 1 := rfl
  rw [show writeF ({ EkfMem.reset with F := 0 } : EkfMem).F 0 0 9 9 = 0 from e, e'] at h1
  norm_num at h1

end RL
