import Verif.Proofs.Commute
import Verif.Props.EkfCorrect
import Verif.Props.EkfCov
import Mathlib.Data.List.Perm.Basic
/-! # C89: simultaneous measurements can be fused in any order

`std::priority_queue` says nothing about the order in which measurements of equal stamp are taken out. -/

namespace RL
open Matrix Real

/-- A measurement that always has an effect: no gate, its errors a proper covariance. -/
structure Payload.Certain (m : Payload) : Prop where
  ungated : m.thresh = .unlimited
  good : m.GoodR
  proper : (subR m.indices.get m.R).det ≠ 0

/-- The measured values. -/
noncomputable def Payload.values (m : Payload) : Fin m.indices.length → ℝ := fun i => (m.z (m.indices.get i)).val

/-- The difference of measured and estimated angles, for the angles that are measured, does not exceed half a turn. -/
def Payload.Near (m : Payload) (x : State) : Prop :=
  ∀ i, angular (m.indices.get i) → -π < m.values i - x (m.indices.get i) ∧ m.values i - x (m.indices.get i) ≤ π

/-- The measurement has no orientation. -/
def Payload.NoAngles (m : Payload) : Prop := ∀ i, angular i → m.upd i = false

/-- The textbook estimate given a measurement: without wrapping of angles. -/
noncomputable def textbook (m : Payload) (x : State) (P : Mat15) : State :=
  x + (P.submatrix id m.indices.get * (P.submatrix m.indices.get m.indices.get + subR m.indices.get m.R)⁻¹).mulVec
    (m.values - fun i => x (m.indices.get i))

theorem Payload.Certain.posDef {m : Payload} (h : m.Certain) : (subR m.indices.get m.R).PosDef :=
  (PosSemidef.posDef_iff_det_ne_zero (subR_psd h.good.sub)).2 h.proper

theorem Payload.Certain.usable {m : Payload} (h : m.Certain) {P : Mat15} (hP : P.PosSemidef) :
    (innovCov m.indices.get m.R P).det ≠ 0 := by
  rw [innovCov_eq]
  have : (P.submatrix m.indices.get m.indices.get + subR m.indices.get m.R).PosDef :=
    PosDef.posSemidef_add (hP.submatrix _) h.posDef
  exact (this.isUnit.map Matrix.detMonoidHom).ne_zero

theorem textbook_eq (m : Payload) (x : State) (P : Mat15) :
    textbook m x P = x + (gain m.indices.get m.R P).mulVec (m.values - (subH m.indices.get).mulVec x) := by
  have e : (subH m.indices.get).mulVec x = fun i => x (m.indices.get i) := by
    funext i
    simp [subH, mulVec, dotProduct]
  unfold textbook gain
  rw [innovCov_eq, mul_subH_transpose, e]

/-- Angles in a state up to full turns. -/
theorem wrap_congr {x y : State} (h : ∀ i, (angular i → ∃ k : ℤ, x i = y i + k * (2 * π)) ∧ (¬ angular i → x i = y i)) :
    wrapStateAngles x = wrapStateAngles y := by
  funext i
  unfold wrapStateAngles
  by_cases hi : i = iRoll ∨ i = iPitch ∨ i = iYaw
  · rw [if_pos hi, if_pos hi]
    obtain ⟨k, hk⟩ := (h i).1 hi
    rw [hk, normalizeAngle_add_two_pi]
  · rw [if_neg hi, if_neg hi]
    exact (h i).2 hi

theorem wrap_turns (x : State) (i : Fin 15) :
    (angular i → ∃ k : ℤ, wrapStateAngles x i = x i + k * (2 * π)) ∧ (¬ angular i → wrapStateAngles x i = x i) := by
  unfold wrapStateAngles
  constructor
  · intro hi
    rw [if_pos (show i = iRoll ∨ i = iPitch ∨ i = iYaw from hi)]
    obtain ⟨-, -, k, hk⟩ := normalizeAngle_spec (x i)
    exact ⟨-k, by rw [hk]; push_cast; ring⟩
  · intro hi
    rw [if_neg (show ¬ (i = iRoll ∨ i = iPitch ∨ i = iYaw) from hi)]

theorem wrap_add (x d : State) : wrapStateAngles (wrapStateAngles x + d) = wrapStateAngles (x + d) := by
  refine wrap_congr fun i => ⟨fun hi => ?_, fun hi => ?_⟩
  · obtain ⟨k, hk⟩ := (wrap_turns x i).1 hi
    exact ⟨k, by simp only [Pi.add_apply, hk]; ring⟩
  · simp only [Pi.add_apply, (wrap_turns x i).2 hi]

/-- The innovation of a state known up to full turns. -/
theorem innovation_near {m : Payload} {x y : State} (hn : m.Near y)
    (h : ∀ i, (angular i → ∃ k : ℤ, x i = y i + k * (2 * π)) ∧ (¬ angular i → x i = y i)) :
    innovation m.indices.get (fun i => (m.z i).val) x = m.values - (subH m.indices.get).mulVec y := by
  have e : (subH m.indices.get).mulVec y = fun i => y (m.indices.get i) := by
    funext i
    simp [subH, mulVec, dotProduct]
  rw [e]
  funext i
  unfold innovation
  simp only [Pi.sub_apply]
  by_cases hi : m.indices.get i = iRoll ∨ m.indices.get i = iPitch ∨ m.indices.get i = iYaw
  · rw [if_pos hi]
    obtain ⟨k, hk⟩ := (h (m.indices.get i)).1 hi
    rw [hk, show (m.z (m.indices.get i)).val - (y (m.indices.get i) + k * (2 * π)) =
      (m.values i - y (m.indices.get i)) + ((-k : ℤ) : ℝ) * (2 * π) by unfold Payload.values; push_cast; ring,
      normalizeAngle_add_two_pi, normalizeAngle_of_mem (hn i hi).1 (hn i hi).2]
  · rw [if_neg hi, (h (m.indices.get i)).2 hi]
    rfl

theorem Payload.NoAngles.near {m : Payload} (h : m.NoAngles) (x : State) : m.Near x := by
  intro i hi
  have := m.indices_upd i
  rw [h _ hi] at this
  cases this

/-- One correction of a state known up to full turns. -/
theorem correct_near {m : Payload} (hm : m.Certain) {P : Mat15} (hP : P.PosSemidef) {x y : State} (hn : m.Near y)
    (h : ∀ i, (angular i → ∃ k : ℤ, x i = y i + k * (2 * π)) ∧ (¬ angular i → x i = y i)) :
    Ekf.correct m x P = some (wrapStateAngles (textbook m y P), joseph m.indices.get m.R (gain m.indices.get m.R P) P) := by
  have hS := hm.usable hP
  unfold Ekf.correct
  rw [hm.ungated, C06_default_never_rejects _ _ _ _ _ (by rw [← innovCov_eq]; exact hS), innovation_near hn h, textbook_eq]
  congr 2
  refine wrap_congr fun i => ⟨fun hi => ?_, fun hi => ?_⟩
  · obtain ⟨k, hk⟩ := (h i).1 hi
    exact ⟨k, by simp only [Pi.add_apply, hk]; ring⟩
  · simp only [Pi.add_apply, (h i).2 hi]

theorem joseph_psd' {m : Payload} (hm : m.Certain) {P : Mat15} (hP : P.PosSemidef) :
    (joseph m.indices.get m.R (gain m.indices.get m.R P) P).PosSemidef :=
  joseph_psd hP (subR_psd hm.good.sub) _ _

/-- Fuse two measurements. -/
noncomputable def fuseTwo (a b : Payload) (x : State) (P : Mat15) : Option (State × Mat15) :=
  (Ekf.correct a x P).bind fun r => Ekf.correct b r.1 r.2

theorem fuseTwo_eq {a b : Payload} (ha : a.Certain) (hb : b.Certain) {P : Mat15} (hP : P.PosSemidef) {x : State}
    (h1 : a.Near x) (h2 : b.Near (textbook a x P)) :
    fuseTwo a b x P = some (wrapStateAngles
        (textbook b (textbook a x P) (joseph a.indices.get a.R (gain a.indices.get a.R P) P)),
      joseph b.indices.get b.R
        (gain b.indices.get b.R (joseph a.indices.get a.R (gain a.indices.get a.R P) P))
        (joseph a.indices.get a.R (gain a.indices.get a.R P) P)) := by
  unfold fuseTwo
  rw [correct_near ha hP h1 (fun i => ⟨fun _ => ⟨0, by simp⟩, fun _ => rfl⟩), Option.bind_some,
    correct_near hb (joseph_psd' ha hP) h2 (wrap_turns _)]

/-- The factor `1 - K H` of a measurement. -/
noncomputable def factor (m : Payload) (P : Mat15) : Mat15 := 1 - gain m.indices.get m.R P * subH m.indices.get
noncomputable def weight (m : Payload) : Mat15 := (subH m.indices.get)ᵀ * (subR m.indices.get m.R)⁻¹ * subH m.indices.get

noncomputable def push (m : Payload) : State := ((subH m.indices.get)ᵀ * (subR m.indices.get m.R)⁻¹).mulVec m.values

theorem factor_spec {m : Payload} (hm : m.Certain) {P : Mat15} (hP : P.PosSemidef) :
    factor m P * (1 + P * weight m) = 1 ∧
    joseph m.indices.get m.R (gain m.indices.get m.R P) P = factor m P * P ∧
    ∀ x, textbook m x P = (factor m P).mulVec
      (x + P.mulVec (push m)) := by
  have hS : IsUnit (subH m.indices.get * (P * (subH m.indices.get)ᵀ) + subR m.indices.get m.R).det :=
    isUnit_iff_ne_zero.2 (hm.usable hP)
  have hR := isUnit_iff_ne_zero.2 hm.proper
  refine ⟨(gain_information _ hR hS).1, ?_, fun x => ?_⟩
  · exact (joseph_eq (PosSemidef.symm' hP) (PosSemidef.symm' (subR_psd hm.good.sub)) _ hS).2
  · rw [textbook_eq]
    exact update_state _ hR hS x _

/-- C89, partial: two simultaneous measurements that are not gated give the same estimate and covariance in either order,
as long as no measured angle is more than half a turn away from its estimate. -/
theorem C89_either_order_partial (a b : Payload) (ha : a.Certain) (hb : b.Certain) (x : State) (P : Mat15)
    (hP : P.PosSemidef) (h1 : a.Near x) (h2 : b.Near (textbook a x P)) (h3 : b.Near x) (h4 : a.Near (textbook b x P)) :
    fuseTwo a b x P = fuseTwo b a x P ∧ fuseTwo a b x P ≠ none := by
  rw [fuseTwo_eq ha hb hP h1 h2, fuseTwo_eq hb ha hP h3 h4]
  refine ⟨?_, by simp⟩
  obtain ⟨a1, a2, a3⟩ := factor_spec ha hP
  obtain ⟨b1, b2, b3⟩ := factor_spec hb hP
  obtain ⟨c1, c2, c3⟩ := factor_spec hb (joseph_psd' ha hP)
  obtain ⟨d1, d2, d3⟩ := factor_spec ha (joseph_psd' hb hP)
  have e1 := two_updates (P := P) a1 (by rw [← a2]; exact c1)
  have e2 := two_updates (P := P) b1 (by rw [← b2]; exact d1)
  rw [add_comm (weight b)] at e2
  have e := left_inverse_unique e1 e2
  rw [c2, d2, c3, d3, a3, b3]
  generalize factor b (joseph a.indices.get a.R (gain a.indices.get a.R P) P) = A2 at e ⊢
  generalize factor a (joseph b.indices.get b.R (gain b.indices.get b.R P) P) = B2 at e ⊢
  rw [a2, b2]
  generalize factor a P = A1 at e ⊢
  generalize factor b P = B1 at e ⊢
  have key : ∀ (A B : Mat15) (u v : State), A.mulVec (B.mulVec (x + P.mulVec u) + (B * P).mulVec v) =
      (A * B).mulVec (x + P.mulVec u + P.mulVec v) := by
    intro A B u v
    rw [← Matrix.mulVec_mulVec v, ← Matrix.mulVec_add, Matrix.mulVec_mulVec]
  rw [key, key, e, ← Matrix.mul_assoc, e, Matrix.mul_assoc, add_right_comm]
/-- Corrections of a filter object by measurements without orientations commute. -/
theorem correct_swap {p : FilterPar} (a b : Payload) (ha : a.Certain) (hb : b.Certain) (na : a.NoAngles) (nb : b.NoAngles)
    (g : Filt (ekfCore p)) (hc : CovOk g.x g.cov) :
    (Filt.correct (Filt.correct g a) b : Filt (ekfCore p)) = Filt.correct (Filt.correct g b) a := by
  obtain ⟨ini, x, P, u, pr, par, ctl, ct, lt, st⟩ := g
  cases x with
  | none => rfl
  | some x =>
    have hP : Matrix.PosSemidef (n := Fin 15) (R := ℝ) P := hc (by simp)
    have key : ∀ c d : Payload, c.Certain → d.Certain → c.NoAngles → d.NoAngles →
        ∃ r, fuseTwo c d x P = some r ∧
          (Filt.correct (Filt.correct (⟨ini, some x, P, u, pr, par, ctl, ct, lt, st⟩ : Filt (ekfCore p)) c) d :
            Filt (ekfCore p)) = ⟨ini, some r.1, r.2, (), pr, par, ctl, ct, lt, st⟩ := by
      intro c d hc hd nc nd
      have h1 := correct_near hc hP (x := x) (Payload.NoAngles.near nc x) (fun i => ⟨fun _ => ⟨0, by simp⟩, fun _ => rfl⟩)
      obtain ⟨r, hr⟩ : ∃ r, Ekf.correct d (wrapStateAngles (textbook c x P))
          (joseph c.indices.get c.R (gain c.indices.get c.R P) P) = some r :=
        ⟨_, correct_near hd (joseph_psd' hc hP) (Payload.NoAngles.near nd _) (wrap_turns _)⟩
      refine ⟨r, ?_, ?_⟩
      · unfold fuseTwo
        rw [h1, Option.bind_some]
        exact hr
      · simp [Filt.correct, ekfCore, h1, hr]
    obtain ⟨r, h1, h2⟩ := key a b ha hb na nb
    obtain ⟨r', h3, h4⟩ := key b a hb ha nb na
    have := (C89_either_order_partial a b ha hb x P hP (Payload.NoAngles.near na _) (Payload.NoAngles.near nb _) (Payload.NoAngles.near nb _) (Payload.NoAngles.near na _)).1
    rw [h1, h3] at this
    cases this
    exact h2.trans h4.symm

/-- The part of a measurement update that comes before the correction. -/
def catchUp {C : Core} (f : Filt C) (t : Int) : Filt C :=
  if t > f.lastTime then
    { f.predict t (t - f.lastTime) with predicted := (f.predict t (t - f.lastTime)).x, lastTime := t }
  else f

theorem process_eq {C : Core} (f : Filt C) (hi : f.initialized = true) (m : Meas C) :
    f.processMeasurement m = (catchUp f m.time).correct m.z := by
  unfold Filt.processMeasurement catchUp
  simp only [hi, if_true]
  rcases lt_trichotomy m.time f.lastTime with h | h | h
  · rw [if_neg (by omega), if_neg (by omega), if_neg (by omega)]
  · rw [if_neg (show ¬ m.time - f.lastTime > 0 by omega), if_pos (show m.time - f.lastTime ≥ 0 by omega),
      if_neg (show ¬ m.time > f.lastTime by omega), h]
    rfl
  · rw [if_pos (by omega), if_pos (by omega), if_pos (by omega)]
    rfl

theorem process_twice {C : Core} (f : Filt C) (hi : f.initialized = true) (a b : Meas C) (h : a.time = b.time) :
    (f.processMeasurement a).processMeasurement b = ((catchUp f b.time).correct a.z).correct b.z := by
  rw [process_eq f hi a, process_eq _ (by unfold catchUp; split <;> exact hi) b, h]
  congr 1
  have : ∀ g : Filt C, b.time ≤ g.lastTime → catchUp g b.time = g := by
    intro g hg
    unfold catchUp
    rw [if_neg (by omega)]
  apply this
  show b.time ≤ (catchUp f b.time).lastTime
  unfold catchUp
  split
  · exact le_refl _
  · rename_i h; omega

/-- C89, partial: an initialised filter given any number of simultaneous measurements without orientations and gates ends
up the same whatever the order. -/
theorem C89_any_order_partial (p : FilterPar) (f : Filt (ekfCore p)) (hi : f.initialized = true)
    (hQ : Matrix.PosSemidef (n := Fin 15) (R := ℝ) f.par) (hd : p.dynamic = true → NoCross f.par) (hc : CovOk f.x f.cov)
    (t : Int) (l l' : List (Meas (ekfCore p))) (hp : l.Perm l') (ht : ∀ m ∈ l, m.time = t)
    (hm : ∀ m ∈ l, Payload.Certain m.z ∧ Payload.NoAngles m.z) :
    l.foldl Filt.processMeasurement f = l'.foldl Filt.processMeasurement f := by
  induction hp generalizing f with
  | nil => rfl
  | cons m _ ih =>
    have hmm := hm m List.mem_cons_self
    have h1 := C01_driven_filter [Drive.process m] (fun d hd' => by
      rw [List.mem_singleton] at hd'
      rw [hd']
      exact hmm.1.good) f hi hQ hd hc
    have h2 : (f.processMeasurement m).par = f.par := by
      unfold Filt.processMeasurement
      simp only [hi, if_true]
      split <;> split <;> rfl
    exact ih (f.processMeasurement m) (Filt.processMeasurement_initialized f m) (by rw [h2]; exact hQ)
      (by rw [h2]; exact hd) h1 (fun m' h' => ht m' (List.mem_cons_of_mem _ h'))
      (fun m' h' => hm m' (List.mem_cons_of_mem _ h'))
  | swap a b l =>
    have ta := ht a (by simp)
    have tb := ht b (by simp)
    have hma := hm a (by simp)
    have hmb := hm b (by simp)
    rw [List.foldl_cons, List.foldl_cons, List.foldl_cons, List.foldl_cons, process_twice f hi b a (tb.trans ta.symm),
      process_twice f hi a b (ta.trans tb.symm), ta, tb]
    congr 1
    refine correct_swap b.z a.z hmb.1 hma.1 hmb.2 hma.2 _ ?_
    unfold catchUp
    split
    · exact ekfCore_predict_cov hQ hd _ _ _ _ _ _ _ (by omega) hc
    · exact hc
  | trans h1 _ ih1 ih2 =>
    rw [ih1 f hi hQ hd hc ht hm]
    exact ih2 f hi hQ hd hc (fun m hm' => ht m (h1.mem_iff.2 hm')) (fun m hm' => hm m (h1.mem_iff.2 hm'))

/-! ## Where the order matters -/

/-- A correction by one variable. -/
theorem correct_one {m : Payload} (i : Fin 15) (hi : m.indices = [i]) (hm : m.Certain) (x : State) {P : Mat15}
    (hP : P.PosSemidef) :
    Ekf.correct m x P = some (wrapStateAngles (fun k => x k + P k i * (P i i + sanitize (m.R i i))⁻¹ *
        (if i = iRoll ∨ i = iPitch ∨ i = iYaw then normalizeAngle ((m.z i).val - x i) else (m.z i).val - x i)),
      .of fun k l => P k l - P k i * (P i i + sanitize (m.R i i))⁻¹ * P i l) := by
  have hS := hm.usable hP
  have hR := hm.good.sub
  unfold Ekf.correct at *
  rw [hm.ungated]
  revert hS hR
  rw [hi]
  intro hS hR
  have hs : innovCov [i].get m.R P = .of fun _ _ => P i i + sanitize (m.R i i) := by
    rw [innovCov_eq]
    ext a b
    fin_cases a; fin_cases b
    simp [subR]
  have hinv : (innovCov [i].get m.R P)⁻¹ = .of fun _ _ => (P i i + sanitize (m.R i i))⁻¹ := by
    have h0 : P i i + sanitize (m.R i i) ≠ 0 := by
      intro h0
      rw [hs] at hS
      apply hS
      show Matrix.det (n := Fin 1) _ = 0
      rw [Matrix.det_fin_one]
      exact h0
    refine Matrix.inv_eq_left_inv ?_
    rw [hs]
    ext a b
    fin_cases a; fin_cases b
    simp [Matrix.mul_apply, h0]
  have hK : gain [i].get m.R P = .of fun k _ => P k i * (P i i + sanitize (m.R i i))⁻¹ := by
    unfold gain
    rw [hinv, mul_subH_transpose]
    ext a b
    fin_cases b
    simp [Matrix.mul_apply]
  rw [C06_default_never_rejects _ _ _ _ _ (by rw [← innovCov_eq]; exact hS)]
  have h2 := (C08_textbook [i].get m.R P hP hR (by rw [← innovCov_eq]; exact hS)).2
  rw [h2, ← innovCov_eq, hinv, hK]
  have hy : innovation [i].get (fun i => (m.z i).val) x = fun _ => (if i = iRoll ∨ i = iPitch ∨ i = iYaw then
      normalizeAngle ((m.z i).val - x i) else (m.z i).val - x i) := by
    funext a
    fin_cases a
    rfl
  rw [hy]
  congr 2
  · congr 1
    funext k
    simp [mulVec, dotProduct]
  · ext k l
    simp [Matrix.mul_apply]

/-- A measurement of one variable with unit variance. -/
def oneVar (i : Fin 15) (v : ℝ) (thr : Thresh) : Payload := ⟨fun k => decide (k = i), fun _ => .fin v, 1, thr⟩

theorem oneVar_indices (i : Fin 15) (v : ℝ) (thr : Thresh) : (oneVar i v thr).indices = [i] := by
  revert i
  intro i
  show (List.finRange 15).filter (fun k => decide (k = i) && !false && !false) = [i]
  revert i
  decide

theorem sanitize_one : sanitize 1 = 1 := by
  norm_num [sanitize]

theorem oneVar_certain (i : Fin 15) (v : ℝ) : (oneVar i v .unlimited).Certain where
  ungated := rfl
  good := PosSemidef.one.submatrix _
  proper := by
    have : subR (oneVar i v .unlimited).indices.get (oneVar i v .unlimited).R = 1 := by
      show subR _ (1 : Mat15) = 1
      rw [oneVar_indices]
      ext a b
      fin_cases a; fin_cases b
      simp [subR, sanitize_one]
    rw [this, Matrix.det_one]
    exact one_ne_zero

/-- Two measurements of one variable with unit variance on an estimate of unit covariance. -/
theorem fuse_same (i : Fin 15) (v w : ℝ) (x : State) : ∃ r, fuseTwo (oneVar i v .unlimited) (oneVar i w .unlimited) x 1 = some r ∧
    ∃ x1 : State, x1 = wrapStateAngles (fun k => x k + (1 : Mat15) k i * (1 / 2) *
        (if i = iRoll ∨ i = iPitch ∨ i = iYaw then normalizeAngle (v - x i) else v - x i)) ∧
      r.1 i = wrapStateAngles (fun _ => x1 i + 1 / 3 *
        (if i = iRoll ∨ i = iPitch ∨ i = iYaw then normalizeAngle (w - x1 i) else w - x1 i)) i := by
  have h1 := correct_one i (oneVar_indices i v .unlimited) (oneVar_certain i v) x (P := 1) PosSemidef.one
  have hP' := correctAt_psd (oneVar_certain i v).good.sub PosSemidef.one h1
  have h2 := fun y => correct_one i (oneVar_indices i w .unlimited) (oneVar_certain i w) y hP'
  unfold fuseTwo
  rw [h1, Option.bind_some, h2]
  refine ⟨_, rfl, _, rfl, ?_⟩
  simp only [oneVar, sanitize_one, Matrix.of_apply, Matrix.one_apply_eq, Dbl.val]
  have e1 : ((1 : ℝ) + 1)⁻¹ = 1 / 2 := by norm_num
  have e2 : (1 - 1 * (1 / 2) * 1) * (1 - 1 * (1 / 2) * 1 + (1 : ℝ))⁻¹ = 1 / 3 := by norm_num
  rw [e1]
  generalize wrapStateAngles (fun k => x k + (1 : Mat15) k i * (1 / 2) *
        (if i = iRoll ∨ i = iPitch ∨ i = iYaw then normalizeAngle (v - x i) else v - x i)) = y
  unfold wrapStateAngles
  by_cases hi : i = iRoll ∨ i = iPitch ∨ i = iYaw
  · simp only [if_pos hi, Matrix.one_apply_eq, e2]
  · simp only [if_neg hi, Matrix.one_apply_eq, e2]

/-- C89 is false for orientations: two headings more than half a turn apart on the side away from the estimate are
averaged into one direction or the opposite one, depending on the order. -/
theorem C89_headings : ∃ a b : Payload, a.Certain ∧ b.Certain ∧ ∃ r r', fuseTwo a b 0 1 = some r ∧
    fuseTwo b a 0 1 = some r' ∧ r.1 iYaw = 2 * π / 3 ∧ r'.1 iYaw = -(2 * π / 3) := by
  have h3 := Real.pi_gt_three
  have h4 := Real.pi_lt_d2
  obtain ⟨r, hr, x1, hx1, hy⟩ := fuse_same iYaw 3 (-3) 0
  obtain ⟨r', hr', x2, hx2, hy'⟩ := fuse_same iYaw (-3) 3 0
  refine ⟨oneVar iYaw 3 .unlimited, oneVar iYaw (-3) .unlimited, oneVar_certain _ _, oneVar_certain _ _, r, r', hr, hr', ?_, ?_⟩
  · have e1 : x1 iYaw = 3 / 2 := by
      rw [hx1]
      simp only [wrapStateAngles, Matrix.one_apply_eq, Pi.zero_apply]
      rw [if_pos (by simp), if_pos (by simp), normalizeAngle_of_mem (a := 3 - 0) (by linarith) (by linarith),
        normalizeAngle_of_mem (by linarith) (by linarith)]
      norm_num
    rw [hy, e1]
    simp only [wrapStateAngles]
    rw [if_pos (by simp), if_pos (by simp)]
    have h := normalizeAngle_add_two_pi (-3 - 3 / 2) 1
    rw [← h, normalizeAngle_of_mem (a := -3 - 3 / 2 + ((1 : ℤ) : ℝ) * (2 * π)) (by push_cast; linarith) (by push_cast; linarith),
      normalizeAngle_of_mem (by push_cast; linarith) (by push_cast; linarith)]
    push_cast; ring
  · have e1 : x2 iYaw = -(3 / 2) := by
      rw [hx2]
      simp only [wrapStateAngles, Matrix.one_apply_eq, Pi.zero_apply]
      rw [if_pos (by simp), if_pos (by simp), normalizeAngle_of_mem (a := -3 - 0) (by linarith) (by linarith),
        normalizeAngle_of_mem (by linarith) (by linarith)]
      norm_num
    rw [hy', e1]
    simp only [wrapStateAngles]
    rw [if_pos (by simp), if_pos (by simp)]
    have h := normalizeAngle_add_two_pi (3 - -(3 / 2)) (-1)
    rw [← h, normalizeAngle_of_mem (a := 3 - -(3 / 2) + ((-1 : ℤ) : ℝ) * (2 * π)) (by push_cast; linarith) (by push_cast; linarith),
      normalizeAngle_of_mem (by push_cast; linarith) (by push_cast; linarith)]
    push_cast; ring

theorem mahalanobis_one {m : Payload} (i : Fin 15) (hi : m.indices = [i]) (hang : ¬ angular i) (x : State) (P : Mat15)
    (h0 : P i i + sanitize (m.R i i) ≠ 0) :
    mahalanobisSq m.indices.get (fun i => (m.z i).val) m.R x P =
      ((m.z i).val - x i) ^ 2 / (P i i + sanitize (m.R i i)) ∧
    (P.submatrix m.indices.get m.indices.get + subR m.indices.get m.R).det ≠ 0 := by
  rw [hi]
  have hs : P.submatrix [i].get [i].get + subR [i].get m.R = .of fun _ _ => P i i + sanitize (m.R i i) := by
    ext a b
    fin_cases a; fin_cases b
    simp [subR]
  have hinv : (P.submatrix [i].get [i].get + subR [i].get m.R)⁻¹ = .of fun _ _ => (P i i + sanitize (m.R i i))⁻¹ := by
    refine Matrix.inv_eq_left_inv ?_
    rw [hs]
    ext a b
    fin_cases a; fin_cases b
    simp [Matrix.mul_apply, h0]
  have hy : innovation [i].get (fun i => (m.z i).val) x = fun _ => (m.z i).val - x i := by
    funext a
    fin_cases a
    show (if i = iRoll ∨ i = iPitch ∨ i = iYaw then _ else _) = _
    rw [if_neg (show ¬ (i = iRoll ∨ i = iPitch ∨ i = iYaw) from hang)]
    rfl
  constructor
  · unfold mahalanobisSq
    rw [hinv, hy]
    simp only [mulVec, dotProduct, Matrix.of_apply]
    simp
    ring
  · rw [hs]
    show Matrix.det (n := Fin 1) _ ≠ 0
    rw [Matrix.det_fin_one]
    exact h0

/-- C89 is false for gated measurements: one that is rejected when it comes first is accepted after another one. -/
theorem C89_gated : ∃ a b : Payload, a.Certain ∧ b.thresh = .sigmas 2 ∧ b.GoodR ∧ ∃ r r', fuseTwo a b 0 1 = some r ∧
    fuseTwo b a 0 1 = some r' ∧ r.1 iX = 5 / 3 ∧ r'.1 iX = 1 := by
  have hang : ¬ angular iX := by unfold angular; decide
  have hni : ¬ (iX = iRoll ∨ iX = iPitch ∨ iX = iYaw) := by decide
  have e0 : ∀ x P, Ekf.correct (oneVar iX 3 (.sigmas 2)) x P =
      correctAt (oneVar iX 3 .unlimited).indices.get (fun _ => 3) 1 (.sigmas 2) x P := fun _ _ => rfl
  have e0' : ∀ x P, Ekf.correct (oneVar iX 3 .unlimited) x P =
      correctAt (oneVar iX 3 .unlimited).indices.get (fun _ => 3) 1 .unlimited x P := fun _ _ => rfl
  have mah : ∀ (x : State) (P : Mat15), P iX iX + 1 ≠ 0 →
      mahalanobisSq (oneVar iX 3 .unlimited).indices.get (fun _ => 3) 1 x P = (3 - x iX) ^ 2 / (P iX iX + 1) ∧
      (P.submatrix (oneVar iX 3 .unlimited).indices.get (oneVar iX 3 .unlimited).indices.get +
        subR (oneVar iX 3 .unlimited).indices.get 1).det ≠ 0 := by
    intro x P h
    have h' := mahalanobis_one (m := oneVar iX 3 .unlimited) iX (oneVar_indices _ _ _) hang x P
    simp only [oneVar, Matrix.one_apply_eq, sanitize_one, Dbl.val] at h'
    exact h' h
  refine ⟨oneVar iX 2 .unlimited, oneVar iX 3 (.sigmas 2), oneVar_certain _ _, rfl, PosSemidef.one.submatrix _, ?_⟩
  -- the ungated measurement first
  have h1 := correct_one iX (oneVar_indices iX 2 .unlimited) (oneVar_certain iX 2) 0 (P := 1) PosSemidef.one
  obtain ⟨r, hr, x1, hx1, hy⟩ := fuse_same iX 2 3 0
  have hx1' : x1 iX = 1 := by
    rw [hx1]
    simp only [wrapStateAngles, if_neg hni, Matrix.one_apply_eq, Pi.zero_apply]
    norm_num
  have hr1 : r.1 iX = 5 / 3 := by
    rw [hy]
    simp only [wrapStateAngles, if_neg hni, hx1']
    norm_num
  have hab : fuseTwo (oneVar iX 2 .unlimited) (oneVar iX 3 (.sigmas 2)) 0 1 = some r := by
    rw [← hr]
    unfold fuseTwo
    rw [h1, Option.bind_some, Option.bind_some]
    rw [e0, e0']
    simp only [oneVar, sanitize_one, Matrix.one_apply_eq, Dbl.val, Pi.zero_apply, if_neg hni]
    have q := mah (wrapStateAngles fun k => 0 + (1 : Mat15) k iX * (1 + 1)⁻¹ * (2 - 0))
      (.of fun k l => (1 : Mat15) k l - (1 : Mat15) k iX * (1 + 1)⁻¹ * (1 : Mat15) iX l) (by simp; norm_num)
    refine (C06_gate _ _ _ _ _ _ q.2).1 ?_
    rw [q.1]
    simp only [wrapStateAngles, if_neg hni, Matrix.of_apply, Matrix.one_apply_eq]
    norm_num
  -- the gated measurement first
  have hrej : Ekf.correct (oneVar iX 3 (.sigmas 2)) 0 1 = some (0, 1) := by
    rw [e0]
    have q := mah 0 1 (by simp)
    refine (C06_gate _ _ _ _ _ _ q.2).2 ?_
    rw [q.1]
    simp only [Matrix.one_apply_eq, Pi.zero_apply]
    norm_num
  refine ⟨r, _, hab, by unfold fuseTwo; rw [hrej, Option.bind_some]; exact h1, hr1, ?_⟩
  simp only [oneVar, sanitize_one, Matrix.one_apply_eq, Dbl.val, Pi.zero_apply, wrapStateAngles, if_neg hni]
  norm_num

/-- C89 is false for the first measurements: of a position and a velocity of the same time, as in one odometry message,
the one taken out of the queue first is believed and the other one, with the default initial covariance, is not: the
velocity is either the measured one or a billionth of it. -/
theorem C89_first_measurements (p : FilterPar) (f : Filt (ekfCore p)) (hi : f.initialized = false) (hx : f.x = some (0 : State))
    (hc : f.cov = ((1e-9 : ℝ) • (1 : Mat15) : Mat15)) (t : Int) (v : ℝ) (c : Fin 6 → ℝ) (ct : Int) :
    ∃ x x' : State,
      (List.foldl Filt.processMeasurement f [⟨t, "twist", oneVar iVx v .unlimited, c, ct⟩,
        ⟨t, "pose", oneVar iX 0 .unlimited, c, ct⟩]).x = some x ∧ x iVx = v ∧
      (List.foldl Filt.processMeasurement f [⟨t, "pose", oneVar iX 0 .unlimited, c, ct⟩,
        ⟨t, "twist", oneVar iVx v .unlimited, c, ct⟩]).x = some x' ∧ x' iVx = v * (1e-9 / (1e-9 + 1)) := by
  have hinit : ∀ (i : Fin 15) (w : ℝ), (initCov (oneVar i w .unlimited) ((1e-9 : ℝ) • (1 : Mat15))).PosSemidef := by
    intro i w
    have hu := uncorrelated_smul (c := 1e-9) (by norm_num)
    exact initCov_psd (oneVar_certain i w).good hu.1 hu.2
  have key : ∀ (i j : Fin 15) (w u : ℝ) (n n' : String), i ≠ j → ∃ x : State,
      (List.foldl Filt.processMeasurement f [⟨t, n, oneVar i w .unlimited, c, ct⟩,
        ⟨t, n', oneVar j u .unlimited, c, ct⟩]).x = some (wrapStateAngles x) ∧
      x i = w ∧ (¬ angular j → x j = u * (1e-9 / (1e-9 + 1))) := by
    intro i j w u n n' hij
    have h1 := correct_one j (oneVar_indices j u .unlimited) (oneVar_certain j u)
      (fun k => if (oneVar i w .unlimited).upd k then w else (0 : State) k) (hinit i w)
    have hpm : (List.foldl Filt.processMeasurement f [⟨t, n, oneVar i w .unlimited, c, ct⟩,
        ⟨t, n', oneVar j u .unlimited, c, ct⟩]).x = (Ekf.correct (oneVar j u .unlimited)
        (fun k => if (oneVar i w .unlimited).upd k then w else (0 : State) k)
        (initCov (oneVar i w .unlimited) ((1e-9 : ℝ) • (1 : Mat15)))).map Prod.fst := by
      have e1 : f.processMeasurement ⟨t, n, oneVar i w .unlimited, c, ct⟩ =
          { f with
            x := (some (fun k => if (oneVar i w .unlimited).upd k then w else (0 : State) k) : Option State)
            cov := initCov (oneVar i w .unlimited) ((1e-9 : ℝ) • (1 : Mat15))
            initialized := true
            lastTime := t } := by
        unfold Filt.processMeasurement
        simp only [hi, Bool.false_eq_true, if_false, hx, hc]
        have : (ekfCore p).initX (oneVar i w .unlimited) (some (0 : State)) =
            (some (fun k => if (oneVar i w .unlimited).upd k then w else (0 : State) k) : Option State) := by
          show initState (oneVar i w .unlimited) 0 = _
          unfold initState
          rw [if_pos (show ∀ k, (oneVar i w .unlimited).upd k = true → ((oneVar i w .unlimited).z k).isFin = true from
            fun _ _ => rfl)]
          rfl
        rw [this]
        rfl
      rw [List.foldl_cons, List.foldl_cons, List.foldl_nil, e1, process_eq _ rfl]
      unfold catchUp
      rw [if_neg (by simp)]
      simp only [Filt.correct, ekfCore, Option.bind_some]
      rw [h1]
      rfl
    rw [hpm, h1]
    refine ⟨_, rfl, ?_, ?_⟩
    · simp [initCov, oneVar, hij, hij.symm]
    · intro hj
      simp only [if_neg (show ¬ (j = iRoll ∨ j = iPitch ∨ j = iYaw) from hj)]
      simp [initCov, oneVar, hij.symm, sanitize_one]
      ring
  obtain ⟨x, h1, h2, -⟩ := key iVx iX v 0 "twist" "pose" (by decide)
  obtain ⟨x', h3, -, h4⟩ := key iX iVx 0 v "pose" "twist" (by decide)
  have hang : ¬ angular iVx := by unfold angular; decide
  refine ⟨_, _, h1, ?_, h3, ?_⟩
  · rw [(wrap_turns x iVx).2 hang, h2]
  · rw [(wrap_turns x' iVx).2 hang, h4 hang]

/-- A position and a velocity, one after the other, on an estimate with unit covariance. -/
example : ∃ a b : Payload, a.Certain ∧ b.Certain ∧ a.NoAngles ∧ b.NoAngles ∧ a.indices = [0] ∧ b.indices = [6] := by
  refine ⟨oneVar 0 1 .unlimited, oneVar 6 2 .unlimited, oneVar_certain _ _, oneVar_certain _ _, ?_, ?_, oneVar_indices _ _ _,
    oneVar_indices _ _ _⟩
  · rintro i (rfl | rfl | rfl) <;> rfl
  · rintro i (rfl | rfl | rfl) <;> rfl

end RL
