import Verif.Props.Disagree
import Verif.Props.Definite
import Verif.Props.RestUkf
/-!
# C134: readings of rates and accelerations in the unscented filter
-/

namespace RL
open Matrix Real

/-! ## The specification: what the unscented filter does with one number -/

/-- A reading `z` with variance `r` at the end of a step with process noise `w`: the weight is that of the variance before
the step, and it lowers the variance as if the reading had no error. -/
noncomputable def Gauge.heard (g : Gauge) (z r w : ℝ) : Gauge :=
  ⟨g.value + g.var / (g.var + r) * (z - g.value), g.var + w - (g.var / (g.var + r)) ^ 2 * g.var⟩

/-- A bank takes a reading, in this way. -/
noncomputable def Bank.hear (q : Fin 15 → ℝ) (b : Bank) (d : Reading) : Bank :=
  ⟨max b.time d.time, fun k =>
    let dt := toSec (max 0 (d.time - b.time))
    if k = d.of then (b.of k).heard d.z d.r (dt * q k) else (b.of k).later (q k) dt⟩

section
variable {p : FilterPar} {llt : Llt} {k : UkfConst}

/-- The message of a reading. -/
def UkfReads (m : Meas (ukfCore p llt k)) (d : Reading) : Prop :=
  m.time = d.time ∧ Held d.of ∧ Payload.Reads m.z d.of d.z d.r

/-- The covariance is positive definite before each of the messages is processed: Eigen's factorisation then succeeds. -/
def StaysDefinite : Filt (ukfCore p llt k) → List (Meas (ukfCore p llt k)) → Prop
  | _, [] => True
  | f, m :: ms => Matrix.PosDef (n := Fin 15) (R := ℝ) f.cov ∧ StaysDefinite (f.processMeasurement m) ms

/-- What is assumed of a filter that has not heard anything. -/
structure UkfUnheard (Q : Mat15) (f : Filt (ukfCore p llt k)) (x0 : State) : Prop where
  off : f.initialized = false
  par : f.par = Q
  start : f.x = some x0
  cov : Uncorrelated f.cov

/-! ## One step -/

/-- The sigma points have these means and covariances of rates and accelerations. -/
structure HeldMoments (k : UkfConst) (pts : Sig → State) (x : State) (V : Mat15) : Prop where
  mean : ∀ i, Held i → ∑ s, k.w s * pts s i = x i
  cov : ∀ i j, Held i → Held j → ∑ s, k.c s * ((pts s i - x i) * (pts s j - x j)) = V i j

theorem sigma_moments (llt : Llt) {alpha kappa beta : ℝ} {k : UkfConst} (h : setConstants alpha kappa beta = some k)
    (hpos : 0 < 15 + k.lam) (x : State) {P : Mat15} (hP : P.PosDef) : HeldMoments k (sigmaPoints llt k x P) x P := by
  constructor
  · intro i _
    have := congrFun (C16_mean llt h x P) i
    rw [Finset.sum_apply] at this
    simpa using this
  · intro i j _ _
    have := congrFun (congrFun (C16_covariance llt h hpos x P hP) i) j
    rw [Matrix.sum_apply] at this
    simpa [vecMulVec_apply] using this

theorem project_held (dt : ℝ) (x : State) {i : Fin 15} (h : Held i) : projectPoint dt x i = x i := by
  show ∑ j, transferF x dt i j * x j = x i
  simp only [transferF_kept x dt i _ h, Matrix.one_apply]
  simp

/-- What a prediction does to them. -/
theorem ukf_predict_held {alpha kappa beta : ℝ} (hk : setConstants alpha kappa beta = some k)
    (hpos : 0 < 15 + k.lam) {Q : Mat15} {ctl : Fin 6 → ℝ} {ct ref : Int} {dt : ℝ} {x x' : State} {P P' : Mat15} {mem : UkfMem}
    (hP : P.PosDef) (h : Ukf.predict p llt k Q ctl ct ref dt x P = some (x', P', mem)) :
    (∀ i, Held i → x' i = x i) ∧ (∀ i j, Held i → Held j → P' i j = P i j + dt * Q i j) ∧
      HeldMoments k mem.pts x' P ∧ mem.uncorrected = true := by
  have hM := sigma_moments llt hk hpos x hP
  unfold Ukf.predict at h
  dsimp only at h
  split at h
  · cases h
  · simp only [Option.some.injEq, Prod.mk.injEq] at h
    obtain ⟨rfl, rfl, rfl⟩ := h
    set pts := fun s => projectPoint dt (sigmaPoints llt k x P s)
    have hpt : ∀ s i, Held i → pts s i = sigmaPoints llt k x P s i := fun s i hi => project_held dt _ hi
    have hmean : ∀ i, Held i → ukfMean k pts i = x i := by
      intro i hi
      unfold ukfMean
      rw [if_neg (show ¬ angularIdx i from hi.not_angular), ← hM.mean i hi]
      exact Finset.sum_congr rfl fun s _ => by rw [hpt s i hi]
    have hcov : ∀ i j, Held i → Held j → ∑ s, k.c s * ((pts s i - x i) * (pts s j - x j)) = P i j := by
      intro i j hi hj
      rw [← hM.cov i j hi hj]
      exact Finset.sum_congr rfl fun s _ => by rw [hpt s i hi, hpt s j hj]
    have hx : ∀ i, Held i → wrapStateAngles (ukfMean k pts) i = x i := fun i hi => by
      rw [wrap_other _ hi.not_angular, hmean i hi]
    refine ⟨hx, fun i j hi hj => ?_, ⟨fun i hi => ?_, fun i j hi hj => ?_⟩, rfl⟩
    · rw [Matrix.add_apply, Matrix.smul_apply, noiseQ_kept p Q _ j hi, smul_eq_mul]
      congr 1
      unfold ukfCovar
      rw [Matrix.sum_apply, ← hcov i j hi hj]
      refine Finset.sum_congr rfl fun s _ => ?_
      rw [Matrix.smul_apply, vecMulVec_apply, smul_eq_mul]
      unfold wrapDiff
      rw [if_neg (show ¬ angularIdx i from hi.not_angular), if_neg (show ¬ angularIdx j from hj.not_angular),
        Pi.sub_apply, Pi.sub_apply, hmean i hi, hmean j hj]
    · rw [hx i hi, ← hmean i hi]
      unfold ukfMean
      rw [if_neg (show ¬ angularIdx i from hi.not_angular)]
    · rw [hx i hi, hx j hj]
      exact hcov i j hi hj

theorem inv_one (a : ℝ) : (Matrix.of fun _ _ => a : Matrix (Fin 1) (Fin 1) ℝ)⁻¹ = .of fun _ _ => a⁻¹ := by
  ext i j
  fin_cases i; fin_cases j
  rw [Matrix.inv_def, Matrix.adjugate_fin_one, det_fin_one]
  simp

theorem ukf_correct_held_at (e : Fin 1 → Fin 15) {a : Fin 15} (he0 : ∀ n, e n = a) (ha : Held a) {zz : Fin 15 → ℝ} {R : Mat15}
    {r : ℝ} (hR : R a a = r) (hf : 1e-9 ≤ r) {pts : Sig → State} {x x' : State} {P P' V : Mat15} {b : Bool}
    (hM : HeldMoments k pts x V) (hV : ∀ i, Held i → i ≠ a → V i a = 0) (h0 : 0 ≤ V a a)
    (hr : ukfCorrectAt e k pts zz R .unlimited x P = some (x', P', b)) :
    b = true ∧
      (∀ i, Held i → x' i = if i = a then x a + V a a / (V a a + r) * (zz a - x a) else x i) ∧
      ∀ i j, Held i → Held j → P' i j = if i = a ∧ j = a then P a a - (V a a / (V a a + r)) ^ 2 * V a a else P i j := by
  have hrp : (0 : ℝ) < r := lt_of_lt_of_le (by norm_num) hf
  have hs : V a a + r ≠ 0 := by positivity
  have hna : ¬ angularIdx a := ha.not_angular
  have hz : predictedMeas e k pts = fun _ => x a := by
    funext n
    unfold predictedMeas
    rw [he0, if_neg hna]
    exact hM.mean a ha
  have hd : ∀ s, measDiff e (fun _ => x a) (pts s) = fun _ => pts s a - x a := by
    intro s
    funext n
    unfold measDiff
    rw [he0, if_neg hna]
  have hsd : ∀ d : State, stateDiff e d = d := by
    intro d
    funext q
    unfold stateDiff
    split
    · rw [he0, if_neg hna]
    · rfl
  have hzz : measCovar e k pts = .of fun _ _ => V a a := by
    have e1 : measCovar e k pts = ∑ s, k.c s • vecMulVec (measDiff e (predictedMeas e k pts) (pts s))
      (measDiff e (predictedMeas e k pts) (pts s)) := rfl
    rw [e1, hz]
    ext u v
    rw [Matrix.sum_apply]
    simp only [hd, Matrix.smul_apply, vecMulVec_apply, smul_eq_mul, Matrix.of_apply]
    exact hM.cov a a ha ha
  have hxz : ∀ i, Held i → ∀ v, crossCovar e k pts x i v = V i a := by
    intro i hi v
    have e1 : crossCovar e k pts x = ∑ s, k.c s • vecMulVec (stateDiff e (pts s - x))
      (measDiff e (predictedMeas e k pts) (pts s)) := rfl
    rw [e1, hz, Matrix.sum_apply]
    simp only [hd, hsd, Matrix.smul_apply, vecMulVec_apply, smul_eq_mul, Pi.sub_apply]
    exact hM.cov i a hi ha
  have hRe : subR e R = .of fun _ _ => r := by
    ext u v
    obtain rfl : u = 0 := Subsingleton.elim _ _
    obtain rfl : v = 0 := Subsingleton.elim _ _
    have := (C14_sanitised e R 0 0).1
    simp [subR, he0, hR, sanitize_above hf]
  have hS : measCovar e k pts + subR e R = .of fun _ _ => V a a + r := by
    rw [hzz, hRe]
    rfl
  have hy : ukfInnovation e zz (fun _ => x a) = fun _ => zz a - x a := by
    funext n
    unfold ukfInnovation
    rw [he0, if_neg hna]
  unfold ukfCorrectAt at hr
  dsimp only at hr
  rw [hS, hz, hy, hzz, inv_one] at hr
  rw [if_neg (by rw [det_fin_one]; exact hs), if_pos (by trivial)] at hr
  simp only [Option.some.injEq, Prod.mk.injEq] at hr
  obtain ⟨rfl, rfl, rfl⟩ := hr
  have hK : ∀ i, Held i → ∀ n, (crossCovar e k pts x * (Matrix.of fun _ _ => (V a a + r)⁻¹ : Matrix (Fin 1) (Fin 1) ℝ)) i n =
      V i a / (V a a + r) := by
    intro i hi n
    rw [Matrix.mul_apply, Fin.sum_univ_one, hxz i hi, Matrix.of_apply, div_eq_mul_inv]
  refine ⟨rfl, fun i hi => ?_, fun i j hi hj => ?_⟩
  · rw [wrap_other _ hi.not_angular, Pi.add_apply, Matrix.mulVec, dotProduct, Fin.sum_univ_one, hK i hi]
    by_cases hia : i = a
    · subst hia; rw [if_pos rfl]
    · rw [if_neg hia, hV i hi hia]; ring
  · rw [Matrix.sub_apply, Matrix.mul_apply, Fin.sum_univ_one, Matrix.mul_apply, Fin.sum_univ_one, transpose_apply, hK i hi,
      hK j hj, Matrix.of_apply]
    by_cases hij : i = a ∧ j = a
    · obtain ⟨rfl, rfl⟩ := hij
      rw [if_pos ⟨rfl, rfl⟩]; ring
    · rw [if_neg hij]
      rcases not_and_or.1 hij with hia | hja
      · rw [hV i hi hia]; ring
      · rw [hV j hj hja]; ring

/-- Correct by a reading. -/
theorem ukf_correct_held {m : Payload} {a : Fin 15} {z r : ℝ} (h : m.Reads a z r) (ha : Held a) {x x' : State}
    {P P' V : Mat15} {mem mem' : UkfMem} (hM : HeldMoments k (mem.refresh llt k x P) x V)
    (hV : ∀ i, Held i → i ≠ a → V i a = 0) (h0 : 0 ≤ V a a)
    (hr : Ukf.correct llt k m x P mem = some (x', P', mem')) :
    mem'.uncorrected = false ∧
      (∀ i, Held i → x' i = if i = a then x a + V a a / (V a a + r) * (z - x a) else x i) ∧
      ∀ i j, Held i → Held j → P' i j = if i = a ∧ j = a then P a a - (V a a / (V a a + r)) ^ 2 * V a a else P i j := by
  unfold Ukf.correct at hr
  dsimp only at hr
  rw [h.indices, h.ungated, Option.map_eq_some_iff] at hr
  obtain ⟨⟨y, Py, b⟩, h1, h2⟩ := hr
  simp only [Prod.mk.injEq] at h2
  obtain ⟨rfl, rfl, rfl⟩ := h2
  have he0 : ∀ n : Fin 1, ([a].get : Fin 1 → Fin 15) n = a := fun n => by fin_cases n; rfl
  obtain ⟨hb, h3, h4⟩ := ukf_correct_held_at [a].get he0 ha h.var h.floor hM hV h0 h1
  subst hb
  refine ⟨by simp, ?_, h4⟩
  rw [h.value] at h3
  exact h3

/-- The filter and the bank agree. -/
structure UkfBanked (Q : Mat15) (f : Filt (ukfCore p llt k)) (b : Bank) : Prop where
  on : f.initialized = true
  par : f.par = Q
  time : f.lastTime = b.time
  est : ∀ x, f.x = some x → HeldApart f.cov ∧ ∀ i, Held i → x i = (b.of i).value ∧ (show Mat15 from f.cov) i i = (b.of i).var

theorem ukf_predict_some {f : Filt (ukfCore p llt k)} {t d : Int} {x : State} (h : (f.predict t d).x = some x) :
    ∃ (y : State) (r : State × Mat15 × UkfMem), f.x = some y ∧ Ukf.predict p llt k f.par f.ctl f.ctlTime t (toSec d) y f.cov = some r ∧
      x = r.1 ∧ (f.predict t d).cov = r.2.1 ∧ (f.predict t d).ext = r.2.2 := by
  have e : f.predict t d = { f with
    x := ((ukfCore p llt k).predict f.par f.ctl f.ctlTime t d (f.x, f.cov, f.ext)).1
    cov := ((ukfCore p llt k).predict f.par f.ctl f.ctlTime t d (f.x, f.cov, f.ext)).2.1
    ext := ((ukfCore p llt k).predict f.par f.ctl f.ctlTime t d (f.x, f.cov, f.ext)).2.2 } := rfl
  rw [e] at h ⊢
  dsimp only at h ⊢
  cases hfx : f.x with
  | none => rw [hfx] at h; simp [ukfCore] at h
  | some y =>
    rw [hfx] at h
    cases hr : Ukf.predict p llt k f.par f.ctl f.ctlTime t (toSec d) y f.cov with
    | none =>
      have := (congrArg Prod.fst (ukfCore_predict_none (p := p) (mem := f.ext) hr)).symm.trans h
      cases this
    | some r =>
      have E := ukfCore_predict_some (p := p) (mem := f.ext) hr
      exact ⟨y, r, rfl, hr, (Option.some.inj ((congrArg Prod.fst E).symm.trans h)).symm,
        congrArg (fun q => q.2.1) E, congrArg (fun q => q.2.2) E⟩

theorem ukf_correct_some {f : Filt (ukfCore p llt k)} {m : Payload} {x : State} (h : (f.correct m).x = some x) :
    ∃ (y : State) (r : State × Mat15 × UkfMem), f.x = some y ∧ Ukf.correct llt k m y f.cov f.ext = some r ∧
      x = r.1 ∧ (f.correct m).cov = r.2.1 ∧ (f.correct m).ext = r.2.2 := by
  have e : f.correct m = { f with
    x := ((ukfCore p llt k).correct m (f.x, f.cov, f.ext)).1
    cov := ((ukfCore p llt k).correct m (f.x, f.cov, f.ext)).2.1
    ext := ((ukfCore p llt k).correct m (f.x, f.cov, f.ext)).2.2 } := rfl
  rw [e] at h ⊢
  dsimp only at h ⊢
  cases hfx : f.x with
  | none => rw [hfx] at h; simp [ukfCore] at h
  | some y =>
    rw [hfx] at h
    cases hr : Ukf.correct llt k m y f.cov f.ext with
    | none =>
      have := (congrArg Prod.fst (ukfCore_correct_none (p := p) hr)).symm.trans h
      cases this
    | some r =>
      have E := ukfCore_correct_some (p := p) hr
      exact ⟨y, r, rfl, hr, (Option.some.inj ((congrArg Prod.fst E).symm.trans h)).symm,
        congrArg (fun q => q.2.1) E, congrArg (fun q => q.2.2) E⟩

theorem UkfBanked.step {alpha kappa beta : ℝ} (hk : setConstants alpha kappa beta = some k) (hpos : 0 < 15 + k.lam)
    {Q : Mat15} (ha : HeldApart Q) {f : Filt (ukfCore p llt k)} {b : Bank} (h : UkfBanked Q f b)
    (hP : Matrix.PosDef (n := Fin 15) (R := ℝ) f.cov) {m : Meas (ukfCore p llt k)} {d : Reading} (hm : UkfReads m d)
    (hready : ∀ y, f.x = some y → b.time < d.time ∨ f.ext.uncorrected = false) :
    UkfBanked Q (f.processMeasurement m) (b.hear (fun i => Q i i) d) ∧
      ∀ x, (f.processMeasurement m).x = some x → (f.processMeasurement m).ext.uncorrected = false := by
  obtain ⟨ht, hh, hrd⟩ := hm
  obtain ⟨V, hV⟩ : ∃ V : Mat15, V = f.cov := ⟨_, rfl⟩
  rw [← hV] at hP
  have hdiag : ∀ i, 0 ≤ V i i := fun i => hP.posSemidef.diag_nonneg
  have key : ∀ g : Filt (ukfCore p llt k), ∀ dt : ℝ,
      (∀ y, g.x = some y → HeldMoments k (g.ext.refresh llt k y g.cov) y V ∧ HeldApart V ∧
        ∀ i, Held i → (y i = (b.of i).value ∧ V i i = (b.of i).var) ∧
          ∀ j, Held j → (show Mat15 from g.cov) i j = V i j + dt * Q i j) →
      ∀ x, (g.correct m.z).x = some x → (HeldApart (g.correct m.z).cov ∧ ∀ i, Held i →
          x i = (if i = d.of then (b.of i).heard d.z d.r (dt * Q i i) else (b.of i).later (Q i i) dt).value ∧
          (show Mat15 from (g.correct m.z).cov) i i =
            (if i = d.of then (b.of i).heard d.z d.r (dt * Q i i) else (b.of i).later (Q i i) dt).var) ∧
        (g.correct m.z).ext.uncorrected = false := by
    intro g dt hg x hx
    obtain ⟨y, ⟨x', P', mem'⟩, hy, hr, rfl, hc, he⟩ := ukf_correct_some hx
    obtain ⟨g1, g2, g3⟩ := hg y hy
    obtain ⟨r1, r2, r3⟩ := ukf_correct_held hrd hh g1 (fun i hi hne => g2 i d.of hi hh hne) (hdiag d.of) hr
    rw [hc, he]
    dsimp only at r1 r2 r3 ⊢
    refine ⟨⟨fun i j hi hj hij => ?_, fun i hi => ?_⟩, r1⟩
    · rw [r3 i j hi hj, if_neg (fun e => hij (e.1.trans e.2.symm))]
      refine ((g3 i hi).2 j hj).trans ?_
      rw [g2 i j hi hj hij, ha i j hi hj hij, mul_zero, add_zero]
    · have hvar : (show Mat15 from g.cov) i i = V i i + dt * Q i i := (g3 i hi).2 i hi
      obtain ⟨⟨u1, u2⟩, -⟩ := g3 i hi
      by_cases hia : i = d.of
      · subst hia
        rw [r2 _ hi, r3 _ _ hi hi]
        simp only [and_self, if_true]
        refine ⟨?_, ?_⟩
        · show _ = (b.of d.of).value + (b.of d.of).var / ((b.of d.of).var + d.r) * (d.z - (b.of d.of).value)
          rw [u1, u2]
        · show (show Mat15 from g.cov) d.of d.of - _ = (b.of d.of).var + dt * Q d.of d.of -
            ((b.of d.of).var / ((b.of d.of).var + d.r)) ^ 2 * (b.of d.of).var
          rw [hvar, u2]
      · rw [r2 _ hi, r3 _ _ hi hi]
        simp only [hia, false_and, if_false]
        exact ⟨u1, hvar.trans (by rw [u2]; rfl)⟩
  have hpred : 0 < m.time - f.lastTime → ∀ y, (f.predict m.time (m.time - f.lastTime)).x = some y →
      HeldMoments k ((f.predict m.time (m.time - f.lastTime)).ext.refresh llt k y
        (f.predict m.time (m.time - f.lastTime)).cov) y V ∧ HeldApart V ∧
        ∀ i, Held i → (y i = (b.of i).value ∧ V i i = (b.of i).var) ∧
          ∀ j, Held j → (show Mat15 from (f.predict m.time (m.time - f.lastTime)).cov) i j =
            V i j + toSec (m.time - f.lastTime) * Q i j := by
    intro _ y hy
    obtain ⟨w, ⟨x', P', mem'⟩, hw, hr, rfl, hc, he⟩ := ukf_predict_some hy
    obtain ⟨g2, g3⟩ := h.est w hw
    have hpar : f.par = Q := h.par
    rw [hpar] at hr
    rw [← hV] at hr g2 g3
    obtain ⟨r1, r2, r3, r4⟩ := ukf_predict_held hk hpos hP hr
    rw [hc, he]
    dsimp only at r1 r2 r3 r4 ⊢
    refine ⟨?_, g2, fun i hi => ⟨⟨(r1 i hi).trans (g3 i hi).1, (g3 i hi).2⟩, fun j hj => r2 i j hi hj⟩⟩
    unfold UkfMem.refresh
    rw [r4, if_pos rfl]
    exact r3
  have htime : m.time - f.lastTime = d.time - b.time := by rw [ht, h.time]
  unfold Filt.processMeasurement
  rw [h.on]
  simp only [if_true]
  by_cases hp : m.time - f.lastTime > 0
  · have hge : m.time - f.lastTime ≥ 0 := hp.le
    rw [if_pos hp, if_pos hge]
    have e : max 0 (d.time - b.time) = m.time - f.lastTime := by omega
    have := key { f.predict m.time (m.time - f.lastTime) with predicted := (f.predict m.time (m.time - f.lastTime)).x }
      (toSec (m.time - f.lastTime)) (hpred hp)
    refine ⟨⟨h.on, h.par, ?_, fun x hx => ?_⟩, fun x hx => (this x hx).2⟩
    · show m.time = max b.time d.time
      rw [ht]; omega
    · show _ ∧ ∀ i, Held i → _ = (if i = d.of then (b.of i).heard d.z d.r (toSec (max 0 (d.time - b.time)) * Q i i)
        else (b.of i).later (Q i i) (toSec (max 0 (d.time - b.time)))).value ∧ _ = (if i = d.of then
          (b.of i).heard d.z d.r (toSec (max 0 (d.time - b.time)) * Q i i)
        else (b.of i).later (Q i i) (toSec (max 0 (d.time - b.time)))).var
      rw [e]
      exact (this x hx).1
  · rw [if_neg hp]
    have e : max 0 (d.time - b.time) = 0 := by omega
    have h0 : toSec 0 = 0 := by unfold toSec; simp
    have := key f 0 (by
      intro y hy
      obtain ⟨g2, g3⟩ := h.est y hy
      rw [← hV] at g2 g3 ⊢
      refine ⟨?_, g2, fun i hi => ⟨g3 i hi, fun j hj => by rw [zero_mul, add_zero]⟩⟩
      have hu : f.ext.uncorrected = false := (hready y hy).resolve_left (by omega)
      unfold UkfMem.refresh
      rw [hu]
      exact sigma_moments llt hk hpos y hP)
    have hest : ∀ x, (f.correct m.z).x = some x → HeldApart (f.correct m.z).cov ∧ ∀ i, Held i →
          x i = ((b.hear (fun i => Q i i) d).of i).value ∧
          (show Mat15 from (f.correct m.z).cov) i i = ((b.hear (fun i => Q i i) d).of i).var := by
      intro x hx
      show _ ∧ ∀ i, Held i → _ = (if i = d.of then (b.of i).heard d.z d.r (toSec (max 0 (d.time - b.time)) * Q i i)
        else (b.of i).later (Q i i) (toSec (max 0 (d.time - b.time)))).value ∧ _ = (if i = d.of then
          (b.of i).heard d.z d.r (toSec (max 0 (d.time - b.time)) * Q i i)
        else (b.of i).later (Q i i) (toSec (max 0 (d.time - b.time)))).var
      rw [e, h0]
      exact (this x hx).1
    split
    · refine ⟨⟨h.on, h.par, ?_, hest⟩, fun x hx => (this x hx).2⟩
      show m.time = max b.time d.time
      rw [ht]; omega
    · refine ⟨⟨h.on, h.par, ?_, hest⟩, fun x hx => (this x hx).2⟩
      show f.lastTime = max b.time d.time
      rw [h.time]; omega

theorem UkfBanked.first {Q : Mat15} {f : Filt (ukfCore p llt k)} {x0 : State} (h : UkfUnheard Q f x0)
    {m : Meas (ukfCore p llt k)} {d : Reading} (hm : UkfReads m d) :
    UkfBanked Q (f.processMeasurement m) (Bank.first x0 (fun i => (show Mat15 from f.cov) i i) d) := by
  obtain ⟨ht, hk, hrd⟩ := hm
  unfold Filt.processMeasurement
  rw [h.off]
  refine ⟨rfl, h.par, ht, ?_⟩
  intro x hx
  change (f.x).bind (initState m.z) = some x at hx
  rw [h.start] at hx
  change initState m.z x0 = some x at hx
  unfold initState at hx
  split at hx
  · have ex := Option.some.inj hx
    refine ⟨?_, ?_⟩
    · intro i j hi hj hij
      show (if Payload.upd m.z i && Payload.upd m.z j then Payload.R m.z i j else (show Mat15 from f.cov) i j) = 0
      rw [hrd.upd, hrd.upd, if_neg]
      · exact h.cov.2 i j hij
      · simp only [Bool.and_eq_true, decide_eq_true_eq]
        exact fun e => hij (e.1.trans e.2.symm)
    · intro i hi
      rw [← ex]
      show (if Payload.upd m.z i then (Payload.z m.z i).val else x0 i) = (if i = d.of then (⟨d.z, d.r⟩ : Gauge) else
          ⟨x0 i, (show Mat15 from f.cov) i i⟩).value ∧
        (if Payload.upd m.z i && Payload.upd m.z i then Payload.R m.z i i else (show Mat15 from f.cov) i i) =
          (if i = d.of then (⟨d.z, d.r⟩ : Gauge) else ⟨x0 i, (show Mat15 from f.cov) i i⟩).var
      rw [hrd.upd]
      by_cases hi' : i = d.of
      · subst hi'
        simp [hrd.value, hrd.var, Dbl.val]
      · simp [hi']
  · exact absurd hx (by simp)

/-- The bank of the unscented filter. -/
noncomputable def heardBank (Q : Mat15) (f : Filt (ukfCore p llt k)) (x0 : State) (d : Reading) (ds : List Reading) : Bank :=
  ds.foldl (Bank.hear fun i => Q i i) (Bank.first x0 (fun i => (show Mat15 from f.cov) i i) d)

/-- C134, partial: fed with readings of rates and accelerations, the unscented filter too is a set of independent estimates of
one number each, but not the optimal ones of C128: the weight of a reading is that of the variance before the process noise of
the step is added, and of the reduction of the variance a part is missing.
Assumed: the covariance stays positive definite, and the second message has a later stamp than the first (else it is ignored,
`C18_second_measurement_ignored`). -/
theorem C134_bank_partial {alpha kappa beta : ℝ} (hk : setConstants alpha kappa beta = some k) (hpos : 0 < 15 + k.lam)
    {Q : Mat15} (ha : HeldApart Q) {f : Filt (ukfCore p llt k)} {x0 : State} (h : UkfUnheard Q f x0)
    {m : Meas (ukfCore p llt k)} {d : Reading} (hm : UkfReads m d) {ms : List (Meas (ukfCore p llt k))} {ds : List Reading}
    (hms : List.Forall₂ UkfReads ms ds) (hdef : StaysDefinite (f.processMeasurement m) ms)
    (hlate : ∀ c ∈ ds.head?, d.time < c.time) {x : State}
    (hx : ((m :: ms).foldl Filt.processMeasurement f).x = some x) (i : Fin 15) (hi : Held i) :
    x i = ((heardBank Q f x0 d ds).of i).value ∧
    (show Mat15 from ((m :: ms).foldl Filt.processMeasurement f).cov) i i = ((heardBank Q f x0 d ds).of i).var := by
  have key : ∀ (ms : List (Meas (ukfCore p llt k))) (ds : List Reading), List.Forall₂ UkfReads ms ds →
      ∀ (g : Filt (ukfCore p llt k)) (b : Bank), UkfBanked Q g b → StaysDefinite g ms →
      (∀ c ∈ ds.head?, ∀ y, g.x = some y → b.time < c.time ∨ g.ext.uncorrected = false) →
      UkfBanked Q (ms.foldl Filt.processMeasurement g) (ds.foldl (Bank.hear fun i => Q i i) b) := by
    intro ms ds hms
    induction hms with
    | nil => exact fun _ _ h _ _ => h
    | cons h1 _ ih =>
      intro g b hg hdef hl
      obtain ⟨s1, s2⟩ := hg.step hk hpos ha hdef.1 h1 (hl _ rfl)
      exact ih _ _ s1 hdef.2 (fun c _ y hy => .inr (s2 y hy))
  have := key ms ds hms _ _ (UkfBanked.first h hm) hdef (fun c hc y _ => .inl (hlate c hc))
  exact (this.est x hx).2 i hi

/-! ## What follows -/

theorem heard_error {g : Gauge} {z r w : ℝ} (hv : 0 ≤ g.var) (hr : 0 < r) :
    (g.heard z r w).value - z = (g.value - z) / (1 + g.var / r) ∧
    (g.heard z r w).var / r = g.var / r / (1 + g.var / r) * (1 + g.var / r / (1 + g.var / r)) + w / r := by
  have hs : g.var + r ≠ 0 := by positivity
  have h1 : 1 + g.var / r ≠ 0 := by positivity
  have h2 : g.var / r / (1 + g.var / r) = g.var / (g.var + r) := by field_simp; ring
  unfold Gauge.heard
  constructor
  · have : (g.value - z) / (1 + g.var / r) = (g.value - z) * r / (g.var + r) := by
      rw [show 1 + g.var / r = (g.var + r) / r by field_simp; ring]
      field_simp
    rw [this]
    dsimp only
    field_simp
    ring
  · rw [h2]
    dsimp only
    field_simp
    ring

theorem heard_var {g : Gauge} {z r w : ℝ} (hv : 0 ≤ g.var) (hr : 0 < r) : w ≤ (g.heard z r w).var := by
  have h1 : g.var / (g.var + r) ≤ 1 := by rw [div_le_one (by positivity)]; linarith
  have h2 : 0 ≤ g.var / (g.var + r) := by positivity
  show w ≤ g.var + w - (g.var / (g.var + r)) ^ 2 * g.var
  have : (g.var / (g.var + r)) ^ 2 * g.var ≤ 1 * g.var := mul_le_mul_of_nonneg_right (pow_le_one₀ h2 h1) hv
  linarith

theorem UkfReads.pos {m : Meas (ukfCore p llt k)} {d : Reading} (h : UkfReads m d) : 0 < d.r :=
  lt_of_lt_of_le (by norm_num) h.2.2.floor

theorem forall2_ukf_pos {ms : List (Meas (ukfCore p llt k))} {ds : List Reading} (h : List.Forall₂ UkfReads ms ds) :
    ∀ d ∈ ds, 0 < d.r := by
  induction h with
  | nil => simp
  | cons h1 _ ih =>
    intro d hd
    rcases List.mem_cons.1 hd with rfl | hd
    · exact h1.pos
    · exact ih d hd

section
variable {alpha kappa beta : ℝ} {Q : Mat15} {f : Filt (ukfCore p llt k)} {x0 : State} {m : Meas (ukfCore p llt k)}
  {d : Reading} {ms : List (Meas (ukfCore p llt k))} {ds : List Reading} {x : State}

theorem heardBank_snoc (c : Reading) : heardBank Q f x0 d (ds ++ [c]) = (heardBank Q f x0 d ds).hear (fun i => Q i i) c := by
  unfold heardBank
  rw [List.foldl_append]
  rfl

theorem heardBank_var (hQ : ∀ i, 0 ≤ Q i i) (h : UkfUnheard Q f x0) (hd : 0 < d.r) (hr : ∀ c ∈ ds, 0 < c.r) (i : Fin 15) :
    0 ≤ ((heardBank Q f x0 d ds).of i).var := by
  induction ds using List.reverseRecOn with
  | nil =>
    show 0 ≤ (if i = d.of then (⟨d.z, d.r⟩ : Gauge) else ⟨x0 i, (show Mat15 from f.cov) i i⟩).var
    split
    · exact hd.le
    · exact h.cov.1 i
  | append_singleton ds c ih =>
    have ih := ih fun c h => hr c (List.mem_append_left _ h)
    have hn := toSec_nonneg (le_max_left 0 (c.time - (heardBank Q f x0 d ds).time))
    rw [heardBank_snoc]
    show 0 ≤ (if i = c.of then ((heardBank Q f x0 d ds).of i).heard c.z c.r
      (toSec (max 0 (c.time - (heardBank Q f x0 d ds).time)) * Q i i) else
      ((heardBank Q f x0 d ds).of i).later (Q i i) (toSec (max 0 (c.time - (heardBank Q f x0 d ds).time)))).var
    split
    · exact (mul_nonneg hn (hQ i)).trans (heard_var ih (hr c (by simp)))
    · exact later_var ih (hQ i) _

/-- C134, partial (assumed as in `C134_bank_partial`): the estimate is never outside the range of the initial value and the
readings. -/
theorem C134_between_partial (hk : setConstants alpha kappa beta = some k) (hpos : 0 < 15 + k.lam) (hQ : ∀ i, 0 ≤ Q i i)
    (ha : HeldApart Q) (h : UkfUnheard Q f x0) (hm : UkfReads m d) (hms : List.Forall₂ UkfReads ms ds)
    (hdef : StaysDefinite (f.processMeasurement m) ms) (hlate : ∀ c ∈ ds.head?, d.time < c.time)
    (hx : ((m :: ms).foldl Filt.processMeasurement f).x = some x) {i : Fin 15} (hi : Held i) {lo up : ℝ}
    (h0 : i ≠ d.of → Between lo up (x0 i)) (hz : ∀ c ∈ d :: ds, c.of = i → Between lo up c.z) :
    Between lo up (x i) := by
  obtain ⟨e, -⟩ := C134_bank_partial hk hpos ha h hm hms hdef hlate hx i hi
  have hr := forall2_ukf_pos hms
  rw [e]
  clear e hx hdef hlate hms
  induction ds using List.reverseRecOn with
  | nil =>
    show Between lo up (if i = d.of then (⟨d.z, d.r⟩ : Gauge) else ⟨x0 i, (show Mat15 from f.cov) i i⟩).value
    split
    · rename_i hid; exact hz d (by simp) hid.symm
    · rename_i hid; exact h0 hid
  | append_singleton ds c ih =>
    have ih := ih (fun c' h => hz c' (by simp at h ⊢; tauto)) (fun c h => hr c (List.mem_append_left _ h))
    have hv := heardBank_var hQ h hm.pos (fun c h => hr c (List.mem_append_left _ h) : ∀ c ∈ ds, 0 < c.r) i
    rw [heardBank_snoc]
    show Between lo up (if i = c.of then ((heardBank Q f x0 d ds).of i).heard c.z c.r
      (toSec (max 0 (c.time - (heardBank Q f x0 d ds).time)) * Q i i) else
      ((heardBank Q f x0 d ds).of i).later (Q i i) (toSec (max 0 (c.time - (heardBank Q f x0 d ds).time)))).value
    split
    · rename_i hic
      have hrc := hr c (by simp)
      have hz' := hz c (by simp) hic.symm
      have e : (((heardBank Q f x0 d ds).of i).heard c.z c.r
          (toSec (max 0 (c.time - (heardBank Q f x0 d ds).time)) * Q i i)).value =
          (((heardBank Q f x0 d ds).of i).told c.z c.r).value := by
        unfold Gauge.heard Gauge.told
        dsimp only
        field_simp
        ring
      rw [e]
      exact told_between hv hrc ih hz'
    · exact ih

/-- C134, against the documentation (state_estimation_nodes.rst: "the larger the value for Q relative to the variance for a
given variable in an input message, the faster the filter will converge to the value in the measurement"): after two
readings the unscented filter takes their weighted mean, however large the process noise and however long the pause. -/
theorem C134_pause_ignored (hk : setConstants alpha kappa beta = some k) (hpos : 0 < 15 + k.lam)
    (ha : HeldApart Q) (h : UkfUnheard Q f x0) (hm : UkfReads m d) {m' : Meas (ukfCore p llt k)} {c : Reading}
    (hm' : UkfReads m' c) (hc : c.of = d.of) (hP : Matrix.PosDef (n := Fin 15) (R := ℝ) (f.processMeasurement m).cov)
    (hlate : d.time < c.time) (hx : ([m, m'].foldl Filt.processMeasurement f).x = some x) :
    x d.of = (d.z * c.r + c.z * d.r) / (c.r + d.r) := by
  obtain ⟨e, -⟩ := C134_bank_partial hk hpos ha h hm (.cons hm' .nil) ⟨hP, trivial⟩ (by simpa using hlate) hx d.of hm.2.1
  have h1 := hm.pos
  have h2 := hm'.pos
  rw [e]
  show (if d.of = c.of then (if d.of = d.of then (⟨d.z, d.r⟩ : Gauge) else _).heard c.z c.r _ else _).value = _
  rw [if_pos hc.symm, if_pos rfl]
  show d.z + d.r / (d.r + c.r) * (c.z - d.z) = _
  field_simp
  ring

/-- C134, refuted (against C128_mean): of three readings with the same variance the third counts more than a third, in fact
3/7 or more, and the other two less, even without process noise. -/
theorem C134_third_counts_more (hk : setConstants alpha kappa beta = some k) (hpos : 0 < 15 + k.lam) (hQ : ∀ i, 0 ≤ Q i i)
    (ha : HeldApart Q) (h : UkfUnheard Q f x0) (hm : UkfReads m d) {m' m'' : Meas (ukfCore p llt k)} {c c' : Reading}
    (hm' : UkfReads m' c) (hm'' : UkfReads m'' c') (hc : c.of = d.of) (hc' : c'.of = d.of) (hr : c.r = d.r) (hr' : c'.r = d.r)
    (hdef : StaysDefinite (f.processMeasurement m) [m', m'']) (hlate : d.time < c.time)
    (hx : ([m, m', m''].foldl Filt.processMeasurement f).x = some x) :
    ∃ w, 3 / 7 ≤ w ∧ x d.of = (1 - w) / 2 * d.z + (1 - w) / 2 * c.z + w * c'.z := by
  obtain ⟨e, -⟩ := C134_bank_partial hk hpos ha h hm (.cons hm' (.cons hm'' .nil)) hdef (by simpa using hlate) hx d.of hm.2.1
  have h1 := hm.pos
  rw [e]
  have hw : 0 ≤ toSec (max 0 (c.time - d.time)) * Q d.of d.of := mul_nonneg (toSec_nonneg (le_max_left _ _)) (hQ _)
  have e0 : (heardBank Q f x0 d []).of d.of = ⟨d.z, d.r⟩ := if_pos rfl
  have e1 : (heardBank Q f x0 d [c]).of d.of =
      (⟨d.z, d.r⟩ : Gauge).heard c.z d.r (toSec (max 0 (c.time - d.time)) * Q d.of d.of) := by
    show (if d.of = c.of then ((heardBank Q f x0 d []).of d.of).heard c.z c.r _ else _) = _
    rw [if_pos hc.symm, e0, hr]
    rfl
  have e2 : (heardBank Q f x0 d [c, c']).of d.of =
      ((heardBank Q f x0 d [c]).of d.of).heard c'.z c'.r
        (toSec (max 0 (c'.time - (heardBank Q f x0 d [c]).time)) * Q d.of d.of) := if_pos hc'.symm
  rw [e2, e1, hr']
  generalize toSec (max 0 (c.time - d.time)) * Q d.of d.of = w at hw
  unfold Gauge.heard
  dsimp only
  generalize d.r = r at h1
  have e3 : r / (r + r) = 1 / 2 := by field_simp; norm_num
  rw [e3]
  have e4 : r + w - (1 / 2) ^ 2 * r = 3 / 4 * r + w := by ring
  rw [e4]
  refine ⟨(3 / 4 * r + w) / (3 / 4 * r + w + r), ?_, by ring⟩
  rw [div_le_div_iff₀ (by norm_num) (by positivity)]
  linarith

/-- C134, partial (assumed as in `C134_bank_partial`): what the documentation says of the process noise holds as "not slower":
the larger the process noise and the initial variance relative to the variance of the readings, the closer to a constant
reading is the estimate of the unscented filter.  Missing: that it is faster, which is false for the first two readings
(`C134_pause_ignored`). -/
theorem C134_faster_partial (hk : setConstants alpha kappa beta = some k) (hpos : 0 < 15 + k.lam) (hQ : ∀ i, 0 ≤ Q i i)
    (ha : HeldApart Q) (h : UkfUnheard Q f x0) (hm : UkfReads m d) (hms : List.Forall₂ UkfReads ms ds)
    (hdef : StaysDefinite (f.processMeasurement m) ms) (hlate : ∀ c ∈ ds.head?, d.time < c.time)
    (hx : ((m :: ms).foldl Filt.processMeasurement f).x = some x)
    {Q' : Mat15} (hQ' : ∀ i, 0 ≤ Q' i i) (ha' : HeldApart Q')
    {f' : Filt (ukfCore p llt k)} {x0' : State} {m' : Meas (ukfCore p llt k)} {d' : Reading}
    {ms' : List (Meas (ukfCore p llt k))} {ds' : List Reading} {x' : State} (h' : UkfUnheard Q' f' x0') (hm' : UkfReads m' d')
    (hms' : List.Forall₂ UkfReads ms' ds') (hdef' : StaysDefinite (f'.processMeasurement m') ms')
    (hlate' : ∀ c ∈ ds'.head?, d'.time < c.time) (hx' : ((m' :: ms').foldl Filt.processMeasurement f').x = some x')
    {i : Fin 15} (hi : Held i) {z r r' : ℝ} (hr : 0 < r) (hr' : 0 < r') (h1 : SameButVar i z r r' d d')
    (hs : List.Forall₂ (SameButVar i z r r') ds ds') (hx0 : x0 i = x0' i)
    (hv : (show Mat15 from f.cov) i i / r ≤ (show Mat15 from f'.cov) i i / r') (hq : Q i i / r ≤ Q' i i / r') :
    |x' i - z| ≤ |x i - z| := by
  obtain ⟨e, -⟩ := C134_bank_partial hk hpos ha h hm hms hdef hlate hx i hi
  obtain ⟨e', -⟩ := C134_bank_partial hk hpos ha' h' hm' hms' hdef' hlate' hx' i hi
  rw [e, e']
  have key : ∀ (ds ds' : List Reading), List.Forall₂ (SameButVar i z r r') ds ds' → ∀ b b' : Bank, b.time = b'.time →
      0 ≤ (b.of i).var → 0 ≤ (b'.of i).var → (b.of i).var / r ≤ (b'.of i).var / r' →
      |(b'.of i).value - z| ≤ |(b.of i).value - z| →
      |((ds'.foldl (Bank.hear fun i => Q' i i) b').of i).value - z| ≤
        |((ds.foldl (Bank.hear fun i => Q i i) b).of i).value - z| := by
    intro ds ds' hs
    induction hs with
    | nil => exact fun _ _ _ _ _ _ h => h
    | @cons c c' _ _ hcc _ ih =>
      intro b b' ht hb hb' hbv hbe
      obtain ⟨c1, c2, c3⟩ := hcc
      rw [List.foldl_cons, List.foldl_cons]
      have hn := toSec_nonneg (le_max_left 0 (c.time - b.time))
      have et : (b.hear (fun i => Q i i) c).of i = if i = c.of then
          (b.of i).heard c.z c.r (toSec (max 0 (c.time - b.time)) * Q i i) else
          (b.of i).later (Q i i) (toSec (max 0 (c.time - b.time))) := rfl
      have et' : (b'.hear (fun i => Q' i i) c').of i = if i = c'.of then
          (b'.of i).heard c'.z c'.r (toSec (max 0 (c'.time - b'.time)) * Q' i i) else
          (b'.of i).later (Q' i i) (toSec (max 0 (c'.time - b'.time))) := rfl
      rw [← c1, ← ht] at et'
      have hmax : (b.hear (fun i => Q i i) c).time = (b'.hear (fun i => Q' i i) c').time := by
        show max _ _ = max _ _
        rw [ht, c1]
      generalize toSec (max 0 (c.time - b.time)) = t at *
      have hw : 0 ≤ t * Q i i := mul_nonneg hn (hQ i)
      have hw' : 0 ≤ t * Q' i i := mul_nonneg hn (hQ' i)
      have hww : t * Q i i / r ≤ t * Q' i i / r' := by
        rw [mul_div_assoc, mul_div_assoc]
        exact mul_le_mul_of_nonneg_left hq hn
      by_cases hic : c.of = i
      · obtain ⟨z1, z2, z3, z4⟩ := c3 hic
        rw [if_pos hic.symm, z1, z3] at et
        rw [if_pos (c2 ▸ hic).symm, z2, z4] at et'
        obtain ⟨t1, t2⟩ := heard_error (z := z) (w := t * Q i i) hb hr
        obtain ⟨t1', t2'⟩ := heard_error (z := z) (w := t * Q' i i) hb' hr'
        have hp : 0 ≤ (b.of i).var / r := by positivity
        have hp' : 0 ≤ (b'.of i).var / r' := by positivity
        refine ih _ _ hmax ?_ ?_ ?_ ?_
        · rw [et]; exact hw.trans (heard_var hb hr)
        · rw [et']; exact hw'.trans (heard_var hb' hr')
        · rw [et, et', t2, t2']
          have hf := frac_mono hp hbv
          have hf0 : 0 ≤ (b.of i).var / r / (1 + (b.of i).var / r) := by positivity
          refine add_le_add (mul_le_mul hf (by linarith) (by positivity) (hf0.trans hf)) hww
        · rw [et, et', t1, t1', abs_div, abs_div, abs_of_pos (by positivity : 0 < 1 + (b.of i).var / r),
            abs_of_pos (by positivity : 0 < 1 + (b'.of i).var / r')]
          exact div_le_div₀ (abs_nonneg _) hbe (by positivity) (by linarith)
      · rw [if_neg (Ne.symm hic)] at et
        rw [if_neg (fun e => hic (c2.trans e.symm))] at et'
        refine ih _ _ hmax ?_ ?_ ?_ ?_
        · rw [et]; exact add_nonneg hb hw
        · rw [et']; exact add_nonneg hb' hw'
        · rw [et, et']
          show ((b.of i).var + t * Q i i) / r ≤ ((b'.of i).var + t * Q' i i) / r'
          rw [add_div, add_div]
          exact add_le_add hbv hww
        · rw [et, et']; exact hbe
  obtain ⟨c1, c2, c3⟩ := h1
  by_cases hid : d.of = i
  · obtain ⟨z1, z2, z3, z4⟩ := c3 hid
    have e1 : (Bank.first x0 (fun i => (show Mat15 from f.cov) i i) d).of i = ⟨z, r⟩ := by
      simp [Bank.first, hid.symm, z1, z3]
    have e2 : (Bank.first x0' (fun i => (show Mat15 from f'.cov) i i) d').of i = ⟨z, r'⟩ := by
      simp [Bank.first, (c2 ▸ hid : d'.of = i).symm, z2, z4]
    refine key ds ds' hs _ _ c1 ?_ ?_ ?_ ?_
    · rw [e1]; exact hr.le
    · rw [e2]; exact hr'.le
    · rw [e1, e2, div_self hr.ne', div_self hr'.ne']
    · rw [e1, e2]
  · have e1 : (Bank.first x0 (fun i => (show Mat15 from f.cov) i i) d).of i = ⟨x0 i, (show Mat15 from f.cov) i i⟩ :=
      if_neg (Ne.symm hid)
    have e2 : (Bank.first x0' (fun i => (show Mat15 from f'.cov) i i) d').of i = ⟨x0' i, (show Mat15 from f'.cov) i i⟩ :=
      if_neg fun e => hid (c2.trans e.symm)
    refine key ds ds' hs _ _ c1 ?_ ?_ ?_ ?_
    · rw [e1]; exact h.cov.1 i
    · rw [e2]; exact h'.cov.1 i
    · rw [e1, e2]; exact hv
    · rw [e1, e2, hx0]

theorem told_le_heard {v u w r : ℝ} (hv : 0 ≤ v) (hvu : v ≤ u) (hw : 0 ≤ w) (hr : 0 < r) :
    (v + w) * r / (v + w + r) ≤ u + w - (u / (u + r)) ^ 2 * u := by
  have hu : 0 ≤ u := hv.trans hvu
  have e : u + w - (u / (u + r)) ^ 2 * u = r * (u / (u + r)) * (1 + u / (u + r)) + w := by field_simp; ring
  have h1 : (v + w) * r / (v + w + r) ≤ v * r / (v + r) + w := by
    rw [div_add' _ _ _ (by positivity), div_le_div_iff₀ (by positivity) (by positivity)]
    nlinarith [mul_nonneg hv hw, mul_nonneg hw hr.le, mul_nonneg hv hr.le, mul_nonneg (mul_nonneg hw hv) hr.le,
      mul_nonneg (mul_nonneg hw hv) hv, mul_nonneg (mul_nonneg hw hw) hr.le, mul_nonneg (mul_nonneg hw hw) hv]
  have h2 : v * r / (v + r) ≤ r * (u / (u + r)) := by
    rw [← mul_div_assoc, div_le_div_iff₀ (by positivity) (by positivity)]
    nlinarith [mul_nonneg hv hr.le, mul_pos hr hr]
  have h3 : 0 ≤ r * (u / (u + r)) * (u / (u + r)) := by positivity
  rw [e]
  linarith

/-- C134, partial (assumed as in `C134_bank_partial`): from the same readings the unscented filter never reports a smaller
variance of a rate or acceleration than the extended filter. -/
theorem C134_never_surer_partial (hk : setConstants alpha kappa beta = some k) (hpos : 0 < 15 + k.lam)
    (ha : HeldApart Q) (h : UkfUnheard Q f x0) (hm : UkfReads m d) (hms : List.Forall₂ UkfReads ms ds)
    (hdef : StaysDefinite (f.processMeasurement m) ms) (hlate : ∀ c ∈ ds.head?, d.time < c.time)
    (hx : ((m :: ms).foldl Filt.processMeasurement f).x = some x)
    {p' : FilterPar} (hc : ∀ c, p'.ctlUpd c = false) (hQ : Q.PosSemidef) (hd : p'.dynamic = true → NoCross Q)
    {f' : Filt (ekfCore p')} {x0' : State} {m' : Meas (ekfCore p')} {ms' : List (Meas (ekfCore p'))} {x' : State}
    (h' : Unheard Q f' x0') (hm' : MeasReads m' d) (hms' : List.Forall₂ MeasReads ms' ds)
    (hx' : ((m' :: ms').foldl Filt.processMeasurement f').x = some x') {i : Fin 15} (hi : Held i)
    (hv : (show Mat15 from f'.cov) i i ≤ (show Mat15 from f.cov) i i) :
    (show Mat15 from ((m' :: ms').foldl Filt.processMeasurement f').cov) i i ≤
      (show Mat15 from ((m :: ms).foldl Filt.processMeasurement f).cov) i i := by
  obtain ⟨-, e⟩ := C134_bank_partial hk hpos ha h hm hms hdef hlate hx i hi
  obtain ⟨-, e'⟩ := C128_bank hc hQ hd ha h' hm' hms' hx' i hi
  rw [e, e']
  have hr := forall2_ukf_pos hms
  have hd0 := hm.pos
  have ht : ∀ ds : List Reading, (bankOf Q f' x0' d ds).time = (heardBank Q f x0 d ds).time := by
    intro ds
    induction ds using List.reverseRecOn with
    | nil => rfl
    | append_singleton ds c ih =>
      rw [heardBank_snoc, bankOf_snoc]
      show max _ _ = max _ _
      rw [ih]
  have key : ∀ ds : List Reading, (∀ c ∈ ds, 0 < c.r) →
      ((bankOf Q f' x0' d ds).of i).var ≤ ((heardBank Q f x0 d ds).of i).var := by
      intro ds hr
      induction ds using List.reverseRecOn with
      | nil =>
        show (if i = d.of then (⟨d.z, d.r⟩ : Gauge) else ⟨x0' i, (show Mat15 from f'.cov) i i⟩).var ≤
          (if i = d.of then (⟨d.z, d.r⟩ : Gauge) else ⟨x0 i, (show Mat15 from f.cov) i i⟩).var
        split
        · exact le_rfl
        · exact hv
      | append_singleton ds c ih =>
        have hr' : ∀ c ∈ ds, 0 < c.r := fun c h => hr c (List.mem_append_left _ h)
        have ih := ih hr'
        have hb := bank_var hQ h' hd0 hr' i
        rw [heardBank_snoc, bankOf_snoc]
        show (if i = c.of then (((bankOf Q f' x0' d ds).of i).later (Q i i)
          (toSec (max 0 (c.time - (bankOf Q f' x0' d ds).time)))).told c.z c.r else
          ((bankOf Q f' x0' d ds).of i).later (Q i i) (toSec (max 0 (c.time - (bankOf Q f' x0' d ds).time)))).var ≤
          (if i = c.of then ((heardBank Q f x0 d ds).of i).heard c.z c.r
          (toSec (max 0 (c.time - (heardBank Q f x0 d ds).time)) * Q i i) else
          ((heardBank Q f x0 d ds).of i).later (Q i i) (toSec (max 0 (c.time - (heardBank Q f x0 d ds).time)))).var
        rw [ht]
        have hn := toSec_nonneg (le_max_left 0 (c.time - (heardBank Q f x0 d ds).time))
        generalize toSec (max 0 (c.time - (heardBank Q f x0 d ds).time)) = t at hn
        split
        · exact told_le_heard hb ih (mul_nonneg hn hQ.diag_nonneg) (hr c (by simp))
        · exact add_le_add_left ih _
  exact key ds hr

end

/-! ## Readings that meet the hypotheses -/

/-- All variances one thousandth. -/
noncomputable def milli : Mat15 := (1e-3 : ℝ) • (1 : Mat15)

theorem milli_diagonal : milli = diagonal fun _ => (1e-3 : ℝ) := by
  unfold milli
  rw [← diagonal_one, ← diagonal_smul]
  congr 1
  funext i
  simp

theorem milli_posDef : milli.PosDef := PosDef.one.smul (by norm_num)

theorem milli_apart : HeldApart milli := fun i j _ _ hij => by rw [milli_diagonal]; exact diagonal_apply_ne _ hij

theorem reads_proper {m : Payload} {a : Fin 15} {z r : ℝ} (h : m.Reads a z r) : m.Proper := ⟨h.good, h.certain.proper⟩

/-- Sigma points that start at rest, level and facing forward. -/
theorem milli_sigma (llt : Llt) (hk : setConstants 1 0 2 = some k) :
    llt.L ((15 + k.lam) • milli) = diagonal fun _ => sqrt 0.015 := by
  have hl : 15 + k.lam = 15 := by rw [(setConstants_spec hk).2.1]; norm_num
  rw [hl, milli_diagonal, smul_diagonal, llt_diagonal _ _ (fun i => by norm_num)]
  congr 1
  funext i
  norm_num

theorem level_rows (r : Fin 15) (hr : angular r) (i : Fin 15) : |transferF 0 1 r i| ≤ 1 := by
  rcases hr with rfl | rfl | rfl
  · show |transferF 0 1 3 i| ≤ 1
    rw [transferF_row3]
    fin_cases i <;> simp [trig]
  · show |transferF 0 1 4 i| ≤ 1
    rw [transferF_row4]
    fin_cases i <;> simp [trig]
  · show |transferF 0 1 5 i| ≤ 1
    rw [transferF_row5]
    fin_cases i <;> simp [trig]

theorem level_diag (r : Fin 15) (hr : angular r) :
    (transferF 0 1 * diagonal (fun _ => (1e-3 : ℝ)) * (transferF 0 1)ᵀ : Mat15) r r = 2e-3 := by
  rw [diag_entry]
  rcases hr with rfl | rfl | rfl
  · show ∑ i, transferF 0 1 3 i ^ 2 * _ = _
    rw [transferF_row3, sum15]
    simp [trig]; norm_num
  · show ∑ i, transferF 0 1 4 i ^ 2 * _ = _
    rw [transferF_row4, sum15]
    simp [trig]; norm_num
  · show ∑ i, transferF 0 1 5 i ^ 2 * _ = _
    rw [transferF_row5, sum15]
    simp [trig]; norm_num

theorem cos_small {a : ℝ} (h : a ^ 2 ≤ 1) : cos a ≠ 0 := by
  have h1 : |a| ≤ 1 := by rw [← sq_le_one_iff_abs_le_one]; exact h
  have h2 := abs_le.1 h1
  have := Real.pi_gt_three
  exact (cos_pos_of_mem_Ioo ⟨by linarith, by linarith⟩).ne'

/-- The first prediction: of a robot at rest, for a second. -/
theorem milli_predict (llt : Llt) (hk : setConstants 1 0 2 = some k) (u : Fin 6 → ℝ) (ct ref : Int) :
    ∃ P' mem, Ukf.predict plainPar llt k milli u ct ref 1 0 milli = some (0, P', mem) ∧ P' 4 4 = 3e-3 ∧
      ∀ s, wrapDiff (mem.pts s - 0) = mem.pts s - 0 := by
  have hl : 15 + k.lam = 15 := by rw [(setConstants_spec hk).2.1]; norm_num
  have hsq : sqrt 0.015 ^ 2 = 0.015 := sq_sqrt (by norm_num)
  have hpi := Real.pi_gt_three
  obtain ⟨mem, h⟩ := rest_predict (p := plainPar) llt hk (by rw [hl]; norm_num) (x := 0) (fun _ _ => rfl) (milli_sigma llt hk)
    (by simp) (by rw [show (0 : State) 4 = 0 from rfl, zero_add]; exact cos_small (by rw [hsq]; norm_num))
    (by rw [show (0 : State) 4 = 0 from rfl, zero_sub, cos_neg]; exact cos_small (by rw [hsq]; norm_num)) 1
    (d := fun _ => 1e-3) (fun i => by rw [hl, hsq]; norm_num)
    (fun r hr => by
      rw [level_diag r hr, hl]
      refine ⟨by norm_num, ?_⟩
      have : (3 : ℝ) ^ 2 < π ^ 2 := by nlinarith
      norm_num at this ⊢
      linarith) milli u ct ref
  have hw : wrapStateAngles (0 : State) = 0 := by
    funext r
    unfold wrapStateAngles
    split
    · exact normalizeAngle_of_mem (by simp; linarith) (by simp; linarith)
    · rfl
  rw [hw] at h
  refine ⟨_, mem, h, ?_, ?_⟩
  · have hN : noiseQ plainPar milli 0 = milli := rfl
    rw [hN, Matrix.add_apply, level_diag 4 (Or.inr (Or.inl rfl)), Matrix.smul_apply, milli_diagonal, diagonal_apply_eq]
    norm_num
  · intro s
    unfold Ukf.predict at h
    dsimp only at h
    split at h
    · cases h
    · simp only [Option.some.injEq, Prod.mk.injEq] at h
      obtain ⟨-, -, rfl⟩ := h
      dsimp only
      obtain ⟨s0, s1, s2⟩ := sigma_of_diagonal llt (milli_sigma llt hk) 0
      have hd : ∀ (i : Fin 15) (v : ℝ), v ^ 2 ≤ 0.015 →
          wrapDiff (projectPoint 1 (0 + Pi.single i v) - 0) = projectPoint 1 (0 + Pi.single i v) - 0 := by
        intro i v hv
        rw [project_rest (x := 0) (fun _ _ => rfl), sub_zero, zero_add]
        funext r
        unfold wrapDiff
        split
        · rename_i hr
          have h1 := level_rows r hr i
          have h2 : |v| ≤ 1 := by rw [← sq_le_one_iff_abs_le_one]; linarith
          have h3 : |transferF 0 1 r i * v| ≤ 1 := by
            rw [abs_mul]
            exact mul_le_one₀ h1 (abs_nonneg _) h2
          have := abs_le.1 h3
          exact normalizeAngle_of_mem (by linarith) (by linarith)
        · rfl
      rcases s with ⟨⟩ | i | i
      · rw [s0]; exact hd 0 0 (by norm_num)
      · rw [s1]; exact hd i _ hsq.le
      · rw [s2]; exact hd i _ (by rw [neg_sq]; exact hsq.le)

theorem stateDiff_held {a : Fin 15} (ha : Held a) {is : List (Fin 15)} (h : is = [a]) (d : State) : stateDiff is.get d = d := by
  subst h
  funext q
  unfold stateDiff
  split
  · rename_i hq
    have : ([a].get ⟨q.val, hq⟩) = a := by simp
    rw [this, if_neg (show ¬ angularIdx a from ha.not_angular)]
  · rfl

/-- Two readings 0 and a reading `z` of the yaw rate, a second apart, after a first prediction. -/
theorem milli_run (llt : Llt) (hk : setConstants 1 0 2 = some k) (z : ℝ) (u u' : Fin 6 → ℝ) (ct ct' ref ref' : Int) :
    ∃ s1 s2 s3 s4 : State × Mat15 × UkfMem,
      Ukf.predict plainPar llt k milli u ct ref 1 0 milli = some s1 ∧
      Ukf.correct llt k (readOf iVyaw 0 1e-3) s1.1 s1.2.1 s1.2.2 = some s2 ∧ s2.2.1.PosDef ∧
      Ukf.predict plainPar llt k milli u' ct' ref' 1 s2.1 s2.2.1 = some s3 ∧
      Ukf.correct llt k (readOf iVyaw z 1e-3) s3.1 s3.2.1 s3.2.2 = some s4 := by
  have hl : 15 + k.lam = 15 := by rw [(setConstants_spec hk).2.1]; norm_num
  have hpos : 0 < 15 + k.lam := by rw [hl]; norm_num
  have hlam : k.lam = 0 := by linarith
  have hc0 : 0 ≤ k.c (.inl ()) := by rw [(setConstants_spec hk).2.2.2.2.2, hlam]; norm_num
  have hi : Held iVyaw := by unfold Held; decide
  have hr0 := readOf_reads iVyaw 0 (r := 1e-3) (by norm_num)
  have hrz := readOf_reads iVyaw z (r := 1e-3) (by norm_num)
  have hU : Unsure milli := unsure_iff.2 milli_posDef
  have hdyn : plainPar.dynamic = false := rfl
  obtain ⟨P1, mem1, h1, h44, hcalm⟩ := milli_predict llt hk u ct ref
  have hun : mem1.uncorrected = true := (ukf_predict_held hk hpos milli_posDef h1).2.2.2
  obtain ⟨s2, h2⟩ := C114_ukf_corrects_partial hk hpos hU hdyn (s1 := (0, P1, mem1)) one_pos (.inl hc0) h1 .refl
    (readOf iVyaw 0 1e-3) (reads_proper hr0) (fun h => by rw [hun] at h; cases h)
  have hcalm' : ∀ s, stateDiff (readOf iVyaw 0 1e-3).indices.get (mem1.pts s - 0) = wrapDiff (mem1.pts s - 0) := by
    intro s
    rw [hcalm s]
    exact stateDiff_held hi hr0.indices _
  obtain ⟨x2, P2, mem2⟩ := s2
  have hw2 : UkfWell plainPar llt k milli (0, P1, mem1) (x2, P2, mem2) :=
    .correct _ _ _ _ _ _ _ (reads_proper hr0) (fun _ => hcalm') (fun h => by rw [hun] at h; cases h) h2
  have hP2 : P2.PosDef := unsure_iff.1
    (C114_ukf_partial hk hpos hU hdyn (s1 := (0, P1, mem1)) one_pos (.inl hc0) h1 (.single hw2))
  -- the state stays, the covariance does not grow
  have hkey : x2 = 0 ∧ P2 4 4 ≤ 3e-3 := by
    have h2' := h2
    unfold Ukf.correct UkfMem.refresh at h2'
    dsimp only at h2'
    rw [hun, if_pos rfl, Option.map_eq_some_iff] at h2'
    obtain ⟨⟨y, Py, b⟩, h3, h4⟩ := h2'
    simp only [Prod.mk.injEq] at h4
    obtain ⟨rfl, rfl, -⟩ := h4
    have hN : ∀ y, noiseQ plainPar milli y = milli := fun y => rfl
    have hb : b = true := by
      unfold ukfCorrectAt at h3
      dsimp only at h3
      split at h3
      · cases h3
      · rw [if_pos (by trivial)] at h3
        simp only [Option.some.injEq, Prod.mk.injEq] at h3
        exact h3.2.2.symm
    subst hb
    have hσ : (P1 - (1 : ℝ) • noiseQ plainPar milli 0).PosSemidef := by
      have h1' := h1
      unfold Ukf.predict at h1'
      dsimp only at h1'
      split at h1'
      · cases h1'
      · simp only [Option.some.injEq, Prod.mk.injEq] at h1'
        rw [← h1'.2.1, hN, hN, add_sub_cancel_right]
        exact C17_propagated_covariance hk hpos hc0 _ _
    obtain ⟨e1, -, e3, -, -⟩ := C17_after_prediction_partial llt _ plainPar milli u ct ref 1 0 milli 0 P1 mem1 h1 hcalm'
      zero_le_one (by rw [hN]; exact milli_posDef.posSemidef) hσ _ _ hr0.good.sub _ _ _ h3
    constructor
    · rw [e1]
      have hy : innovation (readOf iVyaw 0 1e-3).indices.get (fun i => ((readOf iVyaw 0 1e-3).z i).val) 0 = 0 := by
        funext n
        unfold innovation
        have e : ∀ i, ((readOf iVyaw 0 1e-3).z i).val - (0 : State) i = 0 := fun i => by simp [readOf, Dbl.val]
        simp only [e]
        split
        · exact normalizeAngle_of_mem (by linarith [Real.pi_gt_three]) (by linarith [Real.pi_gt_three])
        · rfl
      rw [hy, mulVec_zero, add_zero]
      funext r
      unfold wrapStateAngles
      split
      · exact normalizeAngle_of_mem (by simp; linarith [Real.pi_gt_three]) (by simp; linarith [Real.pi_gt_three])
      · rfl
    · have := e3.diag_nonneg (i := 4)
      rw [Matrix.sub_apply] at this
      linarith
  obtain ⟨rfl, h44'⟩ := hkey
  obtain ⟨s3, h3⟩ : ∃ s3, Ukf.predict plainPar llt k milli u' ct' ref' 1 0 P2 = some s3 := by
    refine ⟨_, if_neg ?_⟩
    have hL : ∀ i, llt.L ((15 + k.lam) • P2) 4 i ^ 2 ≤ 1 := by
      intro i
      have h5 := llt_factor_apply llt hpos hP2 4 4
      have h6 := Finset.single_le_sum (f := fun i => llt.L ((15 + k.lam) • P2) 4 i * llt.L ((15 + k.lam) • P2) 4 i)
        (fun i _ => mul_self_nonneg _) (Finset.mem_univ i)
      rw [h5] at h6
      rw [sq]
      rw [hl] at h6 ⊢
      refine h6.trans ?_
      linarith
    rintro ⟨s, hs⟩
    refine absurd hs (cos_small ?_)
    rcases s with ⟨⟩ | i | i
    · show ((0 : State) iPitch) ^ 2 ≤ 1
      simp
    · show ((0 : ℝ) + llt.L ((15 + k.lam) • P2) 4 i) ^ 2 ≤ 1
      rw [zero_add]; exact hL i
    · show ((0 : ℝ) - llt.L ((15 + k.lam) • P2) 4 i) ^ 2 ≤ 1
      rw [zero_sub, neg_sq]; exact hL i
  obtain ⟨x3, P3, mem3⟩ := s3
  have hun3 : mem3.uncorrected = true := (ukf_predict_held hk hpos hP2 h3).2.2.2
  have hw3 : UkfWell plainPar llt k milli (0, P2, mem2) (x3, P3, mem3) := .predict _ _ _ _ _ _ _ _ _ _ one_pos (.inl hc0) h3
  obtain ⟨s4, h4⟩ := C114_ukf_corrects_partial hk hpos hU hdyn (s1 := (0, P1, mem1)) one_pos (.inl hc0) h1
    ((Relation.ReflTransGen.single hw2).tail hw3) (readOf iVyaw z 1e-3) (reads_proper hrz)
    (fun h => by rw [hun3] at h; cases h)
  exact ⟨_, _, _, s4, h1, h2, hP2, h3, h4⟩

/-- A filter that starts from zero. -/
noncomputable def idleUkf (llt : Llt) (k : UkfConst) : Filt (ukfCore plainPar llt k) :=
  { initialized := false, x := some (0 : State), cov := milli, ext := UkfMem.init, predicted := some (0 : State),
    par := milli, ctl := fun _ : Fin 6 => (0 : ℝ), ctlTime := 0, lastTime := 0, sensorTimeout := 0 }

theorem idleUkf_unheard : UkfUnheard milli (idleUkf llt k) 0 := ⟨rfl, rfl, rfl, uncorrelated_smul (by norm_num)⟩

/-- A message with a reading of the yaw rate. -/
noncomputable def yawRateMsg (llt : Llt) (k : UkfConst) (t : Int) (z : ℝ) : Meas (ukfCore plainPar llt k) :=
  ⟨t, "gyro", readOf iVyaw z 1e-3, fun _ : Fin 6 => (0 : ℝ), 0⟩

theorem yawRateMsg_reads (t : Int) (z : ℝ) : UkfReads (yawRateMsg llt k t z) ⟨t, iVyaw, z, 1e-3⟩ :=
  ⟨rfl, (by unfold Held; decide : Held iVyaw), readOf_reads iVyaw z (by norm_num)⟩

theorem yawRate_first : (idleUkf llt k).processMeasurement (yawRateMsg llt k 0 0) = { idleUkf llt k with
    x := some (0 : State), cov := milli, initialized := true, lastTime := 0 } := by
  have e1 : initState (readOf iVyaw 0 1e-3) 0 = some 0 := by
    refine (if_pos fun _ _ => rfl).trans (congrArg some ?_)
    funext i
    simp [readOf, Dbl.val]
  have e2 : initCov (readOf iVyaw 0 1e-3) milli = milli := by
    ext i j
    simp [initCov, readOf, milli]
  show ({ idleUkf llt k with
    x := initState (readOf iVyaw 0 1e-3) 0, cov := initCov (readOf iVyaw 0 1e-3) milli
    initialized := true, lastTime := 0 } : Filt _) = _
  rw [e1, e2]

/-- Readings 0, 0 and `z` leave the filter finite, and its covariance positive definite on the way. -/
theorem yawRate_run (llt : Llt) (hk : setConstants 1 0 2 = some k) (z : ℝ) :
    (∃ x, ([yawRateMsg llt k 0 0, yawRateMsg llt k 1000000000 0, yawRateMsg llt k 2000000000 z].foldl Filt.processMeasurement
      (idleUkf llt k)).x = some x) ∧
    StaysDefinite ((idleUkf llt k).processMeasurement (yawRateMsg llt k 0 0))
      [yawRateMsg llt k 1000000000 0, yawRateMsg llt k 2000000000 z] := by
  obtain ⟨s1, s2, s3, s4, h1, h2, hP2, h3, h4⟩ := milli_run llt hk z (fun _ => 0) (fun _ => 0) 0 0 1000000000 2000000000
  have hsec : toSec 1000000000 = 1 := by unfold toSec; norm_num
  have step : ∀ (g : Filt (ukfCore plainPar llt k)) (x : State) (P : Mat15) (m : Meas (ukfCore plainPar llt k))
      (a b : State × Mat15 × UkfMem), g.initialized = true → g.x = some x → g.cov = P → g.par = milli → g.ctl = (fun _ : Fin 6 => (0 : ℝ)) →
      g.ctlTime = 0 → m.time - g.lastTime = 1000000000 →
      Ukf.predict plainPar llt k milli (fun _ => 0) 0 m.time 1 x P = some a → Ukf.correct llt k m.z a.1 a.2.1 a.2.2 = some b →
      ((g.processMeasurement m).x = some b.1 ∧ (g.processMeasurement m).cov = b.2.1) ∧
      (g.processMeasurement m).initialized = true ∧ (g.processMeasurement m).par = milli ∧
      (g.processMeasurement m).ctl = (fun _ : Fin 6 => (0 : ℝ)) ∧ (g.processMeasurement m).ctlTime = 0 ∧
      (g.processMeasurement m).lastTime = m.time := by
    intro g x P m a b g1 g2 g3 g4 g5 g6 g7 ha hb
    obtain ⟨gi, gx, gc, ge, gp, gpar, gctl, gct, gl, gs⟩ := g
    dsimp only at g1 g2 g3 g4 g5 g6 g7
    subst g1 g2 g3 g4 g5 g6
    unfold Filt.processMeasurement
    dsimp only
    rw [g7]
    rw [← hsec] at ha
    have E1 := ukfCore_predict_some (p := plainPar) (mem := ge) ha
    have E2 := ukfCore_correct_some (p := plainPar) hb
    refine ⟨⟨?_, ?_⟩, rfl, rfl, rfl, rfl, rfl⟩
    · show ((ukfCore plainPar llt k).correct m.z ((ukfCore plainPar llt k).predict milli (fun _ : Fin 6 => (0 : ℝ)) 0 m.time
        1000000000 (some x, gc, ge))).1 = _
      exact (congrArg (fun q => ((ukfCore plainPar llt k).correct m.z q).1) E1).trans (congrArg Prod.fst E2)
    · show ((ukfCore plainPar llt k).correct m.z ((ukfCore plainPar llt k).predict milli (fun _ : Fin 6 => (0 : ℝ)) 0 m.time
        1000000000 (some x, gc, ge))).2.1 = _
      exact (congrArg (fun q => ((ukfCore plainPar llt k).correct m.z q).2.1) E1).trans (congrArg (fun q => q.2.1) E2)
  have hA := step ((idleUkf llt k).processMeasurement (yawRateMsg llt k 0 0)) 0 milli (yawRateMsg llt k 1000000000 0) s1 s2
    rfl (by rw [yawRate_first]) (by rw [yawRate_first]) rfl rfl rfl rfl h1 h2
  obtain ⟨⟨a1, a2⟩, a3, a4, a5, a6, a7⟩ := hA
  have hB := step _ s2.1 s2.2.1 (yawRateMsg llt k 2000000000 z) s3 s4 a3 a1 a2 a4 a5 a6 (by rw [a7]; rfl) h3 h4
  refine ⟨⟨s4.1, hB.1.1⟩, ?_, ?_, trivial⟩
  · rw [yawRate_first]; exact milli_posDef
  · rw [a2]; exact hP2

/-- Yaw rates 0, 0 and 1, of the same variance: the estimate is 3/7 or more. -/
example (llt : Llt) : ∃ k, setConstants 1 0 2 = some k ∧ ∃ x : State,
    ([yawRateMsg llt k 0 0, yawRateMsg llt k 1000000000 0, yawRateMsg llt k 2000000000 1].foldl Filt.processMeasurement
      (idleUkf llt k)).x = some x ∧ 3 / 7 ≤ x iVyaw ∧ Between 0 1 (x iVyaw) := by
  obtain ⟨k, hk⟩ := Option.isSome_iff_exists.1 ((C16_constants_defined 1 0 2).2 ⟨by norm_num, by norm_num⟩)
  have hpos : 0 < 15 + k.lam := by rw [(setConstants_spec hk).2.1]; norm_num
  obtain ⟨⟨x, hx⟩, hdef⟩ := yawRate_run llt hk 1
  have hQ : ∀ i, 0 ≤ milli i i := fun i => milli_posDef.posSemidef.diag_nonneg
  refine ⟨k, hk, x, hx, ?_, ?_⟩
  · obtain ⟨w, hw, e⟩ := C134_third_counts_more hk hpos hQ milli_apart idleUkf_unheard (yawRateMsg_reads 0 0)
      (yawRateMsg_reads 1000000000 0) (yawRateMsg_reads 2000000000 1) rfl rfl rfl rfl hdef (by norm_num) hx
    dsimp only at e
    rw [e]
    linarith
  · refine C134_between_partial hk hpos hQ milli_apart idleUkf_unheard (yawRateMsg_reads 0 0)
      (.cons (yawRateMsg_reads 1000000000 0) (.cons (yawRateMsg_reads 2000000000 1) .nil)) hdef (by simp) hx
      (by unfold Held; decide) (fun h => absurd rfl h) ?_
    intro c hc _
    simp only [List.mem_cons, List.not_mem_nil, or_false] at hc
    rcases hc with rfl | rfl | rfl
    · exact ⟨by norm_num, by norm_num⟩
    · exact ⟨by norm_num, by norm_num⟩
    · exact ⟨by norm_num, by norm_num⟩

/-- Yaw rates 0 and 1, of the same variance: the estimate is 1/2, in spite of the process noise; that of the extended filter
is 2/3. -/
example (llt : Llt) : ∃ k, setConstants 1 0 2 = some k ∧ (∃ x : State,
    ([yawRateMsg llt k 0 0, yawRateMsg llt k 1000000000 1].foldl Filt.processMeasurement (idleUkf llt k)).x = some x ∧
      x iVyaw = 1 / 2) ∧ ∃ x : State,
    ([readMsg 0 iVyaw 0 1e-3, readMsg 1000000000 iVyaw 1 1e-3].foldl Filt.processMeasurement (idleFilt milli)).x = some x ∧
      x iVyaw = 2 / 3 := by
  obtain ⟨k, hk⟩ := Option.isSome_iff_exists.1 ((C16_constants_defined 1 0 2).2 ⟨by norm_num, by norm_num⟩)
  have hl : 15 + k.lam = 15 := by rw [(setConstants_spec hk).2.1]; norm_num
  have hpos : 0 < 15 + k.lam := by rw [hl]; norm_num
  have hlam : k.lam = 0 := by linarith
  have hc0 : 0 ≤ k.c (.inl ()) := by rw [(setConstants_spec hk).2.2.2.2.2, hlam]; norm_num
  have hi : Held iVyaw := by unfold Held; decide
  have hsec : toSec 1000000000 = 1 := by unfold toSec; norm_num
  obtain ⟨P1, mem1, h1, -, -⟩ := milli_predict llt hk (fun _ => 0) 0 1000000000
  have hun : mem1.uncorrected = true := (ukf_predict_held hk hpos milli_posDef h1).2.2.2
  obtain ⟨s2, h2⟩ := C114_ukf_corrects_partial hk hpos (unsure_iff.2 milli_posDef) rfl (s1 := (0, P1, mem1)) one_pos
    (.inl hc0) h1 .refl (readOf iVyaw 1 1e-3) (reads_proper (readOf_reads iVyaw 1 (by norm_num)))
    (fun h => by rw [hun] at h; cases h)
  have hx : ([yawRateMsg llt k 0 0, yawRateMsg llt k 1000000000 1].foldl Filt.processMeasurement (idleUkf llt k)).x =
      some s2.1 := by
    rw [List.foldl_cons, yawRate_first, List.foldl_cons, List.foldl_nil]
    rw [← hsec] at h1
    have E1 := ukfCore_predict_some (p := plainPar) (mem := UkfMem.init) h1
    have E2 := ukfCore_correct_some (p := plainPar) h2
    show ((ukfCore plainPar llt k).correct (readOf iVyaw 1 1e-3) ((ukfCore plainPar llt k).predict milli
      (fun _ : Fin 6 => (0 : ℝ)) 0 1000000000 1000000000 (some (0 : State), milli, UkfMem.init))).1 = _
    exact (congrArg (fun q => ((ukfCore plainPar llt k).correct (readOf iVyaw 1 1e-3) q).1) E1).trans (congrArg Prod.fst E2)
  refine ⟨k, hk, ⟨s2.1, hx, ?_⟩, ?_⟩
  · have := C134_pause_ignored hk hpos milli_apart idleUkf_unheard (yawRateMsg_reads 0 0) (yawRateMsg_reads 1000000000 1) rfl
      (by rw [yawRate_first]; exact milli_posDef) (by norm_num) hx
    refine this.trans ?_
    norm_num
  · obtain ⟨x, hx⟩ := two_readings_finite milli_posDef.posSemidef (i := iVyaw) (j := iVyaw) hi 0 1 (r := 1e-3) (r' := 1e-3)
      (by norm_num) (by norm_num)
    refine ⟨x, hx, ?_⟩
    obtain ⟨e, -⟩ := C128_bank (by simp [plainPar]) milli_posDef.posSemidef (by simp [plainPar, demoPar]) milli_apart
      (idleFilt_unheard milli) (readMsg_reads 0 hi 0 (r := 1e-3) (by norm_num))
      (.cons (readMsg_reads 1000000000 hi 1 (r := 1e-3) (by norm_num)) .nil) hx iVyaw hi
    rw [e]
    have e1 : max 0 ((1000000000 : Int) - 0) = 1000000000 := by decide
    have e2 : milli iVyaw iVyaw = 1e-3 := by rw [milli_diagonal, diagonal_apply_eq]
    show (((⟨0, 1e-3⟩ : Gauge).later (milli iVyaw iVyaw) (toSec (max 0 ((1000000000 : Int) - 0)))).told 1 1e-3).value = 2 / 3
    rw [e1, hsec, e2]
    norm_num [Gauge.later, Gauge.told]

end

end RL
