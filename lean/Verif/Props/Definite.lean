import Verif.Props.Alive
import Verif.Props.LevelUkf
import Verif.Props.UkfCorrect
/-!
# C114: no combination of variables is ever taken to be known exactly
-/

namespace RL
open Matrix Real

/-- Every combination of the variables has a positive variance. -/
def Unsure (P : Mat15) : Prop := P.IsHermitian ∧ ∀ v : State, v ≠ 0 → 0 < v ⬝ᵥ P.mulVec v

theorem unsure_iff {P : Mat15} : Unsure P ↔ P.PosDef := by
  constructor
  · rintro ⟨h1, h2⟩
    exact PosDef.of_dotProduct_mulVec_pos h1 fun v hv => by simpa using h2 v hv
  · intro h
    exact ⟨h.isHermitian, fun v hv => by simpa using h.dotProduct_mulVec_pos hv⟩

/-- The errors of a message in the selected variables: no combination is exact. -/
def Payload.Definite (m : Payload) : Prop :=
  (m.R.submatrix (fun i : {i // m.upd i = true} => i.1) (fun i => i.1)).PosDef

theorem posDef_submatrix_inj {ι κ : Type} [Fintype ι] [Fintype κ] [DecidableEq ι] {M : Matrix ι ι ℝ} (h : M.PosDef) (f : κ → ι)
    (hf : Function.Injective f) : (M.submatrix f f).PosDef := by
  classical
  exact h.submatrix hf

theorem Payload.Definite.used {m : Payload} (h : m.Definite) : (subR m.indices.get m.R).PosDef := by
  have hs : (m.R.submatrix m.indices.get m.indices.get).PosDef := by
    have : m.R.submatrix m.indices.get m.indices.get =
        (m.R.submatrix (fun i : {i // m.upd i = true} => i.1) (fun i : {i // m.upd i = true} => i.1)).submatrix
          (fun i : Fin m.indices.length => (⟨m.indices.get i, m.indices_upd i⟩ : {i // m.upd i = true}))
          (fun i : Fin m.indices.length => (⟨m.indices.get i, m.indices_upd i⟩ : {i // m.upd i = true})) := rfl
    rw [this]
    refine posDef_submatrix_inj h _ fun i j hij => ?_
    have hn : m.indices.Nodup := (List.nodup_finRange 15).filter _
    exact (List.nodup_iff_injective_get.1 hn) (congrArg Subtype.val hij)
  rw [subR_eq]
  exact hs.add_posSemidef (PosSemidef.diagonal fun i => by
    show 0 ≤ _
    linarith [sanitize_ge (m.R (m.indices.get i) (m.indices.get i))])

theorem Payload.Proper.used {m : Payload} (h : m.Proper) : (subR m.indices.get m.R).PosDef := by
  have hs : (subR m.indices.get m.R).PosSemidef := subR_psd (h.good.sub)
  exact hs.posDef_iff_isUnit.2 ((Matrix.isUnit_iff_isUnit_det _).2 (isUnit_iff_ne_zero.2 h.proper))

theorem Payload.Definite.proper {m : Payload} (h : m.Definite) : m.Proper :=
  ⟨h.posSemidef, (h.used.isUnit.map Matrix.detMonoidHom).ne_zero⟩

theorem quad_congr {ι κ : Type} [Fintype ι] [Fintype κ] (A : Matrix ι κ ℝ) (M : Matrix κ κ ℝ) (v : ι → ℝ) :
    star v ⬝ᵥ (A * M * Aᵀ) *ᵥ v = star (Aᵀ *ᵥ v) ⬝ᵥ M *ᵥ (Aᵀ *ᵥ v) := by
  rw [← mulVec_mulVec, ← mulVec_mulVec, dotProduct_mulVec]
  simp [mulVec_transpose]

/-- The Joseph form of a proper prior and a proper measurement. -/
theorem joseph_posDef {n : ℕ} {e : Fin n → Fin 15} {R P : Mat15} (hP : P.PosDef) (hR : (subR e R).PosDef)
    (K : Matrix (Fin 15) (Fin n) ℝ) : (joseph e R K P).PosDef := by
  have hpsd : (joseph e R K P).PosSemidef := joseph_psd hP.posSemidef hR.posSemidef _ _
  refine PosDef.of_dotProduct_mulVec_pos hpsd.isHermitian fun v hv => ?_
  have e1 : star v ⬝ᵥ joseph e R K P *ᵥ v =
      star ((1 - K * subH e)ᵀ *ᵥ v) ⬝ᵥ P *ᵥ ((1 - K * subH e)ᵀ *ᵥ v) + star (Kᵀ *ᵥ v) ⬝ᵥ subR e R *ᵥ (Kᵀ *ᵥ v) := by
    unfold joseph
    rw [add_mulVec, dotProduct_add]
    rw [quad_congr, quad_congr]
  rw [e1]
  have h1 := hP.posSemidef.dotProduct_mulVec_nonneg ((1 - K * subH e)ᵀ *ᵥ v)
  have h2 := hR.posSemidef.dotProduct_mulVec_nonneg (Kᵀ *ᵥ v)
  by_cases hk : Kᵀ *ᵥ v = 0
  · have : (1 - K * subH e)ᵀ *ᵥ v = v := by
      rw [transpose_sub, transpose_one, transpose_mul, sub_mulVec, one_mulVec, ← mulVec_mulVec, hk, mulVec_zero, sub_zero]
    rw [this, hk]
    have := hP.dotProduct_mulVec_pos hv
    simpa using this
  · have := hR.dotProduct_mulVec_pos hk
    linarith

/-- Adding a covariance. -/
theorem posDef_of_sub {A B : Mat15} (hB : B.PosDef) (h : (A - B).PosSemidef) : A.PosDef := by
  have : A = B + (A - B) := by abel
  rw [this]
  exact hB.add_posSemidef h

/-- A correction of the extended filter. -/
theorem correctAt_posDef {n : ℕ} {e : Fin n → Fin 15} {z : Fin 15 → ℝ} {R : Mat15} {thr : Thresh} {x x' : State} {P P' : Mat15}
    (hP : P.PosDef) (hR : (subR e R).PosDef) (h : correctAt e z R thr x P = some (x', P')) : P'.PosDef := by
  unfold correctAt at h
  split at h
  · cases h
  · split at h
    · simp only [Option.some.injEq, Prod.mk.injEq] at h
      rw [← h.2]
      exact joseph_posDef hP hR _
    · simp only [Option.some.injEq, Prod.mk.injEq] at h
      rw [← h.2]
      exact hP

theorem jEntry_zero (t : Trig) (x : State) (i j : Fin 15) (v : ℝ) (h : jEntry t 0 x i j = some v) : v = (1 : Mat15) i j := by
  unfold jEntry at h
  split at h <;> first
    | (cases h; done)
    | (simp at h; simp [← h]; done)
    | (simp at h; rw [← h]; norm_num)

theorem transferJ_zero (x : State) : transferJ x 0 = 1 := by
  ext i j
  unfold transferJ writeJ
  rw [of_apply]
  cases h : jEntry (trig x) 0 x i j with
  | none => rw [Option.getD_none, transferF_zero]
  | some v => rw [Option.getD_some]; exact jEntry_zero _ _ _ _ _ h

/-- A prediction of the extended filter. -/
theorem predict_posDef {p : FilterPar} {Q : Mat15} (hQ : Q.PosDef) (hd : p.dynamic = false) {ctl : Fin 6 → ℝ} {ct ref : Int} {dt : ℝ}
    (hdt : 0 ≤ dt) {x x' : State} {P P' : Mat15} (hP : P.PosDef) (h : Ekf.predict p Q ctl ct ref dt x P = some (x', P')) :
    P'.PosDef := by
  unfold Ekf.predict at h
  dsimp only at h
  split at h
  · cases h
  · simp only [Option.some.injEq, Prod.mk.injEq] at h
    rw [← h.2, noiseQ, hd]
    rcases hdt.eq_or_lt with h0 | h0
    · rw [← h0, transferJ_zero]
      simpa using hP
    · exact PosDef.posSemidef_add (psd_congr hP.posSemidef _) (hQ.smul h0)

theorem sum_selected (p : Fin 15 → Bool) (f : Fin 15 → ℝ) :
    ∑ i, (if p i = true then f i else 0) = ∑ s : {i // p i = true}, f s.1 := by
  rw [← Finset.sum_filter]
  exact Finset.sum_subtype _ (fun i => by simp) f

theorem quad_mask (p : Fin 15 → Bool) (R : Mat15) (v : State) :
    v ⬝ᵥ (Matrix.of fun i j => if p i && p j then R i j else 0) *ᵥ v =
      (fun s : {i // p i = true} => v s.1) ⬝ᵥ
        (R.submatrix (fun i : {i // p i = true} => i.1) (fun i => i.1)) *ᵥ (fun s : {i // p i = true} => v s.1) := by
  simp only [dotProduct, mulVec, of_apply, submatrix_apply]
  rw [← sum_selected p (fun i => v i * ∑ s : {i // p i = true}, R i s.1 * v s.1)]
  refine Finset.sum_congr rfl fun i _ => ?_
  by_cases hi : p i = true
  · rw [if_pos hi, ← sum_selected p (fun j => R i j * v j)]
    congr 1
    refine Finset.sum_congr rfl fun j _ => ?_
    by_cases hj : p j = true <;> simp [hi, hj]
  · rw [if_neg hi]
    simp [hi]

/-- Initialising on top of an uncorrelated covariance. -/
theorem initCov_posDef {m : Payload} (h : m.Definite) {P : Mat15} (hP : ∀ i, 0 < P i i) (hd : ∀ i j, i ≠ j → P i j = 0) :
    (initCov m P).PosDef := by
  have hpsd : (initCov m P).PosSemidef := initCov_psd h.posSemidef (fun i => (hP i).le) hd
  refine PosDef.of_dotProduct_mulVec_pos hpsd.isHermitian fun v hv => ?_
  have e : initCov m P = (Matrix.of fun i j => if m.upd i && m.upd j then m.R i j else 0) +
      diagonal (fun i => if m.upd i = true then 0 else P i i) := by
    ext i j
    simp only [initCov, of_apply, Matrix.add_apply, diagonal_apply]
    by_cases hij : i = j
    · subst hij
      by_cases hi : m.upd i = true <;> simp [hi]
    · by_cases hi : m.upd i = true <;> by_cases hj : m.upd j = true <;> simp [hi, hj, hij, hd i j hij]
  rw [star_trivial, e, add_mulVec, dotProduct_add, quad_mask]
  have hD : v ⬝ᵥ diagonal (fun i => if m.upd i = true then 0 else P i i) *ᵥ v =
      ∑ i, (if m.upd i = true then 0 else P i i * (v i * v i)) := by
    simp only [dotProduct, mulVec_diagonal]
    refine Finset.sum_congr rfl fun i _ => ?_
    split <;> ring
  rw [hD]
  have hnn : ∀ i ∈ Finset.univ, 0 ≤ (if m.upd i = true then 0 else P i i * (v i * v i)) := by
    intro i _
    split
    · exact le_rfl
    · exact mul_nonneg (hP i).le (mul_self_nonneg _)
  by_cases hs : (fun s : {i // m.upd i = true} => v s.1) = 0
  · obtain ⟨i, hi⟩ := Function.ne_iff.mp hv
    have hu : m.upd i ≠ true := fun hu => hi (congrFun hs ⟨i, hu⟩)
    rw [hs, zero_dotProduct, zero_add]
    refine Finset.sum_pos' hnn ⟨i, Finset.mem_univ _, ?_⟩
    rw [if_neg hu]
    exact mul_pos (hP i) (mul_self_pos.mpr hi)
  · have := PosDef.dotProduct_mulVec_pos h hs
    rw [star_trivial] at this
    exact add_pos_of_pos_of_nonneg this (Finset.sum_nonneg hnn)

/-! ## The node of the extended filter -/

/-- A finite estimate leaves every combination of variables unsure. -/
def UnsureOk (x : Option State) (P : Mat15) : Prop := x ≠ none → Unsure P

/-- An uncorrelated covariance with positive variances. -/
def Apart (P : Mat15) : Prop := (∀ i, 0 < P i i) ∧ ∀ i j, i ≠ j → P i j = 0

theorem unsure_predict {p : FilterPar} {Q : Mat15} (hQ : Q.PosDef) (hd : p.dynamic = false) (ctl : Fin 6 → ℝ)
    (ctlTime ref delta : Int) (x : Option State) (P : Mat15) (u : Unit) (hdt : 0 ≤ delta) (h : UnsureOk x P) :
    UnsureOk ((ekfCore p).predict Q ctl ctlTime ref delta (x, P, u)).1
      ((ekfCore p).predict Q ctl ctlTime ref delta (x, P, u)).2.1 := by
  cases x with
  | none => intro h'; exact absurd rfl h'
  | some x =>
    have hP := unsure_iff.1 (h (by simp))
    cases hr : Ekf.predict p Q ctl ctlTime ref (toSec delta) x P with
    | none =>
      have e : ((ekfCore p).predict Q ctl ctlTime ref delta (some x, P, u)).1 = none := by simp [ekfCore, hr]
      intro h'; exact absurd e h'
    | some r =>
      intro _
      have e : ((ekfCore p).predict Q ctl ctlTime ref delta (some x, P, u)).2.1 = r.2 := by simp [ekfCore, hr]
      rw [e]
      exact unsure_iff.2 (predict_posDef hQ hd (toSec_nonneg hdt) hP hr)

theorem unsure_correct {p : FilterPar} (m : Payload) (hm : m.Proper) (x : Option State) (P : Mat15) (u : Unit)
    (h : UnsureOk x P) :
    UnsureOk ((ekfCore p).correct m (x, P, u)).1 ((ekfCore p).correct m (x, P, u)).2.1 := by
  cases x with
  | none => intro h'; exact absurd rfl h'
  | some x =>
    have hP := unsure_iff.1 (h (by simp))
    cases hr : Ekf.correct m x P with
    | none =>
      have e : ((ekfCore p).correct m (some x, P, u)).1 = none := by simp [ekfCore, hr]
      intro h'; exact absurd e h'
    | some r =>
      intro _
      have e : ((ekfCore p).correct m (some x, P, u)).2.1 = r.2 := by simp [ekfCore, hr]
      rw [e]
      exact unsure_iff.2 (correctAt_posDef hP hm.used hr)

/-- C114, partial: a node with an extended filter, whatever happens to it under a clock that does not go back, never
publishes a finite estimate in which a combination of variables has no variance: neither certain nor negatively uncertain.
Assumed: the process noise leaves nothing certain, the initial covariance is uncorrelated with positive variances and kept
for `reset`, messages leave nothing certain of what they measure, and so does `set_pose`.
Missing: `dynamic_process_noise_covariance` (no noise at standstill), parameters that are not set
(`C114_unset_reset`), measurements without errors (`C114_first_measurement`), the unscented filter
(`C114_ukf_partial`). -/
theorem C114_published_partial (p : FilterPar) (hd : p.dynamic = false) {P : MQueue (ekfCore p)} (cfg : Cfg (ekfCore p))
    (hQ : Unsure cfg.processNoise) (h0 : Apart cfg.initialCov) (hkn : cfg.keptNoise = cfg.processNoise)
    (hkc : cfg.keptCov = cfg.initialCov) (fctl0 : Fin 6 → ℝ) (k : Int) (hk : 0 ≤ k)
    (es : List (Node.Event (ekfCore p))) (hc : Clocked k es)
    (hes : Along cfg (Node.Ok UnsureOk (fun _ P => Apart P) Payload.Definite (fun _ => True))
      (Node.start cfg P () fctl0 k) es) :
    ∀ s x cov, Out.odom s x cov ∈ ((Node.start cfg P () fctl0 k).run cfg es).2 → UnsureOk x cov := by
  have hE : EstInv cfg UnsureOk (fun _ P => Apart P) Payload.Definite (fun _ => True) :=
    { predict := by
        intro par hpar ctl ct ref delta x cov ext h1 _ h2
        have : par = cfg.processNoise := hpar.elim id fun h => h.trans hkn
        rw [this]
        exact unsure_predict (unsure_iff.1 hQ) hd ctl ct ref delta x cov ext h1 h2
      correct := fun z x cov ext hz h => unsure_correct z hz.proper x cov ext h
      init := fun z x cov hz h _ => unsure_iff.2 (initCov_posDef hz h.1 h.2)
      start := h0
      reset := by rw [hkc]; exact h0
      ctl0 := trivial }
  exact (NInv.run hE es (NInv.start hE P () trivial k) (HInv.start cfg P () fctl0 k) hk hc hes).2

/-! ## The unscented filter -/

/-- A step of the unscented filter that goes well: a prediction forward in time, whose sigma points spread (always, when
the central weight is not negative), or a correction with proper errors in which no angle is confused. -/
inductive UkfWell (p : FilterPar) (llt : Llt) (k : UkfConst) (Q : Mat15) :
    State × Mat15 × UkfMem → State × Mat15 × UkfMem → Prop
  | predict (ctl ct ref dt x P mem x' P' mem') (hdt : 0 < dt)
      (hs : 0 ≤ k.c (.inl ()) ∨ (P' - dt • noiseQ p Q x').PosSemidef)
      (h : Ukf.predict p llt k Q ctl ct ref dt x P = some (x', P', mem')) : UkfWell p llt k Q (x, P, mem) (x', P', mem')
  | correct (m : Payload) (x P) (mem : UkfMem) (x' P' mem') (hm : m.Proper)
      (hu : mem.uncorrected = true → ∀ s, stateDiff m.indices.get (mem.pts s - x) = wrapDiff (mem.pts s - x))
      (hf : mem.uncorrected = false → Calm m.indices.get k x P)
      (h : Ukf.correct llt k m x P mem = some (x', P', mem')) : UkfWell p llt k Q (x, P, mem) (x', P', mem')

/-- What holds of the filter after its first prediction. -/
def UkfUnsure (p : FilterPar) (llt : Llt) (k : UkfConst) (Q : Mat15) (s : State × Mat15 × UkfMem) : Prop :=
  s.2.1.PosDef ∧ (s.2.2.uncorrected = true → ∃ ctl ct ref dt x P, 0 < dt ∧ (s.2.1 - dt • noiseQ p Q s.1).PosSemidef ∧
    Ukf.predict p llt k Q ctl ct ref dt x P = some s)

theorem UkfWell.predicted {p : FilterPar} {llt : Llt} {alpha kappa beta : ℝ} {k : UkfConst}
    (hk : setConstants alpha kappa beta = some k) (hpos : 0 < 15 + k.lam) {Q : Mat15} (hQ : Q.PosDef) (hd : p.dynamic = false)
    {ctl ct ref dt x P x' P' mem'} (hdt : 0 < dt) (hs : 0 ≤ k.c (.inl ()) ∨ (P' - dt • noiseQ p Q x').PosSemidef)
    (h : Ukf.predict p llt k Q ctl ct ref dt x P = some (x', P', mem')) : UkfUnsure p llt k Q (x', P', mem') := by
  have hN : noiseQ p Q x' = Q := by rw [noiseQ, hd]; rfl
  have hs' : (P' - dt • noiseQ p Q x').PosSemidef := by
    rcases hs with h0 | h0
    · rw [hN]
      unfold Ukf.predict at h
      dsimp only at h
      split at h
      · cases h
      · simp only [Option.some.injEq, Prod.mk.injEq] at h
        rw [← h.2.1]
        have : ∀ y, noiseQ p Q y = Q := fun y => by rw [noiseQ, hd]; rfl
        rw [this, add_sub_cancel_right]
        exact C17_propagated_covariance hk hpos h0 _ _
    · exact h0
  refine ⟨?_, fun _ => ⟨ctl, ct, ref, dt, x, P, hdt, hs', h⟩⟩
  rw [hN] at hs'
  exact posDef_of_sub (hQ.smul hdt) hs'

theorem UkfWell.keeps {p : FilterPar} {llt : Llt} {alpha kappa beta : ℝ} {k : UkfConst}
    (hk : setConstants alpha kappa beta = some k) (hpos : 0 < 15 + k.lam) {Q : Mat15} (hQ : Q.PosDef) (hd : p.dynamic = false)
    {a b} (h : UkfWell p llt k Q a b) (ha : UkfUnsure p llt k Q a) : UkfUnsure p llt k Q b := by
  cases h with
  | predict ctl ct ref dt x P mem x' P' mem' hdt hs h => exact UkfWell.predicted hk hpos hQ hd hdt hs h
  | correct m x P mem x' P' mem' hm hu hf h =>
    obtain ⟨hP, hmem⟩ := ha
    dsimp only at hP hmem
    unfold Ukf.correct UkfMem.refresh at h
    dsimp only at h
    rw [Option.map_eq_some_iff] at h
    obtain ⟨⟨y, Py, b⟩, h1, h2⟩ := h
    simp only [Prod.mk.injEq] at h2
    obtain ⟨rfl, rfl, rfl⟩ := h2
    cases hun : mem.uncorrected with
    | true =>
      obtain ⟨ctl, ct, ref, dt, x0, P0, hdt, hs, hpr⟩ := hmem hun
      rw [hun, if_pos rfl] at h1
      cases b with
      | true =>
        have hN : noiseQ p Q x = Q := by rw [noiseQ, hd]; rfl
        have := C17_after_prediction_partial llt m.indices.get p Q ctl ct ref dt x0 P0 x P mem hpr (hu hun) hdt.le
          (by rw [hN]; exact hQ.posSemidef) hs _ m.R hm.good.sub _ _ _ h1
        dsimp only at this
        rw [hN] at this
        refine ⟨posDef_of_sub (hQ.smul hdt) this.2.2.2.1, ?_⟩
        intro h
        simp at h
      | false =>
        have : y = x ∧ Py = P := by
          unfold ukfCorrectAt at h1
          dsimp only at h1
          split at h1
          · cases h1
          · split at h1
            · simp at h1
            · simp only [Option.some.injEq, Prod.mk.injEq] at h1
              exact ⟨h1.1.symm, h1.2.1.symm⟩
        obtain ⟨rfl, rfl⟩ := this
        refine ⟨hP, fun _ => ⟨ctl, ct, ref, dt, x0, P0, hdt, hs, ?_⟩⟩
        rw [hpr]
        simp only [Option.some.injEq, Prod.mk.injEq, true_and]
        cases mem
        simp_all
    | false =>
      rw [hun] at h1
      simp only [Bool.false_eq_true, if_false] at h1
      refine ⟨?_, fun h => by simp at h⟩
      obtain ⟨-, -, Pk, h3, h4⟩ := C17_covariance_partial llt x P m.indices.get hk hpos hP (hf hun) _ m.R hm.good.sub _
        _ _ _ h1
      exact posDef_of_sub (correctAt_posDef hP hm.used h3) h4

theorem UkfWell.run {p : FilterPar} {llt : Llt} {alpha kappa beta : ℝ} {k : UkfConst}
    (hk : setConstants alpha kappa beta = some k) (hpos : 0 < 15 + k.lam) {Q : Mat15} (hQ : Q.PosDef) (hd : p.dynamic = false)
    {a b} (h : Relation.ReflTransGen (UkfWell p llt k Q) a b) (ha : UkfUnsure p llt k Q a) : UkfUnsure p llt k Q b := by
  induction h with
  | refl => exact ha
  | tail _ h ih => exact UkfWell.keeps hk hpos hQ hd h ih

/-- C114, partial: once the unscented filter has predicted forward in time, no combination of variables is taken to be known
exactly, or to have a negative variance, however it goes on predicting and correcting, while the steps go well
(`UkfWell`).
Missing: central weights below zero, as with the default parameters, unless the sigma points still spread
(`C100_negative_variance`); angles that are confused (`C101_position_turns_robot`). -/
theorem C114_ukf_partial {p : FilterPar} {llt : Llt} {alpha kappa beta : ℝ} {k : UkfConst}
    (hk : setConstants alpha kappa beta = some k) (hpos : 0 < 15 + k.lam) {Q : Mat15} (hQ : Unsure Q) (hd : p.dynamic = false)
    {ctl : Fin 6 → ℝ} {ct ref : Int} {dt : ℝ} {x0 : State} {P0 : Mat15} {s1 s : State × Mat15 × UkfMem} (hdt : 0 < dt)
    (hs : 0 ≤ k.c (.inl ()) ∨ (s1.2.1 - dt • Q).PosSemidef)
    (h1 : Ukf.predict p llt k Q ctl ct ref dt x0 P0 = some s1)
    (hrun : Relation.ReflTransGen (UkfWell p llt k Q) s1 s) : Unsure s.2.1 := by
  have hN : noiseQ p Q s1.1 = Q := by rw [noiseQ, hd]; rfl
  have h0 : UkfUnsure p llt k Q s1 :=
    UkfWell.predicted hk hpos (unsure_iff.1 hQ) hd hdt (by rw [hN]; exact hs) h1
  exact unsure_iff.2 (UkfWell.run hk hpos (unsure_iff.1 hQ) hd hrun h0).1

/-- C114, partial (as above): on the way, a correction never fails. -/
theorem C114_ukf_corrects_partial {p : FilterPar} {llt : Llt} {alpha kappa beta : ℝ} {k : UkfConst}
    (hk : setConstants alpha kappa beta = some k) (hpos : 0 < 15 + k.lam) {Q : Mat15} (hQ : Unsure Q) (hd : p.dynamic = false)
    {ctl : Fin 6 → ℝ} {ct ref : Int} {dt : ℝ} {x0 : State} {P0 : Mat15} {s1 : State × Mat15 × UkfMem} {x : State} {P : Mat15}
    {mem : UkfMem} (hdt : 0 < dt) (hs : 0 ≤ k.c (.inl ()) ∨ (s1.2.1 - dt • Q).PosSemidef)
    (h1 : Ukf.predict p llt k Q ctl ct ref dt x0 P0 = some s1)
    (hrun : Relation.ReflTransGen (UkfWell p llt k Q) s1 (x, P, mem)) (m : Payload) (hm : m.Proper)
    (hf : mem.uncorrected = false → Calm m.indices.get k x P) :
    ∃ s', Ukf.correct llt k m x P mem = some s' := by
  have hN : ∀ y, noiseQ p Q y = Q := fun y => by rw [noiseQ, hd]; rfl
  have h0 : UkfUnsure p llt k Q s1 :=
    UkfWell.predicted hk hpos (unsure_iff.1 hQ) hd hdt (by rw [hN]; exact hs) h1
  have hU : UkfUnsure p llt k Q (x, P, mem) := UkfWell.run hk hpos (unsure_iff.1 hQ) hd hrun h0
  have key : (measCovar m.indices.get k (mem.refresh llt k x P)).PosSemidef := by
    unfold UkfMem.refresh
    cases hun : mem.uncorrected with
    | true =>
      obtain ⟨ctl, ct, ref, dt, y0, R0, hdt, hsp, hpr⟩ := hU.2 hun
      rw [if_pos rfl, (measCovar_predicted _ _).2]
      unfold Ukf.predict at hpr
      dsimp only at hpr
      split at hpr
      · cases hpr
      · simp only [Option.some.injEq, Prod.mk.injEq] at hpr
        obtain ⟨-, h2, h3⟩ := hpr
        rw [← h3]
        rw [← h2, hN, hN, add_sub_cancel_right] at hsp
        exact hsp.submatrix _
    | false =>
      simp only [Bool.false_eq_true, if_false]
      rw [measCovar_fresh llt hk hpos x P hU.1 _ (hf hun)]
      exact hU.1.posSemidef.submatrix _
  have hdet : (measCovar m.indices.get k (mem.refresh llt k x P) + subR m.indices.get m.R).det ≠ 0 :=
    (PosDef.posSemidef_add key hm.used).det_pos.ne'
  unfold Ukf.correct ukfCorrectAt
  dsimp only
  rw [if_neg hdet]
  split <;> exact ⟨_, rfl⟩

/-! ## Where it fails -/

/-- C114, refuted for messages that claim to be exact: the first message is taken at its word (a later one is not: its
variances are raised to 1e-9, C14), and the variable is then known exactly. -/
theorem C114_first_measurement {p : FilterPar} (f : Filt (ekfCore p)) (hf : f.initialized = false) (m : Meas (ekfCore p))
    (i : Fin 15) (hi : Payload.upd m.z i = true) (h0 : Payload.R m.z i i = 0) : ¬ Unsure (f.processMeasurement m).cov := by
  intro h
  have := (unsure_iff.1 h).diag_pos (i := i)
  have e : (f.processMeasurement m).cov = initCov m.z f.cov := by simp [Filt.processMeasurement, hf, ekfCore]
  have e2 : initCov m.z f.cov i i = Payload.R m.z i i := by simp [initCov, hi]
  rw [e, e2, h0] at this
  exact lt_irrefl _ this

/-- C114, refuted after a reset when `initial_estimate_covariance` is not set: what the first message does not measure is
known exactly. -/
theorem C114_unset_reset {p : FilterPar} {P : MQueue (ekfCore p)} (cfg : Cfg (ekfCore p)) (hC : cfg.keptCov = (0 : Mat15))
    (n : Node (ekfCore p) P) (m : Meas (ekfCore p)) (i : Fin 15) (hi : Payload.upd m.z i = false) :
    ¬ Unsure ((n.reset cfg).filt.processMeasurement m).cov := by
  intro h
  have := (unsure_iff.1 h).diag_pos (i := i)
  have e : ((n.reset cfg).filt.processMeasurement m).cov = initCov m.z cfg.keptCov := rfl
  have e2 : initCov m.z cfg.keptCov i i = 0 := by rw [hC]; simp [initCov, hi]
  rw [e, e2] at this
  exact lt_irrefl _ this

/-! ## Concrete instances -/

theorem demoZ_definite (u : Fin 15 → Bool) (z : Fin 15 → Dbl) : (demoZ u z).Definite :=
  posDef_submatrix_inj PosDef.one _ Subtype.val_injective

theorem apart_smul {c : ℝ} (hc : 0 < c) : Apart (c • (1 : Mat15)) :=
  ⟨fun i => by simpa using hc, fun i j hij => by simp [hij]⟩

theorem defaultQ_posDef : defaultQ.PosDef := by
  unfold defaultQ
  refine PosDef.diagonal fun i => ?_
  fin_cases i <;> norm_num

/-- A run with late data, `set_pose` and `reset`. -/
example :
    let z : Payload := demoZ (fun i => decide (i = 0)) (fun _ => .fin 3)
    let es : List (Node.Event (ekfCore demoPar)) :=
      [.control (fun c => if c = 0 then (1 : ℝ) else 0) 5, .sensor "a" 10 (some z), .tick 11 11 true,
       .sensor "b" 8 (some z), .tick 12 12 true, .setPose 13 13 none, .tick 500 500 true, .reset, .tick 501 501 true]
    Clocked 0 es ∧ Unsure (demoCfg demoPar).processNoise ∧ Apart (demoCfg demoPar).initialCov ∧
    Along (demoCfg demoPar) (Node.Ok UnsureOk (fun _ P => Apart P) Payload.Definite (fun _ => True)) (demoNode demoPar) es := by
  have hz := demoZ_definite (fun i => decide (i = 0)) (fun _ => .fin 3)
  refine ⟨by simp [Clocked], unsure_iff.2 defaultQ_posDef, apart_smul (by norm_num), ?_⟩
  have hp : Apart ((1e-6 : ℝ) • (1 : Mat15)) := apart_smul (by norm_num)
  have hq : UnsureOk (some 0) ((1e-6 : ℝ) • (1 : Mat15)) := fun _ => unsure_iff.2 (PosDef.one.smul (by norm_num))
  exact ⟨trivial, hz, trivial, hz, trivial, ⟨hq, fun _ => hp⟩, trivial, trivial, trivial, trivial⟩

/-- A prediction of the unscented filter, with central weight not negative, and a correction by a whole pose. -/
example (llt : Llt) : ∃ k s1 s2, setConstants 1 0 2 = some k ∧ 0 < 15 + k.lam ∧ 0 ≤ k.c (.inl ()) ∧
    Ukf.predict plainPar llt k 1 0 0 0 1 0 ((0.01 : ℝ) • (1 : Mat15)) = some s1 ∧
    UkfWell plainPar llt k 1 s1 s2 := by
  obtain ⟨k, hk⟩ := Option.isSome_iff_exists.1 ((C16_constants_defined 1 0 2).2 ⟨by norm_num, by norm_num⟩)
  obtain ⟨-, h1, -, -, -, h2⟩ := setConstants_spec hk
  have hl : k.lam = 0 := by linarith
  have hpos : 0 < 15 + k.lam := by rw [hl]; norm_num
  have hc0 : 0 ≤ k.c (.inl ()) := by rw [h2, hl]; norm_num
  have hL : llt.L ((15 + k.lam) • (0.01 : ℝ) • (1 : Mat15)) = diagonal (fun _ => sqrt 0.15) := by
    have : (15 + k.lam) • (0.01 : ℝ) • (1 : Mat15) = diagonal (fun _ => 0.15) := by
      ext i j
      by_cases hij : i = j
      · subst hij; rw [hl]; simp; norm_num
      · simp [hij]
    rw [this, llt_diagonal _ _ (fun i => by norm_num)]
  have hs : sqrt 0.15 < 1 := by rw [sqrt_lt' one_pos]; norm_num
  have hs' := sqrt_nonneg 0.15
  have hpi := pi_gt_three
  have hcos : ¬ ∃ s, cos (sigmaPoints llt k 0 ((0.01 : ℝ) • (1 : Mat15)) s iPitch) = 0 := by
    rintro ⟨s, h⟩
    have hb : |sigmaPoints llt k 0 ((0.01 : ℝ) • (1 : Mat15)) s iPitch| ≤ sqrt 0.15 := by
      rcases s with u | i | i
      · simp [sigmaPoints, hs']
      · simp only [sigmaPoints, hL, Sum.elim_inr, Sum.elim_inl, zero_add]
        by_cases hi : iPitch = i
        · rw [← hi]; simp [abs_of_nonneg hs']
        · simp [diagonal_apply_ne _ hi, hs']
      · simp only [sigmaPoints, hL, Sum.elim_inr, zero_sub]
        by_cases hi : iPitch = i
        · rw [← hi]; simp [abs_of_nonneg hs']
        · simp [diagonal_apply_ne _ hi, hs']
    have := abs_le.1 hb
    exact (cos_pos_of_mem_Ioo ⟨by linarith, by linarith⟩).ne' h
  obtain ⟨s1, hs1⟩ : ∃ s1, Ukf.predict plainPar llt k 1 0 0 0 1 0 ((0.01 : ℝ) • (1 : Mat15)) = some s1 := ⟨_, if_neg hcos⟩
  have hmem : s1.2.2.uncorrected = true := by
    unfold Ukf.predict at hs1
    dsimp only at hs1
    rw [if_neg hcos] at hs1
    rw [← Option.some.inj hs1]
  obtain ⟨x1, P1, mem⟩ := s1
  have hm := (demoZ_definite (fun i => decide (i.val < 6)) (fun _ => .fin 1)).proper
  have hQ : Unsure (1 : Mat15) := unsure_iff.2 PosDef.one
  obtain ⟨m, hmd⟩ : ∃ m, m = demoZ (fun i => decide (i.val < 6)) (fun _ => .fin 1) := ⟨_, rfl⟩
  rw [← hmd] at hm
  obtain ⟨s2, hs2⟩ := C114_ukf_corrects_partial (Q := 1) hk hpos hQ rfl one_pos (Or.inl hc0) hs1 Relation.ReflTransGen.refl m hm
    (fun h => by rw [hmem] at h; cases h)
  obtain ⟨x2, P2, mem2⟩ := s2
  refine ⟨k, _, (x2, P2, mem2), hk, hpos, hc0, hs1, UkfWell.correct m x1 P1 mem x2 P2 mem2 hm (fun _ s => ?_)
    (fun h => by rw [hmem] at h; cases h) hs2⟩
  · have hi : m.indices = [0, 1, 2, 3, 4, 5] := by rw [hmd]; decide
    have h5 : ∀ (r : Fin 15) (h : r.val < ([0, 1, 2, 3, 4, 5] : List (Fin 15)).length), ([0, 1, 2, 3, 4, 5] : List (Fin 15)).get ⟨r.val, h⟩ = r := by decide
    have h6 : ∀ r : Fin 15, ¬ r.val < ([0, 1, 2, 3, 4, 5] : List (Fin 15)).length → ¬ angularIdx r := by
      intro r h ha
      rcases ha with rfl | rfl | rfl <;> exact h (by decide)
    funext r
    unfold stateDiff wrapDiff
    rw [hi]
    by_cases hr : r.val < ([0, 1, 2, 3, 4, 5] : List (Fin 15)).length
    · rw [dif_pos hr, h5 r hr]
    · rw [dif_neg hr, if_neg (h6 r hr)]

end RL
