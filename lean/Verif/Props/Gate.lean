import Verif.Props.Covers
import Mathlib.Data.Matrix.ColumnRowPartitioned
/-! # C122: honest messages pass the gate -/

namespace RL
open Matrix Real

variable {n : ℕ} {p : FilterPar}

/-- The squared Mahalanobis distance of a message from an estimate. -/
noncomputable def Payload.distSq (m : Payload) (x : State) (P : Mat15) : ℝ :=
  mahalanobisSq m.indices.get (fun i => (m.z i).val) m.R x P

/-- The same message without a rejection threshold. -/
def Payload.ungated (m : Payload) : Payload := { m with thresh := .unlimited }

/-- The message is not rejected. -/
def Payload.Passes (m : Payload) (x : State) (P : Mat15) : Prop :=
  ∀ θ, m.thresh = .sigmas θ → m.distSq x P < θ * θ

/-! ## One correction -/

/-- What a bound on a sum says about its parts. -/
theorem split_bound {a B c d : ℝ} (hB : 0 ≤ B) (hd : 0 ≤ d) (h : ∀ t : ℝ, (a + t * d) ^ 2 ≤ c * (B + t ^ 2 * d)) (hdc : d ≤ c) :
    a ^ 2 ≤ (c - d) * B := by
  rcases hd.eq_or_lt with rfl | hd
  · have := h 0
    simpa using this
  rcases hdc.eq_or_lt with rfl | hlt
  · by_cases ha : a = 0
    · simp [ha]
    · exfalso
      have h2 := h (d * B / (2 * a * d))
      have e : 2 * a * (d * B / (2 * a * d)) * d = d * B := by field_simp
      have ha2 : 0 < a ^ 2 := by positivity
      nlinarith
  · have hs : 0 < c - d := by linarith
    have h1 := h (a / (c - d))
    have e1 : (a + a / (c - d) * d) ^ 2 = a ^ 2 * c ^ 2 / (c - d) ^ 2 := by field_simp; ring
    have e2 : c * (B + (a / (c - d)) ^ 2 * d) = (c * B * (c - d) ^ 2 + c * a ^ 2 * d) / (c - d) ^ 2 := by field_simp
    rw [e1, e2, div_le_div_iff_of_pos_right (by positivity)] at h1
    have hc : 0 < c := by linarith
    have h2 : (c * (c - d)) * a ^ 2 ≤ (c * (c - d)) * ((c - d) * B) := by nlinarith
    exact le_of_mul_le_mul_left h2 (by positivity)

/-- The error after a correction and the innovation, seen together, are uncorrelated: their joint covariance is block
diagonal, and it covers both. -/
theorem covers_joint {e : Fin n → Fin 15} {R P : Mat15} (hP : P.PosSemidef) (hR : (R.submatrix e e).PosSemidef)
    {err : State} {v : Fin n → ℝ} {k l : ℝ} (hk : 0 ≤ k) (hl : 0 ≤ l) (h : Covers P err k)
    (hv : Covers (R.submatrix e e) v l) (hS : (innovCov e R P).det ≠ 0) :
    Covers (fromBlocks (joseph e R (gain e R P) P) 0 0 (innovCov e R P))
      (Sum.elim (err + (gain e R P).mulVec (v - fun a => err (e a))) (v - fun a => err (e a))) (k + l) := by
  obtain ⟨K, hK⟩ : ∃ K, K = gain e R P := ⟨_, rfl⟩
  obtain ⟨H, hH⟩ : ∃ H, H = subH e := ⟨_, rfl⟩
  obtain ⟨S, hSe⟩ : ∃ S, S = innovCov e R P := ⟨_, rfl⟩
  obtain ⟨W, hW⟩ : ∃ W, W = subR e R := ⟨_, rfl⟩
  have hRs := subR_psd hR
  have hv' : Covers (subR e R) v l := hv.mono hR (by
    rw [subR_eq, add_sub_cancel_left]
    exact PosSemidef.diagonal fun i => sub_nonneg.2 (sanitize_ge (R (e i) (e i)))) hl le_rfl
  have hsum := Covers.add (psd_congr hP (fromRows (1 - K * H) (-H))) (psd_congr hRs (fromRows K 1)) hk hl
    (h.map (fromRows (1 - K * H) (-H))) (hv'.map (fromRows K 1))
  rw [← hK, ← hSe]
  have hKS : K * S = P * Hᵀ := by
    rw [hK, hH]
    unfold gain
    rw [Matrix.mul_assoc, hSe, nonsing_inv_mul _ (isUnit_iff_ne_zero.2 hS), Matrix.mul_one]
  have hSdef : S = H * (P * Hᵀ) + W := by rw [hSe, hH, hW]; rfl
  have hPt : Pᵀ = P := by simpa using hP.1.eq
  have hWt : Wᵀ = W := by rw [hW]; simpa using hRs.1.eq
  have cross : (1 - K * H) * P * (-H)ᵀ + K * W * 1ᵀ = 0 := by
    rw [transpose_neg, transpose_one, Matrix.mul_one, Matrix.mul_neg, Matrix.sub_mul, Matrix.sub_mul, Matrix.one_mul, ← hKS, hSdef,
      Matrix.mul_add, Matrix.mul_assoc, Matrix.mul_assoc]
    abel
  have e1 : fromRows (1 - K * H) (-H) * P * (fromRows (1 - K * H) (-H))ᵀ + fromRows K 1 * subR e R * (fromRows K 1)ᵀ =
      fromBlocks (joseph e R K P) 0 0 S := by
    rw [transpose_fromRows, transpose_fromRows, fromRows_mul _ _ P, fromRows_mul _ _ (subR e R), fromRows_mul_fromCols,
      fromRows_mul_fromCols, fromBlocks_add, ← hW]
    congr 1
    · unfold joseph
      rw [← hH, ← hW]
    · have := congrArg Matrix.transpose cross
      rw [transpose_zero] at this
      rw [← this]
      simp only [transpose_add, transpose_mul, transpose_transpose, hPt, hWt, Matrix.mul_assoc]
    · rw [hSdef]
      simp only [transpose_neg, Matrix.mul_neg, Matrix.neg_mul, neg_neg, Matrix.one_mul, transpose_one, Matrix.mul_one, Matrix.mul_assoc]
  have e2 : (fromRows (1 - K * H) (-H)).mulVec err + (fromRows K 1).mulVec v =
      Sum.elim (err + K.mulVec (v - fun a => err (e a))) (v - fun a => err (e a)) := by
    have hh : (fun a => err (e a)) = H.mulVec err := by
      funext a
      simp [hH, subH, mulVec, dotProduct]
    rw [hh, fromRows_mulVec, fromRows_mulVec]
    funext s
    cases s with
    | inl i =>
      simp only [Pi.add_apply, Sum.elim_inl, mulVec_sub, sub_mulVec, one_mulVec, ← mulVec_mulVec, Pi.sub_apply]
      ring
    | inr i =>
      simp only [Pi.add_apply, Sum.elim_inr, one_mulVec, neg_mulVec, Pi.neg_apply, Pi.sub_apply]
      ring
  rw [e1, e2] at hsum
  exact hsum

/-- The distance is within what the estimate and the message state, and what is spent on it is no longer needed to cover
the error afterwards. -/
theorem joint_split {P' : Mat15} {S : Matrix (Fin n) (Fin n) ℝ} (hP' : P'.PosSemidef) (hS : S.PosSemidef) (hdet : S.det ≠ 0)
    {err' : State} {y : Fin n → ℝ} {c : ℝ} (hc : 0 ≤ c) (h : Covers (fromBlocks P' 0 0 S) (Sum.elim err' y) c) :
    0 ≤ y ⬝ᵥ S⁻¹.mulVec y ∧ y ⬝ᵥ S⁻¹.mulVec y ≤ c ∧ Covers P' err' (c - y ⬝ᵥ S⁻¹.mulVec y) := by
  obtain ⟨d, hd⟩ : ∃ d, d = y ⬝ᵥ S⁻¹.mulVec y := ⟨_, rfl⟩
  have hq : ∀ t : ℝ, (t • S⁻¹.mulVec y) ⬝ᵥ S.mulVec (t • S⁻¹.mulVec y) = t ^ 2 * d := by
    intro t
    rw [mulVec_smul, mulVec_mulVec, mul_nonsing_inv _ (isUnit_iff_ne_zero.2 hdet), one_mulVec, smul_dotProduct, dotProduct_smul,
      dotProduct_comm, ← hd, smul_eq_mul, smul_eq_mul]
    ring
  have key : ∀ (u : State) (t : ℝ), (u ⬝ᵥ err' + t * d) ^ 2 ≤ c * (u ⬝ᵥ P'.mulVec u + t ^ 2 * d) := by
    intro u t
    have := h (Sum.elim u (t • S⁻¹.mulVec y))
    rw [fromBlocks_mulVec, sumElim_dotProduct_sumElim, sumElim_dotProduct_sumElim] at this
    simp only [Sum.elim_comp_inl, Sum.elim_comp_inr, zero_mulVec, add_zero, zero_add] at this
    rw [hq, smul_dotProduct, dotProduct_comm (S⁻¹.mulVec y), ← hd, smul_eq_mul] at this
    exact this
  rw [← hd]
  have hd0 : 0 ≤ d := by
    have := psd_form hS ((1 : ℝ) • S⁻¹.mulVec y)
    rw [hq] at this
    linarith
  have hdc : d ≤ c := by
    have h0 := key 0 1
    simp only [zero_dotProduct, zero_add, one_mul, one_pow] at h0
    rcases hd0.eq_or_lt with h1 | h1
    · rw [← h1]; exact hc
    · nlinarith
  exact ⟨hd0, hdc, fun u => split_bound (psd_form hP' u) hd0 (key u) hdc⟩

section
variable {m : Payload} {x truth err v : State} {P : Mat15} {k l : ℝ}

/-- **C122**: a message that is off by at most `√l` of its own standard deviations, met by an estimate that is off by at
most `√k` of its own, has a squared Mahalanobis distance of at most `k + l`; and if it is used, the error that remains is
within `k + l` *minus* that squared distance. -/
theorem C122_distance (hm : m.GoodR) (hP : P.PosSemidef) (hk : 0 ≤ k) (hl : 0 ≤ l)
    (hx : UpToTurns x (truth + err)) (hc : Covers P err k) (hv : ∀ i ∈ m.indices, SameVal i (m.z i).val (truth i + v i))
    (hvc : Covers (m.R.submatrix m.indices.get m.indices.get) (fun a => v (m.indices.get a)) l)
    (hturn : ∀ i ∈ m.indices, angular i → |v i - err i| < π) :
    m.distSq x P ≤ k + l ∧ ∀ x' P', m.Passes x P → Ekf.correct m x P = some (x', P') →
      ∃ err', UpToTurns x' (truth + err') ∧ Covers P' err' (k + l - m.distSq x P) := by
  have hR := hm.sub
  have hin := honest_innovation m hx v hv hturn
  unfold Payload.distSq mahalanobisSq
  rw [← innovCov_eq]
  by_cases hS : (innovCov m.indices.get m.R P).det = 0
  · constructor
    · rw [nonsing_inv_apply_not_isUnit _ (by rw [hS]; exact not_isUnit_zero), zero_mulVec, dotProduct_zero]
      exact add_nonneg hk hl
    · intro x' P' _ h
      unfold Ekf.correct correctAt at h
      rw [if_pos hS] at h
      cases h
  have hSP : (innovCov m.indices.get m.R P).PosSemidef := by
    rw [innovCov_eq]
    exact (hP.submatrix _).add (subR_psd hR)
  have hj := covers_joint hP hR hk hl hc hvc hS
  rw [← hin] at hj
  have hP' : (joseph m.indices.get m.R (gain m.indices.get m.R P) P).PosSemidef := by
    unfold joseph
    exact (psd_congr hP _).add (psd_congr (subR_psd hR) _)
  obtain ⟨h0, h1, h2⟩ := joint_split hP' hSP hS (add_nonneg hk hl) hj
  refine ⟨h1, fun x' P' hpass h => ?_⟩
  unfold Ekf.correct correctAt at h
  rw [if_neg hS, if_pos] at h
  · simp only [Option.some.injEq, Prod.mk.injEq] at h
    rw [← h.1, ← h.2]
    refine ⟨_, ?_, h2⟩
    refine (wrap_upToTurns _).trans ?_
    rw [← add_assoc]
    intro i
    refine ⟨fun hi => ?_, fun hi => ?_⟩
    · obtain ⟨a, ha⟩ := (hx i).1 hi
      refine ⟨a, ?_⟩
      simp only [Pi.add_apply] at ha ⊢
      rw [ha]
      ring
    · have ha := (hx i).2 hi
      simp only [Pi.add_apply] at ha ⊢
      rw [ha]
  · unfold Payload.Passes Payload.distSq mahalanobisSq at hpass
    rw [← innovCov_eq] at hpass
    cases ht : m.thresh with
    | unlimited => trivial
    | sigmas θ => exact not_le.2 (hpass θ ht)

/-- A message that passes has the effect it would have without a threshold. -/
theorem passes_ungated (h : m.Passes x P) : Ekf.correct m x P = Ekf.correct m.ungated x P := by
  show correctAt _ _ _ _ _ _ = correctAt m.indices.get (fun i => (m.z i).val) m.R .unlimited x P
  unfold correctAt
  split
  · rfl
  · rw [if_pos, if_pos]
    · trivial
    · unfold Payload.Passes Payload.distSq mahalanobisSq at h
      rw [← innovCov_eq] at h
      cases ht : m.thresh with
      | unlimited => trivial
      | sigmas θ => exact not_le.2 (h θ ht)

/-- C122: so a rejection threshold above `√(k + l)` makes no difference to such a message. -/
theorem C122_passes (hm : m.GoodR) (hP : P.PosSemidef) (hk : 0 ≤ k) (hl : 0 ≤ l)
    (hx : UpToTurns x (truth + err)) (hc : Covers P err k) (hv : ∀ i ∈ m.indices, SameVal i (m.z i).val (truth i + v i))
    (hvc : Covers (m.R.submatrix m.indices.get m.indices.get) (fun a => v (m.indices.get a)) l)
    (hturn : ∀ i ∈ m.indices, angular i → |v i - err i| < π) (hθ : ∀ θ, m.thresh = .sigmas θ → k + l < θ * θ) :
    Ekf.correct m x P = Ekf.correct m.ungated x P :=
  passes_ungated fun θ ht => lt_of_le_of_lt (C122_distance hm hP hk hl hx hc hv hvc hturn).1 (hθ θ ht)

end

theorem distSq_nonneg {m : Payload} (hm : m.GoodR) {P : Mat15} (hP : P.PosSemidef) (x : State) : 0 ≤ m.distSq x P :=
  psd_form ((hP.submatrix _).add (subR_psd hm.sub)).inv _

/-! ## A sequence of measurements -/

open Classical in
/-- The squared distance of a message, if it is used. -/
noncomputable def spent (m : Payload) : Option State → Mat15 → ℝ
  | some x, P => if m.Passes x P then m.distSq x P else 0
  | none, _ => 0

theorem spent_some (m : Payload) (x : State) (P : Mat15) :
    (m.Passes x P → spent m (some x) P = m.distSq x P) ∧ (¬ m.Passes x P → spent m (some x) P = 0) :=
  ⟨fun h => if_pos h, fun h => if_neg h⟩

/-- The squared distances of the messages that are used, added up. -/
noncomputable def spentAll : Filt (ekfCore p) → List (Meas (ekfCore p)) → ℝ
  | _, [] => 0
  | f, m :: ms => spent m.z (f.ready m).x (f.ready m).cov + spentAll (f.processMeasurement m) ms

/-- The thresholds leave room for what the messages and the motion state. -/
def Roomy : ℝ → List (Meas (ekfCore p) × ℝ × ℝ) → Prop
  | _, [] => True
  | k, (m, c, l) :: ms => (∀ θ, (m.z : Payload).thresh = .sigmas θ → k + (c + l) < θ * θ) ∧ Roomy (k + (c + l)) ms

/-- The message without its threshold. -/
def Meas.ungated (m : Meas (ekfCore p)) : Meas (ekfCore p) := { m with z := Payload.ungated m.z }

/-- One correction of the core, with what is spent on it. -/
theorem spent_correct {truth : State} {k l : ℝ} (hk : 0 ≤ k) (hl : 0 ≤ l) {x : Option State} {P : Mat15} (u : Unit)
    (hP : CovOk x P) (h : Covered truth x P k) {z : Payload} (hz : z.GoodR) {v : State}
    (hv : ∀ i ∈ z.indices, SameVal i (z.z i).val (truth i + v i))
    (hvc : Covers (z.R.submatrix z.indices.get z.indices.get) (fun a => v (z.indices.get a)) l)
    (hn : x ≠ none → ∀ i ∈ z.indices, angular i → k * P i i < (π / 2) ^ 2 ∧ l * z.R i i < (π / 2) ^ 2) :
    0 ≤ spent z x P ∧ spent z x P ≤ k + l ∧
    Covered truth ((ekfCore p).correct z (x, P, u)).1 ((ekfCore p).correct z (x, P, u)).2.1 (k + l - spent z x P) ∧
    ((∀ θ, z.thresh = .sigmas θ → k + l < θ * θ) → (ekfCore p).correct z (x, P, u) = (ekfCore p).correct z.ungated (x, P, u)) := by
  cases x with
  | none => exact ⟨le_rfl, add_nonneg hk hl, (fun y hy => by cases hy), fun _ => rfl⟩
  | some x =>
    obtain ⟨err, he, hc⟩ := h x rfl
    have hPP := hP (by simp)
    have hn := hn (by simp)
    have hturn : ∀ i ∈ z.indices, angular i → |v i - err i| < π := by
      intro i hi ha
      obtain ⟨a, ha'⟩ := List.mem_iff_get.1 hi
      have hvi := hvc.var a
      simp only [submatrix_apply, ha'] at hvi
      exact quarter (lt_of_le_of_lt hvi (hn i hi ha).2) (lt_of_le_of_lt (hc.var i) (hn i hi ha).1)
    obtain ⟨h1, h2⟩ := C122_distance hz hPP hk hl he hc hv hvc hturn
    refine ⟨?_, ?_, ?_, fun hθ => ?_⟩
    · by_cases hp : z.Passes x P
      · rw [(spent_some z x P).1 hp]
        exact distSq_nonneg hz hPP x
      · rw [(spent_some z x P).2 hp]
    · by_cases hp : z.Passes x P
      · rw [(spent_some z x P).1 hp]
        exact h1
      · rw [(spent_some z x P).2 hp]
        exact add_nonneg hk hl
    · rw [core_correct]
      cases hr : Ekf.correct z x P with
      | none => intro y hy; cases hy
      | some r =>
        intro y hy
        obtain ⟨x', P'⟩ := r
        simp only [Option.some.injEq] at hy
        subst hy
        by_cases hp : z.Passes x P
        · rw [(spent_some z x P).1 hp]
          exact h2 _ _ hp hr
        · rw [(spent_some z x P).2 hp, sub_zero]
          exact C111_correction z hz hPP hk hl he hc v hv hvc hturn hr
    · rw [core_correct, core_correct, C122_passes hz hPP hk hl he hc hv hvc hturn hθ]

/-- C122 for a sequence of measurements: the squared distances of all messages that are used add up to no more than what
the first estimate, the motion and the messages state together, and what is left of it covers the error. -/
theorem C122_run {T : Int → State} (ms : List (Meas (ekfCore p) × ℝ × ℝ)) {k j : ℝ} (hj : 0 ≤ j) (hjk : j ≤ k) {f : Filt (ekfCore p)}
    (hi : f.initialized = true) (hP : CovOk f.x f.cov) (hQ : Matrix.PosSemidef (n := Fin 15) (R := ℝ) f.par)
    (hd : p.dynamic = true → NoCross f.par) (h : Covered (T f.lastTime) f.x f.cov j) (hms : HonestRun T k f ms)
    {f' : Filt (ekfCore p)} (hf' : f' = (ms.map Prod.fst).foldl Filt.processMeasurement f) :
    spentAll f (ms.map Prod.fst) ≤ j + (ms.map fun m => m.2.1 + m.2.2).sum ∧
    Covered (T f'.lastTime) f'.x f'.cov (j + (ms.map fun m => m.2.1 + m.2.2).sum - spentAll f (ms.map Prod.fst)) := by
  subst hf'
  induction ms generalizing k j f with
  | nil => simpa [spentAll] using ⟨hj, h⟩
  | cons m ms ih =>
    obtain ⟨m, c, l⟩ := m
    obtain ⟨hc, hl, hm, hms⟩ := hms
    obtain ⟨v, hv, hvc⟩ := hm.reads
    obtain ⟨e1, e2, e3, e4, e5⟩ := process_ready hi hm.order
    obtain ⟨g1, g2⟩ := covered_ready hj hjk hc hP hQ hd h hm
    obtain ⟨hs0, s1, s2, -⟩ := spent_correct (p := p) (add_nonneg hj hc) hl (f.ready m).ext g2 g1 hm.good hv hvc
      fun hx i hi' ha => by
        obtain ⟨a1, a2⟩ := hm.near i hi' ha
        have h3 : (0 : ℝ) ≤ (show Mat15 from (f.ready m).cov) i i := (g2 hx).diag_nonneg
        exact ⟨lt_of_le_of_lt (mul_le_mul_of_nonneg_right (by linarith) h3) (a1 _ rfl), a2⟩
    have hP' : CovOk (f.processMeasurement m).x (f.processMeasurement m).cov := by
      rw [e1, e2]
      exact ekfCore_correct_cov _ hm.good _ _ _ g2
    have hcov : Covered (T (f.processMeasurement m).lastTime) (f.processMeasurement m).x (f.processMeasurement m).cov
        (j + c + l - spent m.z (f.ready m).x (f.ready m).cov) := by
      rw [e1, e2, e5]
      exact s2
    obtain ⟨r1, r2⟩ := ih (j := j + c + l - spent m.z (f.ready m).x (f.ready m).cov) (by linarith) (by linarith) e4 hP' (by rw [e3]; exact hQ)
      (by rw [e3]; exact hd) hcov hms
    constructor
    · simp only [List.map_cons, List.sum_cons, spentAll]
      linarith
    · simp only [List.map_cons, List.sum_cons, spentAll, List.foldl_cons]
      convert r2 using 1
      ring

/-- C122 for a sequence of measurements and thresholds: with room for what is stated, the thresholds change nothing. -/
theorem C122_gates {T : Int → State} (ms : List (Meas (ekfCore p) × ℝ × ℝ)) {k : ℝ} (hk : 0 ≤ k) {f : Filt (ekfCore p)}
    (hi : f.initialized = true) (hP : CovOk f.x f.cov) (hQ : Matrix.PosSemidef (n := Fin 15) (R := ℝ) f.par)
    (hd : p.dynamic = true → NoCross f.par) (h : Covered (T f.lastTime) f.x f.cov k) (hms : HonestRun T k f ms)
    (hr : Roomy k ms) :
    (ms.map Prod.fst).foldl Filt.processMeasurement f = (ms.map fun m => m.1.ungated).foldl Filt.processMeasurement f := by
  induction ms generalizing k f with
  | nil => rfl
  | cons m ms ih =>
    obtain ⟨m, c, l⟩ := m
    obtain ⟨hc, hl, hm, hms⟩ := hms
    obtain ⟨hθ, hr⟩ := hr
    obtain ⟨v, hv, hvc⟩ := hm.reads
    obtain ⟨g1, g2⟩ := covered_ready hk le_rfl hc hP hQ hd h hm
    obtain ⟨-, -, -, s3⟩ := spent_correct (p := p) (add_nonneg hk hc) hl (f.ready m).ext g2 g1 hm.good hv hvc
      fun _ i hi' ha => ⟨(hm.near i hi' ha).1 _ rfl, (hm.near i hi' ha).2⟩
    have hcor := s3 (by rw [add_assoc]; exact hθ)
    have hone : f.processMeasurement m = f.processMeasurement m.ungated := by
      have ht : m.ungated.time = m.time := rfl
      unfold Filt.ready at hcor
      unfold Filt.processMeasurement
      rw [ht, if_pos hi, if_pos hi]
      by_cases hlt : f.lastTime < m.time
      · rw [if_pos hlt] at hcor
        simp only [if_pos (show m.time - f.lastTime > 0 by omega)]
        unfold Filt.correct
        have e : ∀ g : Filt (ekfCore p), g = { f.predict m.time (m.time - f.lastTime) with predicted := (f.predict m.time (m.time - f.lastTime)).x } →
            (ekfCore p).correct m.z (g.x, g.cov, g.ext) = (ekfCore p).correct m.ungated.z (g.x, g.cov, g.ext) := by
          rintro g rfl
          exact hcor
        dsimp only
        rw [e _ rfl]
      · rw [if_neg hlt] at hcor
        simp only [if_neg (show ¬ m.time - f.lastTime > 0 by omega)]
        unfold Filt.correct
        have e : (ekfCore p).correct m.z (f.x, f.cov, f.ext) = (ekfCore p).correct m.ungated.z (f.x, f.cov, f.ext) := hcor
        rw [e]
    obtain ⟨a1, a2, a3, a4⟩ := covered_process hk hc hl hi hP hQ hd h hm
    have := ih (by linarith) a4 a2 (by rw [a3]; exact hQ) (by rw [a3]; exact hd) a1 hms hr
    simp only [List.map_cons, List.foldl_cons]
    rw [← hone]
    exact this

/-! ## The bound is sharp -/

theorem covers_one (a : ℝ) : Covers (1 : Mat15) (Pi.single iX a) (a ^ 2) := by
  intro u
  rw [one_mulVec, dotProduct_single, mul_pow, mul_comm]
  refine mul_le_mul_of_nonneg_left ?_ (sq_nonneg _)
  rw [pow_two]
  exact Finset.single_le_sum (f := fun i => u i * u i) (fun i _ => mul_self_nonneg _) (Finset.mem_univ iX)

/-- C122 cannot be improved: if the estimate and the message are off by half a standard deviation, to either side, every
threshold whose square is at most `k + l` rejects the message, and nothing changes. -/
theorem C122_sharp (θ : ℝ) (hθ : θ * θ ≤ 1 / 4 + 1 / 4) : ∃ (m : Payload) (truth v : State), m.thresh = .sigmas θ ∧ m.GoodR ∧
    UpToTurns 0 (truth + Pi.single iX (-(1 / 2))) ∧ Covers (1 : Mat15) (Pi.single iX (-(1 / 2))) (1 / 4) ∧
    (∀ i ∈ m.indices, SameVal i (m.z i).val (truth i + v i)) ∧
    Covers (m.R.submatrix m.indices.get m.indices.get) (fun a => v (m.indices.get a)) (1 / 4) ∧
    Ekf.correct m 0 1 = some (0, 1) ∧ Ekf.correct m.ungated 0 1 ≠ some (0, 1) := by
  have hni : ¬ angular iX := by unfold angular; decide
  refine ⟨oneVar iX 1 (.sigmas θ), Pi.single iX (1 / 2), Pi.single iX (1 / 2), rfl, PosSemidef.one.submatrix _, ?_, ?_, ?_, ?_, ?_, ?_⟩
  · rw [← Pi.single_add, add_neg_cancel, Pi.single_zero]
    exact UpToTurns.refl _
  · have := covers_one (-(1 / 2))
    norm_num at this
    norm_num
    exact this
  · rw [oneVar_indices]
    intro i hi
    obtain rfl := List.mem_singleton.1 hi
    exact ⟨fun h => absurd h hni, fun _ => by simp [oneVar, Dbl.val]; norm_num⟩
  · have h := covers_one (1 / 2)
    show Covers ((1 : Mat15).submatrix _ _) _ _
    rw [oneVar_indices]
    intro u
    simp only [dotProduct, mulVec, List.length_cons, List.length_nil, Finset.univ_unique, Finset.sum_singleton]
    simp
    ring_nf
    exact le_refl _
  · have h0 : (1 : Mat15) iX iX + sanitize ((oneVar iX 1 (.sigmas θ)).R iX iX) = 2 := by
      show (1 : Mat15) iX iX + sanitize ((1 : Mat15) iX iX) = 2
      rw [Matrix.one_apply_eq, sanitize_one]
      norm_num
    obtain ⟨h1, h2⟩ := mahalanobis_one iX (oneVar_indices iX 1 (.sigmas θ)) hni 0 1 (by rw [h0]; norm_num)
    refine (C06_gate _ _ _ θ _ _ h2).2 ?_
    rw [h1, h0]
    simp only [oneVar, Dbl.val, Pi.zero_apply]
    norm_num at hθ ⊢
    exact hθ
  · have h := correct_one iX (oneVar_indices iX 1 .unlimited) (oneVar_certain iX 1) 0 (P := 1) PosSemidef.one
    show Ekf.correct (oneVar iX 1 .unlimited) 0 1 ≠ _
    rw [h]
    intro hc
    have := congrFun (congrArg Prod.fst (Option.some.inj hc)) iX
    dsimp only at this
    rw [wrapStateAngles, if_neg (by decide), if_neg (by decide)] at this
    simp [oneVar, Dbl.val, sanitize_one] at this

/-- The message of the example of C111, with a threshold of one standard deviation. -/
example : HonestRun (fun _ => Pi.single iX (1 / 2)) (1 / 4) unsure [(unsureRead (.sigmas 1), 0, 1 / 4)] ∧
    Roomy (1 / 4) [(unsureRead (.sigmas 1), 0, 1 / 4)] := by
  refine ⟨(unsure_honest _).2.2, fun θ h => ?_, trivial⟩
  obtain rfl := Thresh.sigmas.inj h
  norm_num

end RL
