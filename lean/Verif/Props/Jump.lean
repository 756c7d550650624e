import Verif.Props.Gate
import Verif.Props.Inflated
import Verif.Props.UkfCorrect
/-! # C131: how far a message moves the estimate -/

namespace RL
open Matrix Real

variable {n : ℕ} {p : FilterPar}

/-- A vector is within its own distance of the origin. -/
theorem covers_self {S : Matrix (Fin n) (Fin n) ℝ} (hS : S.PosSemidef) (hdet : S.det ≠ 0) (y : Fin n → ℝ) :
    Covers S y (y ⬝ᵥ S⁻¹.mulVec y) := by
  intro u
  obtain ⟨w, hw⟩ : ∃ w, w = S⁻¹.mulVec y := ⟨_, rfl⟩
  have hy : y = S.mulVec w := by
    rw [hw, mulVec_mulVec, mul_nonsing_inv _ (isUnit_iff_ne_zero.2 hdet), one_mulVec]
  have hsym : ∀ a b : Fin n → ℝ, a ⬝ᵥ S.mulVec b = b ⬝ᵥ S.mulVec a := by
    intro a b
    have hSt : Sᵀ = S := by simpa using hS.1.eq
    rw [dotProduct_mulVec, ← mulVec_transpose, hSt, dotProduct_comm]
  rw [← hw, hy, dotProduct_comm (S.mulVec w) w]
  have key : ∀ t : ℝ, 0 ≤ u ⬝ᵥ S.mulVec u - 2 * t * (u ⬝ᵥ S.mulVec w) + t ^ 2 * (w ⬝ᵥ S.mulVec w) := by
    intro t
    have := psd_form hS (u - t • w)
    rw [mulVec_sub, mulVec_smul, sub_dotProduct, dotProduct_sub, dotProduct_sub, smul_dotProduct, smul_dotProduct, dotProduct_smul,
      dotProduct_smul, hsym w u] at this
    simp only [smul_eq_mul] at this
    nlinarith
  have ha := psd_form hS w
  generalize u ⬝ᵥ S.mulVec u = A at *
  generalize u ⬝ᵥ S.mulVec w = B at *
  generalize w ⬝ᵥ S.mulVec w = D at *
  rcases ha.eq_or_lt with h0 | h0
  · subst h0
    have : B = 0 := by
      by_contra hB
      have h1 := key ((A + 1) / (2 * B))
      have e : 2 * ((A + 1) / (2 * B)) * B = A + 1 := by field_simp
      rw [e] at h1
      linarith
    simp [this]
  · have h1 := key (B / D)
    have e : A - 2 * (B / D) * B + (B / D) ^ 2 * D = A - B ^ 2 / D := by field_simp; ring
    rw [e, sub_nonneg, div_le_iff₀ h0] at h1
    linarith

/-- What a gain makes of it. -/
theorem covers_kick {S : Matrix (Fin n) (Fin n) ℝ} (hS : S.PosSemidef) (hdet : S.det ≠ 0) (y : Fin n → ℝ)
    (K : Matrix (Fin 15) (Fin n) ℝ) : Covers (K * S * Kᵀ) (K.mulVec y) (y ⬝ᵥ S⁻¹.mulVec y) :=
  (covers_self hS hdet y).map K

/-- One correction. -/
theorem jump_at {e : Fin n → Fin 15} {z : Fin 15 → ℝ} {R P P' : Mat15} {thr : Thresh} {x x' : State}
    (hR : (R.submatrix e e).PosSemidef) (hP : P.PosSemidef) (h : correctAt e z R thr x P = some (x', P')) :
    ∃ δ, UpToTurns x' (x + δ) ∧ Covers (P - P') δ (mahalanobisSq e z R x P) ∧ (P - P').PosSemidef ∧
      ((∃ θ, thr = .sigmas θ ∧ θ * θ ≤ mahalanobisSq e z R x P) → δ = 0 ∧ P' = P) := by
  unfold correctAt at h
  by_cases hS : (innovCov e R P).det = 0
  · rw [if_pos hS] at h
    cases h
  rw [if_neg hS] at h
  have hSP : (innovCov e R P).PosSemidef := by
    rw [innovCov_eq]
    exact (hP.submatrix _).add (subR_psd hR)
  split at h
  · rename_i hpass
    simp only [Option.some.injEq, Prod.mk.injEq] at h
    have hK : gain e R P = P.submatrix id e * (innovCov e R P)⁻¹ := by
      unfold gain
      rw [mul_subH_transpose]
    have ht := (C08_textbook e R P hP hR (by rw [← innovCov_eq]; exact hS)).1
    rw [← innovCov_eq, ← hK, h.2] at ht
    refine ⟨_, by rw [← h.1]; exact wrap_upToTurns _, ?_, ?_, ?_⟩
    · have := covers_kick hSP hS (innovation e z x) (gain e R P)
      rw [ht, sub_sub_cancel]
      unfold mahalanobisSq
      rw [← innovCov_eq]
      exact this
    · rw [ht, sub_sub_cancel]
      exact psd_congr hSP _
    · rintro ⟨θ, rfl, hθ⟩
      unfold mahalanobisSq at hθ
      rw [← innovCov_eq] at hθ
      exact absurd hθ hpass
  · simp only [Option.some.injEq, Prod.mk.injEq] at h
    refine ⟨0, by rw [add_zero, h.1]; exact UpToTurns.refl _, ?_, ?_, fun _ => ⟨rfl, h.2.symm⟩⟩
    · rw [h.2, sub_self]
      intro u
      simp
    · rw [h.2, sub_self]
      exact PosSemidef.zero

theorem jump_threshold {e : Fin n → Fin 15} {z : Fin 15 → ℝ} {R P P' : Mat15} {x x' : State} {θ : ℝ}
    (hR : (R.submatrix e e).PosSemidef) (hP : P.PosSemidef) (hθ : 0 ≤ θ) (h : correctAt e z R (.sigmas θ) x P = some (x', P')) :
    ∃ δ, UpToTurns x' (x + δ) ∧ ∀ i, |δ i| ≤ θ * √(P i i - P' i i) ∧ |δ i| ≤ θ * √(P i i) := by
  obtain ⟨δ, h1, h2, h3, h4⟩ := jump_at hR hP h
  have hPP : P'.PosSemidef := correctAt_psd hR hP h
  have hle : ∀ i, 0 ≤ P i i - P' i i := fun i => h3.diag_nonneg (i := i)
  have key : ∀ i, |δ i| ≤ θ * √(P i i - P' i i) := by
    intro i
    by_cases hp : θ * θ ≤ mahalanobisSq e z R x P
    · rw [(h4 ⟨θ, rfl, hp⟩).1]
      simp only [Pi.zero_apply, abs_zero]
      positivity
    · have hv := h2.var i
      rw [Matrix.sub_apply] at hv
      refine abs_le_of_sq_le_sq ?_ (by positivity)
      rw [mul_pow, sq_sqrt (hle i)]
      nlinarith [hle i]
  refine ⟨δ, h1, fun i => ⟨key i, (key i).trans (mul_le_mul_of_nonneg_left (sqrt_le_sqrt ?_) hθ)⟩⟩
  linarith [hPP.diag_nonneg (i := i)]

section
variable {m : Payload} {x x' : State} {P P' : Mat15}

/-- **C131**: a correction moves the estimate, in every direction, by at most the Mahalanobis distance of the message times
the square root of the variance that the correction takes away in this direction. -/
theorem C131_jump (hm : m.GoodR) (hP : P.PosSemidef) (h : Ekf.correct m x P = some (x', P')) :
    ∃ δ, UpToTurns x' (x + δ) ∧ Covers (P - P') δ (m.distSq x P) ∧ (¬ m.Passes x P → δ = 0) := by
  obtain ⟨δ, h1, h2, -, h4⟩ := jump_at hm.sub hP h
  refine ⟨δ, h1, h2, fun hn => (h4 ?_).1⟩
  by_contra hc
  push Not at hc
  exact hn fun θ hθ => hc θ hθ

/-- C131: with a rejection threshold of `θ`, no message moves any variable by more than `θ` times the square root of the
variance that it takes away, or by more than `θ` standard deviations. -/
theorem C131_threshold (hm : m.GoodR) (hP : P.PosSemidef) (h : Ekf.correct m x P = some (x', P')) {θ : ℝ} (hθ : 0 ≤ θ)
    (ht : m.thresh = .sigmas θ) :
    ∃ δ, UpToTurns x' (x + δ) ∧ ∀ i, |δ i| ≤ θ * √(P i i - P' i i) ∧ |δ i| ≤ θ * √(P i i) := by
  unfold Ekf.correct at h
  rw [ht] at h
  exact jump_threshold hm.sub hP hθ h

/-- C131 is exact for a message with one variable: the estimate of this variable moves just by the distance times the square
root of the variance that is taken away. -/
theorem C131_exact {i : Fin 15} (hi : m.indices = [i]) (hang : ¬ angular i) (hm : m.Certain) (hP : P.PosSemidef)
    (h : Ekf.correct m x P = some (x', P')) : (x' i - x i) ^ 2 = m.distSq x P * (P i i - P' i i) := by
  rw [correct_one i hi hm x hP] at h
  simp only [Option.some.injEq, Prod.mk.injEq] at h
  have hr : 0 < sanitize (m.R i i) := lt_of_lt_of_le (by norm_num) (sanitize_floor _)
  have hPi := hP.diag_nonneg (i := i)
  have h0 : P i i + sanitize (m.R i i) ≠ 0 := by positivity
  have hn : ¬ (i = iRoll ∨ i = iPitch ∨ i = iYaw) := hang
  have ex : x' i = x i + P i i * (P i i + sanitize (m.R i i))⁻¹ * ((m.z i).val - x i) := by
    rw [← h.1, wrap_other _ hang, if_neg hn]
  have eP : P' i i = P i i - P i i * (P i i + sanitize (m.R i i))⁻¹ * P i i := by rw [← h.2]; rfl
  unfold Payload.distSq
  rw [(mahalanobis_one i hi hang x P h0).1, ex, eP]
  field_simp
  ring

end

/-! ## Sequences -/

theorem correct_back {g : Filt (ekfCore p)} {z : Payload} {x' : State} (h : (g.correct z).x = some x') :
    ∃ (x : State) (P' : Mat15), g.x = some x ∧ Ekf.correct z x g.cov = some (x', P') ∧ (g.correct z).cov = P' := by
  cases hx : g.x with
  | none =>
    have e : (g.correct z).x = ((ekfCore p).correct z (g.x, g.cov, g.ext)).1 := rfl
    rw [e, hx] at h
    cases h
  | some x =>
    cases hr : Ekf.correct z x g.cov with
    | none =>
      have e : (g.correct z).x = ((ekfCore p).correct z (g.x, g.cov, g.ext)).1 := rfl
      rw [e, hx] at h
      simp [ekfCore, hr] at h
    | some w =>
      obtain ⟨e1, e2⟩ := correct_some hx hr
      obtain rfl : w.1 = x' := Option.some.inj (e1.symm.trans h)
      exact ⟨x, w.2, rfl, hr, e2⟩

/-- **C131** for the filter: with a rejection threshold of `θ`, a message moves no variable of the estimate for its time by more
than `θ` standard deviations, and no more than the variance it takes away allows. -/
theorem C131_filter {f : Filt (ekfCore p)} (hi : f.initialized = true) (hP : CovOk f.x f.cov)
    (hQ : Matrix.PosSemidef (n := Fin 15) (R := ℝ) f.par) (hd : p.dynamic = true → NoCross f.par) {m : Meas (ekfCore p)}
    (hm : Payload.GoodR m.z) {θ : ℝ} (hθ : 0 ≤ θ) (ht : Payload.thresh m.z = .sigmas θ) {x' : State}
    (hx' : (f.processMeasurement m).x = some x') :
    ∃ x δ : State, (catchUp f m.time).x = some x ∧ UpToTurns x' (x + δ) ∧ ∀ i,
      |δ i| ≤ θ * √((show Mat15 from (catchUp f m.time).cov) i i - (show Mat15 from (f.processMeasurement m).cov) i i) ∧
      |δ i| ≤ θ * √((show Mat15 from (catchUp f m.time).cov) i i) := by
  have hc := catchUp_cov hQ hd hP m.time
  rw [process_eq f hi m] at hx' ⊢
  obtain ⟨x, P', h1, h2, h3⟩ := correct_back hx'
  rw [h3]
  obtain ⟨δ, d1, d2⟩ := C131_threshold hm (hc (by rw [h1]; simp)) h2 hθ ht
  exact ⟨x, δ, h1, d1, d2⟩

theorem process_none {f : Filt (ekfCore p)} (hi : f.initialized = true) (hx : f.x = none) (m : Meas (ekfCore p)) :
    (f.processMeasurement m).x = none := by
  rw [process_eq f hi m]
  have : (catchUp f m.time).x = none := by
    unfold catchUp
    split
    · show ((ekfCore p).predict f.par f.ctl f.ctlTime _ _ (f.x, f.cov, f.ext)).1 = none
      rw [hx]
      rfl
    · exact hx
  by_contra hn
  obtain ⟨x', hx'⟩ := Option.ne_none_iff_exists'.1 hn
  obtain ⟨x, P', h1, -⟩ := correct_back hx'
  rw [this] at h1
  cases h1

theorem process_init (f : Filt (ekfCore p)) (hi : f.initialized = true) (m : Meas (ekfCore p)) :
    (f.processMeasurement m).initialized = true := by
  rw [process_eq f hi m]
  unfold catchUp
  split <;> exact hi

theorem fold_none (ms : List (Meas (ekfCore p))) : ∀ {f : Filt (ekfCore p)}, f.initialized = true → f.x = none →
    (ms.foldl Filt.processMeasurement f).x = none := by
  induction ms with
  | nil => exact fun _ h => h
  | cons m ms ih => exact fun hi hx => ih (process_init _ hi m) (process_none hi hx m)

/-- C131 for any number of messages of the same time, or late ones: together they move the estimate, in every direction, by
at most the square root of the sum of their squared distances (each taken when it is used) times the square root of the
variance that they take away together. -/
theorem C131_batch (ms : List (Meas (ekfCore p))) : ∀ {f : Filt (ekfCore p)} (_ : f.initialized = true) (_ : CovOk f.x f.cov)
    (_ : ∀ m ∈ ms, m.time ≤ f.lastTime ∧ Payload.GoodR m.z) {x x' : State} (_ : f.x = some x)
    (_ : (ms.foldl Filt.processMeasurement f).x = some x'),
    0 ≤ spentAll f ms ∧ ∃ D : Mat15, D = (show Mat15 from f.cov) - (show Mat15 from (ms.foldl Filt.processMeasurement f).cov) ∧
      D.PosSemidef ∧ ∃ δ, UpToTurns x' (x + δ) ∧ Covers D δ (spentAll f ms) := by
  induction ms with
  | nil =>
    intro f _ _ _ x x' hx hx'
    obtain rfl : x = x' := Option.some.inj (hx.symm.trans hx')
    refine ⟨le_rfl, _, rfl, ?_, 0, by rw [add_zero]; exact UpToTurns.refl _, ?_⟩
    · show ((show Mat15 from f.cov) - (show Mat15 from f.cov)).PosSemidef
      rw [sub_self]
      exact PosSemidef.zero
    · intro u
      show _ ≤ 0 * _
      simp
  | cons m ms ih =>
    intro f hi hP hms x x' hx hx'
    obtain ⟨ht, hm⟩ := hms m List.mem_cons_self
    have hcu : catchUp f m.time = f := if_neg (by omega)
    have hre : f.ready m = f := if_neg (by omega)
    have hpe := process_eq f hi m
    rw [hcu] at hpe
    cases h1 : (f.processMeasurement m).x with
    | none =>
      have := fold_none ms (process_init f hi m) h1
      rw [List.foldl_cons, this] at hx'
      cases hx'
    | some x1 =>
      have h1' := h1
      rw [hpe] at h1'
      obtain ⟨y, P1, e1, e2, e3⟩ := correct_back h1'
      obtain rfl : x = y := Option.some.inj (hx.symm.trans e1)
      have hPf : (show Mat15 from f.cov).PosSemidef := hP (by rw [hx]; simp)
      have hcov : (f.processMeasurement m).cov = P1 := by rw [hpe, e3]
      have hlast : (f.processMeasurement m).lastTime = f.lastTime := by rw [hpe]; rfl
      have hok : CovOk (f.processMeasurement m).x (f.processMeasurement m).cov := by
        intro _
        rw [hcov]
        exact correctAt_psd hm.sub hPf e2
      obtain ⟨s0, D, eD, hD, δ, d1, d2⟩ := ih (process_init f hi m) hok
        (fun m' hm' => by rw [hlast]; exact hms m' (List.mem_cons_of_mem _ hm')) h1 (by rw [← List.foldl_cons]; exact hx')
      obtain ⟨δ1, c1, c2, c3, c4⟩ := jump_at hm.sub hPf e2
      have hsp : 0 ≤ spent m.z f.x f.cov ∧ Covers ((show Mat15 from f.cov) - P1) δ1 (spent m.z f.x f.cov) := by
        rw [hx]
        by_cases hp : Payload.Passes m.z x f.cov
        · rw [(spent_some m.z x f.cov).1 hp]
          exact ⟨distSq_nonneg hm hPf x, c2⟩
        · rw [(spent_some m.z x f.cov).2 hp]
          have hz := c4 (by
            unfold Payload.Passes at hp
            push Not at hp
            exact hp)
          refine ⟨le_rfl, ?_⟩
          rw [hz.1]
          intro u
          simp
      have esp : spentAll f (m :: ms) = spent m.z f.x f.cov + spentAll (f.processMeasurement m) ms := by
        show spent m.z (f.ready m).x (f.ready m).cov + _ = _
        rw [hre]
      rw [esp]
      refine ⟨add_nonneg hsp.1 s0, _, rfl, ?_⟩
      have eq : (show Mat15 from f.cov) - (show Mat15 from ((m :: ms).foldl Filt.processMeasurement f).cov) =
          ((show Mat15 from f.cov) - P1) + D := by
        rw [eD, hcov]
        show _ = (show Mat15 from f.cov) - P1 + (P1 - (show Mat15 from ((m :: ms).foldl Filt.processMeasurement f).cov))
        abel
      rw [eq]
      refine ⟨c3.add hD, δ1 + δ, ?_, Covers.add c3 hD hsp.1 s0 hsp.2 d2⟩
      refine d1.trans ?_
      rw [← add_assoc]
      intro i
      refine ⟨fun ha => ?_, fun ha => ?_⟩
      · obtain ⟨k, hk⟩ := (c1 i).1 ha
        exact ⟨k, by simp only [Pi.add_apply] at hk ⊢; rw [hk]; ring⟩
      · have hk := (c1 i).2 ha
        simp only [Pi.add_apply] at hk ⊢
        rw [hk]

theorem spentAll_le {θ : ℝ} (ms : List (Meas (ekfCore p))) (hms : ∀ m ∈ ms, Payload.thresh m.z = .sigmas θ) :
    ∀ f : Filt (ekfCore p), spentAll f ms ≤ ms.length * θ ^ 2 := by
  induction ms with
  | nil => intro f; simp [spentAll]
  | cons m ms ih =>
    intro f
    have h1 : spent m.z (f.ready m).x (f.ready m).cov ≤ θ ^ 2 := by
      cases (f.ready m).x with
      | none => exact sq_nonneg θ
      | some x =>
        by_cases hp : Payload.Passes m.z x (f.ready m).cov
        · rw [(spent_some m.z x (f.ready m).cov).1 hp, pow_two]
          exact (hp θ (hms m List.mem_cons_self)).le
        · rw [(spent_some m.z x (f.ready m).cov).2 hp]
          exact sq_nonneg θ
    have h2 := ih (fun m' h' => hms m' (List.mem_cons_of_mem _ h')) (f.processMeasurement m)
    show _ + _ ≤ _
    rw [List.length_cons]
    push_cast
    linarith

/-- C131: so `N` messages of one time with the threshold `θ` move no variable by more than `θ √N` standard deviations. -/
theorem C131_many (ms : List (Meas (ekfCore p))) {f : Filt (ekfCore p)} (hi : f.initialized = true) (hP : CovOk f.x f.cov)
    (hms : ∀ m ∈ ms, m.time ≤ f.lastTime ∧ Payload.GoodR m.z) {θ : ℝ} (hθ : 0 ≤ θ)
    (hth : ∀ m ∈ ms, Payload.thresh m.z = .sigmas θ) {x x' : State} (hx : f.x = some x)
    (hx' : (ms.foldl Filt.processMeasurement f).x = some x') :
    ∃ δ, UpToTurns x' (x + δ) ∧ ∀ i, |δ i| ≤ θ * √ms.length *
      √((show Mat15 from f.cov) i i - (show Mat15 from (ms.foldl Filt.processMeasurement f).cov) i i) := by
  obtain ⟨-, D, eD, hD, δ, h1, h2⟩ := C131_batch ms hi hP hms hx hx'
  refine ⟨δ, h1, fun i => ?_⟩
  have hv := h2.var i
  have hn := hD.diag_nonneg (i := i)
  rw [eD, Matrix.sub_apply] at hn hv
  refine abs_le_of_sq_le_sq ?_ (by positivity)
  rw [mul_pow, mul_pow, sq_sqrt hn, sq_sqrt (by positivity)]
  have := spentAll_le ms hth f
  nlinarith

/-- C131 for the node: in every run, what the next message would do to the estimate is bounded by its threshold. -/
theorem C131_node {Pq : MQueue (ekfCore p)} (cfg : Cfg (ekfCore p))
    (hQ : Matrix.PosSemidef (n := Fin 15) (R := ℝ) cfg.processNoise) (hd : p.dynamic = true → NoCross cfg.processNoise)
    (h0 : Uncorrelated cfg.initialCov) (hkept : cfg.Kept) (fctl0 : Fin 6 → ℝ) (k : Int) (hk : 0 ≤ k)
    (es : List (Node.Event (ekfCore p))) (hc : Clocked k es)
    (hes : Along cfg (Node.Ok CovOk (fun _ P => Uncorrelated P) Payload.GoodR (fun _ => True))
      (Node.start cfg Pq () fctl0 k) es) {f : Filt (ekfCore p)} (hf : f = ((Node.start cfg Pq () fctl0 k).run cfg es).1.filt)
    (hi : f.initialized = true) {m : Meas (ekfCore p)}
    (hm : Payload.GoodR m.z) {θ : ℝ} (hθ : 0 ≤ θ) (ht : Payload.thresh m.z = .sigmas θ) {x' : State}
    (hx' : (f.processMeasurement m).x = some x') :
    ∃ x δ : State, (catchUp f m.time).x = some x ∧ UpToTurns x' (x + δ) ∧ ∀ i,
      |δ i| ≤ θ * √((show Mat15 from (catchUp f m.time).cov) i i - (show Mat15 from (f.processMeasurement m).cov) i i) ∧
      |δ i| ≤ θ * √((show Mat15 from (catchUp f m.time).cov) i i) := by
  have hE := ekfCov_inv cfg hQ hd h0 hkept
  have hN := (NInv.run hE es (NInv.start hE Pq () trivial k) (HInv.start cfg Pq () fctl0 k) hk hc hes).1
  have hF := hN.filt
  rw [← hf] at hF
  refine C131_filter hi (hF.on hi) ?_ ?_ hm hθ ht hx'
  · rcases hkept.noise_cases hF.par with h | h
    · rw [h]; exact hQ
    · rw [h]; exact PosSemidef.zero
  · intro hdyn
    rcases hkept.noise_cases hF.par with h | h
    · rw [h]; exact hd hdyn
    · rw [h]; exact fun _ _ _ => rfl

theorem good_one (i : Fin 15) (v : ℝ) (thr : Thresh) : (oneVar i v thr).GoodR := by
  show ((1 : Mat15).submatrix (fun j : {j // decide (j = i) = true} => j.1) (fun j => j.1)).PosSemidef
  exact PosSemidef.one.submatrix _

/-- C131 is false of the first message, which is not compared with anything: whatever its threshold, it replaces the
estimate of what it selects. -/
theorem C131_first_message {f : Filt (ekfCore p)} (hf : f.initialized = false) {x0 : State} (h0 : f.x = some x0) (i : Fin 15)
    (θ D : ℝ) : ∃ (m : Meas (ekfCore p)) (x' : State), Payload.GoodR m.z ∧ Payload.thresh m.z = .sigmas θ ∧
      (f.processMeasurement m).x = some x' ∧ D < |x' i - x0 i| := by
  obtain ⟨x', h1, h2⟩ := C128_first_message f hf x0 h0
    ⟨f.lastTime, "", oneVar i (x0 i + |D| + 1) (.sigmas θ), f.ctl, f.ctlTime⟩ (fun _ _ => rfl)
  refine ⟨_, x', good_one i _ _, rfl, h1, ?_⟩
  rw [(h2 i (decide_eq_true rfl)).1]
  show D < |x0 i + |D| + 1 - x0 i|
  rw [show x0 i + |D| + 1 - x0 i = |D| + 1 by ring, abs_of_nonneg (by positivity)]
  linarith [le_abs_self D]

/-! ## The UKF -/

section
variable {e : Fin n → Fin 15} {k : UkfConst} (llt : Llt)

/-- C131 for a UKF that corrects on sigma points it has just drawn.  Missing: angles so uncertain that the points wrap. -/
theorem C131_ukf_partial {alpha kappa beta : ℝ} (hk : setConstants alpha kappa beta = some k) (hpos : 0 < 15 + k.lam)
    {x : State} {P : Mat15} (hP : P.PosDef) (hc : Calm e k x P) {z : Fin 15 → ℝ} {R : Mat15}
    (hR : (R.submatrix e e).PosSemidef) {θ : ℝ} (hθ : 0 ≤ θ) {x' : State} {P' : Mat15} {b : Bool}
    (h : ukfCorrectAt e k (sigmaPoints llt k x P) z R (.sigmas θ) x P = some (x', P', b)) :
    ∃ δ, UpToTurns x' (x + δ) ∧ ∀ i, |δ i| ≤ θ * √(P i i) := by
  obtain ⟨-, -, Pk, h1, -⟩ := C17_covariance_partial llt x P e hk hpos hP hc z R hR (.sigmas θ) x' P' b h
  obtain ⟨δ, d1, d2⟩ := jump_threshold hR hP.posSemidef hθ h1
  exact ⟨δ, d1, fun i => (d2 i).2⟩

/-- A correction on the sigma points of a prediction accepts and moves the state as an EKF would with the covariance
before the process noise was added. -/
theorem ukf_predicted_state {p : FilterPar} {Q : Mat15} {ctl : Fin 6 → ℝ} {ct ref : Int} {dt : ℝ} {x : State}
    {P : Mat15} {x1 : State} {P1 : Mat15} {mem : UkfMem} (h : Ukf.predict p llt k Q ctl ct ref dt x P = some (x1, P1, mem))
    (hcalm : ∀ s, stateDiff e (mem.pts s - x1) = wrapDiff (mem.pts s - x1))
    {z : Fin 15 → ℝ} {R : Mat15} {thr : Thresh} {x2 : State} {P2 : Mat15} {b : Bool}
    (h2 : ukfCorrectAt e k mem.pts z R thr x1 P1 = some (x2, P2, b)) :
    ∃ Pk, correctAt e z R thr x1 (P1 - dt • noiseQ p Q x1) = some (x2, Pk) := by
  classical
  unfold Ukf.predict at h
  dsimp only at h
  split at h
  · cases h
  · simp only [Option.some.injEq, Prod.mk.injEq] at h
    obtain ⟨rfl, rfl, rfl⟩ := h
    rw [wrap_mean] at *
    dsimp only at hcalm h2
    set pts := fun s => projectPoint dt (sigmaPoints llt k x P s)
    set Pσ := ukfCovar k pts (ukfMean k pts) with hPσ
    have hcalm' : ∀ s, stateDiff e (pts s - ukfMean k pts) = wrapDiff (pts s - ukfMean k pts) := hcalm
    rw [add_sub_cancel_right]
    obtain ⟨e1, e2⟩ := measCovar_predicted (k := k) e pts
    have e3 : crossCovar e k pts (ukfMean k pts) = Pσ.submatrix id e := by
      unfold crossCovar
      dsimp only
      rw [e1]
      simp only [hcalm']
      rw [hPσ]
      unfold ukfCovar
      ext i j
      rw [Matrix.sum_apply, submatrix_apply, Matrix.sum_apply]
      rfl
    unfold ukfCorrectAt at h2
    dsimp only at h2
    rw [e1, e2, e3, ← hPσ] at h2
    have hy : ukfInnovation e z (fun i => ukfMean k pts (e i)) = innovation e z (ukfMean k pts) := rfl
    rw [hy] at h2
    unfold correctAt
    rw [innovCov_eq]
    split at h2
    · cases h2
    · rename_i hd
      rw [if_neg hd]
      split at h2
      · rename_i hm
        rw [if_pos hm]
        simp only [Option.some.injEq, Prod.mk.injEq] at h2
        have : gain e R Pσ = Pσ.submatrix id e * (Pσ.submatrix e e + subR e R)⁻¹ := by
          unfold gain
          rw [mul_subH_transpose, innovCov_eq]
        refine ⟨_, congrArg some (Prod.ext ?_ rfl)⟩
        show wrapStateAngles (ukfMean k pts + (gain e R Pσ).mulVec _) = x2
        rw [this]
        exact h2.1
      · rename_i hm
        rw [if_neg hm]
        simp only [Option.some.injEq, Prod.mk.injEq] at h2
        exact ⟨_, congrArg some (Prod.ext h2.1 rfl)⟩

/-- C131 for a UKF that corrects on the sigma points of a prediction: here too no variable moves by more than `θ` standard
deviations.  Missing: sigma points whose angles wrap, and weights that make the propagated covariance indefinite. -/
theorem C131_ukf_predicted_partial {p : FilterPar} {Q : Mat15} {ctl : Fin 6 → ℝ} {ct ref : Int} {dt : ℝ} {x : State}
    {P : Mat15} {x1 : State} {P1 : Mat15} {mem : UkfMem} (h : Ukf.predict p llt k Q ctl ct ref dt x P = some (x1, P1, mem))
    (hcalm : ∀ s, stateDiff e (mem.pts s - x1) = wrapDiff (mem.pts s - x1)) (hdt : 0 ≤ dt)
    (hQ : (noiseQ p Q x1).PosSemidef) (hσ : (P1 - dt • noiseQ p Q x1).PosSemidef)
    {z : Fin 15 → ℝ} {R : Mat15} (hR : (R.submatrix e e).PosSemidef) {θ : ℝ} (hθ : 0 ≤ θ) {x2 : State} {P2 : Mat15} {b : Bool}
    (h2 : ukfCorrectAt e k mem.pts z R (.sigmas θ) x1 P1 = some (x2, P2, b)) :
    ∃ δ, UpToTurns x2 (x1 + δ) ∧ ∀ i, |δ i| ≤ θ * √(P1 i i) := by
  obtain ⟨Pk, hk⟩ := ukf_predicted_state llt h hcalm h2
  obtain ⟨δ, d1, d2⟩ := jump_threshold hR hσ hθ hk
  refine ⟨δ, d1, fun i => (d2 i).2.trans (mul_le_mul_of_nonneg_left (sqrt_le_sqrt ?_) hθ)⟩
  have := hQ.diag_nonneg (i := i)
  rw [Matrix.sub_apply, Matrix.smul_apply, smul_eq_mul]
  nlinarith

end

/-! ## Examples -/

/-- A position that is one standard deviation off and passes a threshold of three. -/
theorem jump_demo : ∃ x' P', Ekf.correct (oneVar iX 1 (.sigmas 3)) 0 1 = some (x', P') ∧ x' iX = 1 / 2 := by
  have hs : sanitize ((oneVar iX 1 (.sigmas 3)).R iX iX) = 1 := by
    show sanitize ((1 : Mat15) iX iX) = 1
    rw [Matrix.one_apply_eq]
    exact sanitize_above (by norm_num)
  have hp : (oneVar iX 1 (.sigmas 3)).Passes 0 1 := by
    intro θ hθ
    obtain rfl := Thresh.sigmas.inj hθ
    unfold Payload.distSq
    rw [(mahalanobis_one iX (oneVar_indices _ _ _) (by simp [angular]; decide) 0 1 (by rw [hs]; norm_num)).1, hs]
    norm_num [oneVar, Dbl.val]
  have h := correct_one iX (oneVar_indices iX 1 .unlimited) (oneVar_certain iX 1) 0 PosSemidef.one
  refine ⟨_, _, (passes_ungated hp).trans h, ?_⟩
  have hs' : sanitize ((oneVar iX 1 .unlimited).R iX iX) = 1 := hs
  rw [wrap_other _ (by simp [angular]; decide), hs', if_neg (by decide)]
  norm_num [oneVar, Dbl.val]

example : ∃ x' P' δ, Ekf.correct (oneVar iX 1 (.sigmas 3)) 0 1 = some (x', P') ∧ x' iX = 1 / 2 ∧
    UpToTurns x' (0 + δ) ∧ ∀ i, |δ i| ≤ 3 * √((1 : Mat15) i i) := by
  obtain ⟨x', P', h, hx⟩ := jump_demo
  obtain ⟨δ, d1, d2⟩ := C131_threshold (good_one _ _ _) PosSemidef.one h (by norm_num) rfl
  exact ⟨x', P', δ, h, hx, d1, fun i => (d2 i).2⟩

theorem demo_finite {x : State} {P : Mat15} (hP : P.PosSemidef) : ∃ y, Ekf.correct (oneVar iX 1 (.sigmas 3)) x P = some y := by
  have h0 := hP.diag_nonneg (i := iX)
  have hr : 0 < sanitize ((oneVar iX 1 (.sigmas 3)).R iX iX) := lt_of_lt_of_le (by norm_num) (sanitize_floor _)
  have := (mahalanobis_one (m := oneVar iX 1 (.sigmas 3)) iX (oneVar_indices _ _ _) (by simp [angular]; decide) x P (by positivity)).2
  unfold Ekf.correct correctAt
  rw [if_neg (by rw [innovCov_eq]; exact this)]
  split
  · exact ⟨_, rfl⟩
  · exact ⟨_, rfl⟩

/-- Two such messages, for a filter that has been initialised. -/
example : ∃ (f : Filt (ekfCore plainPar)) (m : Meas (ekfCore plainPar)) (x' : State), f.initialized = true ∧ CovOk f.x f.cov ∧
    f.x = some (0 : State) ∧ m.time ≤ f.lastTime ∧ Payload.GoodR m.z ∧ Payload.thresh m.z = .sigmas 3 ∧
    ([m, m].foldl Filt.processMeasurement f).x = some x' := by
  let m : Meas (ekfCore plainPar) := ⟨0, "gps", oneVar iX 1 (.sigmas 3), fun _ : Fin 6 => (0 : ℝ), 0⟩
  let f : Filt (ekfCore plainPar) := { idleFilt 0 with initialized := true, cov := (1 : Mat15) }
  obtain ⟨⟨x1, P1⟩, h1⟩ := demo_finite (x := 0) PosSemidef.one
  have hP1 : P1.PosSemidef := correctAt_psd (good_one _ _ _).sub PosSemidef.one h1
  obtain ⟨⟨x2, P2⟩, h2⟩ := demo_finite (x := x1) hP1
  have e1 := correct_some (p := plainPar) (g := f) (x := (0 : State)) rfl h1
  have p1 : f.processMeasurement m = f.correct (oneVar iX 1 (.sigmas 3)) := process_eq f rfl m
  have p2 : (f.processMeasurement m).processMeasurement m = (f.processMeasurement m).correct (oneVar iX 1 (.sigmas 3)) := by
    rw [p1]
    exact process_eq (f.correct (oneVar iX 1 (.sigmas 3))) rfl m
  refine ⟨f, m, x2, rfl, fun _ => PosSemidef.one, rfl, le_refl _, good_one _ _ _, rfl, ?_⟩
  show ((f.processMeasurement m).processMeasurement m).x = some x2
  rw [p2]
  have := (correct_some (p := plainPar) (g := f.processMeasurement m) (x := x1) (z := oneVar iX 1 (.sigmas 3)) (w := (x2, P2))
    (by rw [p1]; exact e1.1) (by
      have : (show Mat15 from (f.processMeasurement m).cov) = P1 := by rw [p1]; exact e1.2
      rw [← this] at h2
      exact h2)).1
  exact this

end RL
