import Verif.Props.Covers
import Verif.Props.Steps
import Verif.Props.Definite
/-!
# C116: better data never make the filter less sure
-/

namespace RL
open Matrix Real Body

/-- Every combination of the variables has at most the variance it has in `P'`. -/
def Surer (P P' : Mat15) : Prop := ∀ v : State, v ⬝ᵥ P.mulVec v ≤ v ⬝ᵥ P'.mulVec v

/-- `m` measures what `m'` measures, and perhaps more, and no combination of it with a larger variance. -/
structure Payload.Better (m m' : Payload) : Prop where
  good : m.GoodR
  good' : m'.GoodR
  more : ∀ i, m'.upd i = true → (m'.z i).isFin = true → m.upd i = true ∧ (m.z i).isFin = true
  floor : ∀ i, m'.upd i = true ∨ m.upd i = true → 1e-9 ≤ m.R i i ∧ 1e-9 ≤ m'.R i i
  less : ∀ v : State, (∀ i, m'.upd i = false → v i = 0) → v ⬝ᵥ m.R.mulVec v ≤ v ⬝ᵥ m'.R.mulVec v

theorem Surer.refl (P : Mat15) : Surer P P := fun _ => le_rfl

theorem Surer.trans {P Q R : Mat15} (h : Surer P Q) (g : Surer Q R) : Surer P R := fun v => (h v).trans (g v)

theorem Surer.of_psd {P P' : Mat15} (h : (P' - P).PosSemidef) : Surer P P' := by
  intro v
  have := psd_form h v
  rw [sub_mulVec, dotProduct_sub] at this
  linarith

/-- In particular the variances of the variables. -/
theorem Surer.var {P P' : Mat15} (h : Surer P P') (i : Fin 15) : P i i ≤ P' i i := by
  have := h (Pi.single i 1)
  simpa using this

theorem quad_turn {ι κ : Type} [Fintype ι] [Fintype κ] (A : Matrix ι κ ℝ) (M : Matrix κ κ ℝ) (v : ι → ℝ) :
    v ⬝ᵥ (A * M * Aᵀ) *ᵥ v = (Aᵀ *ᵥ v) ⬝ᵥ M *ᵥ (Aᵀ *ᵥ v) := by
  simpa using quad_congr A M v

theorem Surer.add {P P' Q Q' : Mat15} (h : Surer P P') (g : Surer Q Q') : Surer (P + Q) (P' + Q') := by
  intro v
  rw [add_mulVec, add_mulVec, dotProduct_add, dotProduct_add]
  exact add_le_add (h v) (g v)

theorem Surer.congr {P P' : Mat15} (h : Surer P P') (A : Mat15) : Surer (A * P * Aᵀ) (A * P' * Aᵀ) := by
  intro v
  rw [quad_turn, quad_turn]
  exact h _

theorem Surer.smul {P P' : Mat15} (h : Surer P P') {c : ℝ} (hc : 0 ≤ c) : Surer (c • P) (c • P') := by
  intro v
  rw [smul_mulVec, smul_mulVec, dotProduct_smul, dotProduct_smul]
  exact mul_le_mul_of_nonneg_left (h v) hc

theorem noiseQ_surer {p : FilterPar} {Q Q' : Mat15} (h : Surer Q Q') (hd : p.dynamic = true → NoCross Q)
    (hd' : p.dynamic = true → NoCross Q') (x : State) : Surer (noiseQ p Q x) (noiseQ p Q' x) := by
  unfold noiseQ
  split
  · rename_i hp
    have key : ∀ Q : Mat15, NoCross Q → writeDyn Q Q x =
        diagonal (fun i : Fin 15 => if i.val < 6 then Real.sqrt (∑ c : Fin 6, x (velIdx c) ^ 2) else 1) * Q *
          (diagonal (fun i : Fin 15 => if i.val < 6 then Real.sqrt (∑ c : Fin 6, x (velIdx c) ^ 2) else 1))ᵀ := by
      intro Q h
      ext i j
      simp only [writeDyn, diagonal_transpose, Matrix.mul_diagonal, Matrix.diagonal_mul, Matrix.of_apply]
      by_cases h1 : i.val < 6 <;> by_cases h2 : j.val < 6 <;> simp only [h1, h2, and_self, and_true, and_false, if_true, if_false]
      · rw [h i j (Or.inl ⟨h1, h2⟩)]; simp
      · rw [h i j (Or.inr ⟨h1, h2⟩)]; simp
      · simp
    rw [key Q (hd hp), key Q' (hd' hp)]
    exact h.congr _
  · exact h

/-! ## One step -/

/-- C116 for one prediction from the same state: a surer estimate and less process noise give a surer prediction. -/
theorem C116_prediction {p : FilterPar} {Q Q' : Mat15} (hQ : Surer Q Q') (hd : p.dynamic = true → NoCross Q)
    (hd' : p.dynamic = true → NoCross Q') {u u' : Fin 6 → ℝ} {ut ut' ref ref' : Int} {dt : ℝ} (hdt : 0 ≤ dt) {x x1 x1' : State}
    {P P' P1 P1' : Mat15} (hP : Surer P P') (h : Ekf.predict p Q u ut ref dt x P = some (x1, P1))
    (h' : Ekf.predict p Q' u' ut' ref' dt x P' = some (x1', P1')) : Surer P1 P1' := by
  unfold Ekf.predict at h h'
  dsimp only at h h'
  split at h
  · cases h
  · rename_i hc
    rw [if_neg hc] at h'
    simp only [Option.some.injEq, Prod.mk.injEq] at h h'
    rw [← h.2, ← h'.2]
    exact (hP.congr _).add ((noiseQ_surer hQ hd hd' x).smul hdt)

theorem subR_floor {n : ℕ} (e : Fin n → Fin 15) {R : Mat15} (h : ∀ a, 1e-9 ≤ R (e a) (e a)) :
    subR e R = subH e * R * (subH e)ᵀ := by
  rw [subH_mul, mul_subH_transpose]
  ext a b
  simp only [subR, of_apply, submatrix_apply, id]
  split
  · rename_i hab
    subst hab
    have h0 : (0 : ℝ) ≤ R (e a) (e a) := le_trans (by norm_num) (h a)
    rw [sanitize_max h0, max_eq_left (h a)]
  · rfl

/-- C116 for one correction: a surer estimate and better data give a surer estimate, whatever the two states and whether
or not the second measurement is rejected by its threshold. -/
theorem C116_correction {m m' : Payload} (hm : m.Better m') {x x' x1 x1' : State} {P P' P1 P1' : Mat15} (hP : P.PosSemidef)
    (hPP : Surer P P')
    (hacc : checkMahalanobis (innovation m.indices.get (fun i => (m.z i).val) x) (innovCov m.indices.get m.R P)⁻¹ m.thresh)
    (h : Ekf.correct m x P = some (x1, P1)) (h' : Ekf.correct m' x' P' = some (x1', P1')) : Surer P1 P1' := by
  have hsub : ∀ a : Fin m'.indices.length, ∃ b : Fin m.indices.length, m.indices.get b = m'.indices.get a := by
    intro a
    have h1 := (mem_indices m' _).1 (List.get_mem m'.indices a)
    have h2 := hm.more _ h1.1 h1.2
    obtain ⟨b, hb⟩ := List.mem_iff_get.1 ((mem_indices m _).2 h2)
    exact ⟨b, hb⟩
  have hR := hm.good.sub
  have hfl : ∀ a, 1e-9 ≤ m.R (m.indices.get a) (m.indices.get a) := fun a => (hm.floor _ (Or.inr (m.indices_upd a))).1
  have hfl' : ∀ a, 1e-9 ≤ m'.R (m'.indices.get a) (m'.indices.get a) := fun a => (hm.floor _ (Or.inl (m'.indices_upd a))).2
  have hu' : ∀ a, m'.upd (m'.indices.get a) = true := m'.indices_upd
  unfold Ekf.correct at h h'
  revert h h' hsub hR hfl hfl' hacc hu'
  generalize m.indices.get = e
  generalize m'.indices.get = e'
  intro hacc h h' hsub hR hfl hfl' hu'
  unfold correctAt at h h'
  split at h
  · cases h
  rename_i hdet
  rw [innovCov_eq] at hdet
  simp only [Option.some.injEq, Prod.mk.injEq] at h
  obtain ⟨o1, o2⟩ := C08_optimal e m.R P hP hR hdet
  split at h'
  · cases h'
  split at h'
  · simp only [Option.some.injEq, Prod.mk.injEq] at h'
    rw [← h.2, ← h'.2]
    choose g hg using hsub
    obtain ⟨K, hK⟩ : ∃ K, K = gain e' m'.R P' := ⟨_, rfl⟩
    rw [← hK]
    let G : Matrix (Fin _) (Fin _) ℝ := .of fun a b => if b = g a then 1 else 0
    have hGH : G * subH e = subH e' := by
      ext a j
      rw [Matrix.mul_apply, Finset.sum_eq_single (g a)]
      · simp [G, subH, hg]
      · intro b _ hb
        simp [G, hb]
      · intro hn
        exact absurd (Finset.mem_univ _) hn
    refine (Surer.of_psd (o2 (K * G))).trans fun v => ?_
    have e1 : K * G * subH e = K * subH e' := by rw [Matrix.mul_assoc, hGH]
    have e2 : joseph e m.R (K * G) P = (1 - K * subH e') * P * (1 - K * subH e')ᵀ + (K * subH e') * m.R * (K * subH e')ᵀ := by
      unfold joseph
      rw [e1, subR_floor e hfl, ← e1]
      simp only [transpose_mul, Matrix.mul_assoc]
    have e3 : joseph e' m'.R K P' = (1 - K * subH e') * P' * (1 - K * subH e')ᵀ + (K * subH e') * m'.R * (K * subH e')ᵀ := by
      unfold joseph
      rw [subR_floor e' hfl']
      simp only [transpose_mul, Matrix.mul_assoc]
    rw [e2, e3]
    rw [add_mulVec, add_mulVec, dotProduct_add, dotProduct_add]
    refine add_le_add ((hPP.congr _) v) ?_
    rw [quad_turn, quad_turn]
    refine hm.less _ fun i hi => ?_
    rw [transpose_mul, ← mulVec_mulVec]
    simp only [mulVec, dotProduct, transpose_apply, subH, of_apply]
    refine Finset.sum_eq_zero fun a _ => ?_
    have : i ≠ e' a := by
      rintro rfl
      rw [hu' a] at hi
      cases hi
    rw [if_neg this, zero_mul]
  · simp only [Option.some.injEq, Prod.mk.injEq] at h'
    rw [← h.2, ← h'.2]
    exact (Surer.of_psd o1).trans hPP

/-- C116 for a measurement that only one filter gets: it makes that filter no less sure. -/
theorem C116_extra {m : Payload} (hm : m.GoodR) {x x1 : State} {P P' P1 : Mat15} (hP : P.PosSemidef) (hPP : Surer P P')
    (h : Ekf.correct m x P = some (x1, P1)) : Surer P1 P' := by
  have hR := hm.sub
  unfold Ekf.correct correctAt at h
  split at h
  · cases h
  · rename_i hd
    split at h
    · simp only [Option.some.injEq, Prod.mk.injEq] at h
      rw [innovCov_eq] at hd
      rw [← h.2]
      exact (Surer.of_psd (C08_optimal _ m.R P hP hR hd).1).trans hPP
    · simp only [Option.some.injEq, Prod.mk.injEq] at h
      rw [← h.2]
      exact hPP

/-- C116 for the first measurement, which is copied into an uncorrelated covariance. -/
theorem C116_first {m m' : Payload} (hm : m.Better m') (hu : m.upd = m'.upd) {P P' : Mat15} (hP : Uncorrelated P)
    (hP' : Uncorrelated P') (hPP : Surer P P') : Surer (initCov m P) (initCov m' P') := by
  have key : ∀ (m : Payload) (P : Mat15), Uncorrelated P → ∀ v : State, v ⬝ᵥ (initCov m P).mulVec v =
      (fun i => if m.upd i then v i else 0) ⬝ᵥ m.R.mulVec (fun i => if m.upd i then v i else 0) +
      (fun i => if m.upd i then 0 else v i) ⬝ᵥ P.mulVec (fun i => if m.upd i then 0 else v i) := by
    intro m P hP v
    simp only [dotProduct, mulVec, ← Finset.sum_add_distrib, Finset.mul_sum]
    refine Finset.sum_congr rfl fun i _ => ?_
    refine Finset.sum_congr rfl fun j _ => ?_
    simp only [initCov, of_apply]
    by_cases hij : i = j
    · subst hij
      by_cases h1 : m.upd i = true <;> simp [h1]
    · by_cases h1 : m.upd i = true <;> by_cases h2 : m.upd j = true <;> simp [h1, h2, hP.2 i j hij]
  intro v
  rw [key m P hP, key m' P' hP', ← hu]
  refine add_le_add (hm.less _ fun i hi => ?_) (hPP _)
  rw [← hu] at hi
  rw [hi]
  rfl

/-! ## Whole sequences -/

theorem trig_turns {x y : State} (h : UpToTurns x y) : trig x = trig y := by
  obtain ⟨a, ha⟩ := (h 3).1 (Or.inl rfl)
  obtain ⟨b, hb⟩ := (h 4).1 (Or.inr (Or.inl rfl))
  obtain ⟨c, hc⟩ := (h 5).1 (Or.inr (Or.inr rfl))
  unfold trig
  simp only [show x iRoll = _ from ha, show x iPitch = _ from hb, show x iYaw = _ from hc, sin_add_int_mul_two_pi,
    cos_add_int_mul_two_pi]

theorem turns_rest {x y : State} (h : UpToTurns x y) (i : Fin 15) (hi : 6 ≤ i.val) : x i = y i := by
  refine (h i).2 ?_
  rintro (rfl | rfl | rfl) <;> exact absurd hi (by decide)

theorem transferJ_turns {x y : State} (h : UpToTurns x y) (dt : ℝ) : transferJ x dt = transferJ y dt := by
  unfold transferJ transferF writeJ writeF
  rw [trig_turns h, jEntry_congr (trig y) dt fun i hi => turns_rest h i hi]

theorem noiseQ_turns {p : FilterPar} {x y : State} (h : UpToTurns x y) (Q : Mat15) : noiseQ p Q x = noiseQ p Q y := by
  have : ∀ c : Fin 6, x (velIdx c) = y (velIdx c) := by
    intro c
    refine turns_rest h _ ?_
    fin_cases c <;> decide
  unfold noiseQ writeDyn
  simp only [this]

variable {p : FilterPar}

/-- What two filters are given: the same stamps in order, at each stamp better data for the first, and perhaps further
measurements of the same stamp; everything agrees with the motion `f`. -/
inductive BetterRun (f : Int → Kin) : Int → List (Meas (ekfCore p)) → List (Meas (ekfCore p)) → Prop
  | nil {t} : BetterRun f t [] []
  | both {t m m' ms ms'} (order : t ≤ m.time) (time : m'.time = m.time) (better : Payload.Better m.z m'.z)
      (gate : Payload.thresh m.z ≠ .sigmas 0) (reads : Reads (f m.time) m.z) (reads' : Reads (f m.time) m'.z)
      (rest : BetterRun f m.time ms ms') : BetterRun f t (m :: ms) (m' :: ms')
  | extra {t m ms ms'} (time : m.time = t) (good : Payload.GoodR m.z) (reads : Reads (f t) m.z)
      (rest : BetterRun f t ms ms') : BetterRun f t (m :: ms) ms'

theorem innovation_agreeing {m : Payload} {k : Kin} (hm : Reads k m) {x : State} (h : UpToTurns x k.vec) :
    innovation m.indices.get (fun i => (m.z i).val) x = 0 := by
  funext j
  have hmem : m.indices.get j ∈ m.indices := List.get_mem _ _
  obtain ⟨v, hv⟩ := finite_of_mem m _ hmem
  have hs := hm _ v (mem_upd hmem) hv
  unfold innovation
  simp only [Pi.zero_apply]
  generalize m.indices.get j = i at *
  rw [hv]
  show (if i = iRoll ∨ i = iPitch ∨ i = iYaw then normalizeAngle (v - x i) else v - x i) = 0
  by_cases hi : i = iRoll ∨ i = iPitch ∨ i = iYaw
  · rw [if_pos hi]
    obtain ⟨a, ha⟩ := hs.1 hi
    obtain ⟨b, hb⟩ := (h i).1 hi
    rw [ha, hb, show k.vec i + a * (2 * π) - (k.vec i + b * (2 * π)) = 0 + ((a - b : ℤ) : ℝ) * (2 * π) by push_cast; ring,
      normalizeAngle_add_two_pi, normalizeAngle_zero]
  · rw [if_neg hi, hs.2 hi, (h i).2 hi, sub_self]

theorem accepted_agreeing {m : Payload} {k : Kin} (hm : Reads k m) (hg : m.thresh ≠ .sigmas 0) {x : State}
    (h : UpToTurns x k.vec) (P : Mat15) :
    checkMahalanobis (innovation m.indices.get (fun i => (m.z i).val) x) (innovCov m.indices.get m.R P)⁻¹ m.thresh := by
  rw [innovation_agreeing hm h]
  unfold checkMahalanobis
  split
  · trivial
  · rename_i k hk
    rw [zero_dotProduct]
    have : k ≠ 0 := fun h0 => hg (by rw [hk, h0])
    have := mul_self_pos.2 this
    linarith

/-- The two estimates, for arbitrary members of the two filters. -/
def Pair (f : Int → Kin) (t : Int) (X Y : Option State) (P P' : Mat15) : Prop :=
  ∀ x y : State, X = some x → Y = some y → UpToTurns x (f t).vec ∧ UpToTurns y (f t).vec ∧ P.PosSemidef ∧ Surer P P'

theorem pair_predict {f : Int → Kin} (hf : Follows f) (hc : ∀ c, p.ctlUpd c = false) {Q Q' : Mat15} (hQ : Surer Q Q')
    (hQp : Q.PosSemidef) (hd : p.dynamic = true → NoCross Q ∧ NoCross Q') {t δ : Int} (hδ : 0 ≤ δ) {X Y : Option State} {P P' : Mat15}
    (h : Pair f t X Y P P') (u u' : Fin 6 → ℝ) (ut ut' ref ref' : Int) :
    Pair f (t + δ) ((ekfCore p).predict Q u ut ref δ (X, P, ())).1 ((ekfCore p).predict Q' u' ut' ref' δ (Y, P', ())).1
      ((ekfCore p).predict Q u ut ref δ (X, P, ())).2.1 ((ekfCore p).predict Q' u' ut' ref' δ (Y, P', ())).2.1 := by
  have hdt : 0 ≤ toSec δ := by
    unfold toSec
    exact mul_nonneg (by exact_mod_cast hδ) (by norm_num)
  cases X with
  | none => intro x y hx; cases hx
  | some x0 =>
    cases Y with
    | none => intro x y _ hy; cases hy
    | some y0 =>
      obtain ⟨h1, h2, h3, h4⟩ := h x0 y0 rfl rfl
      intro x y hx hy
      have hxy : UpToTurns y0 x0 := h2.trans h1.symm
      refine ⟨(ekfTruth p hc f hf).predict (q := Q) (u := u) (ut := ut) (ref := ref) (δ := δ) (x := some x0) (P := P) (e := ()) (fun z hz => by cases hz; exact h1) x hx,
        (ekfTruth p hc f hf).predict (q := Q') (u := u') (ut := ut') (ref := ref') (δ := δ) (x := some y0) (P := P') (e := ()) (fun z hz => by cases hz; exact h2) y hy, ?_⟩
      have ex : (ekfCore p).predict Q u ut ref δ (some x0, P, ()) = match Ekf.predict p Q u ut ref (toSec δ) x0 P with
        | some r => (some r.1, r.2, ())
        | none => (none, P, ()) := rfl
      have ey : (ekfCore p).predict Q' u' ut' ref' δ (some y0, P', ()) = match Ekf.predict p Q' u' ut' ref' (toSec δ) y0 P' with
        | some r => (some r.1, r.2, ())
        | none => (none, P', ()) := rfl
      rw [ex] at hx ⊢
      rw [ey] at hy ⊢
      cases hpx : Ekf.predict p Q u ut ref (toSec δ) x0 P with
      | none => rw [hpx] at hx; cases hx
      | some r =>
        cases hpy : Ekf.predict p Q' u' ut' ref' (toSec δ) y0 P' with
        | none => rw [hpy] at hy; cases hy
        | some r' =>
          refine ⟨predict_psd hQp (fun hp => (hd hp).1) hdt h3 hpx, ?_⟩
          unfold Ekf.predict at hpx hpy
          dsimp only at hpx hpy
          split at hpx
          · cases hpx
          split at hpy
          · cases hpy
          have e1 := congrArg Prod.snd (Option.some.inj hpx)
          have e2 := congrArg Prod.snd (Option.some.inj hpy)
          dsimp only at e1 e2 ⊢
          rw [← e1, ← e2, transferJ_turns hxy, noiseQ_turns hxy]
          exact (h4.congr _).add ((noiseQ_surer hQ (fun hp => (hd hp).1) (fun hp => (hd hp).2) x0).smul hdt)

theorem pair_correct {f : Int → Kin} {t : Int} {m m' : Payload} (hm : m.Better m') (hg : m.thresh ≠ .sigmas 0)
    (hr : Reads (f t) m) (hr' : Reads (f t) m') {X Y : Option State} {P P' : Mat15} (h : Pair f t X Y P P') :
    Pair f t ((ekfCore p).correct m (X, P, ())).1 ((ekfCore p).correct m' (Y, P', ())).1
      ((ekfCore p).correct m (X, P, ())).2.1 ((ekfCore p).correct m' (Y, P', ())).2.1 := by
  cases X with
  | none => intro x y hx; cases hx
  | some x0 =>
    cases Y with
    | none => intro x y _ hy; cases hy
    | some y0 =>
      obtain ⟨h1, h2, h3, h4⟩ := h x0 y0 rfl rfl
      rw [core_correct, core_correct]
      intro x y hx hy
      cases hpx : Ekf.correct m x0 P with
      | none => rw [hpx] at hx; cases hx
      | some r =>
        cases hpy : Ekf.correct m' y0 P' with
        | none => rw [hpy] at hy; cases hy
        | some r' =>
          rw [hpx] at hx
          rw [hpy] at hy
          dsimp only at hx hy ⊢
          cases hx
          cases hy
          exact ⟨correct_agreeing hr h1 P r.1 r.2 hpx, correct_agreeing hr' h2 P' r'.1 r'.2 hpy,
            correctAt_psd hm.good.sub h3 (show correctAt _ _ _ _ _ _ = some (r.1, r.2) from hpx),
            C116_correction hm h3 h4 (accepted_agreeing hr hg h1 P) hpx hpy⟩

theorem pair_extra {f : Int → Kin} {t : Int} {m : Payload} (hm : m.GoodR) (hr : Reads (f t) m) {X Y : Option State} {P P' : Mat15}
    (h : Pair f t X Y P P') :
    Pair f t ((ekfCore p).correct m (X, P, ())).1 Y ((ekfCore p).correct m (X, P, ())).2.1 P' := by
  cases X with
  | none => intro x y hx; cases hx
  | some x0 =>
    intro x y hx hy
    obtain ⟨h1, h2, h3, h4⟩ := h x0 y rfl hy
    rw [core_correct] at hx ⊢
    cases hpx : Ekf.correct m x0 P with
    | none => rw [hpx] at hx; cases hx
    | some r =>
      rw [hpx] at hx
      dsimp only at hx ⊢
      cases hx
      exact ⟨correct_agreeing hr h1 P r.1 r.2 hpx, h2,
        correctAt_psd hm.sub h3 (show correctAt _ _ _ _ _ _ = some (r.1, r.2) from hpx), C116_extra hm h3 h4 hpx⟩

/-- Two filters that have come to the same time, the first no less sure than the second. -/
structure BothAt (f : Int → Kin) (t : Int) (a b : Filt (ekfCore p)) : Prop where
  init : a.initialized = true ∧ b.initialized = true
  last : a.lastTime = t ∧ b.lastTime = t
  noise : Surer a.par b.par
  psd : Matrix.PosSemidef (n := Fin 15) (R := ℝ) a.par
  cross : p.dynamic = true → NoCross a.par ∧ NoCross b.par
  state : Pair f t a.x b.x a.cov b.cov

theorem BothAt.both {f : Int → Kin} (hf : Follows f) (hc : ∀ c, p.ctlUpd c = false) {t : Int} {a b : Filt (ekfCore p)}
    (h : BothAt f t a b) {m m' : Meas (ekfCore p)} (order : t ≤ m.time) (time : m'.time = m.time)
    (better : Payload.Better m.z m'.z) (gate : Payload.thresh m.z ≠ .sigmas 0) (reads : Reads (f m.time) m.z)
    (reads' : Reads (f m.time) m'.z) : BothAt f m.time (a.processMeasurement m) (b.processMeasurement m') := by
  obtain ⟨⟨i1, i2⟩, ⟨l1, l2⟩, hn, hp, hcr, hst⟩ := h
  unfold Filt.processMeasurement
  rw [if_pos i1, if_pos i2]
  dsimp only
  rw [l1, l2, time, if_pos (show m.time - t ≥ 0 by omega), if_pos (show m.time - t ≥ 0 by omega)]
  by_cases hlt : m.time - t > 0
  · rw [if_pos hlt, if_pos hlt]
    have h1 := pair_predict hf hc hn hp hcr (show 0 ≤ m.time - t by omega) hst a.ctl b.ctl a.ctlTime b.ctlTime m.time m.time
    rw [show t + (m.time - t) = m.time by ring] at h1
    exact ⟨⟨i1, i2⟩, ⟨rfl, rfl⟩, hn, hp, hcr, pair_correct better gate reads reads' h1⟩
  · rw [if_neg hlt, if_neg hlt]
    have : m.time = t := by omega
    rw [this] at reads reads' ⊢
    exact ⟨⟨i1, i2⟩, ⟨rfl, rfl⟩, hn, hp, hcr, pair_correct better gate reads reads' hst⟩

theorem BothAt.extra {f : Int → Kin} {t : Int} {a b : Filt (ekfCore p)}
    (h : BothAt f t a b) {m : Meas (ekfCore p)} (time : m.time = t) (good : Payload.GoodR m.z) (reads : Reads (f t) m.z) :
    BothAt f t (a.processMeasurement m) b := by
  obtain ⟨⟨i1, i2⟩, ⟨l1, l2⟩, hn, hp, hcr, hst⟩ := h
  unfold Filt.processMeasurement
  rw [if_pos i1]
  dsimp only
  rw [l1, time, if_pos (show t - t ≥ 0 by omega), if_neg (show ¬ t - t > 0 by omega)]
  exact ⟨⟨i1, i2⟩, ⟨rfl, l2⟩, hn, hp, hcr, pair_extra good reads hst⟩

/-- C116: two filters that come to the same state at the same time, the first no less sure and with no more process noise,
are given data that agree with a motion, the first one better data.  Then the first is no less sure ever after.  Missing:
further data at other times (`C116_in_between`) and data that do not agree (`C116_other_heading`). -/
theorem C116_run_partial {f : Int → Kin} (hf : Follows f) (hc : ∀ c, p.ctlUpd c = false) {t : Int} {ms ms' : List (Meas (ekfCore p))}
    (hr : BetterRun f t ms ms') {a b : Filt (ekfCore p)} (h : BothAt f t a b) (x y : State)
    (hx : (ms.foldl Filt.processMeasurement a).x = some x) (hy : (ms'.foldl Filt.processMeasurement b).x = some y) :
    Surer (ms.foldl Filt.processMeasurement a).cov (ms'.foldl Filt.processMeasurement b).cov := by
  induction hr generalizing a b with
  | nil => exact (h.state x y hx hy).2.2.2
  | both order time better gate reads reads' _ ih => exact ih (h.both hf hc order time better gate reads reads') hx hy
  | extra time good reads _ ih => exact ih (h.extra time good reads) hx hy

/-- C116 from the first measurement on: two filters without an estimate, whose first measurements are of the same
variables. -/
theorem C116_from_start_partial {f : Int → Kin} (hf : Follows f) (hc : ∀ c, p.ctlUpd c = false) {m m' : Meas (ekfCore p)}
    {ms ms' : List (Meas (ekfCore p))} {a b : Filt (ekfCore p)} (hi : a.initialized = false ∧ b.initialized = false)
    (hQ : Surer a.par b.par) (hQp : Matrix.PosSemidef (n := Fin 15) (R := ℝ) a.par) (hd : p.dynamic = true → NoCross a.par ∧ NoCross b.par)
    (hP : Uncorrelated a.cov) (hP' : Uncorrelated b.cov) (hPP : Surer a.cov b.cov)
    (time : m'.time = m.time) (better : Payload.Better m.z m'.z) (hu : Payload.upd m.z = Payload.upd m'.z)
    (hs : ∀ x : State, (ekfCore p).initX m.z a.x = some x → UpToTurns x (f m.time).vec)
    (hs' : ∀ x : State, (ekfCore p).initX m'.z b.x = some x → UpToTurns x (f m.time).vec)
    (hr : BetterRun f m.time ms ms') (x y : State)
    (hx : ((m :: ms).foldl Filt.processMeasurement a).x = some x) (hy : ((m' :: ms').foldl Filt.processMeasurement b).x = some y) :
    Surer ((m :: ms).foldl Filt.processMeasurement a).cov ((m' :: ms').foldl Filt.processMeasurement b).cov := by
  refine C116_run_partial hf hc hr (a := a.processMeasurement m) (b := b.processMeasurement m') ?_ x y hx hy
  unfold Filt.processMeasurement
  rw [if_neg (by rw [hi.1]; decide), if_neg (by rw [hi.2]; decide)]
  refine ⟨⟨rfl, rfl⟩, ⟨rfl, time⟩, hQ, hQp, hd, fun x y hx hy => ⟨hs x hx, hs' y hy, ?_, ?_⟩⟩
  · exact initCov_psd better.good hP.1 hP.2
  · exact C116_first better hu hP hP' hPP

/-! ## What does not hold -/

theorem wrap_zero : wrapStateAngles 0 = 0 := by
  funext i
  unfold wrapStateAngles
  split
  · exact normalizeAngle_zero
  · rfl

/-- Process noise of the forward velocity only. -/
noncomputable def thrustQ : Mat15 := diagonal (Pi.single 6 1)

theorem thrustQ_psd : thrustQ.PosSemidef := by
  refine PosSemidef.diagonal fun i => ?_
  by_cases h : i = 6
  · subst h; simp
  · simp [Pi.single_eq_of_ne h]

/-- A heading of zero, measured at rest with the heading known already, changes nothing. -/
theorem heading_unchanged {M : Mat15} (hM : M.PosSemidef) (h : ∀ k, M k iYaw = 0) :
    Ekf.correct (oneVar iYaw 0 .unlimited) 0 M = some (0, M) := by
  rw [correct_one iYaw (oneVar_indices iYaw 0 .unlimited) (oneVar_certain iYaw 0) 0 hM]
  simp only [h, zero_mul, add_zero, sub_zero]
  congr 2
  exact wrap_zero

theorem heading_step {g : Filt (ekfCore plainPar)} (hi : g.initialized = true) (hx : g.x = some (0 : State)) {M : Mat15}
    (hM : g.cov = M) (hQ : g.par = thrustQ) {s : Int} (hs : 0 < s - g.lastTime) {c : Fin 6 → ℝ} {ct : Int} {d : ℝ}
    (hd : toSec (s - g.lastTime) = d) {N : Mat15} (hN : N = transferF 0 d * M * (transferF 0 d)ᵀ + d • thrustQ)
    (hp : N.PosSemidef) (hc : ∀ k, N k iYaw = 0) :
    (g.processMeasurement ⟨s, "imu", oneVar iYaw 0 .unlimited, c, ct⟩).x = some (0 : State) ∧
    (g.processMeasurement ⟨s, "imu", oneVar iYaw 0 .unlimited, c, ct⟩).cov = N ∧
    (g.processMeasurement ⟨s, "imu", oneVar iYaw 0 .unlimited, c, ct⟩).initialized = true ∧
    (g.processMeasurement ⟨s, "imu", oneVar iYaw 0 .unlimited, c, ct⟩).lastTime = s ∧
    (g.processMeasurement ⟨s, "imu", oneVar iYaw 0 .unlimited, c, ct⟩).par = thrustQ := by
  obtain ⟨i, x, P, e, pr, Q, u, ut, l, tmo⟩ := g
  dsimp only at hi hx hM hQ hs hd
  subst hi hx hM hQ
  have h1 := rest_predict_ekf (p := plainPar) (fun _ => rfl) zero_atRest (by simp : cos ((0 : State) 4) ≠ 0) d P thrustQ u ut s
  rw [wrap_zero] at h1
  have h1 : Ekf.predict plainPar thrustQ u ut s (toSec (s - l)) 0 P = some (0, N) := by
    rw [hd, h1, hN]
    rfl
  have h2 := heading_unchanged hp hc
  have e1 : (ekfCore plainPar).predict thrustQ u ut s (s - l) (some 0, P, ()) = (some 0, N, ()) := by
    have : (ekfCore plainPar).predict thrustQ u ut s (s - l) (some 0, P, ()) =
      match Ekf.predict plainPar thrustQ u ut s (toSec (s - l)) 0 P with
        | some r => (some r.1, r.2, ())
        | none => (none, P, ()) := rfl
    rw [this, h1]
    rfl
  have e2 : (ekfCore plainPar).correct (oneVar iYaw 0 .unlimited) (some 0, N, ()) = (some 0, N, ()) := by
    rw [core_correct, h2]
    rfl
  unfold Filt.processMeasurement
  rw [if_pos rfl]
  dsimp only
  rw [if_pos (show s - l ≥ 0 by omega), if_pos (show s - l > 0 by omega)]
  have e3 : (ekfCore plainPar).correct (oneVar iYaw 0 .unlimited)
      (((ekfCore plainPar).predict thrustQ u ut s (s - l) (some 0, P, ())).1,
        ((ekfCore plainPar).predict thrustQ u ut s (s - l) (some 0, P, ())).2.1,
        ((ekfCore plainPar).predict thrustQ u ut s (s - l) (some 0, P, ())).2.2) = (some 0, N, ()) := by
    rw [e1]
    exact e2
  exact ⟨congrArg Prod.fst e3, congrArg (fun r => r.2.1) e3, rfl, rfl, rfl⟩

/-- A filter that knows the robot to stand at the origin, except that its forward velocity has process noise. -/
noncomputable def poised : Filt (ekfCore plainPar) :=
  { initialized := true, x := some (0 : State), cov := (0 : Mat15), ext := (), predicted := some (0 : State), par := thrustQ
    ctl := (0 : Fin 6 → ℝ), ctlTime := 0, lastTime := 0, sensorTimeout := 0 }

/-- The heading, measured at `s` seconds. -/
noncomputable def headingAt (s : Int) : Meas (ekfCore plainPar) :=
  ⟨s * 1000000000, "imu", oneVar iYaw 0 .unlimited, (0 : Fin 6 → ℝ), 0⟩

theorem thrust_apply (i j : Fin 15) : thrustQ i j = if i = 6 ∧ j = 6 then 1 else 0 := by
  unfold thrustQ
  by_cases h : i = j
  · subst h
    by_cases h6 : i = 6
    · subst h6; simp
    · simp [h6]
  · rw [diagonal_apply_ne _ h, if_neg]
    rintro ⟨rfl, rfl⟩
    exact h rfl

theorem thrust_spread (A : Mat15) (i j : Fin 15) : (A * thrustQ * Aᵀ) i j = A i 6 * A j 6 := by
  rw [Matrix.mul_apply, Finset.sum_eq_single 6]
  · rw [transpose_apply]
    unfold thrustQ
    rw [mul_diagonal, Pi.single_eq_same, mul_one]
  · intro b _ hb
    unfold thrustQ
    rw [mul_diagonal, Pi.single_eq_of_ne hb, mul_zero, zero_mul]
  · intro h
    exact absurd (Finset.mem_univ _) h

/-- C116, refuted for data in between: a robot stands still and its heading is measured, exactly, after two seconds; a second
exact measurement of the heading, after one second, makes the filter less sure where the robot is. -/
theorem C116_in_between :
    ∃ P P' : Mat15, ([headingAt 1, headingAt 2].foldl Filt.processMeasurement poised).x = some (0 : State) ∧
      ([headingAt 1, headingAt 2].foldl Filt.processMeasurement poised).cov = P ∧
      ([headingAt 2].foldl Filt.processMeasurement poised).x = some (0 : State) ∧
      ([headingAt 2].foldl Filt.processMeasurement poised).cov = P' ∧ P iX iX = 1 ∧ P' iX iX = 0 := by
  have t1 : toSec 1000000000 = 1 := by norm_num [toSec]
  have t2 : toSec 2000000000 = 2 := by norm_num [toSec]
  have hcol : ∀ k : Fin 15, thrustQ k iYaw = 0 := fun k => by
    rw [thrust_apply, if_neg]
    rintro ⟨-, h⟩
    exact absurd h (by decide)
  have a := heading_step (g := poised) rfl rfl (M := 0) rfl rfl (s := 1 * 1000000000) (by show (0 : Int) < _ - 0; norm_num) (c := 0) (ct := 0)
    (d := 1) (by show toSec (1 * 1000000000 - 0) = 1; simpa using t1) (N := thrustQ) (by simp) thrustQ_psd hcol
  have b := heading_step (g := poised) rfl rfl (M := 0) rfl rfl (s := 2 * 1000000000) (by show (0 : Int) < _ - 0; norm_num) (c := 0) (ct := 0)
    (d := 2) (by show toSec (2 * 1000000000 - 0) = 2; simpa using t2) (N := (2 : ℝ) • thrustQ) (by simp)
    (thrustQ_psd.smul (by norm_num)) (fun k => by rw [Matrix.smul_apply, hcol, smul_zero])
  obtain ⟨a1, a2, a3, a4, a5⟩ := a
  obtain ⟨N, hN⟩ : ∃ N : Mat15, N = transferF 0 1 * thrustQ * (transferF 0 1)ᵀ + (1 : ℝ) • thrustQ := ⟨_, rfl⟩
  have c := heading_step a3 a1 a2 a5 (s := 2 * 1000000000) (by rw [a4]; norm_num) (c := 0) (ct := 0) (d := 1) (by rw [a4]; simpa using t1) hN
    (by rw [hN]; exact (psd_congr thrustQ_psd _).add (thrustQ_psd.smul (by norm_num)))
    (fun k => by rw [hN, Matrix.add_apply, Matrix.smul_apply, hcol, thrust_spread, show iYaw = 5 from rfl, transferF_row5]; simp)
  refine ⟨N, _, c.1, c.2.1, b.1, b.2.1, ?_, ?_⟩
  · rw [hN, Matrix.add_apply, Matrix.smul_apply, thrust_spread, thrust_apply, show iX = 0 from rfl, transferF_row0]
    simp [trig]
  · rw [Matrix.smul_apply, thrust_apply]
    simp [iX]

/-- Everything in `C116_in_between` agrees with a robot that stands still. -/
example : Follows (fun t => move ⟨0, 0, 0, 0, 0⟩ (toSec t)) ∧ (oneVar iYaw 0 .unlimited).GoodR ∧
    ∀ t, Reads (move ⟨0, 0, 0, 0, 0⟩ (toSec t)) (oneVar iYaw 0 .unlimited) := by
  refine ⟨C97_straight _ rfl, (oneVar_certain iYaw 0).good, fun t i v hu hv => ?_⟩
  have hi : i = iYaw := by simpa [oneVar] using hu
  subst hi
  have hv : Dbl.fin 0 = Dbl.fin v := hv
  injection hv with hv
  refine ⟨fun _ => ⟨0, ?_⟩, fun h => absurd (Or.inr (Or.inr rfl)) h⟩
  rw [← hv]
  show (0 : ℝ) = (move ⟨0, 0, 0, 0, 0⟩ (toSec t)).eul 2 + _
  simp [move, eulerRates]

/-- A quarter turn measured with variance `r`. -/
noncomputable def turnedBy (r : ℝ) : Payload := ⟨fun k => decide (k = iYaw), fun _ => .fin (π / 2), r • 1, .unlimited⟩

theorem turnedBy_indices (r : ℝ) : (turnedBy r).indices = [iYaw] := oneVar_indices iYaw (π / 2) .unlimited

theorem turnedBy_certain {r : ℝ} (hr : 1 ≤ r) : (turnedBy r).Certain where
  ungated := rfl
  good := ((PosSemidef.one (n := Fin 15) (R := ℝ)).smul (by linarith : (0 : ℝ) ≤ r)).submatrix _
  proper := by
    have : subR (turnedBy r).indices.get (turnedBy r).R = .of fun _ _ => r := by
      show subR _ (r • 1 : Mat15) = _
      rw [turnedBy_indices]
      ext a b
      fin_cases a; fin_cases b
      simp only [subR, of_apply, if_true]
      rw [Matrix.smul_apply, Matrix.one_apply_eq, smul_eq_mul, mul_one, sanitize_max (by linarith), max_eq_left (by linarith)]
    rw [this]
    rw [turnedBy_indices]
    simp
    linarith

theorem turned_better : (turnedBy 1).Better (turnedBy 2) where
  good := (turnedBy_certain le_rfl).good
  good' := (turnedBy_certain (by norm_num)).good
  more := fun _ h h' => ⟨h, h'⟩
  floor := fun i _ => by
    constructor <;> (show (1e-9 : ℝ) ≤ (_ • (1 : Mat15)) i i; rw [Matrix.smul_apply, Matrix.one_apply_eq]; norm_num)
  less := fun v _ => by
    show v ⬝ᵥ ((1 : ℝ) • (1 : Mat15)).mulVec v ≤ v ⬝ᵥ ((2 : ℝ) • (1 : Mat15)).mulVec v
    rw [smul_mulVec, smul_mulVec, one_mulVec, dotProduct_smul, dotProduct_smul, smul_eq_mul, smul_eq_mul]
    have : 0 ≤ v ⬝ᵥ v := Finset.sum_nonneg fun i _ => mul_self_nonneg _
    linarith

/-- C116, refuted for data that do not agree with the estimate: a robot at rest, whose heading and forward velocity are known
to within one unit; its heading is measured a quarter turn off.  With the better compass the heading is corrected further,
and a second later the filter is less sure of the position across. -/
theorem C116_other_heading {P : Mat15} (hP : P = diagonal (Pi.single 5 1 + Pi.single 6 1)) :
    ∃ r r' s s' : State × Mat15, (turnedBy 1).Better (turnedBy 2) ∧
      Ekf.correct (turnedBy 1) 0 P = some r ∧ Ekf.correct (turnedBy 2) 0 P = some r' ∧
      Ekf.predict plainPar 0 0 0 0 1 r.1 r.2 = some s ∧ Ekf.predict plainPar 0 0 0 0 1 r'.1 r'.2 = some s' ∧
      s.2 iY iY = 1 / 2 ∧ s'.2 iY iY = 1 / 4 := by
  have hp : P.PosSemidef := by
    rw [hP]
    refine PosSemidef.diagonal fun i => ?_
    fin_cases i <;> simp
  have key : ∀ r : ℝ, 1 ≤ r → ∃ M : Mat15,
      Ekf.correct (turnedBy r) 0 P = some (Pi.single 5 (π / 2 / (1 + r)), M) ∧
      ∃ s : State × Mat15, Ekf.predict plainPar 0 0 0 0 1 (Pi.single 5 (π / 2 / (1 + r))) M = some s ∧
        s.2 iY iY = sin (π / 2 / (1 + r)) ^ 2 := by
    intro r hr
    have hpi := pi_pos
    have hlt : π / 2 / (1 + r) ≤ π := by
      rw [div_le_iff₀ (by linarith)]
      nlinarith
    have hge : 0 ≤ π / 2 / (1 + r) := by positivity
    obtain ⟨M, hM⟩ : ∃ M : Mat15, M = .of fun k l => P k l - P k iYaw * (P iYaw iYaw + r)⁻¹ * P iYaw l := ⟨_, rfl⟩
    have hM' : M = diagonal (Pi.single 5 (1 - (1 + r)⁻¹) + Pi.single 6 1) := by
      rw [hM, hP]
      ext k l
      by_cases hkl : k = l
      · subst hkl
        rw [of_apply, diagonal_apply_eq, diagonal_apply_eq, diagonal_apply_eq]
        by_cases h5 : k = 5
        · subst h5
          simp [iYaw]
        · rw [diagonal_apply_ne _ (show k ≠ iYaw from h5)]
          simp [h5]
      · rw [of_apply, diagonal_apply_ne _ hkl, diagonal_apply_ne _ hkl]
        by_cases h5 : k = iYaw
        · rw [diagonal_apply_ne _ (show iYaw ≠ l from h5 ▸ hkl)]
          simp
        · rw [diagonal_apply_ne _ h5]
          simp
    refine ⟨M, ?_, ?_⟩
    · rw [correct_one iYaw (turnedBy_indices r) (turnedBy_certain hr) 0 hp]
      have hs : sanitize ((turnedBy r).R iYaw iYaw) = r := by
        show sanitize ((r • 1 : Mat15) iYaw iYaw) = r
        rw [Matrix.smul_apply, Matrix.one_apply_eq, smul_eq_mul, mul_one, sanitize_max (by linarith), max_eq_left (by linarith)]
      rw [hs, ← hM]
      congr 2
      have hz : ((turnedBy r).z iYaw).val - (0 : State) iYaw = π / 2 := by
        show π / 2 - 0 = π / 2
        ring
      rw [hz, if_pos (Or.inr (Or.inr rfl)), normalizeAngle_of_mem (by linarith) (by linarith)]
      have e : (fun k => (0 : State) k + P k iYaw * (P iYaw iYaw + r)⁻¹ * (π / 2)) = Pi.single 5 (π / 2 / (1 + r)) := by
        funext k
        rw [hP]
        by_cases h5 : k = 5
        · subst h5
          simp [iYaw]
          ring
        · rw [diagonal_apply_ne _ (show k ≠ iYaw from h5), Pi.single_eq_of_ne h5]
          simp
      rw [e]
      funext k
      unfold wrapStateAngles
      split
      · by_cases h5 : k = 5
        · subst h5
          rw [Pi.single_eq_same]
          exact normalizeAngle_of_mem (by linarith) hlt
        · rw [Pi.single_eq_of_ne h5]
          exact normalizeAngle_zero
      · rfl
    · have hrest : AtRest (Pi.single (M := fun _ => ℝ) (5 : Fin 15) (π / 2 / (1 + r))) := by
        intro i hi
        refine Pi.single_eq_of_ne ?_ _
        rintro rfl
        exact absurd hi (by decide)
      refine ⟨_, rest_predict_ekf (p := plainPar) (fun _ => rfl) hrest (by simp) 1 M 0 0 0 0, ?_⟩
      have hn : noiseQ plainPar 0 (Pi.single 5 (π / 2 / (1 + r))) = 0 := rfl
      dsimp only
      rw [hn, smul_zero, add_zero, hM', Matrix.mul_apply, sum15]
      simp only [mul_diagonal, transpose_apply, show iY = 1 from rfl, transferF_row1]
      simp [trig, iRoll, iPitch, iYaw]
      ring
  obtain ⟨M, a1, s, a2, a3⟩ := key 1 le_rfl
  obtain ⟨M', b1, s', b2, b3⟩ := key 2 (by norm_num)
  refine ⟨_, _, s, s', turned_better, a1, b1, a2, b2, ?_, ?_⟩
  · rw [a3, show π / 2 / (1 + 1) = π / 4 by ring, sin_pi_div_four]
    rw [div_pow, sq_sqrt (by norm_num)]
    norm_num
  · rw [b3, show π / 2 / (1 + 2) = π / 6 by ring, sin_pi_div_six]
    norm_num

/-- A robot that stands still, a quarter turn to the left. -/
noncomputable def parked : Kin := ⟨0, ![0, 0, π / 2], 0, 0, 0⟩

theorem parked_still (t : ℝ) : move parked t = parked := by
  unfold move parked
  simp [eulerRates]

theorem parked_reads (r : ℝ) (t : ℝ) : Reads (move parked t) (turnedBy r) := by
  intro i v hu hv
  have hi : i = iYaw := by simpa [turnedBy] using hu
  subst hi
  have hv : Dbl.fin (π / 2) = Dbl.fin v := hv
  injection hv with hv
  refine ⟨fun _ => ⟨0, ?_⟩, fun h => absurd (Or.inr (Or.inr rfl)) h⟩
  rw [← hv, parked_still]
  show π / 2 = parked.eul 2 + _
  simp [parked]

/-- A filter that knows where the robot is parked to within one unit. -/
noncomputable def parkedFilt : Filt (ekfCore plainPar) :=
  { poised with x := some parked.vec, cov := (1 : Mat15) }

/-- The hypotheses of `C116_run_partial`: a better compass at one second, and the position at the same time. -/
example : ∃ ms ms' : List (Meas (ekfCore plainPar)), Follows (fun t => move parked (toSec t)) ∧
    BothAt (fun t => move parked (toSec t)) 0 parkedFilt parkedFilt ∧ BetterRun (fun t => move parked (toSec t)) 0 ms ms' ∧
    ms ≠ ms' := by
  refine ⟨[⟨1000000000, "imu", turnedBy 1, (0 : Fin 6 → ℝ), 0⟩, ⟨1000000000, "gps", oneVar iX 0 .unlimited, (0 : Fin 6 → ℝ), 0⟩],
    [⟨1000000000, "imu", turnedBy 2, (0 : Fin 6 → ℝ), 0⟩], C97_straight _ rfl,
    ⟨⟨rfl, rfl⟩, ⟨rfl, rfl⟩, Surer.refl _, thrustQ_psd, fun h => absurd h (by simp [plainPar, demoPar]), ?_⟩, ?_, by simp⟩
  · intro x y hx hy
    cases hx
    cases hy
    have h : UpToTurns parked.vec (move parked (toSec 0)).vec := by
      rw [parked_still]
      exact UpToTurns.refl _
    exact ⟨h, h, PosSemidef.one, Surer.refl _⟩
  · refine BetterRun.both (by norm_num) rfl turned_better (by simp [turnedBy]) (parked_reads 1 _) (parked_reads 2 _)
      (BetterRun.extra rfl (oneVar_certain iX 0).good (fun i v hu hv => ?_) BetterRun.nil)
    have hi : i = iX := by simpa [oneVar] using hu
    subst hi
    have hv : Dbl.fin 0 = Dbl.fin v := hv
    injection hv with hv
    refine ⟨fun h => ?_, fun _ => ?_⟩
    · rcases h with h | h | h <;> exact absurd h (by decide)
    · rw [← hv, parked_still]
      rfl

end RL
