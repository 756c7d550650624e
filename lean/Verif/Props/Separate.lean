import Verif.Props.Superpose
/-! # C149: what is measured of one velocity does not disturb the others -/

namespace RL
open Matrix

/-- A set of velocities and accelerations that the motion model does not mix with the others: with a linear velocity
(variables 6 to 8) the acceleration in the same direction (12 to 14) and the other way round. -/
structure Unmixed (S : Fin 15 → Prop) : Prop where
  motion : ∀ i, S i → 6 ≤ i.val
  x : S iVx ↔ S iAx
  y : S iVy ↔ S iAy
  z : S iVz ↔ S iAz

/-- The variables of `S` are not correlated with the other velocities and accelerations. -/
def ApartFrom (S : Fin 15 → Prop) (P : Mat15) : Prop := ∀ i j : Fin 15, S i → ¬ S j → 6 ≤ j.val → P i j = 0 ∧ P j i = 0

/-- Covariances that agree about `S` and do not correlate it with the other velocities and accelerations. -/
structure SameAbout (S : Fin 15 → Prop) (P P' : Mat15) : Prop where
  same : ∀ i j, S i → S j → P' i j = P i j
  apart : ApartFrom S P
  apart' : ApartFrom S P'

/-- Estimates that agree about `S`. -/
def SameValues (S : Fin 15 → Prop) (x x' : State) : Prop := ∀ i, S i → x' i = x i

/-- The same for states that may not be finite. -/
def SameValuesOpt (S : Fin 15 → Prop) (x x' : Option State) : Prop := ∀ u v, x = some u → x' = some v → SameValues S u v

/-- Two messages of the same time that say the same about `S`, about other velocities and accelerations anything, and
nothing about poses; errors in `S` have nothing to do with the others. -/
structure Payload.SameAbout (S : Fin 15 → Prop) (m m' : Payload) : Prop where
  motion : ∀ i, m.upd i = true → 6 ≤ i.val
  motion' : ∀ i, m'.upd i = true → 6 ≤ i.val
  upd : ∀ i, S i → m'.upd i = m.upd i
  z : ∀ i, S i → m.upd i = true → m'.z i = m.z i
  R : ∀ i j, S i → S j → m.upd i = true → m.upd j = true → m'.R i j = m.R i j
  apart : ∀ i j, S i → ¬ S j → m.upd i = true → m.upd j = true → m.R i j = 0 ∧ m.R j i = 0
  apart' : ∀ i j, S i → ¬ S j → m'.upd i = true → m'.upd j = true → m'.R i j = 0 ∧ m'.R j i = 0
  open1 : m.thresh = .unlimited
  open2 : m'.thresh = .unlimited

/-- The same things happen to both nodes at the same times, and they hear the same about `S`. -/
inductive Node.Event.SameAbout (S : Fin 15 → Prop) {p p' : FilterPar} : Node.Event (ekfCore p) → Node.Event (ekfCore p') → Prop
  | sensor (topic : String) (stamp : Int) {z z' : Option Payload} (h : Option.Rel (Payload.SameAbout S) z z') :
      SameAbout S (.sensor topic stamp z) (.sensor topic stamp z')
  | control {u u' : Fin 6 → ℝ} (t : Int) (h : ∀ c, S (velIdx c) → u' c = u c) : SameAbout S (.control u t) (.control u' t)
  | setPose (stamp now : Int) {r r' : Option (Option State × Mat15)}
      (h : Option.Rel (fun a b => SameValuesOpt S a.1 b.1 ∧ RL.SameAbout S a.2 b.2) r r') :
      SameAbout S (.setPose stamp now r) (.setPose stamp now r')
  | reset : SameAbout S .reset .reset
  | toggle (on : Bool) : SameAbout S (.toggle on) (.toggle on)
  | enable : SameAbout S .enable .enable
  | tick (now now2 : Int) (tfOk : Bool) : SameAbout S (.tick now now2 tfOk) (.tick now now2 tfOk)

/-- Messages sent at the same times that, as long as both are finite, say the same about `S`, covariances included. -/
inductive Out.SameAbout (S : Fin 15 → Prop) {p p' : FilterPar} : Out (ekfCore p) → Out (ekfCore p') → Prop
  | odom (t : Int) {x x' : Option State} {P P' : Mat15}
      (h : ∀ u v, x = some u → x' = some v → SameValues S u v ∧ ∀ i j, S i → S j → P' i j = P i j) :
      SameAbout S (.odom t x P) (.odom t x' P')
  | tf (t : Int) : SameAbout S (.tf t) (.tf t)
  | accel (t : Int) : SameAbout S (.accel t) (.accel t)

/-- Filters that treat commands about `S` alike. -/
structure FilterPar.SameAbout (S : Fin 15 → Prop) (p p' : FilterPar) : Prop where
  use : p'.useControl = p.useControl
  timeout : p'.ctlTimeout = p.ctlTimeout
  upd : ∀ c, S (velIdx c) → p'.ctlUpd c = p.ctlUpd c
  accLim : ∀ c, S (velIdx c) → p'.accLim c = p.accLim c
  accGain : ∀ c, S (velIdx c) → p'.accGain c = p.accGain c
  decLim : ∀ c, S (velIdx c) → p'.decLim c = p.decLim c
  decGain : ∀ c, S (velIdx c) → p'.decGain c = p.decGain c

/-- Commands that agree about `S`. -/
def SameCommand (S : Fin 15 → Prop) (u u' : Fin 6 → ℝ) : Prop := ∀ c, S (velIdx c) → u' c = u c

/-- Configurations that agree about `S`; poses and the other velocities may start anywhere. -/
structure Cfg.SameAbout (S : Fin 15 → Prop) {p p' : FilterPar} (g : Cfg (ekfCore p)) (g' : Cfg (ekfCore p')) : Prop where
  switches : g.SameSwitches g'
  noise : RL.SameAbout S g.processNoise g'.processNoise
  keptNoise : RL.SameAbout S g.keptNoise g'.keptNoise
  cov : RL.SameAbout S g.initialCov g'.initialCov
  keptCov : RL.SameAbout S g.keptCov g'.keptCov
  state : SameValuesOpt S g.initialState g'.initialState
  ctl0 : SameCommand S g.ctl0 g'.ctl0

/-- The entries of the innovation covariance, by variable. -/
noncomputable def innovEntry (R P : Mat15) (k l : Fin 15) : ℝ := P k l + if k = l then sanitize (R k l) else R k l

theorem innovCov_entry {n : ℕ} {e : Fin n → Fin 15} (he : Function.Injective e) (R P : Mat15) (a b : Fin n) :
    innovCov e R P a b = innovEntry R P (e a) (e b) := by
  rw [innovCov_eq, Matrix.add_apply, Matrix.submatrix_apply]
  simp only [subR, Matrix.of_apply, innovEntry, he.eq_iff]

/-- The innovation weighted by the inverse of its covariance, by variable; zero for what is not measured. -/
noncomputable def weighted {n : ℕ} (e : Fin n → Fin 15) (R P : Mat15) (Y : Fin 15 → ℝ) (k : Fin 15) : ℝ :=
  ∑ a, if e a = k then ((innovCov e R P)⁻¹.mulVec fun b => Y (e b)) a else 0

theorem weighted_sum {n : ℕ} (e : Fin n → Fin 15) (R P : Mat15) (Y f : Fin 15 → ℝ) :
    ∑ k, f k * weighted e R P Y k = ∑ a, f (e a) * ((innovCov e R P)⁻¹.mulVec fun b => Y (e b)) a := by
  simp only [weighted, Finset.mul_sum]
  rw [Finset.sum_comm]
  refine Finset.sum_congr rfl fun a _ => ?_
  simp only [mul_ite, mul_zero, Finset.sum_ite_eq, Finset.mem_univ, if_true]

theorem weighted_none {n : ℕ} (e : Fin n → Fin 15) (R P : Mat15) (Y : Fin 15 → ℝ) (k : Fin 15) (h : ∀ a, e a ≠ k) :
    weighted e R P Y k = 0 := Finset.sum_eq_zero fun a _ => if_neg (h a)

theorem weighted_gain {n : ℕ} (e : Fin n → Fin 15) (R P : Mat15) (Y : Fin 15 → ℝ) (i : Fin 15) :
    ∑ a, gain e R P i a * Y (e a) = ∑ k, P i k * weighted e R P Y k := by
  rw [weighted_sum]
  have : ∑ a, gain e R P i a * Y (e a) = ((P * (subH e)ᵀ * (innovCov e R P)⁻¹).mulVec fun b => Y (e b)) i := rfl
  rw [this, ← Matrix.mulVec_mulVec]
  show ∑ a, (P * (subH e)ᵀ) i a * _ = _
  refine Finset.sum_congr rfl fun a _ => ?_
  rw [mul_subHT_apply]

theorem weighted_solves {n : ℕ} {e : Fin n → Fin 15} (he : Function.Injective e) {R P : Mat15}
    (hd : (innovCov e R P).det ≠ 0) (Y : Fin 15 → ℝ) (a : Fin n) :
    ∑ k, innovEntry R P (e a) k * weighted e R P Y k = Y (e a) := by
  rw [weighted_sum]
  have h : (innovCov e R P).mulVec ((innovCov e R P)⁻¹.mulVec fun b => Y (e b)) = fun b => Y (e b) := by
    rw [Matrix.mulVec_mulVec, Matrix.mul_nonsing_inv _ (isUnit_iff_ne_zero.2 hd), Matrix.one_mulVec]
  rw [← congrFun h a]
  show _ = ∑ b, innovCov e R P a b * _
  refine Finset.sum_congr rfl fun b _ => ?_
  rw [innovCov_entry he]

open Classical in
/-- What a message does to a variable of `S` depends on `S` only. -/
theorem gain_about {S : Fin 15 → Prop} {n n' : ℕ} {e : Fin n → Fin 15} {e' : Fin n' → Fin 15} (he : Function.Injective e)
    (he' : Function.Injective e') {R R' P P' : Mat15} (hd : (innovCov e R P).det ≠ 0) (hd' : (innovCov e' R' P').det ≠ 0)
    (hsel : ∀ k, S k → ((∃ a, e a = k) ↔ ∃ a, e' a = k))
    (hN : ∀ a b, S (e a) → ¬ S (e b) → innovEntry R P (e a) (e b) = 0 ∧ innovEntry R P (e b) (e a) = 0)
    (hN' : ∀ a b, S (e' a) → ¬ S (e' b) → innovEntry R' P' (e' a) (e' b) = 0)
    (hNN : ∀ a b, S (e a) → S (e b) → innovEntry R' P' (e a) (e b) = innovEntry R P (e a) (e b))
    {i : Fin 15} (hi : ∀ a, ¬ S (e a) → P i (e a) = 0) (hi' : ∀ a, ¬ S (e' a) → P' i (e' a) = 0)
    (hPP : ∀ j, S j → P' i j = P i j) {Y Y' : Fin 15 → ℝ} (hY : ∀ a, S (e a) → Y' (e a) = Y (e a)) :
    ∑ a, gain e' R' P' i a * Y' (e' a) = ∑ a, gain e R P i a * Y (e a) := by
  set W := weighted e R P Y with hW
  set W' := weighted e' R' P' Y' with hW'
  have only : ∀ {n : ℕ} {e : Fin n → Fin 15} {R P : Mat15} {Y f : Fin 15 → ℝ}, (∀ a, ¬ S (e a) → f (e a) = 0) →
      ∑ k, f k * weighted e R P Y k = ∑ k, if S k then f k * weighted e R P Y k else 0 := by
    intro n e R P Y f hf
    refine Finset.sum_congr rfl fun k _ => ?_
    by_cases hk : S k
    · rw [if_pos hk]
    · rw [if_neg hk]
      by_cases hs : ∃ a, e a = k
      · obtain ⟨a, rfl⟩ := hs
        rw [hf a hk, zero_mul]
      · rw [weighted_none e R P Y k fun a ha => hs ⟨a, ha⟩, mul_zero]
  set V : Fin 15 → ℝ := fun k => if S k then W' k - W k else 0 with hV
  have V0 : ∀ k, (∀ a, e a ≠ k) → V k = 0 := by
    intro k hk
    by_cases hS : S k
    · simp only [hV, if_pos hS, hW, hW']
      rw [weighted_none e R P Y k hk, weighted_none e' R' P' Y' k, sub_zero]
      intro a ha
      obtain ⟨b, hb⟩ := (hsel k hS).2 ⟨a, ha⟩
      exact hk b hb
    · exact if_neg hS
  have Vsum : ∀ f : Fin 15 → ℝ, ∑ a, f (e a) * V (e a) = ∑ k, f k * V k := by
    intro f
    have h : ∀ k, f k * V k = ∑ a, if e a = k then f (e a) * V (e a) else 0 := by
      intro k
      by_cases hs : ∃ a, e a = k
      · obtain ⟨a, rfl⟩ := hs
        simp only [he.eq_iff, Finset.sum_ite_eq', Finset.mem_univ, if_true]
      · rw [V0 k fun a ha => hs ⟨a, ha⟩, mul_zero, eq_comm]
        exact Finset.sum_eq_zero fun a _ => if_neg fun ha => hs ⟨a, ha⟩
    rw [Finset.sum_congr rfl fun k _ => h k, Finset.sum_comm]
    refine Finset.sum_congr rfl fun a _ => ?_
    simp only [Finset.sum_ite_eq, Finset.mem_univ, if_true]
  have hv : (innovCov e R P).mulVec (fun a => V (e a)) = 0 := by
    funext a
    show ∑ b, innovCov e R P a b * V (e b) = 0
    have : ∑ b, innovCov e R P a b * V (e b) = ∑ b, innovEntry R P (e a) (e b) * V (e b) :=
      Finset.sum_congr rfl fun b _ => by rw [innovCov_entry he]
    rw [this]
    by_cases hS : S (e a)
    · rw [Vsum fun k => innovEntry R P (e a) k]
      have h1 := weighted_solves he hd Y a
      rw [only fun b hb => (hN a b hS hb).1] at h1
      obtain ⟨a', ha'⟩ := (hsel _ hS).1 ⟨a, rfl⟩
      have h2 := weighted_solves he' hd' Y' a'
      rw [only fun b hb => hN' a' b (ha' ▸ hS) hb, ha', hY a hS] at h2
      have h3 : ∑ k, innovEntry R P (e a) k * V k =
          (∑ k, if S k then innovEntry R' P' (e a) k * W' k else 0) - ∑ k, if S k then innovEntry R P (e a) k * W k else 0 := by
        rw [← Finset.sum_sub_distrib]
        refine Finset.sum_congr rfl fun k _ => ?_
        by_cases hk : S k
        · simp only [hV, if_pos hk]
          by_cases hs : ∃ b, e b = k
          · obtain ⟨b, rfl⟩ := hs
            rw [hNN a b hS hk]
            ring
          · have z1 : W k = 0 := weighted_none e R P Y k fun b hb => hs ⟨b, hb⟩
            have z2 : W' k = 0 := weighted_none e' R' P' Y' k fun b hb => hs ((hsel k hk).2 ⟨b, hb⟩)
            rw [z1, z2]
            ring
        · simp only [hV, if_neg hk]
          ring
      rw [h3, h2, h1, sub_self]
    · refine Finset.sum_eq_zero fun b _ => ?_
      by_cases hb : S (e b)
      · rw [(hN b a hb hS).2, zero_mul]
      · rw [show V (e b) = 0 from if_neg hb, mul_zero]
  have hz := Matrix.eq_zero_of_mulVec_eq_zero hd hv
  have hWW : ∀ k, S k → W' k = W k := by
    intro k hk
    have : V k = 0 := by
      by_cases hs : ∃ a, e a = k
      · obtain ⟨a, rfl⟩ := hs
        exact congrFun hz a
      · exact V0 k fun a ha => hs ⟨a, ha⟩
    simp only [hV, if_pos hk] at this
    linarith
  rw [weighted_gain, weighted_gain, only hi, only hi']
  refine Finset.sum_congr rfl fun k _ => ?_
  by_cases hk : S k
  · rw [if_pos hk, if_pos hk, hPP k hk]
    exact congrArg _ (hWW k hk)
  · rw [if_neg hk, if_neg hk]

/-- The Joseph form with the gain of the filter. -/
theorem joseph_gain {n : ℕ} {e : Fin n → Fin 15} {R P : Mat15} (hd : (innovCov e R P).det ≠ 0) (i j : Fin 15) :
    joseph e R (gain e R P) P i j = P i j - ∑ a, gain e R P i a * P (e a) j := by
  have hK : gain e R P * innovCov e R P = P * (subH e)ᵀ := by
    unfold gain
    rw [Matrix.mul_assoc, Matrix.nonsing_inv_mul _ (isUnit_iff_ne_zero.2 hd), Matrix.mul_one]
  have key : joseph e R (gain e R P) P = P - gain e R P * (subH e * P) := by
    have h1 : joseph e R (gain e R P) P = P - gain e R P * (subH e * P) - P * (subH e)ᵀ * (gain e R P)ᵀ +
        gain e R P * innovCov e R P * (gain e R P)ᵀ := by
      unfold joseph innovCov
      rw [Matrix.transpose_sub, Matrix.transpose_one, Matrix.transpose_mul]
      simp only [Matrix.sub_mul, Matrix.mul_sub, Matrix.add_mul, Matrix.mul_add, Matrix.one_mul, Matrix.mul_one, Matrix.mul_assoc]
      abel
    rw [h1, hK]
    abel
  rw [key, Matrix.sub_apply, Matrix.mul_apply]
  congr 1
  refine Finset.sum_congr rfl fun a _ => ?_
  rw [subH_mul_apply]

/-- The only other variable in the motion model of a velocity or acceleration is the acceleration in the same direction. -/
def Drives (i j : Fin 15) : Prop := (i = iVx ∧ j = iAx) ∨ (i = iVy ∧ j = iAy) ∨ (i = iVz ∧ j = iAz)

instance (i j : Fin 15) : Decidable (Drives i j) := inferInstanceAs (Decidable (_ ∨ _ ∨ _))

theorem transferJ_drives (x : State) (dt : ℝ) : ∀ i j : Fin 15, 6 ≤ i.val → i ≠ j → ¬ Drives i j → transferJ x dt i j = 0 := by
  intro i j hi hij hd
  show (jEntry (trig x) dt x i j).getD ((fEntry (trig x) dt i j).getD ((1 : Mat15) i j)) = 0
  rw [Matrix.one_apply_ne hij]
  revert hi hij hd
  fin_cases i <;> first
    | exact fun h => absurd h (by decide)
    | (fin_cases j <;> first
        | exact fun _ _ _ => rfl
        | exact fun _ h => absurd rfl h
        | exact fun _ _ h => absurd (by decide) h)

theorem transferF_drives (x : State) (dt : ℝ) : ∀ i j : Fin 15, 6 ≤ i.val → i ≠ j → ¬ Drives i j → transferF x dt i j = 0 := by
  intro i j hi hij hd
  show (fEntry (trig x) dt i j).getD ((1 : Mat15) i j) = 0
  rw [Matrix.one_apply_ne hij]
  revert hi hij hd
  fin_cases i <;> first
    | exact fun h => absurd h (by decide)
    | (fin_cases j <;> first
        | exact fun _ _ _ => rfl
        | exact fun _ h => absurd rfl h
        | exact fun _ _ h => absurd (by decide) h)

variable {S : Fin 15 → Prop}

theorem Unmixed.drives (hS : Unmixed S) {i j : Fin 15} (h : Drives i j) : S i ↔ S j := by
  rcases h with ⟨rfl, rfl⟩ | ⟨rfl, rfl⟩ | ⟨rfl, rfl⟩
  · exact hS.x
  · exact hS.y
  · exact hS.z

theorem Unmixed.J (hS : Unmixed S) (x : State) (dt : ℝ) {i j : Fin 15} (hi : 6 ≤ i.val) (hij : ¬ (S i ↔ S j)) :
    transferJ x dt i j = 0 :=
  transferJ_drives x dt i j hi (fun h => hij (by rw [h])) fun h => hij (hS.drives h)

theorem Unmixed.F (hS : Unmixed S) (x : State) (dt : ℝ) {i j : Fin 15} (hi : 6 ≤ i.val) (hij : ¬ (S i ↔ S j)) :
    transferF x dt i j = 0 :=
  transferF_drives x dt i j hi (fun h => hij (by rw [h])) fun h => hij (hS.drives h)

theorem noiseQ_motion (p : FilterPar) (Q : Mat15) (x : State) (i j : Fin 15) (h : 6 ≤ i.val ∨ 6 ≤ j.val) :
    noiseQ p Q x i j = Q i j := by
  unfold noiseQ
  split
  · show (if i.val < 6 ∧ j.val < 6 then _ else Q i j) = Q i j
    rw [if_neg fun hh => by omega]
  · rfl

theorem SameValues.control (hS : Unmixed S) {p p' : FilterPar} (hp : p.SameAbout S p') {u u' : Fin 6 → ℝ}
    (hu : SameCommand S u u') (t ref : Int) (dt : ℝ) {x x' : State} (hx : SameValues S x x') :
    SameValues S (applyControl p (prepareControl p u t ref x) dt x) (applyControl p' (prepareControl p' u' t ref x') dt x') := by
  have key : ∀ c, S (velIdx c) → prepareControl p' u' t ref x' c = prepareControl p u t ref x c := by
    intro c hc
    unfold prepareControl
    rw [hp.use, hp.timeout, hp.upd c hc, hp.accLim c hc, hp.accGain c hc, hp.decLim c hc, hp.decGain c hc, hu c hc, hx _ hc]
  have rate : ∀ c, S (velIdx c) → x' (velIdx c) + prepareControl p' u' t ref x' c * dt =
      x (velIdx c) + prepareControl p u t ref x c * dt := fun c hc => by rw [key c hc, hx _ hc]
  have acc : ∀ (c : Fin 6) (i : Fin 15), S i → S (velIdx c) →
      (if p'.ctlUpd c then prepareControl p' u' t ref x' c else x' i) = if p.ctlUpd c then prepareControl p u t ref x c else x i :=
    fun c i hi hc => by rw [key c hc, hx _ hi, hp.upd c hc]
  intro i hi
  have h6 := hS.motion i hi
  revert hi h6
  fin_cases i
  iterate 6 exact fun _ h => absurd h (by decide)
  iterate 3 exact fun hi _ => hx _ hi
  · exact fun hi _ => rate 3 hi
  · exact fun hi _ => rate 4 hi
  · exact fun hi _ => rate 5 hi
  · exact fun hi _ => acc 0 _ hi (hS.x.2 hi)
  · exact fun hi _ => acc 1 _ hi (hS.y.2 hi)
  · exact fun hi _ => acc 2 _ hi (hS.z.2 hi)

theorem SameAbout.predict (hS : Unmixed S) {p p' : FilterPar} (hp : p.SameAbout S p')
    {Q Q' P P' : Mat15} (hQ : SameAbout S Q Q') (hP : SameAbout S P P') {u u' : Fin 6 → ℝ} (hu : SameCommand S u u') {t ref : Int} {dt : ℝ}
    {x x' : State} (hx : SameValues S x x') {r r' : State × Mat15} (h : Ekf.predict p Q u t ref dt x P = some r)
    (h' : Ekf.predict p' Q' u' t ref dt x' P' = some r') : SameValues S r.1 r'.1 ∧ SameAbout S r.2 r'.2 := by
  unfold Ekf.predict at h h'
  dsimp only at h h'
  split at h
  · cases h
  split at h'
  · cases h'
  injection h with h
  injection h' with h'
  have hx := hx.control hS hp hu t ref dt
  rw [← h, ← h']
  have apart : ∀ {p : FilterPar} {x : State} {Q P : Mat15}, ApartFrom S Q → ApartFrom S P →
      ApartFrom S (transferJ x dt * P * (transferJ x dt)ᵀ + dt • noiseQ p Q x) := by
    intro p x Q P hQ hP i j hi hj h6
    have hi6 := hS.motion i hi
    rw [Matrix.add_apply, Matrix.add_apply, Matrix.smul_apply, Matrix.smul_apply, noiseQ_motion p Q x i j (.inl hi6),
      noiseQ_motion p Q x j i (.inr hi6), (hQ i j hi hj h6).1, (hQ i j hi hj h6).2, smul_zero, add_zero, add_zero]
    simp only [Matrix.mul_apply, Matrix.transpose_apply, Finset.sum_mul]
    constructor
    · refine Finset.sum_eq_zero fun b _ => Finset.sum_eq_zero fun a _ => ?_
      by_cases ha : S a
      · by_cases hb : S b
        · rw [hS.J x dt h6 (fun hh => hj (hh.2 hb)), mul_zero]
        · by_cases hb6 : 6 ≤ b.val
          · rw [(hP a b ha hb hb6).1, mul_zero, zero_mul]
          · rw [transferJ_motion_pose x dt j b h6 (by omega), mul_zero]
      · rw [hS.J x dt hi6 (fun hh => ha (hh.1 hi)), zero_mul, zero_mul]
    · refine Finset.sum_eq_zero fun b _ => Finset.sum_eq_zero fun a _ => ?_
      by_cases hb : S b
      · by_cases ha : S a
        · rw [hS.J x dt h6 (fun hh => hj (hh.2 ha)), zero_mul, zero_mul]
        · by_cases ha6 : 6 ≤ a.val
          · rw [(hP b a hb ha ha6).2, mul_zero, zero_mul]
          · rw [transferJ_motion_pose x dt j a h6 (by omega), zero_mul, zero_mul]
      · rw [hS.J x dt hi6 (fun hh => hb (hh.1 hi)), mul_zero]
  refine ⟨fun i hi => ?_, fun i j hi hj => ?_, apart hQ.apart hP.apart, apart hQ.apart' hP.apart'⟩
  · have hi6 := hS.motion i hi
    show wrapStateAngles _ i = wrapStateAngles _ i
    rw [wrap_motion _ i hi6, wrap_motion _ i hi6]
    show ∑ j, transferF x' dt i j * _ = ∑ j, transferF x dt i j * _
    refine Finset.sum_congr rfl fun j _ => ?_
    by_cases hj : S j
    · rw [transferF_motion x x' dt i j hi6, hx j hj]
    · rw [hS.F x' dt hi6 (fun hh => hj (hh.1 hi)), hS.F x dt hi6 (fun hh => hj (hh.1 hi)), zero_mul, zero_mul]
  · have hi6 := hS.motion i hi
    have hj6 := hS.motion j hj
    show (transferJ x' dt * P' * (transferJ x' dt)ᵀ + dt • noiseQ p' Q' x') i j =
      (transferJ x dt * P * (transferJ x dt)ᵀ + dt • noiseQ p Q x) i j
    rw [Matrix.add_apply, Matrix.add_apply, Matrix.smul_apply, Matrix.smul_apply, noiseQ_motion p Q x i j (.inl hi6),
      noiseQ_motion p' Q' x' i j (.inl hi6), hQ.same i j hi hj]
    congr 1
    simp only [Matrix.mul_apply, Matrix.transpose_apply, Finset.sum_mul]
    refine Finset.sum_congr rfl fun b _ => Finset.sum_congr rfl fun a _ => ?_
    rw [transferJ_motion x x' dt i a hi6, transferJ_motion x x' dt j b hj6]
    by_cases ha : S a
    · by_cases hb : S b
      · rw [hP.same a b ha hb]
      · rw [hS.J x dt hj6 (fun hh => hb (hh.1 hj)), mul_zero, mul_zero]
    · rw [hS.J x dt hi6 (fun hh => ha (hh.1 hi)), zero_mul, zero_mul, zero_mul, zero_mul]

theorem Payload.mem_indices {m : Payload} (k : Fin 15) :
    (∃ a, m.indices.get a = k) ↔ m.upd k = true ∧ (m.z k).isFin = true := by
  rw [← List.mem_iff_get]
  unfold Payload.indices
  rw [List.mem_filter]
  cases m.z k <;> simp [Dbl.isFin, Dbl.isNan, Dbl.isInf]

theorem Payload.indices_injective (m : Payload) : Function.Injective m.indices.get :=
  List.nodup_iff_injective_get.1 ((List.nodup_finRange 15).filter _)

theorem innovEntry_ne (R P : Mat15) {k l : Fin 15} (h : k ≠ l) : innovEntry R P k l = P k l + R k l := by
  unfold innovEntry
  rw [if_neg h]

theorem SameAbout.correct (hS : Unmixed S) {m m' : Payload} (hm : m.SameAbout S m') {P P' : Mat15} (hP : SameAbout S P P')
    {x x' : State} (hx : SameValues S x x') {r r' : State × Mat15} (h : Ekf.correct m x P = some r)
    (h' : Ekf.correct m' x' P' = some r') : SameValues S r.1 r'.1 ∧ SameAbout S r.2 r'.2 := by
  have he := m.indices_injective
  have he' := m'.indices_injective
  have sel : ∀ a, m.upd (m.indices.get a) = true := fun a => Payload.selected a
  have sel' : ∀ a, m'.upd (m'.indices.get a) = true := fun a => Payload.selected a
  have hN : ∀ {m : Payload} {P : Mat15}, (∀ i, m.upd i = true → 6 ≤ i.val) →
      (∀ i j, S i → ¬ S j → m.upd i = true → m.upd j = true → m.R i j = 0 ∧ m.R j i = 0) → ApartFrom S P →
      ∀ a b, S (m.indices.get a) → ¬ S (m.indices.get b) → innovEntry m.R P (m.indices.get a) (m.indices.get b) = 0 ∧
        innovEntry m.R P (m.indices.get b) (m.indices.get a) = 0 := by
    intro m P h6 hR hP a b ha hb
    have hne : m.indices.get a ≠ m.indices.get b := fun hh => hb (hh ▸ ha)
    have h1 := hR _ _ ha hb (Payload.selected a) (Payload.selected b)
    have h2 := hP _ _ ha hb (h6 _ (Payload.selected b))
    rw [innovEntry_ne _ _ hne, innovEntry_ne _ _ hne.symm, h1.1, h1.2, h2.1, h2.2, add_zero]
    exact ⟨rfl, rfl⟩
  unfold Ekf.correct correctAt at h h'
  rw [hm.open2] at h'
  rw [hm.open1] at h
  split at h
  · cases h
  rename_i hd
  split at h'
  · cases h'
  rename_i hd'
  rw [if_pos (show checkMahalanobis _ _ .unlimited from trivial)] at h h'
  injection h with h
  injection h' with h'
  have hsel : ∀ k, S k → ((∃ a, m.indices.get a = k) ↔ ∃ a, m'.indices.get a = k) := by
    intro k hk
    rw [Payload.mem_indices, Payload.mem_indices, hm.upd k hk]
    constructor
    · rintro ⟨h1, h2⟩
      exact ⟨h1, by rw [hm.z k hk h1]; exact h2⟩
    · rintro ⟨h1, h2⟩
      exact ⟨h1, by rw [← hm.z k hk h1]; exact h2⟩
  have hNN : ∀ a b, S (m.indices.get a) → S (m.indices.get b) →
      innovEntry m'.R P' (m.indices.get a) (m.indices.get b) = innovEntry m.R P (m.indices.get a) (m.indices.get b) := by
    intro a b ha hb
    unfold innovEntry
    rw [hP.same _ _ ha hb, hm.R _ _ ha hb (sel a) (sel b)]
  have about : ∀ {i : Fin 15}, S i → ∀ {Y Y' : Fin 15 → ℝ}, (∀ a, S (m.indices.get a) → Y' (m.indices.get a) = Y (m.indices.get a)) →
      ∑ a, gain m'.indices.get m'.R P' i a * Y' (m'.indices.get a) = ∑ a, gain m.indices.get m.R P i a * Y (m.indices.get a) := by
    intro i hi Y Y' hY
    exact gain_about he he' hd hd' hsel (hN hm.motion hm.apart hP.apart)
      (fun a b ha hb => (hN hm.motion' hm.apart' hP.apart' a b ha hb).1) hNN
      (fun a ha => (hP.apart i _ hi ha (hm.motion _ (sel a))).1) (fun a ha => (hP.apart' i _ hi ha (hm.motion' _ (sel' a))).1)
      (fun j hj => hP.same i j hi hj) hY
  have apart : ∀ {m : Payload} {P : Mat15}, (∀ i, m.upd i = true → 6 ≤ i.val) →
      (∀ i j, S i → ¬ S j → m.upd i = true → m.upd j = true → m.R i j = 0 ∧ m.R j i = 0) → ApartFrom S P →
      (innovCov m.indices.get m.R P).det ≠ 0 → ApartFrom S (joseph m.indices.get m.R (gain m.indices.get m.R P) P) := by
    intro m P h6 hR hP hd i j hi hj hj6
    have hn := hN h6 hR hP
    have inj := m.indices_injective
    rw [joseph_gain hd, joseph_gain hd, (hP i j hi hj hj6).1, (hP i j hi hj hj6).2]
    have z : ∀ i, ∑ a, gain m.indices.get m.R P i a * (0 : ℝ) = 0 := fun i => by simp
    constructor
    · rw [gain_about (S := S) (Y := fun _ => 0) inj inj hd hd (fun _ _ => Iff.rfl) hn (fun a b ha hb => (hn a b ha hb).1)
        (fun _ _ _ _ => rfl) (fun a ha => (hP i _ hi ha (h6 _ (Payload.selected a))).1)
        (fun a ha => (hP i _ hi ha (h6 _ (Payload.selected a))).1) (fun _ _ => rfl) (Y' := fun k => P k j)
        (fun a ha => (hP _ j ha hj hj6).1), z i, sub_zero]
    · rw [gain_about (S := fun k => ¬ S k) (Y := fun _ => 0) inj inj hd hd (fun _ _ => Iff.rfl)
        (fun a b ha hb => ⟨(hn b a (not_not.1 hb) ha).2, (hn b a (not_not.1 hb) ha).1⟩)
        (fun a b ha hb => (hn b a (not_not.1 hb) ha).2)
        (fun _ _ _ _ => rfl) (fun a ha => (hP _ j (not_not.1 ha) hj hj6).2)
        (fun a ha => (hP _ j (not_not.1 ha) hj hj6).2) (fun _ _ => rfl) (Y' := fun k => P k i)
        (fun a ha => (hP i _ hi ha (h6 _ (Payload.selected a))).2), z j, sub_zero]
  rw [← h, ← h']
  refine ⟨fun i hi => ?_, fun i j hi hj => ?_, apart hm.motion hm.apart hP.apart hd, apart hm.motion' hm.apart' hP.apart' hd'⟩
  · have hi6 := hS.motion i hi
    show wrapStateAngles _ i = wrapStateAngles _ i
    rw [wrap_motion _ i hi6, wrap_motion _ i hi6]
    show x' i + ∑ a, gain m'.indices.get m'.R P' i a * innovation m'.indices.get (fun i => (m'.z i).val) x' a =
      x i + ∑ a, gain m.indices.get m.R P i a * innovation m.indices.get (fun i => (m.z i).val) x a
    rw [hx i hi]
    congr 1
    simp only [innovation_motion fun a => hm.motion _ (sel a), innovation_motion fun a => hm.motion' _ (sel' a)]
    exact about hi (Y := fun k => (m.z k).val - x k) (Y' := fun k => (m'.z k).val - x' k) fun a ha => by
      rw [hm.z _ ha (sel a), hx _ ha]
  · show joseph _ _ _ _ i j = joseph _ _ _ _ i j
    rw [joseph_gain hd, joseph_gain hd', hP.same i j hi hj]
    congr 1
    exact about hi (Y := fun k => P k j) (Y' := fun k => P' k j) fun a ha => hP.same _ _ ha hj

theorem SameAbout.init {m m' : Payload} (hm : m.SameAbout S m') {P P' : Mat15} (hP : SameAbout S P P') :
    SameAbout S (initCov m P) (initCov m' P') := by
  have apart : ∀ {m : Payload} {P : Mat15},
      (∀ i j, S i → ¬ S j → m.upd i = true → m.upd j = true → m.R i j = 0 ∧ m.R j i = 0) → ApartFrom S P →
      ApartFrom S (initCov m P) := by
    intro m P hR hP i j hi hj hj6
    simp only [initCov, Matrix.of_apply, Bool.and_eq_true]
    by_cases hu : m.upd i = true ∧ m.upd j = true
    · rw [if_pos hu, if_pos hu.symm]
      exact hR i j hi hj hu.1 hu.2
    · rw [if_neg hu, if_neg fun hh => hu hh.symm]
      exact hP i j hi hj hj6
  refine ⟨fun i j hi hj => ?_, apart hm.apart hP.apart, apart hm.apart' hP.apart'⟩
  simp only [initCov, Matrix.of_apply, hm.upd i hi, hm.upd j hj]
  split
  · rename_i h
    simp only [Bool.and_eq_true] at h
    exact hm.R i j hi hj h.1 h.2
  · exact hP.same i j hi hj

theorem SameValues.init {m m' : Payload} (hm : m.SameAbout S m') {x x' : State} (hx : SameValues S x x')
    {y y' : State} (h : initState m x = some y) (h' : initState m' x' = some y') : SameValues S y y' := by
  unfold initState at h h'
  split at h
  swap
  · cases h
  split at h'
  swap
  · cases h'
  injection h with h
  injection h' with h'
  intro i hi
  rw [← h, ← h']
  simp only [hm.upd i hi]
  cases hu : m.upd i with
  | true => simp [hm.z i hi hu]
  | false => simpa using hx i hi

/-- What relates the two estimates. -/
def SameAboutBoth (S : Fin 15 → Prop) {p p' : FilterPar} (x : (pairCore (ekfCore p) (ekfCore p')).X)
    (P : (pairCore (ekfCore p) (ekfCore p')).Cov) : Prop :=
  ∀ u v, (x : Option State × Option State).1 = some u → (x : Option State × Option State).2 = some v →
    SameValues S u v ∧ SameAbout S (P : Mat15 × Mat15).1 (P : Mat15 × Mat15).2

theorem sameAbout_inv (hS : Unmixed S) {p p' : FilterPar} (hp : p.SameAbout S p')
    {g : Cfg (ekfCore p)} {g' : Cfg (ekfCore p')} (hg : g.SameAbout S g') :
    EstInv (g.pair g') (SameAboutBoth S) (SameAboutBoth S)
      (fun z => Payload.SameAbout S (z : Payload × Payload).1 (z : Payload × Payload).2)
      (fun c => SameCommand S (c : (Fin 6 → ℝ) × (Fin 6 → ℝ)).1 (c : (Fin 6 → ℝ) × (Fin 6 → ℝ)).2) where
  predict := by
    rintro ⟨Q, Q'⟩ hpar ⟨u, u'⟩ t ref delta ⟨x, x'⟩ ⟨P, P'⟩ ⟨⟨⟩, ⟨⟩⟩ - hu hI y y' h h'
    have hQ : SameAbout S Q Q' := by
      rcases hpar with hh | hh
      · cases hh
        exact hg.noise
      · cases hh
        exact hg.keptNoise
    obtain ⟨x0, rfl, e⟩ := ekf_predict_some h
    obtain ⟨y0, rfl, e'⟩ := ekf_predict_some h'
    obtain ⟨a1, a2⟩ := hI x0 y0 rfl rfl
    exact SameAbout.predict hS hp hQ a2 hu a1 e e'
  correct := by
    rintro ⟨z, z'⟩ ⟨x, x'⟩ ⟨P, P'⟩ ⟨⟨⟩, ⟨⟩⟩ hz hI y y' h h'
    obtain ⟨x0, rfl, e⟩ := ekf_correct_some h
    obtain ⟨y0, rfl, e'⟩ := ekf_correct_some h'
    obtain ⟨a1, a2⟩ := hI x0 y0 rfl rfl
    exact SameAbout.correct hS hz a2 a1 e e'
  init := by
    rintro ⟨z, z'⟩ ⟨x, x'⟩ ⟨P, P'⟩ hz hI y y' h h'
    obtain ⟨x0, rfl, e⟩ : ∃ x0, x = some x0 ∧ initState z x0 = some y := by
      cases x with
      | none => cases h
      | some x0 => exact ⟨x0, rfl, h⟩
    obtain ⟨y0, rfl, e'⟩ : ∃ x0, x' = some x0 ∧ initState z' x0 = some y' := by
      cases x' with
      | none => cases h'
      | some x0 => exact ⟨x0, rfl, h'⟩
    obtain ⟨a1, a2⟩ := hI x0 y0 rfl rfl
    exact ⟨SameValues.init hz a1 e e', SameAbout.init hz a2⟩
  start := fun u v h h' => ⟨hg.state u v h h', hg.cov⟩
  reset := by
    rintro u v h h'
    cases h
    cases h'
    exact ⟨fun _ _ => rfl, hg.keptCov⟩
  ctl0 := hg.ctl0

theorem apartFrom_smul (S : Fin 15 → Prop) (c : ℝ) : ApartFrom S (c • (1 : Mat15)) := by
  intro i j hi hj _
  have hne : i ≠ j := fun h => hj (h ▸ hi)
  rw [Matrix.smul_apply, Matrix.smul_apply, Matrix.one_apply_ne hne, Matrix.one_apply_ne hne.symm, smul_zero]
  exact ⟨rfl, rfl⟩

/-- C149: choose some velocities and accelerations that the motion model does not mix with the others, say the turn rate,
or the forward velocity and acceleration.  Two nodes with the same switches get messages at the same
times that measure velocities and accelerations, reject nothing, and do not correlate the chosen variables with others.
If both are told and commanded the same about the chosen variables, they send the same about them, covariances included, as long as both
are finite: whatever is or is not measured of the other velocities, however well, whatever is commanded of them, and wherever the robots are. -/
theorem C149_any_queue (hS : Unmixed S) (p p' : FilterPar) (hp : p.SameAbout S p')
    {Q : MQueue (pairCore (ekfCore p) (ekfCore p'))} {Q1 : MQueue (ekfCore p)}
    {Q2 : MQueue (ekfCore p')} (κ1 : QueueSim (fstSim _ _) Q Q1) (κ2 : QueueSim (sndSim _ _) Q Q2)
    (g : Cfg (ekfCore p)) (g' : Cfg (ekfCore p')) (hg : g.SameAbout S g') {u u' : Fin 6 → ℝ}
    (hu : SameCommand S u u') (now : Int)
    (h0 : 0 ≤ now) {es : List (Node.Event (ekfCore p))} {es' : List (Node.Event (ekfCore p'))}
    (he : List.Forall₂ (Node.Event.SameAbout S) es es') (hclk : Clocked now es) :
    List.Forall₂ (Out.SameAbout S) (Node.run g (Node.start g Q1 () u now) es).2
      (Node.run g' (Node.start g' Q2 () u' now) es').2 := by
  obtain ⟨ps, rfl, rfl, hz, hc⟩ : ∃ ps : List (Node.Event (pairCore (ekfCore p) (ekfCore p'))),
      ps.map Node.Event.fst = es ∧ ps.map Node.Event.snd = es' ∧
      (∀ (n : Node (pairCore (ekfCore p) (ekfCore p')) Q), Along (g.pair g') (Node.Ok (SameAboutBoth S) (SameAboutBoth S)
        (fun z => Payload.SameAbout S (z : Payload × Payload).1 (z : Payload × Payload).2)
        (fun c => SameCommand S (c : (Fin 6 → ℝ) × (Fin 6 → ℝ)).1 (c : (Fin 6 → ℝ) × (Fin 6 → ℝ)).2)) n ps) ∧
      ∀ k, Clocked k es → Clocked k ps := by
    clear hclk
    induction he with
    | nil => exact ⟨[], rfl, rfl, fun _ => trivial, fun _ _ => trivial⟩
    | cons h _ ih =>
      obtain ⟨ps, h1, h2, h3, h4⟩ := ih
      rw [← h1, ← h2]
      rw [← h1] at h4
      cases h with
      | sensor topic stamp h =>
        cases h with
        | none => exact ⟨.sensor topic stamp none :: ps, rfl, rfl, fun n => ⟨trivial, h3 _⟩, fun k hk => h4 k hk⟩
        | some h =>
          rename_i z z'
          exact ⟨.sensor topic stamp (some (z, z')) :: ps, rfl, rfl, fun n => ⟨h, h3 _⟩, fun k hk => h4 k hk⟩
      | control t h =>
        rename_i v v'
        exact ⟨.control (v, v') t :: ps, rfl, rfl, fun n => ⟨h, h3 _⟩, fun k hk => h4 k hk⟩
      | setPose stamp now h =>
        cases h with
        | none =>
          have zero : SameAboutBoth S (p := p) (p' := p') (some 0, some 0) ((1e-6 : ℝ) • (1 : Mat15), (1e-6 : ℝ) • (1 : Mat15)) := by
            rintro u v h h'
            cases h
            cases h'
            exact ⟨fun _ _ => rfl, fun _ _ _ _ => rfl, apartFrom_smul S _, apartFrom_smul S _⟩
          exact ⟨.setPose stamp now none :: ps, rfl, rfl, fun n => ⟨⟨zero, fun _ => zero⟩, h3 _⟩,
            fun k hk => ⟨hk.1, h4 _ hk.2⟩⟩
        | some h =>
          rename_i a b
          have hs : SameAboutBoth S (p := p) (p' := p') (a.1, b.1) (a.2, b.2) := fun u v e e' => ⟨h.1 u v e e', h.2⟩
          exact ⟨.setPose stamp now (some ((a.1, b.1), (a.2, b.2))) :: ps, rfl, rfl,
            fun n => ⟨⟨hs, fun _ => hs⟩, h3 _⟩, fun k hk => ⟨hk.1, h4 _ hk.2⟩⟩
      | reset => exact ⟨.reset :: ps, rfl, rfl, fun n => ⟨trivial, h3 _⟩, fun k hk => h4 k hk⟩
      | toggle on => exact ⟨.toggle on :: ps, rfl, rfl, fun n => ⟨trivial, h3 _⟩, fun k hk => h4 k hk⟩
      | enable => exact ⟨.enable :: ps, rfl, rfl, fun n => ⟨trivial, h3 _⟩, fun k hk => h4 k hk⟩
      | tick now now2 tfOk =>
        exact ⟨.tick now now2 tfOk :: ps, rfl, rfl, fun n => ⟨trivial, h3 _⟩, fun k hk => ⟨hk.1, hk.2.1, h4 _ hk.2.2⟩⟩
  have hE := sameAbout_inv hS hp hg
  have hN := (NInv.run hE ps (NInv.start hE Q ((), ()) (fctl0 := (u, u')) hu now)
    (HInv.start (g.pair g') Q ((), ()) (u, u') now) h0 (hc now hclk) (hz _)).2
  have e1 := run_fst κ1 g g' () () u u' now ps
  have e2 := run_snd κ2 g g' hg.switches () () u u' now ps
  rw [e1, e2, List.forall₂_map_left_iff, List.forall₂_map_right_iff, List.forall₂_same]
  intro o ho
  cases o with
  | odom t x P => exact .odom t fun u v h h' => ⟨(hN t x P ho u v h h').1, (hN t x P ho u v h h').2.same⟩
  | tf t => exact .tf t
  | accel t => exact .accel t

/-- C149 for the queue that keeps measurements of one instant in the order of arrival. -/
theorem C149_undisturbed (hS : Unmixed S) (p p' : FilterPar) (hp : p.SameAbout S p')
    (g : Cfg (ekfCore p)) (g' : Cfg (ekfCore p')) (hg : g.SameAbout S g') {u u' : Fin 6 → ℝ}
    (hu : SameCommand S u u') (now : Int)
    (h0 : 0 ≤ now) {es : List (Node.Event (ekfCore p))} {es' : List (Node.Event (ekfCore p'))}
    (he : List.Forall₂ (Node.Event.SameAbout S) es es') (hclk : Clocked now es) :
    List.Forall₂ (Out.SameAbout S) (Node.run g (Node.start g (PQueue.sortedList _ _) () u now) es).2
      (Node.run g' (Node.start g' (PQueue.sortedList _ _) () u' now) es').2 :=
  C149_any_queue hS p p' hp (QueueSim.sorted (fstSim _ _)) (QueueSim.sorted (sndSim _ _)) g g' hg hu now h0 he hclk

/-- C149: measured positions break this.  Two robots of which the estimates differ in the forward velocity only, one second
of motion, and then the same position beside the track: the moving one is believed to turn, the standing one is not. -/
theorem C149_position : ∃ (x x' : State) (P : Mat15) (r r' s s' : State × Mat15), P.PosSemidef ∧ ApartFrom (· = iVyaw) P ∧
    (∀ i, i ≠ iVx → x' i = x i) ∧
    Ekf.predict plainPar 0 0 0 0 1 x P = some r ∧ Ekf.predict plainPar 0 0 0 0 1 x' P = some r' ∧
    Ekf.correct (oneVar iY 1 .unlimited) r.1 r.2 = some s ∧ Ekf.correct (oneVar iY 1 .unlimited) r'.1 r'.2 = some s' ∧
    s.1 iVyaw = 0 ∧ 0 < s'.1 iVyaw := by
  let B : Mat15 := .of fun i j => if i = iYaw ∧ j = iVyaw then 1 else if i = j then 1 else 0
  have psd : ∀ A : Mat15, (A * Aᵀ).PosSemidef := fun A => by
    have := Matrix.posSemidef_self_mul_conjTranspose A
    rwa [Matrix.conjTranspose_eq_transpose_of_trivial] at this
  have hv : ∀ (x : State) (j : Fin 15), transferJ x 1 iVyaw j = if j = iVyaw then 1 else 0 := by
    intro x j
    show (jEntry (trig x) 1 x iVyaw j).getD ((fEntry (trig x) 1 iVyaw j).getD ((1 : Mat15) iVyaw j)) = _
    fin_cases j <;> simp [jEntry, fEntry, iVyaw, Matrix.one_apply]
  have hB : ∀ j, B iVyaw j = if j = iVyaw then 1 else 0 := by
    intro j
    show (if iVyaw = iYaw ∧ j = iVyaw then (1 : ℝ) else if iVyaw = j then 1 else 0) = _
    rw [if_neg fun h => absurd h.1 (by decide)]
    simp only [eq_comm]
  have hB' : ∀ i, B i iVyaw = if i = iYaw then 1 else if i = iVyaw then 1 else 0 := by
    intro i
    show (if i = iYaw ∧ iVyaw = iVyaw then (1 : ℝ) else _) = _
    simp
  have hP : ∀ k, (B * Bᵀ) k iVyaw = if k = iYaw then 1 else if k = iVyaw then 1 else 0 := by
    intro k
    rw [Matrix.mul_apply]
    simp only [Matrix.transpose_apply, hB, mul_ite, mul_one, mul_zero, Finset.sum_ite_eq', Finset.mem_univ, if_true, hB']
  have sym : ∀ A : Mat15, ∀ i j, (A * Aᵀ) i j = (A * Aᵀ) j i := fun A i j => by
    rw [Matrix.mul_apply, Matrix.mul_apply]
    exact Finset.sum_congr rfl fun _ _ => mul_comm _ _
  have hp : ∀ v : ℝ, ∃ r : State × Mat15, Ekf.predict plainPar 0 0 0 0 1 (Pi.single iVx v) (B * Bᵀ) = some r ∧
      r.1 iY = 0 ∧ r.1 iVyaw = 0 ∧ r.2.PosSemidef ∧ r.2 iVyaw iY = v := by
    intro v
    set x : State := Pi.single iVx v with hx
    have z : ∀ i, i ≠ iVx → x i = 0 := fun i hi => Pi.single_eq_of_ne hi _
    have e : Real.cos (x iPitch) = 1 := by rw [z _ (by decide), Real.cos_zero]
    unfold Ekf.predict
    dsimp only
    rw [if_neg (by rw [e]; norm_num), applyControl_none plainPar fun _ => rfl]
    have h0 : noiseQ plainPar 0 x = 0 := rfl
    have hJ : transferJ x 1 * (B * Bᵀ) * (transferJ x 1)ᵀ = (transferJ x 1 * B) * (transferJ x 1 * B)ᵀ := by
      rw [Matrix.transpose_mul]
      simp only [Matrix.mul_assoc]
    have f1 : ∀ i, (transferF x 1).mulVec x i = transferF x 1 i iVx * v := by
      intro i
      show ∑ j, transferF x 1 i j * x j = _
      rw [Finset.sum_eq_single iVx (fun j _ hj => by rw [z j hj, mul_zero]) (fun h => absurd (Finset.mem_univ _) h), hx,
        Pi.single_eq_same]
    refine ⟨_, rfl, ?_, ?_, ?_, ?_⟩
    · show wrapStateAngles ((transferF x 1).mulVec x) iY = 0
      unfold wrapStateAngles
      rw [if_neg (by decide), f1]
      show Real.sin (x iYaw) * Real.cos (x iPitch) * 1 * v = 0
      rw [z iYaw (by decide), Real.sin_zero]
      ring
    · show wrapStateAngles ((transferF x 1).mulVec x) iVyaw = 0
      rw [wrap_motion _ _ (by decide), f1]
      show (0 : ℝ) * v = 0
      ring
    · dsimp only
      rw [h0, smul_zero, add_zero, hJ]
      exact psd _
    · dsimp only
      rw [h0, smul_zero, add_zero, hJ, sym, ← hJ, Matrix.mul_apply]
      simp only [Matrix.transpose_apply, hv, mul_ite, mul_one, mul_zero, Finset.sum_ite_eq', Finset.mem_univ, if_true]
      rw [Matrix.mul_apply]
      have h5 : transferJ x 1 iY iYaw = v := by
        have c : transferJ x 1 iY iYaw = (jEntry (trig x) 1 x iY iYaw).getD 0 := rfl
        rw [c]
        have hvx : x iVx = v := by rw [hx, Pi.single_eq_same]
        have t1 : (trig x).cy = 1 := (congrArg Real.cos (z iYaw (by decide))).trans Real.cos_zero
        have t2 : (trig x).cp = 1 := e
        simp only [jEntry, iY, iYaw, Option.getD_some]
        simp [t1, t2, hvx, z iVy (by decide), z iVz (by decide), z iAx (by decide), z iAy (by decide), z iAz (by decide)]
      have h11 : transferJ x 1 iY iVyaw = 0 := rfl
      rw [Finset.sum_eq_single iYaw]
      · rw [h5, hP, if_pos rfl, mul_one]
      · intro k _ hk
        rw [hP, if_neg hk]
        split
        · rename_i h
          rw [h, h11, zero_mul]
        · rw [mul_zero]
      · exact fun h => absurd (Finset.mem_univ _) h
  obtain ⟨r, h1, h2, h3, h4, h5⟩ := hp 0
  obtain ⟨r', h1', h2', h3', h4', h5'⟩ := hp 1
  have c := correct_one iY (oneVar_indices iY 1 .unlimited) (oneVar_certain iY 1) r.1 h4
  have c' := correct_one iY (oneVar_indices iY 1 .unlimited) (oneVar_certain iY 1) r'.1 h4'
  have hang : ¬ (iY = iRoll ∨ iY = iPitch ∨ iY = iYaw) := by decide
  refine ⟨_, _, B * Bᵀ, r, r', _, _, psd B, ?_, ?_, h1, h1', c, c', ?_, ?_⟩
  · rintro i j rfl hj h6
    rw [sym B iVyaw j, hP, if_neg (fun h => by rw [h] at h6; exact absurd h6 (by decide)), if_neg hj]
    exact ⟨rfl, rfl⟩
  · intro i hi
    rw [Pi.single_eq_of_ne hi, Pi.single_eq_of_ne hi]
  · dsimp only
    rw [wrap_motion _ _ (by decide), if_neg hang, h3, h5]
    ring
  · dsimp only
    rw [wrap_motion _ _ (by decide), if_neg hang, h3', h5', h2']
    simp only [oneVar, sanitize_one, Matrix.one_apply_eq, Dbl.val]
    have := h4'.diag_nonneg (i := iY)
    have : 0 < (r'.2 iY iY + 1)⁻¹ := by positivity
    simpa using this

/-- A gyroscope beside wheels that say one thing or another, or nothing, and different forward commands. -/
example : List.Forall₂ (Out.SameAbout (· = iVyaw))
    (Node.run (demoCfg demoPar) (Node.start (demoCfg demoPar) (PQueue.sortedList _ _) () (0 : Fin 6 → ℝ) 0)
      [.sensor "wheels" 1 (some (oneVar iVx 0 .unlimited)), .sensor "gyro" 1 (some (oneVar iVyaw 2 .unlimited)), .tick 2 2 true,
        .control (fun _ => 0) 2, .sensor "wheels" 3 (some (oneVar iVx 5 .unlimited)), .tick 4 4 true]).2
    (Node.run (demoCfg demoPar) (Node.start (demoCfg demoPar) (PQueue.sortedList _ _) () (0 : Fin 6 → ℝ) 0)
      [.sensor "wheels" 1 (some (oneVar iVx 7 .unlimited)), .sensor "gyro" 1 (some (oneVar iVyaw 2 .unlimited)), .tick 2 2 true,
        .control (fun c => if c = 0 then 3 else 0) 2, .sensor "wheels" 3 (some (demoZ (fun _ => false) fun _ => .nan)), .tick 4 4 true]).2 := by
  have hS : Unmixed (· = iVyaw) := ⟨by rintro i rfl; decide, by decide, by decide, by decide⟩
  have dg : ∀ d : Fin 15 → ℝ, SameAbout (· = iVyaw) (Matrix.diagonal d) (Matrix.diagonal d) := by
    intro d
    have h : ApartFrom (· = iVyaw) (Matrix.diagonal d) := by
      rintro i j rfl hj _
      exact ⟨Matrix.diagonal_apply_ne _ fun h => hj h.symm, Matrix.diagonal_apply_ne _ hj⟩
    exact ⟨fun _ _ _ _ => rfl, h, h⟩
  have sm : ∀ c : ℝ, SameAbout (· = iVyaw) (c • (1 : Mat15)) (c • (1 : Mat15)) := fun c =>
    ⟨fun _ _ _ _ => rfl, apartFrom_smul _ c, apartFrom_smul _ c⟩
  have hg : (demoCfg demoPar).SameAbout (· = iVyaw) (demoCfg demoPar) :=
    ⟨⟨rfl, rfl, rfl, rfl, rfl, rfl, rfl, rfl, rfl⟩, dg _, dg _, sm _, sm _, by
      intro u v h h'
      rw [h] at h'
      cases h'
      exact fun _ _ => rfl, fun _ _ => rfl⟩
  have one : ∀ i j : Fin 15, i = iVyaw → ¬ j = iVyaw → (1 : Mat15) i j = 0 ∧ (1 : Mat15) j i = 0 := by
    rintro i j rfl hj
    exact ⟨Matrix.one_apply_ne fun h => hj h.symm, Matrix.one_apply_ne hj⟩
  have m6 : ∀ (i : Fin 15) (v : ℝ), 6 ≤ i.val → ∀ k, (oneVar i v .unlimited).upd k = true → 6 ≤ k.val := by
    intro i v hi k hk
    obtain rfl : k = i := of_decide_eq_true hk
    exact hi
  have wheels : ∀ v w, (oneVar iVx v .unlimited).SameAbout (· = iVyaw) (oneVar iVx w .unlimited) := by
    intro v w
    refine ⟨m6 _ _ (by decide), m6 _ _ (by decide), fun _ _ => rfl, ?_, fun _ _ _ _ _ _ => rfl,
      fun i j hi hj _ _ => one i j hi hj, fun i j hi hj _ _ => one i j hi hj, rfl, rfl⟩
    rintro i rfl hu
    exact absurd hu (by simp [oneVar, iVx, iVyaw])
  have none' : ∀ v, (oneVar iVx v .unlimited).SameAbout (· = iVyaw) (demoZ (fun _ => false) fun _ => .nan) := by
    intro v
    refine ⟨m6 _ _ (by decide), fun i hi => absurd hi (by simp [demoZ]), ?_, ?_, fun _ _ _ _ _ _ => rfl,
      fun i j hi hj _ _ => one i j hi hj, fun i j hi hj _ _ => one i j hi hj, rfl, rfl⟩
    · rintro i rfl
      simp [demoZ, oneVar, iVx, iVyaw]
    · rintro i rfl hu
      exact absurd hu (by simp [oneVar, iVx, iVyaw])
  have gyro : ∀ v, (oneVar iVyaw v .unlimited).SameAbout (· = iVyaw) (oneVar iVyaw v .unlimited) := fun v =>
    ⟨m6 _ _ (by decide), m6 _ _ (by decide), fun _ _ => rfl, fun _ _ _ => rfl, fun _ _ _ _ _ _ => rfl,
      fun i j hi hj _ _ => one i j hi hj, fun i j hi hj _ _ => one i j hi hj, rfl, rfl⟩
  have hc : ∀ c : Fin 6, velIdx c = iVyaw → (if c = 0 then (3 : ℝ) else 0) = 0 := by
    intro c hc
    rw [if_neg]
    rintro rfl
    exact absurd hc (by decide)
  exact C149_undisturbed hS demoPar demoPar ⟨rfl, rfl, fun _ _ => rfl, fun _ _ => rfl, fun _ _ => rfl, fun _ _ => rfl,
    fun _ _ => rfl⟩ _ _ hg (fun _ _ => rfl) 0 le_rfl
    (.cons (.sensor _ _ (.some (wheels _ _))) (.cons (.sensor _ _ (.some (gyro _))) (.cons (.tick _ _ _)
      (.cons (.control _ hc) (.cons (.sensor _ _ (.some (none' _))) (.cons (.tick _ _ _) .nil)))))) (by simp [Clocked])

end RL
