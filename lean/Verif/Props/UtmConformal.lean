import Verif.Proofs.UtmConformal
import Mathlib.MeasureTheory.Integral.IntervalIntegral.FundThmCalculus
/-! # C110: the function `UTM` keeps angles, and the lengths of central meridians -/

namespace RL.Nav
open Filter Topology

/-- The radius of curvature of the meridian at a latitude (degrees) of the ellipsoid with radius `wgsA` and
eccentricity² `utmE2`. -/
noncomputable def meridianRadius (lat : ℝ) : ℝ :=
  wgsA * (1 - utmE2) / Real.sqrt (1 - utmE2 * Real.sin (lat * (Real.pi / 180)) ^ 2) ^ 3

/-- Length of the meridian of that ellipsoid from the equator to a latitude (degrees). -/
noncomputable def meridianArc (lat : ℝ) : ℝ :=
  ∫ l in (0 : ℝ)..lat, meridianRadius l * (Real.pi / 180)

theorem meridianRadius_eq (lat : ℝ) : meridianRadius lat = wgsA * utmR (lat * (Real.pi / 180)) := by
  unfold meridianRadius utmR utmW
  rw [pow_two (Real.sin _), ← mul_assoc utmE2, div_pow, one_pow]
  ring

/-- A small step from inside a zone does not leave it. -/
theorem zone_near {lon : ℝ} (h : |lon - centralMeridian lon| < 3) : ∀ᶠ l in 𝓝 lon, centralMeridian l = centralMeridian lon := by
  have six : ∀ l : ℝ, ∃ k : ℤ, centralMeridian l = 6 * k + 3 := by
    intro l
    unfold centralMeridian
    split
    · exact ⟨⌊l⌋.tdiv 6, by have := Int.mul_tdiv_add_tmod ⌊l⌋ 6; omega⟩
    · exact ⟨⌈l⌉.tdiv 6 - 1, by have := Int.mul_tdiv_add_tmod ⌈l⌉ 6; omega⟩
  have hc : Continuous fun l : ℝ => |l - centralMeridian lon| := (continuous_id.sub continuous_const).abs
  filter_upwards [hc.continuousAt.eventually_lt (continuousAt_const (y := (3 : ℝ))) h] with l hl
  obtain ⟨k, hk⟩ := six l
  obtain ⟨k', hk'⟩ := six lon
  have h1 := abs_le.1 (C55_central_meridian l)
  have h2 := abs_lt.1 hl
  rw [hk] at h1 ⊢
  rw [hk'] at h2 ⊢
  push_cast at h1 h2
  have a : ((k : ℝ)) < k' + 1 := by linarith [h1.1, h1.2, h2.1, h2.2]
  have b : ((k' : ℝ)) < k + 1 := by linarith [h1.1, h1.2, h2.1, h2.2]
  have a' : k < k' + 1 := by exact_mod_cast a
  have b' : k' < k + 1 := by exact_mod_cast b
  omega

theorem offPole_near {lat : ℝ} (h : OffPole lat) : ∀ᶠ l in 𝓝 lat, OffPole l :=
  continuous_abs.continuousAt.eventually_lt (continuousAt_const (y := (90 : ℝ))) h

theorem side_near {lat : ℝ} (h : lat ≠ 0) : ∀ᶠ l in 𝓝 lat, (l > 0 ↔ lat > 0) := by
  rcases lt_or_gt_of_ne h with h | h
  · filter_upwards [gt_mem_nhds h] with l hl
    constructor <;> intro <;> linarith
  · filter_upwards [lt_mem_nhds h] with l hl
    constructor <;> intro <;> linarith

theorem scale_aux {x y D r S c : ℝ} (x0 : 0 ≤ x) (x1 : x ≤ 1) (y0 : 0 ≤ y) (y1 : y ≤ 0.0068 * x) (D0 : 0 ≤ D)
    (D1 : D ≤ 441 / 160000) (r0 : -1.6e-5 ≤ r) (r1 : r ≤ 1.6e-5) (S0 : -2.1e-6 ≤ S) (S1 : S ≤ 2.1e-6) (c0 : -2e-5 ≤ c)
    (c1 : c ≤ 2e-5) :
    1 - 5e-5 ≤ 1 + D * (2 * x - 1 + y) + r + S + ((1 - x) * D + (1 - x) * c) ∧
    1 + D * (2 * x - 1 + y) + r + S + ((1 - x) * D + (1 - x) * c) ≤ 1 + 0.0029 := by
  have e : 1 + D * (2 * x - 1 + y) + r + S + ((1 - x) * D + (1 - x) * c) = 1 + D * (x + y) + r + S + (1 - x) * c := by ring
  rw [e]
  have w1 : -2e-5 ≤ (1 - x) * c := by nlinarith
  have w2 : (1 - x) * c ≤ 2e-5 := by nlinarith
  have w3 : 0 ≤ D * (x + y) := mul_nonneg D0 (by linarith)
  have w4 : D * (x + y) ≤ 441 / 160000 * 1.0068 := mul_le_mul D1 (by linarith) (by linarith) (by norm_num)
  constructor <;> linarith

theorem scale_sq (f : ℝ) {d : ℝ} (hd : |d| ≤ 0.0525) :
    1 - 5e-5 ≤ scEE f d ^ 2 + scNE f d ^ 2 ∧ scEE f d ^ 2 + scNE f d ^ 2 ≤ 1 + 0.0029 := by
  have h2 := pow_small hd 2
  have h3 := pow_small hd 3
  have h4 := pow_small hd 4
  have h5 := pow_small hd 5
  have b4 := Lip.n4.bd f
  have b5 := Lip.x5.bd f
  have b6 := Lip.n6.bd f
  obtain ⟨x0, x1⟩ := cos_sq_mem f
  obtain ⟨p0, p1⟩ := ep2_bounds
  have hs : Real.sin f ^ 2 = 1 - Real.cos f ^ 2 := by nlinarith [Real.sin_sq_add_cos_sq f]
  have e1 : scEE f d = 1 + d ^ 2 * ((2 * Real.cos f ^ 2 - 1 + utmEP2 * (Real.cos f ^ 2) ^ 2) / 2) + 5 * (d ^ 4 * coX5 f) := by
    unfold scEE coX3
    linear_combination (-(d ^ 2) / 2) * hs
  have e2 : scNE f d ^ 2 = (1 - Real.cos f ^ 2) * (d + (4 * (d ^ 3 * coN4 f) + 6 * (d ^ 5 * coN6 f))) ^ 2 := by
    unfold scNE
    rw [mul_pow, hs]
    ring
  rw [e1, e2]
  have k4 : |d ^ 4 * coX5 f| ≤ 0.0525 ^ 4 * 0.21 := by
    rw [abs_mul]
    exact mul_le_mul h4 b5 (abs_nonneg _) (by norm_num)
  have k3 : |d ^ 3 * coN4 f| ≤ 0.0525 ^ 3 * 0.26 := by
    rw [abs_mul]
    exact mul_le_mul h3 b4 (abs_nonneg _) (by norm_num)
  have k5 : |d ^ 5 * coN6 f| ≤ 0.0525 ^ 5 * 0.18 := by
    rw [abs_mul]
    exact mul_le_mul h5 b6 (abs_nonneg _) (by norm_num)
  generalize d ^ 4 * coX5 f = r4 at *
  generalize d ^ 3 * coN4 f = r3 at *
  generalize d ^ 5 * coN6 f = r5 at *
  generalize Real.cos f ^ 2 = x at *
  generalize utmEP2 = p at *
  have px : 0 ≤ p * x ^ 2 ∧ p * x ^ 2 ≤ 0.0068 * x := by
    constructor
    · positivity
    · nlinarith [mul_nonneg x0 (sub_nonneg.2 x1), mul_nonneg p0.le (mul_nonneg x0 (sub_nonneg.2 x1))]
  have q2 : 0 ≤ d ^ 2 ∧ d ^ 2 ≤ 0.0525 ^ 2 := ⟨sq_nonneg _, by rwa [abs_of_nonneg (sq_nonneg d)] at h2⟩
  have a4 := abs_le.1 k4
  have r3' : |4 * r3 + 6 * r5| ≤ 1.6e-4 := by
    have a3 := abs_le.1 k3
    have a5 := abs_le.1 k5
    norm_num at a3 a5
    rw [abs_le]
    constructor <;> linarith [a3.1, a3.2, a5.1, a5.2]
  have cross : |d * (4 * r3 + 6 * r5)| ≤ 0.0525 * 1.6e-4 := by
    rw [abs_mul]
    exact mul_le_mul hd r3' (abs_nonneg _) (by norm_num)
  generalize 4 * r3 + 6 * r5 = t at *
  have tt : t ^ 2 ≤ 1.6e-4 ^ 2 := by
    rw [← sq_abs]
    exact pow_le_pow_left₀ (abs_nonneg _) r3' 2
  have cr := abs_le.1 cross
  norm_num at q2 a4 tt cr
  -- the square of the first
  have g1 : |d ^ 2 * ((2 * x - 1 + p * x ^ 2) / 2)| ≤ 0.0014 := by
    rw [abs_mul, abs_of_nonneg q2.1]
    have : |(2 * x - 1 + p * x ^ 2) / 2| ≤ 0.504 := by
      rw [abs_le]
      constructor <;> linarith [px.1, px.2]
    have := mul_le_mul q2.2 this (abs_nonneg _) (by norm_num)
    refine this.trans ?_
    norm_num
  have g2 := abs_le.1 g1
  have sq1 : |(d ^ 2 * ((2 * x - 1 + p * x ^ 2) / 2) + 5 * r4) ^ 2| ≤ 2.1e-6 := by
    rw [abs_pow]
    have : |d ^ 2 * ((2 * x - 1 + p * x ^ 2) / 2) + 5 * r4| ≤ 0.00141 := by
      rw [abs_le]
      constructor <;> linarith [g2.1, g2.2, a4.1, a4.2]
    have := pow_le_pow_left₀ (abs_nonneg _) this 2
    refine this.trans ?_
    norm_num
  have sq1 := abs_le.1 sq1
  have first : (1 + d ^ 2 * ((2 * x - 1 + p * x ^ 2) / 2) + 5 * r4) ^ 2 =
      1 + d ^ 2 * (2 * x - 1 + p * x ^ 2) + 10 * r4 + (d ^ 2 * ((2 * x - 1 + p * x ^ 2) / 2) + 5 * r4) ^ 2 := by ring
  have second : (1 - x) * (d + t) ^ 2 = (1 - x) * d ^ 2 + (1 - x) * (2 * (d * t) + t ^ 2) := by ring
  rw [first, second]
  have t0 : 0 ≤ t ^ 2 := sq_nonneg _
  exact scale_aux x0 x1 px.1 px.2 q2.1 q2.2 (by linarith [a4.1]) (by linarith [a4.2]) sq1.1 sq1.2
    (by linarith [cr.1]) (by linarith [cr.2])

/-- **C110**: everywhere inside a zone the map is a similarity: the derivatives of easting and northing per metre eastwards
and per metre northwards satisfy the equations of Cauchy and Riemann, up to five parts in a billion, and lengths are
scaled by a factor between 0.9995 and 1.0011, the same in all directions. -/
theorem C110_conformal {lat lon : ℝ} (hl : OffPole lat) (h0 : lat ≠ 0) (hz : |lon - centralMeridian lon| < 3) :
    ∃ ee en ne nn : ℝ,
      HasDerivAt (fun l => (utm lat l).1) (ee * (parallelRadius lat * (Real.pi / 180))) lon ∧
      HasDerivAt (fun l => (utm l lon).1) (en * (meridianRadius lat * (Real.pi / 180))) lat ∧
      HasDerivAt (fun l => (utm lat l).2) (ne * (parallelRadius lat * (Real.pi / 180))) lon ∧
      HasDerivAt (fun l => (utm l lon).2) (nn * (meridianRadius lat * (Real.pi / 180))) lat ∧
      |ee - nn| ≤ 5e-9 ∧ |en + ne| ≤ 1e-10 ∧ 0.9995 ^ 2 ≤ ee ^ 2 + ne ^ 2 ∧ ee ^ 2 + ne ^ 2 ≤ 1.0011 ^ 2 := by
  obtain ⟨f, hf⟩ : ∃ f, f = lat * (Real.pi / 180) := ⟨_, rfl⟩
  obtain ⟨d, hd⟩ : ∃ d, d = (lon - centralMeridian lon) * (Real.pi / 180) := ⟨_, rfl⟩
  have hd' : |d| ≤ 0.0525 := hd ▸ zone_half lon
  have hlon : HasDerivAt (fun l : ℝ => (l - centralMeridian lon) * (Real.pi / 180)) (Real.pi / 180) lon := by
    have := ((hasDerivAt_id' lon).sub_const (centralMeridian lon : ℝ)).mul_const (Real.pi / 180)
    rwa [one_mul] at this
  have hlat : HasDerivAt (fun l : ℝ => l * (Real.pi / 180)) (Real.pi / 180) lat := by
    have := (hasDerivAt_id' lat).mul_const (Real.pi / 180)
    rwa [one_mul] at this
  have hX : HasDerivAt (fun d => utmX f d) (utmW f * Real.cos f * scEE f d) ((lon - centralMeridian lon) * (Real.pi / 180)) := by
    rw [← hd]
    exact utmX_deriv_d f d
  have hN : HasDerivAt (fun d => utmN f d) (utmW f * Real.cos f * scNE f d) ((lon - centralMeridian lon) * (Real.pi / 180)) := by
    rw [← hd]
    exact utmN_deriv_d f d
  refine ⟨0.9996 * scEE f d, 0.9996 * scEN f d, 0.9996 * scNE f d, 0.9996 * scNN f d, ?_, ?_, ?_, ?_, ?_, ?_, ?_⟩
  · have h : HasDerivAt (fun l : ℝ => 500000 + 0.9996 * wgsA * utmX f ((l - centralMeridian lon) * (Real.pi / 180))) _ lon :=
      ((HasDerivAt.comp (h₂ := fun d => utmX f d) lon (hX) hlon).const_mul (0.9996 * wgsA)).const_add 500000
    refine (h.congr_of_eventuallyEq ?_).congr_deriv ?_
    · filter_upwards [zone_near hz] with l e
      rw [utm_eq hl.cos_pos.ne', e, hf]
    · rw [parallelRadius_eq, ← hf]
      ring
  · have h : HasDerivAt (fun l : ℝ => 500000 + 0.9996 * wgsA * utmX (l * (Real.pi / 180)) d) _ lat :=
      ((HasDerivAt.comp lat (h₂ := fun f => utmX f d) (hf ▸ utmX_deriv_f f d) hlat).const_mul (0.9996 * wgsA)).const_add 500000
    refine (h.congr_of_eventuallyEq ?_).congr_deriv ?_
    · filter_upwards [offPole_near hl] with l e
      rw [utm_eq e.cos_pos.ne', hd]
    · rw [meridianRadius_eq, ← hf]
      ring
  · have h : HasDerivAt (fun l : ℝ => (if lat > 0 then (0 : ℝ) else 10000000) + 0.9996 * wgsA * (utmM f +
        utmN f ((l - centralMeridian lon) * (Real.pi / 180)))) _ lon :=
      (((HasDerivAt.comp (h₂ := fun d => utmN f d) lon (hN) hlon).const_add (utmM f)).const_mul (0.9996 * wgsA)).const_add _
    refine (h.congr_of_eventuallyEq ?_).congr_deriv ?_
    · filter_upwards [zone_near hz] with l e
      rw [utm_eq hl.cos_pos.ne', e, hf]
    · rw [parallelRadius_eq, ← hf]
      ring
  · have h : HasDerivAt (fun l : ℝ => (if lat > 0 then (0 : ℝ) else 10000000) + 0.9996 * wgsA * (utmM (l * (Real.pi / 180)) +
        utmN (l * (Real.pi / 180)) d)) _ lat :=
      ((HasDerivAt.comp lat (h₂ := fun f => utmM f + utmN f d) (hf ▸ utmN_deriv_f f d) hlat).const_mul (0.9996 * wgsA)).const_add _
    refine (h.congr_of_eventuallyEq ?_).congr_deriv ?_
    · filter_upwards [offPole_near hl, side_near h0] with l e e'
      rw [utm_eq e.cos_pos.ne', hd]
      simp only [e']
    · rw [meridianRadius_eq, ← hf]
      ring
  · have := conf_diag f hd'
    rw [← mul_sub, abs_mul, abs_of_pos (by norm_num : (0:ℝ) < 0.9996)]
    linarith [abs_nonneg (scEE f d - scNN f d)]
  · have := conf_cross f hd'
    rw [← mul_add, abs_mul, abs_of_pos (by norm_num : (0:ℝ) < 0.9996)]
    linarith [abs_nonneg (scEN f d + scNE f d)]
  · obtain ⟨a, b⟩ := scale_sq f hd'
    rw [mul_pow, mul_pow, ← mul_add]
    constructor
    · nlinarith
    · nlinarith

/-- **C110**: on the central meridian the northing is the length of the meridian from the equator, times 0.9996, to a
billionth (a centimetre at the poles); the easting is 500 km. -/
theorem C110_meridian {lat lon : ℝ} (hl : OffPole lat) (hz : lon = centralMeridian lon) :
    (utm lat lon).1 = 500000 ∧
    |(utm lat lon).2 - (if lat > 0 then 0 else 10000000) - 0.9996 * meridianArc lat| ≤
      1e-9 * (wgsA * (|lat| * (Real.pi / 180))) := by
  have hd : (lon - (centralMeridian lon : ℝ)) * (Real.pi / 180) = 0 := by rw [← hz, sub_self, zero_mul]
  rw [utm_eq hl.cos_pos.ne', hd]
  have hX : ∀ f, utmX f 0 = 0 := fun f => by rw [utmX_eq]; ring
  have hN : ∀ f, utmN f 0 = 0 := fun f => by rw [utmN_eq]; ring
  refine ⟨by rw [hX]; ring, ?_⟩
  dsimp only
  rw [hN, add_zero, add_sub_cancel_left]
  have hp : 0 < Real.pi / 180 := by have := Real.pi_pos; positivity
  have hlat : ∀ l : ℝ, HasDerivAt (fun l : ℝ => l * (Real.pi / 180)) (Real.pi / 180) l := by
    intro l
    have := (hasDerivAt_id' l).mul_const (Real.pi / 180)
    rwa [one_mul] at this
  obtain ⟨m', hm'⟩ : ∃ m' : ℝ → ℝ, m' = fun f => utmM0 + 2 * utmM1 * Real.cos (2 * f) + 4 * utmM2 * Real.cos (4 * f) +
      6 * utmM3 * Real.cos (6 * f) := ⟨_, rfl⟩
  have hcm : Continuous m' := by
    rw [hm']
    fun_prop
  have hcW : Continuous utmW := continuous_iff_continuousAt.2 fun f => (w_deriv f).continuousAt
  have hcR : Continuous utmR := by
    unfold utmR
    fun_prop
  have ftc : ∫ l in (0 : ℝ)..lat, wgsA * (m' (l * (Real.pi / 180)) * (Real.pi / 180)) =
      wgsA * utmM (lat * (Real.pi / 180)) - wgsA * utmM (0 * (Real.pi / 180)) := by
    refine intervalIntegral.integral_eq_sub_of_hasDerivAt (f := fun l => wgsA * utmM (l * (Real.pi / 180))) ?_ ?_
    · intro l _
      have h := (HasDerivAt.comp l (utmM_deriv (l * (Real.pi / 180))) (hlat l)).const_mul wgsA
      rw [hm']
      exact h
    · exact (by fun_prop : Continuous fun l => wgsA * (m' (l * (Real.pi / 180)) * (Real.pi / 180))).intervalIntegrable _ _
  rw [zero_mul, utmM_zero, mul_zero, sub_zero] at ftc
  have earc : meridianArc lat = ∫ l in (0 : ℝ)..lat, wgsA * (utmR (l * (Real.pi / 180)) * (Real.pi / 180)) := by
    unfold meridianArc
    congr 1
    funext l
    rw [meridianRadius_eq]
    ring
  have ediff : wgsA * utmM (lat * (Real.pi / 180)) - meridianArc lat =
      ∫ l in (0 : ℝ)..lat, wgsA * ((m' (l * (Real.pi / 180)) - utmR (l * (Real.pi / 180))) * (Real.pi / 180)) := by
    rw [← ftc, earc, ← intervalIntegral.integral_sub]
    · congr 1
      funext l
      ring
    · exact (by fun_prop : Continuous fun l => wgsA * (m' (l * (Real.pi / 180)) * (Real.pi / 180))).intervalIntegrable _ _
    · exact (by fun_prop : Continuous fun l => wgsA * (utmR (l * (Real.pi / 180)) * (Real.pi / 180))).intervalIntegrable _ _
  have hb : |wgsA * utmM (lat * (Real.pi / 180)) - meridianArc lat| ≤ wgsA * (7e-10 * (Real.pi / 180)) * |lat - 0| := by
    rw [ediff, ← Real.norm_eq_abs]
    refine intervalIntegral.norm_integral_le_of_norm_le_const ?_
    intro l _
    rw [Real.norm_eq_abs, abs_mul, abs_mul, abs_of_pos wgsA_pos, abs_of_pos hp]
    refine mul_le_mul_of_nonneg_left (mul_le_mul_of_nonneg_right ?_ hp.le) wgsA_pos.le
    rw [hm']
    exact meridian_rate _
  rw [sub_zero] at hb
  have e : 0.9996 * wgsA * utmM (lat * (Real.pi / 180)) - 0.9996 * meridianArc lat =
      0.9996 * (wgsA * utmM (lat * (Real.pi / 180)) - meridianArc lat) := by ring
  rw [e, abs_mul, abs_of_pos (by norm_num : (0:ℝ) < 0.9996)]
  have z : 0 ≤ wgsA * (|lat| * (Real.pi / 180)) := mul_nonneg wgsA_pos.le (mul_nonneg (abs_nonneg _) hp.le)
  calc _ ≤ 0.9996 * (wgsA * (7e-10 * (Real.pi / 180)) * |lat|) := mul_le_mul_of_nonneg_left hb (by norm_num)
    _ = 0.9996 * 7e-10 * (wgsA * (|lat| * (Real.pi / 180))) := by ring
    _ ≤ _ := mul_le_mul_of_nonneg_right (by norm_num) z

/-- **C110**: the ellipsoid is the one of WGS 84, which is defined by its radius and its flattening. -/
theorem C110_wgs84 : wgsA = 6378137 ∧ |utmE2 - (1 / 298.257223563) * (2 - 1 / 298.257223563)| ≤ 1e-11 := by
  unfold wgsA utmE2
  constructor
  · norm_num
  · rw [abs_le]
    norm_num

/-- A place inside a zone, and one on a central meridian. -/
example : OffPole 49 ∧ (49 : ℝ) ≠ 0 ∧ |(8.4 : ℝ) - centralMeridian 8.4| < 3 ∧ (9 : ℝ) = centralMeridian 9 := by
  have h1 : ⌊(8.4 : ℝ)⌋ = 8 := by
    rw [Int.floor_eq_iff]
    norm_num
  have h2 : ⌊(9 : ℝ)⌋ = 9 := by
    rw [Int.floor_eq_iff]
    norm_num
  have e1 : centralMeridian 8.4 = 9 := by
    unfold centralMeridian
    rw [if_pos (by norm_num), h1]
    rfl
  have e2 : centralMeridian 9 = 9 := by
    unfold centralMeridian
    rw [if_pos (by norm_num), h2]
    rfl
  refine ⟨?_, by norm_num, ?_, ?_⟩
  · unfold OffPole
    norm_num [abs_of_pos]
  · rw [e1, abs_lt]
    norm_num
  · rw [e2]
    norm_num

end RL.Nav
