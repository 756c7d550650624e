import Verif.Proofs.Utm
/-! # C96: the function `UTM` maps a zone like a map -/

namespace RL.Nav

/-- A place that is not a pole. -/
def OffPole (lat : ℝ) : Prop := |lat| < 90

/-- The radius of the parallel at a latitude (degrees) of the ellipsoid with radius `wgsA` and eccentricity² `utmE2`. -/
noncomputable def parallelRadius (lat : ℝ) : ℝ :=
  wgsA * Real.cos (lat * (Real.pi / 180)) / Real.sqrt (1 - utmE2 * Real.sin (lat * (Real.pi / 180)) ^ 2)

theorem OffPole.cos_pos {lat : ℝ} (h : OffPole lat) : 0 < Real.cos (lat * (Real.pi / 180)) := by
  have hp := Real.pi_pos
  obtain ⟨h1, h2⟩ := abs_lt.1 h
  apply Real.cos_pos_of_mem_Ioo
  constructor <;> nlinarith

theorem zone_half (lon : ℝ) : |(lon - centralMeridian lon) * (Real.pi / 180)| ≤ 0.0525 := by
  have h := C55_central_meridian lon
  have hp := Real.pi_pos
  have hq := Real.pi_lt_d2
  rw [abs_mul, abs_of_pos (by positivity : 0 < Real.pi / 180)]
  nlinarith [abs_nonneg (lon - (centralMeridian lon : ℝ))]

theorem wgsA_pos : 0 < wgsA := by
  unfold wgsA
  norm_num

theorem parallelRadius_eq (lat : ℝ) :
    parallelRadius lat = wgsA * (utmW (lat * (Real.pi / 180)) * Real.cos (lat * (Real.pi / 180))) := by
  unfold parallelRadius utmW
  rw [pow_two, ← mul_assoc]
  ring

/-- C96: eastings of one parallel and zone are distances along the parallel, scaled by 0.9996, with an error of at most
0.3 %. -/
theorem C96_east {lat lon lon' : ℝ} (hl : OffPole lat) (hz : centralMeridian lon = centralMeridian lon') :
    |(utm lat lon').1 - (utm lat lon).1 - 0.9996 * parallelRadius lat * ((lon' - lon) * (Real.pi / 180))| ≤
      0.003 * parallelRadius lat * (|lon' - lon| * (Real.pi / 180)) := by
  have hc := hl.cos_pos
  rw [utm_eq hc.ne', utm_eq hc.ne', parallelRadius_eq]
  dsimp only
  have hp : 0 < Real.pi / 180 := by have := Real.pi_pos; positivity
  have h := utmX_east (lat * (Real.pi / 180)) (zone_half lon) (zone_half lon')
  rw [← sub_mul] at h
  have e : lon' - (centralMeridian lon' : ℝ) - (lon - (centralMeridian lon : ℝ)) = lon' - lon := by
    rw [hz]
    ring
  rw [e] at h
  have hw := (w_bounds (lat * (Real.pi / 180))).1
  have hwc : 0 < utmW (lat * (Real.pi / 180)) * Real.cos (lat * (Real.pi / 180)) := mul_pos (by linarith) hc
  rw [abs_mul _ ((lon' - lon) * (Real.pi / 180)), abs_of_pos hwc, abs_mul, abs_of_pos hp] at h
  generalize utmW (lat * (Real.pi / 180)) * Real.cos (lat * (Real.pi / 180)) = W at *
  generalize utmX (lat * (Real.pi / 180)) ((lon - (centralMeridian lon : ℝ)) * (Real.pi / 180)) = X at *
  generalize utmX (lat * (Real.pi / 180)) ((lon' - (centralMeridian lon' : ℝ)) * (Real.pi / 180)) = X' at *
  have e2 : 500000 + 0.9996 * wgsA * X' - (500000 + 0.9996 * wgsA * X) - 0.9996 * (wgsA * W) * ((lon' - lon) * (Real.pi / 180)) =
      0.9996 * wgsA * (X' - X - W * ((lon' - lon) * (Real.pi / 180))) := by ring
  rw [e2, abs_mul, abs_of_pos (mul_pos (by norm_num) wgsA_pos)]
  have z : 0 ≤ W * (|lon' - lon| * (Real.pi / 180)) := mul_nonneg hwc.le (mul_nonneg (abs_nonneg _) hp.le)
  calc 0.9996 * wgsA * |X' - X - W * ((lon' - lon) * (Real.pi / 180))|
      ≤ 0.9996 * wgsA * (0.003 * (W * (|lon' - lon| * (Real.pi / 180)))) :=
        mul_le_mul_of_nonneg_left h (mul_nonneg (by norm_num) wgsA_pos.le)
    _ ≤ 0.003 * (wgsA * W) * (|lon' - lon| * (Real.pi / 180)) := by nlinarith [mul_nonneg wgsA_pos.le z]

/-- C96: northings of one meridian and hemisphere are distances along the meridian (of a sphere of radius `wgsA`) with an
error of at most 2 %, which includes the flattening, the scale, and the curvature of the parallels on the map. -/
theorem C96_north_partial {lat lat' : ℝ} (hl : OffPole lat) (hl' : OffPole lat') (hh : 0 < lat ↔ 0 < lat') (lon : ℝ) :
    |(utm lat' lon).2 - (utm lat lon).2 - wgsA * ((lat' - lat) * (Real.pi / 180))| ≤
      0.02 * (wgsA * (|lat' - lat| * (Real.pi / 180))) := by
  rw [utm_eq hl.cos_pos.ne', utm_eq hl'.cos_pos.ne']
  dsimp only
  have hp : 0 < Real.pi / 180 := by have := Real.pi_pos; positivity
  have hf : (if lat' > 0 then (0:ℝ) else 10000000) = if lat > 0 then 0 else 10000000 := by simp only [gt_iff_lt, hh]
  have h1 := utmM_north (lat * (Real.pi / 180)) (lat' * (Real.pi / 180))
  have h2 := (utmN_north (zone_half lon)).lip (lat' * (Real.pi / 180)) (lat * (Real.pi / 180))
  rw [← sub_mul, abs_mul _ (Real.pi / 180), abs_of_pos hp] at h2
  rw [← sub_mul, abs_mul _ (Real.pi / 180), abs_of_pos hp] at h1
  rw [hf]
  generalize utmM (lat * (Real.pi / 180)) = M at *
  generalize utmM (lat' * (Real.pi / 180)) = M' at *
  generalize utmN (lat * (Real.pi / 180)) ((lon - (centralMeridian lon : ℝ)) * (Real.pi / 180)) = N at *
  generalize utmN (lat' * (Real.pi / 180)) ((lon - (centralMeridian lon : ℝ)) * (Real.pi / 180)) = N' at *
  generalize (if lat > 0 then (0:ℝ) else 10000000) = o
  have e : o + 0.9996 * wgsA * (M' + N') - (o + 0.9996 * wgsA * (M + N)) - wgsA * ((lat' - lat) * (Real.pi / 180)) =
      wgsA * (0.9996 * (M' - M - (lat' - lat) * (Real.pi / 180)) + 0.9996 * (N' - N) -
        0.0004 * ((lat' - lat) * (Real.pi / 180))) := by ring
  rw [e, abs_mul, abs_of_pos wgsA_pos]
  have z : 0 ≤ |lat' - lat| * (Real.pi / 180) := mul_nonneg (abs_nonneg _) hp.le
  have hd : |(lat' - lat) * (Real.pi / 180)| = |lat' - lat| * (Real.pi / 180) := by rw [abs_mul, abs_of_pos hp]
  have key : |0.9996 * (M' - M - (lat' - lat) * (Real.pi / 180)) + 0.9996 * (N' - N) -
      0.0004 * ((lat' - lat) * (Real.pi / 180))| ≤ 0.02 * (|lat' - lat| * (Real.pi / 180)) := by
    have a1 := abs_le.1 h1
    have a2 := abs_le.1 h2
    have a3 := abs_le.1 hd.le
    rw [abs_le]
    constructor <;> linarith [a1.1, a1.2, a2.1, a2.2, a3.1, a3.2]
  calc _ ≤ wgsA * (0.02 * (|lat' - lat| * (Real.pi / 180))) := mul_le_mul_of_nonneg_left key wgsA_pos.le
    _ = _ := by ring

/-- C96: different places of one zone and hemisphere have different coordinates. -/
theorem C96_distinct_partial {lat lon lat' lon' : ℝ} (hl : OffPole lat) (hl' : OffPole lat') (hh : 0 < lat ↔ 0 < lat')
    (hz : centralMeridian lon = centralMeridian lon') (h : utm lat lon = utm lat' lon') : lat = lat' ∧ lon = lon' := by
  have hc := hl.cos_pos
  rw [utm_eq hc.ne', utm_eq hl'.cos_pos.ne', Prod.mk.injEq] at h
  obtain ⟨hx, hy⟩ := h
  have hA : (0.9996 * wgsA : ℝ) ≠ 0 := mul_ne_zero (by norm_num) wgsA_pos.ne'
  have hp : 0 < Real.pi / 180 := by have := Real.pi_pos; positivity
  have hf : (if lat' > 0 then (0:ℝ) else 10000000) = if lat > 0 then 0 else 10000000 := by simp only [gt_iff_lt, hh]
  rw [hf] at hy
  have hx := mul_left_cancel₀ hA (add_left_cancel hx)
  have hy := mul_left_cancel₀ hA (add_left_cancel hy)
  have q1 := utmX_east (lat * (Real.pi / 180)) (zone_half lon) (zone_half lon')
  have q2 := (utmX_north (zone_half lon')).lip (lat * (Real.pi / 180)) (lat' * (Real.pi / 180))
  have q3 := utmN_east (lat * (Real.pi / 180)) (zone_half lon) (zone_half lon')
  have q4 := (utmN_north (zone_half lon')).lip (lat * (Real.pi / 180)) (lat' * (Real.pi / 180))
  have q5 := utmM_north (lat' * (Real.pi / 180)) (lat * (Real.pi / 180))
  have ed : (lon' - (centralMeridian lon' : ℝ)) * (Real.pi / 180) - (lon - (centralMeridian lon : ℝ)) * (Real.pi / 180) =
      (lon' - lon) * (Real.pi / 180) := by
    rw [hz]
    ring
  rw [ed] at q1 q3
  have hwc : 0 < utmW (lat * (Real.pi / 180)) * Real.cos (lat * (Real.pi / 180)) :=
    mul_pos (by linarith [(w_bounds (lat * (Real.pi / 180))).1]) hc
  generalize utmW (lat * (Real.pi / 180)) * Real.cos (lat * (Real.pi / 180)) = W at *
  generalize (lon - (centralMeridian lon : ℝ)) * (Real.pi / 180) = d at *
  generalize (lon' - (centralMeridian lon' : ℝ)) * (Real.pi / 180) = d' at *
  have hF : ∀ a b : ℝ, a * (Real.pi / 180) = b * (Real.pi / 180) → a = b := fun a b h => mul_right_cancel₀ hp.ne' h
  generalize hfl : lat * (Real.pi / 180) = f at *
  generalize hgl : lat' * (Real.pi / 180) = g at *
  generalize utmX f d = X1 at *
  generalize utmX f d' = X2 at *
  generalize utmX g d' = X3 at *
  generalize utmN f d = N1 at *
  generalize utmN f d' = N2 at *
  generalize utmN g d' = N3 at *
  generalize utmM f = M1 at *
  generalize utmM g = M2 at *
  generalize hD : (lon' - lon) * (Real.pi / 180) = D at *
  have t1 := abs_sub_abs_le_abs_sub (W * D) (X2 - X1)
  rw [abs_sub_comm (W * D) (X2 - X1)] at t1
  have t2 : |X2 - X1| = |X2 - X3| := by rw [hx]
  have t3 := abs_sub_abs_le_abs_sub (f - g) (M1 - M2)
  rw [abs_sub_comm (f - g) (M1 - M2)] at t3
  have t4 : M1 - M2 = (N2 - N1) - (N2 - N3) := by linarith
  have t5 : |M1 - M2| ≤ |N2 - N1| + |N2 - N3| := by
    rw [t4]
    exact abs_sub _ _
  have z1 := abs_nonneg (f - g)
  have z2 := abs_nonneg (W * D)
  have r1 : |f - g| = 0 := by linarith
  have r2 : |W * D| = 0 := by linarith
  have r1 := abs_eq_zero.1 r1
  have r2 := abs_eq_zero.1 r2
  have r3 : D = 0 := by
    rcases mul_eq_zero.1 r2 with h | h
    · exact absurd h hwc.ne'
    · exact h
  constructor
  · apply hF
    rw [hfl, hgl]
    linarith
  · have : lon' - lon = 0 := by
      rcases mul_eq_zero.1 (hD.trans r3) with h | h
      · exact h
      · exact absurd h hp.ne'
    linarith

/-- C96: the hemispheres are mirror images. -/
theorem C96_hemispheres {lat : ℝ} (h : 0 < lat) (lon : ℝ) :
    utm (-lat) lon = ((utm lat lon).1, 10000000 - (utm lat lon).2) := by
  unfold utm
  have e : -lat * (Real.pi / 180) = -(lat * (Real.pi / 180)) := by ring
  have h2 : ¬ (-lat > 0) := by linarith
  simp only [e, Real.sin_neg, Real.cos_neg, Real.tan_neg, mul_neg, neg_mul, neg_neg, if_pos h, if_neg h2]
  congr 1
  ring

theorem centralMeridian_neg {lon : ℝ} (h : lon ≠ 0) : centralMeridian (-lon) = -centralMeridian lon := by
  unfold centralMeridian
  rcases lt_or_gt_of_ne h with h | h
  · rw [if_pos (by linarith), if_neg (by linarith), Int.floor_neg, Int.neg_tmod]
    ring
  · rw [if_neg (by linarith), if_pos (by linarith), Int.ceil_neg, Int.neg_tmod]
    ring

/-- C96: east and west of Greenwich are mirror images. -/
theorem C96_greenwich (lat : ℝ) {lon : ℝ} (h : lon ≠ 0) :
    utm lat (-lon) = (1000000 - (utm lat lon).1, (utm lat lon).2) := by
  unfold utm
  simp only [centralMeridian_neg h]
  push_cast
  congr 1
  · ring
  · ring

/-- C96: eastings stay between 160 km and 840 km. -/
theorem C96_range {lat : ℝ} (hl : OffPole lat) (lon : ℝ) : 160000 < (utm lat lon).1 ∧ (utm lat lon).1 < 840000 := by
  rw [utm_eq hl.cos_pos.ne']
  have h := abs_le.1 ((utmX_north (zone_half lon)).bd (lat * (Real.pi / 180)))
  dsimp only at h ⊢
  unfold wgsA
  constructor <;> linarith [h.1, h.2]

/-- C96 fails at the equator: places on it have the northings of the southern hemisphere, so a step north from there
loses more than 9 000 km. -/
theorem C96_equator (lon : ℝ) {lat : ℝ} (h0 : 0 < lat) (h1 : lat ≤ 1) : (utm lat lon).2 < (utm 0 lon).2 - 9000000 := by
  have hp := Real.pi_pos
  have hq := Real.pi_lt_d2
  have hl : OffPole lat := by
    unfold OffPole
    rw [abs_of_pos h0]
    linarith
  have hl0 : OffPole 0 := by
    unfold OffPole
    norm_num
  rw [utm_eq hl.cos_pos.ne', utm_eq hl0.cos_pos.ne']
  have k := utmM_north 0 (lat * (Real.pi / 180))
  have b := abs_le.1 ((utmN_north (zone_half lon)).bd (lat * (Real.pi / 180)))
  have b0 := abs_le.1 ((utmN_north (zone_half lon)).bd (0 * (Real.pi / 180)))
  have f0 : 0 < lat * (Real.pi / 180) := by positivity
  have f1 : lat * (Real.pi / 180) ≤ 0.0175 := by nlinarith
  rw [utmM_zero, sub_zero, sub_zero, abs_of_pos f0] at k
  have k := abs_le.1 k
  dsimp only at b b0 ⊢
  rw [if_pos h0, if_neg (lt_irrefl 0), zero_mul, utmM_zero]
  rw [zero_mul] at b0
  unfold wgsA
  linarith [k.1, k.2, b.1, b.2, b0.1, b0.2]

/-- Two places in the north of one zone. -/
example : OffPole 48 ∧ OffPole 49.5 ∧ ((0 : ℝ) < 48 ↔ (0 : ℝ) < 49.5) ∧ centralMeridian 8.4 = centralMeridian 11.9 := by
  refine ⟨?_, ?_, by norm_num, ?_⟩
  · unfold OffPole
    norm_num [abs_of_pos]
  · unfold OffPole
    norm_num [abs_of_pos]
  · unfold centralMeridian
    have h1 : ⌊(8.4 : ℝ)⌋ = 8 := by
      rw [Int.floor_eq_iff]
      norm_num
    have h2 : ⌊(11.9 : ℝ)⌋ = 11 := by
      rw [Int.floor_eq_iff]
      norm_num
    rw [if_pos (by norm_num), if_pos (by norm_num), h1, h2]
    rfl

end RL.Nav
