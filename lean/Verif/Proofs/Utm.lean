import Verif.Model.Utm
import Verif.Props.NavsatMap
import Mathlib.Analysis.SpecialFunctions.Trigonometric.Bounds
/-! # The series of the function `UTM` -/

namespace RL.Nav

/-- Bounded by `B` and Lipschitz with constant `L`. -/
structure Lip (f : ℝ → ℝ) (B L : ℝ) : Prop where
  bd : ∀ x, |f x| ≤ B
  lip : ∀ x y, |f x - f y| ≤ L * |x - y|

namespace Lip

theorem bpos {f : ℝ → ℝ} {B L : ℝ} (h : Lip f B L) : 0 ≤ B := le_trans (abs_nonneg _) (h.bd 0)

theorem mono {f : ℝ → ℝ} {B L B' L' : ℝ} (h : Lip f B L) (hB : B ≤ B') (hL : L ≤ L') : Lip f B' L' :=
  ⟨fun x => (h.bd x).trans hB, fun x y => (h.lip x y).trans (mul_le_mul_of_nonneg_right hL (abs_nonneg _))⟩

theorem const (c : ℝ) : Lip (fun _ => c) |c| 0 := ⟨fun _ => le_rfl, fun x y => by simp⟩

theorem add {f g : ℝ → ℝ} {B L B' L' : ℝ} (h : Lip f B L) (k : Lip g B' L') : Lip (fun x => f x + g x) (B + B') (L + L') := by
  refine ⟨fun x => (abs_add_le _ _).trans (add_le_add (h.bd x) (k.bd x)), fun x y => ?_⟩
  have e : f x + g x - (f y + g y) = (f x - f y) + (g x - g y) := by ring
  rw [e, add_mul]
  exact (abs_add_le _ _).trans (add_le_add (h.lip x y) (k.lip x y))

theorem mul {f g : ℝ → ℝ} {B L B' L' : ℝ} (h : Lip f B L) (k : Lip g B' L') :
    Lip (fun x => f x * g x) (B * B') (B * L' + L * B') := by
  refine ⟨fun x => ?_, fun x y => ?_⟩
  · rw [abs_mul]
    exact mul_le_mul (h.bd x) (k.bd x) (abs_nonneg _) h.bpos
  · have e : f x * g x - f y * g y = f x * (g x - g y) + (f x - f y) * g y := by ring
    rw [e]
    refine (abs_add_le _ _).trans ?_
    rw [abs_mul, abs_mul, add_mul]
    refine add_le_add ?_ ?_
    · calc |f x| * |g x - g y| ≤ B * (L' * |x - y|) :=
            mul_le_mul (h.bd x) (k.lip x y) (abs_nonneg _) h.bpos
        _ = B * L' * |x - y| := by ring
    · calc |f x - f y| * |g y| ≤ L * |x - y| * B' :=
            mul_le_mul (h.lip x y) (k.bd y) (abs_nonneg _) (le_trans (abs_nonneg _) (h.lip x y))
        _ = L * B' * |x - y| := by ring

theorem smul {f : ℝ → ℝ} {B L : ℝ} (c : ℝ) (h : Lip f B L) : Lip (fun x => c * f x) (|c| * B) (|c| * L) := by
  have := (Lip.const c).mul h
  simpa using this

theorem sin : Lip Real.sin 1 1 := by
  refine ⟨Real.abs_sin_le_one, fun x y => ?_⟩
  rw [one_mul, Real.sin_sub_sin, abs_mul, abs_mul, abs_two]
  have h1 : |Real.sin ((x - y) / 2)| ≤ |(x - y) / 2| := Real.abs_sin_le_abs
  have h2 := Real.abs_cos_le_one ((x + y) / 2)
  rw [abs_div, abs_two] at h1
  have h3 := abs_nonneg (Real.sin ((x - y) / 2))
  nlinarith

theorem cos : Lip Real.cos 1 1 := by
  refine ⟨Real.abs_cos_le_one, fun x y => ?_⟩
  rw [one_mul, Real.cos_sub_cos, abs_mul, abs_mul, abs_neg, abs_two]
  have h1 : |Real.sin ((x - y) / 2)| ≤ |(x - y) / 2| := Real.abs_sin_le_abs
  have h2 := Real.abs_sin_le_one ((x + y) / 2)
  rw [abs_div, abs_two] at h1
  have h3 := abs_nonneg (Real.sin ((x - y) / 2))
  nlinarith

end Lip

theorem e2_bounds : 0 < utmE2 ∧ utmE2 < 0.0067 := by
  unfold utmE2
  norm_num

theorem ep2_bounds : 0 < utmEP2 ∧ utmEP2 < 0.0068 := by
  unfold utmEP2 utmE2
  norm_num

/-- One over the root of `1 - e² sin²`. -/
noncomputable def utmW (f : ℝ) : ℝ := 1 / Real.sqrt (1 - utmE2 * Real.sin f * Real.sin f)

theorem w_root (f : ℝ) : 0.996 ≤ Real.sqrt (1 - utmE2 * Real.sin f * Real.sin f) ∧
    Real.sqrt (1 - utmE2 * Real.sin f * Real.sin f) ≤ 1 := by
  obtain ⟨h1, h2⟩ := e2_bounds
  have h3 : Real.sin f * Real.sin f ≤ 1 := by nlinarith [Real.sin_sq_add_cos_sq f, sq_nonneg (Real.cos f)]
  have h4 : 0 ≤ Real.sin f * Real.sin f := mul_self_nonneg _
  constructor
  · refine Real.le_sqrt_of_sq_le ?_
    nlinarith
  · refine Real.sqrt_le_one.2 ?_
    nlinarith

theorem w_bounds (f : ℝ) : 1 ≤ utmW f ∧ utmW f ≤ 1.005 := by
  obtain ⟨h1, h2⟩ := w_root f
  unfold utmW
  constructor
  · rw [le_div_iff₀ (by linarith)]
    linarith
  · rw [div_le_iff₀ (by linarith)]
    linarith

theorem Lip.w : Lip utmW 1.005 0.007 := by
  refine ⟨fun x => ?_, fun x y => ?_⟩
  · obtain ⟨h1, h2⟩ := w_bounds x
    rw [abs_le]
    constructor <;> linarith
  · obtain ⟨a1, a2⟩ := w_root x
    obtain ⟨b1, b2⟩ := w_root y
    obtain ⟨h1, h2⟩ := e2_bounds
    have hs := (Lip.sin.mul Lip.sin).lip x y
    have nx : 0 ≤ 1 - utmE2 * Real.sin x * Real.sin x := by
      nlinarith [Real.sin_sq_add_cos_sq x, sq_nonneg (Real.cos x), mul_self_nonneg (Real.sin x)]
    have ny : 0 ≤ 1 - utmE2 * Real.sin y * Real.sin y := by
      nlinarith [Real.sin_sq_add_cos_sq y, sq_nonneg (Real.cos y), mul_self_nonneg (Real.sin y)]
    have ex := Real.mul_self_sqrt nx
    have ey := Real.mul_self_sqrt ny
    unfold utmW
    generalize Real.sqrt (1 - utmE2 * Real.sin x * Real.sin x) = u at *
    generalize Real.sqrt (1 - utmE2 * Real.sin y * Real.sin y) = v at *
    have e : 1 / u - 1 / v = utmE2 * (Real.sin x * Real.sin x - Real.sin y * Real.sin y) / (u * v * (u + v)) := by
      have hu : u ≠ 0 := by linarith
      have hv : v ≠ 0 := by linarith
      have huv : u + v ≠ 0 := by linarith
      field_simp
      nlinarith
    have hd : (1.97 : ℝ) ≤ u * v * (u + v) := by nlinarith [mul_nonneg (sub_nonneg.2 a1) (sub_nonneg.2 b1)]
    rw [e, abs_div, abs_mul, abs_of_pos h1, abs_of_pos (by linarith : (0:ℝ) < u * v * (u + v)), div_le_iff₀ (by linarith)]
    have hz := abs_nonneg (x - y)
    calc utmE2 * |Real.sin x * Real.sin x - Real.sin y * Real.sin y| ≤ 0.0067 * ((1 * 1 + 1 * 1) * |x - y|) :=
          mul_le_mul h2.le hs (abs_nonneg _) (by norm_num)
      _ ≤ 0.007 * |x - y| * (u * v * (u + v)) := by nlinarith

/-- Easting over scale and radius. -/
noncomputable def utmX (f d : ℝ) : ℝ :=
  let s := Real.sin f
  let c := Real.cos f
  utmW f * c * (d + (c * c - s * s + utmEP2 * (c * c * (c * c))) / 6 * d ^ 3 +
    (5 * (c * c * (c * c)) - 18 * (s * s * (c * c)) + s * s * (s * s) + 72 * utmEP2 * (c * c * (c * c) * (c * c)) -
      58 * utmEP2 * (c * c * (c * c))) / 120 * d ^ 5)

/-- Northing off the central meridian. -/
noncomputable def utmN (f d : ℝ) : ℝ :=
  let s := Real.sin f
  let c := Real.cos f
  utmW f * c * s * (d ^ 2 / 2 + (5 * (c * c) - s * s + 9 * utmEP2 * (c * c * (c * c)) +
    4 * (utmEP2 * utmEP2) * (c * c * (c * c) * (c * c))) / 24 * d ^ 4 +
    (61 * (c * c * (c * c)) - 58 * (s * s * (c * c)) + s * s * (s * s) + 600 * utmEP2 * (c * c * (c * c) * (c * c)) -
      330 * utmEP2 * (c * c * (c * c))) / 720 * d ^ 6)

/-- Northing on the central meridian. -/
noncomputable def utmM (f : ℝ) : ℝ :=
  utmM0 * f + utmM1 * Real.sin (2 * f) + utmM2 * Real.sin (4 * f) + utmM3 * Real.sin (6 * f)

theorem utm_eq {lat : ℝ} (hl : Real.cos (lat * (Real.pi / 180)) ≠ 0) (lon : ℝ) :
    utm lat lon = (500000 + 0.9996 * wgsA * utmX (lat * (Real.pi / 180)) ((lon - centralMeridian lon) * (Real.pi / 180)),
      (if lat > 0 then 0 else 10000000) + 0.9996 * wgsA * (utmM (lat * (Real.pi / 180)) +
        utmN (lat * (Real.pi / 180)) ((lon - centralMeridian lon) * (Real.pi / 180)))) := by
  unfold utm utmX utmN utmM utmW
  simp only [Real.tan_eq_sin_div_cos, ← sub_mul]
  generalize (lon - (centralMeridian lon : ℝ)) * (Real.pi / 180) = d
  generalize Real.sin (2 * (lat * (Real.pi / 180))) = s2
  generalize Real.sin (4 * (lat * (Real.pi / 180))) = s4
  generalize Real.sin (6 * (lat * (Real.pi / 180))) = s6
  generalize hc : Real.cos (lat * (Real.pi / 180)) = c at *
  generalize hs : Real.sin (lat * (Real.pi / 180)) = s at *
  generalize Real.sqrt _ = r
  congr 1
  · by_cases hr : r = 0
    · simp [hr]
    · field_simp
  · by_cases hr : r = 0
    · simp only [hr, div_zero]
      ring
    · field_simp

theorem pow_diff {d e D : ℝ} (hd : |d| ≤ D) (he : |e| ≤ D) (n : ℕ) :
    |d ^ (n + 1) - e ^ (n + 1)| ≤ (n + 1) * D ^ n * |d - e| := by
  have hD : 0 ≤ D := (abs_nonneg d).trans hd
  induction n with
  | zero => simp
  | succ n ih =>
    have e1 : d ^ (n + 1 + 1) - e ^ (n + 1 + 1) = d * (d ^ (n + 1) - e ^ (n + 1)) + (d - e) * e ^ (n + 1) := by ring
    have h1 : |d| * |d ^ (n + 1) - e ^ (n + 1)| ≤ D * ((n + 1) * D ^ n * |d - e|) :=
      mul_le_mul hd ih (abs_nonneg _) hD
    have h2 : |d - e| * |e ^ (n + 1)| ≤ |d - e| * D ^ (n + 1) := by
      rw [abs_pow]
      exact mul_le_mul_of_nonneg_left (pow_le_pow_left₀ (abs_nonneg _) he _) (abs_nonneg _)
    rw [e1]
    refine (abs_add_le _ _).trans ?_
    rw [abs_mul, abs_mul]
    refine (add_le_add h1 h2).trans (le_of_eq ?_)
    push_cast
    ring

namespace Lip

theorem cc : Lip (fun f => Real.cos f * Real.cos f) 1 2 := (cos.mul cos).mono (by norm_num) (by norm_num)
theorem ss : Lip (fun f => Real.sin f * Real.sin f) 1 2 := (sin.mul sin).mono (by norm_num) (by norm_num)
theorem c4 : Lip (fun f => Real.cos f * Real.cos f * (Real.cos f * Real.cos f)) 1 4 :=
  (cc.mul cc).mono (by norm_num) (by norm_num)
theorem s4 : Lip (fun f => Real.sin f * Real.sin f * (Real.sin f * Real.sin f)) 1 4 :=
  (ss.mul ss).mono (by norm_num) (by norm_num)
theorem sc : Lip (fun f => Real.sin f * Real.sin f * (Real.cos f * Real.cos f)) 1 4 :=
  (ss.mul cc).mono (by norm_num) (by norm_num)
theorem c6 : Lip (fun f => Real.cos f * Real.cos f * (Real.cos f * Real.cos f) * (Real.cos f * Real.cos f)) 1 6 :=
  (c4.mul cc).mono (by norm_num) (by norm_num)

theorem congr {f g : ℝ → ℝ} {B L : ℝ} (h : Lip f B L) (e : ∀ x, g x = f x) : Lip g B L := by
  have : g = f := funext e
  rw [this]
  exact h

end Lip

/-- Coefficient of the third power in the easting. -/
noncomputable def coX3 (f : ℝ) : ℝ :=
  (Real.cos f * Real.cos f - Real.sin f * Real.sin f + utmEP2 * (Real.cos f * Real.cos f * (Real.cos f * Real.cos f))) / 6

/-- Coefficient of the fifth power in the easting. -/
noncomputable def coX5 (f : ℝ) : ℝ :=
  (5 * (Real.cos f * Real.cos f * (Real.cos f * Real.cos f)) - 18 * (Real.sin f * Real.sin f * (Real.cos f * Real.cos f)) +
    Real.sin f * Real.sin f * (Real.sin f * Real.sin f) +
    72 * utmEP2 * (Real.cos f * Real.cos f * (Real.cos f * Real.cos f) * (Real.cos f * Real.cos f)) -
    58 * utmEP2 * (Real.cos f * Real.cos f * (Real.cos f * Real.cos f))) / 120

/-- Coefficient of the fourth power in the northing. -/
noncomputable def coN4 (f : ℝ) : ℝ :=
  (5 * (Real.cos f * Real.cos f) - Real.sin f * Real.sin f +
    9 * utmEP2 * (Real.cos f * Real.cos f * (Real.cos f * Real.cos f)) +
    4 * (utmEP2 * utmEP2) * (Real.cos f * Real.cos f * (Real.cos f * Real.cos f) * (Real.cos f * Real.cos f))) / 24

/-- Coefficient of the sixth power in the northing. -/
noncomputable def coN6 (f : ℝ) : ℝ :=
  (61 * (Real.cos f * Real.cos f * (Real.cos f * Real.cos f)) - 58 * (Real.sin f * Real.sin f * (Real.cos f * Real.cos f)) +
    Real.sin f * Real.sin f * (Real.sin f * Real.sin f) +
    600 * utmEP2 * (Real.cos f * Real.cos f * (Real.cos f * Real.cos f) * (Real.cos f * Real.cos f)) -
    330 * utmEP2 * (Real.cos f * Real.cos f * (Real.cos f * Real.cos f))) / 720

theorem Lip.x3 : Lip coX3 0.34 0.68 := by
  obtain ⟨h1, h2⟩ := ep2_bounds
  have := ((Lip.cc.add (Lip.ss.smul (-1))).add (Lip.c4.smul utmEP2)).smul (1 / 6)
  refine (this.congr fun f => ?_).mono ?_ ?_
  · unfold coX3
    ring
  · rw [abs_of_pos h1]
    norm_num
    linarith
  · rw [abs_of_pos h1]
    norm_num
    linarith

theorem Lip.x5 : Lip coX5 0.21 0.85 := by
  obtain ⟨h1, h2⟩ := ep2_bounds
  have := (((((Lip.c4.smul 5).add (Lip.sc.smul (-18))).add Lip.s4).add (Lip.c6.smul (72 * utmEP2))).add
    (Lip.c4.smul (-58 * utmEP2))).smul (1 / 120)
  refine (this.congr fun f => ?_).mono ?_ ?_
  · unfold coX5
    ring
  · rw [abs_mul, abs_mul, abs_of_pos h1]
    norm_num
    linarith
  · rw [abs_mul, abs_mul, abs_of_pos h1]
    norm_num
    linarith

theorem Lip.n4 : Lip coN4 0.26 0.52 := by
  obtain ⟨h1, h2⟩ := ep2_bounds
  have h3 : utmEP2 * utmEP2 ≤ 0.0001 := by nlinarith
  have := ((((Lip.cc.smul 5).add (Lip.ss.smul (-1))).add (Lip.c4.smul (9 * utmEP2))).add
    (Lip.c6.smul (4 * (utmEP2 * utmEP2)))).smul (1 / 24)
  refine (this.congr fun f => ?_).mono ?_ ?_
  · unfold coN4
    ring
  · rw [abs_mul, abs_mul, abs_mul, abs_of_pos h1]
    norm_num
    linarith
  · rw [abs_mul, abs_mul, abs_mul, abs_of_pos h1]
    norm_num
    linarith

theorem Lip.n6 : Lip coN6 0.18 0.72 := by
  obtain ⟨h1, h2⟩ := ep2_bounds
  have := (((((Lip.c4.smul 61).add (Lip.sc.smul (-58))).add Lip.s4).add (Lip.c6.smul (600 * utmEP2))).add
    (Lip.c4.smul (-330 * utmEP2))).smul (1 / 720)
  refine (this.congr fun f => ?_).mono ?_ ?_
  · unfold coN6
    ring
  · rw [abs_mul, abs_mul, abs_of_pos h1]
    norm_num
    linarith
  · rw [abs_mul, abs_mul, abs_of_pos h1]
    norm_num
    linarith

theorem utmX_eq (f d : ℝ) : utmX f d = utmW f * Real.cos f * (d + d ^ 3 * coX3 f + d ^ 5 * coX5 f) := by
  unfold utmX coX3 coX5
  ring

theorem utmN_eq (f d : ℝ) : utmN f d = utmW f * Real.cos f * Real.sin f * (d ^ 2 / 2 + d ^ 4 * coN4 f + d ^ 6 * coN6 f) := by
  unfold utmN coN4 coN6
  ring

theorem pow_small {d : ℝ} (hd : |d| ≤ 0.0525) (n : ℕ) : |d ^ n| ≤ 0.0525 ^ n := by
  rw [abs_pow]
  exact pow_le_pow_left₀ (abs_nonneg _) hd _

/-- Along a parallel eastings are distances. -/
theorem utmX_east (f : ℝ) {d e : ℝ} (hd : |d| ≤ 0.0525) (he : |e| ≤ 0.0525) :
    |utmX f e - utmX f d - utmW f * Real.cos f * (e - d)| ≤ 0.003 * |utmW f * Real.cos f * (e - d)| := by
  have h : utmX f e - utmX f d - utmW f * Real.cos f * (e - d) =
      utmW f * Real.cos f * ((e ^ 3 - d ^ 3) * coX3 f + (e ^ 5 - d ^ 5) * coX5 f) := by
    rw [utmX_eq, utmX_eq]
    ring
  rw [h, abs_mul, abs_mul (utmW f * Real.cos f) (e - d)]
  have h3 := pow_diff he hd 2
  have h5 := pow_diff he hd 4
  have b3 := Lip.x3.bd f
  have b5 := Lip.x5.bd f
  norm_num at h3 h5
  have hz := abs_nonneg (e - d)
  have hw := abs_nonneg (utmW f * Real.cos f)
  have key : |(e ^ 3 - d ^ 3) * coX3 f + (e ^ 5 - d ^ 5) * coX5 f| ≤ 0.003 * |e - d| := by
    refine (abs_add_le _ _).trans ?_
    rw [abs_mul, abs_mul]
    have k3 := mul_le_mul h3 b3 (abs_nonneg _) (by positivity)
    have k5 := mul_le_mul h5 b5 (abs_nonneg _) (by positivity)
    linarith
  calc _ ≤ |utmW f * Real.cos f| * (0.003 * |e - d|) := mul_le_mul_of_nonneg_left key hw
    _ = _ := by ring

theorem utmX_north {d : ℝ} (hd : |d| ≤ 0.0525) : Lip (fun f => utmX f d) 0.053 0.06 := by
  have h3 := pow_small hd 3
  have h5 := pow_small hd 5
  have z3 := abs_nonneg (d ^ 3)
  have z5 := abs_nonneg (d ^ 5)
  have z := abs_nonneg d
  norm_num [abs_pow] at h3 h5
  rw [← abs_pow] at h3 h5
  have inner : Lip (fun f => d + d ^ 3 * coX3 f + d ^ 5 * coX5 f) 0.0527 0.0002 := by
    refine (((Lip.const d).add (Lip.x3.smul (d ^ 3))).add (Lip.x5.smul (d ^ 5))).mono ?_ ?_ <;> linarith
  refine (((Lip.w.mul Lip.cos).mul inner).congr fun f => utmX_eq f d).mono ?_ ?_ <;> norm_num

theorem utmN_north {d : ℝ} (hd : |d| ≤ 0.0525) : Lip (fun f => utmN f d) 0.0015 0.01 := by
  have h2 := pow_small hd 2
  have h4 := pow_small hd 4
  have h6 := pow_small hd 6
  have z4 := abs_nonneg (d ^ 4)
  have z6 := abs_nonneg (d ^ 6)
  norm_num [abs_pow] at h2 h4 h6
  rw [← abs_pow] at h4 h6
  have h2' : |d ^ 2 / 2| ≤ 0.0013782 := by
    rw [abs_div, abs_two, abs_pow, sq_abs]
    linarith
  have inner : Lip (fun f => d ^ 2 / 2 + d ^ 4 * coN4 f + d ^ 6 * coN6 f) 0.00139 0.00001 := by
    refine (((Lip.const (d ^ 2 / 2)).add (Lip.n4.smul (d ^ 4))).add (Lip.n6.smul (d ^ 6))).mono ?_ ?_
    · linarith
    · linarith
  refine ((((Lip.w.mul Lip.cos).mul Lip.sin).mul inner).congr fun f => utmN_eq f d).mono ?_ ?_ <;> norm_num

theorem utmN_east (f : ℝ) {d e : ℝ} (hd : |d| ≤ 0.0525) (he : |e| ≤ 0.0525) :
    |utmN f e - utmN f d| ≤ 0.06 * |utmW f * Real.cos f * (e - d)| := by
  have h : utmN f e - utmN f d = utmW f * Real.cos f * (Real.sin f * ((e ^ 2 - d ^ 2) / 2 + (e ^ 4 - d ^ 4) * coN4 f +
      (e ^ 6 - d ^ 6) * coN6 f)) := by
    rw [utmN_eq, utmN_eq]
    ring
  rw [h, abs_mul, abs_mul (utmW f * Real.cos f) (e - d)]
  have h2 := pow_diff he hd 1
  have h4 := pow_diff he hd 3
  have h6 := pow_diff he hd 5
  have b4 := Lip.n4.bd f
  have b6 := Lip.n6.bd f
  norm_num at h2 h4 h6
  have hz := abs_nonneg (e - d)
  have hw := abs_nonneg (utmW f * Real.cos f)
  have key : |(e ^ 2 - d ^ 2) / 2 + (e ^ 4 - d ^ 4) * coN4 f + (e ^ 6 - d ^ 6) * coN6 f| ≤ 0.06 * |e - d| := by
    refine (abs_add_le _ _).trans (le_trans (add_le_add (abs_add_le _ _) le_rfl) ?_)
    rw [abs_mul, abs_mul, abs_div, abs_two]
    have k4 := mul_le_mul h4 b4 (abs_nonneg _) (by positivity)
    have k6 := mul_le_mul h6 b6 (abs_nonneg _) (by positivity)
    linarith
  have key' : |Real.sin f * ((e ^ 2 - d ^ 2) / 2 + (e ^ 4 - d ^ 4) * coN4 f + (e ^ 6 - d ^ 6) * coN6 f)| ≤ 0.06 * |e - d| := by
    rw [abs_mul]
    have := mul_le_mul (Real.abs_sin_le_one f) key (abs_nonneg _) (by norm_num)
    linarith
  calc _ ≤ |utmW f * Real.cos f| * (0.06 * |e - d|) := mul_le_mul_of_nonneg_left key' hw
    _ = _ := by ring

theorem m_bounds : |utmM0 - 1| ≤ 0.0017 ∧ |utmM1| ≤ 0.00252 ∧ |utmM2| ≤ 0.00001 ∧ |utmM3| ≤ 0.00001 := by
  unfold utmM0 utmM1 utmM2 utmM3 utmE6 utmE4 utmE2
  simp only [abs_le]
  norm_num

theorem sin_mul_diff (k : ℝ) (hk : 0 ≤ k) (f g : ℝ) : |Real.sin (k * g) - Real.sin (k * f)| ≤ k * |g - f| := by
  have := Lip.sin.lip (k * g) (k * f)
  rw [one_mul, ← mul_sub, abs_mul, abs_of_nonneg hk] at this
  exact this

/-- Along the central meridian northings are distances. -/
theorem utmM_north (f g : ℝ) : |utmM g - utmM f - (g - f)| ≤ 0.008 * |g - f| := by
  obtain ⟨b0, b1, b2, b3⟩ := m_bounds
  have s2 := sin_mul_diff 2 (by norm_num) f g
  have s4 := sin_mul_diff 4 (by norm_num) f g
  have s6 := sin_mul_diff 6 (by norm_num) f g
  have z := abs_nonneg (g - f)
  have e : utmM g - utmM f - (g - f) = (utmM0 - 1) * (g - f) + utmM1 * (Real.sin (2 * g) - Real.sin (2 * f)) +
      utmM2 * (Real.sin (4 * g) - Real.sin (4 * f)) + utmM3 * (Real.sin (6 * g) - Real.sin (6 * f)) := by
    unfold utmM
    ring
  rw [e]
  refine (abs_add_le _ _).trans (le_trans (add_le_add (abs_add_le _ _) le_rfl)
    (le_trans (add_le_add (add_le_add (abs_add_le _ _) le_rfl) le_rfl) ?_))
  simp only [abs_mul]
  have k0 := mul_le_mul_of_nonneg_right b0 z
  have k1 := mul_le_mul b1 s2 (abs_nonneg _) (by norm_num)
  have k2 := mul_le_mul b2 s4 (abs_nonneg _) (by norm_num)
  have k3 := mul_le_mul b3 s6 (abs_nonneg _) (by norm_num)
  linarith

theorem utmM_zero : utmM 0 = 0 := by
  unfold utmM
  simp

end RL.Nav
