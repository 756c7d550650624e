import Verif.Props.Utm
import Mathlib.Analysis.SpecialFunctions.Sqrt
import Mathlib.Analysis.SpecialFunctions.Trigonometric.Deriv
/-! # Derivatives of the series of the function `UTM` -/

namespace RL.Nav

/-- Radius of curvature of the meridian over the equatorial radius. -/
noncomputable def utmR (f : ℝ) : ℝ := (1 - utmE2) * utmW f ^ 3

theorem w_sq (f : ℝ) : utmW f ^ 2 * (1 - utmE2 * Real.sin f * Real.sin f) = 1 := by
  have h := (w_root f).1
  have hq : 0 ≤ 1 - utmE2 * Real.sin f * Real.sin f := by
    obtain ⟨h1, h2⟩ := e2_bounds
    nlinarith [Real.sin_sq_add_cos_sq f, sq_nonneg (Real.cos f), mul_self_nonneg (Real.sin f)]
  have e := Real.sq_sqrt hq
  have h0 : Real.sqrt (1 - utmE2 * Real.sin f * Real.sin f) ≠ 0 := by linarith
  unfold utmW
  rw [div_pow, one_pow, e, one_div, inv_mul_cancel₀]
  rw [← e]
  exact pow_ne_zero 2 h0

theorem w_deriv (f : ℝ) : HasDerivAt utmW (utmE2 * Real.sin f * Real.cos f * utmW f ^ 3) f := by
  have h := (w_root f).1
  have h0 : Real.sqrt (1 - utmE2 * Real.sin f * Real.sin f) ≠ 0 := by linarith
  have hq : 1 - utmE2 * Real.sin f * Real.sin f ≠ 0 := by
    intro h
    rw [h, Real.sqrt_zero] at h0
    exact h0 rfl
  have hs := Real.hasDerivAt_sin f
  have h1 : HasDerivAt (fun f => 1 - utmE2 * Real.sin f * Real.sin f)
      (-(utmE2 * Real.cos f * Real.sin f + utmE2 * Real.sin f * Real.cos f)) f :=
    ((hs.const_mul utmE2).mul hs).const_sub 1
  have h2 : HasDerivAt utmW _ f := ((hasDerivAt_const f (1 : ℝ)).div (h1.sqrt hq) h0)
  refine h2.congr_deriv ?_
  unfold utmW
  field_simp
  ring

theorem wc_deriv (f : ℝ) : HasDerivAt (fun f => utmW f * Real.cos f) (utmR f * -Real.sin f) f := by
  refine ((w_deriv f).mul (Real.hasDerivAt_cos f)).congr_deriv ?_
  have h := w_sq f
  have hc := Real.sin_sq_add_cos_sq f
  unfold utmR
  generalize utmW f = w at *
  generalize Real.sin f = s at *
  have hc : Real.cos f * Real.cos f = 1 - s * s := by nlinarith
  generalize Real.cos f = c at *
  linear_combination (utmE2 * s * w ^ 3) * hc + (w * s) * h

theorem e2_ep2 : utmE2 = utmEP2 * (1 - utmE2) := by
  unfold utmEP2
  have := e2_bounds
  field_simp
  rw [mul_div_assoc, div_self (by linarith), mul_one]

theorem wc_eq (f : ℝ) : utmW f * Real.cos f = utmR f * (Real.cos f * (1 + utmEP2 * Real.cos f ^ 2)) := by
  have h := w_sq f
  have hc := Real.sin_sq_add_cos_sq f
  have he := e2_ep2
  unfold utmR
  generalize utmW f = w at *
  generalize Real.sin f = s at *
  have hc : Real.cos f ^ 2 = 1 - s * s := by nlinarith
  generalize Real.cos f = c at *
  linear_combination (-(w * c)) * h + (-(w ^ 3 * c * (s * s - 1))) * he - (1 - utmE2) * w ^ 3 * c * utmEP2 * hc

/-- The derivative of a function times the radius of the parallel, per length along the meridian. -/
theorem wcg_deriv {g : ℝ → ℝ} {g' f : ℝ} (hg : HasDerivAt g g' f) :
    HasDerivAt (fun f => utmW f * Real.cos f * g f)
      (utmR f * (-Real.sin f * g f + Real.cos f * (1 + utmEP2 * Real.cos f ^ 2) * g')) f := by
  refine ((wc_deriv f).mul hg).congr_deriv ?_
  rw [wc_eq]
  ring

theorem x3_deriv (f : ℝ) : HasDerivAt coX3
    (-(Real.sin f * Real.cos f) * (4 + 4 * utmEP2 * Real.cos f ^ 2) / 6) f := by
  have hs := Real.hasDerivAt_sin f
  have hc := Real.hasDerivAt_cos f
  have cc := hc.mul hc
  have ss := hs.mul hs
  have c4 := cc.mul cc
  have h : HasDerivAt coX3 _ f := ((cc.sub ss).add (c4.const_mul utmEP2)).div_const 6
  refine h.congr_deriv ?_
  simp only [Pi.mul_apply]
  ring

theorem x5_deriv (f : ℝ) : HasDerivAt coX5
    (-(2 * Real.sin f * Real.cos f) * (10 * Real.cos f ^ 2 - 18 * (Real.sin f ^ 2 - Real.cos f ^ 2) - 2 * Real.sin f ^ 2 +
      216 * utmEP2 * Real.cos f ^ 4 - 116 * utmEP2 * Real.cos f ^ 2) / 120) f := by
  have hs := Real.hasDerivAt_sin f
  have hc := Real.hasDerivAt_cos f
  have cc := hc.mul hc
  have ss := hs.mul hs
  have c4 := cc.mul cc
  have c6 := c4.mul cc
  have s4 := ss.mul ss
  have sc := ss.mul cc
  have h : HasDerivAt coX5 _ f := (((((c4.const_mul 5).sub (sc.const_mul 18)).add s4).add (c6.const_mul (72 * utmEP2))).sub
    (c4.const_mul (58 * utmEP2))).div_const 120
  refine h.congr_deriv ?_
  simp only [Pi.mul_apply]
  ring

theorem n4_deriv (f : ℝ) : HasDerivAt coN4
    (-(2 * Real.sin f * Real.cos f) * (6 + 18 * utmEP2 * Real.cos f ^ 2 + 12 * utmEP2 ^ 2 * Real.cos f ^ 4) / 24) f := by
  have hs := Real.hasDerivAt_sin f
  have hc := Real.hasDerivAt_cos f
  have cc := hc.mul hc
  have ss := hs.mul hs
  have c4 := cc.mul cc
  have c6 := c4.mul cc
  have h : HasDerivAt coN4 _ f := ((((cc.const_mul 5).sub ss).add (c4.const_mul (9 * utmEP2))).add
    (c6.const_mul (4 * (utmEP2 * utmEP2)))).div_const 24
  refine h.congr_deriv ?_
  simp only [Pi.mul_apply]
  ring

theorem n6_deriv (f : ℝ) : HasDerivAt coN6
    (-(2 * Real.sin f * Real.cos f) * (122 * Real.cos f ^ 2 - 58 * (Real.sin f ^ 2 - Real.cos f ^ 2) - 2 * Real.sin f ^ 2 +
      1800 * utmEP2 * Real.cos f ^ 4 - 660 * utmEP2 * Real.cos f ^ 2) / 720) f := by
  have hs := Real.hasDerivAt_sin f
  have hc := Real.hasDerivAt_cos f
  have cc := hc.mul hc
  have ss := hs.mul hs
  have c4 := cc.mul cc
  have c6 := c4.mul cc
  have s4 := ss.mul ss
  have sc := ss.mul cc
  have h : HasDerivAt coN6 _ f := (((((c4.const_mul 61).sub (sc.const_mul 58)).add s4).add (c6.const_mul (600 * utmEP2))).sub
    (c4.const_mul (330 * utmEP2))).div_const 720
  refine h.congr_deriv ?_
  simp only [Pi.mul_apply]
  ring

/-- Scale of eastings along a parallel. -/
noncomputable def scEE (f d : ℝ) : ℝ := 1 + 3 * d ^ 2 * coX3 f + 5 * d ^ 4 * coX5 f
/-- Scale of northings along a parallel. -/
noncomputable def scNE (f d : ℝ) : ℝ := Real.sin f * (d + 4 * d ^ 3 * coN4 f + 6 * d ^ 5 * coN6 f)
/-- Scale of eastings along a meridian. -/
noncomputable def scEN (f d : ℝ) : ℝ :=
  -Real.sin f * (d + d ^ 3 * coX3 f + d ^ 5 * coX5 f) + Real.cos f * (1 + utmEP2 * Real.cos f ^ 2) *
    (d ^ 3 * (-(Real.sin f * Real.cos f) * (4 + 4 * utmEP2 * Real.cos f ^ 2) / 6) +
      d ^ 5 * (-(2 * Real.sin f * Real.cos f) * (10 * Real.cos f ^ 2 - 18 * (Real.sin f ^ 2 - Real.cos f ^ 2) - 2 * Real.sin f ^ 2 +
      216 * utmEP2 * Real.cos f ^ 4 - 116 * utmEP2 * Real.cos f ^ 2) / 120))
/-- Scale of northings along a meridian. -/
noncomputable def scNN (f d : ℝ) : ℝ :=
  (utmM0 + 2 * utmM1 * Real.cos (2 * f) + 4 * utmM2 * Real.cos (4 * f) + 6 * utmM3 * Real.cos (6 * f)) / utmR f +
  (-Real.sin f * (Real.sin f * (d ^ 2 / 2 + d ^ 4 * coN4 f + d ^ 6 * coN6 f)) + Real.cos f * (1 + utmEP2 * Real.cos f ^ 2) *
    (Real.cos f * (d ^ 2 / 2 + d ^ 4 * coN4 f + d ^ 6 * coN6 f) + Real.sin f *
      (d ^ 4 * (-(2 * Real.sin f * Real.cos f) * (6 + 18 * utmEP2 * Real.cos f ^ 2 + 12 * utmEP2 ^ 2 * Real.cos f ^ 4) / 24) +
      d ^ 6 * (-(2 * Real.sin f * Real.cos f) * (122 * Real.cos f ^ 2 - 58 * (Real.sin f ^ 2 - Real.cos f ^ 2) - 2 * Real.sin f ^ 2 +
      1800 * utmEP2 * Real.cos f ^ 4 - 660 * utmEP2 * Real.cos f ^ 2) / 720))))

theorem r_pos (f : ℝ) : 0.99 ≤ utmR f := by
  have h := (w_bounds f).1
  have he := e2_bounds
  unfold utmR
  have : 1 ≤ utmW f ^ 3 := one_le_pow₀ h
  nlinarith

theorem utmX_deriv_d (f d : ℝ) : HasDerivAt (fun d => utmX f d) (utmW f * Real.cos f * scEE f d) d := by
  have h1 := hasDerivAt_id' d
  have h : HasDerivAt (fun d => utmW f * Real.cos f * (d + d ^ 3 * coX3 f + d ^ 5 * coX5 f)) _ d :=
    ((h1.add ((hasDerivAt_pow 3 d).mul_const (coX3 f))).add ((hasDerivAt_pow 5 d).mul_const (coX5 f))).const_mul
      (utmW f * Real.cos f)
  have e : (fun d => utmX f d) = fun d => utmW f * Real.cos f * (d + d ^ 3 * coX3 f + d ^ 5 * coX5 f) := funext (utmX_eq f)
  rw [e]
  refine h.congr_deriv ?_
  unfold scEE
  norm_num

theorem utmN_deriv_d (f d : ℝ) : HasDerivAt (fun d => utmN f d) (utmW f * Real.cos f * scNE f d) d := by
  have h : HasDerivAt (fun d => utmW f * Real.cos f * Real.sin f * (d ^ 2 / 2 + d ^ 4 * coN4 f + d ^ 6 * coN6 f)) _ d :=
    ((((hasDerivAt_pow 2 d).div_const 2).add ((hasDerivAt_pow 4 d).mul_const (coN4 f))).add
      ((hasDerivAt_pow 6 d).mul_const (coN6 f))).const_mul (utmW f * Real.cos f * Real.sin f)
  have e : (fun d => utmN f d) = fun d => utmW f * Real.cos f * Real.sin f * (d ^ 2 / 2 + d ^ 4 * coN4 f + d ^ 6 * coN6 f) :=
    funext (utmN_eq f)
  rw [e]
  refine h.congr_deriv ?_
  unfold scNE
  norm_num
  ring

theorem utmX_deriv_f (f d : ℝ) : HasDerivAt (fun f => utmX f d) (utmR f * scEN f d) f := by
  have e : (fun f => utmX f d) = fun f => utmW f * Real.cos f * (d + d ^ 3 * coX3 f + d ^ 5 * coX5 f) :=
    funext fun f => utmX_eq f d
  have h : HasDerivAt (fun f => d + d ^ 3 * coX3 f + d ^ 5 * coX5 f) _ f :=
    (((x3_deriv f).const_mul (d ^ 3)).const_add d).add ((x5_deriv f).const_mul (d ^ 5))
  rw [e]
  exact wcg_deriv h

theorem utmM_deriv (f : ℝ) : HasDerivAt utmM
    (utmM0 + 2 * utmM1 * Real.cos (2 * f) + 4 * utmM2 * Real.cos (4 * f) + 6 * utmM3 * Real.cos (6 * f)) f := by
  have h1 := hasDerivAt_id' f
  have h : HasDerivAt utmM _ f := (((h1.const_mul utmM0).add ((h1.const_mul 2).sin.const_mul utmM1)).add
    ((h1.const_mul 4).sin.const_mul utmM2)).add ((h1.const_mul 6).sin.const_mul utmM3)
  refine h.congr_deriv ?_
  ring

theorem utmN_deriv_f (f d : ℝ) : HasDerivAt (fun f => utmM f + utmN f d) (utmR f * scNN f d) f := by
  have e : (fun f => utmM f + utmN f d) = fun f => utmM f + utmW f * Real.cos f * (Real.sin f * (d ^ 2 / 2 + d ^ 4 * coN4 f + d ^ 6 * coN6 f)) :=
    funext fun f => by rw [utmN_eq, mul_assoc (utmW f * Real.cos f)]
  have h : HasDerivAt (fun f => d ^ 2 / 2 + d ^ 4 * coN4 f + d ^ 6 * coN6 f) _ f :=
    (((n4_deriv f).const_mul (d ^ 4)).const_add (d ^ 2 / 2)).add ((n6_deriv f).const_mul (d ^ 6))
  have h' : HasDerivAt (fun f => Real.sin f * (d ^ 2 / 2 + d ^ 4 * coN4 f + d ^ 6 * coN6 f)) _ f := (Real.hasDerivAt_sin f).mul h
  have hr := r_pos f
  rw [e]
  refine ((utmM_deriv f).add (wcg_deriv h')).congr_deriv ?_
  have key : ∀ a b r : ℝ, r ≠ 0 → a + r * b = r * (a / r + b) := by
    intro a b r h
    field_simp
  exact key _ _ _ (by linarith)

/-! ## The error of the meridian -/

theorem root_lower {w q : ℝ} (hw : 0 < w) (h : w ^ 2 * (1 - q) = 1) (q0 : 0 ≤ q) (q1 : q ≤ 0.0067) :
    1 + 3 / 2 * q + 15 / 8 * q ^ 2 + 35 / 16 * q ^ 3 + 315 / 128 * q ^ 4 ≤ w ^ 3 := by
  have key : (1 + 3 / 2 * q + 15 / 8 * q ^ 2 + 35 / 16 * q ^ 3 + 315 / 128 * q ^ 4) ^ 2 * (1 - q) ^ 3 ≤ 1 := by
    have e : (1 + 3 / 2 * q + 15 / 8 * q ^ 2 + 35 / 16 * q ^ 3 + 315 / 128 * q ^ 4) ^ 2 * (1 - q) ^ 3 =
        1 - q ^ 5 * (693 / 128 - q * (1155 / 512 + 495 / 1024 * q + 3465 / 16384 * q ^ 2 + 1925 / 16384 * q ^ 3 +
          121275 / 16384 * q ^ 4 - 99225 / 16384 * q ^ 5)) := by ring
    rw [e]
    have p : ∀ n : ℕ, 0 ≤ q ^ n ∧ q ^ n ≤ 1 := fun n => ⟨pow_nonneg q0 n, pow_le_one₀ q0 (by linarith)⟩
    have b : 1155 / 512 + 495 / 1024 * q + 3465 / 16384 * q ^ 2 + 1925 / 16384 * q ^ 3 +
          121275 / 16384 * q ^ 4 - 99225 / 16384 * q ^ 5 ≤ 20 := by
      linarith [(p 2).2, (p 3).2, (p 4).2, (p 5).1]
    have : 0 ≤ q ^ 5 * (693 / 128 - q * (1155 / 512 + 495 / 1024 * q + 3465 / 16384 * q ^ 2 + 1925 / 16384 * q ^ 3 +
          121275 / 16384 * q ^ 4 - 99225 / 16384 * q ^ 5)) := mul_nonneg (p 5).1 (by nlinarith)
    linarith
  have h3 : (w ^ 3) ^ 2 * (1 - q) ^ 3 = 1 := by
    have : (w ^ 3) ^ 2 * (1 - q) ^ 3 = (w ^ 2 * (1 - q)) ^ 3 := by ring
    rw [this, h, one_pow]
  refine le_of_sq_le_sq ?_ (by positivity)
  have hq : 0 < (1 - q) ^ 3 := pow_pos (by linarith) 3
  exact le_of_mul_le_mul_right (by rw [h3]; exact key) hq

theorem root_upper {w q : ℝ} (h : w ^ 2 * (1 - q) = 1) (q0 : 0 ≤ q) (q1 : q ≤ 0.0067) :
    w ^ 3 ≤ 1 + 3 / 2 * q + 15 / 8 * q ^ 2 + 35 / 16 * q ^ 3 + 5 / 2 * q ^ 4 := by
  have p : ∀ n : ℕ, 0 ≤ q ^ n ∧ q ^ n ≤ 1 := fun n => ⟨pow_nonneg q0 n, pow_le_one₀ q0 (by linarith)⟩
  have key : 1 ≤ (1 + 3 / 2 * q + 15 / 8 * q ^ 2 + 35 / 16 * q ^ 3 + 5 / 2 * q ^ 4) ^ 2 * (1 - q) ^ 3 := by
    have e : (1 + 3 / 2 * q + 15 / 8 * q ^ 2 + 35 / 16 * q ^ 3 + 5 / 2 * q ^ 4) ^ 2 * (1 - q) ^ 3 =
        1 + q ^ 4 * (5 / 64 - q * (177 / 32) + q ^ 2 * (585 / 256 + 125 / 256 * q + 55 / 256 * q ^ 2 - 25 / 256 * q ^ 3 +
          125 / 16 * q ^ 4 - 25 / 4 * q ^ 5)) := by ring
    rw [e]
    have b : 0 ≤ 585 / 256 + 125 / 256 * q + 55 / 256 * q ^ 2 - 25 / 256 * q ^ 3 +
          125 / 16 * q ^ 4 - 25 / 4 * q ^ 5 := by
      have : q ^ 5 ≤ q ^ 4 := by
        rw [pow_succ]
        nlinarith [(p 4).1]
      linarith [(p 2).1, (p 3).2, (p 4).1]
    have := mul_nonneg (p 4).1 (by nlinarith [mul_nonneg (p 2).1 b] : 0 ≤ 5 / 64 - q * (177 / 32) + q ^ 2 *
      (585 / 256 + 125 / 256 * q + 55 / 256 * q ^ 2 - 25 / 256 * q ^ 3 + 125 / 16 * q ^ 4 - 25 / 4 * q ^ 5))
    linarith
  have h3 : (w ^ 3) ^ 2 * (1 - q) ^ 3 = 1 := by
    have : (w ^ 3) ^ 2 * (1 - q) ^ 3 = (w ^ 2 * (1 - q)) ^ 3 := by ring
    rw [this, h, one_pow]
  refine le_of_sq_le_sq ?_ (by have := p 2; have := p 3; have := p 4; linarith)
  have hq : 0 < (1 - q) ^ 3 := pow_pos (by linarith) 3
  exact le_of_mul_le_mul_right (by rw [h3]; exact key) hq

/-- The series of the meridian has the derivative it should have, to a billionth. -/
theorem meridian_rate (f : ℝ) :
    |utmM0 + 2 * utmM1 * Real.cos (2 * f) + 4 * utmM2 * Real.cos (4 * f) + 6 * utmM3 * Real.cos (6 * f) - utmR f| ≤ 7e-10 := by
  have hs := Real.sin_sq_add_cos_sq f
  have e2 : Real.cos (2 * f) = 1 - 2 * Real.sin f ^ 2 := by
    rw [Real.cos_two_mul]
    linarith
  have e4 : Real.cos (4 * f) = 2 * (1 - 2 * Real.sin f ^ 2) ^ 2 - 1 := by
    rw [show 4 * f = 2 * (2 * f) by ring, Real.cos_two_mul, e2]
  have e6 : Real.cos (6 * f) = 4 * (1 - 2 * Real.sin f ^ 2) ^ 3 - 3 * (1 - 2 * Real.sin f ^ 2) := by
    rw [show 6 * f = 3 * (2 * f) by ring, Real.cos_three_mul, e2]
  have hw := w_sq f
  have hw1 := (w_bounds f).1
  obtain ⟨u0, u1⟩ := e2_bounds
  rw [e2, e4, e6]
  have hσ0 : 0 ≤ Real.sin f ^ 2 := sq_nonneg _
  have hσ1 : Real.sin f ^ 2 ≤ 1 := by nlinarith [sq_nonneg (Real.cos f)]
  rw [show utmE2 * Real.sin f * Real.sin f = utmE2 * Real.sin f ^ 2 by ring] at hw
  unfold utmR utmM0 utmM1 utmM2 utmM3 utmE6 utmE4
  have hu : utmE2 ^ 4 ≤ 2.0085e-9 := by
    unfold utmE2
    norm_num
  generalize utmE2 = u at *
  generalize utmW f = w at *
  generalize Real.sin f ^ 2 = σ at *
  have q0 : 0 ≤ u * σ := mul_nonneg u0.le hσ0
  have q1 : u * σ ≤ 0.0067 := by nlinarith
  have l := root_lower (by linarith) hw q0 q1
  have r := root_upper hw q0 q1
  generalize w ^ 3 = z at *
  have e : 1 - u / 4 - 3 * (u * u) / 64 - 5 * (u * u * u) / 256 +
      2 * -(3 * u / 8 + 3 * (u * u) / 32 + 45 * (u * u * u) / 1024) * (1 - 2 * σ) +
      4 * (15 * (u * u) / 256 + 45 * (u * u * u) / 1024) * (2 * (1 - 2 * σ) ^ 2 - 1) +
      6 * -(35 * (u * u * u) / 3072) * (4 * (1 - 2 * σ) ^ 3 - 3 * (1 - 2 * σ)) - (1 - u) * z =
      35 / 16 * u ^ 4 * σ ^ 3 - (1 - u) * (z - (1 + 3 / 2 * (u * σ) + 15 / 8 * (u * σ) ^ 2 + 35 / 16 * (u * σ) ^ 3)) := by ring
  rw [e]
  have l' : 315 / 128 * (u ^ 4 * σ ^ 4) ≤ z - (1 + 3 / 2 * (u * σ) + 15 / 8 * (u * σ) ^ 2 + 35 / 16 * (u * σ) ^ 3) := by
    rw [← mul_pow]
    linarith
  have r' : z - (1 + 3 / 2 * (u * σ) + 15 / 8 * (u * σ) ^ 2 + 35 / 16 * (u * σ) ^ 3) ≤ 5 / 2 * (u ^ 4 * σ ^ 4) := by
    rw [← mul_pow]
    linarith
  generalize z - (1 + 3 / 2 * (u * σ) + 15 / 8 * (u * σ) ^ 2 + 35 / 16 * (u * σ) ^ 3) = y at *
  have s4 : 0 ≤ σ ^ 4 := pow_nonneg hσ0 4
  have s3 : 0 ≤ σ ^ 3 := pow_nonneg hσ0 3
  have U : 0 ≤ u ^ 4 := pow_nonneg u0.le 4
  have us : 0 ≤ u ^ 4 * σ ^ 4 := mul_nonneg U s4
  have a1 : σ ^ 4 ≤ σ ^ 3 := by rw [pow_succ]; nlinarith
  have a3 : σ ^ 3 ≤ 1 := pow_le_one₀ hσ0 hσ1
  have a2 : 35 / 16 * σ ^ 3 - 2.44 * σ ^ 4 ≤ 0.33 := by
    nlinarith [sq_nonneg (σ ^ 2 - 0.45 * σ), sq_nonneg (σ - 0.65), mul_nonneg hσ0 (sq_nonneg (σ - 0.66)), sq_nonneg (σ ^ 2 - 0.43)]
  have y0 : 0 ≤ y := le_trans (by positivity) l'
  have k1 : 2.44 * (u ^ 4 * σ ^ 4) ≤ (1 - u) * y := by nlinarith
  have k2 : (1 - u) * y ≤ 5 / 2 * (u ^ 4 * σ ^ 4) := by nlinarith
  rw [abs_le]
  constructor
  · have := mul_le_mul_of_nonneg_left a1 U
    have := mul_le_mul_of_nonneg_left a3 U
    linarith
  · have := mul_le_mul_of_nonneg_left a2 U
    linarith

/-! ## The equations of Cauchy and Riemann -/

theorem sum_EN_NE (f d : ℝ) : scEN f d + scNE f d =
    Real.sin f * (utmEP2 ^ 2 * (232 * (Real.cos f ^ 2) ^ 3 - 432 * (Real.cos f ^ 2) ^ 4)) / 120 * d ^ 5 := by
  have h1 : Real.sin f * Real.sin f = 1 - Real.cos f * Real.cos f := by nlinarith [Real.sin_sq_add_cos_sq f]
  have h2 : Real.sin f ^ 2 = 1 - Real.cos f ^ 2 := by nlinarith [Real.sin_sq_add_cos_sq f]
  unfold scEN scNE coX3 coX5 coN4 coN6
  simp only [h1, h2]
  ring

theorem diff_EE_NN (f d : ℝ) : scEE f d - scNN f d =
    (1 - (utmM0 + 2 * utmM1 * Real.cos (2 * f) + 4 * utmM2 * Real.cos (4 * f) + 6 * utmM3 * Real.cos (6 * f)) / utmR f) +
    (utmEP2 ^ 2 * (64 * (Real.cos f ^ 2) ^ 3 - 77 * (Real.cos f ^ 2) ^ 4) +
      utmEP2 ^ 3 * (24 * (Real.cos f ^ 2) ^ 4 - 28 * (Real.cos f ^ 2) ^ 5)) / 24 * d ^ 4 +
    (-720 * (Real.cos f ^ 2) ^ 3 + 840 * (Real.cos f ^ 2) ^ 2 - 182 * Real.cos f ^ 2 + 1 +
      utmEP2 * ((1 - 2 * Real.cos f ^ 2) * (600 * (Real.cos f ^ 2) ^ 3 - 330 * (Real.cos f ^ 2) ^ 2) +
        2 * (Real.cos f ^ 2 * (1 - Real.cos f ^ 2)) * (1800 * (Real.cos f ^ 2) ^ 2 - 660 * Real.cos f ^ 2) -
        (Real.cos f ^ 2) ^ 2 * (120 * (Real.cos f ^ 2) ^ 2 - 60 * Real.cos f ^ 2 + 1 -
          2 * (1 - Real.cos f ^ 2) * (240 * Real.cos f ^ 2 - 60))) -
      utmEP2 ^ 2 * ((Real.cos f ^ 2) ^ 2 * (600 * (Real.cos f ^ 2) ^ 3 - 330 * (Real.cos f ^ 2) ^ 2 -
        2 * (1 - Real.cos f ^ 2) * (1800 * (Real.cos f ^ 2) ^ 2 - 660 * Real.cos f ^ 2)))) / 720 * d ^ 6 := by
  have h1 : Real.sin f * Real.sin f = 1 - Real.cos f * Real.cos f := by nlinarith [Real.sin_sq_add_cos_sq f]
  have h2 : Real.sin f ^ 2 = 1 - Real.cos f ^ 2 := by nlinarith [Real.sin_sq_add_cos_sq f]
  unfold scEE scNN coX3 coX5 coN4 coN6
  generalize (utmM0 + 2 * utmM1 * Real.cos (2 * f) + 4 * utmM2 * Real.cos (4 * f) + 6 * utmM3 * Real.cos (6 * f)) / utmR f = m
  simp only [h1, h2]
  generalize Real.sin f = s at *
  generalize Real.cos f = c at *
  have e : ∀ A B k : ℝ, -s * (s * A) + k * (c * A + s * (-(2 * s * c) * B)) = -(1 - c * c) * A + k * (c * A - 2 * (1 - c * c) * c * B) := by
    intro A B k
    linear_combination (-A - 2 * k * c * B) * h1
  have e' : ∀ A B B' k : ℝ, -s * (s * A) + k * (c * A + s * (d ^ 4 * (-(2 * s * c) * B / 24) + d ^ 6 * (-(2 * s * c) * B' / 720))) =
      -(1 - c * c) * A + k * (c * A - 2 * (1 - c * c) * c * (d ^ 4 * B / 24 + d ^ 6 * B' / 720)) := by
    intro A B B' k
    rw [← e]
    ring
  rw [e']
  ring

theorem cos_sq_mem (f : ℝ) : 0 ≤ Real.cos f ^ 2 ∧ Real.cos f ^ 2 ≤ 1 := ⟨sq_nonneg _, Real.cos_sq_le_one f⟩

theorem conf_cross (f : ℝ) {d : ℝ} (hd : |d| ≤ 0.0525) : |scEN f d + scNE f d| ≤ 1e-10 := by
  rw [sum_EN_NE, abs_mul, abs_div, abs_mul, abs_mul, abs_of_pos (by norm_num : (0:ℝ) < 120)]
  have h5 := pow_small hd 5
  obtain ⟨x0, x1⟩ := cos_sq_mem f
  obtain ⟨p0, p1⟩ := ep2_bounds
  generalize Real.cos f ^ 2 = x at *
  have hx : |232 * x ^ 3 - 432 * x ^ 4| ≤ 432 := by
    have a : ∀ n : ℕ, 0 ≤ x ^ n ∧ x ^ n ≤ 1 := fun n => ⟨pow_nonneg x0 n, pow_le_one₀ x0 x1⟩
    rw [abs_le]
    constructor <;> linarith [(a 3).1, (a 3).2, (a 4).1, (a 4).2]
  have hp : |utmEP2 ^ 2| ≤ 0.0068 ^ 2 := by
    rw [abs_pow, abs_of_pos p0]
    exact pow_le_pow_left₀ p0.le p1.le 2
  have hs := Real.abs_sin_le_one f
  have k1 := mul_le_mul hp hx (abs_nonneg _) (by norm_num)
  have k2 := mul_le_mul hs k1 (mul_nonneg (abs_nonneg _) (abs_nonneg _)) (by norm_num)
  have k3 := mul_le_mul (div_le_div_of_nonneg_right k2 (by norm_num : (0:ℝ) ≤ 120)) h5 (abs_nonneg _) (by norm_num)
  refine k3.trans ?_
  norm_num

theorem conf_diag (f : ℝ) {d : ℝ} (hd : |d| ≤ 0.0525) : |scEE f d - scNN f d| ≤ 5e-9 := by
  rw [diff_EE_NN]
  have hm := meridian_rate f
  have hr := r_pos f
  have h4 := pow_small hd 4
  have h6 := pow_small hd 6
  obtain ⟨x0, x1⟩ := cos_sq_mem f
  obtain ⟨p0, p1⟩ := ep2_bounds
  have e : 1 - (utmM0 + 2 * utmM1 * Real.cos (2 * f) + 4 * utmM2 * Real.cos (4 * f) + 6 * utmM3 * Real.cos (6 * f)) / utmR f =
      -(utmM0 + 2 * utmM1 * Real.cos (2 * f) + 4 * utmM2 * Real.cos (4 * f) + 6 * utmM3 * Real.cos (6 * f) - utmR f) / utmR f := by
    have : utmR f ≠ 0 := by linarith
    field_simp
    ring
  rw [e]
  generalize utmM0 + 2 * utmM1 * Real.cos (2 * f) + 4 * utmM2 * Real.cos (4 * f) + 6 * utmM3 * Real.cos (6 * f) - utmR f = t at *
  generalize utmR f = r at *
  generalize Real.cos f ^ 2 = x at *
  generalize utmEP2 = p at *
  have a : ∀ n : ℕ, 0 ≤ x ^ n ∧ x ^ n ≤ 1 := fun n => ⟨pow_nonneg x0 n, pow_le_one₀ x0 x1⟩
  have b1 : |-t / r| ≤ 8e-10 := by
    rw [abs_div, abs_neg, abs_of_pos (by linarith : 0 < r), div_le_iff₀ (by linarith)]
    linarith
  have b2 : |(p ^ 2 * (64 * x ^ 3 - 77 * x ^ 4) + p ^ 3 * (24 * x ^ 4 - 28 * x ^ 5)) / 24| ≤ 1.6e-4 := by
    have c1 : |64 * x ^ 3 - 77 * x ^ 4| ≤ 77 := by
      rw [abs_le]
      constructor <;> linarith [(a 3).1, (a 3).2, (a 4).1, (a 4).2]
    have c2 : |24 * x ^ 4 - 28 * x ^ 5| ≤ 52 := by
      rw [abs_le]
      constructor <;> linarith [(a 5).1, (a 5).2, (a 4).1, (a 4).2]
    have d2 : |p ^ 2| ≤ 0.0068 ^ 2 := by
      rw [abs_pow, abs_of_pos p0]
      exact pow_le_pow_left₀ p0.le p1.le 2
    have d3 : |p ^ 3| ≤ 0.0068 ^ 3 := by
      rw [abs_pow, abs_of_pos p0]
      exact pow_le_pow_left₀ p0.le p1.le 3
    have k1 := mul_le_mul d2 c1 (abs_nonneg _) (by norm_num)
    have k2 := mul_le_mul d3 c2 (abs_nonneg _) (by norm_num)
    rw [abs_div, abs_of_pos (by norm_num : (0:ℝ) < 24), div_le_iff₀ (by norm_num)]
    refine (abs_add_le _ _).trans ?_
    rw [abs_mul, abs_mul]
    refine (add_le_add k1 k2).trans ?_
    norm_num
  have b3 : |(-720 * x ^ 3 + 840 * x ^ 2 - 182 * x + 1 +
      p * ((1 - 2 * x) * (600 * x ^ 3 - 330 * x ^ 2) + 2 * (x * (1 - x)) * (1800 * x ^ 2 - 660 * x) -
        x ^ 2 * (120 * x ^ 2 - 60 * x + 1 - 2 * (1 - x) * (240 * x - 60))) -
      p ^ 2 * (x ^ 2 * (600 * x ^ 3 - 330 * x ^ 2 - 2 * (1 - x) * (1800 * x ^ 2 - 660 * x)))) / 720| ≤ 0.11 := by
    have y0 : 0 ≤ x * (1 - x) := mul_nonneg x0 (sub_nonneg.2 x1)
    have y1 : x * (1 - x) ≤ 1 / 4 := by nlinarith [sq_nonneg (x - 1 / 2)]
    have c1 : |600 * x ^ 3 - 330 * x ^ 2| ≤ 330 := by
      rw [abs_le]
      constructor
      · nlinarith [(a 2).2, (a 3).1]
      · nlinarith [(a 2).1, (a 3).1, (a 3).2, mul_nonneg (a 2).1 (sub_nonneg.2 x1)]
    have c2 : |1800 * x ^ 2 - 660 * x| ≤ 1140 := by
      rw [abs_le]
      constructor <;> nlinarith [sq_nonneg (x - 1 / 4)]
    have c3 : |120 * x ^ 2 - 60 * x + 1 - 2 * (1 - x) * (240 * x - 60)| ≤ 180 := by
      rw [abs_le]
      constructor <;> nlinarith [sq_nonneg (x - 1 / 2)]
    have m1 : |1 - 2 * x| ≤ 1 := by
      rw [abs_le]
      constructor <;> linarith
    have c4 : |(1 - 2 * x) * (600 * x ^ 3 - 330 * x ^ 2) + 2 * (x * (1 - x)) * (1800 * x ^ 2 - 660 * x) -
        x ^ 2 * (120 * x ^ 2 - 60 * x + 1 - 2 * (1 - x) * (240 * x - 60))| ≤ 1 * 330 + 2 * (1 / 4) * 1140 + 1 * 180 := by
      refine (abs_sub _ _).trans (add_le_add ((abs_add_le _ _).trans (add_le_add ?_ ?_)) ?_)
      · rw [abs_mul]
        exact mul_le_mul m1 c1 (abs_nonneg _) (by norm_num)
      · rw [abs_mul, abs_of_nonneg (by linarith : 0 ≤ 2 * (x * (1 - x)))]
        exact mul_le_mul (by linarith) c2 (abs_nonneg _) (by norm_num)
      · rw [abs_mul, abs_of_nonneg (a 2).1]
        exact mul_le_mul (a 2).2 c3 (abs_nonneg _) (by norm_num)
    have c5 : |x ^ 2 * (600 * x ^ 3 - 330 * x ^ 2 - 2 * (1 - x) * (1800 * x ^ 2 - 660 * x))| ≤ 1 * (330 + 2 * 1140) := by
      rw [abs_mul, abs_of_nonneg (a 2).1]
      refine mul_le_mul (a 2).2 ((abs_sub _ _).trans (add_le_add c1 ?_)) (abs_nonneg _) (by norm_num)
      rw [abs_mul, abs_of_nonneg (by linarith : 0 ≤ 2 * (1 - x))]
      exact mul_le_mul (by linarith) c2 (abs_nonneg _) (by norm_num)
    have c6 : |-720 * x ^ 3 + 840 * x ^ 2 - 182 * x + 1| ≤ 65 := by
      rw [abs_le]
      constructor
      · nlinarith [mul_nonneg (a 2).1 (sub_nonneg.2 x1), y0, sq_nonneg (x - 1 / 4), mul_nonneg (sub_nonneg.2 x1) (sq_nonneg (x - 1 / 8))]
      · nlinarith [mul_nonneg x0 (sq_nonneg (x - 2 / 3)), (a 3).1, x0, sq_nonneg (x - 7 / 12), mul_nonneg x0 (sq_nonneg (x - 7 / 12))]
    generalize (1 - 2 * x) * (600 * x ^ 3 - 330 * x ^ 2) + 2 * (x * (1 - x)) * (1800 * x ^ 2 - 660 * x) -
        x ^ 2 * (120 * x ^ 2 - 60 * x + 1 - 2 * (1 - x) * (240 * x - 60)) = A at *
    generalize x ^ 2 * (600 * x ^ 3 - 330 * x ^ 2 - 2 * (1 - x) * (1800 * x ^ 2 - 660 * x)) = B at *
    generalize -720 * x ^ 3 + 840 * x ^ 2 - 182 * x + 1 = G at *
    rw [abs_div, abs_of_pos (by norm_num : (0:ℝ) < 720), div_le_iff₀ (by norm_num)]
    refine (abs_sub _ _).trans (le_trans (add_le_add (abs_add_le _ _) le_rfl) ?_)
    rw [abs_mul, abs_mul, abs_pow, abs_of_pos p0]
    have k1 := mul_le_mul p1.le c4 (abs_nonneg _) (by norm_num)
    have k2 := mul_le_mul (pow_le_pow_left₀ p0.le p1.le 2) c5 (abs_nonneg _) (by norm_num)
    refine (add_le_add (add_le_add c6 k1) k2).trans ?_
    norm_num
  refine (abs_add_le _ _).trans (le_trans (add_le_add (abs_add_le _ _) le_rfl) ?_)
  rw [abs_mul _ (d ^ 4), abs_mul _ (d ^ 6)]
  have k4 := mul_le_mul b2 h4 (abs_nonneg _) (by norm_num)
  have k6 := mul_le_mul b3 h6 (abs_nonneg _) (by norm_num)
  refine (add_le_add (add_le_add b1 k4) k6).trans ?_
  norm_num

end RL.Nav
