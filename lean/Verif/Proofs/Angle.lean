import Verif.Model.Dbl
import Mathlib.Algebra.Order.ToIntervalMod
import Mathlib.Analysis.SpecialFunctions.Trigonometric.Angle
/-! # Facts about `normalize_angle` -/

namespace RL
open Real

theorem fmod_pos (a b : ℝ) (hb : 0 < b) : ∃ k : ℤ, fmod a b = a - k * b ∧
    (0 ≤ a → 0 ≤ fmod a b ∧ fmod a b < b) ∧ (a < 0 → -b < fmod a b ∧ fmod a b ≤ 0) := by
  unfold fmod
  by_cases h : 0 ≤ a / b
  · have ha : 0 ≤ a := by
      have := mul_nonneg h hb.le
      rwa [div_mul_cancel₀ _ hb.ne'] at this
    refine ⟨⌊a / b⌋, by rw [if_pos h]; ring, fun _ => ?_, fun h' => absurd ha (not_le.2 h')⟩
    rw [if_pos h]
    have h1 := Int.floor_le (a / b)
    have h2 := Int.lt_floor_add_one (a / b)
    rw [le_div_iff₀ hb] at h1
    rw [div_lt_iff₀ hb] at h2
    constructor <;> linarith
  · have ha : a < 0 := by
      by_contra h'
      exact h (div_nonneg (not_lt.1 h') hb.le)
    refine ⟨⌈a / b⌉, by rw [if_neg h]; ring, fun h' => absurd ha (not_lt.2 h'), fun _ => ?_⟩
    rw [if_neg h]
    have h1 := Int.le_ceil (a / b)
    have h2 := Int.ceil_lt_add_one (a / b)
    rw [div_le_iff₀ hb] at h1
    rw [← sub_lt_iff_lt_add, lt_div_iff₀ hb] at h2
    constructor <;> linarith

/-- `normalize_angle` is in (-pi, pi] and differs from its argument by a multiple of 2 pi. -/
theorem normalizeAngle_spec (a : ℝ) :
    -π < normalizeAngle a ∧ normalizeAngle a ≤ π ∧ ∃ k : ℤ, normalizeAngle a = a - k * (2 * π) := by
  have hp := Real.pi_pos
  obtain ⟨k, h1, h2, h3⟩ := fmod_pos (a + π) (2 * π) (by linarith)
  unfold normalizeAngle
  simp only
  rcases le_or_gt 0 (a + π) with h | h
  · obtain ⟨h4, h5⟩ := h2 h
    split
    · refine ⟨by linarith, by linarith, k - 1, ?_⟩
      push_cast; linarith
    · rename_i h6
      refine ⟨by linarith [not_le.1 h6], by linarith, k, by linarith⟩
  · obtain ⟨h4, h5⟩ := h3 h
    rw [if_pos h5]
    refine ⟨by linarith, by linarith, k - 1, ?_⟩
    push_cast; linarith

/-- It is the representative in (-pi, pi], which is unique. -/
theorem normalizeAngle_eq_toIocMod (a : ℝ) :
    normalizeAngle a = toIocMod (by positivity : 0 < 2 * π) (-π) a := by
  obtain ⟨h1, h2, k, h3⟩ := normalizeAngle_spec a
  symm
  rw [toIocMod_eq_iff]
  refine ⟨⟨h1, by linarith⟩, k, ?_⟩
  rw [h3]; simp

theorem normalizeAngle_of_mem {a : ℝ} (h1 : -π < a) (h2 : a ≤ π) : normalizeAngle a = a := by
  rw [normalizeAngle_eq_toIocMod, toIocMod_eq_self]
  exact ⟨h1, by linarith⟩

@[simp] theorem normalizeAngle_zero : normalizeAngle 0 = 0 :=
  normalizeAngle_of_mem (by linarith [Real.pi_pos]) (by linarith [Real.pi_pos])

theorem sin_normalizeAngle (a : ℝ) : Real.sin (normalizeAngle a) = Real.sin a := by
  obtain ⟨-, -, k, h⟩ := normalizeAngle_spec a
  rw [h]; exact Real.sin_sub_int_mul_two_pi a k

theorem cos_normalizeAngle (a : ℝ) : Real.cos (normalizeAngle a) = Real.cos a := by
  obtain ⟨-, -, k, h⟩ := normalizeAngle_spec a
  rw [h]; exact Real.cos_sub_int_mul_two_pi a k

theorem normalizeAngle_add_two_pi (a : ℝ) (k : ℤ) : normalizeAngle (a + k * (2 * π)) = normalizeAngle a := by
  rw [normalizeAngle_eq_toIocMod, normalizeAngle_eq_toIocMod]
  simp

theorem atan2_pos {r : ℝ} (hr : 0 < r) (a : ℝ) : atan2 (r * sin a) (r * cos a) = normalizeAngle a := by
  unfold atan2
  have e : (⟨r * cos a, r * sin a⟩ : ℂ) = (r : ℂ) * (Complex.cos a + Complex.sin a * Complex.I) := by
    apply Complex.ext
    · simp [← Complex.ofReal_cos, ← Complex.ofReal_sin]
    · simp [← Complex.ofReal_cos, ← Complex.ofReal_sin]
  rw [e, Complex.arg_mul_cos_add_sin_mul_I_eq_toIocMod hr, normalizeAngle_eq_toIocMod]

theorem atan2_neg {r : ℝ} (hr : r < 0) (a : ℝ) : atan2 (r * sin a) (r * cos a) = normalizeAngle (a + π) := by
  have := atan2_pos (r := -r) (by linarith) (a + π)
  rw [sin_add_pi, cos_add_pi] at this
  rw [← this]
  ring_nf

end RL
