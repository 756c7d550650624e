import Verif.Model.Rounding
import Verif.Props.PoseFrames
import Mathlib.Data.Int.Log
import Mathlib.Algebra.Order.Round
/-!
# C138: the time between two messages of a differential input, with the rounding of doubles
-/

namespace RL
open Matrix
namespace Fp

theorem mul_two_zpow {a b : ℤ} (h : a ≤ b) : ∃ k : ℤ, (2 : ℝ) ^ b = k * (2 : ℝ) ^ a := by
  refine ⟨2 ^ (b - a).toNat, ?_⟩
  push_cast
  rw [← zpow_natCast, ← zpow_add₀ (by norm_num : (2 : ℝ) ≠ 0)]
  congr 1
  omega

/-- Doubles of at least `2^52` steps of `2^e` are multiples of `2^e`; the others are not above that. -/
theorem Doubles.grid {z : ℝ} (hz : z ∈ Doubles) (e : ℤ) : (∃ k : ℤ, z = k * (2 : ℝ) ^ e) ∨ |z| ≤ 2 ^ 52 * (2 : ℝ) ^ e := by
  obtain ⟨m, e', hm, rfl⟩ := hz
  rcases le_or_gt e e' with h | h
  · left
    obtain ⟨k, hk⟩ := mul_two_zpow h
    exact ⟨m * k, by rw [hk]; push_cast; ring⟩
  · right
    have hp : (0 : ℝ) < (2 : ℝ) ^ e' := by positivity
    have h2 : (2 : ℝ) ^ e' * 2 ≤ (2 : ℝ) ^ e := by
      rw [← zpow_add_one₀ (by norm_num : (2 : ℝ) ≠ 0)]
      exact zpow_le_zpow_right₀ (by norm_num) (by omega)
    have h3 : (|m| : ℝ) ≤ 2 ^ 53 := by exact_mod_cast hm
    rw [abs_mul, abs_of_pos hp]
    calc |(m : ℝ)| * (2 : ℝ) ^ e' ≤ 2 ^ 53 * (2 : ℝ) ^ e' := mul_le_mul_of_nonneg_right h3 hp.le
      _ = 2 ^ 52 * ((2 : ℝ) ^ e' * 2) := by ring
      _ ≤ _ := mul_le_mul_of_nonneg_left h2 (by positivity)

theorem Doubles.neg {z : ℝ} (hz : z ∈ Doubles) : -z ∈ Doubles := by
  obtain ⟨m, e, hm, rfl⟩ := hz
  exact ⟨-m, e, by rwa [abs_neg], by push_cast; ring⟩

theorem Doubles.int {m : ℤ} (h : |m| ≤ 2 ^ 53) : (m : ℝ) ∈ Doubles := ⟨m, 0, h, by simp⟩

/-- A double nearest to a positive number, and how near it is. -/
theorem exists_near {x : ℝ} (hx : 0 < x) :
    ∃ y ∈ Doubles, (∀ z ∈ Doubles, |y - x| ≤ |z - x|) ∧ |y - x| ≤ x * (2 : ℝ) ^ (-53 : ℤ) := by
  set k := Int.log 2 x with hk
  have h1 : (2 : ℝ) ^ k ≤ x := by exact_mod_cast Int.zpow_log_le_self (b := 2) (by norm_num) hx
  have h2 : x < (2 : ℝ) ^ (k + 1) := by exact_mod_cast Int.lt_zpow_succ_log_self (b := 2) (by norm_num) x
  set u : ℝ := (2 : ℝ) ^ (k - 52) with hu
  have hup : 0 < u := by positivity
  have e1 : (2 : ℝ) ^ k = 2 ^ 52 * u := by
    rw [hu, zpow_sub₀ (by norm_num : (2 : ℝ) ≠ 0)]
    norm_num
    ring
  have e2 : (2 : ℝ) ^ (k + 1) = 2 ^ 53 * u := by
    rw [zpow_add_one₀ (by norm_num : (2 : ℝ) ≠ 0), e1]
    ring
  have e3 : x * (2 : ℝ) ^ (-53 : ℤ) ≥ u / 2 := by
    have : (2 : ℝ) ^ (-53 : ℤ) = 1 / 2 ^ 53 := by norm_num
    rw [this]
    have : x ≥ 2 ^ 52 * u := e1 ▸ h1
    linarith
  set q := x / u with hq
  have hqx : x = q * u := by rw [hq]; field_simp
  have q1 : (2 : ℝ) ^ 52 ≤ q := by rw [hq, le_div_iff₀ hup, ← e1]; exact h1
  have q2 : q < (2 : ℝ) ^ 53 := by rw [hq, div_lt_iff₀ hup, ← e2]; exact h2
  have dist : ∀ j : ℤ, |(j : ℝ) * u - x| = |q - j| * u := by
    intro j
    rw [hqx, ← sub_mul, abs_mul, abs_of_pos hup, abs_sub_comm]
  have hr : ∀ j : ℤ, |(round q : ℝ) * u - x| ≤ |(j : ℝ) * u - x| := by
    intro j
    rw [dist, dist]
    exact mul_le_mul_of_nonneg_right (round_le q j) hup.le
  have hle : round q ≤ 2 ^ 53 := by
    have a := abs_sub_round q
    have : (round q : ℝ) < 2 ^ 53 + 1 := by
      have := (abs_le.1 a).1
      linarith
    have : round q < 2 ^ 53 + 1 := by exact_mod_cast this
    omega
  have hge : 0 ≤ round q := by
    have a := abs_sub_round q
    have : (-1 : ℝ) < round q := by
      have := (abs_le.1 a).2
      linarith [show (0:ℝ) ≤ 2 ^ 52 by positivity]
    have : -1 < round q := by exact_mod_cast this
    omega
  refine ⟨round q * u, ⟨round q, k - 52, by rw [abs_of_nonneg hge]; exact hle, rfl⟩, fun z hz => ?_, ?_⟩
  · rcases Doubles.grid hz (k - 52) with ⟨j, rfl⟩ | hz
    · exact hr j
    · refine (hr (2 ^ 52)).trans ?_
      have h3 : z ≤ 2 ^ 52 * u := (le_abs_self z).trans hz
      have h4 : (2 : ℝ) ^ 52 * u ≤ x := e1 ▸ h1
      push_cast
      rw [abs_of_nonpos (by linarith), abs_of_nonpos (by linarith)]
      linarith
  · refine le_trans ?_ e3
    rw [dist]
    have := mul_le_mul_of_nonneg_right (abs_sub_round q) hup.le
    linarith

/-- There is such a rounding. -/
theorem exists_nearest : ∃ fl, Nearest fl := by
  have h : ∀ x : ℝ, ∃ y ∈ Doubles, ∀ z ∈ Doubles, |y - x| ≤ |z - x| := by
    intro x
    rcases lt_trichotomy x 0 with hx | hx | hx
    · obtain ⟨y, hy, h, -⟩ := exists_near (x := -x) (by linarith)
      refine ⟨-y, (Doubles.neg hy), fun z hz => ?_⟩
      have := h (-z) (Doubles.neg hz)
      rw [show -y - x = -(y - -x) by ring, show z - x = -(-z - -x) by ring, abs_neg, abs_neg]
      exact this
    · exact ⟨0, ⟨0, 0, by norm_num, by simp⟩, fun z _ => by rw [hx]; simp⟩
    · obtain ⟨y, hy, h, -⟩ := exists_near hx
      exact ⟨y, hy, h⟩
  choose fl h1 h2 using h
  exact ⟨fl, h1, h2⟩

section
variable {fl : ℝ → ℝ} (h : Nearest fl)
include h

theorem Nearest.exact {x : ℝ} (hx : x ∈ Doubles) : fl x = x := by
  have := h.near x x hx
  simp only [sub_self, abs_zero, abs_nonpos_iff] at this
  linarith

theorem Nearest.int {m : ℤ} (hm : |m| ≤ 2 ^ 53) : fl (m : ℝ) = m := h.exact (Doubles.int hm)

/-- The error of one rounding. -/
theorem Nearest.err (x : ℝ) : |fl x - x| ≤ |x| * (2 : ℝ) ^ (-53 : ℤ) := by
  rcases lt_trichotomy x 0 with hx | hx | hx
  · obtain ⟨y, hy, -, h3⟩ := exists_near (x := -x) (by linarith)
    refine (h.near x _ (Doubles.neg hy)).trans ?_
    rw [show -y - x = -(y - -x) by ring, abs_neg, abs_of_neg hx]
    exact h3
  · rw [hx, h.exact ⟨0, 0, by norm_num, by simp⟩]
    simp
  · obtain ⟨y, hy, -, h3⟩ := exists_near hx
    rw [abs_of_pos hx]
    exact (h.near x _ hy).trans h3

/-- What a number is rounded to. -/
theorem Nearest.eq {x : ℝ} {m e : ℤ} (h1 : 2 ^ 52 < m) (h2 : m ≤ 2 ^ 53) (hx : |x - m * (2 : ℝ) ^ e| < (2 : ℝ) ^ e / 2) :
    fl x = m * (2 : ℝ) ^ e := by
  have hup : (0 : ℝ) < (2 : ℝ) ^ e := by positivity
  have hn := h.near x _ ⟨m, e, by rw [abs_of_nonneg (by omega)]; exact h2, rfl⟩
  rw [abs_sub_comm (_ * _) x] at hn
  have hd : |fl x - m * (2 : ℝ) ^ e| < (2 : ℝ) ^ e := by
    calc |fl x - m * (2 : ℝ) ^ e| ≤ |fl x - x| + |x - m * (2 : ℝ) ^ e| := abs_sub_le _ _ _
      _ < _ := by linarith
  rcases Doubles.grid (h.mem x) e with ⟨k, hk⟩ | hk
  · rw [hk, ← sub_mul, abs_mul, abs_of_pos hup] at hd
    have h3 : |(k : ℝ) - m| < 1 := by nlinarith
    have h4 : |k - m| < 1 := by exact_mod_cast h3
    rw [hk]
    have : k = m := by
      have := Int.abs_lt_one_iff.1 h4
      omega
    rw [this]
  · exfalso
    have h3 : fl x ≤ 2 ^ 52 * (2 : ℝ) ^ e := (le_abs_self _).trans hk
    have h4 : (2 ^ 52 + 1 : ℝ) ≤ m := by exact_mod_cast (by omega : 2 ^ 52 + 1 ≤ m)
    have h5 := mul_le_mul_of_nonneg_right h4 hup.le
    have h6 := (abs_lt.1 hd).1
    linarith

/-- The error of the conversion of an `rclcpp::Time`. -/
theorem Nearest.timeSec_err {n : Int} (hn : 0 ≤ n) : |timeSec fl n - RL.toSec n| ≤ RL.toSec n * (3.1 * (2 : ℝ) ^ (-53 : ℤ)) := by
  have hn' : (0 : ℝ) ≤ n := by exact_mod_cast hn
  have h1 := h.err (n : ℝ)
  have h2 := h.err (1e-9 : ℝ)
  have h3 := h.err (fl n * fl 1e-9)
  unfold timeSec RL.toSec
  set u : ℝ := (2 : ℝ) ^ (-53 : ℤ) with hu
  have hu0 : 0 < u := by positivity
  have hu1 : u ≤ 1e-3 := by rw [hu]; norm_num
  clear_value u
  rw [abs_of_nonneg hn'] at h1
  rw [abs_of_nonneg (by norm_num : (0 : ℝ) ≤ 1e-9)] at h2
  obtain ⟨d1, e1, b1⟩ : ∃ d, fl n = n * (1 + d) ∧ |d| ≤ u := by
    rcases eq_or_lt_of_le hn' with h0 | h0
    · refine ⟨0, ?_, by simpa using hu0.le⟩
      rw [← h0] at h1 ⊢
      simp only [zero_mul, sub_zero, abs_nonpos_iff] at h1
      rw [h1]; ring
    · refine ⟨(fl n - n) / n, by field_simp; ring, ?_⟩
      rw [abs_div, abs_of_pos h0, div_le_iff₀ h0]
      linarith
  obtain ⟨d2, e2, b2⟩ : ∃ d, fl 1e-9 = 1e-9 * (1 + d) ∧ |d| ≤ u := by
    refine ⟨(fl 1e-9 - 1e-9) / 1e-9, by field_simp; ring, ?_⟩
    rw [abs_div, abs_of_pos (by norm_num : (0 : ℝ) < 1e-9), div_le_iff₀ (by norm_num)]
    linarith
  rw [e1, e2] at h3 ⊢
  set T : ℝ := n * 1e-9 with hT
  have hT0 : 0 ≤ T := by positivity
  have e3 : (n : ℝ) * (1 + d1) * (1e-9 * (1 + d2)) = T * (1 + (d1 + d2 + d1 * d2)) := by rw [hT]; ring
  rw [e3] at h3 ⊢
  have b3 : |d1 + d2 + d1 * d2| ≤ 2.001 * u := by
    have c1 : |d1 + d2| ≤ |d1| + |d2| := abs_add_le _ _
    have c2 : |d1 + d2 + d1 * d2| ≤ |d1 + d2| + |d1 * d2| := abs_add_le _ _
    have c3 : |d1 * d2| ≤ u * 1e-3 := by
      rw [abs_mul]
      exact mul_le_mul b1 (b2.trans hu1) (abs_nonneg _) hu0.le
    linarith
  have b4 : |T * (1 + (d1 + d2 + d1 * d2))| ≤ T * 1.01 := by
    rw [abs_mul, abs_of_nonneg hT0]
    refine mul_le_mul_of_nonneg_left ?_ hT0
    have := abs_add_le 1 (d1 + d2 + d1 * d2)
    rw [abs_one] at this
    linarith
  have b5 : |T * (1 + (d1 + d2 + d1 * d2)) - T| ≤ T * (2.001 * u) := by
    rw [show T * (1 + (d1 + d2 + d1 * d2)) - T = T * (d1 + d2 + d1 * d2) by ring, abs_mul, abs_of_nonneg hT0]
    exact mul_le_mul_of_nonneg_left b3 hT0
  have b6 := mul_le_mul_of_nonneg_right b4 hu0.le
  have b7 := abs_sub_le (fl (T * (1 + (d1 + d2 + d1 * d2)))) (T * (1 + (d1 + d2 + d1 * d2))) T
  have : 0 ≤ T * u := by positivity
  linarith

/-- The error of the conversion of the stamp of a message. -/
theorem Nearest.stampSec_err {n : Int} (hn : 0 ≤ n) (hm : n < 2 ^ 31 * 1000000000) : |stampSec fl n - RL.toSec n| ≤ 2.4e-7 := by
  have h1 := h.timeSec_err (n := n % 1000000000) (by omega)
  unfold stampSec
  have e0 : fl ((n / 1000000000 : Int) : ℝ) = ((n / 1000000000 : Int) : ℝ) := h.int (by rw [abs_of_nonneg (by omega)]; omega)
  rw [e0]
  have h2 := h.err (((n / 1000000000 : Int) : ℝ) + timeSec fl (n % 1000000000))
  have e1 : ((n / 1000000000 : Int) : ℝ) + RL.toSec (n % 1000000000) = RL.toSec n := by
    unfold RL.toSec
    have : (n : ℝ) = (1000000000 * (n / 1000000000) + n % 1000000000 : Int) := by
      congr 1
      omega
    rw [this]
    push_cast
    ring
  have r1 : RL.toSec (n % 1000000000) ≤ 1 := by
    unfold RL.toSec
    have : ((n % 1000000000 : Int) : ℝ) ≤ 1000000000 := by exact_mod_cast (by omega : n % 1000000000 ≤ 1000000000)
    linarith
  have r2 : RL.toSec n ≤ 2147483648 := by
    unfold RL.toSec
    have : (n : ℝ) ≤ 2147483648000000000 := by exact_mod_cast (by omega : n ≤ 2147483648000000000)
    linarith
  have r3 : 0 ≤ RL.toSec n := by
    unfold RL.toSec
    have : (0 : ℝ) ≤ n := by exact_mod_cast hn
    positivity
  have u0 : (2 : ℝ) ^ (-53 : ℤ) ≤ 1.1103e-16 ∧ 0 < (2 : ℝ) ^ (-53 : ℤ) := by norm_num
  set u : ℝ := (2 : ℝ) ^ (-53 : ℤ)
  clear_value u
  set S := ((n / 1000000000 : Int) : ℝ) + timeSec fl (n % 1000000000)
  have h3 : |S - RL.toSec n| ≤ 1e-15 := by
    rw [← e1, show S - (((n / 1000000000 : Int) : ℝ) + RL.toSec (n % 1000000000)) = timeSec fl (n % 1000000000) - RL.toSec (n % 1000000000) by
      simp only [S]; ring]
    refine h1.trans ?_
    have : RL.toSec (n % 1000000000) * (3.1 * u) ≤ 1 * (3.1 * u) := mul_le_mul_of_nonneg_right r1 (by linarith [u0.2])
    linarith [u0.1]
  have h4 : |S| ≤ 2147483649 := by
    have := abs_le.1 h3
    rw [abs_le]
    constructor <;> linarith
  have h5 : |S| * u ≤ 2147483649 * 1.1103e-16 := mul_le_mul h4 u0.1 u0.2.le (by norm_num)
  have h6 := abs_sub_le (fl S) S (RL.toSec n)
  norm_num at h5
  linarith

/-- C138: the time between two messages is computed with an error of at most 1.3 microseconds, for all stamps from the epoch
to the end of what a stamp can hold. -/
theorem _root_.RL.C138_time {stamp last : Int} (h1 : 0 ≤ stamp) (h2 : stamp < 2 ^ 31 * 1000000000) (h3 : 0 ≤ last)
    (h4 : last < 2 ^ 31 * 1000000000) : |between fl stamp last - RL.toSec (stamp - last)| ≤ 1.3e-6 := by
  have a := h.stampSec_err h1 h2
  have b := h.timeSec_err h3
  have c := h.err (stampSec fl stamp - timeSec fl last)
  unfold between
  have e : RL.toSec (stamp - last) = RL.toSec stamp - RL.toSec last := by
    unfold RL.toSec
    push_cast
    ring
  have r : ∀ n : Int, 0 ≤ n → n < 2 ^ 31 * 1000000000 → 0 ≤ RL.toSec n ∧ RL.toSec n ≤ 2147483648 := by
    intro n hn hm
    unfold RL.toSec
    have p1 : (n : ℝ) ≤ 2147483648000000000 := by exact_mod_cast (by omega : n ≤ 2147483648000000000)
    have p2 : (0 : ℝ) ≤ n := by exact_mod_cast hn
    constructor
    · positivity
    · linarith
  obtain ⟨r1, r2⟩ := r stamp h1 h2
  obtain ⟨r3, r4⟩ := r last h3 h4
  have u0 : (2 : ℝ) ^ (-53 : ℤ) ≤ 1.1103e-16 ∧ 0 < (2 : ℝ) ^ (-53 : ℤ) := by norm_num
  set u : ℝ := (2 : ℝ) ^ (-53 : ℤ)
  clear_value u
  have b' : |timeSec fl last - RL.toSec last| ≤ 7.4e-7 := by
    refine b.trans ?_
    have : RL.toSec last * (3.1 * u) ≤ 2147483648 * (3.1 * 1.1103e-16) :=
      mul_le_mul r4 (by linarith [u0.1]) (by linarith [u0.2]) (by norm_num)
    norm_num at this ⊢
    linarith
  rw [e]
  set A := stampSec fl stamp
  set B := timeSec fl last
  have d : |A - B - (RL.toSec stamp - RL.toSec last)| ≤ 9.8e-7 := by
    have := abs_sub (A - RL.toSec stamp) (B - RL.toSec last)
    rw [show A - RL.toSec stamp - (B - RL.toSec last) = A - B - (RL.toSec stamp - RL.toSec last) by ring] at this
    linarith
  have f : |A - B| ≤ 2147483649 := by
    have := abs_le.1 d
    rw [abs_le]
    constructor <;> linarith
  have g : |A - B| * u ≤ 2147483649 * 1.1103e-16 := mul_le_mul f u0.1 u0.2.le (by norm_num)
  have k := abs_sub_le (fl (A - B)) (A - B) (RL.toSec stamp - RL.toSec last)
  norm_num at g
  linarith

/-- C138: for messages more than 1.3 microseconds apart it has the right sign. -/
theorem _root_.RL.C138_later {stamp last : Int} (h1 : 0 ≤ last) (h2 : last + 1300 < stamp) (h3 : stamp < 2 ^ 31 * 1000000000) :
    0 < between fl stamp last := by
  have a := abs_le.1 (C138_time h (stamp := stamp) (last := last) (by omega) h3 h1 (by omega))
  have b : (1300 : ℝ) < ((stamp - last : Int) : ℝ) := by exact_mod_cast (by omega : 1300 < stamp - last)
  have c : RL.toSec (stamp - last) > 1.3e-6 := by
    unfold RL.toSec
    norm_num at b ⊢
    linarith
  linarith [a.1]

/-- A second and a tenth of the present decade, 1700000000.1 s. -/
theorem Nearest.odd_stamp : between fl 1700000000100000000 1700000000100000000 = -(2 : ℝ) ^ (-22 : ℤ) := by
  have e9 : fl 1e-9 = (4835703278458517 : ℤ) * (2 : ℝ) ^ (-82 : ℤ) :=
    h.eq (by norm_num) (by norm_num) (by rw [abs_lt]; constructor <;> norm_num)
  have et : timeSec fl 1700000000100000000 = (7130316800419431 : ℤ) * (2 : ℝ) ^ (-22 : ℤ) := by
    unfold timeSec
    rw [h.exact (x := ((1700000000100000000 : ℤ) : ℝ)) ⟨6640625000390625, 8, by norm_num, by norm_num⟩, e9]
    exact h.eq (by norm_num) (by norm_num) (by rw [abs_lt]; constructor <;> norm_num)
  have en : timeSec fl 100000000 = (7205759403792794 : ℤ) * (2 : ℝ) ^ (-56 : ℤ) := by
    unfold timeSec
    rw [h.int (by norm_num), e9]
    exact h.eq (by norm_num) (by norm_num) (by rw [abs_lt]; constructor <;> norm_num)
  have es : stampSec fl 1700000000100000000 = (7130316800419430 : ℤ) * (2 : ℝ) ^ (-22 : ℤ) := by
    unfold stampSec
    rw [h.int (by norm_num), show (1700000000100000000 : Int) % 1000000000 = 100000000 by norm_num, en]
    exact h.eq (by norm_num) (by norm_num) (by rw [abs_lt]; constructor <;> norm_num)
  unfold between
  rw [es, et, show ((7130316800419430 : ℤ) : ℝ) * (2 : ℝ) ^ (-22 : ℤ) - (7130316800419431 : ℤ) * (2 : ℝ) ^ (-22 : ℤ) =
    -(2 : ℝ) ^ (-22 : ℤ) by push_cast; ring]
  exact h.exact ⟨-1, -22, by norm_num, by push_cast; ring⟩

end

end Fp

/-- With exact times this is the model used elsewhere. -/
theorem preparePoseDt_exact (c : PrepCtx) (mem : PoseMem) (last : Int) (msg : PoseMsg) (topic target source : String) (relative imu : Bool)
    (p : Payload) : preparePoseDt (fun s l => toSec s - toSec l) c mem last msg topic target source imu p =
      preparePose c mem last msg topic target source true relative imu p := by
  unfold preparePoseDt preparePose
  dsimp only
  cases lookupTransformSafe c.buf (poseFrames c msg.frame target true imu).1 (poseFrames c msg.frame target true imu).2
      (poseLookupTime msg.stamp) with
  | none => rfl
  | some t =>
    simp only [poseWith, if_true]
    rfl

/-- A pose in the target frame. -/
theorem preparePoseDt_plain (span : Int → Int → ℝ) (c : PrepCtx) (hb : SaneBuf c.buf) (hd : c.twoD = false) (mem : PoseMem) (last : Int)
    (msg : PoseMsg) (topic target : String) (ht : target ≠ "") (p : Payload) (T0 : Tf) (C0 : M6) (hm : mem.prev topic = some (T0, C0)) :
    ∃ q, (preparePoseDt span c mem last msg topic target c.base false p).2 = some q ∧
      (span msg.stamp last ≠ 0 → (∀ i : Fin 3, q.z (axis 6 (by omega) i) = .fin ((T0.inverseTimes (msgPose msg)).org i / span msg.stamp last)) ∧
        ∀ i : Fin 3, q.z (axis 9 (by omega) i) =
          .fin (quatToRPY (quatOf (T0.inverseTimes (msgPose msg)).rot) i / span msg.stamp last)) ∧
      ∀ i j : Fin 6, q.R ⟨6 + i.val, by omega⟩ ⟨6 + j.val, by omega⟩ = span msg.stamp last * (copyCov6 msg.cov + C0) i j := by
  have e1 : poseFrames c msg.frame target true false = (target, target) := by simp [poseFrames, ht]
  have e2 : sourceTf c c.base (poseLookupTime msg.stamp) = none := by simp [sourceTf]
  have q1 : (quatOf (1 : M3)).mat = 1 := (C43_matrix_to_quaternion IsRot.one).2
  have q2 : (quatOf Tf.id.rot).mat = 1 := q1
  have q3 : Tf.id.rot = 1 := rfl
  have key : (preparePoseDt span c mem last msg topic target c.base false p).2 = some (twistPayload c Tf.id
      (diffTwistDt (span msg.stamp last) Tf.id 1 (copyCov6 msg.cov) T0 C0 (msgPose msg) msg.stamp c.base)
      { p with upd := diffUpd (poseUpd 1 p.upd) }) := by
    unfold preparePoseDt
    simp only [e1, e2, hb.lookup_self]
    simp only [q2, rot6d_one, poseCov, Bool.false_eq_true, if_false, Matrix.one_mul, transpose_one, Matrix.mul_one, hm, Option.bind_some]
    unfold prepareTwist
    have e3 : (if (diffTwistDt (span msg.stamp last) Tf.id 1 (copyCov6 msg.cov) T0 C0 (msgPose msg) msg.stamp c.base).frame = "" then c.base
        else (diffTwistDt (span msg.stamp last) Tf.id 1 (copyCov6 msg.cov) T0 C0 (msgPose msg) msg.stamp c.base).frame) = c.base := by
      change (if c.base = "" then c.base else c.base) = c.base
      by_cases h : c.base = ""
      · rw [if_pos h]
      · rw [if_neg h]
    rw [e3, hb.lookup_self, q3]
    rfl
  refine ⟨_, key, fun hne => ⟨fun i => ?_, fun i => ?_⟩, fun i j => ?_⟩
  · set D := T0.inverseTimes (msgPose msg) with hD
    have hid : Tf.mul { Tf.id with org := 0 } D = D := Tf.id_mul D
    have : (twistPayload c Tf.id (diffTwistDt (span msg.stamp last) Tf.id 1 (copyCov6 msg.cov) T0 C0 (msgPose msg) msg.stamp c.base)
        { p with upd := diffUpd (poseUpd 1 p.upd) }).z (axis 6 (by omega) i) =
        (mulDbl Tf.id.rot (fun i => Dbl.div (D.org i) (span msg.stamp last)) i).add (.fin (cross Tf.id.org c.omega i)) := by
      simp only [twistPayload, finish, hd, diffTwistDt, ← hD, hid, Bool.false_eq_true, if_false]
      fin_cases i <;> simp [put, axis]
    rw [this]
    simp only [Dbl.div, hne, if_false]
    rw [mulDbl_fin]
    simp [Tf.id, Dbl.add, cross]
    fin_cases i <;> simp
  · set D := T0.inverseTimes (msgPose msg) with hD
    have hid : Tf.mul { Tf.id with org := 0 } D = D := Tf.id_mul D
    have : (twistPayload c Tf.id (diffTwistDt (span msg.stamp last) Tf.id 1 (copyCov6 msg.cov) T0 C0 (msgPose msg) msg.stamp c.base)
        { p with upd := diffUpd (poseUpd 1 p.upd) }).z (axis 9 (by omega) i) =
        mulDbl Tf.id.rot (fun i => Dbl.div (quatToRPY (quatOf D.rot) i) (span msg.stamp last)) i := by
      simp only [twistPayload, finish, hd, diffTwistDt, ← hD, hid, Bool.false_eq_true, if_false]
      fin_cases i <;> simp [put, axis]
    rw [this]
    simp only [Dbl.div, hne, if_false]
    rw [mulDbl_fin]
    simp [Tf.id]
  · unfold twistPayload finish
    simp only [hd, Bool.false_eq_true, if_false, q2, rot6d_one, Matrix.one_mul, transpose_one, Matrix.mul_one]
    simp only [diffTwistDt, copyCov6_copyOut6, Matrix.one_mul, transpose_one, Matrix.mul_one]
    have h : (6 ≤ 6 + i.val ∧ 6 + i.val < 6 + 6) ∧ (6 ≤ 6 + j.val ∧ 6 + j.val < 6 + 6) := by omega
    have e1 : ∀ k : Fin 6, (⟨6 + k.val - 6, by omega⟩ : Fin 6) = k := by intro k; ext; simp
    simp only [putBlock, of_apply, h, and_self, dite_true, e1, Matrix.smul_apply, smul_eq_mul]

theorem ratio_close {a b b' ε : ℝ} (hb : ε < b) (hε : 0 ≤ ε) (h : |b' - b| ≤ ε) : |a / b' - a / b| ≤ |a / b| * (ε / (b - ε)) := by
  have h0 : 0 < b := by linarith
  have h1 := abs_le.1 h
  have h2 : 0 < b' := by linarith
  rw [show a / b' - a / b = a / b * ((b - b') / b') by field_simp, abs_mul]
  refine mul_le_mul_of_nonneg_left ?_ (abs_nonneg _)
  rw [abs_div, abs_of_pos h2, abs_sub_comm]
  exact div_le_div₀ hε h h2 (by linarith) |>.trans (by
    exact div_le_div_of_nonneg_left hε (by linarith) (by linarith))

/-- C138, what is left of the claim: for stamps more than 1.3 microseconds apart, the velocity that a differential input
measures differs from the one that carries the first pose to the second in the time between the stamps (`C36_velocity`) by at
most the part `1.3e-6 / (dt - 1.3e-6)` of it: a hundredth of a percent for poses a fiftieth of a second apart. -/
theorem C138_velocity_partial {fl : ℝ → ℝ} (h : Fp.Nearest fl) (c : PrepCtx) (hb : SaneBuf c.buf) (hd : c.twoD = false) (mem : PoseMem)
    (last : Int) (msg : PoseMsg) (topic target : String) (ht : target ≠ "") (p : Payload) (relative : Bool) (T0 : Tf) (C0 : M6)
    (hm : mem.prev topic = some (T0, C0)) (h1 : 0 ≤ last) (h2 : last + 1300 < msg.stamp) (h3 : msg.stamp < 2 ^ 31 * 1000000000) :
    ∃ q q', (preparePose c mem last msg topic target c.base true relative false p).2 = some q ∧
      (preparePoseDt (Fp.between fl) c mem last msg topic target c.base false p).2 = some q' ∧
      ∀ i : Fin 15, 6 ≤ i.val → i.val < 12 → ∃ v v', q.z i = .fin v ∧ q'.z i = .fin v' ∧
        |v' - v| ≤ |v| * (1.3e-6 / (toSec (msg.stamp - last) - 1.3e-6)) := by
  obtain ⟨q, e, hv, -⟩ := preparePoseDt_plain (fun s l => toSec s - toSec l) c hb hd mem last msg topic target ht p T0 C0 hm
  obtain ⟨q', e', hv', -⟩ := preparePoseDt_plain (Fp.between fl) c hb hd mem last msg topic target ht p T0 C0 hm
  rw [preparePoseDt_exact (relative := relative)] at e
  refine ⟨q, q', e, e', fun i hi6 hi12 => ?_⟩
  have hdt : toSec msg.stamp - toSec last = toSec (msg.stamp - last) := by
    unfold toSec; push_cast; ring
  have a : |Fp.between fl msg.stamp last - toSec (msg.stamp - last)| ≤ 1.3e-6 := C138_time h (by omega) h3 h1 (by omega)
  have b : 0 < Fp.between fl msg.stamp last := C138_later h h1 h2 h3
  have d : 1.3e-6 < toSec (msg.stamp - last) := by
    have b : (1300 : ℝ) < ((msg.stamp - last : Int) : ℝ) := by exact_mod_cast (by omega : 1300 < msg.stamp - last)
    unfold RL.toSec
    norm_num at b ⊢
    linarith
  rw [hdt] at hv
  obtain ⟨l1, l2⟩ := hv (by linarith)
  obtain ⟨m1, m2⟩ := hv' b.ne'
  rcases Nat.lt_or_ge i.val 9 with h9 | h9
  · have ei : i = axis 6 (by omega) ⟨i.val - 6, by omega⟩ := by ext; simp [axis]; omega
    refine ⟨_, _, ?_, ?_, ratio_close (a := (T0.inverseTimes (msgPose msg)).org ⟨i.val - 6, by omega⟩) d (by norm_num) a⟩
    · exact (congrArg _ ei).trans (l1 _)
    · exact (congrArg _ ei).trans (m1 _)
  · have ei : i = axis 9 (by omega) ⟨i.val - 9, by omega⟩ := by ext; simp [axis]; omega
    refine ⟨_, _, ?_, ?_,
      ratio_close (a := quatToRPY (quatOf (T0.inverseTimes (msgPose msg)).rot) ⟨i.val - 9, by omega⟩) d (by norm_num) a⟩
    · exact (congrArg _ ei).trans (l2 _)
    · exact (congrArg _ ei).trans (m2 _)

/-- C138: between two messages with the same stamp no time passes; but what is computed need not be zero, since the stamp of
the one and the time kept of the other are converted in different ways.  Then the robot is said to go more than seven hundred
thousand times the distance between the poses each second. -/
theorem C138_same_stamp {fl : ℝ → ℝ} (h : Fp.Nearest fl) (c : PrepCtx) (hb : SaneBuf c.buf) (hd : c.twoD = false) (mem : PoseMem)
    (msg : PoseMsg) (topic target : String) (ht : target ≠ "") (p : Payload) (T0 : Tf) (C0 : M6)
    (hm : mem.prev topic = some (T0, C0)) (h1 : 0 ≤ msg.stamp) (h2 : msg.stamp < 2 ^ 31 * 1000000000) :
    Fp.between fl msg.stamp msg.stamp = 0 ∨
    ∃ q, (preparePoseDt (Fp.between fl) c mem msg.stamp msg topic target c.base false p).2 = some q ∧
      ∀ i : Fin 3, ∃ v, q.z (axis 6 (by omega) i) = .fin v ∧ 700000 * |(T0.inverseTimes (msgPose msg)).org i| ≤ |v| := by
  by_cases h0 : Fp.between fl msg.stamp msg.stamp = 0
  · exact Or.inl h0
  · right
    obtain ⟨q, e, hv, -⟩ := preparePoseDt_plain (Fp.between fl) c hb hd mem msg.stamp msg topic target ht p T0 C0 hm
    refine ⟨q, e, fun i => ⟨_, (hv h0).1 i, ?_⟩⟩
    have a : |Fp.between fl msg.stamp msg.stamp - toSec (msg.stamp - msg.stamp)| ≤ 1.3e-6 := C138_time h h1 h2 h1 h2
    rw [sub_self, show toSec 0 = 0 by simp [toSec], sub_zero] at a
    rw [abs_div, le_div_iff₀ (abs_pos.2 h0)]
    have := abs_nonneg ((T0.inverseTimes (msgPose msg)).org i)
    nlinarith

/-- C138 does not hold: two messages stamped 1700000000.1 s (14 November 2023), the second a metre ahead of the first, make a
robot that goes back with 4194304 m/s; and the variances become negative. -/
theorem C138_backwards {fl : ℝ → ℝ} (h : Fp.Nearest fl) (c : PrepCtx) (hb : SaneBuf c.buf) (hd : c.twoD = false) (mem : PoseMem)
    (msg : PoseMsg) (topic target : String) (ht : target ≠ "") (p : Payload) (T0 : Tf) (C0 : M6)
    (hm : mem.prev topic = some (T0, C0)) (hs : msg.stamp = 1700000000100000000) (h1 : (T0.inverseTimes (msgPose msg)).org 0 = 1)
    (hv : 0 < copyCov6 msg.cov 0 0) (hv0 : 0 < C0 0 0) :
    ∃ q, (preparePoseDt (Fp.between fl) c mem msg.stamp msg topic target c.base false p).2 = some q ∧
      q.z 6 = .fin (-4194304) ∧ q.R 6 6 < 0 := by
  obtain ⟨q, e, hq, hr⟩ := preparePoseDt_plain (Fp.between fl) c hb hd mem msg.stamp msg topic target ht p T0 C0 hm
  have e0 : Fp.between fl msg.stamp msg.stamp = -(2 : ℝ) ^ (-22 : ℤ) := by
    rw [hs]
    exact h.odd_stamp
  rw [e0] at hq hr
  refine ⟨q, e, ?_, ?_⟩
  · have := (hq (by norm_num)).1 0
    rw [h1] at this
    rw [show (6 : Fin 15) = axis 6 (by omega) 0 from rfl, this]
    norm_num
  · have := hr 0 0
    rw [show (6 : Fin 15) = ⟨6 + (0 : Fin 6).val, by decide⟩ from rfl, this, Matrix.add_apply]
    have : (0 : ℝ) < (2 : ℝ) ^ (-22 : ℤ) := by positivity
    nlinarith

/-- C138 does not hold: a message with that stamp that arrives twice is taken to say that the robot stands still, with an error
of a two-millionth of the variances of the message. -/
theorem C138_repeated {fl : ℝ → ℝ} (h : Fp.Nearest fl) (c : PrepCtx) (hb : SaneBuf c.buf) (hd : c.twoD = false) (mem : PoseMem)
    (msg : PoseMsg) (topic target : String) (ht : target ≠ "") (p : Payload) (hm : mem.prev topic = some (msgPose msg, copyCov6 msg.cov))
    (hs : msg.stamp = 1700000000100000000) :
    ∃ q, (preparePoseDt (Fp.between fl) c mem msg.stamp msg topic target c.base false p).2 = some q ∧
      (∀ i : Fin 3, q.z (axis 6 (by omega) i) = .fin 0) ∧
      ∀ i j : Fin 6, q.R ⟨6 + i.val, by omega⟩ ⟨6 + j.val, by omega⟩ = -copyCov6 msg.cov i j / 2097152 := by
  obtain ⟨q, e, hq, hr⟩ := preparePoseDt_plain (Fp.between fl) c hb hd mem msg.stamp msg topic target ht p _ _ hm
  have e0 : Fp.between fl msg.stamp msg.stamp = -(2 : ℝ) ^ (-22 : ℤ) := by
    rw [hs]
    exact h.odd_stamp
  rw [e0] at hq hr
  refine ⟨q, e, fun i => ?_, fun i j => ?_⟩
  · rw [(hq (by norm_num)).1 i]
    simp [Tf.inverseTimes]
  · rw [hr i j, Matrix.add_apply]
    norm_num
    ring

/-- Two such messages. -/
example : ∃ fl, Fp.Nearest fl ∧ ∃ q, (preparePoseDt (Fp.between fl) poseDemo
      { init := fun _ => none, prev := fun s => if s = "pose0" then some (Tf.id, 1) else none } 1700000000100000000
      (poseAt "odom" 1700000000100000000 ![1, 0, 0]) "pose0" "odom" poseDemo.base false (blank (fun _ => true) .unlimited)).2 = some q ∧
    q.z 6 = .fin (-4194304) ∧ q.R 6 6 < 0 := by
  obtain ⟨fl, h⟩ := Fp.exists_nearest
  refine ⟨fl, h, C138_backwards h poseDemo poseDemo_sane rfl _ (poseAt "odom" 1700000000100000000 ![1, 0, 0]) "pose0" "odom" (by decide)
    _ Tf.id 1 rfl rfl ?_ ?_ ?_⟩
  · simp [Tf.inverseTimes, Tf.id, msgPose, poseAt]
  · simp [copyCov6, poseAt]
  · simp

/-- A message that arrives twice. -/
example : ({ init := fun _ => none, prev := fun s => if s = "pose0" then some (msgPose (poseAt "odom" 1700000000100000000 ![1, 0, 0]),
    copyCov6 (poseAt "odom" 1700000000100000000 ![1, 0, 0]).cov) else none } : PoseMem).prev "pose0" =
    some (msgPose (poseAt "odom" 1700000000100000000 ![1, 0, 0]), copyCov6 (poseAt "odom" 1700000000100000000 ![1, 0, 0]).cov) := rfl

/-- Two messages a twentieth of a second apart. -/
example : (0 : Int) ≤ 1700000000000000000 ∧ (1700000000000000000 : Int) + 1300 < (poseAt "odom" 1700000000050000000 ![1, 0, 0]).stamp ∧
    (poseAt "odom" 1700000000050000000 ![1, 0, 0]).stamp < 2 ^ 31 * 1000000000 := by decide

end RL
