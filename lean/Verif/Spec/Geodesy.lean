import Verif.Model.Navsat
import Mathlib.Tactic.Linarith
import Mathlib.Tactic.NormNum
import Mathlib.Algebra.Order.Floor.Ring
/-!
# What is assumed about GeographicLib

The projections are parameters of the model.  Theorems about round trips assume the laws below, which hold for the exact
projections; `plain` is a simple projection that has them.
-/

namespace RL.Nav
open Matrix

structure Geo.Lawful (g : Geo) : Prop where
  standard_range : ∀ lat lon, 0 ≤ g.standard lat lon ∧ g.standard lat lon ≤ 60
  /-- Every point of the earth has legal coordinates in its own zone. -/
  standard_ok : ∀ lat lon, |lat| ≤ 90 → |lon| ≤ 180 → (g.forward lat lon (-1)).isSome
  /-- Where `Forward` succeeds the projection can be inverted. -/
  unproj_proj : ∀ z lat lon u, |lat| < 90 → |lon| < 180 → g.forward lat lon z = some u →
    g.unproj u.zone u.north (g.proj u.zone lat lon) = (lat, lon)
  /-- Legal coordinates are those of a point. -/
  proj_unproj : ∀ z north x y, 0 ≤ z → z ≤ 60 → Legal z north x y → ∃ lat lon,
    g.unproj z north (x - (falseOrigin z north).1, y - (falseOrigin z north).2) = (lat, lon) ∧ |lat| ≤ 90 ∧
    g.proj z lat lon = (x - (falseOrigin z north).1, y - (falseOrigin z north).2) ∧
    (z = 0 → 70 ≤ |lat| ∧ (0 ≤ lat ↔ north = true))
  /-- Without false origins the hemisphere does not matter in the UTM zones. -/
  hemisphere : ∀ z p, z ≠ 0 → g.unproj z true p = g.unproj z false p
  enu_origin : ∀ lat lon h, g.enu lat lon lat lon h = ![0, 0, h]

/-- 110 km to the degree. -/
noncomputable def plain : Geo where
  proj z lat lon :=
    if z = 0 then (2000 * lon, if 0 ≤ lat then 80000 * (lat - 80) else 130000 * (-lat - 80))
    else (110000 * (lon - (6 * z - 183)), 110000 * lat)
  unproj z north p :=
    if z = 0 then (if north then 80 + p.2 / 80000 else -(80 + p.2 / 130000), p.1 / 2000)
    else (p.2 / 110000, 6 * z - 183 + p.1 / 110000)
  conv _ _ _ := 0
  standard lat lon := open Classical in
    if -80 ≤ lat ∧ lat < 84 then max 1 (min 60 (⌊(lon + 180) / 6⌋ + 1)) else 0
  enu lat0 lon0 lat lon h := ![110000 * (lon - lon0), 110000 * (lat - lat0), h]

theorem plain_lawful : plain.Lawful where
  standard_range lat lon := by
    simp only [plain]
    split
    · constructor <;> omega
    · constructor <;> norm_num
  standard_ok lat lon h1 h2 := by
    rw [abs_le] at h1 h2
    unfold Geo.forward
    rw [if_pos rfl]
    simp only
    rw [if_neg]
    · rfl
    · by_cases h : -80 ≤ lat ∧ lat < 84
      · have hz : plain.standard lat lon = max 1 (min 60 (⌊(lon + 180) / 6⌋ + 1)) := by
          show (if _ then _ else _) = _
          rw [if_pos h]
        have h0 : plain.standard lat lon ≠ 0 := by rw [hz]; omega
        have hc : |lon - (6 * (plain.standard lat lon : ℝ) - 183)| ≤ 3 := by
          have f1 := Int.floor_le ((lon + 180) / 6)
          have f2 := Int.lt_floor_add_one ((lon + 180) / 6)
          generalize ⌊(lon + 180) / 6⌋ = k at hz f1 f2
          have k0 : (-1 : ℝ) < k := by linarith
          have k1 : (k : ℝ) ≤ 60 := by linarith
          have k0' : 0 ≤ k := by exact_mod_cast (by exact_mod_cast k0 : (-1 : Int) < k)
          have k1' : k ≤ 60 := by exact_mod_cast k1
          rw [hz, abs_le]
          rcases eq_or_lt_of_le k1' with e | e
          · subst e
            norm_num at f1 f2 ⊢
            constructor <;> linarith
          · have e1 : max 1 (min 60 (k + 1)) = k + 1 := by omega
            rw [e1]
            push_cast
            constructor <;> linarith
        have hp : plain.proj (plain.standard lat lon) lat lon =
            (110000 * (lon - (6 * (plain.standard lat lon : ℝ) - 183)), 110000 * lat) := by
          generalize plain.standard lat lon = z at h0
          show (if _ then _ else _) = _
          rw [if_neg h0]
        rw [hp]
        simp only [h0, false_and, false_or, not_or, Legal, if_false, falseOrigin, not_lt]
        rw [abs_le] at hc
        refine ⟨abs_le.2 h1, ?_⟩
        rw [not_not]
        refine ⟨⟨by linarith [hc.1], by linarith [hc.2]⟩, ?_⟩
        by_cases hl : 0 ≤ lat
        · simp only [hl, decide_true, if_true]
          constructor <;> linarith [h.1, h.2]
        · simp only [hl, decide_false, Bool.false_eq_true, if_false]
          constructor <;> linarith [h.1, h.2]
      · have hz : plain.standard lat lon = 0 := by
          show (if _ then _ else _) = _
          rw [if_neg h]
        rw [hz]
        simp only [plain, if_true, Legal, falseOrigin, true_and, not_or, not_lt, not_not]
        refine ⟨abs_le.2 h1, ?_, ?_⟩
        · by_contra hc
          rw [not_le, abs_lt] at hc
          exact h ⟨by linarith [hc.1], by linarith [hc.2]⟩
        · by_cases hl : 0 ≤ lat
          · have : 84 ≤ lat := by
              by_contra hc
              exact h ⟨by linarith, by linarith⟩
            simp only [hl, decide_true, if_true]
            constructor <;> constructor <;> linarith
          · have : lat < -80 := by
              by_contra hc
              exact h ⟨by linarith, by linarith⟩
            simp only [hl, decide_false, Bool.false_eq_true, if_false]
            constructor <;> constructor <;> linarith
  unproj_proj z lat lon u _ _ hu := by
    unfold Geo.forward at hu
    generalize (if z = -1 then plain.standard lat lon else z) = w at hu
    simp only at hu
    split at hu
    · cases hu
    · simp only [Option.some.injEq] at hu
      rw [← hu]
      simp only [plain]
      split
      · by_cases hl : 0 ≤ lat
        · simp only [hl, decide_true, if_true, Prod.mk.injEq]
          constructor <;> ring
        · simp only [hl, decide_false, Bool.false_eq_true, if_false, Prod.mk.injEq]
          constructor <;> ring
      · simp only [Prod.mk.injEq]
        constructor <;> ring
  proj_unproj z north x y _ _ hl := by
    unfold Legal at hl
    by_cases hz : z = 0
    · simp only [plain, falseOrigin, hz, if_true] at hl ⊢
      cases north with
      | true =>
        simp only [if_true] at hl ⊢
        have hp : 70 ≤ 80 + (y - 2000000) / 80000 := by linarith [hl.2.1]
        refine ⟨_, _, rfl, abs_le.2 ⟨by linarith, by linarith [hl.2.2]⟩, ?_, fun _ => ⟨?_, ?_⟩⟩
        · rw [if_pos (by linarith)]
          simp only [Prod.mk.injEq]
          constructor <;> ring
        · exact le_trans hp (le_abs_self _)
        · simp only [iff_true]
          linarith
      | false =>
        simp only [Bool.false_eq_true, if_false] at hl ⊢
        have hp : 70 ≤ 80 + (y - 2000000) / 130000 := by linarith [hl.2.1]
        refine ⟨_, _, rfl, abs_le.2 ⟨by linarith [hl.2.2], by linarith⟩, ?_, fun _ => ⟨?_, ?_⟩⟩
        · rw [if_neg (by linarith)]
          simp only [Prod.mk.injEq]
          constructor <;> ring
        · rw [abs_neg]
          exact le_trans hp (le_abs_self _)
        · simp only [iff_false]
          linarith
    · simp only [plain, falseOrigin, hz, if_false] at hl ⊢
      refine ⟨_, _, rfl, ?_, ?_, fun h => h.elim⟩
      · cases north with
        | true =>
          simp only [if_true] at hl ⊢
          exact abs_le.2 ⟨by linarith [hl.2.1], by linarith [hl.2.2]⟩
        | false =>
          simp only [Bool.false_eq_true, if_false] at hl ⊢
          exact abs_le.2 ⟨by linarith [hl.2.1], by linarith [hl.2.2]⟩
      · simp only [Prod.mk.injEq]
        constructor <;> ring
  hemisphere z p hz := by simp [plain, hz]
  enu_origin lat lon h := by simp [plain]

end RL.Nav
