import Verif.Model.Params
import Mathlib.Data.List.GetD
/-!
# Configuration: control (C40, C57), covariances (C56), frame names (C60), start-up diagnosis (C61), update vectors (C66)
-/

namespace RL

/-! ## Update vectors -/

theorem fillFalse_some {off n : ℕ} {v : List Bool} (h : off + n ≤ v.length) :
    ∃ w, fillFalse off n v = some w ∧ w.length = v.length ∧
      ∀ i, w.getD i false = if off ≤ i ∧ i < off + n then false else v.getD i false := by
  refine ⟨_, if_pos h, ?_, ?_⟩
  · simp; omega
  · intro i
    by_cases h1 : i < off
    · have : i < (v.take off).length := by simp; omega
      rw [if_neg (by omega), List.append_assoc, List.getD_append _ _ _ _ this]
      simp only [List.getD_eq_getElem?_getD, List.getElem?_take]
      simp [h1]
    · by_cases h2 : i < off + n
      · rw [if_pos (by omega)]
        have e : (v.take off).length = off := by simp; omega
        rw [List.append_assoc, List.getD_append_right _ _ _ _ (by omega), e,
          List.getD_append _ _ _ _ (by simp; omega)]
        simp only [List.getD_eq_getElem?_getD, List.getElem?_replicate]
        split <;> rfl
      · rw [if_neg (by omega)]
        have e : (v.take off ++ List.replicate n false).length = off + n := by simp; omega
        rw [List.getD_append_right _ _ _ _ (by omega), e]
        simp only [List.getD_eq_getElem?_getD, List.getElem?_drop]
        congr 2
        omega

theorem fillFalse_none {off n : ℕ} {v : List Bool} : fillFalse off n v = none ↔ v.length < off + n := by
  unfold fillFalse
  split <;> simp <;> omega

/-- What an update vector selects. -/
def Selects (v : List Bool) (i : ℕ) : Prop := v.getD i false = true

/-- C66 fails: a configuration that is too short is not rejected, it is accessed outside its bounds. -/
theorem C66_short_config_out_of_bounds (v : List Bool) (h : v.length < 12) :
    odomVecs v = none ∧ poseVec v = none ∧ imuPoseVec v = none := by
  have h1 : fillFalse 6 6 v = none := fillFalse_none.mpr (by omega)
  refine ⟨by simp [odomVecs, h1], by simp [poseVec, h1], ?_⟩
  unfold imuPoseVec
  by_cases h3 : v.length < 3
  · simp [fillFalse_none.mpr (show v.length < 0 + 3 by omega)]
  · obtain ⟨w, e, hl, -⟩ := fillFalse_some (off := 0) (n := 3) (v := v) (by omega)
    simp [e, fillFalse_none.mpr (show w.length < 6 + 6 by omega)]

/-- C66 fails: an odometry configuration with 12 to 14 entries passes `loadParams`, and is then accessed outside its bounds
by the filter. -/
theorem C66_odom_config_out_of_bounds (v : List Bool) (h : 12 ≤ v.length) (h2 : v.length < 15) :
    ∃ p t, odomVecs v = some (p, t) ∧ flags p = none ∧ flags t = none := by
  obtain ⟨p, e1, l1, -⟩ := fillFalse_some (off := 6) (n := 6) (v := v) (by omega)
  obtain ⟨t, e2, l2, -⟩ := fillFalse_some (off := 0) (n := 6) (v := v) (by omega)
  exact ⟨p, t, by simp [odomVecs, e1, e2], by simp [flags]; omega, by simp [flags]; omega⟩

/-- C66 fails: a configuration that is too long is used without complaint. -/
theorem C66_long_config_accepted (v : List Bool) (h : 15 < v.length) : (poseVec v).isSome = true ∧ (odomVecs v).isSome = true := by
  obtain ⟨p, e1, l1, -⟩ := fillFalse_some (off := 6) (n := 6) (v := v) (by omega)
  obtain ⟨t, e2, l2, -⟩ := fillFalse_some (off := 0) (n := 6) (v := v) (by omega)
  obtain ⟨q, e3, l3, -⟩ := fillFalse_some (off := 12) (n := 3) (v := p) (by omega)
  simp [poseVec, odomVecs, e1, e2, e3]

/-- C66: with fifteen entries everything stays in bounds. -/
theorem C66_fifteen_partial (v : List Bool) (h : v.length = 15) :
    (∃ p t, odomVecs v = some (p, t) ∧ (flags p).isSome ∧ (flags t).isSome) ∧
    (∃ p, poseVec v = some p ∧ (flags p).isSome) ∧ (∃ t, twistVec v = some t ∧ (flags t).isSome) ∧
    (∃ p, imuPoseVec v = some p ∧ (flags p).isSome) ∧ (∃ p, imuTwistVec v = some p ∧ (flags p).isSome) ∧
    (∃ p, imuAccelVec v = some p ∧ (flags p).isSome) := by
  have f : ∀ w : List Bool, w.length = 15 → (flags w).isSome := by intro w hw; simp [flags, hw]
  obtain ⟨p, e1, l1, -⟩ := fillFalse_some (off := 6) (n := 6) (v := v) (by omega)
  obtain ⟨t, e2, l2, -⟩ := fillFalse_some (off := 0) (n := 6) (v := v) (by omega)
  obtain ⟨q, e3, l3, -⟩ := fillFalse_some (off := 12) (n := 3) (v := p) (by omega)
  obtain ⟨a, e4, l4, -⟩ := fillFalse_some (off := 0) (n := 3) (v := v) (by omega)
  obtain ⟨b, e5, l5, -⟩ := fillFalse_some (off := 6) (n := 6) (v := a) (by omega)
  obtain ⟨c, e6, l6, -⟩ := fillFalse_some (off := 12) (n := 3) (v := b) (by omega)
  obtain ⟨d, e7, l7, -⟩ := fillFalse_some (off := 6) (n := 3) (v := t) (by omega)
  obtain ⟨e, e8, l8, -⟩ := fillFalse_some (off := 12) (n := 3) (v := d) (by omega)
  obtain ⟨g, e9, l9, -⟩ := fillFalse_some (off := 6) (n := 6) (v := t) (by omega)
  refine ⟨⟨p, t, by simp [odomVecs, e1, e2], f _ (by omega), f _ (by omega)⟩, ⟨q, by simp [poseVec, e1, e3], f _ (by omega)⟩,
    ⟨t, by simp [twistVec, e2], f _ (by omega)⟩, ⟨c, by simp [imuPoseVec, e4, e5, e6], f _ (by omega)⟩,
    ⟨e, by simp [imuTwistVec, e2, e7, e8], f _ (by omega)⟩, ⟨g, by simp [imuAccelVec, e2, e9], f _ (by omega)⟩⟩

example : (List.replicate 15 true).length = 15 ∧ (List.replicate 6 true).length < 12 ∧ (List.replicate 13 true).length < 15 := by
  decide

/-! ## C56 -/

/-- C56 fails: a list that is shorter than it must be is read outside its bounds, unless it has fifteen entries. -/
theorem C56_short_list_out_of_bounds (l : List ℝ) (h : l.length < 225) (h2 : l.length ≠ 15) :
    loadCovParam (some l) = .outOfBounds := by
  simp [loadCovParam, loadCovariance, h2]
  omega

/-- C56 fails: no length is ever rejected. -/
theorem C56_never_rejected (param : Option (List ℝ)) : loadCovParam param ≠ .rejected := by
  cases param with
  | none => simp [loadCovParam, loadCovariance]
  | some l =>
    simp only [loadCovParam, loadCovariance, if_true]
    split
    · simp
    · split <;> simp

theorem getD_map_finRange {n : ℕ} (f : Fin n → ℝ) (k : ℕ) (h : k < n) : ((List.finRange n).map f).getD k 0 = f ⟨k, h⟩ := by
  rw [List.getD_eq_getElem _ _ (by simpa using h)]
  simp

/-- A matrix given row by row is read transposed. -/
theorem C56_transposed (M : Mat15) :
    loadCovParam (some ((List.finRange 225).map fun k =>
      M ⟨k.val / 15, by omega⟩ ⟨k.val % 15, by omega⟩)) = .loaded M.transpose := by
  simp only [loadCovParam, loadCovariance, List.length_map, List.length_finRange, if_true, le_refl]
  rw [if_neg (by decide)]
  congr 1
  ext i j
  have h2 : (15 * j.val + i.val) / 15 = j.val := by omega
  have h3 : (15 * j.val + i.val) % 15 = i.val := by omega
  rw [Matrix.of_apply, getD_map_finRange _ _ (by omega)]
  simp only [h2, h3]
  rfl

/-- C56: the two lengths that are meant to be used are read right: fifteen numbers are the diagonal; 225 numbers are the
entries of a symmetric matrix, row by row. -/
theorem C56_right_lengths_partial (M : Mat15) :
    (loadCovParam (some ((List.finRange 15).map fun i => M i i)) = .loaded (Matrix.diagonal fun i => M i i)) ∧
    (M.transpose = M → loadCovParam (some ((List.finRange 225).map fun k =>
      M ⟨k.val / 15, by omega⟩ ⟨k.val % 15, by omega⟩)) = .loaded M) := by
  constructor
  · simp only [loadCovParam, loadCovariance, List.length_map, List.length_finRange, if_true]
    congr 2
    funext i
    rw [getD_map_finRange _ _ i.isLt]
  · intro hM
    rw [C56_transposed, hM]

example : (1 : Mat15).transpose = 1 ∧ ([1, 2, 3] : List ℝ).length < 225 := by simp

/-! ## C60 -/

/-- C60 fails: a configured prefix has no effect. -/
theorem C60_prefix_ignored (param : Option String) (frame : String) : prefixedFrame param frame = frame := by
  cases param <;> simp [prefixedFrame, appendPrefix]

/-- Without the slash it starts with, if any. -/
inductive Unslashed : String → String → Prop
  | slash (l : List Char) : Unslashed (String.ofList ('/' :: l)) (String.ofList l)
  | plain (s : String) : (∀ l, s.toList ≠ '/' :: l) → Unslashed s s

theorem stripSlash_spec (s : String) : Unslashed s (stripSlash s) := by
  unfold stripSlash
  split
  · rename_i rest h
    have : s = String.ofList ('/' :: rest) := by rw [← h, String.ofList_toList]
    rw [this]
    exact .slash rest
  · rename_i h
    exact .plain s (fun l hl => h l hl)

/-- C60: the helper itself does what it should for a prefix that is not empty. -/
theorem C60_append_prefix_partial (tfPrefix frame : String) (h : tfPrefix ≠ "") :
    ∃ p f, Unslashed tfPrefix p ∧ Unslashed frame f ∧ appendPrefix tfPrefix frame = p ++ "/" ++ f :=
  ⟨_, _, stripSlash_spec _, stripSlash_spec _, if_neg h⟩

/-- C60: without a prefix, a leading slash is not removed. -/
theorem C60_no_prefix_keeps_slash (param : Option String) : prefixedFrame param "/odom" = "/odom" := C60_prefix_ignored _ _

example : ("/robot1" : String) ≠ "" ∧ appendPrefix "/robot1" "/odom" = "robot1/odom" := by decide

/-! ## C40 -/

theorem imuAccelVec_get (v : List Bool) (h : 12 ≤ v.length) :
    ∃ a, imuAccelVec v = some a ∧ a.length = v.length ∧ ∀ i, 12 ≤ i → a.getD i false = v.getD i false := by
  obtain ⟨t, e2, l2, g2⟩ := fillFalse_some (off := 0) (n := 6) (v := v) (by omega)
  obtain ⟨g, e9, l9, g9⟩ := fillFalse_some (off := 6) (n := 6) (v := t) (by omega)
  refine ⟨g, by simp [imuAccelVec, e2, e9], by omega, ?_⟩
  intro i hi
  rw [g9, if_neg (by omega), g2, if_neg (by omega)]

theorem getElem_getD {v : List Bool} {i : ℕ} (h : i < v.length) : v[i]? = some (v.getD i false) := by
  simp [List.getD_eq_getElem?_getD, h]

theorem disableAxis_spec (accel upd : List Bool) (i : ℕ) (hi : i < upd.length) (ha : 12 + i < accel.length) :
    ∃ u, disableAxis accel upd i = some u ∧ u.length = upd.length ∧
      ∀ k, u.getD k false = (upd.getD k false && !(decide (k = i) && accel.getD (12 + i) false)) := by
  unfold disableAxis vecGet
  rw [getElem_getD hi, getElem_getD ha]
  cases h1 : upd.getD i false with
  | false =>
    refine ⟨upd, by simp, rfl, ?_⟩
    intro k
    by_cases hk : k = i
    · subst hk; rw [h1]; rfl
    · simp [hk]
  | true =>
    cases h2 : accel.getD (12 + i) false with
    | false => exact ⟨upd, by simp, rfl, by simp⟩
    | true =>
      refine ⟨upd.set i false, by simp, by simp, ?_⟩
      intro k
      by_cases hk : k = i
      · subst hk; simp [List.getD_eq_getElem?_getD, hi]
      · simp [hk, List.getD_eq_getElem?_getD, List.getElem?_set_ne (Ne.symm hk)]

theorem imuControl_spec (upd v : List Bool) (hu : 3 ≤ upd.length) (hv : 15 ≤ v.length) :
    ∃ u, imuControl upd v = some u ∧ u.length = upd.length ∧
      ∀ k, u.getD k false = (upd.getD k false && !(decide (k < 3) && v.getD (12 + k) false)) := by
  obtain ⟨a, ea, la, ga⟩ := imuAccelVec_get v (by omega)
  obtain ⟨u0, e0, l0, g0⟩ := disableAxis_spec a upd 0 (by omega) (by omega)
  obtain ⟨u1, e1, l1, g1⟩ := disableAxis_spec a u0 1 (by omega) (by omega)
  obtain ⟨u2, e2, l2, g2⟩ := disableAxis_spec a u1 2 (by omega) (by omega)
  refine ⟨u2, by simp [imuControl, ea, e0, e1, e2], by omega, ?_⟩
  intro k
  rw [g2, g1, g0, ga _ (by omega), ga _ (by omega), ga _ (by omega)]
  by_cases h0 : k = 0
  · subst h0; simp
  · by_cases h1 : k = 1
    · subst h1; simp
    · by_cases h2 : k = 2
      · subst h2; simp
      · have : ¬ k < 3 := by omega
        simp [h0, h1, h2, this]

theorem imus_fold_ge (imus : List (List Bool)) (hv : ∀ v ∈ imus, 15 ≤ v.length) :
    ∀ upd : List Bool, 3 ≤ upd.length → ∃ u, imus.foldlM imuControl upd = some u ∧ u.length = upd.length ∧
      ∀ k, u.getD k false = true ↔ upd.getD k false = true ∧ (k < 3 → ∀ v ∈ imus, ¬ Selects v (12 + k)) := by
  induction imus with
  | nil => intro upd _; exact ⟨upd, rfl, rfl, by simp⟩
  | cons v imus ih =>
    intro upd hu
    obtain ⟨u1, e1, l1, g1⟩ := imuControl_spec upd v hu (hv v List.mem_cons_self)
    obtain ⟨u, e, l, g⟩ := ih (fun w hw => hv w (List.mem_cons_of_mem _ hw)) u1 (by omega)
    refine ⟨u, by simp [List.foldlM_cons, e1, e], by omega, ?_⟩
    intro k
    rw [g k, g1 k]
    simp only [Bool.and_eq_true, Bool.not_eq_true', Selects]
    constructor
    · rintro ⟨⟨ha, hb⟩, hc⟩
      refine ⟨ha, fun hk w hw => ?_⟩
      rcases List.mem_cons.mp hw with rfl | hw
      · simp only [hk, decide_true, Bool.true_and] at hb
        rw [hb]; decide
      · exact hc hk w hw
    · rintro ⟨ha, hb⟩
      refine ⟨⟨ha, ?_⟩, fun hk w hw => hb hk w (List.mem_cons_of_mem _ hw)⟩
      by_cases hk : k < 3
      · have := hb hk v List.mem_cons_self
        simp only [hk, decide_true, Bool.true_and]
        simpa using this
      · simp [hk]

theorem imus_fold (imus : List (List Bool)) (hv : ∀ v ∈ imus, v.length = 15) :
    ∀ upd : List Bool, 3 ≤ upd.length → ∃ u, imus.foldlM imuControl upd = some u ∧ u.length = upd.length ∧
      ∀ k, u.getD k false = true ↔ upd.getD k false = true ∧ (k < 3 → ∀ v ∈ imus, ¬ Selects v (12 + k)) :=
  imus_fold_ge imus fun v h => (hv v h).ge

/-- C40: the control acts on exactly those configured axes whose acceleration no IMU is configured to measure; the rates
are not affected. -/
theorem C40_measured_axes (p : ControlParams) (cfg : List Bool) (hp : p.useControl = true) (hc : p.config = some cfg)
    (hl : cfg.length = 6) (imus : List (List Bool)) (hv : ∀ v ∈ imus, v.length = 15) :
    ∃ s, finalControl p imus = some s ∧
      ∀ k, Selects s.upd k ↔ Selects cfg k ∧ (k < 3 → ∀ v ∈ imus, ¬ Selects v (12 + k)) := by
  have hu : (loadControl p).upd = cfg := by simp [loadControl, hp, hc]
  obtain ⟨u, e, l, g⟩ := imus_fold imus hv cfg (by omega)
  refine ⟨{ loadControl p with upd := u, useControl := (loadControl p).useControl && decide (sumTrue u ≠ 0) }, ?_, ?_⟩
  · simp only [finalControl, hu, e]
    rfl
  · exact g

/-- C40: the order of the IMUs does not matter. -/
theorem C40_order (p : ControlParams) (cfg : List Bool) (hp : p.useControl = true) (hc : p.config = some cfg)
    (hl : cfg.length = 6) (imus imus' : List (List Bool)) (hv : ∀ v ∈ imus, v.length = 15) (hperm : imus.Perm imus') :
    ∃ s s', finalControl p imus = some s ∧ finalControl p imus' = some s' ∧ ∀ k, Selects s.upd k ↔ Selects s'.upd k := by
  obtain ⟨s, e, g⟩ := C40_measured_axes p cfg hp hc hl imus hv
  obtain ⟨s', e', g'⟩ := C40_measured_axes p cfg hp hc hl imus' (fun v h => hv v (hperm.mem_iff.mpr h))
  refine ⟨s, s', e, e', fun k => ?_⟩
  rw [g, g']
  simp only [hperm.mem_iff]

/-- C40: if no axis is left, control is off. -/
theorem C40_nothing_left (p : ControlParams) (imus : List (List Bool)) (s : ControlSettings)
    (h : finalControl p imus = some s) (hs : s.useControl = true) : ∃ k, Selects s.upd k := by
  unfold finalControl at h
  simp only [Option.bind_eq_bind, Option.bind_eq_some_iff] at h
  obtain ⟨u, -, h⟩ := h
  cases h
  simp only [Bool.and_eq_true, decide_eq_true_eq] at hs
  have : true ∈ u := by
    rw [← List.count_pos_iff]
    unfold sumTrue at hs
    omega
  obtain ⟨k, hk, e⟩ := List.mem_iff_getElem.mp this
  exact ⟨k, by simp [Selects, List.getD_eq_getElem?_getD, hk, e]⟩

/-! ## C57 -/

theorem forM_range_some {f : ℕ → Option Unit} (n : ℕ) (h : ∀ i < n, f i = some ()) : (List.range n).forM f = some () := by
  have : ∀ l : List ℕ, (∀ i ∈ l, f i = some ()) → l.forM f = some () := by
    intro l
    induction l with
    | nil => intro _; rfl
    | cons a l ih =>
      intro hl
      change (f a >>= fun _ => l.forM f) = some ()
      rw [hl a List.mem_cons_self]
      exact ih fun i hi => hl i (List.mem_cons_of_mem _ hi)
  exact this _ fun i hi => h i (List.mem_range.mp hi)

theorem vecGet_some {α : Type} {v : List α} {i : ℕ} (h : i < v.length) : ∃ a, vecGet v i = some a := ⟨v[i], by simp [vecGet, h]⟩

theorem fixGains_length (l : List ℝ) : (fixGains l).length = 6 := by
  unfold fixGains
  split
  · simp
  · rename_i h
    exact not_not.mp h

/-- C57: control parameters of any length are handled without access outside a list, provided `control_config` has six
entries and `acceleration_gains` is given whenever control stays in use. -/
theorem C57_safe_partial (p : ControlParams) (imus : List (List Bool)) (hv : ∀ v ∈ imus, v.length = 15)
    (hc : p.useControl = true → ∃ cfg, p.config = some cfg ∧ cfg.length = 6)
    (hg : p.useControl = true → p.accGains ≠ none) :
    ∃ s, finalControl p imus = some s ∧ controlAccesses s = some () := by
  have h6 : (loadControl p).upd.length = 6 := by
    unfold loadControl
    split
    · rename_i h
      obtain ⟨cfg, e, l⟩ := hc h
      simp [e, l]
    · simp
  obtain ⟨u, e, l, -⟩ := imus_fold imus hv (loadControl p).upd (by omega)
  refine ⟨{ loadControl p with upd := u, useControl := (loadControl p).useControl && decide (sumTrue u ≠ 0) }, ?_, ?_⟩
  · simp only [finalControl, e]
    rfl
  · unfold controlAccesses
    split
    · rename_i hs
      simp only [Bool.and_eq_true] at hs
      have hs1 := hs.1
      have hlen : (loadControl p).accLimits.length = 6 ∧ (loadControl p).accGains.length = 6 ∧
          (loadControl p).decLimits.length = 6 ∧ (loadControl p).decGains.length = 6 := by
        unfold loadControl at hs1 ⊢
        split at hs1
        · rename_i hp
          simp only [hp, if_true, Bool.and_eq_true] at hs1 ⊢
          obtain ⟨⟨hs2, hs3⟩, hs4⟩ := hs1
          have a1 : (p.accLimits.getD (List.replicate 6 1)).length = 6 := by
            cases h : p.accLimits with
            | none => simp
            | some l => rw [h] at hs3; simpa using hs3
          have a2 : ((p.accGains.map fixGains).getD []).length = 6 := by
            cases h : p.accGains with
            | none => exact absurd h (hg hp)
            | some l => simpa using fixGains_length l
          refine ⟨a1, a2, ?_, ?_⟩
          · cases h : p.decLimits with
            | none => simpa using a1
            | some l => rw [h] at hs4; simpa using hs4
          · cases h : p.decGains with
            | none => simpa using a2
            | some l => simpa using fixGains_length l
        · exact absurd hs1 (by simp)
      apply forM_range_some
      intro i hi
      unfold controlAccess
      obtain ⟨a, ea⟩ := vecGet_some (v := u) (i := i) (by omega)
      obtain ⟨b1, e1⟩ := vecGet_some (v := (loadControl p).accLimits) (i := i) (by omega)
      obtain ⟨b2, e2⟩ := vecGet_some (v := (loadControl p).accGains) (i := i) (by omega)
      obtain ⟨b3, e3⟩ := vecGet_some (v := (loadControl p).decLimits) (i := i) (by omega)
      obtain ⟨b4, e4⟩ := vecGet_some (v := (loadControl p).decGains) (i := i) (by omega)
      simp [ea, e1, e2, e3, e4]
    · rfl

/-- C57: exactly when a prediction with control reads inside all lists: every axis needs an entry of
`control_config`, and every axis in use one of each limit and of each gain. -/
theorem C57_accesses (s : ControlSettings) : controlAccesses s = some () ↔
    (s.useControl = true → ∀ i < 6, i < s.upd.length ∧ (Selects s.upd i →
      i < s.accLimits.length ∧ i < s.accGains.length ∧ i < s.decLimits.length ∧ i < s.decGains.length)) := by
  have one : ∀ i, controlAccess s i = some () ↔ i < s.upd.length ∧ (Selects s.upd i →
      i < s.accLimits.length ∧ i < s.accGains.length ∧ i < s.decLimits.length ∧ i < s.decGains.length) := by
    intro i
    have get : ∀ {α : Type} (v : List α), (∃ a, vecGet v i = some a ∧ i < v.length) ∨ (vecGet v i = none ∧ ¬ i < v.length) := by
      intro α v
      by_cases h : i < v.length
      · obtain ⟨a, e⟩ := vecGet_some h
        exact Or.inl ⟨a, e, h⟩
      · exact Or.inr ⟨by simpa [vecGet] using h, h⟩
    unfold controlAccess
    rcases get s.upd with ⟨u, e, h⟩ | ⟨e, h⟩
    · have hu : Selects s.upd i ↔ u = true := by
        unfold vecGet at e
        simp [Selects, List.getD_eq_getElem?_getD, e]
      rcases get s.accLimits with ⟨a1, e1, h1⟩ | ⟨e1, h1⟩ <;> rcases get s.accGains with ⟨a2, e2, h2⟩ | ⟨e2, h2⟩ <;>
        rcases get s.decLimits with ⟨a3, e3, h3⟩ | ⟨e3, h3⟩ <;> rcases get s.decGains with ⟨a4, e4, h4⟩ | ⟨e4, h4⟩ <;>
        cases u <;> simp [e, e1, e2, e3, e4, h, h1, h2, h3, h4, hu]
    · simp [e, h]
  unfold controlAccesses
  have all : ∀ l : List ℕ, l.forM (fun i => controlAccess s i) = some () ↔ ∀ i ∈ l, controlAccess s i = some () := by
    intro l
    induction l with
    | nil => simp
    | cons a l ih =>
      change (controlAccess s a >>= fun _ => l.forM fun i => controlAccess s i) = some () ↔ _
      cases ha : controlAccess s a with
      | none => simp [ha]
      | some u => simpa [ha] using ih
  by_cases hs : s.useControl = true
  · rw [if_pos hs, all]
    simp only [List.mem_range, one, hs, forall_const]
  · rw [if_neg hs]
    simp [hs]

/-- C57 fails: without `acceleration_gains` the first prediction with control reads outside a list. -/
theorem C57_missing_gains (p : ControlParams) (cfg : List Bool) (hp : p.useControl = true) (hc : p.config = some cfg)
    (hl : cfg.length = 6) (hx : Selects cfg 0) (ha : p.accLimits = none) (hd : p.decLimits = none)
    (hg : p.accGains = none) :
    ∃ s, finalControl p [] = some s ∧ s.useControl = true ∧ controlAccesses s = none := by
  have hs : sumTrue cfg ≠ 0 := by
    intro h
    unfold sumTrue at h
    rw [List.count_eq_zero] at h
    apply h
    have h0 : 0 < cfg.length := by omega
    have : cfg[0] = true := by simpa [Selects, List.getD_eq_getElem?_getD, h0] using hx
    rw [← this]
    exact List.getElem_mem _
  have e : finalControl p [] = some { loadControl p with upd := cfg, useControl := true } := by
    simp [finalControl, loadControl, hp, hc, ha, hd, hl, hs]
  refine ⟨_, e, rfl, ?_⟩
  have h0 : vecGet cfg 0 = some true := by
    have h0 : 0 < cfg.length := by omega
    have hx' : cfg[0] = true := by simpa [Selects, List.getD_eq_getElem?_getD, h0] using hx
    simp [vecGet, h0, hx']
  have : controlAccess { loadControl p with upd := cfg, useControl := true } 0 = none := by
    simp only [controlAccess, h0]
    simp [loadControl, hp, hg, ha, vecGet]
  simp only [controlAccesses, if_true]
  change (controlAccess { loadControl p with upd := cfg, useControl := true } 0 >>= fun _ => _) = none
  rw [this]
  rfl

/-- C57 fails: without `control_config` (control is then not used) configuring any IMU reads outside a list. -/
theorem C57_missing_config (p : ControlParams) (hp : p.useControl = true) (hc : p.config = none) (v : List Bool)
    (imus : List (List Bool)) : finalControl p (v :: imus) = none := by
  have : imuControl [] v = none := by
    unfold imuControl
    cases imuAccelVec v with
    | none => rfl
    | some a => simp [disableAxis, vecGet]
  simp [finalControl, loadControl, hp, hc, List.foldlM_cons, this]

example : ∃ p : ControlParams, p.useControl = true ∧ p.config = some [true, false, false, false, false, true] ∧
    p.accLimits = none ∧ p.decLimits = none ∧ p.accGains = none :=
  ⟨⟨true, some [true, false, false, false, false, true], none, none, none, none⟩, rfl, rfl, rfl, rfl, rfl⟩

end RL
