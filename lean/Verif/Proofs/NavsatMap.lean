import Verif.Proofs.Navsat
import Verif.Spec.Geodesy
/-! # Helper lemmas: projections and the map -/

namespace RL.Nav
open Matrix

theorem forward_some {g : Geo} {lat lon : ℝ} {z : Int} {u : Utm} (h : g.forward lat lon z = some u) :
    u.zone = (if z = -1 then g.standard lat lon else z) ∧ u.north = decide (0 ≤ lat) ∧
    u.x = (g.proj u.zone lat lon).1 + (falseOrigin u.zone u.north).1 ∧
    u.y = (g.proj u.zone lat lon).2 + (falseOrigin u.zone u.north).2 ∧
    u.conv = g.conv u.zone lat lon ∧
    Legal u.zone u.north u.x u.y ∧ |lat| ≤ 90 ∧ (u.zone = 0 → 70 ≤ |lat|) := by
  unfold Geo.forward at h
  generalize (if z = -1 then g.standard lat lon else z) = w at h
  simp only at h
  split at h
  · cases h
  · rename_i hc
    simp only [Option.some.injEq] at h
    rw [← h]
    simp only [not_or, not_lt, not_not, not_and] at hc
    exact ⟨rfl, rfl, rfl, rfl, rfl, hc.2.2, hc.1, hc.2.1⟩

theorem forward_std (g : Geo) (lat lon : ℝ) (z : Int) (hz : g.standard lat lon = z) (h : z ≠ -1) :
    g.forward lat lon (-1) = g.forward lat lon z := by
  unfold Geo.forward
  rw [if_pos rfl, if_neg h, hz]

theorem forward_intro (g : Geo) (lat lon : ℝ) (z : Int) (hz : z ≠ -1) (h90 : |lat| ≤ 90) (h70 : z = 0 → 70 ≤ |lat|)
    (hl : Legal z (decide (0 ≤ lat)) ((g.proj z lat lon).1 + (falseOrigin z (decide (0 ≤ lat))).1)
      ((g.proj z lat lon).2 + (falseOrigin z (decide (0 ≤ lat))).2)) :
    g.forward lat lon z = some
      { zone := z, north := decide (0 ≤ lat)
        x := (g.proj z lat lon).1 + (falseOrigin z (decide (0 ≤ lat))).1
        y := (g.proj z lat lon).2 + (falseOrigin z (decide (0 ≤ lat))).2, conv := g.conv z lat lon } := by
  unfold Geo.forward
  rw [if_neg hz]
  simp only
  rw [if_neg]
  simp only [not_or, not_lt, not_not, not_and]
  exact ⟨h90, h70, hl⟩

theorem apply_inv_apply {a : Tf} (h : IsRot a.rot) (v : V3) : a.inv.apply (a.apply v) = v := by
  simp only [Tf.apply, Tf.inv]
  rw [mulVec_add, mulVec_mulVec, h.transpose_mul, one_mulVec, mulVec_neg]
  abel

theorem apply_apply_inv {a : Tf} (h : IsRot a.rot) (v : V3) : a.apply (a.inv.apply v) = v := by
  simp only [Tf.apply, Tf.inv]
  rw [mulVec_add, mulVec_mulVec, mulVec_mulVec, h.1, one_mulVec, one_mulVec]
  abel

theorem apply_sub (a : Tf) (v w : V3) : a.apply v - a.apply w = a.rot.mulVec (v - w) := by
  simp only [Tf.apply, mulVec_sub]
  abel

theorem rotZ_mulVec (a : ℝ) (v : V3) :
    (Body.rotZ a).mulVec v = ![Real.cos a * v 0 - Real.sin a * v 1, Real.sin a * v 0 + Real.cos a * v 1, v 2] := by
  ext i
  fin_cases i <;> simp [Body.rotZ, mulVec3] <;> ring

theorem rotZ_transpose_mulVec (a : ℝ) (v : V3) :
    ((Body.rotZ a)ᵀ).mulVec v = ![Real.cos a * v 0 + Real.sin a * v 1, -Real.sin a * v 0 + Real.cos a * v 1, v 2] := by
  ext i
  fin_cases i <;> simp [Body.rotZ, mulVec3, Matrix.transpose_apply]

/-- For a known transform. -/
theorem Known.rot {s : St} (h : Known s) (hg : s.good = true) : IsRot s.cw.rot := by
  obtain ⟨⟨a, ha⟩, -⟩ := h hg
  rw [ha]
  exact Listen.isRot_rotZ a

/-- The height does not influence the position on the map. -/
theorem Known.level {s : St} (h : Known s) (hg : s.good = true) (v w : V3) (h0 : v 0 = w 0) (h1 : v 1 = w 1) :
    s.cw.apply v 0 = s.cw.apply w 0 ∧ s.cw.apply v 1 = s.cw.apply w 1 ∧ s.cw.apply v 2 - s.cw.apply w 2 = v 2 - w 2 := by
  obtain ⟨⟨a, ha⟩, -⟩ := h hg
  simp only [Tf.apply, ha, rotZ_mulVec, Pi.add_apply, cons_val_zero, cons_val_one, cons_val, h0, h1]
  refine ⟨trivial, trivial, by ring⟩

theorem Known.inv_level {s : St} (h : Known s) (hg : s.good = true) (v w : V3) (h0 : v 0 = w 0) (h1 : v 1 = w 1) :
    s.cwInv.apply v 0 = s.cwInv.apply w 0 ∧ s.cwInv.apply v 1 = s.cwInv.apply w 1 ∧
      s.cwInv.apply v 2 - s.cwInv.apply w 2 = v 2 - w 2 := by
  obtain ⟨⟨a, ha⟩, hi⟩ := h hg
  simp only [hi, Tf.apply, Tf.inv, ha, rotZ_transpose_mulVec, Pi.add_apply, cons_val_zero, cons_val_one, cons_val, h0, h1]
  refine ⟨trivial, trivial, by ring⟩

theorem Known.back {s : St} (h : Known s) (hg : s.good = true) (v : V3) : s.cwInv.apply (s.cw.apply v) = v := by
  rw [(h hg).2]
  exact apply_inv_apply (h.rot hg) v

theorem Known.forth {s : St} (h : Known s) (hg : s.good = true) (v : V3) : s.cw.apply (s.cwInv.apply v) = v := by
  rw [(h hg).2]
  exact apply_apply_inv (h.rot hg) v

/-- Square of the distance of two points on the map. -/
def dist2 (v w : V3) : ℝ := (v 0 - w 0) ^ 2 + (v 1 - w 1) ^ 2

theorem Known.dist2 {s : St} (h : Known s) (hg : s.good = true) (p : Par) (v w : V3) :
    dist2 (s.cartesianToMap p v) (s.cartesianToMap p w) = dist2 v w := by
  obtain ⟨⟨a, ha⟩, -⟩ := h hg
  simp only [Nav.dist2, St.cartesianToMap, Tf.apply, ha, rotZ_mulVec, Pi.add_apply, cons_val_zero, cons_val_one]
  have := Real.sin_sq_add_cos_sq a
  linear_combination ((v 0 - w 0) ^ 2 + (v 1 - w 1) ^ 2) * this

/-- Induction over a run in which all events have a property. -/
theorem run_ind_ev (g : Geo) (p : Par) (bc ap : Bool) (E : Ev → Prop) (P : St → Prop)
    (hstep : ∀ s e s', E e → (step g p bc ap s e).st = some s' → P s → P s') (s : St) (es : List Ev) (hE : ∀ e ∈ es, E e) (s' : St)
    (h : (run g p bc ap s es).st = some s') (h0 : P s) : P s' := by
  induction es generalizing s with
  | nil => simp only [run, Option.some.injEq] at h; rwa [← h]
  | cons e es ih =>
    simp only [run] at h
    cases hs : (step g p bc ap s e).st with
    | none => rw [hs] at h; cases h
    | some s1 =>
      rw [hs] at h
      exact ih s1 (fun e' he => hE e' (List.mem_cons_of_mem _ he)) h (hstep s e s1 (hE e (List.mem_cons_self ..)) hs h0)

def ZoneOk (s : St) : Prop := 0 ≤ s.zone ∧ s.zone ≤ 60

theorem setTransformGps_zone {g : Geo} (hg : g.Lawful) (p : Par) (s : St) (lat lon alt : ℝ) (h : ZoneOk s) :
    ZoneOk (s.setTransformGps g p lat lon alt) := by
  unfold St.setTransformGps
  split
  · exact h
  · split
    · exact h
    · rename_i u hu
      have hz := (forward_some hu).1
      show 0 ≤ u.zone ∧ u.zone ≤ 60
      rw [hz]
      by_cases hf : s.forceUtm = true
      · have hne : s.zone ≠ -1 := by have := h.1; omega
        rw [if_pos hf, if_neg hne]
        exact h
      · rw [if_neg hf, if_pos rfl]
        exact hg.standard_range lat lon

theorem setManualDatum_zone {g : Geo} (hg : g.Lawful) (buf : TfBuffer) (p : Par) (s : St) (h : ZoneOk s) :
    ZoneOk (s.setManualDatum g buf p) := by
  unfold St.setManualDatum
  simp only
  have h1 := setTransformGps_zone hg p s s.datum.lat s.datum.lon s.datum.alt h
  generalize s.setTransformGps g p s.datum.lat s.datum.lon s.datum.alt = s1 at h1
  have h2 := (setTransformOdometry_same buf p s1
    { frame := s1.world, child := s1.base, stamp := 0, pos := 0, ori := ⟨0, 0, 0, 1⟩, cov := fun _ => 0 }).1.zone
  generalize s1.setTransformOdometry buf p
    { frame := s1.world, child := s1.base, stamp := 0, pos := 0, ori := ⟨0, 0, 0, 1⟩, cov := fun _ => 0 } = s2 at h2
  have h3 := (imu_same buf s2 { frame := s2.base, stamp := 0, ori := s2.datum.ori }).zone
  unfold ZoneOk
  rw [h3, h2]
  exact h1

theorem computeTransform_zone {g : Geo} (hg : g.Lawful) (buf : TfBuffer) (p : Par) (s : St) (h : ZoneOk s) :
    ZoneOk (s.computeTransform g buf p) := by
  have h1 : ZoneOk (if !s.good && s.hasOdom && s.manual then s.setManualDatum g buf p else s) := by
    split
    · exact setManualDatum_zone hg buf p s h
    · exact h
  obtain ⟨s1, hs1, ⟨-, e⟩ | ⟨-, -, -, -, e⟩⟩ := computeTransform_cases g buf p s
  · rw [e, hs1]
    exact h1
  · rw [e]
    rw [← hs1] at h1
    exact h1

theorem step_zone {g : Geo} (hg : g.Lawful) (p : Par) (bc ap : Bool) (s : St) (e : Ev) (s' : St)
    (h : (step g p bc ap s e).st = some s') (hk : ZoneOk s) : ZoneOk s' := by
  cases e with
  | fix m =>
    simp only [step, St.fix] at h
    split at h
    · rename_i lat lon alt _ _
      simp only [Option.map_eq_some_iff] at h
      obtain ⟨u, -, rfl⟩ := h
      split
      · exact setTransformGps_zone hg p { s with gpsFrame := m.frame } lat lon alt hk
      · exact hk
    · simp only [Option.some.injEq] at h
      rw [← h]
      exact hk
  | imu buf m =>
    simp only [step, Option.some.injEq] at h
    rw [← h]
    split
    · have hs := (imu_same buf s m).zone
      unfold ZoneOk
      rw [hs]
      exact hk
    · exact hk
  | odom buf m =>
    simp only [step, St.odom, Option.some.injEq] at h
    rw [← h]
    by_cases hg : s.good = true
    · simp only [hg, if_true]
      exact hk
    · have hs := (setTransformOdometry_same buf p { s with world := m.frame, base := m.child } m).1.zone
      rw [if_neg hg]
      show 0 ≤ (St.setTransformOdometry buf p { s with world := m.frame, base := m.child } m).zone ∧
        (St.setTransformOdometry buf p { s with world := m.frame, base := m.child } m).zone ≤ 60
      rw [hs]
      exact hk
  | timer buf =>
    rcases timer_cases g buf p bc ap s s' h with ⟨-, c1, c2, gu, ou, rfl⟩ | ⟨-, i, rfl⟩
    · exact hk
    · exact computeTransform_zone hg buf p s hk
  | datum d =>
    simp only [step, Option.some.injEq] at h
    rw [← h]
    exact hk
  | toLL v =>
    simp only [step, Option.map_eq_some_iff] at h
    obtain ⟨-, -, rfl⟩ := h
    exact hk
  | fromLL lat lon alt =>
    simp only [step, Option.map_eq_some_iff] at h
    obtain ⟨-, -, rfl⟩ := h
    exact hk
  | setZone z =>
    cases z with
    | none => simp [step] at h
    | some z =>
      simp only [step, Option.some.injEq] at h
      rw [← h]
      have := z.1.isLt
      simp only [ZoneOk, St.setZone]
      omega

theorem run_zone {g : Geo} (hg : g.Lawful) (p : Par) (bc ap : Bool) {w : Bool} {s : St} (hi : s.Initial p w) (es : List Ev) (s' : St)
    (h : (run g p bc ap s es).st = some s') : ZoneOk s' :=
  run_ind g p bc ap ZoneOk (step_zone hg p bc ap) s es s' h ⟨by rw [hi.zone], by rw [hi.zone]; norm_num⟩

/-- In local mode the zone stays what it was. -/
def Polar (s : St) : Prop := s.zone = 0 ∧ s.north = true

theorem setTransformGps_polar {g : Geo} (p : Par) (hl : p.useLocal = true) (s : St) (lat lon alt : ℝ) (h : Polar s) :
    Polar (s.setTransformGps g p lat lon alt) := by
  unfold St.setTransformGps
  rw [if_pos hl]
  exact h

theorem computeTransform_polar {g : Geo} (buf : TfBuffer) (p : Par) (hl : p.useLocal = true) (s : St) (h : Polar s) :
    Polar (s.computeTransform g buf p) := by
  have h1 : Polar (if !s.good && s.hasOdom && s.manual then s.setManualDatum g buf p else s) := by
    split
    · unfold St.setManualDatum
      simp only
      have h1 := setTransformGps_polar (g := g) p hl s s.datum.lat s.datum.lon s.datum.alt h
      generalize s.setTransformGps g p s.datum.lat s.datum.lon s.datum.alt = s1 at h1
      have h2 := (setTransformOdometry_same buf p s1
        { frame := s1.world, child := s1.base, stamp := 0, pos := 0, ori := ⟨0, 0, 0, 1⟩, cov := fun _ => 0 }).1
      generalize s1.setTransformOdometry buf p
        { frame := s1.world, child := s1.base, stamp := 0, pos := 0, ori := ⟨0, 0, 0, 1⟩, cov := fun _ => 0 } = s2 at h2
      have h3 := imu_same buf s2 { frame := s2.base, stamp := 0, ori := s2.datum.ori }
      unfold Polar
      rw [h3.zone, h2.zone, h3.north, h2.north]
      exact h1
    · exact h
  obtain ⟨s1, hs1, ⟨-, e⟩ | ⟨-, -, -, -, e⟩⟩ := computeTransform_cases g buf p s
  · rw [e, hs1]
    exact h1
  · rw [e]
    rw [← hs1] at h1
    exact h1

theorem step_polar {g : Geo} (p : Par) (hl : p.useLocal = true) (bc ap : Bool) (s : St) (e : Ev) (s' : St) (he : ∀ z, e ≠ .setZone z)
    (h : (step g p bc ap s e).st = some s') (hk : Polar s) : Polar s' := by
  cases e with
  | fix m =>
    simp only [step, St.fix] at h
    split at h
    · rename_i lat lon alt _ _
      simp only [Option.map_eq_some_iff] at h
      obtain ⟨u, -, rfl⟩ := h
      split
      · exact setTransformGps_polar p hl { s with gpsFrame := m.frame } lat lon alt hk
      · exact hk
    · simp only [Option.some.injEq] at h
      rw [← h]
      exact hk
  | imu buf m =>
    simp only [step, Option.some.injEq] at h
    rw [← h]
    split
    · have hs := imu_same buf s m
      unfold Polar
      rw [hs.zone, hs.north]
      exact hk
    · exact hk
  | odom buf m =>
    simp only [step, St.odom, Option.some.injEq] at h
    rw [← h]
    by_cases hg : s.good = true
    · simp only [hg, if_true]
      exact hk
    · have hs := (setTransformOdometry_same buf p { s with world := m.frame, base := m.child } m).1
      rw [if_neg hg]
      exact ⟨hs.zone.trans hk.1, hs.north.trans hk.2⟩
  | timer buf =>
    rcases timer_cases g buf p bc ap s s' h with ⟨-, c1, c2, gu, ou, rfl⟩ | ⟨-, i, rfl⟩
    · exact hk
    · exact computeTransform_polar buf p hl s hk
  | datum d =>
    simp only [step, Option.some.injEq] at h
    rw [← h]
    exact hk
  | toLL v =>
    simp only [step, Option.map_eq_some_iff] at h
    obtain ⟨-, -, rfl⟩ := h
    exact hk
  | fromLL lat lon alt =>
    simp only [step, Option.map_eq_some_iff] at h
    obtain ⟨-, -, rfl⟩ := h
    exact hk
  | setZone z => exact absurd rfl (he z)

theorem run_polar (g : Geo) (p : Par) (hl : p.useLocal = true) (bc ap : Bool) {w : Bool} {s : St} (hi : s.Initial p w) (es : List Ev)
    (he : ∀ e ∈ es, ∀ z, e ≠ .setZone z) (s' : St) (h : (run g p bc ap s es).st = some s') : s'.zone = 0 ∧ s'.north = true :=
  run_ind_ev g p bc ap (fun e => ∀ z, e ≠ .setZone z) Polar (fun s e s' he => step_polar p hl bc ap s e s' he) s es he s' h
    ⟨hi.zone, hi.north⟩

/-- An answer of fromLL. -/
theorem fromLL_some {g : Geo} {p : Par} {s : St} {lat lon alt : ℝ} {v : V3} (h : s.fromLL g p lat lon alt = some (.map (some v))) :
    s.good = true ∧
    ((p.useLocal = true ∧ v = s.cartesianToMap p ![g.enu s.enu0.1 s.enu0.2 lat lon alt 0, g.enu s.enu0.1 s.enu0.2 lat lon alt 1, alt]) ∨
     (p.useLocal = false ∧ ∃ u, g.forward lat lon s.zone = some u ∧ v = s.cartesianToMap p ![u.x, u.y, alt])) := by
  unfold St.fromLL at h
  simp only at h
  by_cases hg : s.good = true
  · refine ⟨hg, ?_⟩
    simp only [hg, if_true] at h
    by_cases hl : p.useLocal = true
    · left
      simp only [hl, if_true, Option.map_some, Option.some.injEq, Out.map.injEq] at h
      exact ⟨hl, h.symm⟩
    · right
      simp only [hl, Bool.false_eq_true, if_false, Option.map_map] at h
      rw [Option.map_eq_some_iff] at h
      obtain ⟨u, hu, h⟩ := h
      simp only [Function.comp, Out.map.injEq, Option.some.injEq] at h
      exact ⟨by simpa using hl, u, hu, h.symm⟩
  · simp only [hg, Bool.false_eq_true, if_false] at h
    rw [Option.map_eq_some_iff] at h
    obtain ⟨u, -, h⟩ := h
    simp at h

theorem toLL_some {g : Geo} {s : St} {lat lon alt : ℝ} {v : V3} (h : s.toLL g v = some (.ll (some (lat, lon, alt)))) :
    s.good = true ∧ g.reverse s.zone s.north (s.cwInv.apply v 0) (s.cwInv.apply v 1) = some (lat, lon) ∧ s.cwInv.apply v 2 = alt := by
  unfold St.toLL at h
  by_cases hg : s.good = true
  · refine ⟨hg, ?_⟩
    rw [if_pos hg] at h
    unfold St.mapToLL at h
    simp only [Option.map_map] at h
    rw [Option.map_eq_some_iff] at h
    obtain ⟨u, hu, h⟩ := h
    simp only [Function.comp, Out.ll.injEq, Option.some.injEq, Prod.mk.injEq] at h
    obtain ⟨h1, h2, h3⟩ := h
    refine ⟨?_, h3⟩
    rw [hu, ← h1, ← h2]
  · rw [if_neg hg] at h
    simp at h

end RL.Nav
