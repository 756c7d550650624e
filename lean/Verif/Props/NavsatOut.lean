import Verif.Props.NavsatRun
import Verif.Props.PrepareCov
/-!
# Properties C53, C76, C77: what is in the messages
-/

namespace RL.Nav
open Matrix Real

/-- The covariance of a fix: position only. -/
def fixCov (m : FixMsg) : M6 :=
  .of fun i j => if h : i.val < 3 ∧ j.val < 3 then msgCov3 m.cov ⟨i.val, h.1⟩ ⟨j.val, h.2⟩ else 0

/-- The node remembers this fix, with these coordinates. -/
structure HasFix (m : FixMsg) (v : V3) (s : St) : Prop where
  cart : s.lastCart = v
  time : s.gpsTime = m.stamp
  cov : s.gpsUpdated = true → s.lastCartCov = fixCov m

/-- The node remembers this odometry message. -/
structure HasOdom (m : OdoMsg) (s : St) : Prop where
  pose : s.lastOdom = m.pose
  world : s.world = m.frame
  base : s.base = m.child
  time : s.odomTime = m.stamp
  cov : s.odomUpdated = true → s.lastOdomCov = msgCov m.cov

theorem timer_keeps (g : Geo) (buf : TfBuffer) (p : Par) (bc ap : Bool) (s s' : St) (h : (s.timer g buf p bc ap).st = some s') :
    s'.lastCart = s.lastCart ∧ s'.gpsTime = s.gpsTime ∧ (s'.gpsUpdated = true → s.gpsUpdated = true ∧ s'.lastCartCov = s.lastCartCov) ∧
    s'.lastOdom = s.lastOdom ∧ s'.world = s.world ∧ s'.base = s.base ∧ s'.odomTime = s.odomTime ∧
    (s'.odomUpdated = true → s.odomUpdated = true ∧ s'.lastOdomCov = s.lastOdomCov) := by
  unfold St.timer at h
  by_cases hg : s.good = true
  · rw [if_pos hg] at h
    have key1 : ∀ q, q = s.prepareGpsOdometry buf p → q.1 = s ∨ ∃ c, q.1 = { s with lastCartCov := c, gpsUpdated := false } := by
      rintro q rfl
      unfold St.prepareGpsOdometry
      split
      · exact Or.inr ⟨_, rfl⟩
      · exact Or.inl rfl
    have h1 := key1 _ rfl
    generalize s.prepareGpsOdometry buf p = q at h h1
    obtain ⟨s1, o1⟩ := q
    simp only at h h1
    have h2 : s' = s1 ∨ ∃ c, s' = { s1 with lastOdomCov := c, odomUpdated := false } := by
      split at h
      · unfold St.prepareFilteredGps at h
        split at h
        · rename_i r hr
          split at hr
          · rw [Option.map_eq_some_iff] at hr
            obtain ⟨ll, -, rfl⟩ := hr
            simp only [Option.some.injEq] at h
            exact Or.inr ⟨_, h.symm⟩
          · simp only [Option.some.injEq] at hr h
            rw [← hr] at h
            exact Or.inl h.symm
        · cases h
      · simp only [Option.some.injEq] at h
        exact Or.inl h.symm
    rcases h2 with rfl | ⟨c2, rfl⟩ <;> rcases h1 with rfl | ⟨c1, rfl⟩ <;> simp
  · rw [if_neg hg] at h
    simp only [Option.some.injEq] at h
    have hs := setManualDatum_same g buf p s
    have hc : (s.computeTransform g buf p).lastCart = s.lastCart ∧ (s.computeTransform g buf p).gpsTime = s.gpsTime ∧
        (s.computeTransform g buf p).gpsUpdated = s.gpsUpdated ∧ (s.computeTransform g buf p).lastCartCov = s.lastCartCov ∧
        (s.computeTransform g buf p).lastOdom = s.lastOdom ∧ (s.computeTransform g buf p).world = s.world ∧
        (s.computeTransform g buf p).base = s.base ∧ (s.computeTransform g buf p).odomTime = s.odomTime ∧
        (s.computeTransform g buf p).odomUpdated = s.odomUpdated ∧ (s.computeTransform g buf p).lastOdomCov = s.lastOdomCov := by
      obtain ⟨s1, hs1, ⟨-, e⟩ | ⟨-, -, -, -, e⟩⟩ := computeTransform_cases g buf p s <;> rw [e, hs1] <;> split
      · exact ⟨hs.lastCart, hs.gpsTime, hs.gpsUpdated, hs.lastCartCov, hs.lastOdom, hs.world, hs.base, hs.odomTime, hs.odomUpdated, hs.lastOdomCov⟩
      · exact ⟨rfl, rfl, rfl, rfl, rfl, rfl, rfl, rfl, rfl, rfl⟩
      · exact ⟨hs.lastCart, hs.gpsTime, hs.gpsUpdated, hs.lastCartCov, hs.lastOdom, hs.world, hs.base, hs.odomTime, hs.odomUpdated, hs.lastOdomCov⟩
      · exact ⟨rfl, rfl, rfl, rfl, rfl, rfl, rfl, rfl, rfl, rfl⟩
    generalize s.computeTransform g buf p = c at h hc
    obtain ⟨c1, c2, c3, c4, c5, c6, c7, c8, c9, c10⟩ := hc
    rw [← h]
    split
    · exact ⟨c1, c2, fun hu => ⟨c3 ▸ hu, c4⟩, c5, c6, c7, c8, fun hu => ⟨c9 ▸ hu, c10⟩⟩
    · exact ⟨c1, c2, fun hu => ⟨c3 ▸ hu, c4⟩, c5, c6, c7, c8, fun hu => ⟨c9 ▸ hu, c10⟩⟩

theorem step_hasFix (g : Geo) (p : Par) (bc ap : Bool) (m : FixMsg) (v : V3) (s : St) (e : Ev) (s' : St)
    (he : ∀ m', e = .fix m' → ¬Usable m') (h : (step g p bc ap s e).st = some s') (hk : HasFix m v s) : HasFix m v s' := by
  cases e with
  | fix m' =>
    simp only [step, St.fix] at h
    split at h
    · rename_i lat lon alt hf hp
      exact absurd ⟨hf, by rw [hp]; rfl⟩ (he m' rfl)
    · simp only [Option.some.injEq] at h
      rw [← h]
      exact ⟨hk.cart, hk.time, hk.cov⟩
  | imu buf m' =>
    simp only [step, Option.some.injEq] at h
    have hs := imu_same buf s m'
    rw [← h]
    split
    · exact ⟨hs.lastCart.trans hk.cart, hs.gpsTime.trans hk.time, fun hu => hs.lastCartCov.trans (hk.cov (hs.gpsUpdated.symm.trans hu))⟩
    · exact hk
  | odom buf m' =>
    simp only [step, St.odom, Option.some.injEq] at h
    have hs := (setTransformOdometry_same buf p { s with world := m'.frame, base := m'.child } m').1
    rw [← h]
    by_cases hg : s.good = true
    · rw [if_pos hg]
      exact ⟨hk.cart, hk.time, hk.cov⟩
    · rw [if_neg hg]
      exact ⟨hs.lastCart.trans hk.cart, hs.gpsTime.trans hk.time, fun hu => hs.lastCartCov.trans (hk.cov (hs.gpsUpdated.symm.trans hu))⟩
  | timer buf =>
    obtain ⟨h1, h2, h3, -⟩ := timer_keeps g buf p bc ap s s' h
    exact ⟨h1.trans hk.cart, h2.trans hk.time, fun hu => (h3 hu).2.trans (hk.cov (h3 hu).1)⟩
  | datum d =>
    simp only [step, Option.some.injEq] at h
    rw [← h]
    exact ⟨hk.cart, hk.time, hk.cov⟩
  | toLL v =>
    simp only [step, Option.map_eq_some_iff] at h
    obtain ⟨-, -, rfl⟩ := h
    exact hk
  | fromLL lat lon alt =>
    simp only [step, Option.map_eq_some_iff] at h
    obtain ⟨-, -, rfl⟩ := h
    exact hk
  | setZone z =>
    cases z with
    | none => cases h
    | some z =>
      simp only [step, Option.some.injEq] at h
      rw [← h]
      exact ⟨hk.cart, hk.time, hk.cov⟩

theorem step_hasOdom (g : Geo) (p : Par) (bc ap : Bool) (m : OdoMsg) (s : St) (e : Ev) (s' : St)
    (he : ∀ b m', e ≠ .odom b m') (h : (step g p bc ap s e).st = some s') (hk : HasOdom m s) : HasOdom m s' := by
  cases e with
  | fix m' =>
    simp only [step, St.fix] at h
    split at h
    · rename_i lat lon alt hf hp
      simp only [Option.map_eq_some_iff] at h
      obtain ⟨u, -, rfl⟩ := h
      have hs := setTransformGps_same g p { s with gpsFrame := m'.frame } lat lon alt
      split
      · exact ⟨hs.lastOdom.trans hk.pose, hs.world.trans hk.world, hs.base.trans hk.base, hs.odomTime.trans hk.time,
          fun hu => hs.lastOdomCov.trans (hk.cov (hs.odomUpdated.symm.trans hu))⟩
      · exact ⟨hk.pose, hk.world, hk.base, hk.time, hk.cov⟩
    · simp only [Option.some.injEq] at h
      rw [← h]
      exact ⟨hk.pose, hk.world, hk.base, hk.time, hk.cov⟩
  | imu buf m' =>
    simp only [step, Option.some.injEq] at h
    have hs := imu_same buf s m'
    rw [← h]
    split
    · exact ⟨hs.lastOdom.trans hk.pose, hs.world.trans hk.world, hs.base.trans hk.base, hs.odomTime.trans hk.time,
          fun hu => hs.lastOdomCov.trans (hk.cov (hs.odomUpdated.symm.trans hu))⟩
    · exact hk
  | odom buf m' => exact absurd rfl (he buf m')
  | timer buf =>
    obtain ⟨-, -, -, h1, h2, h3, h4, h5⟩ := timer_keeps g buf p bc ap s s' h
    exact ⟨h1.trans hk.pose, h2.trans hk.world, h3.trans hk.base, h4.trans hk.time, fun hu => (h5 hu).2.trans (hk.cov (h5 hu).1)⟩
  | datum d =>
    simp only [step, Option.some.injEq] at h
    rw [← h]
    exact ⟨hk.pose, hk.world, hk.base, hk.time, hk.cov⟩
  | toLL v =>
    simp only [step, Option.map_eq_some_iff] at h
    obtain ⟨-, -, rfl⟩ := h
    exact hk
  | fromLL lat lon alt =>
    simp only [step, Option.map_eq_some_iff] at h
    obtain ⟨-, -, rfl⟩ := h
    exact hk
  | setZone z =>
    cases z with
    | none => cases h
    | some z =>
      simp only [step, Option.some.injEq] at h
      rw [← h]
      exact ⟨hk.pose, hk.world, hk.base, hk.time, hk.cov⟩

theorem fixCov_eq (m : FixMsg) :
    (.of fun i j => if h : i.val < 3 ∧ j.val < 3 then m.cov ⟨3 * i.val + j.val, by omega⟩ else 0 : M6) = fixCov m := by
  ext i j
  simp only [fixCov, of_apply, msgCov3]
  split
  · congr 1
    apply Fin.ext
    simp [finProdFinEquiv]
    omega
  · rfl

/-- After the last usable fix. -/
theorem run_hasFix (g : Geo) (p : Par) (bc ap : Bool) {s0 : St} (es1 es2 : List Ev) (m : FixMsg) (lat lon alt : ℝ) (hm : m.fix = true)
    (hp : m.pos = some (lat, lon, alt)) (he2 : ∀ e ∈ es2, ∀ m', e = .fix m' → ¬Usable m') {s : St}
    (hr : (run g p bc ap s0 (es1 ++ .fix m :: es2)).st = some s) :
    ∃ u, g.forward lat lon (-1) = some u ∧ HasFix m ![u.x, u.y, alt] s := by
  obtain ⟨s1, h1, h2⟩ := run_append g p bc ap s0 es1 _ s hr
  simp only [run] at h2
  cases hs : (step g p bc ap s1 (.fix m)).st with
  | none => rw [hs] at h2; cases h2
  | some s2 =>
    rw [hs] at h2
    simp only [step, St.fix, hm, hp, Option.map_eq_some_iff] at hs
    obtain ⟨u, hu, hs⟩ := hs
    refine ⟨u, hu, ?_⟩
    refine run_ind_ev g p bc ap (fun e => ∀ m', e = .fix m' → ¬Usable m') (HasFix m ![u.x, u.y, alt])
      (fun a e b he hab ha => step_hasFix g p bc ap m _ a e b he hab ha) s2 es2 he2 s h2 ?_
    rw [← hs]
    exact ⟨rfl, rfl, fun _ => fixCov_eq m⟩

/-- After the last odometry message. -/
theorem run_hasOdom (g : Geo) (p : Par) (bc ap : Bool) {s0 : St} (es1 es2 : List Ev) (b : TfBuffer) (m : OdoMsg)
    (he2 : ∀ e ∈ es2, ∀ b m', e ≠ .odom b m') {s : St} (hr : (run g p bc ap s0 (es1 ++ .odom b m :: es2)).st = some s) :
    HasOdom m s := by
  obtain ⟨s1, h1, h2⟩ := run_append g p bc ap s0 es1 _ s hr
  simp only [run, step] at h2
  refine run_ind_ev g p bc ap (fun e => ∀ b m', e ≠ .odom b m') (HasOdom m)
      (fun a e b he hab ha => step_hasOdom g p bc ap m a e b he hab ha) _ es2 he2 s h2 ?_
  have hs := (setTransformOdometry_same b p { s1 with world := m.frame, base := m.child } m).1
  unfold St.odom
  simp only
  by_cases hg : s1.good = true
  · rw [if_pos hg]
    exact ⟨rfl, rfl, rfl, rfl, fun _ => copyCov6_eq _⟩
  · rw [if_neg hg]
    exact ⟨rfl, hs.world, hs.base, rfl, fun _ => copyCov6_eq _⟩

/-- What is in the messages the timer sends. -/
theorem timer_gpsOdom (g : Geo) (buf : TfBuffer) (p : Par) (bc ap : Bool) (s : St) (pos : V3) (cov : M6) (t : Int) (f : String)
    (h : .gpsOdom pos cov t f ∈ (s.timer g buf p bc ap).outs) :
    s.good = true ∧ s.gpsUpdated = true ∧ t = s.gpsTime ∧ f = s.world ∧
      pos = ![s.robotOriginWorld buf (s.cartesianToMap p s.lastCart) (poseLookupTime s.gpsTime) 0,
              s.robotOriginWorld buf (s.cartesianToMap p s.lastCart) (poseLookupTime s.gpsTime) 1,
              if p.zeroAlt then 0 else s.robotOriginWorld buf (s.cartesianToMap p s.lastCart) (poseLookupTime s.gpsTime) 2] ∧
      cov = rot6d (quatOf s.cw.rot).mat * s.lastCartCov * (rot6d (quatOf s.cw.rot).mat)ᵀ := by
  have key : .gpsOdom pos cov t f ∈ (s.prepareGpsOdometry buf p).2 ∧ s.good = true := by
    unfold St.timer at h
    by_cases hg : s.good = true
    · rw [if_pos hg] at h
      refine ⟨?_, hg⟩
      generalize s.prepareGpsOdometry buf p = q at h
      obtain ⟨s1, o1⟩ := q
      simp only at h ⊢
      split at h
      · unfold St.prepareFilteredGps at h
        split at h
        · rename_i r hr
          simp only [List.mem_append] at h
          refine h.resolve_right fun h => ?_
          split at hr
          · rw [Option.map_eq_some_iff] at hr
            obtain ⟨ll, -, rfl⟩ := hr
            simp at h
          · simp only [Option.some.injEq] at hr
            rw [← hr] at h
            simp at h
        · exact h
      · exact h
    · rw [if_neg hg] at h
      generalize s.computeTransform g buf p = c at h
      simp only at h
      split at h <;> split at h <;> simp at h
  obtain ⟨h1, hg⟩ := key
  unfold St.prepareGpsOdometry at h1
  split at h1
  · rename_i hc
    simp only [Bool.and_eq_true] at hc
    simp only [List.mem_singleton] at h1
    injection h1 with e1 e2 e3 e4
    exact ⟨hg, hc.1.2, e3, e4, e1, e2⟩
  · simp at h1

theorem timer_filtered (g : Geo) (buf : TfBuffer) (p : Par) (bc ap : Bool) (s : St) (lat lon alt : ℝ) (cov : M3) (t : Int) (f : String)
    (h : .filtered lat lon alt cov t f ∈ (s.timer g buf p bc ap).outs) :
    s.good = true ∧ s.odomUpdated = true ∧ t = s.odomTime ∧ f = s.base ∧ s.mapToLL g s.lastOdom.org = some (lat, lon, alt) ∧
      cov = .of fun i j => (rot6d (quatOf s.cwInv.rot).mat * s.lastOdomCov * (rot6d (quatOf s.cwInv.rot).mat)ᵀ) (Fin.castLE (by omega) i)
        (Fin.castLE (by omega) j) := by
  unfold St.timer at h
  by_cases hg : s.good = true
  · rw [if_pos hg] at h
    obtain ⟨c1, hc⟩ := prepareGpsOdometry_st buf p s
    have ho : ∀ o ∈ (s.prepareGpsOdometry buf p).2, o ≠ .filtered lat lon alt cov t f := by
      intro o ho
      unfold St.prepareGpsOdometry at ho
      split at ho
      · simp only [List.mem_singleton] at ho
        rw [ho]
        simp
      · simp at ho
    generalize s.prepareGpsOdometry buf p = q at h hc ho
    obtain ⟨s1, o1⟩ := q
    simp only at h hc ho
    split at h
    · have e1 : s1.prepareFilteredGps g = (if s.odomUpdated then
          (s.mapToLL g s.lastOdom.org).map fun ll =>
            (({ s1 with lastOdomCov := rot6d (quatOf s.cwInv.rot).mat * s.lastOdomCov * (rot6d (quatOf s.cwInv.rot).mat)ᵀ, odomUpdated := false } : St),
              [Out.filtered ll.1 ll.2.1 ll.2.2 (.of fun i j => (rot6d (quatOf s.cwInv.rot).mat * s.lastOdomCov *
                (rot6d (quatOf s.cwInv.rot).mat)ᵀ) (Fin.castLE (by omega) i) (Fin.castLE (by omega) j)) s.odomTime s.base])
          else some (s1, [])) := by
        generalize s1.gpsUpdated = gu at hc
        subst hc
        unfold St.prepareFilteredGps
        simp only [hg, Bool.true_and]
        rfl
      rw [e1] at h
      by_cases hu : s.odomUpdated = true
      · rw [if_pos hu] at h
        cases hm : s.mapToLL g s.lastOdom.org with
        | none =>
          rw [hm] at h
          exact absurd rfl (ho _ h)
        | some ll =>
          rw [hm] at h
          simp only [Option.map_some, List.mem_append, List.mem_singleton] at h
          rcases h with h | h
          · exact absurd rfl (ho _ h)
          · injection h with a1 a2 a3 a4 a5 a6
            exact ⟨hg, hu, a5, a6, by rw [a1, a2, a3], a4⟩
      · rw [if_neg hu] at h
        simp only [List.append_nil] at h
        exact absurd rfl (ho _ h)
    · exact absurd rfl (ho _ h)
  · rw [if_neg hg] at h
    generalize s.computeTransform g buf p = c at h
    simp only at h
    split at h <;> split at h <;> simp at h

/-- **C53**, with both transforms: the published position plus the offset of the antenna, turned by the attitude of the robot,
is the position of the last usable fix in the map. -/
theorem C53_antenna_partial (g : Geo) (p : Par) (bc ap : Bool) {s0 : St} (es1 es2 : List Ev) (m : FixMsg) (lat lon alt : ℝ) (hm : m.fix = true)
    (hp : m.pos = some (lat, lon, alt)) (he2 : ∀ e ∈ es2, ∀ m', e = .fix m' → ¬Usable m') {s : St}
    (hr : (run g p bc ap s0 (es1 ++ .fix m :: es2)).st = some s) (buf : TfBuffer) {off rob : Tf} (hrot : IsRot rob.rot)
    (hoff : lookupTransformSafe buf s.base s.gpsFrame (poseLookupTime s.gpsTime) = some off)
    (hrob : lookupTransformSafe buf s.world s.base (poseLookupTime s.gpsTime) = some rob)
    (pos : V3) (cov : M6) (t : Int) (f : String) (h : .gpsOdom pos cov t f ∈ (step g p bc ap s (.timer buf)).outs) :
    t = m.stamp ∧ f = s.world ∧ ∃ u, g.forward lat lon (-1) = some u ∧
      (pos + rob.rot.mulVec off.org) 0 = s.cw.apply ![u.x, u.y, alt] 0 ∧ (pos + rob.rot.mulVec off.org) 1 = s.cw.apply ![u.x, u.y, alt] 1 ∧
      (p.zeroAlt = false → (pos + rob.rot.mulVec off.org) 2 = s.cw.apply ![u.x, u.y, alt] 2) ∧ (p.zeroAlt = true → pos 2 = 0) := by
  obtain ⟨u, hu, hf⟩ := run_hasFix g p bc ap es1 es2 m lat lon alt hm hp he2 hr
  obtain ⟨-, -, ht, hw, hpos, -⟩ := timer_gpsOdom g buf p bc ap s pos cov t f h
  refine ⟨ht.trans hf.time, hw, u, hu, ?_⟩
  have e : ∀ i, s.robotOriginWorld buf (s.cartesianToMap p s.lastCart) (poseLookupTime s.gpsTime) i =
      s.cartesianToMap p s.lastCart i - rob.rot.mulVec off.org i := by
    intro i
    unfold St.robotOriginWorld
    rw [hoff]
    simp only [hrob, (C43_matrix_to_quaternion hrot).2]
    simp [Tf.apply, Tf.inv, sub_eq_add_neg]
  rw [hpos, e, e, e, ← hf.cart]
  unfold St.cartesianToMap
  generalize rob.rot.mulVec off.org = d
  generalize s.cw.apply s.lastCart = c
  refine ⟨?_, ?_, fun hz => ?_, fun hz => ?_⟩
  · simp
  · simp
  · simp [hz]
  · simp [hz]

/-- **C53**, refuted: when one of the transforms is missing the origin of the map is published, whatever the fix. -/
theorem C53_missing_transform (g : Geo) (p : Par) (bc ap : Bool) (s : St) (buf : TfBuffer)
    (hn : lookupTransformSafe buf s.base s.gpsFrame (poseLookupTime s.gpsTime) = none ∨
      lookupTransformSafe buf s.world s.base (poseLookupTime s.gpsTime) = none)
    (pos : V3) (cov : M6) (t : Int) (f : String) (h : .gpsOdom pos cov t f ∈ (step g p bc ap s (.timer buf)).outs) : pos = 0 := by
  obtain ⟨-, -, -, -, hpos, -⟩ := timer_gpsOdom g buf p bc ap s pos cov t f h
  have e : s.robotOriginWorld buf (s.cartesianToMap p s.lastCart) (poseLookupTime s.gpsTime) = 0 := by
    unfold St.robotOriginWorld
    rcases hn with hn | hn
    · rw [hn]
    · rw [hn]
      cases lookupTransformSafe buf s.base s.gpsFrame (poseLookupTime s.gpsTime) <;> rfl
  rw [hpos, e]
  ext i
  fin_cases i <;> simp

/-! ## C76 -/

/-- The turn of position and attitude together leaves the block of positions alone apart from turning it. -/
theorem rot6d_block (r : M3) (c : M6) (i j : Fin 3) :
    (rot6d r * c * (rot6d r)ᵀ) (Fin.castLE (by omega) i) (Fin.castLE (by omega) j) =
      (r * (.of fun a b => c (Fin.castLE (by omega) a) (Fin.castLE (by omega) b)) * rᵀ) i j := by
  simp only [Matrix.mul_apply, transpose_apply, Fin.sum_univ_six, Fin.sum_univ_three]
  fin_cases i <;> fin_cases j <;> simp [rot6d] <;> rfl

def posPart : Matrix (Fin 6) (Fin 3) ℝ := .of fun i k => if i.val = k.val then 1 else 0

theorem fixCov_psd (m : FixMsg) (h : (msgCov3 m.cov).PosSemidef) : (fixCov m).PosSemidef := by
  have e : fixCov m = posPart * msgCov3 m.cov * posPartᵀ := by
    ext i j
    simp only [fixCov, posPart, of_apply, Matrix.mul_apply, transpose_apply, Fin.sum_univ_three]
    fin_cases i <;> fin_cases j <;> simp
  rw [e]
  exact psd_conj h _

/-- **C76**, odometry/gps: the covariance of the positions is that of the fix turned into the map, the rest is zero, and it stays
symmetric and positive semidefinite. -/
theorem C76_gps_odometry (g : Geo) (p : Par) (bc ap w : Bool) {s0 : St} (hi : s0.Initial p w) (es1 es2 : List Ev) (m : FixMsg) (hm : Usable m)
    (he2 : ∀ e ∈ es2, ∀ m', e = .fix m' → ¬Usable m') {s : St}
    (hr : (run g p bc ap s0 (es1 ++ .fix m :: es2)).st = some s) (buf : TfBuffer)
    (pos : V3) (cov : M6) (t : Int) (f : String) (h : .gpsOdom pos cov t f ∈ (step g p bc ap s (.timer buf)).outs) :
    (∀ i j : Fin 3, cov (Fin.castLE (by omega) i) (Fin.castLE (by omega) j) = (s.cw.rot * msgCov3 m.cov * s.cw.rotᵀ) i j) ∧
    (∀ i j : Fin 6, 3 ≤ i.val ∨ 3 ≤ j.val → cov i j = 0) ∧ ((msgCov3 m.cov).PosSemidef → cov.PosSemidef) := by
  obtain ⟨hfix, hsome⟩ := hm
  obtain ⟨⟨lat, lon, alt⟩, hp⟩ := Option.isSome_iff_exists.1 hsome
  obtain ⟨u, hu, hf⟩ := run_hasFix g p bc ap es1 es2 m lat lon alt hfix hp he2 hr
  obtain ⟨hg, hup, -, -, -, hc⟩ := timer_gpsOdom g buf p bc ap s pos cov t f h
  have hrot : IsRot s.cw.rot := (run_known g p bc ap hi _ s hr).rot hg
  rw [(C43_matrix_to_quaternion hrot).2, hf.cov hup] at hc
  refine ⟨fun i j => ?_, fun i j hij => ?_, fun hpsd => ?_⟩
  · rw [hc, rot6d_block]
    congr 3
  · rw [hc]
    simp only [Matrix.mul_apply, transpose_apply, Fin.sum_univ_six]
    fin_cases i <;> fin_cases j <;> first | (exfalso; revert hij; decide) | simp [rot6d, fixCov]
  · rw [hc]
    exact psd_conj (fixCov_psd m hpsd) _

/-- **C76**, gps/filtered: the covariance is that of the positions of the last odometry message turned into the projection. -/
theorem C76_filtered (g : Geo) (p : Par) (bc ap w : Bool) {s0 : St} (hi : s0.Initial p w) (es1 es2 : List Ev) (b : TfBuffer) (m : OdoMsg)
    (he2 : ∀ e ∈ es2, ∀ b m', e ≠ .odom b m') {s : St} (hr : (run g p bc ap s0 (es1 ++ .odom b m :: es2)).st = some s) (buf : TfBuffer)
    (lat lon alt : ℝ) (cov : M3) (t : Int) (f : String) (h : .filtered lat lon alt cov t f ∈ (step g p bc ap s (.timer buf)).outs) :
    cov = s.cw.rotᵀ * (.of fun i j => msgCov m.cov (Fin.castLE (by omega) i) (Fin.castLE (by omega) j)) * s.cw.rot ∧
    ((msgCov m.cov).PosSemidef → cov.PosSemidef) := by
  have ho := run_hasOdom g p bc ap es1 es2 b m he2 hr
  obtain ⟨hg, hup, -, -, -, hc⟩ := timer_filtered g buf p bc ap s lat lon alt cov t f h
  have hk := run_known g p bc ap hi _ s hr
  have hrot : IsRot s.cw.rot := hk.rot hg
  have hinv : s.cwInv.rot = s.cw.rotᵀ := by rw [(hk hg).2]; rfl
  rw [hinv, (C43_matrix_to_quaternion hrot.transpose).2, ho.cov hup] at hc
  have e : cov = s.cw.rotᵀ * (.of fun i j => msgCov m.cov (Fin.castLE (by omega) i) (Fin.castLE (by omega) j)) * s.cw.rot := by
    rw [hc]
    ext i j
    rw [of_apply, rot6d_block, transpose_transpose]
  refine ⟨e, fun hpsd => ?_⟩
  rw [e]
  have h3 : (Matrix.of fun i j : Fin 3 => msgCov m.cov (Fin.castLE (by omega) i) (Fin.castLE (by omega) j)).PosSemidef := hpsd.submatrix _
  have := psd_conj h3 s.cw.rotᵀ
  rwa [transpose_transpose] at this

/-! ## C77 -/

/-- **C77**: with a UTM projection, the filtered fix is the place that fromLL turns into the position of the last odometry
message; its stamp and frame are those of that message. -/
theorem C77_filtered_partial {g : Geo} (hg : g.Lawful) {p : Par} (hu : p.useLocal = false) (bc ap w : Bool) {s0 : St} (hi : s0.Initial p w)
    (es1 es2 : List Ev) (b : TfBuffer) (m : OdoMsg) (he2 : ∀ e ∈ es2, ∀ b m', e ≠ .odom b m') {s : St}
    (hr : (run g p bc ap s0 (es1 ++ .odom b m :: es2)).st = some s) (buf : TfBuffer)
    (lat lon alt : ℝ) (cov : M3) (t : Int) (f : String) (h : .filtered lat lon alt cov t f ∈ (step g p bc ap s (.timer buf)).outs)
    (hn : s.north = decide (0 ≤ lat)) :
    t = m.stamp ∧ f = m.child ∧
      s.fromLL g p lat lon alt = some (.map (some ![m.pos 0, m.pos 1, if p.zeroAlt then 0 else m.pos 2])) := by
  have ho := run_hasOdom g p bc ap es1 es2 b m he2 hr
  obtain ⟨hgood, hup, ht, hf, hll, -⟩ := timer_filtered g buf p bc ap s lat lon alt cov t f h
  refine ⟨ht.trans ho.time, hf.trans ho.base, ?_⟩
  have := C50_to_from_partial hg hu bc ap w hi _ hr (lat := lat) (lon := lon) (alt := alt) (v := s.lastOdom.org)
    (by unfold St.toLL; rw [if_pos hgood, hll]; rfl) hn
  rw [this, ho.pose]
  rfl

/-! ## Examples -/

theorem demo_gpsOdom (g : Geo) (p : Par) (bc ap : Bool) (buf : TfBuffer) {s : St} (hg : s.good = true) (h1 : s.gpsUpdated = true)
    (h2 : s.odomUpdated = true) : ∃ pos cov, .gpsOdom pos cov s.gpsTime s.world ∈ (step g p bc ap s (.timer buf)).outs := by
  simp only [step, St.timer, hg, if_true, St.prepareGpsOdometry, h1, h2, Bool.and_self]
  split
  · split
    · exact ⟨_, _, List.mem_append_left _ (List.mem_singleton_self _)⟩
    · exact ⟨_, _, List.mem_singleton_self _⟩
  · exact ⟨_, _, List.mem_singleton_self _⟩

/-- C53, C76: a fix that is published, with and without transforms. -/
example : ∃ (s : St) (es1 : List Ev) (m : FixMsg), (run plain (demoPar false true false) false false demoInit (es1 ++ .fix m :: [.timer demoBuf])).st = some s ∧
    Usable m ∧ (∀ e ∈ ([.timer demoBuf] : List Ev), ∀ m', e = .fix m' → ¬Usable m') ∧
    lookupTransformSafe demoBuf s.base s.gpsFrame (poseLookupTime s.gpsTime) = some Tf.id ∧
    (∃ pos cov, .gpsOdom pos cov 3 "map" ∈ (step plain (demoPar false true false) false false s (.timer demoBuf)).outs) ∧
    lookupTransformSafe (fun _ _ _ => none) s.world s.base (poseLookupTime s.gpsTime) = none ∧
    (∃ pos cov, .gpsOdom pos cov 3 "map" ∈ (step plain (demoPar false true false) false false s (.timer fun _ _ _ => none)).outs) := by
  have hf := plain_forward 48 3 (by norm_num) (by norm_num) (by norm_num) (by norm_num)
  obtain ⟨s, hs, hg, ho, hu, ht, hw, hb, -⟩ := demo_run plain (demoPar false true false) rfl rfl rfl false false 48 3 100 _ hf rfl
  refine ⟨s, (demoEvents 48 3 100).take 2, demoFix 3 48 3 100, hs, ⟨rfl, rfl⟩, by simp, demo_lookup _ _ _, ?_, ?_, ?_⟩
  · have := demo_gpsOdom plain (demoPar false true false) false false demoBuf hg hu ho
    rwa [ht, hw] at this
  · rw [hw, hb]
    simp [lookupTransformSafe]
  · have := demo_gpsOdom plain (demoPar false true false) false false (fun _ _ _ => none) hg hu ho
    rwa [ht, hw] at this

/-- C76, C77: the filtered fix of the small run. -/
example : ∃ (s : St) (lat lon alt : ℝ) (cov : M3) (t : Int) (f : String),
    (run plain (demoPar false true false) false false demoInit (demoEvents 48 3 100)).st = some s ∧
    .filtered lat lon alt cov t f ∈ (step plain (demoPar false true false) false false s (.timer demoBuf)).outs ∧
    s.north = decide (0 ≤ lat) := by
  have hf := plain_forward 48 3 (by norm_num) (by norm_num) (by norm_num) (by norm_num)
  obtain ⟨s, hs, hg, ho, hu, ht, hw, hb, -, hcw, -, hlo, -, hc, -⟩ := demo_run plain (demoPar false true false) rfl rfl rfl false false 48 3 100 _ hf rfl
  obtain ⟨hc, hz, hn⟩ := hc rfl
  simp only at hc hz hn
  have hinv := (run_known _ _ _ _ (demoInit_initial false true false) _ _ hs hg).2
  have hll : s.mapToLL plain s.lastOdom.org = some (48, 3, 100) := by
    have e : s.cwInv.apply s.lastOdom.org = ![500000, 5280000, 100] := by
      rw [hinv, hcw, hlo, hc]
      ext i
      fin_cases i <;> simp [Tf.apply, Tf.inv] <;> norm_num
    unfold St.mapToLL Geo.reverse
    simp only [e, hz, hn]
    rw [if_pos (by simp [Legal, e, hz, hn]; norm_num)]
    simp [plain, falseOrigin]
    norm_num
  have hpre : ∃ s1 o1, s.prepareGpsOdometry demoBuf (demoPar false true false) = (s1, o1) ∧ ∃ c, s1 = { s with lastCartCov := c, gpsUpdated := false } := by
    simp only [St.prepareGpsOdometry, hg, hu, ho, Bool.and_self, if_true]
    exact ⟨_, _, rfl, _, rfl⟩
  obtain ⟨s1, o1, hpre, c, hs1⟩ := hpre
  have hll1 : s1.mapToLL plain s1.lastOdom.org = some (48, 3, 100) := by
    rw [hs1]
    exact hll
  have hg1 : s1.good = true := by rw [hs1]; exact hg
  have ho1 : s1.odomUpdated = true := by rw [hs1]; exact ho
  suffices h : ∃ cov t f, .filtered 48 3 100 cov t f ∈ (step plain (demoPar false true false) false false s (.timer demoBuf)).outs by
    obtain ⟨cov, t, f, h⟩ := h
    exact ⟨s, 48, 3, 100, cov, t, f, hs, h, by rw [hn]; norm_num⟩
  have hpub : (demoPar false true false).publishGps = true := rfl
  simp only [step, St.timer, hg, if_true, hpre, hpub, St.prepareFilteredGps, hg1, ho1, Bool.and_self, hll1, Option.map_some]
  exact ⟨_, _, _, List.mem_append_right _ (List.mem_singleton_self _)⟩

end RL.Nav
