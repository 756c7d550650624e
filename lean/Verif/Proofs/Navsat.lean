import Verif.Model.Navsat
import Verif.Proofs.Listener
import Verif.Props.Pose
/-! # Helper lemmas about the satellite navigation node -/

namespace RL.Nav
open Matrix

/-- What `setTransformGps` leaves alone. -/
structure SameGps (a b : St) : Prop where
  base : a.base = b.base
  world : a.world = b.world
  gpsFrame : a.gpsFrame = b.gpsFrame
  manual : a.manual = b.manual
  datum : a.datum = b.datum
  good : a.good = b.good
  hasImu : a.hasImu = b.hasImu
  hasOdom : a.hasOdom = b.hasOdom
  gpsUpdated : a.gpsUpdated = b.gpsUpdated
  odomUpdated : a.odomUpdated = b.odomUpdated
  forceUtm : a.forceUtm = b.forceUtm
  orient : a.orient = b.orient
  start : a.start = b.start
  cw : a.cw = b.cw
  cwInv : a.cwInv = b.cwInv
  lastCart : a.lastCart = b.lastCart
  lastOdom : a.lastOdom = b.lastOdom
  gpsTime : a.gpsTime = b.gpsTime
  odomTime : a.odomTime = b.odomTime
  lastCartCov : a.lastCartCov = b.lastCartCov
  lastOdomCov : a.lastOdomCov = b.lastOdomCov
  imuSub : a.imuSub = b.imuSub

theorem setTransformGps_same (g : Geo) (p : Par) (s : St) (lat lon alt : ℝ) : SameGps (s.setTransformGps g p lat lon alt) s := by
  unfold St.setTransformGps
  split
  · constructor <;> rfl
  · split <;> constructor <;> rfl

/-- What `imuCallback` leaves alone. -/
structure SameImu (a b : St) : Prop where
  base : a.base = b.base
  world : a.world = b.world
  gpsFrame : a.gpsFrame = b.gpsFrame
  manual : a.manual = b.manual
  datum : a.datum = b.datum
  good : a.good = b.good
  hasGps : a.hasGps = b.hasGps
  hasOdom : a.hasOdom = b.hasOdom
  gpsUpdated : a.gpsUpdated = b.gpsUpdated
  odomUpdated : a.odomUpdated = b.odomUpdated
  forceUtm : a.forceUtm = b.forceUtm
  zone : a.zone = b.zone
  north : a.north = b.north
  conv : a.conv = b.conv
  enu0 : a.enu0 = b.enu0
  cart : a.cart = b.cart
  start : a.start = b.start
  cw : a.cw = b.cw
  cwInv : a.cwInv = b.cwInv
  lastCart : a.lastCart = b.lastCart
  lastOdom : a.lastOdom = b.lastOdom
  gpsTime : a.gpsTime = b.gpsTime
  odomTime : a.odomTime = b.odomTime
  lastCartCov : a.lastCartCov = b.lastCartCov
  lastOdomCov : a.lastOdomCov = b.lastOdomCov
  imuSub : a.imuSub = b.imuSub

theorem imu_same (buf : TfBuffer) (s : St) (m : HeadingMsg) : SameImu (s.imu buf m) s := by
  unfold St.imu
  split
  · split <;> constructor <;> rfl
  · constructor <;> rfl

/-- What `setTransformOdometry` leaves alone. -/
structure SameOdo (a b : St) : Prop where
  base : a.base = b.base
  world : a.world = b.world
  gpsFrame : a.gpsFrame = b.gpsFrame
  manual : a.manual = b.manual
  datum : a.datum = b.datum
  good : a.good = b.good
  hasGps : a.hasGps = b.hasGps
  gpsUpdated : a.gpsUpdated = b.gpsUpdated
  odomUpdated : a.odomUpdated = b.odomUpdated
  forceUtm : a.forceUtm = b.forceUtm
  zone : a.zone = b.zone
  north : a.north = b.north
  conv : a.conv = b.conv
  enu0 : a.enu0 = b.enu0
  cart : a.cart = b.cart
  cw : a.cw = b.cw
  cwInv : a.cwInv = b.cwInv
  lastCart : a.lastCart = b.lastCart
  lastOdom : a.lastOdom = b.lastOdom
  gpsTime : a.gpsTime = b.gpsTime
  odomTime : a.odomTime = b.odomTime
  lastCartCov : a.lastCartCov = b.lastCartCov
  lastOdomCov : a.lastOdomCov = b.lastOdomCov
  imuSub : a.imuSub = b.imuSub

theorem setTransformOdometry_same (buf : TfBuffer) (p : Par) (s : St) (m : OdoMsg) :
    SameOdo (s.setTransformOdometry buf p m) s ∧ (s.setTransformOdometry buf p m).hasOdom = true ∧
      (s.setTransformOdometry buf p m).start = m.pose := by
  unfold St.setTransformOdometry
  simp only
  split
  · obtain ⟨h⟩ := imu_same buf { s with start := m.pose, hasOdom := true } { frame := m.child, stamp := m.stamp, ori := m.ori }
    refine ⟨?_, ‹_›, ‹_›⟩
    constructor <;> assumption
  · exact ⟨by constructor <;> rfl, rfl, rfl⟩

/-- What `setManualDatum` leaves alone. -/
structure SameDatum (a b : St) : Prop where
  base : a.base = b.base
  world : a.world = b.world
  gpsFrame : a.gpsFrame = b.gpsFrame
  manual : a.manual = b.manual
  datum : a.datum = b.datum
  good : a.good = b.good
  gpsUpdated : a.gpsUpdated = b.gpsUpdated
  odomUpdated : a.odomUpdated = b.odomUpdated
  cw : a.cw = b.cw
  cwInv : a.cwInv = b.cwInv
  lastCart : a.lastCart = b.lastCart
  lastOdom : a.lastOdom = b.lastOdom
  gpsTime : a.gpsTime = b.gpsTime
  odomTime : a.odomTime = b.odomTime
  lastCartCov : a.lastCartCov = b.lastCartCov
  lastOdomCov : a.lastOdomCov = b.lastOdomCov
  imuSub : a.imuSub = b.imuSub

theorem setManualDatum_same (g : Geo) (buf : TfBuffer) (p : Par) (s : St) : SameDatum (s.setManualDatum g buf p) s := by
  unfold St.setManualDatum
  simp only
  have h1 := setTransformGps_same g p s s.datum.lat s.datum.lon s.datum.alt
  generalize s.setTransformGps g p s.datum.lat s.datum.lon s.datum.alt = s1 at h1
  have h2 := (setTransformOdometry_same buf p s1
    { frame := s1.world, child := s1.base, stamp := 0, pos := 0, ori := ⟨0, 0, 0, 1⟩, cov := fun _ => 0 }).1
  generalize s1.setTransformOdometry buf p
    { frame := s1.world, child := s1.base, stamp := 0, pos := 0, ori := ⟨0, 0, 0, 1⟩, cov := fun _ => 0 } = s2 at h2
  have h3 := imu_same buf s2 { frame := s2.base, stamp := 0, ori := s2.datum.ori }
  constructor
  · exact h3.base.trans (h2.base.trans h1.base)
  · exact h3.world.trans (h2.world.trans h1.world)
  · exact h3.gpsFrame.trans (h2.gpsFrame.trans h1.gpsFrame)
  · exact h3.manual.trans (h2.manual.trans h1.manual)
  · exact h3.datum.trans (h2.datum.trans h1.datum)
  · exact h3.good.trans (h2.good.trans h1.good)
  · exact h3.gpsUpdated.trans (h2.gpsUpdated.trans h1.gpsUpdated)
  · exact h3.odomUpdated.trans (h2.odomUpdated.trans h1.odomUpdated)
  · exact h3.cw.trans (h2.cw.trans h1.cw)
  · exact h3.cwInv.trans (h2.cwInv.trans h1.cwInv)
  · exact h3.lastCart.trans (h2.lastCart.trans h1.lastCart)
  · exact h3.lastOdom.trans (h2.lastOdom.trans h1.lastOdom)
  · exact h3.gpsTime.trans (h2.gpsTime.trans h1.gpsTime)
  · exact h3.odomTime.trans (h2.odomTime.trans h1.odomTime)
  · exact h3.lastCartCov.trans (h2.lastCartCov.trans h1.lastCartCov)
  · exact h3.lastOdomCov.trans (h2.lastOdomCov.trans h1.lastOdomCov)
  · exact h3.imuSub.trans (h2.imuSub.trans h1.imuSub)

theorem getRPY_range (m : M3) (i : Fin 3) : -Real.pi < getRPY m i ∧ getRPY m i ≤ Real.pi := by
  have hp := Real.pi_pos
  have ha : ∀ y x, -Real.pi < atan2 y x ∧ atan2 y x ≤ Real.pi := fun y x => ⟨Complex.neg_pi_lt_arg _, Complex.arg_le_pi _⟩
  unfold getRPY
  split
  · simp only
    split
    · fin_cases i
      · exact ha _ _
      · constructor <;> simp <;> linarith
      · constructor <;> simp <;> linarith
    · fin_cases i
      · exact ha _ _
      · constructor <;> simp <;> linarith
      · constructor <;> simp <;> linarith
  · fin_cases i
    · exact ha _ _
    · have h1 := Real.neg_pi_div_two_le_arcsin (m 2 0)
      have h2 := Real.arcsin_le_pi_div_two (m 2 0)
      constructor <;> simp <;> linarith
    · exact ha _ _

theorem normalizeAngle_getRPY (m : M3) (i : Fin 3) : normalizeAngle (getRPY m i) = getRPY m i :=
  normalizeAngle_of_mem (getRPY_range m i).1 (getRPY_range m i).2

/-- The heading survives being written as angles and read again, even in the vertical. -/
theorem yaw_again (q : Quat) : quatToRPY (Quat.ofRPY (quatToRPY q 0) (quatToRPY q 1) (quatToRPY q 2)) 2 = quatToRPY q 2 := by
  unfold quatToRPY
  rw [mat_ofRPY]
  generalize q.mat = m
  by_cases h : 1 ≤ |m 2 0|
  · have e : ∀ r, getRPY (setRPY r (Real.pi / 2) 0) 2 = 0 ∧ getRPY (setRPY r (-(Real.pi / 2)) 0) 2 = 0 := by
      intro r
      constructor
      · unfold getRPY
        simp [setRPY]
      · unfold getRPY
        simp [setRPY]
        split <;> rfl
    unfold getRPY
    rw [if_pos h]
    simp only
    by_cases h2 : m 2 0 < 0
    · rw [if_pos h2]
      exact (e _).1
    · rw [if_neg h2]
      exact (e _).2
  · rw [not_le, abs_lt] at h
    have e1 : getRPY m 1 = -Real.arcsin (m 2 0) := by
      unfold getRPY
      rw [if_neg (not_le.2 (abs_lt.2 h))]
      rfl
    rw [getRPY_setRPY]
    · simp [normalizeAngle_getRPY]
    · rw [e1]
      have := Real.arcsin_lt_pi_div_two.2 h.2
      linarith
    · rw [e1]
      have := Real.neg_pi_div_two_lt_arcsin.2 h.1
      linarith

theorem mat_yaw (a : ℝ) : (Quat.ofRPY 0 0 a).mat = Body.rotZ a := by
  rw [mat_ofRPY]
  ext i j
  fin_cases i <;> fin_cases j <;> simp [setRPY, Body.rotZ]

theorem rotZ_sub (a b : ℝ) : Body.rotZ a * (Body.rotZ b)ᵀ = Body.rotZ (a - b) := by
  ext i j
  fin_cases i <;> fin_cases j <;> simp [Body.rotZ, Matrix.mul_apply, Fin.sum_univ_three, Real.cos_sub, Real.sin_sub] <;> ring

/-- A known transform is a turn about the vertical with a shift, and its inverse is its inverse. -/
def Known (s : St) : Prop := s.good = true → (∃ a, s.cw.rot = Body.rotZ a) ∧ s.cwInv = s.cw.inv

theorem Known.congr {a b : St} (h : Known b) (hg : a.good = true → b.good = true) (h1 : a.cw = b.cw) (h2 : a.cwInv = b.cwInv) :
    Known a := by
  intro hgood
  rw [h1, h2]
  exact h (hg hgood)

/-- `computeTransform` after the manual datum was set. -/
theorem computeTransform_cases (g : Geo) (buf : TfBuffer) (p : Par) (s : St) :
    ∃ s1, s1 = (if !s.good && s.hasOdom && s.manual then s.setManualDatum g buf p else s) ∧
      (((!s1.good && s1.hasOdom && s1.hasGps && s1.hasImu) = false ∧ s.computeTransform g buf p = s1) ∨
      ((!s1.good && s1.hasOdom && s1.hasGps && s1.hasImu) = true ∧
        (s.computeTransform g buf p).good = true ∧
        (s.computeTransform g buf p).cw = ({ rot := (Quat.ofRPY 0 0 (getRPY (quatOf s1.start.rot).mat 2)).mat, org := s1.start.org } : Tf).mul
          ({ rot := (Quat.ofRPY 0 0 (s1.heading p)).mat
             org := if s1.manual then s1.cart else s1.robotOriginCartesian buf p s1.cart } : Tf).inv ∧
        (s.computeTransform g buf p).cwInv = (s.computeTransform g buf p).cw.inv ∧
        s.computeTransform g buf p = { s1 with cw := (s.computeTransform g buf p).cw, cwInv := (s.computeTransform g buf p).cwInv, good := true })) := by
  refine ⟨_, rfl, ?_⟩
  unfold St.computeTransform
  simp only
  generalize (if !s.good && s.hasOdom && s.manual then s.setManualDatum g buf p else s) = s1
  by_cases h : (!s1.good && s1.hasOdom && s1.hasGps && s1.hasImu) = true
  · right
    rw [if_pos h]
    exact ⟨h, rfl, rfl, rfl, rfl⟩
  · left
    rw [if_neg h]
    exact ⟨by simpa using h, rfl⟩

theorem computeTransform_known (g : Geo) (buf : TfBuffer) (p : Par) (s : St) (h : Known s) : Known (s.computeTransform g buf p) := by
  obtain ⟨s1, hs1, ⟨-, h1⟩ | ⟨-, -, h2, h3, -⟩⟩ := computeTransform_cases g buf p s
  · rw [h1, hs1]
    split
    · have hs := setManualDatum_same g buf p s
      exact h.congr (fun hg => by rw [← hs.good]; exact hg) hs.cw hs.cwInv
    · exact h
  · intro _
    refine ⟨⟨getRPY (quatOf s1.start.rot).mat 2 - s1.heading p, ?_⟩, h3⟩
    rw [h2]
    show _ * (_)ᵀ = _
    rw [mat_yaw, mat_yaw, rotZ_sub]

theorem prepareGpsOdometry_st (buf : TfBuffer) (p : Par) (s : St) :
    ∃ cov, (s.prepareGpsOdometry buf p).1 = { s with lastCartCov := cov, gpsUpdated := (s.prepareGpsOdometry buf p).1.gpsUpdated } := by
  unfold St.prepareGpsOdometry
  split
  · exact ⟨_, rfl⟩
  · exact ⟨s.lastCartCov, rfl⟩

theorem prepareFilteredGps_st (g : Geo) (s : St) (r : St × List Out) (h : s.prepareFilteredGps g = some r) :
    ∃ cov, r.1 = { s with lastOdomCov := cov, odomUpdated := r.1.odomUpdated } := by
  unfold St.prepareFilteredGps at h
  split at h
  · cases hm : s.mapToLL g s.lastOdom.org with
    | none => rw [hm] at h; cases h
    | some ll =>
      rw [hm] at h
      simp only [Option.map_some, Option.some.injEq] at h
      rw [← h]
      exact ⟨_, rfl⟩
  · simp only [Option.some.injEq] at h
    rw [← h]
    exact ⟨s.lastOdomCov, rfl⟩

/-- What the timer does. -/
theorem timer_cases (g : Geo) (buf : TfBuffer) (p : Par) (bc ap : Bool) (s : St) (s' : St) (h : (s.timer g buf p bc ap).st = some s') :
    (s.good = true ∧ ∃ c1 c2 gu ou, s' = { s with lastCartCov := c1, lastOdomCov := c2, gpsUpdated := gu, odomUpdated := ou }) ∨
    (s.good = false ∧ ∃ i, s' = { s.computeTransform g buf p with imuSub := i }) := by
  unfold St.timer at h
  by_cases hg : s.good = true
  · left
    refine ⟨hg, ?_⟩
    rw [if_pos hg] at h
    obtain ⟨c1, h1⟩ := prepareGpsOdometry_st buf p s
    simp only at h
    generalize (s.prepareGpsOdometry buf p) = q at h h1
    obtain ⟨s1, o1⟩ := q
    simp only at h h1
    split at h
    · cases hf : s1.prepareFilteredGps g with
      | none => rw [hf] at h; cases h
      | some r =>
        rw [hf] at h
        simp only [Option.some.injEq] at h
        obtain ⟨c2, h2⟩ := prepareFilteredGps_st g s1 r hf
        refine ⟨c1, c2, s1.gpsUpdated, r.1.odomUpdated, ?_⟩
        rw [← h, h2]
        generalize s1.gpsUpdated = gu at h1
        subst h1
        rfl
    · simp only [Option.some.injEq] at h
      refine ⟨c1, s.lastOdomCov, s1.gpsUpdated, s.odomUpdated, ?_⟩
      rw [← h]
      generalize s1.gpsUpdated = gu at h1 ⊢
      exact h1
  · right
    refine ⟨by simpa using hg, ?_⟩
    rw [if_neg hg] at h
    simp only [Option.some.injEq] at h
    generalize s.computeTransform g buf p = s1 at h ⊢
    split at h
    · exact ⟨false, h.symm⟩
    · exact ⟨s1.imuSub, h.symm⟩

theorem step_known (g : Geo) (p : Par) (bc ap : Bool) (s : St) (e : Ev) (s' : St) (h : (step g p bc ap s e).st = some s')
    (hk : Known s) : Known s' := by
  cases e with
  | fix m =>
    simp only [step, St.fix] at h
    split at h
    · rename_i lat lon alt _ _
      simp only [Option.map_eq_some_iff] at h
      obtain ⟨u, -, rfl⟩ := h
      split
      · have hs := setTransformGps_same g p { s with gpsFrame := m.frame } lat lon alt
        exact hk.congr (fun hg => by rw [← hs.good] ; exact hg) hs.cw hs.cwInv
      · exact hk.congr (fun hg => hg) rfl rfl
    · simp only [Option.some.injEq] at h
      rw [← h]
      exact hk.congr (fun hg => hg) rfl rfl
  | imu buf m =>
    simp only [step, Option.some.injEq] at h
    rw [← h]
    split
    · have hs := imu_same buf s m
      exact hk.congr (fun hg => by rw [← hs.good]; exact hg) hs.cw hs.cwInv
    · exact hk
  | odom buf m =>
    simp only [step, St.odom, Option.some.injEq] at h
    rw [← h]
    by_cases hg : s.good = true
    · refine hk.congr (fun _ => hg) ?_ ?_
      · simp [hg]
      · simp [hg]
    · have hs := (setTransformOdometry_same buf p { s with world := m.frame, base := m.child } m).1
      rw [if_neg hg]
      exact hk.congr (fun h' => by rw [← hs.good]; exact h') hs.cw hs.cwInv
  | timer buf =>
    rcases timer_cases g buf p bc ap s s' h with ⟨hg, c1, c2, gu, ou, rfl⟩ | ⟨hg, i, rfl⟩
    · exact hk.congr (fun h => h) rfl rfl
    · exact (computeTransform_known g buf p s hk).congr (fun h => h) rfl rfl
  | datum d =>
    simp only [step, Option.some.injEq] at h
    rw [← h]
    intro hg
    cases hg
  | toLL v =>
    simp only [step, Option.map_eq_some_iff] at h
    obtain ⟨-, -, rfl⟩ := h
    exact hk
  | fromLL lat lon alt =>
    simp only [step, Option.map_eq_some_iff] at h
    obtain ⟨-, -, rfl⟩ := h
    exact hk
  | setZone z =>
    cases z with
    | none => simp [step] at h
    | some z =>
      simp only [step, Option.some.injEq] at h
      rw [← h]
      intro hg
      cases hg

theorem run_ind (g : Geo) (p : Par) (bc ap : Bool) (P : St → Prop)
    (hstep : ∀ s e s', (step g p bc ap s e).st = some s' → P s → P s') (s : St) (es : List Ev) (s' : St)
    (h : (run g p bc ap s es).st = some s') (h0 : P s) : P s' := by
  induction es generalizing s with
  | nil => simp only [run, Option.some.injEq] at h; rwa [← h]
  | cons e es ih =>
    simp only [run] at h
    cases hs : (step g p bc ap s e).st with
    | none => rw [hs] at h; cases h
    | some s1 =>
      rw [hs] at h
      exact ih s1 h (hstep s e s1 hs h0)

theorem initial_known {p : Par} {w : Bool} {s : St} (h : s.Initial p w) : Known s := fun hg => by rw [h.good] at hg; cases hg

theorem run_known (g : Geo) (p : Par) (bc ap : Bool) {w : Bool} {s : St} (hi : s.Initial p w) (es : List Ev) (s' : St)
    (h : (run g p bc ap s es).st = some s') : Known s' :=
  run_ind g p bc ap Known (step_known g p bc ap) s es s' h (initial_known hi)

end RL.Nav
