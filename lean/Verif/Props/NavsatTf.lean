import Verif.Props.NavsatOut
/-! # C98: the transform that is broadcast is the one the node uses -/

namespace RL.Nav
open Matrix

/-- A transform on the air with its parent and child frame.  It takes coordinates in the child frame to coordinates in the
parent frame. -/
def Out.sentTf : Out → Option (Tf × String × String)
  | .broadcast t parent child => some (t, parent, child)
  | _ => none

/-- The last transform among what was sent: the one a listener has. -/
def lastTf (os : List Out) : Option (Tf × String × String) := (os.filterMap Out.sentTf).getLast?

/-- A transform is on the air from the map to the projection or the other way round, for these two transforms. -/
def OnAir (p : Par) (ap : Bool) (world : String) (cw cwInv : Tf) (os : List Out) : Prop :=
  let flat : Tf → Tf := fun t => { t with org := ![t.org 0, t.org 1, if p.zeroAlt then 0 else t.org 2] }
  let frame := if p.useLocal then "local_enu" else "utm"
  lastTf os = some (if ap then (flat cwInv, frame, world) else (flat cw, world, frame))

theorem lastTf_append (a b : List Out) (h : ∀ o ∈ b, o.sentTf = none) : lastTf (a ++ b) = lastTf a := by
  unfold lastTf
  rw [List.filterMap_append, List.filterMap_eq_nil_iff.2 h, List.append_nil]

/-- All odometry messages are in the frame `f`. -/
def InFrame (f : String) : Ev → Prop
  | .odom _ m => m.frame = f
  | _ => True

structure TfInv (p : Par) (ap : Bool) (f : String) (os : List Out) (s : St) : Prop where
  world : s.hasOdom = true → s.world = f
  needs : s.good = true → s.hasOdom = true
  air : s.good = true → OnAir p ap f s.cw s.cwInv os

theorem TfInv.congr {p : Par} {ap : Bool} {f : String} {os os' : List Out} {a b : St} (h : TfInv p ap f os b)
    (ho : ∀ o ∈ os', o.sentTf = none) (h1 : a.good = true → b.good = true) (h2 : a.cw = b.cw) (h3 : a.cwInv = b.cwInv)
    (h4 : a.hasOdom = b.hasOdom) (h5 : a.world = b.world) : TfInv p ap f (os ++ os') a where
  world hg := by rw [h5]; exact h.world (h4 ▸ hg)
  needs hg := by rw [h4]; exact h.needs (h1 hg)
  air hg := by
    unfold OnAir
    rw [lastTf_append _ _ ho, h2, h3]
    exact h.air (h1 hg)

theorem setTransformOdometry_hasOdom (buf : TfBuffer) (p : Par) (s : St) (m : OdoMsg) :
    (s.setTransformOdometry buf p m).hasOdom = true := by
  unfold St.setTransformOdometry
  dsimp only
  split
  · exact (imu_same buf _ _).hasOdom
  · rfl

theorem setManualDatum_hasOdom (g : Geo) (buf : TfBuffer) (p : Par) (s : St) : (s.setManualDatum g buf p).hasOdom = true := by
  unfold St.setManualDatum
  dsimp only
  rw [(imu_same buf _ _).hasOdom]
  exact setTransformOdometry_hasOdom buf p _ _

theorem computeTransform_frames (g : Geo) (buf : TfBuffer) (p : Par) (s : St) (hng : s.good = false) :
    (s.computeTransform g buf p).world = s.world ∧ (s.computeTransform g buf p).hasOdom = s.hasOdom ∧
    ((s.computeTransform g buf p).good = true → s.hasOdom = true) := by
  have h0 : ∃ s1 : St, (if (!s.good && s.hasOdom && s.manual) = true then s.setManualDatum g buf p else s) = s1 ∧
      s1.world = s.world ∧ s1.hasOdom = s.hasOdom ∧ s1.good = s.good := by
    split
    · rename_i h
      simp only [Bool.and_eq_true] at h
      have hs := setManualDatum_same g buf p s
      exact ⟨_, rfl, hs.world, by rw [setManualDatum_hasOdom, h.1.2], hs.good⟩
    · exact ⟨_, rfl, rfl, rfl, rfl⟩
  obtain ⟨s1, e, w1, w2, w3⟩ := h0
  unfold St.computeTransform
  dsimp only
  rw [e]
  split
  · rename_i h
    simp only [Bool.and_eq_true] at h
    refine ⟨w1, w2, fun _ => ?_⟩
    rw [← w2]
    exact h.1.1.2
  · refine ⟨w1, w2, fun h => ?_⟩
    rw [w3, hng] at h
    cases h

theorem timer_quiet (g : Geo) (buf : TfBuffer) (p : Par) (bc ap : Bool) (s : St) (hg : s.good = true) :
    ∀ o ∈ (s.timer g buf p bc ap).outs, o.sentTf = none := by
  have h1 : ∀ o ∈ (s.prepareGpsOdometry buf p).2, o.sentTf = none := by
    unfold St.prepareGpsOdometry
    split
    · intro o ho
      rw [List.mem_singleton.1 ho]
      rfl
    · intro o ho
      cases ho
  have h2 : ∀ (s1 : St) r, s1.prepareFilteredGps g = some r → ∀ o ∈ r.2, o.sentTf = none := by
    intro s1 r hr o ho
    unfold St.prepareFilteredGps at hr
    split at hr
    · rw [Option.map_eq_some_iff] at hr
      obtain ⟨ll, -, rfl⟩ := hr
      rw [List.mem_singleton.1 ho]
      rfl
    · injection hr with hr
      rw [← hr] at ho
      cases ho
  unfold St.timer
  rw [if_pos hg]
  revert h1
  generalize s.prepareGpsOdometry buf p = q
  intro h1
  obtain ⟨s1, o1⟩ := q
  dsimp only at h1 ⊢
  split
  · split
    · rename_i r hr
      intro o ho
      rcases List.mem_append.1 ho with ho | ho
      · exact h1 o ho
      · exact h2 s1 r hr o ho
    · exact h1
  · exact h1

theorem step_tf (g : Geo) (p : Par) (ap : Bool) (f : String) (s : St) (e : Ev) (s' : St) (he : InFrame f e)
    (h : (step g p true ap s e).st = some s') (os : List Out) (hk : TfInv p ap f os s) :
    TfInv p ap f (os ++ (step g p true ap s e).outs) s' := by
  cases e with
  | fix m =>
    simp only [step, St.fix] at h
    split at h
    · rename_i lat lon alt _ _
      simp only [Option.map_eq_some_iff] at h
      obtain ⟨u, -, rfl⟩ := h
      refine hk.congr (fun o ho => by cases ho) ?_ ?_ ?_ ?_ ?_
      all_goals
        have hs := setTransformGps_same g p { s with gpsFrame := m.frame } lat lon alt
        dsimp only
        split
      · exact fun hg => hs.good ▸ hg
      · exact id
      · exact hs.cw
      · rfl
      · exact hs.cwInv
      · rfl
      · exact hs.hasOdom
      · rfl
      · exact hs.world
      · rfl
    · simp only [Option.some.injEq] at h
      rw [← h]
      exact hk.congr (fun o ho => by cases ho) id rfl rfl rfl rfl
  | imu buf m =>
    simp only [step, Option.some.injEq] at h
    rw [← h]
    split
    · have hs := imu_same buf s m
      exact hk.congr (fun o ho => by cases ho) (fun hg => by rw [← hs.good]; exact hg) hs.cw hs.cwInv hs.hasOdom hs.world
    · exact hk.congr (fun o ho => by cases ho) id rfl rfl rfl rfl
  | odom buf m =>
    simp only [step, St.odom, Option.some.injEq] at h
    rw [← h]
    by_cases hg : s.good = true
    · have h0 := hk.needs hg
      have h1 := hk.air hg
      refine ⟨fun _ => ?_, fun _ => ?_, fun _ => ?_⟩
      · dsimp only
        rw [if_pos hg]
        exact he
      · dsimp only
        rw [if_pos hg]
        exact h0
      · unfold OnAir
        rw [lastTf_append _ _ (fun o ho => by cases ho)]
        dsimp only
        rw [if_pos hg]
        exact h1
    · have hs := (setTransformOdometry_same buf p { s with world := m.frame, base := m.child } m).1
      have hng : (St.setTransformOdometry buf p { s with world := m.frame, base := m.child } m).good = false := by
        rw [hs.good]
        simpa using hg
      refine ⟨fun _ => ?_, fun hgd => ?_, fun hgd => ?_⟩
      · dsimp only
        rw [if_neg hg]
        exact hs.world.trans he
      · dsimp only at hgd
        rw [if_neg hg, hng] at hgd
        cases hgd
      · dsimp only at hgd
        rw [if_neg hg, hng] at hgd
        cases hgd
  | timer buf =>
    rcases timer_cases g buf p true ap s s' h with ⟨hg, c1, c2, gu, ou, rfl⟩ | ⟨hg, i, rfl⟩
    · exact hk.congr (timer_quiet g buf p true ap s hg) id rfl rfl rfl rfl
    · obtain ⟨f1, f2, f3⟩ := computeTransform_frames g buf p s hg
      refine ⟨fun ho => ?_, fun hgd => ?_, fun hgd => ?_⟩
      · exact f1.trans (hk.world (f2 ▸ ho))
      · exact f2.trans (f3 hgd)
      · have hgd : (s.computeTransform g buf p).good = true := hgd
        have hw := f1.trans (hk.world (f3 hgd))
        have ho : (s.timer g buf p true ap).outs = [.broadcast
            { (if ap then (s.computeTransform g buf p).cwInv else (s.computeTransform g buf p).cw) with
              org := ![(if ap then (s.computeTransform g buf p).cwInv else (s.computeTransform g buf p).cw).org 0,
                (if ap then (s.computeTransform g buf p).cwInv else (s.computeTransform g buf p).cw).org 1,
                if p.zeroAlt then 0 else (if ap then (s.computeTransform g buf p).cwInv else (s.computeTransform g buf p).cw).org 2] }
            (if ap then (if p.useLocal then "local_enu" else "utm") else f)
            (if ap then f else (if p.useLocal then "local_enu" else "utm"))] := by
          unfold St.timer
          rw [if_neg (by rw [hg]; simp)]
          rw [← hw]
          generalize s.computeTransform g buf p = c at hgd ⊢
          dsimp only
          by_cases hc : (c.good && !p.odomYaw && !c.manual) = true
          · rw [if_pos hc]
            simp [hgd]
          · rw [if_neg hc]
            simp [hgd]
        show OnAir p ap f (s.computeTransform g buf p).cw (s.computeTransform g buf p).cwInv (os ++ (s.timer g buf p true ap).outs)
        rw [ho]
        unfold OnAir lastTf
        rw [List.filterMap_append]
        simp only [List.filterMap_cons, List.filterMap_nil, Out.sentTf, List.getLast?_append, List.getLast?_singleton,
          Option.some_or]
        cases ap <;> rfl
  | datum d =>
    simp only [step, Option.some.injEq] at h
    rw [← h]
    exact ⟨hk.world, fun hg => (by cases hg), fun hg => (by cases hg)⟩
  | toLL v =>
    have ho : ∀ o ∈ (step g p true ap s (.toLL v)).outs, o.sentTf = none := by
      intro o ho
      simp only [step, Option.mem_toList, St.toLL] at ho
      split at ho
      · rw [Option.map_eq_some_iff] at ho
        obtain ⟨_, -, rfl⟩ := ho
        rfl
      · injection ho with ho
        rw [← ho]
        rfl
    simp only [step, Option.map_eq_some_iff] at h
    obtain ⟨-, -, rfl⟩ := h
    exact hk.congr ho id rfl rfl rfl rfl
  | fromLL lat lon alt =>
    have ho : ∀ o ∈ (step g p true ap s (.fromLL lat lon alt)).outs, o.sentTf = none := by
      intro o ho
      simp only [step, Option.mem_toList, St.fromLL] at ho
      rw [Option.map_eq_some_iff] at ho
      obtain ⟨v, -, rfl⟩ := ho
      split <;> rfl
    simp only [step, Option.map_eq_some_iff] at h
    obtain ⟨-, -, rfl⟩ := h
    exact hk.congr ho id rfl rfl rfl rfl
  | setZone z =>
    cases z with
    | none => simp [step] at h
    | some z =>
      simp only [step, Option.some.injEq] at h
      rw [← h]
      exact ⟨hk.world, fun hg => (by cases hg), fun hg => (by cases hg)⟩

theorem run_tf (g : Geo) (p : Par) (ap : Bool) (f : String) (es : List Ev) (he : ∀ e ∈ es, InFrame f e) : ∀ (s s' : St) (os : List Out),
    TfInv p ap f os s → (run g p true ap s es).st = some s' → TfInv p ap f (os ++ (run g p true ap s es).outs) s' := by
  induction es with
  | nil =>
    intro s s' os hk h
    simp only [run, Option.some.injEq] at h
    rw [← h]
    simpa [run] using hk
  | cons e es ih =>
    intro s s' os hk h
    cases hs : (step g p true ap s e).st with
    | none => simp only [run, hs] at h; cases h
    | some s1 =>
      have e1 : run g p true ap s (e :: es) =
          { outs := (step g p true ap s e).outs ++ (run g p true ap s1 es).outs, st := (run g p true ap s1 es).st } := by
        simp only [run, hs]
      rw [e1] at h ⊢
      dsimp only at h ⊢
      rw [← List.append_assoc]
      exact ih (fun e' h' => he e' (List.mem_cons_of_mem _ h')) s1 s' _
        (step_tf g p ap f s e s1 (he e List.mem_cons_self) hs os hk) h

/-- **C98**: when the node answers that a place is at `v` on the map, a transform between the map and the projection is on
the air; it relates `v` to the coordinates of the place in the projection, the height excepted when altitudes are set to
zero. -/
theorem C98_on_air (g : Geo) (p : Par) (ap w : Bool) {s0 : St} (hi : s0.Initial p w) (f : String) (es : List Ev)
    (he : ∀ e ∈ es, InFrame f e) {s : St} (hr : (run g p true ap s0 es).st = some s) {lat lon alt : ℝ} {v : V3}
    (hf : s.fromLL g p lat lon alt = some (.map (some v))) :
    ∃ (t : Tf) (c : V3) (name : String),
      lastTf (run g p true ap s0 es).outs = some (if ap then (t, name, f) else (t, f, name)) ∧
      -- the projection and the place in it
      ((p.useLocal = true ∧ name = "local_enu" ∧
          c = ![g.enu s.enu0.1 s.enu0.2 lat lon alt 0, g.enu s.enu0.1 s.enu0.2 lat lon alt 1, alt]) ∨
        (p.useLocal = false ∧ name = "utm" ∧ ∃ u, g.forward lat lon s.zone = some u ∧ c = ![u.x, u.y, alt])) ∧
      -- the transform takes coordinates in its child frame to coordinates in its parent frame
      let (child, parent) := if ap then (v, c) else (c, v)
      t.apply child 0 = parent 0 ∧ t.apply child 1 = parent 1 ∧ (p.zeroAlt = false → t.apply child 2 = parent 2) := by
  have hk := run_known g p true ap hi es s hr
  have hinv := run_tf g p ap f es he s0 s [] ⟨fun h => (by rw [hi.hasOdom] at h; cases h), fun h => (by rw [hi.good] at h; cases h),
    fun h => (by rw [hi.good] at h; cases h)⟩ hr
  rw [List.nil_append] at hinv
  obtain ⟨hgood, hcase⟩ := fromLL_some hf
  have hair := hinv.air hgood
  obtain ⟨c, hc1, hc2⟩ : ∃ c : V3, ((p.useLocal = true ∧ (if p.useLocal then "local_enu" else "utm") = "local_enu" ∧
          c = ![g.enu s.enu0.1 s.enu0.2 lat lon alt 0, g.enu s.enu0.1 s.enu0.2 lat lon alt 1, alt]) ∨
        (p.useLocal = false ∧ (if p.useLocal then "local_enu" else "utm") = "utm" ∧ ∃ u, g.forward lat lon s.zone = some u ∧ c = ![u.x, u.y, alt])) ∧
      v = s.cartesianToMap p c := by
    rcases hcase with ⟨hl, hv⟩ | ⟨hl, u, hu, hv⟩
    · exact ⟨_, Or.inl ⟨hl, by rw [hl]; rfl, rfl⟩, hv⟩
    · exact ⟨_, Or.inr ⟨hl, by rw [hl]; rfl, u, hu, rfl⟩, hv⟩
  have flat : ∀ (t : Tf) (q : V3),
      let t' : Tf := { t with org := ![t.org 0, t.org 1, if p.zeroAlt then 0 else t.org 2] }
      t'.apply q 0 = t.apply q 0 ∧ t'.apply q 1 = t.apply q 1 ∧ (p.zeroAlt = false → t'.apply q 2 = t.apply q 2) := by
    intro t q
    refine ⟨?_, ?_, fun hz => ?_⟩
    · simp [Tf.apply]
    · simp [Tf.apply]
    · simp [Tf.apply, hz]
  cases ap with
  | false =>
    refine ⟨_, c, _, hair, hc1, ?_⟩
    obtain ⟨f0, f1, f2⟩ := flat s.cw c
    refine ⟨f0.trans ?_, f1.trans ?_, fun hz => (f2 hz).trans ?_⟩
    · show s.cw.apply c 0 = v 0
      rw [hc2]
      rfl
    · show s.cw.apply c 1 = v 1
      rw [hc2]
      rfl
    · show s.cw.apply c 2 = v 2
      rw [hc2]
      simp [St.cartesianToMap, hz]
  | true =>
    refine ⟨_, c, _, hair, hc1, ?_⟩
    obtain ⟨f0, f1, f2⟩ := flat s.cwInv v
    have hl := hk.inv_level hgood v (s.cw.apply c) (by rw [hc2]; rfl) (by rw [hc2]; rfl)
    rw [hk.back hgood] at hl
    refine ⟨f0.trans hl.1, f1.trans hl.2.1, fun hz => (f2 hz).trans ?_⟩
    have h3 := hl.2.2
    have : v 2 = s.cw.apply c 2 := by
      rw [hc2]
      simp [St.cartesianToMap, hz]
    rw [this] at h3
    show s.cwInv.apply v 2 = c 2
    linarith

/-- C98, what is left out: with altitudes set to zero, a place at height `alt` is at height zero on the map according to the
node, and at height `alt` according to the transform. -/
theorem C98_height (g : Geo) (p : Par) (hz : p.zeroAlt = true) (w : Bool) {s0 : St} (hi : s0.Initial p w) (f : String)
    (es : List Ev) (he : ∀ e ∈ es, InFrame f e) {s : St} (hr : (run g p true false s0 es).st = some s) {lat lon alt : ℝ} {v : V3}
    (hf : s.fromLL g p lat lon alt = some (.map (some v))) :
    v 2 = 0 ∧ ∃ (t : Tf) (name : String), lastTf (run g p true false s0 es).outs = some (t, f, name) ∧
      ∀ c : V3, c 2 = alt → t.apply c 2 = alt := by
  have hk := run_known g p true false hi es s hr
  have hinv := run_tf g p false f es he s0 s [] ⟨fun h => (by rw [hi.hasOdom] at h; cases h), fun h => (by rw [hi.good] at h; cases h),
    fun h => (by rw [hi.good] at h; cases h)⟩ hr
  rw [List.nil_append] at hinv
  obtain ⟨hgood, hcase⟩ := fromLL_some hf
  have hair := hinv.air hgood
  refine ⟨?_, _, _, hair, fun c hc => ?_⟩
  · rcases hcase with ⟨-, hv⟩ | ⟨-, u, -, hv⟩ <;> (rw [hv]; simp [St.cartesianToMap, hz])
  · obtain ⟨⟨a, ha⟩, -⟩ := hk hgood
    simp [Tf.apply, ha, rotZ_mulVec, hz, hc]

/-- The hypotheses of C98 are met by the small run. -/
example (ap z : Bool) : ∃ (s : St) (v : V3), (run plain (demoPar z false false) true ap demoInit (demoEvents 48 3 100)).st = some s ∧
    s.fromLL plain (demoPar z false false) 48 3 100 = some (.map (some v)) ∧ ∀ e ∈ demoEvents 48 3 100, InFrame "map" e := by
  have hf := plain_forward 48 3 (by norm_num) (by norm_num) (by norm_num) (by norm_num)
  obtain ⟨s, hs, hg, -, -, -, -, -, -, -, -, -, -, hc, -⟩ := demo_run plain (demoPar z false false) rfl rfl rfl true ap 48 3 100 _ hf rfl
  obtain ⟨-, hzn, -⟩ := hc rfl
  have hf31 := plain_forward_31 48 3 (by norm_num) (by norm_num) (by norm_num) (by norm_num)
  have hz31 : s.zone = 31 := hzn
  obtain ⟨v, hv⟩ : ∃ v, s.fromLL plain (demoPar z false false) 48 3 100 = some (.map (some v)) := by
    unfold St.fromLL
    simp only [demoPar, Bool.false_eq_true, if_false, hz31, hf31, Option.map_some, hg, if_true]
    exact ⟨_, rfl⟩
  refine ⟨s, v, hs, hv, ?_⟩
  intro e he
  simp only [demoEvents, List.mem_cons, List.not_mem_nil, or_false] at he
  rcases he with rfl | rfl | rfl | rfl <;> simp [InFrame, demoOdom]

end RL.Nav
