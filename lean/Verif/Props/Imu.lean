import Verif.Props.Callbacks
/-!
# IMU fields that are declared absent (C39)
-/

namespace RL

/-- The measurements of a topic that wait to be fused. -/
def Node.waiting {C : Core} {P : MQueue C} (n : Node C P) (t : String) : Multiset (Meas C) :=
  (P.elems n.queue).filter (fun m => m.topic = t)

/-- Two nodes agree about a topic: what is waiting, and everything that decides what becomes of its next message. -/
structure SameTopic {C : Core} {P : MQueue C} (t : String) (n n' : Node C P) : Prop where
  waiting : n.waiting t = n'.waiting t
  lastMsg : n.lastMsg t = n'.lastMsg t
  lastSetPose : n.lastSetPose = n'.lastSetPose
  ctl : n.ctl = n'.ctl
  ctlTime : n.ctlTime = n'.ctlTime

theorem SameTopic.refl {C : Core} {P : MQueue C} (t : String) (n : Node C P) : SameTopic t n n := ⟨rfl, rfl, rfl, rfl, rfl⟩

theorem SameTopic.symm {C : Core} {P : MQueue C} {t : String} {a b : Node C P} (h : SameTopic t a b) : SameTopic t b a :=
  ⟨h.1.symm, h.2.symm, h.3.symm, h.4.symm, h.5.symm⟩

theorem SameTopic.trans {C : Core} {P : MQueue C} {t : String} {a b c : Node C P} (h : SameTopic t a b)
    (h' : SameTopic t b c) : SameTopic t a c :=
  ⟨h.1.trans h'.1, h.2.trans h'.2, h.3.trans h'.3, h.4.trans h'.4, h.5.trans h'.5⟩

theorem sensor_fields {C : Core} {P : MQueue C} (n : Node C P) (topic : String) (stamp : Int) (prep : Option C.Z) :
    (n.sensor topic stamp prep).lastSetPose = n.lastSetPose ∧ (n.sensor topic stamp prep).ctl = n.ctl ∧
    (n.sensor topic stamp prep).ctlTime = n.ctlTime := by
  unfold Node.sensor
  split
  · exact ⟨rfl, rfl, rfl⟩
  · simp only
    split
    · cases prep <;> exact ⟨rfl, rfl, rfl⟩
    · exact ⟨rfl, rfl, rfl⟩

theorem sensor_lastMsg {C : Core} {P : MQueue C} (n : Node C P) (topic : String) (stamp : Int) (prep : Option C.Z) (t : String) :
    (n.sensor topic stamp prep).lastMsg t =
      if n.lastSetPose ≥ stamp ∨ ¬ (n.lastMsg topic).getD stamp ≤ stamp then n.lastMsg t
      else if t = topic then some stamp else n.lastMsg t := by
  unfold Node.sensor
  by_cases h1 : n.lastSetPose ≥ stamp
  · simp [h1]
  · by_cases h2 : (n.lastMsg topic).getD stamp ≤ stamp
    · simp only [h1, h2, if_false, if_true, false_or, not_true_eq_false]
      cases prep <;> rfl
    · simp [h1, h2]

/-- A message of one topic changes nothing about another. -/
theorem sensor_other {C : Core} {P : MQueue C} (n : Node C P) (topic t : String) (hne : t ≠ topic) (stamp : Int)
    (prep : Option C.Z) : SameTopic t (n.sensor topic stamp prep) n := by
  obtain ⟨f1, f2, f3⟩ := sensor_fields n topic stamp prep
  refine ⟨?_, ?_, f1, f2, f3⟩
  · unfold Node.waiting
    rw [sensor_elems, Multiset.filter_add]
    have : ∀ s : Multiset (Meas C), (∀ m ∈ s, m.topic = topic) → s.filter (fun m => m.topic = t) = 0 := by
      intro s hs
      rw [Multiset.filter_eq_nil]
      intro m hm h
      exact hne (h.symm.trans (hs m hm))
    rw [this, zero_add]
    intro m hm
    split at hm
    · simp at hm
    · cases prep with
      | none => simp at hm
      | some z =>
        simp only [Multiset.mem_singleton] at hm
        rw [hm]
  · rw [sensor_lastMsg, if_neg hne, ite_self]

/-- The same message has the same effect where the topic is in the same state. -/
theorem sensor_same {C : Core} {P : MQueue C} {n n' : Node C P} {topic : String} (h : SameTopic topic n n') (stamp : Int)
    (prep : Option C.Z) : SameTopic topic (n.sensor topic stamp prep) (n'.sensor topic stamp prep) := by
  obtain ⟨f1, f2, f3⟩ := sensor_fields n topic stamp prep
  obtain ⟨g1, g2, g3⟩ := sensor_fields n' topic stamp prep
  refine ⟨?_, ?_, by rw [f1, g1, h.3], by rw [f2, g2, h.4], by rw [f3, g3, h.5]⟩
  · have hw := h.1
    unfold Node.waiting at hw ⊢
    rw [sensor_elems, sensor_elems, Multiset.filter_add, Multiset.filter_add, hw, h.2, h.3, h.4, h.5]
  · rw [sensor_lastMsg, sensor_lastMsg, h.2, h.3]

section
variable {C : Core} {P : MQueue C} (mk : Payload → C.Z) (c : PrepCtx)

theorem poseCallback_other (h : Hub C P) (msg : PoseMsg) (cd : CallbackData) (target source : String) (imu : Bool) (t : String)
    (hne : t ≠ cd.topic) : SameTopic t (h.poseCallback mk c msg cd target source imu).node h.node := by
  unfold Hub.poseCallback
  split
  · exact SameTopic.refl _ _
  · simp only
    split
    · exact sensor_other _ _ _ hne _ _
    · exact SameTopic.refl _ _

theorem poseCallback_same (h h' : Hub C P) (msg : PoseMsg) (cd : CallbackData) (target source : String) (imu : Bool)
    (hs : SameTopic cd.topic h.node h'.node) (hm : h.mem = h'.mem) :
    SameTopic cd.topic (h.poseCallback mk c msg cd target source imu).node (h'.poseCallback mk c msg cd target source imu).node ∧
    (h.poseCallback mk c msg cd target source imu).mem = (h'.poseCallback mk c msg cd target source imu).mem := by
  unfold Hub.poseCallback Node.stale
  simp only [hs.lastSetPose, hs.lastMsg, hm]
  by_cases h1 : h'.node.lastSetPose ≥ msg.stamp
  · simp only [h1, if_true]
    exact ⟨hs, hm⟩
  · by_cases h2 : (h'.node.lastMsg cd.topic).getD msg.stamp ≤ msg.stamp
    · simp only [h1, h2, if_true, if_false]
      exact ⟨sensor_same hs _ _, trivial⟩
    · simp only [h1, h2, if_false]
      exact ⟨hs, hm⟩

end

theorem imu_topics {s : SensorPar} {a b d : CallbackData} (h : imuData s = some (a, b, d)) :
    a.topic ≠ b.topic ∧ a.topic ≠ d.topic ∧ b.topic ≠ d.topic := by
  unfold imuData at h
  simp only [Option.bind_eq_bind, Option.bind_eq_some_iff] at h
  obtain ⟨vp, -, vt, -, va, -, fp, -, ft, -, fa, -, h4⟩ := h
  cases h4
  have key : ∀ x y : String, x ≠ y → s.name ++ x ≠ s.name ++ y := by
    intro x y hxy he
    apply hxy
    have := congrArg String.toList he
    rw [String.toList_append, String.toList_append] at this
    exact String.toList_injective (List.append_cancel_left this)
  exact ⟨key _ _ (by decide), key _ _ (by decide), key _ _ (by decide)⟩

/-- The field is declared absent: the first entry of its covariance is -1. -/
def Absent (cov : Fin 9 → ℝ) : Prop := cov 0 = -1

/-- C39: the orientation measurements depend on orientation alone: two messages with the same stamp, frame and orientation
have the same effect on them, whatever their other fields say or whether they are absent. -/
theorem C39_orientation_alone {C : Core} {P : MQueue C} (mk : Payload → C.Z) (c : PrepCtx) (h : Hub C P) (s : SensorPar)
    (a b d : CallbackData) (hcd : imuData s = some (a, b, d)) (g g' : Bool) (m m' : ImuMsg) (hf : m.frame = m'.frame)
    (ht : m.stamp = m'.stamp) (ho : m.ori = m'.ori) (hc : m.oriCov = m'.oriCov) :
    SameTopic a.topic (h.imuCallback mk c m a b d g).node (h.imuCallback mk c m' a b d g').node ∧
    (h.imuCallback mk c m a b d g).mem = (h.imuCallback mk c m' a b d g').mem := by
  obtain ⟨n1, n2, n3⟩ := imu_topics hcd
  unfold Hub.imuCallback
  simp only [hf, ht, ho, hc]
  by_cases hst : h.node.stale m'.stamp
  · simp only [hst, if_true]
    exact ⟨SameTopic.refl _ _, trivial⟩
  · simp only [hst, if_false]
    generalize (if a.sum > 0 ∧ ¬ |m'.oriCov 0 + 1| < 1e-9 then _ else h : Hub C P) = h1
    have tail : ∀ (m : ImuMsg) (tm : TwistMsg) (p q : Prop) [Decidable p] [Decidable q] (g : Bool),
        SameTopic a.topic (if p then (if q then h1.twistCallback mk c tm b c.base else h1).accelCallback mk c m d c.base g
          else (if q then h1.twistCallback mk c tm b c.base else h1)).node h1.node ∧
        (if p then (if q then h1.twistCallback mk c tm b c.base else h1).accelCallback mk c m d c.base g
          else (if q then h1.twistCallback mk c tm b c.base else h1)).mem = h1.mem := by
      intro m tm p q _ _ g
      have e2 : SameTopic a.topic (if q then h1.twistCallback mk c tm b c.base else h1).node h1.node ∧
          (if q then h1.twistCallback mk c tm b c.base else h1).mem = h1.mem := by
        split
        · exact ⟨sensor_other _ _ _ n1 _ _, rfl⟩
        · exact ⟨SameTopic.refl _ _, rfl⟩
      split
      · exact ⟨(sensor_other _ _ _ n2 _ _).trans e2.1, e2.2⟩
      · exact e2
    have t1 := tail m ⟨m'.frame, m'.stamp, fun _ => .fin 0, m.vel, angularCov m.velCov⟩
      (d.sum > 0 ∧ ¬ |m.accCov 0 + 1| < 1e-9) (b.sum > 0 ∧ ¬ |m.velCov 0 + 1| < 1e-9) g
    have t2 := tail m' ⟨m'.frame, m'.stamp, fun _ => .fin 0, m'.vel, angularCov m'.velCov⟩
      (d.sum > 0 ∧ ¬ |m'.accCov 0 + 1| < 1e-9) (b.sum > 0 ∧ ¬ |m'.velCov 0 + 1| < 1e-9) g'
    exact ⟨t1.1.trans t2.1.symm, t1.2.trans t2.2.symm⟩

/-- C39: the angular velocity measurements depend on angular velocity alone. -/
theorem C39_velocity_alone {C : Core} {P : MQueue C} (mk : Payload → C.Z) (c : PrepCtx) (h : Hub C P) (s : SensorPar)
    (a b d : CallbackData) (hcd : imuData s = some (a, b, d)) (g g' : Bool) (m m' : ImuMsg) (hf : m.frame = m'.frame)
    (ht : m.stamp = m'.stamp) (ho : m.vel = m'.vel) (hc : m.velCov = m'.velCov) :
    SameTopic b.topic (h.imuCallback mk c m a b d g).node (h.imuCallback mk c m' a b d g').node := by
  obtain ⟨n1, n2, n3⟩ := imu_topics hcd
  unfold Hub.imuCallback
  simp only [hf, ht, ho, hc]
  by_cases hst : h.node.stale m'.stamp
  · simp only [hst, if_true]
    exact SameTopic.refl _ _
  · simp only [hst, if_false]
    have head : ∀ (pm : PoseMsg) (p : Prop) [Decidable p],
        SameTopic b.topic (if p then h.poseCallback mk c pm a c.base c.base true else h).node h.node := by
      intro pm p _
      split
      · exact poseCallback_other mk c h _ _ _ _ _ _ n1.symm
      · exact SameTopic.refl _ _
    have hh := (head ⟨m'.frame, m'.stamp, 0, m.ori, angularCov m.oriCov⟩ (a.sum > 0 ∧ ¬ |m.oriCov 0 + 1| < 1e-9)).trans
      (head ⟨m'.frame, m'.stamp, 0, m'.ori, angularCov m'.oriCov⟩ (a.sum > 0 ∧ ¬ |m'.oriCov 0 + 1| < 1e-9)).symm
    revert hh
    generalize (if a.sum > 0 ∧ ¬ |m.oriCov 0 + 1| < 1e-9 then _ else h : Hub C P) = h1
    generalize (if a.sum > 0 ∧ ¬ |m'.oriCov 0 + 1| < 1e-9 then _ else h : Hub C P) = h1'
    intro hh
    have mid : ∀ (tm : TwistMsg) (q : Prop) [Decidable q],
        SameTopic b.topic (if q then h1.twistCallback mk c tm b c.base else h1).node
          (if q then h1'.twistCallback mk c tm b c.base else h1').node := by
      intro tm q _
      split
      · exact sensor_same hh _ _
      · exact hh
    have hm := mid ⟨m'.frame, m'.stamp, fun _ => .fin 0, m'.vel, angularCov m'.velCov⟩ (b.sum > 0 ∧ ¬ |m'.velCov 0 + 1| < 1e-9)
    revert hm
    generalize (if b.sum > 0 ∧ ¬ |m'.velCov 0 + 1| < 1e-9 then _ else h1 : Hub C P) = h2
    generalize (if b.sum > 0 ∧ ¬ |m'.velCov 0 + 1| < 1e-9 then _ else h1' : Hub C P) = h2'
    intro hm
    have tail : ∀ (h : Hub C P) (m : ImuMsg) (q : Prop) [Decidable q] (g : Bool),
        SameTopic b.topic (if q then h.accelCallback mk c m d c.base g else h).node h.node := by
      intro h m q _ g
      split
      · exact sensor_other _ _ _ n3 _ _
      · exact SameTopic.refl _ _
    exact (tail h2 m _ g).trans (hm.trans (tail h2' m' _ g').symm)

/-- C39: the acceleration measurements depend on acceleration alone, or, where gravity is to be removed, on whether there is
an orientation and on that orientation. -/
theorem C39_acceleration_alone {C : Core} {P : MQueue C} (mk : Payload → C.Z) (c : PrepCtx) (h : Hub C P) (s : SensorPar)
    (a b d : CallbackData) (hcd : imuData s = some (a, b, d)) (g : Bool) (m m' : ImuMsg) (hf : m.frame = m'.frame)
    (ht : m.stamp = m'.stamp) (ho : m.acc = m'.acc) (hc : m.accCov = m'.accCov)
    (hg : g = false ∨ (Absent m.oriCov ∧ Absent m'.oriCov) ∨ (m.ori = m'.ori ∧ m.oriCov = m'.oriCov)) :
    SameTopic d.topic (h.imuCallback mk c m a b d g).node (h.imuCallback mk c m' a b d g).node := by
  obtain ⟨n1, n2, n3⟩ := imu_topics hcd
  have hp : prepareAcceleration c g m c.base d.relative d.blank = prepareAcceleration c g m' c.base d.relative d.blank := by
    unfold prepareAcceleration
    rw [hf, ht]
    congr 1
    funext t
    have hgr : g = true → gravityPart c t m d.relative = gravityPart c t m' d.relative := by
      intro hgt
      rcases hg with hg | ⟨h1, h2⟩ | ⟨h1, h2⟩
      · rw [hgt] at hg; cases hg
      · unfold gravityPart
        rw [h1, h2]
        norm_num
      · unfold gravityPart
        rw [h1, h2]
    unfold accelPayload
    rw [ho, hc]
    cases g with
    | false => simp only [Bool.false_eq_true, if_false]
    | true => simp only [if_true, hgr rfl]
  unfold Hub.imuCallback
  simp only [hf, ht, hc]
  by_cases hst : h.node.stale m'.stamp
  · simp only [hst, if_true]
    exact SameTopic.refl _ _
  · simp only [hst, if_false]
    have head : ∀ (pm : PoseMsg) (p : Prop) [Decidable p],
        SameTopic d.topic (if p then h.poseCallback mk c pm a c.base c.base true else h).node h.node := by
      intro pm p _
      split
      · exact poseCallback_other mk c h _ _ _ _ _ _ n2.symm
      · exact SameTopic.refl _ _
    have mid : ∀ (h : Hub C P) (tm : TwistMsg) (q : Prop) [Decidable q],
        SameTopic d.topic (if q then h.twistCallback mk c tm b c.base else h).node h.node := by
      intro h tm q _
      split
      · exact sensor_other _ _ _ n3.symm _ _
      · exact SameTopic.refl _ _
    have hh := (head ⟨m'.frame, m'.stamp, 0, m.ori, angularCov m.oriCov⟩ (a.sum > 0 ∧ ¬ |m.oriCov 0 + 1| < 1e-9)).trans
      (head ⟨m'.frame, m'.stamp, 0, m'.ori, angularCov m'.oriCov⟩ (a.sum > 0 ∧ ¬ |m'.oriCov 0 + 1| < 1e-9)).symm
    revert hh
    generalize (if a.sum > 0 ∧ ¬ |m.oriCov 0 + 1| < 1e-9 then _ else h : Hub C P) = h1
    generalize (if a.sum > 0 ∧ ¬ |m'.oriCov 0 + 1| < 1e-9 then _ else h : Hub C P) = h1'
    intro hh
    have hm := (mid h1 ⟨m'.frame, m'.stamp, fun _ => .fin 0, m.vel, angularCov m.velCov⟩ (b.sum > 0 ∧ ¬ |m.velCov 0 + 1| < 1e-9)).trans
      (hh.trans (mid h1' ⟨m'.frame, m'.stamp, fun _ => .fin 0, m'.vel, angularCov m'.velCov⟩
        (b.sum > 0 ∧ ¬ |m'.velCov 0 + 1| < 1e-9)).symm)
    revert hm
    generalize (if b.sum > 0 ∧ ¬ |m.velCov 0 + 1| < 1e-9 then _ else h1 : Hub C P) = h2
    generalize (if b.sum > 0 ∧ ¬ |m'.velCov 0 + 1| < 1e-9 then _ else h1' : Hub C P) = h2'
    intro hm
    split
    · unfold Hub.accelCallback
      simp only [hp, ht]
      exact sensor_same hm _ _
    · exact hm

/-- C39: fields that are declared absent contribute nothing: no measurement of the field is queued, its memory stays as it
is. -/
theorem C39_absent_nothing {C : Core} {P : MQueue C} (mk : Payload → C.Z) (c : PrepCtx) (h : Hub C P) (s : SensorPar)
    (a b d : CallbackData) (hcd : imuData s = some (a, b, d)) (g : Bool) (m : ImuMsg) :
    (Absent m.oriCov → SameTopic a.topic (h.imuCallback mk c m a b d g).node h.node ∧ (h.imuCallback mk c m a b d g).mem = h.mem) ∧
    (Absent m.velCov → SameTopic b.topic (h.imuCallback mk c m a b d g).node h.node) ∧
    (Absent m.accCov → SameTopic d.topic (h.imuCallback mk c m a b d g).node h.node) := by
  obtain ⟨n1, n2, n3⟩ := imu_topics hcd
  have hab : ∀ cov : Fin 9 → ℝ, Absent cov → |cov 0 + 1| < 1e-9 := by
    intro cov hc
    rw [hc]
    norm_num
  unfold Hub.imuCallback
  by_cases hst : h.node.stale m.stamp
  · simp only [hst, if_true]
    exact ⟨fun _ => ⟨SameTopic.refl _ _, trivial⟩, fun _ => SameTopic.refl _ _, fun _ => SameTopic.refl _ _⟩
  · simp only [hst, if_false]
    have head : ∀ (t : String), t ≠ a.topic → ∀ (pm : PoseMsg) (p : Prop) [Decidable p],
        SameTopic t (if p then h.poseCallback mk c pm a c.base c.base true else h).node h.node := by
      intro t hne pm p _
      split
      · exact poseCallback_other mk c h _ _ _ _ _ _ hne
      · exact SameTopic.refl _ _
    have mid : ∀ (t : String), t ≠ b.topic → ∀ (h : Hub C P) (tm : TwistMsg) (q : Prop) [Decidable q],
        SameTopic t (if q then h.twistCallback mk c tm b c.base else h).node h.node ∧
        (if q then h.twistCallback mk c tm b c.base else h).mem = h.mem := by
      intro t hne h tm q _
      split
      · exact ⟨sensor_other _ _ _ hne _ _, rfl⟩
      · exact ⟨SameTopic.refl _ _, rfl⟩
    have tail : ∀ (t : String), t ≠ d.topic → ∀ (h : Hub C P) (q : Prop) [Decidable q],
        SameTopic t (if q then h.accelCallback mk c m d c.base g else h).node h.node ∧
        (if q then h.accelCallback mk c m d c.base g else h).mem = h.mem := by
      intro t hne h q _
      split
      · exact ⟨sensor_other _ _ _ hne _ _, rfl⟩
      · exact ⟨SameTopic.refl _ _, rfl⟩
    refine ⟨fun hA => ?_, fun hA => ?_, fun hA => ?_⟩
    · have hn : ¬ (a.sum > 0 ∧ ¬ |m.oriCov 0 + 1| < 1e-9) := fun hx => hx.2 (hab _ hA)
      rw [if_neg hn]
      have t1 := mid a.topic n1 h ⟨m.frame, m.stamp, fun _ => .fin 0, m.vel, angularCov m.velCov⟩
        (b.sum > 0 ∧ ¬ |m.velCov 0 + 1| < 1e-9)
      have t2 := tail a.topic n2 (if b.sum > 0 ∧ ¬ |m.velCov 0 + 1| < 1e-9 then
        h.twistCallback mk c ⟨m.frame, m.stamp, fun _ => .fin 0, m.vel, angularCov m.velCov⟩ b c.base else h)
        (d.sum > 0 ∧ ¬ |m.accCov 0 + 1| < 1e-9)
      exact ⟨t2.1.trans t1.1, t2.2.trans t1.2⟩
    · have hn : ¬ (b.sum > 0 ∧ ¬ |m.velCov 0 + 1| < 1e-9) := fun hx => hx.2 (hab _ hA)
      rw [if_neg hn]
      exact (tail b.topic n3 _ _).1.trans (head b.topic n1.symm _ _)
    · have hn : ¬ (d.sum > 0 ∧ ¬ |m.accCov 0 + 1| < 1e-9) := fun hx => hx.2 (hab _ hA)
      rw [if_neg hn]
      exact (mid d.topic n3.symm _ _ _).1.trans (head d.topic n2.symm _ _)

example : Absent (fun k => if k = 0 then -1 else 0) := by simp [Absent]

end RL
