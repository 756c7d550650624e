import Verif.Model.Streams
import Verif.Props.Imu
/-!
# Inputs do not disturb each other (C69)
-/

namespace RL

/-- The number a list of digits stands for. -/
def valueOf (l : List Char) : ℕ := l.foldl (fun a c => 10 * a + (c.toNat - 48)) 0

theorem ofNat_digit : ∀ k, k < 10 → (Char.ofNat (48 + k)).toNat = 48 + k ∧ Char.ofNat (48 + k) ≠ '_' := by decide

theorem valueOf_decimal (n : ℕ) : valueOf (decimal n) = n := by
  induction n using Nat.strongRecOn with
  | _ n ih =>
    rw [decimal]
    split
    · rename_i h
      simp [valueOf, (ofNat_digit n h).1]
    · rename_i h
      have h1 := ih (n / 10) (by omega)
      simp only [valueOf] at h1 ⊢
      rw [List.foldl_append, h1]
      simp only [List.foldl_cons, List.foldl_nil, (ofNat_digit (n % 10) (by omega)).1]
      omega

theorem decimal_no_underscore (n : ℕ) : ∀ c ∈ decimal n, c ≠ '_' := by
  induction n using Nat.strongRecOn with
  | _ n ih =>
    rw [decimal]
    split
    · rename_i h
      intro c hc
      rw [List.mem_singleton.mp hc]
      exact (ofNat_digit n h).2
    · intro c hc
      rcases List.mem_append.mp hc with hc | hc
      · exact ih _ (by omega) c hc
      · rw [List.mem_singleton.mp hc]
        exact (ofNat_digit (n % 10) (by omega)).2

theorem split_underscore (a s : List Char) (ha : ∀ c ∈ a, c ≠ '_') (hs : s = [] ∨ ∃ t, s = '_' :: t) :
    (a ++ s).takeWhile (· ≠ '_') = a := by
  rw [List.takeWhile_append_of_pos (by simpa using ha)]
  rcases hs with rfl | ⟨t, rfl⟩ <;> simp

theorem numbered_inj {n m : ℕ} {s t : List Char} (hs : s = [] ∨ ∃ t, s = '_' :: t) (ht : t = [] ∨ ∃ u, t = '_' :: u)
    (h : decimal n ++ s = decimal m ++ t) : n = m ∧ s = t := by
  have h1 := congrArg (List.takeWhile (· ≠ '_')) h
  rw [split_underscore _ _ (decimal_no_underscore n) hs, split_underscore _ _ (decimal_no_underscore m) ht] at h1
  have h2 := congrArg valueOf h1
  rw [valueOf_decimal, valueOf_decimal] at h2
  subst h2
  exact ⟨rfl, List.append_cancel_left h⟩

/-- C69: different streams of measurements have different names. -/
theorem C69_names_differ (a b : Stream) (h : a.name = b.name) : a = b := by
  have h' := congrArg String.toList h
  cases a <;> cases b <;> simp only [Stream.name, inputName, String.toList_append, String.toList_ofList] at h'
  all_goals first
    | (exfalso; revert h'; simp; done)
    | skip
  all_goals
    try simp only [List.append_assoc] at h'
    have h2 := List.append_cancel_left h'
    first
      | (obtain ⟨rfl, -⟩ := numbered_inj (by simp) (by simp) h2; rfl)
      | (obtain ⟨-, h3⟩ := numbered_inj (by simp) (by simp) h2; exfalso; revert h3; decide)
      | (have h3 := congrArg valueOf h2
         rw [valueOf_decimal, valueOf_decimal] at h3
         rw [h3])

/-- Two nodes agree about a stream of measurements: what waits, what decides about the next message, and the poses that are
remembered for relative and differential mode. -/
def SameStream {C : Core} {P : MQueue C} (t : String) (h h' : Hub C P) : Prop :=
  SameTopic t h.node h'.node ∧ h.mem.init t = h'.mem.init t ∧ h.mem.prev t = h'.mem.prev t

theorem SameStream.refl {C : Core} {P : MQueue C} (t : String) (h : Hub C P) : SameStream t h h := ⟨SameTopic.refl _ _, rfl, rfl⟩

theorem SameStream.trans {C : Core} {P : MQueue C} {t : String} {a b c : Hub C P} (h1 : SameStream t a b) (h2 : SameStream t b c) :
    SameStream t a c := ⟨h1.1.trans h2.1, h1.2.1.trans h2.2.1, h1.2.2.trans h2.2.2⟩

theorem preparePose_mem (c : PrepCtx) (mem : PoseMem) (last : Int) (msg : PoseMsg) (topic target source : String)
    (d r imu : Bool) (p : Payload) (t : String) (hne : t ≠ topic) :
    (preparePose c mem last msg topic target source d r imu p).1.init t = mem.init t ∧
    (preparePose c mem last msg topic target source d r imu p).1.prev t = mem.prev t := by
  unfold preparePose
  simp only
  cases lookupTransformSafe c.buf (poseFrames c msg.frame target d imu).1 (poseFrames c msg.frame target d imu).2
      (poseLookupTime msg.stamp) with
  | none => exact ⟨rfl, rfl⟩
  | some tf =>
    simp only [poseWith]
    cases d
    · cases r
      · exact ⟨rfl, rfl⟩
      · simp only [Bool.false_eq_true, if_false, if_true, if_neg hne]
        exact ⟨trivial, trivial⟩
    · simp only [if_true, if_neg hne]
      exact ⟨trivial, trivial⟩

section
variable {C : Core} {P : MQueue C} (mk : Payload → C.Z) (c : PrepCtx)

theorem pose_stream (h : Hub C P) (msg : PoseMsg) (cd : CallbackData) (target source : String) (imu : Bool) (t : String)
    (hne : t ≠ cd.topic) : SameStream t (h.poseCallback mk c msg cd target source imu) h := by
  refine ⟨poseCallback_other mk c h msg cd target source imu t hne, ?_⟩
  unfold Hub.poseCallback
  split
  · exact ⟨rfl, rfl⟩
  · simp only
    split
    · exact preparePose_mem c _ _ _ _ _ _ _ _ _ _ t hne
    · exact ⟨rfl, rfl⟩

theorem twist_stream (h : Hub C P) (msg : TwistMsg) (cd : CallbackData) (target : String) (t : String) (hne : t ≠ cd.topic) :
    SameStream t (h.twistCallback mk c msg cd target) h := ⟨sensor_other _ _ _ hne _ _, rfl, rfl⟩

theorem accel_stream (h : Hub C P) (msg : ImuMsg) (cd : CallbackData) (target : String) (g : Bool) (t : String)
    (hne : t ≠ cd.topic) : SameStream t (h.accelCallback mk c msg cd target g) h := ⟨sensor_other _ _ _ hne _ _, rfl, rfl⟩

/-- C69: a message of a pose input affects no other stream. -/
theorem C69_pose (h : Hub C P) (msg : PoseMsg) (s : SensorPar) (n : ℕ) (hn : s.name = inputName "pose" n) (cd : CallbackData)
    (hcd : poseData s = some cd) (target source : String) (t : Stream) (ht : t ≠ .pose n) :
    SameStream t.name (h.poseCallback mk c msg cd target source false) h := by
  have : cd.topic = (Stream.pose n).name := by
    unfold poseData at hcd
    simp only [Option.bind_eq_bind, Option.bind_eq_some_iff] at hcd
    obtain ⟨v, -, p, -, h4⟩ := hcd
    cases h4
    exact hn
  exact pose_stream mk c h _ _ _ _ _ _ (by rw [this]; exact fun he => ht (C69_names_differ _ _ he))

/-- C69: a message of a twist input affects no other stream. -/
theorem C69_twist (h : Hub C P) (msg : TwistMsg) (s : SensorPar) (n : ℕ) (hn : s.name = inputName "twist" n) (cd : CallbackData)
    (hcd : twistData s = some cd) (target : String) (t : Stream) (ht : t ≠ .twist n) :
    SameStream t.name (h.twistCallback mk c msg cd target) h := by
  have : cd.topic = (Stream.twist n).name := by
    unfold twistData at hcd
    simp only [Option.bind_eq_bind, Option.bind_eq_some_iff] at hcd
    obtain ⟨v, -, p, -, h4⟩ := hcd
    cases h4
    exact hn
  exact twist_stream mk c h _ _ _ _ (by rw [this]; exact fun he => ht (C69_names_differ _ _ he))

/-- C69: a message of an odometry input affects its own two streams only. -/
theorem C69_odom (h : Hub C P) (msg : OdomMsg) (s : SensorPar) (n : ℕ) (hn : s.name = inputName "odom" n)
    (a b : CallbackData) (hcd : odomData s = some (a, b)) (t : Stream) (h1 : t ≠ .odomPose n) (h2 : t ≠ .odomTwist n) :
    SameStream t.name (h.odomCallback mk c msg a b) h := by
  have e : a.topic = (Stream.odomPose n).name ∧ b.topic = (Stream.odomTwist n).name := by
    unfold odomData at hcd
    simp only [Option.bind_eq_bind, Option.bind_eq_some_iff] at hcd
    obtain ⟨v, -, p, -, q, -, h4⟩ := hcd
    cases h4
    simp only [Stream.name, hn, and_self]
  have n1 : t.name ≠ a.topic := by rw [e.1]; exact fun he => h1 (C69_names_differ _ _ he)
  have n2 : t.name ≠ b.topic := by rw [e.2]; exact fun he => h2 (C69_names_differ _ _ he)
  unfold Hub.odomCallback
  split
  · exact SameStream.refl _ _
  · simp only
    split
    · refine (twist_stream mk c _ _ _ _ _ n2).trans ?_
      split
      · exact pose_stream mk c h _ _ _ _ _ _ n1
      · exact SameStream.refl _ _
    · split
      · exact pose_stream mk c h _ _ _ _ _ _ n1
      · exact SameStream.refl _ _

/-- C69: a message of an IMU affects its own three streams only. -/
theorem C69_imu (h : Hub C P) (msg : ImuMsg) (s : SensorPar) (n : ℕ) (hn : s.name = inputName "imu" n)
    (a b d : CallbackData) (hcd : imuData s = some (a, b, d)) (g : Bool) (t : Stream) (h1 : t ≠ .imuPose n) (h2 : t ≠ .imuTwist n)
    (h3 : t ≠ .imuAccel n) : SameStream t.name (h.imuCallback mk c msg a b d g) h := by
  have e : a.topic = (Stream.imuPose n).name ∧ b.topic = (Stream.imuTwist n).name ∧ d.topic = (Stream.imuAccel n).name := by
    unfold imuData at hcd
    simp only [Option.bind_eq_bind, Option.bind_eq_some_iff] at hcd
    obtain ⟨vp, -, vt, -, va, -, fp, -, ft, -, fa, -, h4⟩ := hcd
    cases h4
    simp only [Stream.name, hn, and_self]
  have n1 : t.name ≠ a.topic := by rw [e.1]; exact fun he => h1 (C69_names_differ _ _ he)
  have n2 : t.name ≠ b.topic := by rw [e.2.1]; exact fun he => h2 (C69_names_differ _ _ he)
  have n3 : t.name ≠ d.topic := by rw [e.2.2]; exact fun he => h3 (C69_names_differ _ _ he)
  unfold Hub.imuCallback
  split
  · exact SameStream.refl _ _
  · simp only
    have e1 : ∀ (p : Prop) [Decidable p] (pm : PoseMsg),
        SameStream t.name (if p then h.poseCallback mk c pm a c.base c.base true else h) h := by
      intro p _ pm
      split
      · exact pose_stream mk c h _ _ _ _ _ _ n1
      · exact SameStream.refl _ _
    have e2 : ∀ (x : Hub C P) (p : Prop) [Decidable p] (tm : TwistMsg),
        SameStream t.name (if p then x.twistCallback mk c tm b c.base else x) x := by
      intro x p _ tm
      split
      · exact twist_stream mk c x _ _ _ _ n2
      · exact SameStream.refl _ _
    split
    · exact (accel_stream mk c _ _ _ _ _ _ n3).trans ((e2 _ _ _).trans (e1 _ _))
    · exact (e2 _ _ _).trans (e1 _ _)

end

example : { sensorDemo with name := inputName "imu" 12 }.name = inputName "imu" 12 ∧
    (imuData { sensorDemo with name := inputName "imu" 12 }).isSome ∧ Stream.imuPose 1 ≠ .imuPose 12 := ⟨rfl, rfl, by decide⟩

end RL
