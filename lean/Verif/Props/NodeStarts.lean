import Verif.Props.NodePar
/-! # C102: filter nodes start -/

namespace RL
open Nav Matrix

/-- The parameters of an input have the right types, and its configuration has fifteen entries. -/
structure SensorTyped (o : Given) (name : String) : Prop where
  bools : ∀ s ∈ ["_differential", "_relative", "_pose_use_child_frame", "_remove_gravitational_acceleration"],
    o (name ++ s) = none ∨ ∃ b, o (name ++ s) = some (.bool b)
  bounds : ∀ s ∈ ["_pose_rejection_threshold", "_twist_rejection_threshold", "_rejection_threshold",
    "_linear_acceleration_rejection_threshold"], o (name ++ s) = none ∨ ∃ x, o (name ++ s) = some (.double x)
  queue : o (name ++ "_queue_size") = none ∨ ∃ n, o (name ++ "_queue_size") = some (.int n)
  config : o (name ++ "_config") = none ∨ ∃ l, o (name ++ "_config") = some (.bools l) ∧ l.length = 15

/-- The inputs of a kind are numbered from 0 to `n - 1`. -/
structure KindTyped (o : Given) (kind : String) (n : ℕ) : Prop where
  topic : ∀ i < n, ∃ t, o (inputName kind i) = some (.string t)
  sensor : ∀ i < n, SensorTyped o (inputName kind i)
  last : o (inputName kind n) = none

/-- A time that can be counted in nanoseconds. -/
def Fits (o : Given) (name : String) : Prop := ∀ x, o name = some (.double x) → |x * 1000000000| ≤ 9223372036854775807

/-- No parameter has a value of the wrong type or size. -/
structure NodeTyped (o : Given) : Prop where
  bools : ∀ n ∈ "reset_on_time_jump" :: switchNames, o n = none ∨ ∃ b, o n = some (.bool b)
  strings : ∀ n ∈ ["map_frame", "odom_frame", "base_link_frame", "base_link_frame_output", "world_frame", "tf_prefix"],
    o n = none ∨ ∃ s, o n = some (.string s)
  doubles : ∀ n ∈ ["gravitational_acceleration", "transform_time_offset", "transform_timeout", "frequency", "sensor_timeout",
    "history_length", "control_timeout"], o n = none ∨ ∃ x, o n = some (.double x)
  fits : ∀ n ∈ ["transform_time_offset", "transform_timeout", "sensor_timeout", "history_length", "control_timeout"], Fits o n
  frequency : ∀ f, o.Num "frequency" 30 f → 0 < f ∧ 1000000000 / f ≤ 9223372036854775807
  initial : o "initial_state" = none ∨ ∃ l, o "initial_state" = some (.doubles l)
  covs : ∀ n ∈ ["process_noise_covariance", "initial_estimate_covariance"],
    o n = none ∨ ∃ l, o n = some (.doubles l) ∧ (l.length = 15 ∨ l.length = 225)
  config : o.On "use_control" → ∃ l, o "control_config" = some (.bools l) ∧ l.length = 6
  lists : ∀ n ∈ ["acceleration_limits", "acceleration_gains", "deceleration_limits", "deceleration_gains"],
    o n = none ∨ ∃ l, o n = some (.doubles l)

theorem typed_string? {o : Given} {n : String} (h : o n = none ∨ ∃ s, o n = some (.string s)) : ∃ r, o.string? n = some r := by
  unfold Given.string?
  rcases h with h | ⟨b, h⟩ <;> rw [h] <;> exact ⟨_, rfl⟩

theorem typed_double? {o : Given} {n : String} (h : o n = none ∨ ∃ s, o n = some (.double s)) : ∃ r, o.double? n = some r := by
  unfold Given.double?
  rcases h with h | ⟨b, h⟩ <;> rw [h] <;> exact ⟨_, rfl⟩

theorem typed_doubles? {o : Given} {n : String} (h : o n = none ∨ ∃ s, o n = some (.doubles s)) : ∃ r, o.doubles? n = some r := by
  unfold Given.doubles?
  rcases h with h | ⟨b, h⟩ <;> rw [h] <;> exact ⟨_, rfl⟩

theorem typed_thresh {o : Given} {n : String} (h : o n = none ∨ ∃ s, o n = some (.double s)) : ∃ r, o.thresh n = some r := by
  unfold Given.thresh
  rcases h with h | ⟨b, h⟩ <;> rw [h] <;> exact ⟨_, rfl⟩

theorem typed_int {o : Given} {n : String} {d : Int} (h : o n = none ∨ ∃ s, o n = some (.int s)) : ∃ r, o.int n d = some r := by
  unfold Given.int
  rcases h with h | ⟨b, h⟩ <;> rw [h] <;> exact ⟨_, rfl⟩

theorem typed_config {o : Given} {n : String} (h : SensorTyped o n) : ∃ v, loadUpdateConfig o n = some v ∧ v.length = 15 := by
  unfold loadUpdateConfig Given.bools
  rcases h.config with h | ⟨l, h, hl⟩
  · rw [h]
    exact ⟨_, rfl, by simp⟩
  · rw [h]
    exact ⟨_, rfl, hl⟩

theorem starts_odom {o : Given} {n : String} (h : SensorTyped o n) (t : String) :
    ∃ s, readOdom o n t = some s ∧ s.par.config.length = 15 := by
  obtain ⟨x1, h1⟩ := typed_bool (h.bools "_differential" (by decide)) false
  obtain ⟨x2, h2⟩ := typed_bool (h.bools "_relative" (by decide)) false
  obtain ⟨x3, h3⟩ := typed_bool (h.bools "_pose_use_child_frame" (by decide)) false
  obtain ⟨x4, h4⟩ := typed_thresh (h.bounds "_pose_rejection_threshold" (by decide))
  obtain ⟨x5, h5⟩ := typed_thresh (h.bounds "_twist_rejection_threshold" (by decide))
  obtain ⟨x6, h6⟩ := typed_int (d := 10) h.queue
  obtain ⟨x7, h7, hl⟩ := typed_config h
  unfold readOdom
  rw [h1, h2, h3, h4, h5, h6, h7]
  exact ⟨_, rfl, hl⟩

theorem starts_pose {o : Given} {n : String} (h : SensorTyped o n) (t : String) :
    ∃ s, readPose o n t = some s ∧ s.par.config.length = 15 := by
  obtain ⟨x1, h1⟩ := typed_bool (h.bools "_differential" (by decide)) false
  obtain ⟨x2, h2⟩ := typed_bool (h.bools "_relative" (by decide)) false
  obtain ⟨x4, h4⟩ := typed_thresh (h.bounds "_rejection_threshold" (by decide))
  obtain ⟨x6, h6⟩ := typed_int (d := 10) h.queue
  obtain ⟨x7, h7, hl⟩ := typed_config h
  unfold readPose
  rw [h1, h2, h4, h6, h7]
  exact ⟨_, rfl, hl⟩

theorem starts_twist {o : Given} {n : String} (h : SensorTyped o n) (t : String) :
    ∃ s, readTwist o n t = some s ∧ s.par.config.length = 15 := by
  obtain ⟨x4, h4⟩ := typed_thresh (h.bounds "_rejection_threshold" (by decide))
  obtain ⟨x6, h6⟩ := typed_int (d := 10) h.queue
  obtain ⟨x7, h7, hl⟩ := typed_config h
  unfold readTwist
  rw [h4, h6, h7]
  exact ⟨_, rfl, hl⟩

theorem starts_imu {o : Given} {n : String} (h : SensorTyped o n) (t : String) :
    ∃ s, readImu o n t = some s ∧ s.par.config.length = 15 := by
  obtain ⟨x1, h1⟩ := typed_bool (h.bools "_differential" (by decide)) false
  obtain ⟨x2, h2⟩ := typed_bool (h.bools "_relative" (by decide)) false
  obtain ⟨x3, h3⟩ := typed_bool (h.bools "_remove_gravitational_acceleration" (by decide)) false
  obtain ⟨x4, h4⟩ := typed_thresh (h.bounds "_pose_rejection_threshold" (by decide))
  obtain ⟨x5, h5⟩ := typed_thresh (h.bounds "_twist_rejection_threshold" (by decide))
  obtain ⟨x8, h8⟩ := typed_thresh (h.bounds "_linear_acceleration_rejection_threshold" (by decide))
  obtain ⟨x6, h6⟩ := typed_int (d := 10) h.queue
  obtain ⟨x7, h7, hl⟩ := typed_config h
  unfold readImu
  rw [h1, h2, h3, h4, h5, h6, h7, h8]
  exact ⟨_, rfl, hl⟩

theorem mapM_exists {A B : Type} {f : A → Option B} : ∀ (l : List A), (∀ s ∈ l, ∃ d, f s = some d) → ∃ r, l.mapM f = some r := by
  intro l
  induction l with
  | nil => exact fun _ => ⟨[], rfl⟩
  | cons x l ih =>
    intro h
    obtain ⟨d, hd⟩ := h x (by simp)
    obtain ⟨r, hr⟩ := ih fun s hs => h s (by simp [hs])
    exact ⟨d :: r, by rw [List.mapM_cons, hd, hr]; rfl⟩

theorem starts_kind {o : Given} {kind : String} {n : ℕ} (h : KindTyped o kind n) {D : Type} {read : String → String → Option SensorSet}
    {data : SensorPar → Option D} (hr : ∀ m, SensorTyped o m → ∀ t, ∃ s, read m t = some s ∧ s.par.config.length = 15)
    (hd : ∀ s : SensorPar, s.config.length = 15 → ∃ d, data s = some d) :
    ∃ l ds, sensorsFrom (sensorAt o kind read) 0 = some l ∧ l.mapM (fun s => data s.par) = some ds ∧ l.length = n ∧
      ∀ s ∈ l, s.par.config.length = 15 := by
  have hat : ∀ i < n, ∃ s, sensorAt o kind read i = some (some s) ∧ s.par.config.length = 15 := fun i hi => by
    obtain ⟨t, ht⟩ := h.topic i hi
    obtain ⟨s, hs, hl⟩ := hr _ (h.sensor i hi) t
    refine ⟨s, ?_, hl⟩
    simp only [sensorAt, Given.string?, ht, hs, Option.map_some]
  obtain ⟨l, hl, hn⟩ := sensorsFrom_exists (a := sensorAt o kind read) n 0
    (fun k hk => by
      obtain ⟨s, hs, _⟩ := hat k hk
      exact ⟨s, by rw [Nat.zero_add, hs]⟩)
    (by simp only [Nat.zero_add, sensorAt, Given.string?, h.last])
  have hc : ∀ s ∈ l, s.par.config.length = 15 := fun s hs => by
    obtain ⟨i, hi, e⟩ := List.mem_iff_getElem.1 hs
    obtain ⟨s', hs', hl'⟩ := hat i (hn ▸ hi)
    have := sensorsFrom_some hl i hi.le
    rw [Nat.zero_add, hs', List.getElem?_eq_getElem hi, e] at this
    injection this with this
    injection this with this
    rw [← this]
    exact hl'
  obtain ⟨ds, hds⟩ := mapM_exists (f := fun s : SensorSet => data s.par) l fun s hs => hd _ (hc s hs)
  exact ⟨l, ds, hl, hds, hn, hc⟩

theorem starts_odomData (s : SensorPar) (h : s.config.length = 15) : ∃ d, odomData s = some d := by
  obtain ⟨⟨p, t, e, hp, ht⟩, -⟩ := C66_fifteen_partial s.config h
  obtain ⟨p', hp⟩ := Option.isSome_iff_exists.1 hp
  obtain ⟨t', ht⟩ := Option.isSome_iff_exists.1 ht
  exact ⟨_, by unfold odomData; rw [e]; simp only [Option.bind_eq_bind, Option.bind_some, hp, ht]; rfl⟩

theorem starts_poseData (s : SensorPar) (h : s.config.length = 15) : ∃ d, poseData s = some d := by
  obtain ⟨-, ⟨p, e, hp⟩, -⟩ := C66_fifteen_partial s.config h
  obtain ⟨p', hp⟩ := Option.isSome_iff_exists.1 hp
  exact ⟨_, by unfold poseData; rw [e]; simp only [Option.bind_eq_bind, Option.bind_some, hp]; rfl⟩

theorem starts_twistData (s : SensorPar) (h : s.config.length = 15) : ∃ d, twistData s = some d := by
  obtain ⟨-, -, ⟨p, e, hp⟩, -⟩ := C66_fifteen_partial s.config h
  obtain ⟨p', hp⟩ := Option.isSome_iff_exists.1 hp
  exact ⟨_, by unfold twistData; rw [e]; simp only [Option.bind_eq_bind, Option.bind_some, hp]; rfl⟩

theorem starts_imuData (s : SensorPar) (h : s.config.length = 15) : ∃ d, imuData s = some d := by
  obtain ⟨-, -, -, ⟨p, e1, hp⟩, ⟨t, e2, ht⟩, ⟨a, e3, ha⟩⟩ := C66_fifteen_partial s.config h
  obtain ⟨p', hp⟩ := Option.isSome_iff_exists.1 hp
  obtain ⟨t', ht⟩ := Option.isSome_iff_exists.1 ht
  obtain ⟨a', ha⟩ := Option.isSome_iff_exists.1 ha
  exact ⟨_, by unfold imuData; rw [e1, e2, e3]; simp only [Option.bind_eq_bind, Option.bind_some, hp, ht, ha]; rfl⟩

theorem starts_inputs {o : Given} {a b c d : ℕ} (h1 : KindTyped o "odom" a) (h2 : KindTyped o "pose" b) (h3 : KindTyped o "twist" c)
    (h4 : KindTyped o "imu" d) : ∃ i, readInputs o = some i ∧ i.odoms.length = a ∧ i.poses.length = b ∧ i.twists.length = c ∧
      i.imus.length = d ∧ ∀ s ∈ i.imus, s.par.config.length = 15 := by
  obtain ⟨l1, d1, e1, f1, n1, -⟩ := starts_kind h1 (fun _ => starts_odom) starts_odomData
  obtain ⟨l2, d2, e2, f2, n2, -⟩ := starts_kind h2 (fun _ => starts_pose) starts_poseData
  obtain ⟨l3, d3, e3, f3, n3, -⟩ := starts_kind h3 (fun _ => starts_twist) starts_twistData
  obtain ⟨l4, d4, e4, f4, n4, c4⟩ := starts_kind h4 (fun _ => starts_imu) starts_imuData
  unfold readInputs
  simp only [e1, f1, e2, f2, e3, f3, e4, f4, Option.bind_eq_bind, Option.bind_some]
  exact ⟨_, rfl, n1, n2, n3, n4, c4⟩

theorem toInt64_fits {x : ℝ} (h : |x| ≤ 9223372036854775807) : ∃ k, toInt64 x = some k ∧ (0 ≤ x → 0 ≤ k) := by
  have h1 := abs_le.1 h
  unfold toInt64
  dsimp only
  by_cases h0 : 0 ≤ x
  · rw [if_pos h0, if_pos]
    · exact ⟨_, rfl, fun _ => Int.floor_nonneg.2 h0⟩
    · constructor
      · have := Int.floor_nonneg.2 h0
        omega
      · have h2 : (⌊x⌋ : ℝ) ≤ 9223372036854775807 := (Int.floor_le x).trans h1.2
        exact_mod_cast h2
  · rw [if_neg h0, if_pos]
    · exact ⟨_, rfl, fun h => absurd h h0⟩
    · constructor
      · have h2 : (-9223372036854775807 : ℝ) ≤ ⌈x⌉ := h1.1.trans (Int.le_ceil x)
        have h3 : (-9223372036854775807 : Int) ≤ ⌈x⌉ := by exact_mod_cast h2
        omega
      · have := Int.ceil_le.2 (show x ≤ ((0 : Int) : ℝ) by push_cast; linarith)
        omega

theorem starts_times {o : Given} (h : NodeTyped o) : ∃ t, readTimes o = some t := by
  have hnum : ∀ n d x, Fits o n → o.Num n d x → |d * 1000000000| ≤ 9223372036854775807 → |x * 1000000000| ≤ 9223372036854775807 := by
    rintro n d x hf (hx | ⟨-, rfl⟩) hd
    · exact hf x hx
    · exact hd
  obtain ⟨x1, h1⟩ := typed_double (h.doubles "transform_time_offset" (by decide)) 0
  obtain ⟨x2, h2⟩ := typed_double (h.doubles "transform_timeout" (by decide)) 0
  obtain ⟨x3, h3⟩ := typed_double? (h.doubles "frequency" (by decide))
  obtain ⟨x4, h4⟩ := typed_double? (h.doubles "sensor_timeout" (by decide))
  obtain ⟨x5, h5⟩ := typed_double? (h.doubles "history_length" (by decide))
  obtain ⟨x6, h6⟩ := typed_double? (h.doubles "control_timeout" (by decide))
  have h0 : |(0 : ℝ) * 1000000000| ≤ 9223372036854775807 := by norm_num
  obtain ⟨hf, hf'⟩ := h.frequency _ (double?_num h3 30)
  have hq : |1000000000 / x3.getD 30| ≤ 9223372036854775807 := by
    rw [abs_of_nonneg (by positivity)]
    exact hf'
  obtain ⟨k1, e1, -⟩ := toInt64_fits (hnum _ _ _ (h.fits "transform_time_offset" (by decide)) (double_num h1) h0)
  obtain ⟨k2, e2, -⟩ := toInt64_fits (hnum _ _ _ (h.fits "transform_timeout" (by decide)) (double_num h2) h0)
  obtain ⟨k3, e3, p3⟩ := toInt64_fits hq
  obtain ⟨k4, e4, -⟩ := toInt64_fits (hnum _ _ _ (h.fits "sensor_timeout" (by decide)) (double?_num h4 (1 / x3.getD 30))
    (by rw [one_div_mul_eq_div]; exact hq))
  obtain ⟨k5, e5, -⟩ := toInt64_fits (x := |x5.getD 0| * 1000000000) (by
    have := hnum _ _ _ (h.fits "history_length" (by decide)) (double?_num h5 0) h0
    rw [abs_mul, abs_abs, ← abs_mul]
    exact this)
  obtain ⟨k6, e6, -⟩ := toInt64_fits (hnum _ _ _ (h.fits "control_timeout" (by decide)) (double?_num h6 0) h0)
  have e7 : nodePeriod (x3.getD 30) = some k3 := by
    unfold nodePeriod
    rw [if_neg hf.ne', e3]
    exact if_neg (not_lt.2 (p3 (by positivity)))
  unfold readTimes loadTimes fromSeconds
  simp only [h1, h2, h3, h4, h5, h6, e1, e2, e4, e5, e6, e7, Option.bind_eq_bind, Option.bind_some]
  exact ⟨_, rfl⟩

theorem starts_switches {o : Given} (h : NodeTyped o) : ∃ s, readSwitches o = some s := by
  obtain ⟨x1, h1⟩ := typed_bool (h.bools "print_diagnostics" (by decide)) false
  obtain ⟨x2, h2⟩ := typed_bool (h.bools "debug" (by decide)) false
  obtain ⟨x3, h3⟩ := typed_bool (h.bools "publish_tf" (by decide)) true
  obtain ⟨x4, h4⟩ := typed_bool (h.bools "publish_acceleration" (by decide)) false
  obtain ⟨x5, h5⟩ := typed_bool (h.bools "permit_corrected_publication" (by decide)) false
  obtain ⟨x6, h6⟩ := typed_bool (h.bools "predict_to_current_time" (by decide)) false
  obtain ⟨x7, h7⟩ := typed_bool (h.bools "two_d_mode" (by decide)) false
  obtain ⟨x8, h8⟩ := typed_bool (h.bools "smooth_lagged_data" (by decide)) false
  obtain ⟨x9, h9⟩ := typed_bool (h.bools "reset_on_time_jump" (by decide)) false
  obtain ⟨x10, h10⟩ := typed_bool (h.bools "use_control" (by decide)) false
  obtain ⟨x11, h11⟩ := typed_bool (h.bools "dynamic_process_noise_covariance" (by decide)) false
  obtain ⟨x12, h12⟩ := typed_bool (h.bools "disabled_at_startup" (by decide)) false
  unfold readSwitches
  simp only [h1, h2, h3, h4, h5, h6, h7, h8, h9, h10, h11, h12, Option.bind_eq_bind, Option.bind_some]
  exact ⟨_, rfl⟩

theorem starts_frames {o : Given} (h : NodeTyped o) : ∃ f, readFrames o = some f := by
  obtain ⟨x1, h1⟩ := typed_string? (h.strings "map_frame" (by decide))
  obtain ⟨x2, h2⟩ := typed_string? (h.strings "odom_frame" (by decide))
  obtain ⟨x3, h3⟩ := typed_string? (h.strings "base_link_frame" (by decide))
  obtain ⟨x4, h4⟩ := typed_string? (h.strings "base_link_frame_output" (by decide))
  obtain ⟨x5, h5⟩ := typed_string? (h.strings "world_frame" (by decide))
  obtain ⟨x6, h6⟩ := typed_string? (h.strings "tf_prefix" (by decide))
  unfold readFrames
  simp only [h1, h2, h3, h4, h5, h6, Option.bind_eq_bind, Option.bind_some]
  exact ⟨_, rfl⟩

theorem starts_control {o : Given} (h : NodeTyped o) {b : Bool} (hb : b = true ↔ o.On "use_control") :
    ∃ p, readControlLists o b = some p ∧ 3 ≤ (loadControl p).upd.length := by
  unfold readControlLists
  by_cases hu : b = true
  · obtain ⟨l, hl, hn⟩ := h.config (hb.1 hu)
    obtain ⟨x1, h1⟩ := typed_doubles? (h.lists "acceleration_limits" (by decide))
    obtain ⟨x2, h2⟩ := typed_doubles? (h.lists "acceleration_gains" (by decide))
    obtain ⟨x3, h3⟩ := typed_doubles? (h.lists "deceleration_limits" (by decide))
    obtain ⟨x4, h4⟩ := typed_doubles? (h.lists "deceleration_gains" (by decide))
    rw [if_pos hu]
    simp only [Given.bools?, hl, h1, h2, h3, h4, Option.bind_eq_bind, Option.bind_some]
    refine ⟨_, rfl, ?_⟩
    simp [loadControl, hn]
  · rw [if_neg hu]
    exact ⟨_, rfl, by simp [loadControl]⟩

theorem starts_cov {o : Given} (h : NodeTyped o) {n : String} (hn : n ∈ ["process_noise_covariance", "initial_estimate_covariance"])
    (m : Mat15) : ∃ r, readCov o n m = some r := by
  unfold readCov Given.doubles?
  rcases h.covs n hn with h | ⟨l, h, hl | hl⟩ <;> rw [h]
  · exact ⟨_, rfl⟩
  · simp only [loadCovParam, loadCovariance, hl, if_true]
    exact ⟨_, rfl⟩
  · simp only [loadCovParam, loadCovariance, hl]
    norm_num

/-- **C102**: a node starts if its parameters have the right types and sizes and the numbering of its inputs ends; it has as
many inputs of each kind as are numbered. -/
theorem C102_starts {o : Given} (h : NodeTyped o) {a b c d : ℕ} (h1 : KindTyped o "odom" a) (h2 : KindTyped o "pose" b)
    (h3 : KindTyped o "twist" c) (h4 : KindTyped o "imu" d) : ∃ n, loadNode o = some n ∧ n.inputs.odoms.length = a ∧
      n.inputs.poses.length = b ∧ n.inputs.twists.length = c ∧ n.inputs.imus.length = d := by
  obtain ⟨sw, e1⟩ := starts_switches h
  obtain ⟨g, e2⟩ := typed_double (h.doubles "gravitational_acceleration" (by decide)) 9.80665
  obtain ⟨f, e3⟩ := starts_frames h
  obtain ⟨t, e4⟩ := starts_times h
  obtain ⟨p, e5, hp⟩ := starts_control h (readSwitches_doc e1).useControl
  obtain ⟨x, e6⟩ := typed_doubles? h.initial
  obtain ⟨i, e7, n1, n2, n3, n4, hc⟩ := starts_inputs h1 h2 h3 h4
  obtain ⟨u, e8, -, -⟩ := imus_fold (i.imus.map fun s => s.par.config) (by
    intro v hv
    obtain ⟨s, hs, rfl⟩ := List.mem_map.1 hv
    exact hc s hs) _ hp
  obtain ⟨q, e9⟩ := starts_cov h (n := "process_noise_covariance") (by decide) defaultQ
  obtain ⟨r, e10⟩ := starts_cov h (n := "initial_estimate_covariance") (by decide) ((1e-9 : ℝ) • 1)
  unfold loadNode finalControl
  simp only [e1, e2, e3, e4, e5, e6, e7, e8, e9, e10, Option.bind_eq_bind, Option.bind_some]
  exact ⟨_, rfl, n1, n2, n3, n4⟩

/-- Parameters of a node with an odometry input and an IMU, in planar mode, at 50 Hz; the third odometry input is not
numbered after the first. -/
def sampleParams : Given := fun n =>
  if n = "two_d_mode" then some (.bool true)
  else if n = "frequency" then some (.double 50)
  else if n = "world_frame" then some (.string "map")
  else if n = "odom0" then some (.string "wheels")
  else if n = "odom0_config" then some (.bools (List.replicate 15 true))
  else if n = "odom0_twist_rejection_threshold" then some (.double 4)
  else if n = "odom2" then some (.string "vision")
  else if n = "imu0" then some (.string "imu/data")
  else if n = "imu0_differential" then some (.bool true)
  else none

theorem name0 (k : String) : inputName k 0 = k ++ "0" := by
  unfold inputName
  rw [decimal]
  rfl

theorem name1 (k : String) : inputName k 1 = k ++ "1" := by
  unfold inputName
  rw [decimal]
  rfl

theorem sample_typed : NodeTyped sampleParams where
  bools := by simp [switchNames, sampleParams]
  strings := by simp [sampleParams]
  doubles := by simp [sampleParams]
  fits := by simp [Fits, sampleParams]
  frequency := by
    intro f hf
    have : f = 50 := by
      rcases hf with hf | ⟨hf, -⟩
      · simpa [sampleParams, eq_comm] using hf
      · simp [sampleParams] at hf
    subst this
    norm_num
  initial := by simp [sampleParams]
  covs := by simp [sampleParams]
  config := by simp [Given.On, sampleParams]
  lists := by simp [sampleParams]

theorem sample_sensor (k : String) (hk : k = "odom" ∨ k = "imu") : SensorTyped sampleParams (k ++ "0") := by
  rcases hk with rfl | rfl <;> constructor <;> simp [sampleParams]

/-- The hypotheses of `C102_starts` are met, and those of `C102_settings_partial` then are. -/
example : ∃ n, loadNode sampleParams = some n ∧ n.inputs.odoms.length = 1 ∧ n.inputs.poses.length = 0 ∧
    n.inputs.twists.length = 0 ∧ n.inputs.imus.length = 1 :=
  C102_starts sample_typed
    ⟨fun i hi => by
      have : i = 0 := by omega
      subst this
      rw [name0]
      exact ⟨"wheels", by simp [sampleParams]⟩,
     fun i hi => by
      have : i = 0 := by omega
      subst this
      rw [name0]
      exact sample_sensor "odom" (Or.inl rfl),
     by rw [name1]; simp [sampleParams]⟩
    ⟨fun i hi => absurd hi (by omega), fun i hi => absurd hi (by omega), by rw [name0]; simp [sampleParams]⟩
    ⟨fun i hi => absurd hi (by omega), fun i hi => absurd hi (by omega), by rw [name0]; simp [sampleParams]⟩
    ⟨fun i hi => by
      have : i = 0 := by omega
      subst this
      rw [name0]
      exact ⟨"imu/data", by simp [sampleParams]⟩,
     fun i hi => by
      have : i = 0 := by omega
      subst this
      rw [name0]
      exact sample_sensor "imu" (Or.inr rfl),
     by rw [name1]; simp [sampleParams]⟩

end RL
