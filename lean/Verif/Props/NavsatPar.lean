import Verif.Model.NavsatPar
import Verif.Props.NavsatTf
import Verif.Props.NavsatHeading
/-! # C99: the documented parameters of the satellite navigation node do what the documentation says

The documentation is `/repo/doc/navsat_transform_node.rst` and the comments in `/repo/params/navsat_transform.yaml`; the
names with "cartesian" are the ones that the warnings of the node recommend. -/

namespace RL.Nav
open Matrix

/-- The user has set a switch. -/
def Given.On (o : Given) (name : String) : Prop := o name = some (.bool true)

/-- A number as documented: the one set, or the default. -/
def Given.Num (o : Given) (name : String) (dflt x : ℝ) : Prop := o name = some (.double x) ∨ (o name = none ∧ x = dflt)

/-- No parameter has a value of the wrong type. -/
structure Typed (o : Given) : Prop where
  bools : ∀ n ∈ ["zero_altitude", "publish_filtered_gps", "use_odometry_yaw", "wait_for_datum", "use_local_cartesian",
    "broadcast_utm_transform", "broadcast_cartesian_transform", "broadcast_utm_transform_as_parent_frame_",
    "broadcast_cartesian_transform_as_parent_frame"], o n = none ∨ ∃ b, o n = some (.bool b)
  doubles : ∀ n ∈ ["magnetic_declination_radians", "yaw_offset", "frequency", "delay", "transform_timeout"],
    o n = none ∨ ∃ x, o n = some (.double x)
  datum : o "datum" = none ∨ ∃ l, o "datum" = some (.doubles l)

/-- What the documentation promises about a node with these parameters, except for the points that are refuted below. -/
structure Documented (o : Given) (c : Conf) : Prop where
  declination : o.Num "magnetic_declination_radians" 0 c.par.declination
  yawOffset : o.Num "yaw_offset" 0 c.par.yawOffset
  zeroAlt : c.par.zeroAlt = true ↔ o.On "zero_altitude"
  publishGps : o "publish_filtered_gps" ≠ none → (c.par.publishGps = true ↔ o.On "publish_filtered_gps")
  odomYaw : c.par.odomYaw = true ↔ o.On "use_odometry_yaw"
  useLocal : c.par.useLocal = true ↔ o.On "use_local_cartesian"
  broadcast : c.broadcast = true ↔ o.On "broadcast_utm_transform" ∨ o.On "broadcast_cartesian_transform"
  asParent : ¬o.On "broadcast_utm_transform_as_parent_frame_" →
    (c.asParent = true ↔ o.On "broadcast_cartesian_transform_as_parent_frame")
  wait : c.wait = true ↔ o.On "wait_for_datum"
  noDatum : ¬o.On "wait_for_datum" → c.datum = none
  datum : o.On "wait_for_datum" → ∀ lat lon yaw, o "datum" = some (.doubles [lat, lon, yaw]) →
    c.datum = some { lat := lat, lon := lon, alt := 0, ori := Quat.ofRPY 0 0 yaw }
  sleep : ∀ d, o.Num "delay" 0 d → |d - c.sleep| < 1 ∧ ((∃ k : Int, d = k) → d = c.sleep)
  period : ∀ f, o.Num "frequency" 10 f → 0 < f ∧ (c.period : ℝ) ≤ 1000000000 / f ∧ 1000000000 / f < c.period + 1

theorem bool_on {o : Given} {n : String} {b : Bool} (h : o.bool n false = some b) : b = true ↔ o.On n := by
  unfold Given.bool at h
  unfold Given.On
  split at h
  · rename_i e
    rw [e]
    injection h with h
    rw [← h]
    simp
  · rename_i b' e
    injection h with h
    rw [e, h]
    simp
  · cases h

theorem bool_set {o : Given} {n : String} {d b : Bool} (h : o.bool n d = some b) (hs : o n ≠ none) : b = true ↔ o.On n := by
  unfold Given.bool at h
  unfold Given.On
  split at h
  · rename_i e
    exact absurd e hs
  · rename_i b' e
    injection h with h
    rw [e, h]
    simp
  · cases h

theorem double_num {o : Given} {n : String} {d x : ℝ} (h : o.double n d = some x) : o.Num n d x := by
  unfold Given.double at h
  split at h
  · rename_i e
    injection h with h
    exact Or.inr ⟨e, h.symm⟩
  · rename_i x' e
    injection h with h
    rw [← h]
    exact Or.inl e
  · cases h

theorem Given.Num.unique {o : Given} {n : String} {d x y : ℝ} (hx : o.Num n d x) (hy : o.Num n d y) : x = y := by
  rcases hx with hx | ⟨hx, rfl⟩ <;> rcases hy with hy | ⟨hy, rfl⟩
  · rw [hx] at hy
    injection hy with hy
    injection hy
  · rw [hx] at hy
    cases hy
  · rw [hx] at hy
    cases hy
  · rfl

theorem renamed_on {o : Given} {a b : String} {r : Bool} (h : o.renamed a b = some r) : r = true ↔ o.On a ∨ o.On b := by
  unfold Given.renamed at h
  rw [Option.bind_eq_bind, Option.bind_eq_some_iff] at h
  obtain ⟨x, hx, h⟩ := h
  have h1 := bool_on hx
  cases x with
  | true =>
    simp only [if_true] at h
    injection h with h
    rw [← h]
    exact ⟨fun _ => Or.inl (h1.1 rfl), fun _ => rfl⟩
  | false =>
    simp only [Bool.false_eq_true, if_false] at h
    have h2 := bool_on h
    rw [h2]
    exact ⟨Or.inr, fun h => h.resolve_left fun h => by cases h1.2 h⟩

theorem toInt64_eq {d : ℝ} {k : Int} (h : toInt64 d = some k) : k = if 0 ≤ d then ⌊d⌋ else ⌈d⌉ := by
  unfold toInt64 at h
  revert h
  generalize (if 0 ≤ d then ⌊d⌋ else ⌈d⌉) = r
  intro h
  dsimp only at h
  split at h
  · injection h with h
    exact h.symm
  · cases h

theorem toInt64_near {d : ℝ} {k : Int} (h : toInt64 d = some k) : |d - k| < 1 ∧ ((∃ j : Int, d = j) → d = k) := by
  rw [toInt64_eq h]
  split
  · refine ⟨?_, ?_⟩
    · rw [abs_lt]
      constructor <;> linarith [Int.floor_le d, Int.lt_floor_add_one d]
    · rintro ⟨j, rfl⟩
      simp
  · refine ⟨?_, ?_⟩
    · rw [abs_lt]
      constructor <;> linarith [Int.le_ceil d, Int.ceil_lt_add_one d]
    · rintro ⟨j, rfl⟩
      simp

/-- All that is read, when the node starts. -/
theorem construct_some {o : Given} {c : Conf} (h : construct o = some c) :
    o.double "magnetic_declination_radians" 0 = some c.par.declination ∧ o.double "yaw_offset" 0 = some c.par.yawOffset ∧
    o.bool "zero_altitude" false = some c.par.zeroAlt ∧ o.bool "publish_filtered_gps" true = some c.par.publishGps ∧
    o.bool "use_odometry_yaw" false = some c.par.odomYaw ∧ o.bool "wait_for_datum" false = some c.wait ∧
    o.bool "use_local_cartesian" false = some c.par.useLocal ∧
    (∃ f, o.double "frequency" 10 = some f ∧ timerPeriod f = some c.period) ∧
    (∃ d, o.double "delay" 0 = some d ∧ toInt64 d = some c.sleep) ∧
    o.renamed "broadcast_utm_transform" "broadcast_cartesian_transform" = some c.broadcast ∧
    o.renamed "broadcast_utm_transform_as_parent_frame_" "broadcast_cartesian_transform_as_parent_frame" = some c.asParent ∧
    o.datum c.wait = some c.datum := by
  unfold construct at h
  obtain ⟨x1, h1, h⟩ := Option.bind_eq_some_iff.1 h
  obtain ⟨x2, h2, h⟩ := Option.bind_eq_some_iff.1 h
  obtain ⟨x3, h3, h⟩ := Option.bind_eq_some_iff.1 h
  obtain ⟨x4, h4, h⟩ := Option.bind_eq_some_iff.1 h
  obtain ⟨x5, h5, h⟩ := Option.bind_eq_some_iff.1 h
  obtain ⟨x6, h6, h⟩ := Option.bind_eq_some_iff.1 h
  obtain ⟨x7, h7, h⟩ := Option.bind_eq_some_iff.1 h
  obtain ⟨x8, h8, h⟩ := Option.bind_eq_some_iff.1 h
  obtain ⟨x9, h9, h⟩ := Option.bind_eq_some_iff.1 h
  obtain ⟨x10, h10, h⟩ := Option.bind_eq_some_iff.1 h
  obtain ⟨x11, h11, h⟩ := Option.bind_eq_some_iff.1 h
  obtain ⟨x12, h12, h⟩ := Option.bind_eq_some_iff.1 h
  obtain ⟨x13, h13, h⟩ := Option.bind_eq_some_iff.1 h
  obtain ⟨x14, h14, h⟩ := Option.bind_eq_some_iff.1 h
  obtain ⟨x15, h15, h⟩ := Option.bind_eq_some_iff.1 h
  injection h with h
  subst h
  exact ⟨h1, h2, h3, h4, h5, h6, h7, ⟨_, h8, h15⟩, ⟨_, h9, h14⟩, h11, h12, h13⟩

/-- **C99**, the part that holds: whatever parameters are set, a node that starts has the settings that the documentation
promises.  Not among them: the documented name for the direction of the broadcast (`C99_parent_name`), the fraction of a
second of the delay (`C99_delay`), waiting for the service (`C99_no_wait`), and the default for `publish_filtered_gps`
(`C99_filtered_default`). -/
theorem C99_settings_partial {o : Given} {c : Conf} (h : construct o = some c) : Documented o c := by
  obtain ⟨h1, h2, h3, h4, h5, h6, h7, ⟨f, h8, h8'⟩, ⟨d, h9, h9'⟩, h11, h12, h13⟩ := construct_some h
  refine ⟨double_num h1, double_num h2, bool_on h3, bool_set h4, bool_on h5, bool_on h7, renamed_on h11, fun hn => ?_,
    bool_on h6, fun hn => ?_, fun hw lat lon yaw hd => ?_, fun d' hd' => ?_, fun f' hf' => ?_⟩
  · rw [renamed_on h12]
    exact or_iff_right hn
  · unfold Given.datum at h13
    rw [if_neg (by rw [bool_on h6]; exact hn)] at h13
    injection h13 with h13
    exact h13.symm
  · unfold Given.datum at h13
    rw [if_pos ((bool_on h6).2 hw)] at h13
    simp only [Given.doubles, hd, Option.map_some, Function.comp_apply, paramDatum, Option.some.injEq] at h13
    exact h13.symm
  · rw [hd'.unique (double_num h9)]
    exact toInt64_near h9'
  · rw [hf'.unique (double_num h8)]
    unfold timerPeriod at h8'
    split at h8'
    · rename_i hp
      injection h8' with h8'
      rw [← h8']
      exact ⟨hp.1, Int.floor_le _, Int.lt_floor_add_one _⟩
    · cases h8'

theorem typed_bool {o : Given} {n : String} (h : o n = none ∨ ∃ b, o n = some (.bool b)) (d : Bool) : ∃ b, o.bool n d = some b := by
  unfold Given.bool
  rcases h with h | ⟨b, h⟩ <;> rw [h] <;> exact ⟨_, rfl⟩

theorem typed_double {o : Given} {n : String} (h : o n = none ∨ ∃ x, o n = some (.double x)) (d : ℝ) : ∃ x, o.double n d = some x := by
  unfold Given.double
  rcases h with h | ⟨b, h⟩ <;> rw [h] <;> exact ⟨_, rfl⟩

/-- **C99**: a node with parameters of the right types starts, if the timer can have its frequency and the delay is a
number of seconds that fits. -/
theorem C99_starts {o : Given} (ht : Typed o)
    (hf : ∀ f, o.Num "frequency" 10 f → 0 < f ∧ 1000000000 / f ≤ 9223372036854775807)
    (hd : ∀ d, o.Num "delay" 0 d → |d| ≤ 9223372036854775807) : ∃ c, construct o = some c := by
  obtain ⟨x1, h1⟩ := typed_double (ht.doubles "magnetic_declination_radians" (by simp)) 0
  obtain ⟨x2, h2⟩ := typed_double (ht.doubles "yaw_offset" (by simp)) 0
  obtain ⟨x3, h3⟩ := typed_bool (ht.bools "zero_altitude" (by simp)) false
  obtain ⟨x4, h4⟩ := typed_bool (ht.bools "publish_filtered_gps" (by simp)) true
  obtain ⟨x5, h5⟩ := typed_bool (ht.bools "use_odometry_yaw" (by simp)) false
  obtain ⟨x6, h6⟩ := typed_bool (ht.bools "wait_for_datum" (by simp)) false
  obtain ⟨x7, h7⟩ := typed_bool (ht.bools "use_local_cartesian" (by simp)) false
  obtain ⟨x8, h8⟩ := typed_double (ht.doubles "frequency" (by simp)) 10
  obtain ⟨x9, h9⟩ := typed_double (ht.doubles "delay" (by simp)) 0
  obtain ⟨x10, h10⟩ := typed_double (ht.doubles "transform_timeout" (by simp)) 0
  have hren : ∀ a b : String, (o a = none ∨ ∃ x, o a = some (.bool x)) → (o b = none ∨ ∃ x, o b = some (.bool x)) →
      ∃ r, o.renamed a b = some r := by
    intro a b ha hb
    obtain ⟨x, hx⟩ := typed_bool ha false
    unfold Given.renamed
    rw [hx]
    cases x with
    | true => exact ⟨_, rfl⟩
    | false => exact typed_bool hb false
  obtain ⟨x11, h11⟩ := hren _ _ (ht.bools "broadcast_utm_transform" (by simp)) (ht.bools "broadcast_cartesian_transform" (by simp))
  obtain ⟨x12, h12⟩ := hren _ _ (ht.bools "broadcast_utm_transform_as_parent_frame_" (by simp))
    (ht.bools "broadcast_cartesian_transform_as_parent_frame" (by simp))
  obtain ⟨x13, h13⟩ : ∃ x, o.datum x6 = some x := by
    unfold Given.datum
    split
    · unfold Given.doubles
      rcases ht.datum with h | ⟨l, h⟩ <;> rw [h] <;> exact ⟨_, rfl⟩
    · exact ⟨_, rfl⟩
  obtain ⟨x14, h14⟩ : ∃ x, toInt64 x9 = some x := by
    have hb := abs_le.1 (hd x9 (double_num h9))
    unfold toInt64
    simp only
    rw [if_pos]
    · exact ⟨_, rfl⟩
    · split
      · constructor
        · have : (0 : ℤ) ≤ ⌊x9⌋ := Int.floor_nonneg.2 (by assumption)
          omega
        · have := (Int.floor_le x9).trans hb.2
          exact_mod_cast this
      · constructor
        · have := hb.1.trans (Int.le_ceil x9)
          have h' : (-9223372036854775807 : ℤ) ≤ ⌈x9⌉ := by exact_mod_cast this
          omega
        · have : ⌈x9⌉ ≤ 0 := Int.ceil_le.2 (by push_cast; linarith)
          omega
  obtain ⟨x15, h15⟩ : ∃ x, timerPeriod x8 = some x := by
    unfold timerPeriod
    rw [if_pos (hf x8 (double_num h8))]
    exact ⟨_, rfl⟩
  unfold construct
  simp only [h1, h2, h3, h4, h5, h6, h7, h8, h9, h10, h11, h12, h13, h14, h15, Option.bind_eq_bind, Option.bind_some]
  exact ⟨_, rfl⟩

/-! ## What the documentation promises and the node does not do -/

theorem construct_congr {o o' : Given} (n : String) (h : ∀ m, m ≠ n → o m = o' m)
    (hn : n = "broadcast_utm_transform_as_parent_frame") : construct o = construct o' := by
  subst hn
  have e : ∀ m, m ≠ "broadcast_utm_transform_as_parent_frame" → ∀ b, o.bool m b = o'.bool m b := by
    intro m hm b
    unfold Given.bool
    rw [h m hm]
  have e2 : ∀ m, m ≠ "broadcast_utm_transform_as_parent_frame" → ∀ b, o.double m b = o'.double m b := by
    intro m hm b
    unfold Given.double
    rw [h m hm]
  have e3 : ∀ m, m ≠ "broadcast_utm_transform_as_parent_frame" → ∀ b, o.doubles m b = o'.doubles m b := by
    intro m hm b
    unfold Given.doubles
    rw [h m hm]
  unfold construct Given.renamed Given.datum
  simp only [e "zero_altitude" (by decide), e "publish_filtered_gps" (by decide), e "use_odometry_yaw" (by decide),
    e "wait_for_datum" (by decide), e "use_local_cartesian" (by decide), e "broadcast_utm_transform" (by decide),
    e "broadcast_cartesian_transform" (by decide), e "broadcast_utm_transform_as_parent_frame_" (by decide),
    e "broadcast_cartesian_transform_as_parent_frame" (by decide), e2 "magnetic_declination_radians" (by decide),
    e2 "yaw_offset" (by decide), e2 "frequency" (by decide), e2 "delay" (by decide), e2 "transform_timeout" (by decide),
    e3 "datum" (by decide)]

/-- The frames of every transform that is sent. -/
theorem step_sent (g : Geo) (p : Par) (bc ap : Bool) (s : St) (e : Ev) (o : Out) (ho : o ∈ (step g p bc ap s e).outs) (t : Tf)
    (a b : String) (hs : o.sentTf = some (t, a, b)) : (if ap then a else b) = if p.useLocal then "local_enu" else "utm" := by
  cases e with
  | fix m => cases ho
  | imu buf m => cases ho
  | odom buf m => cases ho
  | timer buf =>
    by_cases hg : s.good = true
    · rw [timer_quiet g buf p bc ap s hg o ho] at hs
      cases hs
    · simp only [step, St.timer, if_neg hg] at ho
      split at ho <;> split at ho
      all_goals first
        | cases ho; done
        | rw [List.mem_singleton] at ho
          rw [ho] at hs
          simp only [Out.sentTf, Option.some.injEq, Prod.mk.injEq] at hs
          obtain ⟨-, h1, h2⟩ := hs
          rw [← h1, ← h2]
          cases ap <;> rfl
  | datum d => cases ho
  | toLL v =>
    simp only [step, Option.mem_toList, St.toLL] at ho
    split at ho
    · rw [Option.map_eq_some_iff] at ho
      obtain ⟨_, -, rfl⟩ := ho
      cases hs
    · injection ho with ho
      rw [← ho] at hs
      cases hs
  | fromLL lat lon alt =>
    simp only [step, Option.mem_toList, St.fromLL] at ho
    rw [Option.map_eq_some_iff] at ho
    obtain ⟨v, -, rfl⟩ := ho
    split at hs <;> cases hs
  | setZone z =>
    cases z <;> cases ho

theorem run_sent (g : Geo) (p : Par) (bc ap : Bool) (es : List Ev) : ∀ (s : St) (o : Out), o ∈ (run g p bc ap s es).outs →
    ∀ (t : Tf) (a b : String), o.sentTf = some (t, a, b) → (if ap then a else b) = if p.useLocal then "local_enu" else "utm" := by
  induction es with
  | nil =>
    intro s o ho
    cases ho
  | cons e es ih =>
    intro s o ho t a b hs
    simp only [run] at ho
    split at ho
    · exact step_sent g p bc ap s e o ho t a b hs
    · rcases List.mem_append.1 ho with ho | ho
      · exact step_sent g p bc ap s e o ho t a b hs
      · exact ih _ o ho t a b hs

/-- **C99**, refuted for the direction of the broadcast: the documented parameter
`broadcast_utm_transform_as_parent_frame` has no effect whatever its value, because the node reads a name with another
underscore at the end.  When it is the only one set, all transforms that are ever sent have the projection as the
child. -/
theorem C99_parent_name (g : Geo) (o : Given) (v : Option PVal) :
    construct (Function.update o "broadcast_utm_transform_as_parent_frame" v) = construct o ∧
    ∀ c, construct o = some c → o "broadcast_utm_transform_as_parent_frame_" = none →
      o "broadcast_cartesian_transform_as_parent_frame" = none → ∀ s es out t a b, out ∈ (run g c.par c.broadcast c.asParent s es).outs →
      Out.sentTf out = some (t, a, b) → b = if c.par.useLocal then "local_enu" else "utm" := by
  refine ⟨construct_congr "broadcast_utm_transform_as_parent_frame" (fun m hm => Function.update_of_ne hm _ _) rfl,
    fun c hc h1 h2 s es out t a b ho hs => ?_⟩
  obtain ⟨-, -, -, -, -, -, -, -, -, -, h12, -⟩ := construct_some hc
  have hap : c.asParent = false := by
    rw [Bool.eq_false_iff, ne_eq, renamed_on h12]
    unfold Given.On
    rw [h1, h2]
    simp
  have := run_sent g c.par c.broadcast c.asParent es s out ho t a b hs
  rw [hap] at this
  rw [hap] at ho
  exact this

/-- **C99**, refuted for the delay: a delay of less than a second is none. -/
theorem C99_delay {o : Given} {c : Conf} (h : construct o = some c) {d : ℝ} (hd : o "delay" = some (.double d)) (h1 : |d| < 1) :
    c.sleep = 0 := by
  obtain ⟨-, -, -, -, -, -, -, -, ⟨d', h9, h9'⟩, -⟩ := construct_some h
  unfold Given.double at h9
  rw [hd] at h9
  injection h9 with h9
  subst h9
  rw [abs_lt] at h1
  rw [toInt64_eq h9']
  split
  · rw [Int.floor_eq_zero_iff]
    exact ⟨by assumption, h1.2⟩
  · rw [Int.ceil_eq_zero_iff]
    constructor <;> linarith

/-- **C99**, refuted for the default: the filtered positions are published unless that is switched off, although the
parameter file says "Defaults to false". -/
theorem C99_filtered_default {o : Given} {c : Conf} (h : construct o = some c) (hn : o "publish_filtered_gps" = none) :
    c.par.publishGps = true := by
  obtain ⟨-, -, -, h4, -⟩ := construct_some h
  unfold Given.bool at h4
  rw [hn] at h4
  injection h4 with h4
  exact h4.symm

/-- **C99**, refuted for waiting: a node that has to wait for a datum, with no datum in the parameters (or a list without
three numbers), does not wait until the service is called.  After the first odometry message it takes the place at
latitude and longitude zero, and answers. -/
theorem C99_no_wait {g : Geo} (hg : g.Lawful) {o : Given} (hw : o.On "wait_for_datum")
    (hd : o "datum" = none ∨ ∃ l : List ℝ, o "datum" = some (.doubles l) ∧ l.length ≠ 3) {c : Conf} (h : construct o = some c)
    {s : St} (hs : Constructed c s) (b : TfBuffer) (m : OdoMsg) {buf : TfBuffer} (hb : SaneBuf buf) :
    ∃ s' v, (run g c.par c.broadcast c.asParent s [.odom b m, .timer buf]).st = some s' ∧ s'.good = true ∧
      datumCoords g c.par none 0 0 0 = some v ∧ s'.cw.apply v = 0 ∧
      ∀ p : V3, s'.toLL g p ≠ some (.ll none) := by
  obtain ⟨-, -, -, -, -, h6, -, -, -, -, -, h13⟩ := construct_some h
  have hwt : c.wait = true := (bool_on h6).2 hw
  have hdat : c.datum = some (paramDatum []) := by
    unfold Given.datum at h13
    rw [if_pos hwt] at h13
    rcases hd with hd | ⟨l, hd, hl⟩
    · unfold Given.doubles at h13
      rw [hd] at h13
      injection h13 with h13
      exact h13.symm
    · unfold Given.doubles at h13
      rw [hd] at h13
      injection h13 with h13
      rw [← h13]
      show some (paramDatum l) = _
      congr 1
      match l, hl with
      | [], _ => rfl
      | [_], _ => rfl
      | [_, _], _ => rfl
      | [_, _, _], hl => exact absurd rfl hl
      | _ :: _ :: _ :: _ :: _, _ => rfl
  have hsd := hs.datum _ hdat
  have hm : s.manual = true := hs.init.manual.trans hwt
  obtain ⟨s1, e1, e2, e3, e4, e5, e6⟩ : ∃ s1, s.odom b c.par m = s1 ∧ s1.manual = true ∧ s1.good = false ∧ s1.hasOdom = true ∧
      s1.datum = s.datum ∧ s1.forceUtm = false := by
    refine ⟨_, rfl, ?_⟩
    have hsame := (setTransformOdometry_same b c.par { s with world := m.frame, base := m.child } m).1
    have hod := setTransformOdometry_hasOdom b c.par { s with world := m.frame, base := m.child } m
    unfold St.odom
    dsimp only
    rw [if_neg (by rw [hs.init.good]; simp)]
    exact ⟨hsame.manual.trans hm, hsame.good.trans hs.init.good, hod, hsame.datum, hsame.forceUtm.trans hs.init.forceUtm⟩
  obtain ⟨v, hv⟩ : ∃ v, datumCoords g c.par none 0 0 0 = some v := by
    unfold datumCoords
    split
    · exact ⟨_, rfl⟩
    · obtain ⟨u, hu⟩ := Option.isSome_iff_exists.1 (hg.standard_ok 0 0 (by norm_num) (by norm_num))
      rw [show (Option.getD none (-1) : Int) = -1 from rfl, hu]
      exact ⟨_, rfl⟩
  have hv' : datumCoords g c.par (if s1.forceUtm then some s1.zone else none) s1.datum.lat s1.datum.lon s1.datum.alt = some v := by
    rw [e6, e5, hsd]
    exact hv
  obtain ⟨s', t1, t2, t3, -⟩ := C51_manual_partial hg hb c.par c.broadcast c.asParent s1 e2 e3 e4 hv'
  refine ⟨s', v, ?_, t2, hv, t3, fun p => ?_⟩
  · have : (step g c.par c.broadcast c.asParent s (.odom b m)).st = some s1 := congrArg some e1
    simp only [run, this, t1]
  · unfold St.toLL
    rw [if_pos t2]
    intro hh
    rw [Option.map_eq_some_iff] at hh
    obtain ⟨_, -, hh⟩ := hh
    cases hh

/-- The parameter file that comes with the package (`/repo/params/navsat_transform.yaml`), with waiting switched on. -/
noncomputable def shipped : Given
  | "frequency" => some (.double 30)
  | "delay" => some (.double 3)
  | "magnetic_declination_radians" => some (.double 0)
  | "yaw_offset" => some (.double 0)
  | "zero_altitude" => some (.bool false)
  | "broadcast_utm_transform" => some (.bool false)
  | "broadcast_utm_transform_as_parent_frame" => some (.bool false)
  | "publish_filtered_gps" => some (.bool false)
  | "use_odometry_yaw" => some (.bool false)
  | "wait_for_datum" => some (.bool true)
  | "datum" => some (.doubles [55.944904, -3.186693, 0])
  | _ => none

/-- A node starts with it, and has the datum. -/
example : ∃ c, construct shipped = some c ∧ c.sleep = 3 ∧ c.par.publishGps = false ∧
    c.datum = some { lat := 55.944904, lon := -3.186693, alt := 0, ori := Quat.ofRPY 0 0 0 } := by
  obtain ⟨c, hc⟩ := C99_starts (o := shipped)
    ⟨by
      intro n hn
      simp only [List.mem_cons, List.not_mem_nil, or_false] at hn
      rcases hn with rfl | rfl | rfl | rfl | rfl | rfl | rfl | rfl | rfl <;> simp [shipped],
     by
      intro n hn
      simp only [List.mem_cons, List.not_mem_nil, or_false] at hn
      rcases hn with rfl | rfl | rfl | rfl | rfl <;> simp [shipped], Or.inr ⟨_, rfl⟩⟩
    (by
      intro f hf
      rw [← Given.Num.unique (Or.inl (rfl : shipped "frequency" = some (.double 30))) hf]
      norm_num)
    (by
      intro d hd
      rw [← Given.Num.unique (Or.inl (rfl : shipped "delay" = some (.double 3))) hd]
      norm_num)
  have hdoc := C99_settings_partial hc
  refine ⟨c, hc, ?_, ?_, hdoc.datum rfl _ _ _ rfl⟩
  · have := (hdoc.sleep 3 (Or.inl rfl)).2 ⟨3, by norm_num⟩
    exact_mod_cast this.symm
  · rw [Bool.eq_false_iff, ne_eq, hdoc.publishGps (by simp [shipped])]
    unfold Given.On
    simp [shipped]

/-- The hypotheses of `C99_no_wait`: without the datum a node starts too; the buffer has all frames in one place. -/
example : ∃ c s, construct (Function.update shipped "datum" none) = some c ∧ Constructed c s ∧ SaneBuf demoBuf := by
  obtain ⟨c, hc⟩ := C99_starts (o := Function.update shipped "datum" none)
    ⟨by
      intro n hn
      simp only [List.mem_cons, List.not_mem_nil, or_false] at hn
      rcases hn with rfl | rfl | rfl | rfl | rfl | rfl | rfl | rfl | rfl <;>
        (rw [Function.update_of_ne (by decide)]; simp [shipped]),
     by
      intro n hn
      simp only [List.mem_cons, List.not_mem_nil, or_false] at hn
      rcases hn with rfl | rfl | rfl | rfl | rfl <;> (rw [Function.update_of_ne (by decide)]; simp [shipped]),
     Or.inl (Function.update_self _ _ _)⟩
    (by
      intro f hf
      rw [← Given.Num.unique (Or.inl (show Function.update shipped "datum" none "frequency" = some (.double 30) by
        rw [Function.update_of_ne (by decide)]; rfl)) hf]
      norm_num)
    (by
      intro d hd
      rw [← Given.Num.unique (Or.inl (show Function.update shipped "datum" none "delay" = some (.double 3) by
        rw [Function.update_of_ne (by decide)]; rfl)) hd]
      norm_num)
  refine ⟨c, { demoInit with base := "base_link", world := "odom", manual := c.wait, datum := c.datum.getD demoInit.datum
                             imuSub := !c.par.odomYaw && !c.wait }, hc, ⟨by constructor <;> rfl, fun d hd => ?_, rfl, rfl, rfl⟩, ?_⟩
  · rw [hd]
    rfl
  · exact demo_sane

end RL.Nav
