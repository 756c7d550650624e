import Verif.Model.NodePar
import Verif.Props.NavsatPar
import Verif.Props.Callbacks
import Verif.Props.Settings
import Verif.Props.Streams
import Verif.Spec.Kept
/-! # C102: the documented parameters of the filter nodes do what the documentation says

The documentation is `/repo/doc/state_estimation_nodes.rst`. -/

namespace RL
open Nav Matrix

/-! ## Reading single parameters -/

/-- A name as documented: the one set, or the default. -/
def _root_.RL.Nav.Given.Str (o : Given) (name : String) (dflt x : String) : Prop :=
  o name = some (.string x) ∨ (o name = none ∧ x = dflt)

/-- A threshold as documented: the one set, or none at all. -/
def _root_.RL.Nav.Given.Bound (o : Given) (name : String) (t : Thresh) : Prop :=
  (∃ x, o name = some (.double x) ∧ t = .sigmas x) ∨ (o name = none ∧ t = .unlimited)

/-- The user has selected a variable for an input. -/
def _root_.RL.Nav.Given.Selected (o : Given) (name : String) (i : Fin 15) : Prop :=
  ∃ l, o (name ++ "_config") = some (.bools l) ∧ l[i.val]? = some true

/-- A span of time as documented: within a nanosecond of the number of seconds set, or of the default. -/
def _root_.RL.Nav.Given.Span (o : Given) (name : String) (dflt : ℝ) (t : Int) : Prop :=
  ∀ s, o.Num name dflt s → |s * 1000000000 - t| < 1

theorem thresh_bound {o : Given} {n : String} {t : Thresh} (h : o.thresh n = some t) : o.Bound n t := by
  unfold Given.thresh at h
  split at h
  · rename_i e
    injection h with h
    exact Or.inr ⟨e, h.symm⟩
  · rename_i x e
    injection h with h
    exact Or.inl ⟨x, e, h.symm⟩
  · cases h

theorem string?_str {o : Given} {n : String} {r : Option String} (h : o.string? n = some r) (d : String) : o.Str n d (r.getD d) := by
  unfold Given.string? at h
  split at h
  · rename_i e
    injection h with h
    subst h
    exact Or.inr ⟨e, rfl⟩
  · rename_i x e
    injection h with h
    subst h
    exact Or.inl e
  · cases h

theorem double?_num {o : Given} {n : String} {r : Option ℝ} (h : o.double? n = some r) (d : ℝ) : o.Num n d (r.getD d) := by
  unfold Given.double? at h
  split at h
  · rename_i e
    injection h with h
    subst h
    exact Or.inr ⟨e, rfl⟩
  · rename_i x e
    injection h with h
    subst h
    exact Or.inl e
  · cases h

theorem doubles?_eq {o : Given} {n : String} {r : Option (List ℝ)} (h : o.doubles? n = some r) : o n = r.map .doubles := by
  unfold Given.doubles? at h
  split at h
  · rename_i e
    injection h with h
    subst h
    exact e
  · rename_i x e
    injection h with h
    subst h
    exact e
  · cases h

theorem fromSeconds_span {o : Given} {n : String} {d s : ℝ} {t : Int} (hs : o.Num n d s) (h : fromSeconds s = some t) :
    o.Span n d t := fun s' hs' => by
  rw [hs'.unique hs]
  exact (toInt64_near h).1

theorem config_selected {o : Given} {n : String} {v : List Bool} (h : loadUpdateConfig o n = some v) (i : Fin 15) :
    v[i.val]? = some true ↔ o.Selected n i := by
  unfold loadUpdateConfig Given.bools at h
  unfold Given.Selected
  split at h
  · rename_i e
    injection h with h
    subst h
    rw [e, List.getElem?_replicate, if_pos i.isLt]
    simp
  · rename_i x e
    injection h with h
    subst h
    rw [e]
    constructor
    · intro h
      exact ⟨_, rfl, h⟩
    · rintro ⟨l, hl, h⟩
      injection hl with hl
      injection hl with hl
      rw [hl]
      exact h
  · cases h

theorem getD_true {v : List Bool} {i : ℕ} : v.getD i false = true ↔ v[i]? = some true := by
  rw [List.getD_eq_getElem?_getD]
  cases v[i]? <;> simp

/-! ## Numbered inputs -/

theorem sensorsFrom_some {S : Type} {a : ℕ → Option (Option S)} {l : List S} :
    ∀ {i : ℕ}, sensorsFrom a i = some l → ∀ k ≤ l.length, a (i + k) = some l[k]? := by
  induction l with
  | nil =>
    intro i h k hk
    have hk : k = 0 := by simpa using hk
    subst hk
    rw [sensorsFrom] at h
    split at h
    · cases h
    · rename_i e
      simpa using e
    · rw [Option.bind_eq_bind, Option.bind_eq_some_iff] at h
      obtain ⟨l, _, h⟩ := h
      cases h
  | cons s l ih =>
    intro i h k hk
    rw [sensorsFrom] at h
    split at h
    · cases h
    · cases h
    · rename_i s' e
      rw [Option.bind_eq_bind, Option.bind_eq_some_iff] at h
      obtain ⟨l', h', h⟩ := h
      have h2 : s' :: l' = s :: l := by
        injection h
      injection h2 with h2 h3
      subst h2 h3
      cases k with
      | zero => simpa using e
      | succ k =>
        have := ih h' k (by simpa using hk)
        rw [show i + (k + 1) = i + 1 + k by omega, this]
        simp

theorem sensorsFrom_exists {S : Type} {a : ℕ → Option (Option S)} : ∀ (n i : ℕ), (∀ k < n, ∃ s, a (i + k) = some (some s)) →
    a (i + n) = some none → ∃ l, sensorsFrom a i = some l ∧ l.length = n := by
  intro n
  induction n with
  | zero =>
    intro i _ h
    refine ⟨[], ?_, rfl⟩
    rw [sensorsFrom]
    rw [Nat.add_zero] at h
    rw [h]
  | succ n ih =>
    intro i h1 h2
    obtain ⟨s, hs⟩ := h1 0 (by omega)
    obtain ⟨l, hl, hn⟩ := ih (i + 1) (fun k hk => by
      rw [show i + 1 + k = i + (k + 1) by omega]
      exact h1 (k + 1) (by omega)) (by
      rw [show i + 1 + n = i + (n + 1) by omega]
      exact h2)
    refine ⟨s :: l, ?_, by simp [hn]⟩
    rw [sensorsFrom]
    rw [Nat.add_zero] at hs
    rw [hs, hl]
    rfl

theorem mapM_some {A B : Type} {f : A → Option B} : ∀ {l : List A} {r : List B}, l.mapM f = some r →
    r.length = l.length ∧ ∀ (i : ℕ) (s : A), l[i]? = some s → ∃ d, r[i]? = some d ∧ f s = some d := by
  intro l
  induction l with
  | nil =>
    intro r h
    have h : [] = r := by
      rw [List.mapM_nil] at h
      injection h
    subst h
    exact ⟨rfl, fun i s h => by simp at h⟩
  | cons x l ih =>
    intro r h
    rw [List.mapM_cons, Option.bind_eq_bind, Option.bind_eq_some_iff] at h
    obtain ⟨y, hy, h⟩ := h
    rw [Option.bind_eq_bind, Option.bind_eq_some_iff] at h
    obtain ⟨r', hr, h⟩ := h
    have h : y :: r' = r := by
      injection h
    subst h
    obtain ⟨h1, h2⟩ := ih hr
    refine ⟨by simp [h1], fun i s hs => ?_⟩
    cases i with
    | zero =>
      have : x = s := by simpa using hs
      subst this
      exact ⟨y, rfl, hy⟩
    | succ i => exact h2 i s (by simpa using hs)

/-- What the documentation promises about the inputs of a kind: they are those with the numbers below the first one that
is not set, and each is as described. -/
def Numbered (o : Given) (kind : String) {D : Type} (l : List SensorSet) (ds : List D) (Doc : String → SensorSet → D → Prop) : Prop :=
  (∀ i, i < l.length → ∃ s d, l[i]? = some s ∧ ds[i]? = some d ∧ o (inputName kind i) = some (.string s.topic) ∧
    Doc (inputName kind i) s d) ∧ ds.length = l.length ∧ o (inputName kind l.length) = none

theorem numbered_of {o : Given} {kind : String} {D : Type} {l : List SensorSet} {ds : List D} {Doc : String → SensorSet → D → Prop}
    {read : String → String → Option SensorSet} {data : SensorPar → Option D}
    (h : sensorsFrom (sensorAt o kind read) 0 = some l) (hd : l.mapM (fun s => data s.par) = some ds)
    (hr : ∀ n t s d, read n t = some s → data s.par = some d → s.topic = t ∧ Doc n s d) : Numbered o kind l ds Doc := by
  have h1 := sensorsFrom_some h
  obtain ⟨h2, h3⟩ := mapM_some hd
  refine ⟨fun i hi => ?_, h2, ?_⟩
  · have h4 := h1 i hi.le
    rw [Nat.zero_add, List.getElem?_eq_getElem hi] at h4
    obtain ⟨d, hd1, hd2⟩ := h3 i l[i] (List.getElem?_eq_getElem hi)
    unfold sensorAt at h4
    split at h4
    · cases h4
    · cases h4
    · rename_i t e
      rw [Option.map_eq_some_iff] at h4
      obtain ⟨s, hs, h5⟩ := h4
      injection h5 with h5
      subst h5
      obtain ⟨ht, hdoc⟩ := hr _ _ _ _ hs hd2
      refine ⟨_, d, List.getElem?_eq_getElem hi, hd1, ?_, hdoc⟩
      rw [ht]
      unfold Given.string? at e
      split at e
      · injection e with e
        cases e
      · rename_i x e'
        injection e with e
        injection e with e
        rw [e', e]
      · cases e
  · have h4 := h1 l.length le_rfl
    rw [Nat.zero_add, List.getElem?_eq_none le_rfl] at h4
    unfold sensorAt at h4
    split at h4
    · cases h4
    · rename_i e
      unfold Given.string? at e
      split at e
      · assumption
      · injection e with e
        cases e
      · cases e
    · rw [Option.map_eq_some_iff] at h4
      obtain ⟨s, _, h5⟩ := h4
      cases h5

/-! ## What is promised about each kind of input -/

/-- Settings that all kinds of inputs have. -/
structure CommonDoc (o : Given) (name : String) (s : SensorSet) : Prop where
  queue : o (name ++ "_queue_size") = some (.int s.queueSize) ∨ (o (name ++ "_queue_size") = none ∧ s.queueSize = 10)

/-- How the poses of an input are fused: the mode as set, where both modes together count as differential mode. -/
structure PoseDoc (o : Given) (name : String) (cd : CallbackData) : Prop where
  differential : cd.differential = true ↔ o.On (name ++ "_differential")
  relative : cd.relative = true ↔ o.On (name ++ "_relative") ∧ ¬o.On (name ++ "_differential")

/-- An odometry input: poses and velocities selected by the configuration, each with its own threshold.  (What becomes of
accelerations selected for such an input is in C32.) -/
structure OdomDoc (o : Given) (name : String) (s : SensorSet) (d : CallbackData × CallbackData) : Prop
    extends CommonDoc o name s, PoseDoc o name d.1 where
  child : d.1.useChild = true ↔ o.On (name ++ "_pose_use_child_frame")
  poses : ∀ i : Fin 15, i.val < 12 → (d.1.upd i = true ↔ i.val < 6 ∧ o.Selected name i)
  velocities : ∀ i : Fin 15, i.val < 12 → (d.2.upd i = true ↔ 6 ≤ i.val ∧ o.Selected name i)
  poseBound : o.Bound (name ++ "_pose_rejection_threshold") d.1.thresh
  twistBound : o.Bound (name ++ "_twist_rejection_threshold") d.2.thresh

/-- A pose input. -/
structure PoseInputDoc (o : Given) (name : String) (s : SensorSet) (d : CallbackData) : Prop
    extends CommonDoc o name s, PoseDoc o name d where
  poses : ∀ i : Fin 15, d.upd i = true ↔ i.val < 6 ∧ o.Selected name i
  bound : o.Bound (name ++ "_rejection_threshold") d.thresh

/-- A twist input. -/
structure TwistInputDoc (o : Given) (name : String) (s : SensorSet) (d : CallbackData) : Prop extends CommonDoc o name s where
  velocities : ∀ i : Fin 15, i.val < 12 → (d.upd i = true ↔ 6 ≤ i.val ∧ o.Selected name i)
  bound : o.Bound (name ++ "_rejection_threshold") d.thresh

/-- An IMU.  The threshold of the velocities is documented under another name, see `C102_imu_threshold_name`. -/
structure ImuDoc (o : Given) (name : String) (s : SensorSet) (d : CallbackData × CallbackData × CallbackData) : Prop
    extends CommonDoc o name s, PoseDoc o name d.1 where
  orientation : ∀ i : Fin 15, d.1.upd i = true ↔ (3 ≤ i.val ∧ i.val < 6) ∧ o.Selected name i
  velocities : ∀ i : Fin 15, d.2.1.upd i = true ↔ (9 ≤ i.val ∧ i.val < 12) ∧ o.Selected name i
  accelerations : ∀ i : Fin 15, d.2.2.upd i = true ↔ 12 ≤ i.val ∧ o.Selected name i
  poseBound : o.Bound (name ++ "_pose_rejection_threshold") d.1.thresh
  twistBound : o.Bound (name ++ "_twist_rejection_threshold") d.2.1.thresh
  accelBound : o.Bound (name ++ "_linear_acceleration_rejection_threshold") d.2.2.thresh
  gravity : s.removeGravity = true ↔ o.On (name ++ "_remove_gravitational_acceleration")

theorem int_given {o : Given} {n : String} {d x : Int} (h : o.int n d = some x) : o n = some (.int x) ∨ (o n = none ∧ x = d) := by
  unfold Given.int at h
  split at h
  · rename_i e
    injection h with h
    exact Or.inr ⟨e, h.symm⟩
  · rename_i x' e
    injection h with h
    rw [← h]
    exact Or.inl e
  · cases h

theorem rel_iff {o : Given} {n : String} {s : SensorPar} (hd : o.bool (n ++ "_differential") false = some s.differential)
    (hr : o.bool (n ++ "_relative") false = some s.relative) :
    s.rel = true ↔ o.On (n ++ "_relative") ∧ ¬o.On (n ++ "_differential") := by
  rw [← bool_on hd, ← bool_on hr]
  unfold SensorPar.rel
  cases s.relative <;> cases s.differential <;> simp

theorem if_selected {o : Given} {n : String} {v : List Bool} (h : loadUpdateConfig o n = some v) (i : Fin 15) (p : Prop) [Decidable p] :
    ((if p then v.getD i.val false else false) = true) ↔ p ∧ o.Selected n i := by
  rw [← config_selected h i, ← getD_true]
  split <;> simp [*]

theorem if_selected' {o : Given} {n : String} {v : List Bool} (h : loadUpdateConfig o n = some v) (i : Fin 15) (p : Prop) [Decidable p] :
    ((if p then false else v.getD i.val false) = true) ↔ ¬p ∧ o.Selected n i := by
  rw [← config_selected h i, ← getD_true]
  split <;> simp [*]

theorem readOdom_doc {o : Given} {n t : String} {s : SensorSet} {d : CallbackData × CallbackData} (h : readOdom o n t = some s)
    (hd : odomData s.par = some d) : s.topic = t ∧ OdomDoc o n s d := by
  unfold readOdom at h
  obtain ⟨x1, h1, h⟩ := Option.bind_eq_some_iff.1 h
  obtain ⟨x2, h2, h⟩ := Option.bind_eq_some_iff.1 h
  obtain ⟨x3, h3, h⟩ := Option.bind_eq_some_iff.1 h
  obtain ⟨x4, h4, h⟩ := Option.bind_eq_some_iff.1 h
  obtain ⟨x5, h5, h⟩ := Option.bind_eq_some_iff.1 h
  obtain ⟨x6, h6, h⟩ := Option.bind_eq_some_iff.1 h
  obtain ⟨x7, h7, h⟩ := Option.bind_eq_some_iff.1 h
  injection h with h
  obtain ⟨a, b⟩ := d
  obtain ⟨u1, u2, _⟩ := odomData_spec hd
  unfold odomData at hd
  obtain ⟨v, _, hd⟩ := Option.bind_eq_some_iff.1 hd
  obtain ⟨p, _, hd⟩ := Option.bind_eq_some_iff.1 hd
  obtain ⟨q, _, hd⟩ := Option.bind_eq_some_iff.1 hd
  injection hd with hd
  injection hd with ha hb
  have hs : s.par.config = x7 ∧ s.par.differential = x1 ∧ s.par.relative = x2 ∧ s.par.useChild = x3 ∧ s.par.poseThresh = x4 ∧
      s.par.twistThresh = x5 ∧ s.queueSize = x6 ∧ s.topic = t := by
    subst h
    exact ⟨rfl, rfl, rfl, rfl, rfl, rfl, rfl, rfl⟩
  obtain ⟨s7, s1, s2, s3, s4, s5, s6, s8⟩ := hs
  clear h
  subst s1 s2 s3 s4 s5 s6 s7
  refine ⟨s8, { queue := int_given h6, differential := ?_, relative := ?_, child := ?_, poses := fun i hi => ?_
                velocities := fun i hi => ?_, poseBound := ?_, twistBound := ?_ }⟩
  · rw [← ha]
    exact bool_on h1
  · rw [← ha]
    exact rel_iff h1 h2
  · rw [← ha]
    exact bool_on h3
  · rw [u1 i, if_selected' h7]
    refine and_congr_left fun _ => ?_
    omega
  · rw [u2 i, if_selected' h7]
    refine and_congr_left fun _ => ?_
    omega
  · rw [← ha]
    exact thresh_bound h4
  · rw [← hb]
    exact thresh_bound h5

theorem readPose_doc {o : Given} {n t : String} {s : SensorSet} {d : CallbackData} (h : readPose o n t = some s)
    (hd : poseData s.par = some d) : s.topic = t ∧ PoseInputDoc o n s d := by
  unfold readPose at h
  obtain ⟨x1, h1, h⟩ := Option.bind_eq_some_iff.1 h
  obtain ⟨x2, h2, h⟩ := Option.bind_eq_some_iff.1 h
  obtain ⟨x4, h4, h⟩ := Option.bind_eq_some_iff.1 h
  obtain ⟨x6, h6, h⟩ := Option.bind_eq_some_iff.1 h
  obtain ⟨x7, h7, h⟩ := Option.bind_eq_some_iff.1 h
  injection h with h
  obtain ⟨u1, _⟩ := poseData_spec hd
  unfold poseData at hd
  obtain ⟨v, _, hd⟩ := Option.bind_eq_some_iff.1 hd
  obtain ⟨p, _, hd⟩ := Option.bind_eq_some_iff.1 hd
  injection hd with ha
  have hs : s.par.config = x7 ∧ s.par.differential = x1 ∧ s.par.relative = x2 ∧ s.par.poseThresh = x4 ∧
      s.queueSize = x6 ∧ s.topic = t := by
    subst h
    exact ⟨rfl, rfl, rfl, rfl, rfl, rfl⟩
  obtain ⟨s7, s1, s2, s4, s6, s8⟩ := hs
  clear h
  subst s1 s2 s4 s6 s7
  refine ⟨s8, { queue := int_given h6, differential := ?_, relative := ?_, poses := fun i => ?_, bound := ?_ }⟩
  · rw [← ha]
    exact bool_on h1
  · rw [← ha]
    exact rel_iff h1 h2
  · rw [u1 i, if_selected h7]
  · rw [← ha]
    exact thresh_bound h4

theorem readTwist_doc {o : Given} {n t : String} {s : SensorSet} {d : CallbackData} (h : readTwist o n t = some s)
    (hd : twistData s.par = some d) : s.topic = t ∧ TwistInputDoc o n s d := by
  unfold readTwist at h
  obtain ⟨x4, h4, h⟩ := Option.bind_eq_some_iff.1 h
  obtain ⟨x6, h6, h⟩ := Option.bind_eq_some_iff.1 h
  obtain ⟨x7, h7, h⟩ := Option.bind_eq_some_iff.1 h
  injection h with h
  have u1 := twistData_spec hd
  unfold twistData at hd
  obtain ⟨v, _, hd⟩ := Option.bind_eq_some_iff.1 hd
  obtain ⟨p, _, hd⟩ := Option.bind_eq_some_iff.1 hd
  injection hd with ha
  have hs : s.par.config = x7 ∧ s.par.twistThresh = x4 ∧ s.queueSize = x6 ∧ s.topic = t := by
    subst h
    exact ⟨rfl, rfl, rfl, rfl⟩
  obtain ⟨s7, s4, s6, s8⟩ := hs
  clear h
  subst s4 s6 s7
  refine ⟨s8, { queue := int_given h6, velocities := fun i hi => ?_, bound := ?_ }⟩
  · rw [u1 i, if_selected' h7]
    refine and_congr_left fun _ => ?_
    omega
  · rw [← ha]
    exact thresh_bound h4

theorem readImu_doc {o : Given} {n t : String} {s : SensorSet} {d : CallbackData × CallbackData × CallbackData}
    (h : readImu o n t = some s) (hd : imuData s.par = some d) : s.topic = t ∧ ImuDoc o n s d := by
  unfold readImu at h
  obtain ⟨x1, h1, h⟩ := Option.bind_eq_some_iff.1 h
  obtain ⟨x2, h2, h⟩ := Option.bind_eq_some_iff.1 h
  obtain ⟨x3, h3, h⟩ := Option.bind_eq_some_iff.1 h
  obtain ⟨x4, h4, h⟩ := Option.bind_eq_some_iff.1 h
  obtain ⟨x5, h5, h⟩ := Option.bind_eq_some_iff.1 h
  obtain ⟨x8, h8, h⟩ := Option.bind_eq_some_iff.1 h
  obtain ⟨x6, h6, h⟩ := Option.bind_eq_some_iff.1 h
  obtain ⟨x7, h7, h⟩ := Option.bind_eq_some_iff.1 h
  injection h with h
  obtain ⟨a, b, e⟩ := d
  obtain ⟨u1, u2, u3, _⟩ := imuData_spec hd
  unfold imuData at hd
  obtain ⟨_, _, hd⟩ := Option.bind_eq_some_iff.1 hd
  obtain ⟨_, _, hd⟩ := Option.bind_eq_some_iff.1 hd
  obtain ⟨_, _, hd⟩ := Option.bind_eq_some_iff.1 hd
  obtain ⟨_, _, hd⟩ := Option.bind_eq_some_iff.1 hd
  obtain ⟨_, _, hd⟩ := Option.bind_eq_some_iff.1 hd
  obtain ⟨_, _, hd⟩ := Option.bind_eq_some_iff.1 hd
  injection hd with hd
  injection hd with ha hd
  injection hd with hb he
  have hs : s.par.config = x7 ∧ s.par.differential = x1 ∧ s.par.relative = x2 ∧ s.par.poseThresh = x3 ∧ s.par.twistThresh = x4 ∧
      s.par.accelThresh = x5 ∧ s.queueSize = x6 ∧ s.removeGravity = x8 ∧ s.topic = t := by
    subst h
    exact ⟨rfl, rfl, rfl, rfl, rfl, rfl, rfl, rfl, rfl⟩
  obtain ⟨s7, s1, s2, s3, s4, s5, s6, s9, s8⟩ := hs
  clear h
  subst s1 s2 s3 s4 s5 s6 s7 s9
  refine ⟨s8, { queue := int_given h6, differential := ?_, relative := ?_, orientation := fun i => ?_
                velocities := fun i => ?_, accelerations := fun i => ?_, poseBound := ?_, twistBound := ?_, accelBound := ?_
                gravity := bool_on h8 }⟩
  · rw [← ha]
    exact bool_on h1
  · rw [← ha]
    exact rel_iff h1 h2
  · rw [u1 i, if_selected h7]
  · rw [u2 i, if_selected h7]
  · rw [u3 i, if_selected h7]
  · rw [← ha]
    exact thresh_bound h3
  · rw [← hb]
    exact thresh_bound h4
  · rw [← he]
    exact thresh_bound h5

/-- What the documentation promises about the inputs of a node, except for the point refuted below. -/
structure InputsDoc (o : Given) (i : Inputs) : Prop where
  odoms : Numbered o "odom" i.odoms i.odomCds (OdomDoc o)
  poses : Numbered o "pose" i.poses i.poseCds (PoseInputDoc o)
  twists : Numbered o "twist" i.twists i.twistCds (TwistInputDoc o)
  imus : Numbered o "imu" i.imus i.imuCds (ImuDoc o)

theorem readInputs_doc {o : Given} {i : Inputs} (h : readInputs o = some i) : InputsDoc o i := by
  unfold readInputs at h
  obtain ⟨x1, h1, h⟩ := Option.bind_eq_some_iff.1 h
  obtain ⟨x2, h2, h⟩ := Option.bind_eq_some_iff.1 h
  obtain ⟨x3, h3, h⟩ := Option.bind_eq_some_iff.1 h
  obtain ⟨x4, h4, h⟩ := Option.bind_eq_some_iff.1 h
  obtain ⟨x5, h5, h⟩ := Option.bind_eq_some_iff.1 h
  obtain ⟨x6, h6, h⟩ := Option.bind_eq_some_iff.1 h
  obtain ⟨x7, h7, h⟩ := Option.bind_eq_some_iff.1 h
  obtain ⟨x8, h8, h⟩ := Option.bind_eq_some_iff.1 h
  injection h with h
  subst h
  exact ⟨numbered_of h1 h2 fun _ _ _ _ => readOdom_doc, numbered_of h3 h4 fun _ _ _ _ => readPose_doc,
    numbered_of h5 h6 fun _ _ _ _ => readTwist_doc, numbered_of h7 h8 fun _ _ _ _ => readImu_doc⟩

/-! ## The settings of the node -/

/-- What the documentation promises about the frames, except for the frame of the output. -/
structure FramesDoc (o : Given) (f : Frames) : Prop where
  map : o.Str "map_frame" "map" f.map
  odom : o.Str "odom_frame" "odom" f.odom
  base : o.Str "base_link_frame" "base_link" f.base
  world : o.Str "world_frame" f.odom f.world

/-- What the documentation promises about times.  (The documentation gives no default for `control_timeout`; C80 is about
the one there is.) -/
structure TimesDoc (o : Given) (t : NodeTimes) : Prop where
  period : ∀ f, o.Num "frequency" 30 f → |1000000000 / f - t.period| < 1
  sensor : ∀ f, o.Num "frequency" 30 f → o.Span "sensor_timeout" (1 / f) t.settings.sensorTimeout
  history : ∀ s, 0 ≤ s → o.Num "history_length" 0 s → |s * 1000000000 - t.settings.historyLength| < 1
  control : o "control_timeout" ≠ none → o.Span "control_timeout" 0 t.settings.controlTimeout
  offset : o.Span "transform_time_offset" 0 t.tfOffset
  timeout : o.Span "transform_timeout" 0 t.tfTimeout

/-- Switches. -/
structure SwitchesDoc (o : Given) (s : Switches) : Prop where
  diagnostics : s.diagnostics = true ↔ o.On "print_diagnostics"
  publishTf : s.publishTf = true ↔ o "publish_tf" = none ∨ o.On "publish_tf"
  publishAccel : s.publishAccel = true ↔ o.On "publish_acceleration"
  permitCorrected : s.permitCorrected = true ↔ o.On "permit_corrected_publication"
  predictToCurrent : s.predictToCurrent = true ↔ o.On "predict_to_current_time"
  twoD : s.twoD = true ↔ o.On "two_d_mode"
  smooth : s.smooth = true ↔ o.On "smooth_lagged_data"
  useControl : s.useControl = true ↔ o.On "use_control"
  dynamic : s.dynamic = true ↔ o.On "dynamic_process_noise_covariance"
  disabled : s.disabled = true ↔ o.On "disabled_at_startup"

/-- A covariance parameter as documented: the numbers of the diagonal, or of the whole matrix (a covariance is symmetric). -/
structure CovDoc (o : Given) (name : String) (dflt m : Mat15) : Prop where
  unset : o name = none → m = dflt
  diag : ∀ d : Fin 15 → ℝ, o name = some (.doubles (List.ofFn d)) → m = Matrix.diagonal d
  full : ∀ S : Mat15, S.IsSymm → o name = some (.doubles ((List.finRange 225).map fun k : Fin 225 =>
    S ⟨k.val / 15, by omega⟩ ⟨k.val % 15, by omega⟩)) → m = S

/-- What the documentation promises about a node, except for the points that are refuted below. -/
structure NodeDoc (o : Given) (c : NodeConf) : Prop where
  frames : FramesDoc o c.frames
  gravity : o.Num "gravitational_acceleration" 9.80665 c.gravity
  times : TimesDoc o c.times
  sw : SwitchesDoc o c.sw
  control : c.control.useControl = true → o.On "use_control"
  initial : ∀ x : State, o "initial_state" = some (.doubles (List.ofFn x)) → c.initial = x
  noInitial : o "initial_state" = none → c.initial = 0
  inputs : InputsDoc o c.inputs
  noise : CovDoc o "process_noise_covariance" defaultQ c.noise
  cov : CovDoc o "initial_estimate_covariance" ((1e-9 : ℝ) • 1) c.cov

theorem bool_default_true {o : Given} {n : String} {b : Bool} (h : o.bool n true = some b) : b = true ↔ o n = none ∨ o.On n := by
  by_cases hs : o n = none
  · unfold Given.bool at h
    rw [hs] at h
    injection h with h
    exact ⟨fun _ => Or.inl hs, fun _ => h.symm⟩
  · rw [bool_set h hs]
    exact ⟨Or.inr, fun h => h.resolve_left hs⟩

theorem readFrames_doc {o : Given} {f : Frames} (h : readFrames o = some f) : FramesDoc o f := by
  unfold readFrames at h
  obtain ⟨x1, h1, h⟩ := Option.bind_eq_some_iff.1 h
  obtain ⟨x2, h2, h⟩ := Option.bind_eq_some_iff.1 h
  obtain ⟨x3, h3, h⟩ := Option.bind_eq_some_iff.1 h
  obtain ⟨x4, h4, h⟩ := Option.bind_eq_some_iff.1 h
  obtain ⟨x5, h5, h⟩ := Option.bind_eq_some_iff.1 h
  obtain ⟨x6, h6, h⟩ := Option.bind_eq_some_iff.1 h
  simp only [C60_prefix_ignored] at h
  injection h with h
  subst h
  exact ⟨string?_str h1 _, string?_str h2 _, string?_str h3 _, string?_str h5 _⟩

theorem readTimes_doc {o : Given} {t : NodeTimes} (h : readTimes o = some t) : TimesDoc o t := by
  unfold readTimes at h
  obtain ⟨x1, h1, h⟩ := Option.bind_eq_some_iff.1 h
  obtain ⟨x2, h2, h⟩ := Option.bind_eq_some_iff.1 h
  obtain ⟨x3, h3, h⟩ := Option.bind_eq_some_iff.1 h
  obtain ⟨x4, h4, h⟩ := Option.bind_eq_some_iff.1 h
  obtain ⟨fr, h5, h⟩ := Option.bind_eq_some_iff.1 h
  obtain ⟨se, h6, h⟩ := Option.bind_eq_some_iff.1 h
  obtain ⟨hi, h7, h⟩ := Option.bind_eq_some_iff.1 h
  obtain ⟨co, h8, h⟩ := Option.bind_eq_some_iff.1 h
  obtain ⟨pe, h9, h⟩ := Option.bind_eq_some_iff.1 h
  obtain ⟨st, h10, h⟩ := Option.bind_eq_some_iff.1 h
  unfold loadTimes at h10
  obtain ⟨a, ha, h10⟩ := Option.bind_eq_some_iff.1 h10
  obtain ⟨b, hb, h10⟩ := Option.bind_eq_some_iff.1 h10
  obtain ⟨c, hc, h10⟩ := Option.bind_eq_some_iff.1 h10
  injection h10 with h10
  subst h10
  injection h with h
  subst h
  refine ⟨fun f hf => ?_, fun f hf => ?_, fun s hs hn => ?_, fun hn => ?_, fromSeconds_span (double_num h1) h2,
    fromSeconds_span (double_num h3) h4⟩
  · rw [hf.unique (double?_num h5 30)]
    unfold nodePeriod at h9
    split at h9
    · cases h9
    · split at h9
      · rename_i r e
        split at h9
        · cases h9
        · injection h9 with h9
          rw [← h9]
          exact (toInt64_near e).1
      · cases h9
  · rw [hf.unique (double?_num h5 30)]
    exact fromSeconds_span (double?_num h6 _) ha
  · have e : s = hi.getD 0 := hn.unique (double?_num h7 0)
    dsimp only at hb
    rw [← e, abs_of_nonneg hs] at hb
    exact (toInt64_near hb).1
  · exact fromSeconds_span (double?_num h8 _) hc

theorem readSwitches_doc {o : Given} {s : Switches} (h : readSwitches o = some s) : SwitchesDoc o s := by
  unfold readSwitches at h
  obtain ⟨x1, h1, h⟩ := Option.bind_eq_some_iff.1 h
  obtain ⟨x2, h2, h⟩ := Option.bind_eq_some_iff.1 h
  obtain ⟨x3, h3, h⟩ := Option.bind_eq_some_iff.1 h
  obtain ⟨x4, h4, h⟩ := Option.bind_eq_some_iff.1 h
  obtain ⟨x5, h5, h⟩ := Option.bind_eq_some_iff.1 h
  obtain ⟨x6, h6, h⟩ := Option.bind_eq_some_iff.1 h
  obtain ⟨x7, h7, h⟩ := Option.bind_eq_some_iff.1 h
  obtain ⟨x8, h8, h⟩ := Option.bind_eq_some_iff.1 h
  obtain ⟨x9, h9, h⟩ := Option.bind_eq_some_iff.1 h
  obtain ⟨x10, h10, h⟩ := Option.bind_eq_some_iff.1 h
  obtain ⟨x11, h11, h⟩ := Option.bind_eq_some_iff.1 h
  obtain ⟨x12, h12, h⟩ := Option.bind_eq_some_iff.1 h
  injection h with h
  subst h
  exact ⟨bool_on h1, bool_default_true h3, bool_on h4, bool_on h5, bool_on h6, bool_on h7, bool_on h8, bool_on h10, bool_on h11,
    bool_on h12⟩

theorem getD_ofFn {n : ℕ} (f : Fin n → ℝ) (i : Fin n) : (List.ofFn f).getD i.val 0 = f i := by
  rw [List.getD_eq_getElem?_getD, List.getElem?_ofFn, dif_pos i.isLt]
  rfl

theorem readCov_doc {o : Given} {n : String} {dflt : Mat15} {r : Mat15 × Mat15} (h : readCov o n dflt = some r) : CovDoc o n dflt r.1 := by
  unfold readCov at h
  split at h
  · cases h
  · rename_i l e
    have e := doubles?_eq e
    refine ⟨fun hn => ?_, fun d hd => ?_, fun S hS hd => ?_⟩
    · rw [hn] at e
      cases l with
      | some l => cases e
      | none =>
        simp only [loadCovParam, loadCovariance] at h
        injection h with h
        rw [← h]
    · rw [hd] at e
      cases l with
      | none => cases e
      | some l =>
        injection e with e
        injection e with e
        subst e
        simp only [loadCovParam, loadCovariance, List.length_ofFn, if_true] at h
        injection h with h
        rw [← h]
        ext i j
        simp only [Matrix.diagonal_apply]
        split
        · exact getD_ofFn d i
        · rfl
    · rw [hd] at e
      cases l with
      | none => cases e
      | some l =>
        injection e with e
        injection e with e
        have hl : l.length = 225 := by
          rw [← e]
          simp
        simp only [loadCovParam, loadCovariance] at h
        rw [if_neg (by omega), if_pos (by norm_num), if_pos (by omega)] at h
        injection h with h
        rw [← h, ← e]
        ext i j
        show (List.map _ (List.finRange 225)).getD (15 * j.val + i.val) 0 = S i j
        rw [getD_map_finRange _ _ (by omega)]
        rw [← hS.apply i j]
        congr 1 <;> apply Fin.ext <;> simp only <;> omega

theorem readCov_kept {o : Given} {n : String} {dflt : Mat15} {r : Mat15 × Mat15} (h : readCov o n dflt = some r) :
    r.2 = r.1 ∨ r.2 = 0 := by
  unfold readCov at h
  split at h
  · cases h
  · split at h <;> first | (injection h with h; rw [← h]; first | exact Or.inr rfl | exact Or.inl rfl) | cases h

theorem finalControl_use {p : ControlParams} {imus : List (List Bool)} {s : ControlSettings} (h : finalControl p imus = some s)
    (hs : s.useControl = true) : p.useControl = true := by
  unfold finalControl at h
  obtain ⟨u, _, h⟩ := Option.bind_eq_some_iff.1 h
  injection h with h
  rw [← h] at hs
  by_contra hn
  simp [loadControl, hn] at hs

theorem initialState_ofFn (x : State) : initialState (some (List.ofFn x)) = x := by
  unfold initialState
  simp only [List.length_ofFn, ne_eq, not_true_eq_false, if_false]
  funext i
  exact getD_ofFn x i

/-- **C102**, the part that holds: whatever parameters are set, a node that starts has the settings that the documentation
promises.  Not among them: the name of the output frame, of the threshold for the velocities of an IMU, the switch for
stamped commands and the one for time jumps, see below. -/
theorem C102_settings_partial {o : Given} {c : NodeConf} (h : loadNode o = some c) : NodeDoc o c := by
  unfold loadNode at h
  obtain ⟨x1, h1, h⟩ := Option.bind_eq_some_iff.1 h
  obtain ⟨x2, h2, h⟩ := Option.bind_eq_some_iff.1 h
  obtain ⟨x3, h3, h⟩ := Option.bind_eq_some_iff.1 h
  obtain ⟨x4, h4, h⟩ := Option.bind_eq_some_iff.1 h
  obtain ⟨x5, h5, h⟩ := Option.bind_eq_some_iff.1 h
  obtain ⟨x6, h6, h⟩ := Option.bind_eq_some_iff.1 h
  obtain ⟨x7, h7, h⟩ := Option.bind_eq_some_iff.1 h
  obtain ⟨x8, h8, h⟩ := Option.bind_eq_some_iff.1 h
  obtain ⟨x9, h9, h⟩ := Option.bind_eq_some_iff.1 h
  obtain ⟨x10, h10, h⟩ := Option.bind_eq_some_iff.1 h
  injection h with h
  subst h
  have e6 := doubles?_eq h6
  have hsw := readSwitches_doc h1
  refine ⟨readFrames_doc h3, double_num h2, readTimes_doc h4, hsw, fun hc => ?_, fun x hx => ?_, fun hn => ?_,
    readInputs_doc h7, readCov_doc h9, readCov_doc h10⟩
  · have := finalControl_use h8 hc
    rw [← hsw.useControl]
    by_contra hn
    unfold readControlLists at h5
    rw [if_neg hn] at h5
    injection h5 with h5
    rw [← h5] at this
    cases this
  · rw [hx] at e6
    cases x6 with
    | none => cases e6
    | some l =>
      injection e6 with e6
      injection e6 with e6
      rw [← e6]
      exact initialState_ofFn x
  · rw [hn] at e6
    cases x6 with
    | none => rfl
    | some l => cases e6

/-- **C102**: every node that starts keeps, for a reset, the covariances the filter starts with, or zero: the assumption
`Cfg.Kept` of C01 and C13 holds of every node. -/
theorem C102_kept {o : Given} {c : NodeConf} (h : loadNode o = some c) : c.cfg.Kept := by
  unfold loadNode at h
  obtain ⟨x1, h1, h⟩ := Option.bind_eq_some_iff.1 h
  obtain ⟨x2, h2, h⟩ := Option.bind_eq_some_iff.1 h
  obtain ⟨x3, h3, h⟩ := Option.bind_eq_some_iff.1 h
  obtain ⟨x4, h4, h⟩ := Option.bind_eq_some_iff.1 h
  obtain ⟨x5, h5, h⟩ := Option.bind_eq_some_iff.1 h
  obtain ⟨x6, h6, h⟩ := Option.bind_eq_some_iff.1 h
  obtain ⟨x7, h7, h⟩ := Option.bind_eq_some_iff.1 h
  obtain ⟨x8, h8, h⟩ := Option.bind_eq_some_iff.1 h
  obtain ⟨x9, h9, h⟩ := Option.bind_eq_some_iff.1 h
  obtain ⟨x10, h10, h⟩ := Option.bind_eq_some_iff.1 h
  injection h with h
  subst h
  exact ⟨readCov_kept h9, readCov_kept h10⟩

/-- **C102**: the constants of the unscented filter. -/
theorem C102_unscented {o : Given} {a k b : ℝ} (h : readUkf o = some (a, k, b)) :
    o.Num "alpha" 0.001 a ∧ o.Num "kappa" 0 k ∧ o.Num "beta" 2 b := by
  unfold readUkf at h
  obtain ⟨x1, h1, h⟩ := Option.bind_eq_some_iff.1 h
  obtain ⟨x2, h2, h⟩ := Option.bind_eq_some_iff.1 h
  obtain ⟨x3, h3, h⟩ := Option.bind_eq_some_iff.1 h
  injection h with h
  injection h with e1 h
  injection h with e2 e3
  subst e1 e2 e3
  exact ⟨double_num h1, double_num h2, double_num h3⟩

/-! ## Names that are not read -/

/-- The names of switches. -/
def switchNames : List String :=
  ["print_diagnostics", "debug", "publish_tf", "publish_acceleration", "permit_corrected_publication",
   "predict_to_current_time", "two_d_mode", "smooth_lagged_data", "use_control",
   "dynamic_process_noise_covariance", "disabled_at_startup"]

/-- The other names that are read, apart from the inputs. -/
def plainNames : List String :=
  ["gravitational_acceleration", "map_frame", "odom_frame", "base_link_frame", "base_link_frame_output", "world_frame",
   "tf_prefix", "transform_time_offset", "transform_timeout", "frequency", "sensor_timeout", "history_length",
   "control_timeout", "control_config", "acceleration_limits", "acceleration_gains", "deceleration_limits",
   "deceleration_gains", "initial_state", "process_noise_covariance", "initial_estimate_covariance"]

/-- What may follow the number of an input. -/
def inputSuffixes : List String :=
  ["", "_differential", "_relative", "_pose_use_child_frame", "_pose_rejection_threshold", "_twist_rejection_threshold",
   "_rejection_threshold", "_linear_acceleration_rejection_threshold", "_remove_gravitational_acceleration", "_queue_size",
   "_config"]

/-- Two sets of parameters that agree on these names. -/
structure Agree (o o' : Given) : Prop where
  switches : ∀ n ∈ switchNames, o n = o' n
  jump : o.bool "reset_on_time_jump" false = o'.bool "reset_on_time_jump" false ∨
    (o.bool "reset_on_time_jump" false ≠ none ∧ o'.bool "reset_on_time_jump" false ≠ none)
  plain : ∀ n ∈ plainNames, o n = o' n
  input : ∀ k ∈ ["odom", "pose", "twist", "imu"], ∀ i, ∀ s ∈ inputSuffixes, o (inputName k i ++ s) = o' (inputName k i ++ s)

theorem readOdom_congr {o o' : Given} {n t : String} (h : ∀ s ∈ inputSuffixes, o (n ++ s) = o' (n ++ s)) :
    readOdom o n t = readOdom o' n t := by
  simp only [readOdom, loadUpdateConfig, Given.bool, Given.thresh, Given.int, Given.bools,
    h "_differential" (by decide), h "_relative" (by decide), h "_pose_use_child_frame" (by decide),
    h "_pose_rejection_threshold" (by decide), h "_twist_rejection_threshold" (by decide), h "_queue_size" (by decide),
    h "_config" (by decide)]

theorem readPose_congr {o o' : Given} {n t : String} (h : ∀ s ∈ inputSuffixes, o (n ++ s) = o' (n ++ s)) :
    readPose o n t = readPose o' n t := by
  simp only [readPose, loadUpdateConfig, Given.bool, Given.thresh, Given.int, Given.bools,
    h "_differential" (by decide), h "_relative" (by decide),
    h "_rejection_threshold" (by decide), h "_queue_size" (by decide), h "_config" (by decide)]

theorem readTwist_congr {o o' : Given} {n t : String} (h : ∀ s ∈ inputSuffixes, o (n ++ s) = o' (n ++ s)) :
    readTwist o n t = readTwist o' n t := by
  simp only [readTwist, loadUpdateConfig, Given.thresh, Given.int, Given.bools,
    h "_rejection_threshold" (by decide), h "_queue_size" (by decide), h "_config" (by decide)]

theorem readImu_congr {o o' : Given} {n t : String} (h : ∀ s ∈ inputSuffixes, o (n ++ s) = o' (n ++ s)) :
    readImu o n t = readImu o' n t := by
  simp only [readImu, loadUpdateConfig, Given.bool, Given.thresh, Given.int, Given.bools,
    h "_differential" (by decide), h "_relative" (by decide),
    h "_pose_rejection_threshold" (by decide), h "_twist_rejection_threshold" (by decide),
    h "_linear_acceleration_rejection_threshold" (by decide), h "_remove_gravitational_acceleration" (by decide),
    h "_queue_size" (by decide), h "_config" (by decide)]

theorem sensorAt_congr {o o' : Given} {k : String} {read read' : String → String → Option SensorSet}
    (h : ∀ i, ∀ s ∈ inputSuffixes, o (inputName k i ++ s) = o' (inputName k i ++ s))
    (hr : ∀ i t, read (inputName k i) t = read' (inputName k i) t) : sensorAt o k read = sensorAt o' k read' := by
  funext i
  have h0 := h i "" (by decide)
  rw [String.append_empty] at h0
  simp only [sensorAt, Given.string?, h0, hr]

theorem readSwitches_congr {o o' : Given} (hp : ∀ n ∈ switchNames, o n = o' n)
    (hj : o.bool "reset_on_time_jump" false = o'.bool "reset_on_time_jump" false ∨
      (o.bool "reset_on_time_jump" false ≠ none ∧ o'.bool "reset_on_time_jump" false ≠ none)) :
    readSwitches o = readSwitches o' := by
  have hb : ∀ n ∈ switchNames, ∀ d, o.bool n d = o'.bool n d := fun n hn d => by simp only [Given.bool, hp n hn]
  simp only [readSwitches, hb "print_diagnostics" (by decide), hb "debug" (by decide), hb "publish_tf" (by decide),
    hb "publish_acceleration" (by decide), hb "permit_corrected_publication" (by decide), hb "predict_to_current_time" (by decide),
    hb "two_d_mode" (by decide), hb "smooth_lagged_data" (by decide),
    hb "use_control" (by decide), hb "dynamic_process_noise_covariance" (by decide), hb "disabled_at_startup" (by decide)]
  rcases hj with hj | ⟨hj, hj'⟩
  · rw [hj]
  · obtain ⟨x, hx⟩ := Option.ne_none_iff_exists'.1 hj
    obtain ⟨x', hx'⟩ := Option.ne_none_iff_exists'.1 hj'
    rw [hx, hx']
    rfl

theorem loadNode_congr {o o' : Given} (h : Agree o o') : loadNode o = loadNode o' := by
  have hp := h.plain
  have h1 := readSwitches_congr h.switches h.jump
  have h2 : readFrames o = readFrames o' := by
    simp only [readFrames, Given.string?, hp "map_frame" (by decide), hp "odom_frame" (by decide), hp "base_link_frame" (by decide),
      hp "base_link_frame_output" (by decide), hp "world_frame" (by decide), hp "tf_prefix" (by decide)]
  have h3 : readTimes o = readTimes o' := by
    simp only [readTimes, Given.double, Given.double?, hp "transform_time_offset" (by decide), hp "transform_timeout" (by decide),
      hp "frequency" (by decide), hp "sensor_timeout" (by decide), hp "history_length" (by decide), hp "control_timeout" (by decide)]
  have h4 : ∀ b, readControlLists o b = readControlLists o' b := fun b => by
    simp only [readControlLists, Given.bools?, Given.doubles?, hp "control_config" (by decide), hp "acceleration_limits" (by decide),
      hp "acceleration_gains" (by decide), hp "deceleration_limits" (by decide), hp "deceleration_gains" (by decide)]
  have h5 : readInputs o = readInputs o' := by
    unfold readInputs
    rw [sensorAt_congr (h.input "odom" (by decide)) fun i t => readOdom_congr (h.input "odom" (by decide) i),
      sensorAt_congr (h.input "pose" (by decide)) fun i t => readPose_congr (h.input "pose" (by decide) i),
      sensorAt_congr (h.input "twist" (by decide)) fun i t => readTwist_congr (h.input "twist" (by decide) i),
      sensorAt_congr (h.input "imu" (by decide)) fun i t => readImu_congr (h.input "imu" (by decide) i)]
  have h6 : ∀ n ∈ plainNames, ∀ m, readCov o n m = readCov o' n m := fun n hn m => by
    simp only [readCov, Given.doubles?, hp n hn]
  unfold loadNode
  rw [h1, h2, h3, h5, h6 _ (by decide), h6 _ (by decide)]
  simp only [h4, Given.double, Given.doubles?, hp "gravitational_acceleration" (by decide), hp "initial_state" (by decide)]

/-- A name that does not begin like an input is not the name of one. -/
theorem ne_input {name : String} {c : Char} {r : List Char} (hn : name.toList = c :: r) (hc : c ∉ ['o', 'p', 't', 'i']) {k : String}
    (hk : k ∈ ["odom", "pose", "twist", "imu"]) (i : ℕ) (s : String) : inputName k i ++ s ≠ name := by
  intro h
  have h := congrArg String.toList h
  simp only [inputName, String.toList_append, String.toList_ofList, hn] at h
  have : ∃ d, d ∈ ['o', 'p', 't', 'i'] ∧ ∃ l, k.toList = d :: l := by
    simp only [List.mem_cons, List.not_mem_nil, or_false] at hk
    rcases hk with rfl | rfl | rfl | rfl
    · exact ⟨'o', by decide, _, rfl⟩
    · exact ⟨'p', by decide, _, rfl⟩
    · exact ⟨'t', by decide, _, rfl⟩
    · exact ⟨'i', by decide, _, rfl⟩
  obtain ⟨d, hd, l, hl⟩ := this
  rw [hl] at h
  injection h with h
  exact hc (h ▸ hd)

/-- Parameters that agree except for one name that is not read. -/
theorem agree_update (o : Given) (name : String) (v : Option PVal) (h1 : name ∉ switchNames) (h2 : name ∉ plainNames)
    (h3 : name ≠ "reset_on_time_jump") (h4 : ∀ k ∈ ["odom", "pose", "twist", "imu"], ∀ i, ∀ s ∈ inputSuffixes, inputName k i ++ s ≠ name) :
    Agree (Function.update o name v) o :=
  ⟨fun n hn => Function.update_of_ne (show n ≠ name from fun h => h1 (h ▸ hn)) _ _,
   Or.inl (by unfold Given.bool; rw [Function.update_of_ne (Ne.symm h3)]),
   fun n hn => Function.update_of_ne (show n ≠ name from fun h => h2 (h ▸ hn)) _ _,
   fun k hk i s hs => Function.update_of_ne (h4 k hk i s hs) _ _⟩

/-- **C102** is false of the frame of the output: the documented name `base_link_output_frame` is never read, whatever it is
set to.  (The name that is read is `base_link_frame_output`.) -/
theorem C102_output_frame_name (o : Given) (v : Option PVal) : loadNode (Function.update o "base_link_output_frame" v) = loadNode o :=
  loadNode_congr (agree_update o _ v (by decide) (by decide) (by decide) fun _ hk i s _ => ne_input (by rfl) (by decide) hk i s)

/-- **C102** is false of stamped commands: `stamped_control` is never read. -/
theorem C102_stamped_control (o : Given) (v : Option PVal) : loadNode (Function.update o "stamped_control" v) = loadNode o :=
  loadNode_congr (agree_update o _ v (by decide) (by decide) (by decide) fun _ hk i s _ => ne_input (by rfl) (by decide) hk i s)

/-- **C102** is false of time jumps: `reset_on_time_jump` has no effect. -/
theorem C102_time_jump (o : Given) (b : Bool) (h : o "reset_on_time_jump" = none ∨ ∃ b, o "reset_on_time_jump" = some (.bool b)) :
    loadNode (Function.update o "reset_on_time_jump" (some (.bool b))) = loadNode o := by
  refine loadNode_congr ⟨fun n hn => ?_, Or.inr ⟨?_, ?_⟩, fun n hn => ?_, fun k hk i s _ => ?_⟩
  · refine Function.update_of_ne (fun h => ?_) _ _
    subst h
    revert hn
    decide
  · unfold Given.bool
    rw [Function.update_self]
    simp
  · unfold Given.bool
    rcases h with h | ⟨b, h⟩ <;> rw [h] <;> simp
  · refine Function.update_of_ne (fun h => ?_) _ _
    subst h
    revert hn
    decide
  · exact Function.update_of_ne (ne_input (by rfl) (by decide) hk i s) _ _

theorem suffix_start : ∀ s ∈ inputSuffixes, s.toList = [] ∨ ∃ t, s.toList = '_' :: t := by
  intro s hs
  simp only [inputSuffixes, List.mem_cons, List.not_mem_nil, or_false] at hs
  rcases hs with rfl | rfl | rfl | rfl | rfl | rfl | rfl | rfl | rfl | rfl | rfl
  · exact Or.inl rfl
  all_goals exact Or.inr ⟨_, rfl⟩

/-- **C102** is false of the threshold for the velocities of an IMU: the documented name
`imuN_angular_velocity_rejection_threshold` is never read.  (The name that is read is `imuN_twist_rejection_threshold`.) -/
theorem C102_imu_threshold_name (o : Given) (j : ℕ) (v : Option PVal) :
    loadNode (Function.update o (inputName "imu" j ++ "_angular_velocity_rejection_threshold") v) = loadNode o := by
  have hl : (inputName "imu" j ++ "_angular_velocity_rejection_threshold").toList =
      'i' :: 'm' :: 'u' :: (decimal j ++ "_angular_velocity_rejection_threshold".toList) := by
    simp only [inputName, String.toList_append, String.toList_ofList]
    rfl
  have hpre : ∀ n ∈ "reset_on_time_jump" :: (switchNames ++ plainNames), ¬['i', 'm', 'u'] <+: n.toList := by decide
  have hne : ∀ n ∈ "reset_on_time_jump" :: (switchNames ++ plainNames),
      inputName "imu" j ++ "_angular_velocity_rejection_threshold" ≠ n := fun n hn h => by
    refine hpre n hn ?_
    rw [← h, hl]
    exact ⟨_, rfl⟩
  refine loadNode_congr (agree_update o _ v (fun h => ?_) (fun h => ?_) (fun h => ?_) fun k hk i s hs h => ?_)
  · exact hne _ (by simp [h]) rfl
  · exact hne _ (by simp [h]) rfl
  · exact hne _ (by simp) h
  · have h' := congrArg String.toList h
    rw [hl] at h'
    simp only [inputName, String.toList_append, String.toList_ofList] at h'
    simp only [List.mem_cons, List.not_mem_nil, or_false] at hk
    rcases hk with rfl | rfl | rfl | rfl
    · injection h' with h'
      revert h'
      decide
    · injection h' with h'
      revert h'
      decide
    · injection h' with h'
      revert h'
      decide
    · have h2 : decimal i ++ s.toList = decimal j ++ "_angular_velocity_rejection_threshold".toList := by
        injection h' with _ h'
        injection h' with _ h'
        injection h' with _ h'
      obtain ⟨_, h3⟩ := numbered_inj (suffix_start s hs) (Or.inr ⟨_, rfl⟩) h2
      have h4 : s = "_angular_velocity_rejection_threshold" := String.toList_injective h3
      subst h4
      revert hs
      decide

end RL
