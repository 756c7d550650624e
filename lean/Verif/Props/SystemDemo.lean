import Verif.Props.System
import Verif.Props.NodeStarts
/-! # C117: a node to which the theorems apply -/

namespace RL
open Matrix Real Body
open Nav (Given)

/-- Parameters of a node with one odometry input whose poses are used; the robot starts at one metre per second. -/
noncomputable def drivingParams : Given := fun n =>
  if n = "odom0" then some (.string "wheels")
  else if n = "odom0_config" then some (.bools (List.replicate 6 true ++ List.replicate 9 false))
  else if n = "initial_state" then some (.doubles (List.ofFn ahead.vec))
  else none

theorem driving_typed : NodeTyped drivingParams where
  bools := by simp [switchNames, drivingParams]
  strings := by simp [drivingParams]
  doubles := by simp [drivingParams]
  fits := by simp [Fits, drivingParams]
  frequency := by
    intro f hf
    have : f = 30 := by
      rcases hf with hf | ⟨-, hf⟩
      · simp [drivingParams] at hf
      · exact hf
    subst this
    norm_num
  initial := by simp [drivingParams]
  covs := by simp [drivingParams]
  config := by simp [Nav.Given.On, drivingParams]
  lists := by simp [drivingParams]

theorem driving_sensor : SensorTyped drivingParams ("odom" ++ "0") := by
  constructor <;> simp [drivingParams]

theorem driving_starts : ∃ c, loadNode drivingParams = some c := by
  obtain ⟨c, h, -⟩ := C102_starts driving_typed (a := 1) (b := 0) (c := 0) (d := 0)
    ⟨fun i hi => by
      have : i = 0 := by omega
      subst this
      rw [name0]
      exact ⟨"wheels", by simp [drivingParams]⟩,
     fun i hi => by
      have : i = 0 := by omega
      subst this
      rw [name0]
      exact driving_sensor,
     by rw [name1]; simp [drivingParams]⟩
    ⟨fun i hi => absurd hi (by omega), fun i hi => absurd hi (by omega), by rw [name0]; simp [drivingParams]⟩
    ⟨fun i hi => absurd hi (by omega), fun i hi => absurd hi (by omega), by rw [name0]; simp [drivingParams]⟩
    ⟨fun i hi => absurd hi (by omega), fun i hi => absurd hi (by omega), by rw [name0]; simp [drivingParams]⟩
  exact ⟨c, h⟩

theorem loadNode_inputs {o : Given} {c : NodeConf} (h : loadNode o = some c) : readInputs o = some c.inputs := by
  unfold loadNode at h
  obtain ⟨x1, e1, h⟩ := Option.bind_eq_some_iff.1 h
  obtain ⟨x2, e2, h⟩ := Option.bind_eq_some_iff.1 h
  obtain ⟨x3, e3, h⟩ := Option.bind_eq_some_iff.1 h
  obtain ⟨x4, e4, h⟩ := Option.bind_eq_some_iff.1 h
  obtain ⟨p, e5, h⟩ := Option.bind_eq_some_iff.1 h
  obtain ⟨x6, e6, h⟩ := Option.bind_eq_some_iff.1 h
  obtain ⟨i, e7, h⟩ := Option.bind_eq_some_iff.1 h
  obtain ⟨s, e8, h⟩ := Option.bind_eq_some_iff.1 h
  obtain ⟨x9, e9, h⟩ := Option.bind_eq_some_iff.1 h
  obtain ⟨x10, e10, h⟩ := Option.bind_eq_some_iff.1 h
  injection h with h
  rw [← h]
  exact e7

/-- What is read for the input. -/
def wheels : SensorSet :=
  { par := { name := "odom0", config := List.replicate 6 true ++ List.replicate 9 false, differential := false, relative := false
             useChild := false, poseThresh := .unlimited, twistThresh := .unlimited, accelThresh := .unlimited }
    topic := "wheels", queueSize := 10, removeGravity := false }

theorem driving_wheels {c : NodeConf} (h : loadNode drivingParams = some c) : c.inputs.odoms[0]? = some wheels := by
  have h := loadNode_inputs h
  unfold readInputs at h
  obtain ⟨l, h1, h⟩ := Option.bind_eq_some_iff.1 h
  obtain ⟨x2, -, h⟩ := Option.bind_eq_some_iff.1 h
  obtain ⟨x3, -, h⟩ := Option.bind_eq_some_iff.1 h
  obtain ⟨x4, -, h⟩ := Option.bind_eq_some_iff.1 h
  obtain ⟨x5, -, h⟩ := Option.bind_eq_some_iff.1 h
  obtain ⟨x6, -, h⟩ := Option.bind_eq_some_iff.1 h
  obtain ⟨x7, -, h⟩ := Option.bind_eq_some_iff.1 h
  obtain ⟨x8, -, h⟩ := Option.bind_eq_some_iff.1 h
  injection h with h
  rw [← h]
  have := sensorsFrom_some h1 0 (Nat.zero_le _)
  rw [Nat.zero_add] at this
  have e : sensorAt drivingParams "odom" (readOdom drivingParams) 0 = some (some wheels) := by
    unfold sensorAt
    rw [name0]
    simp [Nav.Given.string?, Nav.Given.bool, Nav.Given.bools, Nav.Given.int, Nav.Given.thresh, Given.string?, Given.bool, Given.bools,
      Given.int, Given.thresh, drivingParams, readOdom, loadUpdateConfig, wheels]
  rw [e] at this
  injection this with this
  exact this.symm

/-- No transforms. -/
def noTf : TfBuffer := fun _ _ _ => none

theorem noTf_sane : SaneBuf noTf := ⟨fun _ _ _ _ h => (by cases h), fun _ _ _ h => (by cases h)⟩

/-- The odometry of a robot that drives straight ahead. -/
noncomputable def driven (world : String) (t : Int) : OdomMsg :=
  { frame := world, child := "", stamp := t, pos := ![toSec t, 0, 0], ori := ⟨0, 0, 0, 1⟩, poseCov := fun _ => 1
    lin := ![.fin 1, .fin 0, .fin 0], ang := fun _ => .fin 0, twistCov := fun _ => 1 }

/-- Its motion. -/
noncomputable def drive (t : Int) : Kin := move ahead (toSec t)

theorem drive_eq (t : Int) : drive t = { pos := ![toSec t, 0, 0], eul := 0, vel := ![1, 0, 0], rate := 0, acc := 0 } := by
  unfold drive move ahead
  congr 1
  · funext i
    fin_cases i <;> simp [rot, rotX, rotY, rotZ, Matrix.mulVec, dotProduct, Fin.sum_univ_three, Matrix.mul_apply]
  · funext i
    fin_cases i <;> simp [eulerRates]
  · simp

theorem rot_zero : rot (0 : Vec3) = 1 := by
  ext i j
  fin_cases i <;> fin_cases j <;> simp [rot, rotX, rotY, rotZ, Matrix.mul_apply, Fin.sum_univ_three]

theorem driven_tells (fr : Frames) (t : Int) :
    TellsPose noTf fr fr.world fr.base (driven fr.world t).pos (driven fr.world t).ori (drive t) := by
  refine ⟨by norm_num [driven, Quat.len2], Tf.id, Tf.id, ⟨IsRot.one, fun _ _ h => (by cases h), fun _ => rfl⟩, ?_, Or.inl ⟨rfl, rfl⟩⟩
  rw [Tf.mul_id, Tf.id_mul]
  unfold Kin.tf
  rw [drive_eq]
  simp only [rot_zero, driven]
  congr 1
  ext i j
  fin_cases i <;> fin_cases j <;> simp [Quat.mat, Quat.len2]

theorem step_odom_filt {C : Core} {P : MQueue C} (V : View C) (g : SysCfg C) (s : Sys C P) (i : ℕ) (buf : TfBuffer) (junk : State)
    (msg : OdomMsg) : (s.step V g (.odom i buf junk msg)).1.hub.node.filt = s.hub.node.filt := by
  rw [(s.step_eq V g _).1]
  have key : ∀ (es : List (Node.Event C)) (n : Node C P), (∀ e ∈ es, ∃ topic stamp z, e = .sensor topic stamp z) →
      (n.run g.cfg es).1.filt = n.filt := by
    intro es
    induction es with
    | nil => intro n _; rfl
    | cons e es ih =>
      intro n h
      obtain ⟨topic, stamp, z, rfl⟩ := h e List.mem_cons_self
      exact (ih _ fun e he => h e (List.mem_cons_of_mem _ he)).trans (Node.sensor_filt n topic stamp z)
  refine key _ _ fun x hx => ?_
  simp only [Sys.events] at hx
  split at hx
  · split at hx
    · unfold Hub.odomEvents at hx
      rcases List.mem_append.1 hx with hx | hx <;>
      · split at hx
        · rw [List.mem_singleton] at hx
          exact ⟨_, _, _, hx⟩
        · cases hx
    · cases hx
  · cases hx

/-- Two messages and a cycle. -/
noncomputable def drivenRun (world : String) (junk : State) : List Sys.Ev :=
  [.odom 0 noTf junk (driven world 1000000000), .odom 0 noTf junk (driven world 2000000000), .tick 2000000000 2000000000 noTf]

theorem driven_honest {c : NodeConf} (h : loadNode drivingParams = some c) {Q : MQueue (ekfCore c.par)}
    (s : Sys (ekfCore c.par) Q) (hx : s.hub.node.filt.x = some ahead.vec) (junk : State) (t : Int) :
    TrueMessage c drive s (.odom 0 noTf junk (driven c.frames.world t)) := by
  refine ⟨noTf_sane, fun set hset => ?_⟩
  rw [driving_wheels h] at hset
  injection hset with hset
  subst hset
  have sel : ∀ j : Fin 15, Selects wheels.par.config j.val ↔ j.val < 6 := by
    intro j
    fin_cases j <;> simp [Selects, wheels]
  refine ⟨rfl, fun j hj hs => absurd ((sel j).1 hs) (by omega), fun _ => ⟨⟨rfl, rfl⟩, ?_, ?_⟩, fun ⟨j, h1, h2⟩ => absurd ((sel j).1 h2) (by omega)⟩
  · exact Or.inl (driven_tells c.frames t)
  · intro _ x0 hx0 i hi
    rw [hx] at hx0
    injection hx0 with hx0
    have h6 : 6 ≤ i.val := by
      by_contra hlt
      exact hi ⟨rfl, by omega, (sel i).2 (by omega)⟩
    have : ahead.vec i = (drive (driven c.frames.world t).stamp).vec i := by
      rw [drive_eq]
      obtain ⟨i, hlt⟩ := i
      change 6 ≤ i at h6
      interval_cases i <;> rfl
    rw [← hx0, this]
    exact SameVal.rfl' _ _

/-- The hypotheses of `C117_timely` (and with them those of `C117_honest_partial`) are met by a robot that drives. -/
example (junk : State) (d : Differ) : ∃ c, loadNode drivingParams = some c ∧ ¬ drivingParams.On "use_control" ∧ c.frames.world ≠ "" ∧
    c.frames.base ≠ "" ∧ Follows drive ∧ (∀ t, HeadUp (drive t)) ∧ Timely 0 (drivenRun c.frames.world junk) ∧
    (Sys.start c.sys (demoQ c.par) () (0 : Fin 6 → ℝ) 0 d).Holds (ekfView c.par) c.sys (TrueMessage c drive) (drivenRun c.frames.world junk) := by
  obtain ⟨c, h⟩ := driving_starts
  have doc := C102_settings_partial h
  have ho : c.frames.odom = "odom" := by
    rcases doc.frames.odom with h | ⟨-, h⟩
    · simp [drivingParams] at h
    · exact h
  have hw : c.frames.world = "odom" := by
    rcases doc.frames.world with h | ⟨-, h⟩
    · simp [drivingParams] at h
    · rw [h, ho]
  have hb : c.frames.base = "base_link" := by
    rcases doc.frames.base with h | ⟨-, h⟩
    · simp [drivingParams] at h
    · exact h
  have hx : c.initial = ahead.vec := doc.initial ahead.vec (by simp [drivingParams])
  refine ⟨c, h, by simp [Nav.Given.On, drivingParams], by rw [hw]; decide, by rw [hb]; decide, C97_straight ahead rfl, ?_, ?_, ?_⟩
  · intro t
    unfold HeadUp
    rw [drive_eq]
    simp
  · refine ⟨?_, ?_, ?_, ?_, trivial⟩ <;> simp [driven]
  · refine ⟨driven_honest h _ ?_ junk _, driven_honest h _ ?_ junk _, trivial, trivial⟩
    · exact congrArg some hx
    · rw [step_odom_filt]
      exact congrArg some hx

end RL
