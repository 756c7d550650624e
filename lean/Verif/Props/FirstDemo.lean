import Verif.Props.FirstWord
/-! # C119: a node to which the theorems apply -/

namespace RL
open Matrix Real Body
open Nav (Given)

/-- Parameters of a node with one input of poses and one of velocities. -/
def towedParams : Given := fun n =>
  if n = "pose0" then some (.string "beacon")
  else if n = "pose0_config" then some (.bools (List.replicate 6 true ++ List.replicate 9 false))
  else if n = "twist0" then some (.string "keel")
  else if n = "twist0_config" then some (.bools (List.replicate 6 false ++ List.replicate 6 true ++ List.replicate 3 false))
  else none

theorem towed_typed : NodeTyped towedParams where
  bools := by simp [switchNames, towedParams]
  strings := by simp [towedParams]
  doubles := by simp [towedParams]
  fits := by simp [Fits, towedParams]
  frequency := by
    intro f hf
    have : f = 30 := by
      rcases hf with hf | ⟨-, hf⟩
      · simp [towedParams] at hf
      · exact hf
    subst this
    norm_num
  initial := by simp [towedParams]
  covs := by simp [towedParams]
  config := by simp [Nav.Given.On, towedParams]
  lists := by simp [towedParams]

theorem towed_pose : SensorTyped towedParams ("pose" ++ "0") := by
  constructor <;> simp [towedParams]

theorem towed_twist : SensorTyped towedParams ("twist" ++ "0") := by
  constructor <;> simp [towedParams]

theorem towed_starts : ∃ c, loadNode towedParams = some c := by
  obtain ⟨c, h, -⟩ := C102_starts towed_typed (a := 0) (b := 1) (c := 1) (d := 0)
    ⟨fun i hi => absurd hi (by omega), fun i hi => absurd hi (by omega), by rw [name0]; simp [towedParams]⟩
    ⟨fun i hi => by
      have : i = 0 := by omega
      subst this
      rw [name0]
      exact ⟨"beacon", by simp [towedParams]⟩,
     fun i hi => by
      have : i = 0 := by omega
      subst this
      rw [name0]
      exact towed_pose,
     by rw [name1]; simp [towedParams]⟩
    ⟨fun i hi => by
      have : i = 0 := by omega
      subst this
      rw [name0]
      exact ⟨"keel", by simp [towedParams]⟩,
     fun i hi => by
      have : i = 0 := by omega
      subst this
      rw [name0]
      exact towed_twist,
     by rw [name1]; simp [towedParams]⟩
    ⟨fun i hi => absurd hi (by omega), fun i hi => absurd hi (by omega), by rw [name0]; simp [towedParams]⟩
  exact ⟨c, h⟩

/-- What is read for the poses. -/
def beacon : SensorSet :=
  { par := { name := "pose0", config := List.replicate 6 true ++ List.replicate 9 false, differential := false
             relative := false, useChild := false, poseThresh := .unlimited, twistThresh := .unlimited, accelThresh := .unlimited }
    topic := "beacon", queueSize := 10, removeGravity := false }

/-- What is read for the velocities. -/
def keel : SensorSet :=
  { par := { name := "twist0", config := List.replicate 6 false ++ List.replicate 6 true ++ List.replicate 3 false, differential := false
             relative := false, useChild := false, poseThresh := .unlimited, twistThresh := .unlimited, accelThresh := .unlimited }
    topic := "keel", queueSize := 10, removeGravity := false }

theorem towed_inputs {c : NodeConf} (h : loadNode towedParams = some c) :
    c.inputs.poses[0]? = some beacon ∧ c.inputs.twists[0]? = some keel := by
  have h := loadNode_inputs h
  unfold readInputs at h
  obtain ⟨l, e1, h⟩ := Option.bind_eq_some_iff.1 h
  obtain ⟨x2, e2, h⟩ := Option.bind_eq_some_iff.1 h
  obtain ⟨x3, e3, h⟩ := Option.bind_eq_some_iff.1 h
  obtain ⟨x4, e4, h⟩ := Option.bind_eq_some_iff.1 h
  obtain ⟨x5, e5, h⟩ := Option.bind_eq_some_iff.1 h
  obtain ⟨x6, e6, h⟩ := Option.bind_eq_some_iff.1 h
  obtain ⟨x7, e7, h⟩ := Option.bind_eq_some_iff.1 h
  obtain ⟨x8, e8, h⟩ := Option.bind_eq_some_iff.1 h
  injection h with h
  rw [← h]
  have s3 := sensorsFrom_some e3 0 (Nat.zero_le _)
  have s5 := sensorsFrom_some e5 0 (Nat.zero_le _)
  rw [Nat.zero_add] at s3 s5
  have e : sensorAt towedParams "pose" (readPose towedParams) 0 = some (some beacon) := by
    unfold sensorAt
    rw [name0]
    simp [Nav.Given.string?, Nav.Given.bool, Nav.Given.bools, Nav.Given.int, Nav.Given.thresh, Given.string?, Given.bool, Given.bools,
      Given.int, Given.thresh, towedParams, readPose, loadUpdateConfig, beacon]
  have e' : sensorAt towedParams "twist" (readTwist towedParams) 0 = some (some keel) := by
    unfold sensorAt
    rw [name0]
    simp [Nav.Given.string?, Nav.Given.bools, Nav.Given.int, Nav.Given.thresh, Given.string?, Given.bools,
      Given.int, Given.thresh, towedParams, readTwist, loadUpdateConfig, keel]
  rw [e] at s3
  rw [e'] at s5
  injection s3 with s3
  injection s5 with s5
  exact ⟨s3.symm, s5.symm⟩

theorem towed_off (n : String) (h : towedParams n = none) : ¬ towedParams.On n := by
  simp [Nav.Given.On, h]

theorem towed_frames {c : NodeConf} (h : loadNode towedParams = some c) : c.frames.world = "odom" ∧ c.frames.base = "base_link" := by
  have doc := C102_settings_partial h
  have ho : c.frames.odom = "odom" := by
    rcases doc.frames.odom with h | ⟨-, h⟩
    · simp [towedParams] at h
    · exact h
  refine ⟨?_, ?_⟩
  · rcases doc.frames.world with h | ⟨-, h⟩
    · simp [towedParams] at h
    · rw [h, ho]
  · rcases doc.frames.base with h | ⟨-, h⟩
    · simp [towedParams] at h
    · exact h

/-- A robot that looks to the side. -/
noncomputable def quayPose : PoseMsg :=
  { frame := "odom", stamp := 1000000000, pos := ![1, 2, 3], ori := ⟨0, 0, 0.6, 0.8⟩, cov := fun k => k.val }

theorem quay_unit : quayPose.ori.len2 = 1 := by
  norm_num [quayPose, Quat.len2]

theorem quay_level : NotVertical quayPose.ori := by
  have : quayPose.ori.mat 2 0 = 0 := by simp [quayPose, Quat.mat, Quat.len2]
  rw [NotVertical, this]
  norm_num

/-- The hypotheses of `C119_first_pose` can be met. -/
example : ∃ c, loadNode towedParams = some c ∧ ∃ m, Sent.odom 1000000000 (some m) ∈
    ((Sys.start c.sys (demoQ c.par) () (0 : Fin 6 → ℝ) 0 ⟨0, 0, 0, 0⟩).run (ekfView c.par) c.sys
      [.pose 0 noTf 0 quayPose, .tick 2000000000 2000000000 noTf]).2 ∧ SamePose quayPose m := by
  obtain ⟨c, h⟩ := towed_starts
  obtain ⟨hw, -⟩ := towed_frames h
  refine ⟨c, h, ?_⟩
  obtain ⟨m, h1, h2, -⟩ := C119_first_pose h (towed_off _ (by simp [towedParams])) (towed_off _ (by simp [towedParams]))
    (towed_off _ (by simp [towedParams])) (by rw [hw]; decide) (demoQ c.par) 0 0 ⟨0, 0, 0, 0⟩ (towed_inputs h).1 rfl
    (fun j hj => by interval_cases j <;> simp [Selects, beacon]) rfl rfl noTf noTf_sane 0 quayPose hw.symm quay_unit quay_level
    (by norm_num [quayPose]) 2000000000 2000000000 (by norm_num [quayPose]) noTf
  exact ⟨m, h1, h2⟩

/-- A robot that drives ahead and turns. -/
noncomputable def towMsg : TwistMsg :=
  { frame := "base_link", stamp := 1000000000, lin := ![.fin 1, .fin 0, .fin 0], ang := ![.fin 0, .fin 0, .fin 0.5], cov := fun k => k.val }

/-- The hypotheses of `C119_first_twist` can be met. -/
example : ∃ c, loadNode towedParams = some c ∧ ∃ m, Sent.odom 1000000000 (some m) ∈
    ((Sys.start c.sys (demoQ c.par) () (0 : Fin 6 → ℝ) 0 ⟨0, 0, 0, 0⟩).run (ekfView c.par) c.sys
      [.twist 0 noTf 0 towMsg, .tick 2000000000 2000000000 noTf]).2 ∧ SameTwist towMsg m := by
  obtain ⟨c, h⟩ := towed_starts
  obtain ⟨-, hb⟩ := towed_frames h
  refine ⟨c, h, ?_⟩
  obtain ⟨m, h1, h2, -⟩ := C119_first_twist h (towed_off _ (by simp [towedParams])) (towed_off _ (by simp [towedParams]))
    (towed_off _ (by simp [towedParams])) (demoQ c.par) 0 0 ⟨0, 0, 0, 0⟩ (towed_inputs h).2 rfl
    (fun j hj => by interval_cases j <;> simp [Selects, keel]) noTf noTf_sane 0 towMsg hb.symm
    (fun k => by fin_cases k <;> rfl) (fun k => by fin_cases k <;> rfl)
    (by norm_num [towMsg]) 2000000000 2000000000 (by norm_num [towMsg]) noTf
  exact ⟨m, h1, h2⟩

/-- A node that has been initialised by its first measurement. -/
noncomputable def moored (c : NodeConf) : Sys (ekfCore c.par) (demoQ c.par) :=
  let s := Sys.start c.sys (demoQ c.par) () (0 : Fin 6 → ℝ) 0 ⟨0, 0, 0, 0⟩
  { s with hub := { s.hub with node := { s.hub.node with
      enabled := true, filt := { s.hub.node.filt with initialized := true, sensorTimeout := 1000000000 } } } }

/-- The hypotheses of `C119_set_pose` can be met. -/
example : ∃ c, loadNode towedParams = some c ∧ ∃ m, Sent.odom 1000000000 (some m) ∈
    ((moored c).run (ekfView c.par) c.sys [.setPose 1000000000 noTf 0 quayPose, .tick 1000000001 1000000001 noTf]).2 ∧
      SamePose quayPose m := by
  obtain ⟨c, h⟩ := towed_starts
  obtain ⟨hw, -⟩ := towed_frames h
  refine ⟨c, h, ?_⟩
  obtain ⟨m, h1, h2, -⟩ := C119_set_pose h (towed_off _ (by simp [towedParams])) (towed_off _ (by simp [towedParams]))
    (by rw [hw]; decide) (moored c) rfl rfl rfl noTf noTf_sane 0 quayPose hw.symm quay_unit quay_level 1000000000 1000000001 1000000001
    (by show (0 : Int) < _; norm_num) (by show (1000000001 : Int) - 1000000000 < 1000000000; norm_num) noTf
  exact ⟨m, h1, h2⟩

end RL
