import Verif.Props.NodePar
import Verif.Props.ControlPar
import Verif.Props.NodeStarts
/-! # C102: the settings reach the filter and the control flow -/

namespace RL
open Nav Matrix

/-- **C102**: the settings as the control flow of the node uses them. -/
theorem C102_flow {o : Given} {c : NodeConf} (h : loadNode o = some c) :
    (c.cfg.smooth = true ↔ o.On "smooth_lagged_data") ∧ (c.cfg.predictToCurrent = true ↔ o.On "predict_to_current_time") ∧
    (c.cfg.permitCorrected = true ↔ o.On "permit_corrected_publication") ∧
    (c.cfg.publishTf = true ↔ o "publish_tf" = none ∨ o.On "publish_tf") ∧
    (c.cfg.publishAccel = true ↔ o.On "publish_acceleration") ∧ (c.cfg.disabledAtStartup = true ↔ o.On "disabled_at_startup") ∧
    (∀ s, 0 ≤ s → o.Num "history_length" 0 s → |s * 1000000000 - c.cfg.historyLength| < 1) ∧
    (∀ f, o.Num "frequency" 30 f → o.Span "sensor_timeout" (1 / f) c.cfg.sensorTimeout) ∧
    (∀ x : State, o "initial_state" = some (.doubles (List.ofFn x)) → c.cfg.initialState = some x) ∧
    (o "initial_state" = none → c.cfg.initialState = some (0 : State)) ∧
    CovDoc o "process_noise_covariance" defaultQ c.cfg.processNoise ∧
    CovDoc o "initial_estimate_covariance" ((1e-9 : ℝ) • 1) c.cfg.initialCov ∧ c.cfg.useControl = c.par.useControl ∧
    (c.par.dynamic = true ↔ o.On "dynamic_process_noise_covariance") ∧
    (o "control_timeout" ≠ none → o.Span "control_timeout" 0 c.par.ctlTimeout) := by
  have d := C102_settings_partial h
  exact ⟨d.sw.smooth, d.sw.predictToCurrent, d.sw.permitCorrected, d.sw.publishTf, d.sw.publishAccel, d.sw.disabled,
    d.times.history, d.times.sensor, fun x hx => congrArg some (d.initial x hx), fun hn => congrArg some (d.noInitial hn),
    d.noise, d.cov, rfl, d.sw.dynamic, d.times.control⟩

theorem fillFalse_len {off n : ℕ} {v w : List Bool} (h : fillFalse off n v = some w) : w.length = v.length := by
  by_cases hl : off + n ≤ v.length
  · obtain ⟨w', e, hw, -⟩ := fillFalse_some hl
    rw [h] at e
    injection e with e
    rw [e, hw]
  · rw [fillFalse_none.2 (by omega)] at h
    cases h

theorem imuData_length {s : SensorPar} {d : CallbackData × CallbackData × CallbackData} (h : imuData s = some d) :
    15 ≤ s.config.length := by
  unfold imuData imuPoseVec at h
  simp only [Option.bind_eq_bind, Option.bind_eq_some_iff] at h
  obtain ⟨vp, ⟨x1, p1, x2, p2, p3⟩, _, _, _, _, fp, hp, _⟩ := h
  unfold flags at hp
  split at hp
  · rename_i hl
    rw [fillFalse_len p3, fillFalse_len p2, fillFalse_len p1] at hl
    exact hl
  · cases hp

/-- The entries of a list of six numbers as documented: those set, or others. -/
def _root_.RL.Nav.Given.Six (o : Given) (name : String) (without x : Fin 6 → ℝ) : Prop :=
  o name = some (.doubles (List.ofFn x)) ∨ (o name = none ∧ x = without)

theorem six_getD {o : Given} {n : String} {w x : Fin 6 → ℝ} (h : o.Six n w x) {r : Option (List ℝ)} (hr : o.doubles? n = some r)
    {l : List ℝ} (hl : ∀ a : Fin 6, l.getD a.val 0 = w a) (a : Fin 6) :
    (r.getD l).getD a.val 0 = x a ∧ ((r.map fixGains).getD l).getD a.val 0 = x a ∧ ∀ l', r = some l' → l'.length = 6 := by
  have e := doubles?_eq hr
  rcases h with h | ⟨h, rfl⟩
  · rw [h] at e
    cases r with
    | none => cases e
    | some r =>
      injection e with e
      injection e with e
      subst e
      refine ⟨getD_ofFn x a, ?_, fun l' hl' => ?_⟩
      · show (fixGains _).getD _ _ = _
        rw [fixGains_of_length (by simp)]
        exact getD_ofFn x a
      · injection hl' with hl'
        rw [← hl']
        simp
  · rw [h] at e
    cases r with
    | none => exact ⟨hl a, hl a, fun l' h => by cases h⟩
    | some r => cases e

theorem readInputs_imus {o : Given} {i : Inputs} (h : readInputs o = some i) :
    i.imus.mapM (fun s => imuData s.par) = some i.imuCds ∧
      ∀ k, (hk : k < i.imus.length) → loadUpdateConfig o (inputName "imu" k) = some i.imus[k].par.config := by
  unfold readInputs at h
  obtain ⟨x1, h1, h⟩ := Option.bind_eq_some_iff.1 h
  obtain ⟨x2, h2, h⟩ := Option.bind_eq_some_iff.1 h
  obtain ⟨x3, h3, h⟩ := Option.bind_eq_some_iff.1 h
  obtain ⟨x4, h4, h⟩ := Option.bind_eq_some_iff.1 h
  obtain ⟨x5, h5, h⟩ := Option.bind_eq_some_iff.1 h
  obtain ⟨x6, h6, h⟩ := Option.bind_eq_some_iff.1 h
  obtain ⟨x7, h7, h⟩ := Option.bind_eq_some_iff.1 h
  obtain ⟨x8, h8, h⟩ := Option.bind_eq_some_iff.1 h
  injection h with h
  subst h
  refine ⟨h8, fun k hk => ?_⟩
  have e := sensorsFrom_some h7 k (Nat.le_of_lt hk)
  rw [Nat.zero_add, List.getElem?_eq_getElem hk] at e
  unfold sensorAt at e
  split at e
  · cases e
  · cases e
  · rw [Option.map_eq_some_iff] at e
    obtain ⟨s, hs, e⟩ := e
    injection e with e
    show _ = some x7[k].par.config
    rw [← e]
    unfold readImu at hs
    obtain ⟨y1, g1, hs⟩ := Option.bind_eq_some_iff.1 hs
    obtain ⟨y2, g2, hs⟩ := Option.bind_eq_some_iff.1 hs
    obtain ⟨y3, g3, hs⟩ := Option.bind_eq_some_iff.1 hs
    obtain ⟨y4, g4, hs⟩ := Option.bind_eq_some_iff.1 hs
    obtain ⟨y5, g5, hs⟩ := Option.bind_eq_some_iff.1 hs
    obtain ⟨y6, g6, hs⟩ := Option.bind_eq_some_iff.1 hs
    obtain ⟨y7, g7, hs⟩ := Option.bind_eq_some_iff.1 hs
    obtain ⟨y8, g8, hs⟩ := Option.bind_eq_some_iff.1 hs
    injection hs with hs
    rw [← hs]
    exact g8

theorem six_ok {r : Option (List ℝ)} (h : ∀ l, r = some l → l.length = 6) :
    (match (generalizing := false) r with
      | some l => decide (l.length = 6)
      | none => true) = true := by
  cases r with
  | none => rfl
  | some l => simpa using h l rfl

theorem sumTrue_ne {v : List Bool} : sumTrue v ≠ 0 ↔ true ∈ v := by
  unfold sumTrue
  rw [← Nat.pos_iff_ne_zero, List.count_pos_iff]

/-- **C102**: with control asked for and configured as documented (the gains of acceleration must be given, see
`C57_missing_gains`), the filter predicts with the limits and gains of the parameters, on the axes that are selected and
whose acceleration no IMU is configured to measure. -/
theorem C102_control {o : Given} {c : NodeConf} (h : loadNode o = some c) (hu : o.On "use_control") (cfg : List Bool)
    (hc : o "control_config" = some (.bools cfg)) (hl : cfg.length = 6) (al ag dl dg : Fin 6 → ℝ)
    (h1 : o.Six "acceleration_limits" (fun _ => 1) al) (h2 : o "acceleration_gains" = some (.doubles (List.ofFn ag)))
    (h3 : o.Six "deceleration_limits" al dl) (h4 : o.Six "deceleration_gains" ag dg) :
    c.par.accLim = al ∧ c.par.accGain = ag ∧ c.par.decLim = dl ∧ c.par.decGain = dg ∧
    (∀ a : Fin 6, c.par.ctlUpd a = true ↔ cfg[a.val]? = some true ∧
      ∀ ha : a.val < 3, ∀ k < c.inputs.imus.length, ¬o.Selected (inputName "imu" k) ⟨12 + a.val, by omega⟩) ∧
    (c.par.useControl = true ↔ ∃ a, c.par.ctlUpd a = true) := by
  unfold loadNode at h
  obtain ⟨x1, e1, h⟩ := Option.bind_eq_some_iff.1 h
  obtain ⟨x2, e2, h⟩ := Option.bind_eq_some_iff.1 h
  obtain ⟨x3, e3, h⟩ := Option.bind_eq_some_iff.1 h
  obtain ⟨x4, e4, h⟩ := Option.bind_eq_some_iff.1 h
  obtain ⟨p, e5, h⟩ := Option.bind_eq_some_iff.1 h
  obtain ⟨x6, e6, h⟩ := Option.bind_eq_some_iff.1 h
  obtain ⟨i, e7, h⟩ := Option.bind_eq_some_iff.1 h
  obtain ⟨s, e8, h⟩ := Option.bind_eq_some_iff.1 h
  obtain ⟨x9, e9, h⟩ := Option.bind_eq_some_iff.1 h
  obtain ⟨x10, e10, h⟩ := Option.bind_eq_some_iff.1 h
  injection h with h
  subst h
  obtain ⟨hcd, hcfg⟩ := readInputs_imus e7
  have hv : ∀ v ∈ i.imus.map (fun s => s.par.config), 15 ≤ v.length := by
    intro v hv
    obtain ⟨t, ht, rfl⟩ := List.mem_map.1 hv
    obtain ⟨k, hk, e⟩ := List.mem_iff_getElem.1 ht
    obtain ⟨d, -, hd⟩ := (mapM_some hcd).2 k t (by rw [List.getElem?_eq_getElem hk, e])
    exact imuData_length hd
  unfold readControlLists at e5
  rw [if_pos ((readSwitches_doc e1).useControl.2 hu)] at e5
  obtain ⟨y1, g1, e5⟩ := Option.bind_eq_some_iff.1 e5
  obtain ⟨y2, g2, e5⟩ := Option.bind_eq_some_iff.1 e5
  obtain ⟨y3, g3, e5⟩ := Option.bind_eq_some_iff.1 e5
  obtain ⟨y4, g4, e5⟩ := Option.bind_eq_some_iff.1 e5
  obtain ⟨y5, g5, e5⟩ := Option.bind_eq_some_iff.1 e5
  injection e5 with e5
  have hy1 : y1 = some cfg := by
    simp only [Given.bools?, hc] at g1
    injection g1 with g1
    exact g1.symm
  subst hy1
  have r1 := fun a => six_getD h1 g2 (l := List.replicate 6 1) (fun a => by
    rw [List.getD_eq_getElem?_getD, List.getElem?_replicate, if_pos a.isLt]
    rfl) a
  have r2 := fun a => six_getD (w := ag) (Or.inl h2) g3 (l := List.ofFn ag) (fun a => getD_ofFn ag a) a
  have hy3 : y3 = some (List.ofFn ag) := by
    have := doubles?_eq g3
    rw [h2] at this
    cases y3 with
    | none => cases this
    | some y =>
      injection this with this
      injection this with this
      rw [this]
  have r3 := fun a => six_getD h3 g4 (fun a => (r1 a).1) a
  have r4 := fun a => six_getD h4 g5 (l := (y3.map fixGains).getD []) (fun a => by
    rw [hy3]
    show (fixGains _).getD _ _ = _
    rw [fixGains_of_length (by simp)]
    exact getD_ofFn ag a) a
  obtain ⟨u, hfold, hulen, hsel⟩ := imus_fold_ge _ hv cfg (by omega)
  have hload : loadControl p = ControlSettings.mk true cfg (y2.getD (List.replicate 6 (1 : ℝ))) ((y3.map fixGains).getD [])
      (y4.getD (y2.getD (List.replicate 6 (1 : ℝ)))) ((y5.map fixGains).getD ((y3.map fixGains).getD [])) := by
    rw [← e5]
    unfold loadControl
    rw [if_pos rfl]
    simp only [hl, Option.getD_some, decide_true, Bool.true_and]
    congr 1
    rw [Bool.and_eq_true]
    exact ⟨six_ok fun l hl => (r1 0).2.2 l hl, six_ok fun l hl => (r3 0).2.2 l hl⟩
  unfold finalControl at e8
  simp only [hload, hfold, Option.bind_eq_bind, Option.bind_some, Bool.true_and] at e8
  injection e8 with e8
  have hgain : ((y3.map fixGains).getD []) = List.ofFn ag := by
    rw [hy3]
    exact fixGains_of_length (by simp)
  have hupd : ∀ a : Fin 6, s.upd.getD a.val false = true ↔ cfg[a.val]? = some true ∧
      ∀ ha : a.val < 3, ∀ k < i.imus.length, ¬o.Selected (inputName "imu" k) ⟨12 + a.val, by omega⟩ := fun a => by
    rw [← e8]
    show u.getD a.val false = true ↔ _
    rw [hsel a.val, getD_true]
    refine and_congr_right fun _ => forall_congr' fun ha => ?_
    constructor
    · intro hh k hk hs
      refine hh i.imus[k].par.config (List.mem_map.2 ⟨_, List.getElem_mem hk, rfl⟩) ?_
      exact getD_true.2 ((config_selected (hcfg k hk) ⟨12 + a.val, by omega⟩).2 hs)
    · intro hh v hv hs
      obtain ⟨t, ht, rfl⟩ := List.mem_map.1 hv
      obtain ⟨k, hk, e⟩ := List.mem_iff_getElem.1 ht
      subst e
      exact hh k hk ((config_selected (hcfg k hk) ⟨12 + a.val, by omega⟩).1 (getD_true.1 hs))
  refine ⟨?_, ?_, ?_, ?_, hupd, ?_⟩
  · funext a
    show s.accLimits.getD a.val 0 = _
    rw [← e8]
    exact (r1 a).1
  · funext a
    show s.accGains.getD a.val 0 = _
    rw [← e8]
    show ((y3.map fixGains).getD []).getD a.val 0 = _
    rw [hgain]
    exact getD_ofFn ag a
  · funext a
    show s.decLimits.getD a.val 0 = _
    rw [← e8]
    exact (r3 a).1
  · funext a
    show s.decGains.getD a.val 0 = _
    rw [← e8]
    exact (r4 a).2.1
  · show s.useControl = true ↔ ∃ a : Fin 6, s.upd.getD a.val false = true
    rw [← e8]
    show decide (sumTrue u ≠ 0) = true ↔ ∃ a : Fin 6, u.getD a.val false = true
    rw [decide_eq_true_iff, sumTrue_ne]
    constructor
    · intro hm
      obtain ⟨k, hk, e⟩ := List.mem_iff_getElem.1 hm
      refine ⟨⟨k, by omega⟩, ?_⟩
      rw [getD_true, List.getElem?_eq_getElem hk, e]
    · rintro ⟨a, ha⟩
      rw [getD_true] at ha
      exact List.mem_of_getElem? ha

/-- The node of `sampleParams` with control. -/
noncomputable def drivenParams : Given := fun n =>
  if n = "use_control" then some (.bool true)
  else if n = "control_config" then some (.bools [true, false, false, false, false, true])
  else if n = "acceleration_gains" then some (.doubles (List.ofFn fun _ : Fin 6 => 0.8))
  else if n = "deceleration_limits" then some (.doubles (List.ofFn fun _ : Fin 6 => 2))
  else if n = "imu0" then some (.string "imu/data")
  else none

/-- The hypotheses of `C102_control` are met: the robot brakes harder than it speeds up. -/
example : ∃ c, loadNode drivenParams = some c ∧ c.par.useControl = true ∧ c.par.accLim = (fun _ => 1) ∧ c.par.decLim = (fun _ => 2) := by
  have hn : NodeTyped drivenParams :=
    { bools := by simp [switchNames, drivenParams]
      strings := by simp [drivenParams]
      doubles := by simp [drivenParams]
      fits := by simp [Fits, drivenParams]
      frequency := by
        intro f hf
        have : f = 30 := by
          rcases hf with hf | ⟨-, hf⟩
          · simp [drivenParams] at hf
          · exact hf
        subst this
        norm_num
      initial := by simp [drivenParams]
      covs := by simp [drivenParams]
      config := by simp [Given.On, drivenParams]
      lists := by simp [drivenParams] }
  have h0 : ∀ k, k = "odom" ∨ k = "pose" ∨ k = "twist" → KindTyped drivenParams k 0 := fun k hk =>
    ⟨fun i hi => absurd hi (by omega), fun i hi => absurd hi (by omega), by
      rw [name0]
      rcases hk with rfl | rfl | rfl <;> simp [drivenParams]⟩
  obtain ⟨c, hc, -, -, -, hi⟩ := C102_starts hn (h0 _ (by simp)) (h0 _ (by simp)) (h0 _ (by simp)) (d := 1)
    ⟨fun i hi => by
      have : i = 0 := by omega
      subst this
      rw [name0]
      exact ⟨"imu/data", by simp [drivenParams]⟩,
     fun i hi => by
      have : i = 0 := by omega
      subst this
      rw [name0]
      constructor <;> simp [drivenParams],
     by rw [name1]; simp [drivenParams]⟩
  obtain ⟨h1, -, h3, -, h5, h6⟩ := C102_control hc (by simp [Given.On, drivenParams])
    [true, false, false, false, false, true] (by simp [drivenParams]) rfl (fun _ => 1) (fun _ => 0.8) (fun _ => 2) (fun _ => 0.8)
    (Or.inr ⟨by simp [drivenParams], rfl⟩) (by simp [drivenParams]) (Or.inl (by simp [drivenParams]))
    (Or.inr ⟨by simp [drivenParams], rfl⟩)
  exact ⟨c, hc, h6.2 ⟨5, (h5 5).2 ⟨rfl, fun ha => absurd ha (by decide)⟩⟩, h1, h3⟩

end RL
