import Verif.Model.ControlPar
import Verif.Props.Params
import Verif.Props.EkfControl
/-! # C88: the configured control parameters are the ones that act -/

namespace RL

/-- A parameter for one axis as the user wrote it, or what the documentation says it is without. -/
noncomputable def chosen (given : Option (List ℝ)) (c : Fin 6) (without : ℝ) : ℝ :=
  match given with
  | some l => l.getD c.val 0
  | none => without

/-- The limit of acceleration: one without a parameter. -/
noncomputable def driveLimit (p : ControlParams) (c : Fin 6) : ℝ := chosen p.accLimits c 1
/-- The limit of deceleration: that of acceleration without a parameter. -/
noncomputable def brakeLimit (p : ControlParams) (c : Fin 6) : ℝ := chosen p.decLimits c (driveLimit p c)
/-- The gain of acceleration. -/
noncomputable def driveGain (p : ControlParams) (c : Fin 6) : ℝ := chosen p.accGains c 1
/-- The gain of deceleration: that of acceleration without a parameter. -/
noncomputable def brakeGain (p : ControlParams) (c : Fin 6) : ℝ := chosen p.decGains c (driveGain p c)

/-- Every gain that is given has one entry for every axis. -/
def GainsComplete (p : ControlParams) : Prop :=
  (∃ l, p.accGains = some l ∧ l.length = 6) ∧ ∀ l, p.decGains = some l → l.length = 6

/-- The axes whose command counts: those of `control_config`, without the linear ones whose acceleration an IMU measures. -/
def Commanded (p : ControlParams) (imus : List (List Bool)) (c : Fin 6) : Prop :=
  (∃ cfg, p.config = some cfg ∧ Selects cfg c.val) ∧ (c.val < 3 → ∀ v ∈ imus, ¬ Selects v (12 + c.val))

theorem fixGains_of_length {l : List ℝ} (h : l.length = 6) : fixGains l = l := by simp [fixGains, h]

theorem final_parts {p : ControlParams} {imus : List (List Bool)} {s : ControlSettings} (h : finalControl p imus = some s)
    (hu : s.useControl = true) :
    p.useControl = true ∧ (∃ cfg, p.config = some cfg ∧ cfg.length = 6 ∧ imus.foldlM imuControl cfg = some s.upd) ∧
      s.accLimits = p.accLimits.getD (List.replicate 6 1) ∧
      s.decLimits = p.decLimits.getD (p.accLimits.getD (List.replicate 6 1)) ∧
      s.accGains = (p.accGains.map fixGains).getD [] ∧
      s.decGains = (p.decGains.map fixGains).getD ((p.accGains.map fixGains).getD []) := by
  unfold finalControl at h
  simp only [Option.bind_eq_bind, Option.bind_eq_some_iff, Option.pure_def, Option.some.injEq] at h
  obtain ⟨u, e, rfl⟩ := h
  simp only [Bool.and_eq_true] at hu
  have hp : p.useControl = true := by
    by_contra hp
    have := hu.1
    simp [loadControl, hp] at this
  have hc : ∃ cfg, p.config = some cfg ∧ cfg.length = 6 := by
    have := hu.1
    cases hcfg : p.config with
    | none => simp [loadControl, hp, hcfg] at this
    | some cfg =>
      refine ⟨cfg, rfl, ?_⟩
      simp only [loadControl, hp, hcfg, if_true, Bool.and_eq_true, decide_eq_true_eq] at this
      exact this.1.1
  obtain ⟨cfg, e1, e2⟩ := hc
  refine ⟨hp, ⟨cfg, e1, e2, ?_⟩, ?_, ?_, ?_, ?_⟩
  · rw [show (loadControl p).upd = cfg by simp [loadControl, hp, e1]] at e
    exact e
  all_goals simp [loadControl, hp]

/-- C88: when control is in use, each commanded axis is predicted with the acceleration and deceleration limits and
gains of its own entry in the parameters, a missing deceleration parameter standing for that of acceleration and missing
limits for one; an axis that is not commanded is not accelerated.  (Without `acceleration_gains`, see
`C57_missing_gains`.) -/
theorem C88_parameters_act (p : ControlParams) (imus : List (List Bool)) (hv : ∀ v ∈ imus, v.length = 15)
    (s : ControlSettings) (h : finalControl p imus = some s) (hu : s.useControl = true) (hg : GainsComplete p)
    (timeout : Int) (dyn : Bool) (ctl : Fin 6 → ℝ) (ct ref : Int) (x : State) (c : Fin 6) :
    (¬ Commanded p imus c → prepareControl (s.filterPar timeout dyn) ctl ct ref x c = 0) ∧
    (Commanded p imus c → ref - ct < timeout → prepareControl (s.filterPar timeout dyn) ctl ct ref x c =
      computeControlAcceleration (x (velIdx c)) (ctl c) (driveLimit p c) (driveGain p c) (brakeLimit p c)
        (brakeGain p c)) ∧
    (Commanded p imus c → timeout ≤ ref - ct → prepareControl (s.filterPar timeout dyn) ctl ct ref x c =
      computeControlAcceleration (x (velIdx c)) 0 (driveLimit p c) (driveGain p c) (brakeLimit p c)
        (brakeGain p c)) := by
  obtain ⟨-, ⟨cfg, e1, e2, e3⟩, a1, a2, a3, a4⟩ := final_parts h hu
  obtain ⟨⟨ag, eg, lg⟩, hdg⟩ := hg
  obtain ⟨u, eu, -, hsel⟩ := imus_fold imus hv cfg (by omega)
  have hupd : s.upd = u := by rw [e3] at eu; exact Option.some.inj eu
  have hcom : (s.filterPar timeout dyn).ctlUpd c = true ↔ Commanded p imus c := by
    show s.upd.getD c.val false = true ↔ _
    rw [hupd, hsel c.val]
    unfold Commanded
    constructor
    · rintro ⟨q1, q2⟩; exact ⟨⟨cfg, e1, q1⟩, q2⟩
    · rintro ⟨⟨cfg', q0, q1⟩, q2⟩
      rw [e1] at q0
      cases q0
      exact ⟨q1, q2⟩
  have hone : (List.replicate 6 (1 : ℝ)).getD c.val 0 = 1 := by
    rw [List.getD_eq_getElem?_getD, List.getElem?_replicate, if_pos c.isLt]; rfl
  have b0 : (p.accLimits.getD (List.replicate 6 1)).getD c.val 0 = driveLimit p c := by
    unfold driveLimit chosen
    cases p.accLimits with
    | none => exact hone
    | some l => rfl
  have b1 : (s.filterPar timeout dyn).accLim c = driveLimit p c := by
    show s.accLimits.getD c.val 0 = _
    rw [a1, b0]
  have b2 : (s.filterPar timeout dyn).decLim c = brakeLimit p c := by
    show s.decLimits.getD c.val 0 = _
    rw [a2]
    unfold brakeLimit chosen
    cases p.decLimits with
    | none => exact b0
    | some l => rfl
  have b3 : (s.filterPar timeout dyn).accGain c = driveGain p c := by
    show s.accGains.getD c.val 0 = _
    rw [a3]
    simp [driveGain, chosen, eg, fixGains_of_length lg]
  have b4 : (s.filterPar timeout dyn).decGain c = brakeGain p c := by
    show s.decGains.getD c.val 0 = _
    rw [a4]
    cases hh : p.decGains with
    | none => simp [brakeGain, driveGain, chosen, eg, hh, fixGains_of_length lg]
    | some l => simp [brakeGain, chosen, hh, fixGains_of_length (hdg l hh)]
  have key := C11_prepared (s.filterPar timeout dyn) ctl ct ref x c
  rw [b1, b2, b3, b4] at key
  refine ⟨fun hn => key.1 (Or.inr ?_), fun hc ht => key.2.2 hu (hcom.2 hc) ht, fun hc ht => key.2.1 hu (hcom.2 hc) ht⟩
  rwa [← Bool.not_eq_true, hcom]

/-- C88: with limits that are not negative, the acceleration an axis is predicted with is never above the limit the
parameters give for it, whatever the command, its age and the velocity. -/
theorem C88_within_limits (p : ControlParams) (imus : List (List Bool)) (hv : ∀ v ∈ imus, v.length = 15)
    (s : ControlSettings) (h : finalControl p imus = some s) (hu : s.useControl = true) (hg : GainsComplete p)
    (timeout : Int) (dyn : Bool) (ctl : Fin 6 → ℝ) (ct ref : Int) (x : State) (c : Fin 6)
    (h1 : 0 ≤ driveLimit p c) (h2 : 0 ≤ brakeLimit p c) :
    |prepareControl (s.filterPar timeout dyn) ctl ct ref x c| ≤ max (driveLimit p c) (brakeLimit p c) := by
  obtain ⟨k1, k2, k3⟩ := C88_parameters_act p imus hv s h hu hg timeout dyn ctl ct ref x c
  have hb : ∀ u, |computeControlAcceleration (x (velIdx c)) u (driveLimit p c) (driveGain p c) (brakeLimit p c)
      (brakeGain p c)| ≤ max (driveLimit p c) (brakeLimit p c) := by
    intro u
    have := C11_bounded (x (velIdx c)) u (driveLimit p c) (driveGain p c) (brakeLimit p c) (brakeGain p c) h1 h2
    by_cases hbr : Braking (x (velIdx c)) u
    · exact (this.1 hbr).trans (le_max_right _ _)
    · exact (this.2 hbr).trans (le_max_left _ _)
  by_cases hc : Commanded p imus c
  · rcases lt_or_ge (ref - ct) timeout with ht | ht
    · rw [k2 hc ht]; exact hb _
    · rw [k3 hc ht]; exact hb _
  · rw [k1 hc, abs_zero]
    exact le_max_of_le_left h1

/-- Forward speed and yaw rate under control, a forward acceleration measured by an IMU: the yaw rate alone is predicted
from commands, braking within the limit of acceleration. -/
example : ∃ (p : ControlParams) (imu : List Bool) (s : ControlSettings), imu.length = 15 ∧
    finalControl p [imu] = some s ∧ s.useControl = true ∧ GainsComplete p ∧ ¬ Commanded p [imu] 0 ∧
    Commanded p [imu] 5 ∧ brakeLimit p 5 = 3 := by
  refine ⟨⟨true, some [true, false, false, false, false, true], some [1, 1, 1, 1, 1, 3], some [1, 1, 1, 1, 1, 2], none,
    none⟩, [false, false, false, false, false, false, false, false, false, false, false, false, true, false, false],
    ⟨true, [false, false, false, false, false, true], [1, 1, 1, 1, 1, 3], [1, 1, 1, 1, 1, 2], [1, 1, 1, 1, 1, 3],
      [1, 1, 1, 1, 1, 2]⟩, rfl, ?_, rfl, ?_, ?_, ?_, ?_⟩
  · simp [finalControl, loadControl, imuControl, imuAccelVec, disableAxis, vecGet, fixGains, sumTrue]
    rfl
  · exact ⟨⟨_, rfl, rfl⟩, fun l hl => by simp at hl⟩
  · simp [Commanded, Selects]
  · simp [Commanded, Selects]
  · simp [brakeLimit, chosen, driveLimit]

end RL
