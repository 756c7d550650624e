import Verif.Proofs.NodeDrain
import Verif.Spec.Audit
/-! # C09: the filter clock -/

namespace RL
variable {C : Core}

/-- C09.  One measurement on an initialised filter: the clock becomes the later of clock and stamp. -/
theorem C09_clock (f : Filt C) (m : Meas C) (h : f.initialized = true) :
    (f.processMeasurement m).lastTime = max f.lastTime m.time := by
  rw [Filt.processMeasurement_lastTime, if_pos h]

/-- C09.  It predicts exactly when the stamp is newer, by exactly the difference, with the parameters, control and
control stamp the filter holds, and always corrects; nothing else of the filter changes. -/
theorem C09_operations (f : Filt C) (m : Meas C) (h : f.initialized = true) :
    let before := (f.x, f.cov, f.ext)
    let aged := if f.lastTime < m.time then C.predict f.par f.ctl f.ctlTime m.time (m.time - f.lastTime) before else before
    let g := f.processMeasurement m
    (g.x, g.cov, g.ext) = C.correct m.z aged ∧ g.initialized = true ∧ g.par = f.par ∧ g.ctl = f.ctl ∧
      g.ctlTime = f.ctlTime ∧ g.sensorTimeout = f.sensorTimeout := by
  by_cases hd : f.lastTime < m.time
  · have h2 : f.lastTime ≤ m.time := by omega
    simp [Filt.processMeasurement, h, hd, h2, Filt.predict, Filt.correct]
  · by_cases h2 : f.lastTime ≤ m.time
    · simp [Filt.processMeasurement, h, hd, h2, Filt.correct]
    · simp [Filt.processMeasurement, h, hd, h2, Filt.correct]

/-- C09.  Over any sequence of measurements the clock of an initialised filter never runs back, covers every stamp, and
is the clock it had or one of the stamps. -/
theorem C09_clock_sequence (L : List (Meas C)) (f : Filt C) (h : f.initialized = true) :
    f.lastTime ≤ (L.foldl Filt.processMeasurement f).lastTime ∧
      (∀ m ∈ L, m.time ≤ (L.foldl Filt.processMeasurement f).lastTime) ∧
      ((L.foldl Filt.processMeasurement f).lastTime = f.lastTime ∨
        ∃ m ∈ L, (L.foldl Filt.processMeasurement f).lastTime = m.time) := by
  induction L generalizing f with
  | nil => simp
  | cons a L ih =>
    have hi := Filt.processMeasurement_initialized f a
    obtain ⟨h1, h2, h3⟩ := ih (f.processMeasurement a) hi
    rw [C09_clock f a h] at h1 h3
    rw [List.foldl_cons]
    refine ⟨by omega, ?_, ?_⟩
    · intro m hm
      rcases List.mem_cons.1 hm with rfl | hm
      · omega
      · exact h2 m hm
    · rcases h3 with h3 | ⟨m, hm, h3⟩
      · rcases Int.le_total f.lastTime a.time with hle | hle
        · exact Or.inr ⟨a, List.mem_cons_self, by omega⟩
        · exact Or.inl (by omega)
      · exact Or.inr ⟨m, List.mem_cons_of_mem _ hm, h3⟩

/-- C09.  Prediction steps are positive: a filter whose predictions with a positive step keep a property, and whose
corrections keep it, keeps it over every sequence of measurements in whatever order they come. -/
theorem C09_only_positive_steps (I : C.X × C.Cov × C.Ext → Prop) (f : Filt C) (h : f.initialized = true)
    (hp : ∀ ref d, 0 < d → ∀ s, I s → I (C.predict f.par f.ctl f.ctlTime ref d s))
    (hc : ∀ z s, I s → I (C.correct z s)) (L : List (Meas C)) (h0 : I (f.x, f.cov, f.ext)) :
    let g := L.foldl Filt.processMeasurement f
    I (g.x, g.cov, g.ext) := by
  induction L generalizing f with
  | nil => exact h0
  | cons a L ih =>
    obtain ⟨h1, h2, h3, h4, h5, _⟩ := C09_operations f a h
    refine ih (f.processMeasurement a) h2 (by rw [h3, h4, h5]; exact hp) ?_
    rw [h1]
    refine hc _ _ ?_
    split
    · exact hp _ _ (by omega) _ h0
    · exact h0

/-- C09/C10.  The first measurement never predicts or corrects: it sets the clock to its own stamp, even backwards. -/
theorem C09_first (f : Filt C) (m : Meas C) (h : f.initialized = false) :
    let g := f.processMeasurement m
    g.lastTime = m.time ∧ g.initialized = true ∧ g.x = C.initX m.z f.x ∧ g.cov = C.initCov m.z f.cov ∧
      g.ext = f.ext ∧ g.par = f.par ∧ g.ctl = f.ctl ∧ g.ctlTime = f.ctlTime := by
  simp [Filt.processMeasurement, h]

/-- Stamps 5, 9, 7 on a filter at clock 6: one prediction of 3 before the second, none for the others. -/
example :
    let f : Filt Audit := { (auditNode (auditCfg false 0 1)).filt with initialized := true, lastTime := 6 }
    let ms : List (Meas Audit) := [⟨5, "a", (1 : Int), (0 : Int), 0⟩, ⟨9, "b", (2 : Int), (0 : Int), 0⟩, ⟨7, "a", (3 : Int), (0 : Int), 0⟩]
    f.initialized = true ∧ (ms.foldl Filt.processMeasurement f).lastTime = 9 ∧
      (ms.foldl Filt.processMeasurement f).x = [.correct 1, .predict 0 3, .correct 2, .correct 3] := by
  refine ⟨rfl, rfl, rfl⟩

end RL
