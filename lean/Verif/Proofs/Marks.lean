import Verif.Proofs.NodeSim
/-! # Estimates with marks

A core in which the state, the covariance and the rest of the filter's memory carry a mark each.  The marks hold until a step
for which a given condition does not hold, and change nothing. -/

namespace RL

/-- The conditions under which a prediction (with its length) and a correction keep the marks. -/
structure Marks (C : Core) where
  pred : Int → C.X × C.Cov × C.Ext → Prop
  corr : C.Z → C.X × C.Cov × C.Ext → Prop

/-- A filter (Model/FilterBase.lean, `Core`) with marks: they hold until a step that does not keep them, and again for a
state or covariance that has been set. -/
def Core.withMarks (C : Core) (M : Marks C) : Core where
  X := C.X × Prop
  Cov := C.Cov × Prop
  Ext := C.Ext × Prop
  Par := C.Par
  Ctl := C.Ctl
  Z := C.Z
  predict := fun Q ctl ctlTime ref delta s =>
    let r := C.predict Q ctl ctlTime ref delta (s.1.1, s.2.1.1, s.2.2.1)
    let good := (s.1.2 ∧ s.2.1.2 ∧ s.2.2.2) ∧ M.pred delta (s.1.1, s.2.1.1, s.2.2.1)
    ((r.1, good), (r.2.1, good), (r.2.2, good))
  correct := fun m s =>
    let r := C.correct m (s.1.1, s.2.1.1, s.2.2.1)
    let good := (s.1.2 ∧ s.2.1.2 ∧ s.2.2.2) ∧ M.corr m (s.1.1, s.2.1.1, s.2.2.1)
    ((r.1, good), (r.2.1, good), (r.2.2, good))
  initX := fun m x => (C.initX m x.1, x.2)
  initCov := fun m P => (C.initCov m P.1, P.2)
  zeroX := (C.zeroX, True)
  setPoseCov := (C.setPoseCov, True)
  resetCov := (C.resetCov, True)
  resetPar := C.resetPar

variable {C : Core} (M : Marks C)

/-- The same configuration; the initial estimate is marked. -/
def Cfg.withMarks (g : Cfg C) : Cfg (C.withMarks M) :=
  { smooth := g.smooth, historyLength := g.historyLength, predictToCurrent := g.predictToCurrent, useControl := g.useControl
    permitCorrected := g.permitCorrected, publishTf := g.publishTf, publishAccel := g.publishAccel
    sensorTimeout := g.sensorTimeout, processNoise := g.processNoise, initialCov := (g.initialCov, True)
    keptNoise := g.keptNoise, keptCov := (g.keptCov, True), initialState := (g.initialState, True)
    disabledAtStartup := g.disabledAtStartup, ctl0 := g.ctl0 }

/-- The same event; a pose that is set is marked. -/
def Node.Event.withMarks : Node.Event C → Node.Event (C.withMarks M)
  | .sensor topic stamp z => .sensor topic stamp z
  | .control u t => .control u t
  | .setPose stamp now r => .setPose stamp now (Option.map (fun a => ((a.1, True), (a.2, True))) r)
  | .reset => .reset
  | .toggle on => .toggle on
  | .enable => .enable
  | .tick now now2 tfOk => .tick now now2 tfOk

variable {M}

/-- What is sent, without the mark. -/
def Out.noMarks : Out (C.withMarks M) → Out C
  | .odom t x P => .odom t (x : C.X × Prop).1 (P : C.Cov × Prop).1
  | .tf t => .tf t
  | .accel t => .accel t

/-- The estimate that is sent is marked. -/
def Out.Marked : Out (C.withMarks M) → Prop
  | .odom _ x P => (x : C.X × Prop).2 ∧ (P : C.Cov × Prop).2
  | _ => True

variable (M)

/-- Marks change nothing. -/
def noMarksSim : CoreSim (C.withMarks M) C 0 where
  low := 0
  X x x' := x' = (x : C.X × Prop).1
  Cov P P' := P' = (P : C.Cov × Prop).1
  Ext e e' := e' = (e : C.Ext × Prop).1
  Par q q' := q' = q
  Z z z' := z' = z
  Ctl u t u' t' := u' = u ∧ t' = t
  predict := by
    rintro q _ u t _ _ x _ P _ e _ ref delta - rfl ⟨rfl, rfl⟩ rfl rfl rfl
    rw [Int.add_zero]
    exact ⟨rfl, rfl, rfl⟩
  correct := by
    rintro z _ x _ P _ e _ rfl rfl rfl rfl
    exact ⟨rfl, rfl, rfl⟩
  initX := by
    rintro z _ x _ rfl rfl
    rfl
  initCov := by
    rintro z _ P _ rfl rfl
    rfl

theorem run_noMarks (P : MQueue (C.withMarks M)) (P' : MQueue C) (κ : QueueSim (noMarksSim M) P P') (cfg : Cfg C) (mem : C.Ext)
    (u : C.Ctl) (now : Int) (es : List (Node.Event C)) :
    (Node.run cfg (Node.start cfg P' mem u now) es).2 =
      (Node.run (cfg.withMarks M) (Node.start (cfg.withMarks M) P (mem, True) u now) (es.map (Node.Event.withMarks M))).2.map
        Out.noMarks := by
  have hg : CfgSim (noMarksSim M) (cfg.withMarks M) cfg := ⟨rfl, rfl, rfl, rfl, rfl, rfl, rfl, rfl, rfl, rfl, rfl, rfl⟩
  have he : List.Forall₂ (EventSim (noMarksSim M)) (es.map (Node.Event.withMarks M)) es := by
    rw [List.forall₂_map_left_iff, List.forall₂_same]
    intro e _
    have pos : ∀ t, Pos 0 0 t := fun t => Or.inl rfl
    cases e with
    | sensor topic stamp z =>
      have := EventSim.sensor (σ := noMarksSim M) topic (stamp := stamp) (z := z) (z' := z) (pos _) (by
        cases z with
        | none => exact .none
        | some z => exact .some rfl)
      rwa [Int.add_zero] at this
    | control v t => exact .control ⟨rfl, rfl⟩
    | setPose stamp now r =>
      have := EventSim.setPose (σ := noMarksSim M) (stamp := stamp) (now := now)
        (r := Option.map (fun a : C.X × C.Cov => ((a.1, True), (a.2, True))) r) (r' := r) (pos _) (pos _)
        (by cases r with
          | none => exact .none
          | some r => exact .some ⟨rfl, rfl⟩) (fun _ => ⟨rfl, rfl⟩)
      rwa [Int.add_zero, Int.add_zero] at this
    | reset => exact .reset rfl fun h => ⟨h.1, rfl⟩
    | toggle on => exact .toggle on
    | enable => exact .enable
    | tick now now2 tfOk =>
      have := EventSim.tick (σ := noMarksSim M) tfOk (pos now) (pos now2)
      rwa [Int.add_zero, Int.add_zero] at this
  have hst : NodeSim κ (Node.start (cfg.withMarks M) P (mem, True) u now) (Node.start cfg P' mem u now) := by
    have := NodeSim.start (κ := κ) (g := cfg.withMarks M) (g' := cfg) hg rfl rfl ⟨rfl, rfl⟩ (e := (mem, True)) (e' := mem) rfl
      (u := u) (u' := u) ⟨rfl, rfl⟩ now
    rwa [Int.add_zero] at this
  have h := (NodeSim.run hg he hst).2
  generalize (Node.run (cfg.withMarks M) (Node.start (cfg.withMarks M) P (mem, True) u now) (es.map (Node.Event.withMarks M))).2 =
    os at h
  generalize (Node.run cfg (Node.start cfg P' mem u now) es).2 = os' at h
  induction h with
  | nil => rfl
  | cons hab _ ih =>
    rw [List.map_cons, ← ih]
    congr 1
    cases hab with
    | odom hx hP =>
      have hx : _ = _ := hx
      have hP : _ = _ := hP
      rw [Int.add_zero, hx, hP]
      rfl
    | tf t => rw [Int.add_zero]; rfl
    | accel t => rw [Int.add_zero]; rfl

end RL
