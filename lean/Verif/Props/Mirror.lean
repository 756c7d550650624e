import Verif.Props.Rescale
/-! # C108 for whole runs in which orientations are measured

A measured roll or yaw exactly half a turn away from the estimate is rounded the same way in the mirror (`C108_half_turn`).
Here every estimate carries a mark that says whether such a measurement has gone into it, and every estimate into which
none has gone is mirrored. -/

namespace RL
open Matrix

/-- A roll or a yaw in the measurement is exactly half a turn away from the estimate. -/
def Payload.HalfTurn (m : Payload) (x : Option State) : Prop :=
  ∃ y, x = some y ∧ ∃ i ∈ m.indices, (i = iRoll ∨ i = iYaw) ∧ normalizeAngle ((m.z i).val - y i) = Real.pi

/-- The filter (Model/Ekf.lean, `ekfCore`) with a mark on the state and on the covariance: it holds until a correction by
a measurement exactly half a turn away, and again for a state or covariance that has been set. -/
noncomputable def markedCore (p : FilterPar) : Core where
  X := Option State × Prop
  Cov := Mat15 × Prop
  Ext := Unit
  Par := Mat15
  Ctl := Fin 6 → ℝ
  Z := Payload
  predict := fun Q ctl ctlTime ref delta s =>
    let r := (ekfCore p).predict Q ctl ctlTime ref delta (s.1.1, s.2.1.1, ())
    ((r.1, s.1.2 ∧ s.2.1.2), (r.2.1, s.1.2 ∧ s.2.1.2), ())
  correct := fun m s =>
    let r := (ekfCore p).correct m (s.1.1, s.2.1.1, ())
    ((r.1, (s.1.2 ∧ s.2.1.2) ∧ ¬ m.HalfTurn s.1.1), (r.2.1, (s.1.2 ∧ s.2.1.2) ∧ ¬ m.HalfTurn s.1.1), ())
  initX := fun m x => ((ekfCore p).initX m x.1, x.2)
  initCov := fun m P => ((ekfCore p).initCov m P.1, P.2)
  zeroX := ((ekfCore p).zeroX, True)
  setPoseCov := ((ekfCore p).setPoseCov, True)
  resetCov := ((ekfCore p).resetCov, True)
  resetPar := (ekfCore p).resetPar

variable {p : FilterPar}

/-- The same configuration; the initial estimate is marked. -/
def Cfg.marked (g : Cfg (ekfCore p)) : Cfg (markedCore p) :=
  { smooth := g.smooth, historyLength := g.historyLength, predictToCurrent := g.predictToCurrent, useControl := g.useControl
    permitCorrected := g.permitCorrected, publishTf := g.publishTf, publishAccel := g.publishAccel
    sensorTimeout := g.sensorTimeout, processNoise := g.processNoise, initialCov := (g.initialCov, True)
    keptNoise := g.keptNoise, keptCov := (g.keptCov, True), initialState := (g.initialState, True)
    disabledAtStartup := g.disabledAtStartup, ctl0 := g.ctl0 }

/-- The same event; a pose that is set is marked. -/
def Node.Event.marked : Node.Event (ekfCore p) → Node.Event (markedCore p)
  | .sensor topic stamp z => .sensor topic stamp z
  | .control u t => .control u t
  | .setPose stamp now r => .setPose stamp now (Option.map (fun a => ((a.1, True), (a.2, True))) r)
  | .reset => .reset
  | .toggle on => .toggle on
  | .enable => .enable
  | .tick now now2 tfOk => .tick now now2 tfOk

/-- What is sent, without the mark. -/
def Out.unmarked : Out (markedCore p) → Out (ekfCore p)
  | .odom t x P => .odom t (x : Option State × Prop).1 (P : Mat15 × Prop).1
  | .tf t => .tf t
  | .accel t => .accel t

/-- No measurement exactly half a turn away has gone into the estimate that is sent. -/
def Out.Clear : Out (markedCore p) → Prop
  | .odom _ x P => (x : Option State × Prop).2 ∧ (P : Mat15 × Prop).2
  | _ => True

/-- Marks change nothing. -/
noncomputable def unmarkSim (p : FilterPar) : CoreSim (markedCore p) (ekfCore p) 0 where
  low := 0
  X x x' := x' = (x : Option State × Prop).1
  Cov P P' := P' = (P : Mat15 × Prop).1
  Ext _ _ := True
  Par q q' := q' = q
  Z z z' := z' = z
  Ctl u t u' t' := u' = u ∧ t' = t
  predict := by
    rintro q _ u t _ _ x _ P _ e e' ref delta - rfl ⟨rfl, rfl⟩ rfl rfl -
    rw [Int.add_zero]
    exact ⟨rfl, rfl, trivial⟩
  correct := by
    rintro z _ x _ P _ e e' rfl rfl rfl -
    exact ⟨rfl, rfl, trivial⟩
  initX := by
    rintro z _ x _ rfl rfl
    rfl
  initCov := by
    rintro z _ P _ rfl rfl
    rfl

/-- The filter in the mirror treats what it sees in the same way while the mark holds. -/
noncomputable def mirrorSim (p : FilterPar) (hp : p.Fits 1 (-1)) : CoreSim (markedCore p) (ekfCore p) 0 where
  low := 0
  X x x' := (x : Option State × Prop).2 → Option.Rel (SameScaled 1 (-1)) (x : Option State × Prop).1 x'
  Cov P P' := (P : Mat15 × Prop).2 → P' = rescaleCov 1 (-1) (P : Mat15 × Prop).1
  Ext _ _ := True
  Par q q' := q' = rescaleCov 1 (-1) q
  Z z z' := z' = Payload.rescaled 1 (-1) z
  Ctl u t u' t' := u' = ctlRescaled 1 (-1) u ∧ t' = t
  predict := by
    rintro q _ u _ _ t ⟨x, a⟩ x' ⟨P, b⟩ P' e e' ref delta hr rfl ⟨rfl, rfl⟩ hx hP -
    have key : a ∧ b →
        Option.Rel (SameScaled 1 (-1)) ((ekfCore p).predict q u t ref delta (x, P, ())).1
          ((ekfCore p).predict (rescaleCov 1 (-1) q) (ctlRescaled 1 (-1) u) t (ref + 0) delta (x', P', e')).1 ∧
        ((ekfCore p).predict (rescaleCov 1 (-1) q) (ctlRescaled 1 (-1) u) t (ref + 0) delta (x', P', e')).2.1 =
          rescaleCov 1 (-1) ((ekfCore p).predict q u t ref delta (x, P, ())).2.1 := by
      intro h
      have := (rescaledSim p one_pos (Or.inr rfl) hp).predict (q := q) (q' := rescaleCov 1 (-1) q) (u := u) (t := t)
        (u' := ctlRescaled 1 (-1) u) (t' := t) (x := x) (x' := x') (P := P) (P' := P') (e := ()) (e' := e')
        ref delta hr rfl ⟨rfl, rfl⟩ (hx h.1) (hP h.2) trivial
      exact ⟨this.1, this.2.1⟩
    exact ⟨fun h => (key h).1, fun h => (key h).2, trivial⟩
  correct := by
    rintro z _ ⟨x, a⟩ x' ⟨P, b⟩ P' e e' rfl hx hP -
    have key : (a ∧ b) ∧ ¬ Payload.HalfTurn z x →
        Option.Rel (SameScaled 1 (-1)) ((ekfCore p).correct z (x, P, ())).1
          ((ekfCore p).correct (Payload.rescaled 1 (-1) z) (x', P', e')).1 ∧
        ((ekfCore p).correct (Payload.rescaled 1 (-1) z) (x', P', e')).2.1 =
          rescaleCov 1 (-1) ((ekfCore p).correct z (x, P, ())).2.1 := by
      rintro ⟨⟨ha, hb⟩, hh⟩
      replace hx := hx ha
      replace hP : P' = rescaleCov 1 (-1) P := hP hb
      subst hP
      cases hx with
      | none => exact ⟨.none, rfl⟩
      | some hx =>
        rename_i x x'
        have h := C108_orientation_partial z hx P fun i hi hry he => hh ⟨x, rfl, i, hi, hry, he⟩
        have e1 : (ekfCore p).correct z (some x, P, ()) = match Ekf.correct z x P with
          | some r => (some r.1, r.2, ())
          | none => (none, P, ()) := rfl
        have e2 : (ekfCore p).correct (Payload.rescaled 1 (-1) z) (some x', rescaleCov 1 (-1) P, e') =
            match Ekf.correct (Payload.rescaled 1 (-1) z) x' (rescaleCov 1 (-1) P) with
          | some r => (some r.1, r.2, ())
          | none => (none, rescaleCov 1 (-1) P, ()) := rfl
        rw [e1, e2]
        generalize Ekf.correct z x P = r at h
        generalize Ekf.correct (Payload.rescaled 1 (-1) z) x' (rescaleCov 1 (-1) P) = r' at h
        cases h with
        | none => exact ⟨.none, rfl⟩
        | some h => exact ⟨.some h.1, h.2⟩
    exact ⟨fun h => (key h).1, fun h => (key h).2, trivial⟩
  initX := by
    rintro z _ ⟨x, a⟩ x' rfl hx ha
    replace hx := hx ha
    show Option.Rel (SameScaled 1 (-1)) (Option.bind x (initState z)) (Option.bind x' (initState (Payload.rescaled 1 (-1) z)))
    cases hx with
    | none => exact .none
    | some hx => exact initState_rescaled (unitOf_ne_zero one_pos (Or.inr rfl)) z hx
  initCov := by
    rintro z _ ⟨P, b⟩ P' rfl hP hb
    replace hP : P' = rescaleCov 1 (-1) P := hP hb
    subst hP
    exact initCov_rescaled z P

theorem run_unmarked (p : FilterPar) (P : MQueue (markedCore p)) (P' : MQueue (ekfCore p)) (κ : QueueSim (unmarkSim p) P P')
    (cfg : Cfg (ekfCore p)) (u : Fin 6 → ℝ) (now : Int) (es : List (Node.Event (ekfCore p))) :
    (Node.run cfg (Node.start cfg P' () u now) es).2 =
      (Node.run cfg.marked (Node.start cfg.marked P () u now) (es.map Node.Event.marked)).2.map Out.unmarked := by
  have hg : CfgSim (unmarkSim p) cfg.marked cfg := ⟨rfl, rfl, rfl, rfl, rfl, rfl, rfl, rfl, rfl, rfl, rfl, rfl⟩
  have he : List.Forall₂ (EventSim (unmarkSim p)) (es.map Node.Event.marked) es := by
    rw [List.forall₂_map_left_iff, List.forall₂_same]
    intro e _
    have pos : ∀ t, Pos 0 0 t := fun t => Or.inl rfl
    cases e with
    | sensor topic stamp z =>
      have := EventSim.sensor (σ := unmarkSim p) topic (stamp := stamp) (z := z) (z' := z) (pos _) (by
        cases z with
        | none => exact .none
        | some z => exact .some rfl)
      rwa [Int.add_zero] at this
    | control v t => exact .control ⟨rfl, rfl⟩
    | setPose stamp now r =>
      have := EventSim.setPose (σ := unmarkSim p) (stamp := stamp) (now := now)
        (r := Option.map (fun a : Option State × Mat15 => ((a.1, True), (a.2, True))) r) (r' := r) (pos _) (pos _)
        (by cases r with
          | none => exact .none
          | some r => exact .some ⟨rfl, rfl⟩) (fun _ => ⟨rfl, rfl⟩)
      rwa [Int.add_zero, Int.add_zero] at this
    | reset => exact .reset rfl fun h => ⟨h.1, rfl⟩
    | toggle on => exact .toggle on
    | enable => exact .enable
    | tick now now2 tfOk =>
      have := EventSim.tick (σ := unmarkSim p) tfOk (pos now) (pos now2)
      rwa [Int.add_zero, Int.add_zero] at this
  have hst : NodeSim κ (Node.start cfg.marked P () u now) (Node.start cfg P' () u now) := by
    have := NodeSim.start (κ := κ) (g := cfg.marked) (g' := cfg) hg rfl rfl ⟨rfl, rfl⟩ (e := ()) (e' := ()) trivial
      (u := u) (u' := u) ⟨rfl, rfl⟩ now
    rwa [Int.add_zero] at this
  have h := (NodeSim.run hg he hst).2
  generalize (Node.run cfg.marked (Node.start cfg.marked P () u now) (es.map Node.Event.marked)).2 = os at h
  generalize (Node.run cfg (Node.start cfg P' () u now) es).2 = os' at h
  induction h with
  | nil => rfl
  | cons hab _ ih =>
    rw [List.map_cons, ← ih]
    congr 1
    cases hab with
    | odom hx hP =>
      have hx : _ = _ := hx
      have hP : _ = _ := hP
      rw [Int.add_zero, hx, hP]
      rfl
    | tf t => rw [Int.add_zero]; rfl
    | accel t => rw [Int.add_zero]; rfl

theorem run_mirrored (p : FilterPar) (hp : p.Fits 1 (-1)) (P : MQueue (markedCore p)) (P' : MQueue (ekfCore p))
    (κ : QueueSim (mirrorSim p hp) P P') (cfg : Cfg (ekfCore p)) (u : Fin 6 → ℝ) (now : Int)
    (es : List (Node.Event (ekfCore p))) :
    List.Forall₂ (fun o o' => o.Clear → Out.Rescaled 1 (-1) o.unmarked o')
      (Node.run cfg.marked (Node.start cfg.marked P () u now) (es.map Node.Event.marked)).2
      (Node.run (cfg.rescaled 1 (-1)) (Node.start (cfg.rescaled 1 (-1)) P' () (ctlRescaled 1 (-1) u) now)
        (es.map (Node.Event.rescaled 1 (-1)))).2 := by
  have hg : CfgSim (mirrorSim p hp) cfg.marked (cfg.rescaled 1 (-1)) :=
    ⟨rfl, rfl, rfl, rfl, rfl, rfl, rfl, rfl, rfl, fun _ => rfl, rfl, fun _ => rfl⟩
  have same : ∀ x : Option State, Option.Rel (SameScaled 1 (-1)) x (Option.map (State.rescaled 1 (-1)) x) := by
    intro x
    cases x with
    | none => exact .none
    | some x => exact .some x.rescaled_same
  have zero : Option.Rel (SameScaled 1 (-1)) (some (0 : State)) (some (0 : State)) :=
    .some ⟨0, fun _ _ => rfl, fun _ => rfl, by funext i; simp⟩
  have he : List.Forall₂ (EventSim (mirrorSim p hp)) (es.map Node.Event.marked) (es.map (Node.Event.rescaled 1 (-1))) := by
    rw [List.forall₂_map_left_iff, List.forall₂_map_right_iff, List.forall₂_same]
    intro e _
    have pos : ∀ t, Pos 0 0 t := fun t => Or.inl rfl
    cases e with
    | sensor topic stamp z =>
      have := EventSim.sensor (σ := mirrorSim p hp) topic (stamp := stamp) (z := z)
        (z' := Option.map (Payload.rescaled 1 (-1)) z) (pos _) (by
          cases z with
          | none => exact .none
          | some z => exact .some rfl)
      rwa [Int.add_zero] at this
    | control v t => exact .control ⟨rfl, rfl⟩
    | setPose stamp now r =>
      have := EventSim.setPose (σ := mirrorSim p hp) (stamp := stamp) (now := now)
        (r := Option.map (fun a : Option State × Mat15 => ((a.1, True), (a.2, True))) r)
        (r' := Option.map (fun a => (Option.map (State.rescaled 1 (-1)) a.1, rescaleCov 1 (-1) a.2)) r) (pos _) (pos _)
        (by cases r with
          | none => exact .none
          | some r => exact .some ⟨fun _ => same r.1, fun _ => rfl⟩)
        (fun _ => ⟨fun _ => zero, fun _ => (rescaled_setPoseCov (Or.inr rfl)).symm⟩)
      rwa [Int.add_zero, Int.add_zero] at this
    | reset => exact .reset (fun _ => zero) fun h => ⟨h.1, rfl⟩
    | toggle on => exact .toggle on
    | enable => exact .enable
    | tick now now2 tfOk =>
      have := EventSim.tick (σ := mirrorSim p hp) tfOk (pos now) (pos now2)
      rwa [Int.add_zero, Int.add_zero] at this
  have hst : NodeSim κ (Node.start cfg.marked P () u now)
      (Node.start (cfg.rescaled 1 (-1)) P' () (ctlRescaled 1 (-1) u) now) := by
    have := NodeSim.start (κ := κ) (g := cfg.marked) (g' := cfg.rescaled 1 (-1)) hg (fun _ => same _) rfl ⟨rfl, rfl⟩
      (e := ()) (e' := ()) trivial (u := u) (u' := ctlRescaled 1 (-1) u) ⟨rfl, rfl⟩ now
    rwa [Int.add_zero] at this
  refine List.Forall₂.imp ?_ (NodeSim.run hg he hst).2
  intro o o' h hc
  cases h with
  | odom hx hP => rw [Int.add_zero]; exact .odom _ (hx hc.1) (hP hc.2)
  | tf t => rw [Int.add_zero]; exact .tf t
  | accel t => rw [Int.add_zero]; exact .accel t

/-- C108, whole runs, whatever is measured: what is sent is, as seen in the mirror (angles up to full turns), what the node
in the mirror sends, for every estimate into which no roll or yaw measured exactly half a turn away has gone, when the
limits of the controlled axes are not negative.  `os` is what the node sends, with the marks. -/
theorem C108_whole_run_partial (p : FilterPar)
    (hc : p.useControl = false ∨ ∀ c, 0 ≤ p.accLim c ∧ 0 ≤ p.decLim c)
    (cfg : Cfg (ekfCore p)) (u : Fin 6 → ℝ) (now : Int) (es : List (Node.Event (ekfCore p))) :
    ∃ os : List (Out (markedCore p)),
      os = (Node.run cfg.marked (Node.start cfg.marked (PQueue.sortedList _ _) () u now) (es.map Node.Event.marked)).2 ∧
      (Node.run cfg (Node.start cfg (PQueue.sortedList _ _) () u now) es).2 = os.map Out.unmarked ∧
      List.Forall₂ (fun o o' => o.Clear → Out.Rescaled 1 (-1) o.unmarked o') os
        (Node.run (cfg.rescaled 1 (-1)) (Node.start (cfg.rescaled 1 (-1)) (PQueue.sortedList _ _) () (ctlRescaled 1 (-1) u) now)
          (es.map (Node.Event.rescaled 1 (-1)))).2 :=
  ⟨_, rfl, run_unmarked p _ _ (QueueSim.sorted _) cfg u now es,
    run_mirrored p ⟨Or.inl rfl, Or.inr hc⟩ _ _ (QueueSim.sorted _) cfg u now es⟩

theorem initState_yaw (v : ℝ) {y : State} (h : initState (oneVar iYaw v .unlimited) 0 = some y) : y iYaw = v := by
  unfold initState at h
  split at h
  · injection h with h
    rw [← h]
    rfl
  · cases h

/-- Two compasses, at the same instant: the first starts the filter, the second corrects it. -/
noncomputable def compasses : List (Node.Event (ekfCore plainPar)) :=
  [.sensor "a" 1 (some (oneVar iYaw 1 .unlimited)), .sensor "b" 1 (some (oneVar iYaw 2 .unlimited)), .tick 3 3 true]

/-- The filter after the two compasses were heard. -/
noncomputable def compassed : (markedCore plainPar).X × (markedCore plainPar).Cov × (markedCore plainPar).Ext :=
  (markedCore plainPar).correct (oneVar iYaw 2 .unlimited)
    ((markedCore plainPar).initX (oneVar iYaw 1 .unlimited) ((some 0 : Option State), True),
      (markedCore plainPar).initCov (oneVar iYaw 1 .unlimited) ((1e-9 : ℝ) • (1 : Mat15), True), ())

theorem compasses_sent : (Node.run (demoCfg plainPar).marked
      (Node.start (demoCfg plainPar).marked (PQueue.sortedList _ _) () (0 : Fin 6 → ℝ) 0) (compasses.map Node.Event.marked)).2 =
    [.tf 1, .odom 1 compassed.1 compassed.2.1, .accel 1] := by
  simp [Node.run, Node.step, Node.start, Node.sensor, Node.enqueue, Node.periodic, Node.advance, Node.integrate, compasses,
      Node.drain, Node.publish, PQueue.sortedList, PQueue.insertSorted, PQueue.size, Filt.processMeasurement, demoCfg,
      Cfg.marked, Node.Event.marked, compassed, Filt.correct]

/-- The estimate sent after the two compasses were heard is one that `C108_whole_run_partial` speaks of. -/
example : ∀ o ∈ (Node.run (demoCfg plainPar).marked
      (Node.start (demoCfg plainPar).marked (PQueue.sortedList _ _) () (0 : Fin 6 → ℝ) 0) (compasses.map Node.Event.marked)).2,
    o.Clear := by
  rw [compasses_sent]
  have hh : ¬ (oneVar iYaw 2 .unlimited).HalfTurn (initState (oneVar iYaw 1 .unlimited) 0) := by
    rintro ⟨y, hy, i, hi, -, he⟩
    rw [oneVar_indices, List.mem_singleton] at hi
    subst hi
    rw [initState_yaw 1 hy] at he
    have e : ((oneVar iYaw 2 .unlimited).z iYaw).val - 1 = 1 := by
      show (2 : ℝ) - 1 = 1
      norm_num
    have := Real.pi_gt_three
    rw [e, normalizeAngle_of_mem (by linarith) (by linarith)] at he
    linarith
  intro o ho
  simp only [List.mem_cons, List.not_mem_nil, or_false] at ho
  rcases ho with rfl | rfl | rfl
  · trivial
  · exact ⟨⟨⟨trivial, trivial⟩, hh⟩, ⟨trivial, trivial⟩, hh⟩
  · trivial
end RL
