import Verif.Proofs.NodeSim
/-! # Two filters run side by side (helper lemmas for C146)

A pair of filters is a filter.  A node that runs the pair sends the pairs of what the two nodes send, so what an
invariant says of the pair is a statement that relates two nodes. -/

namespace RL

/-- Two filters as one. -/
def pairCore (C C' : Core) : Core where
  X := C.X × C'.X
  Cov := C.Cov × C'.Cov
  Ext := C.Ext × C'.Ext
  Par := C.Par × C'.Par
  Ctl := C.Ctl × C'.Ctl
  Z := C.Z × C'.Z
  predict := fun q u t ref delta s =>
    let a := C.predict q.1 u.1 t ref delta (s.1.1, s.2.1.1, s.2.2.1)
    let b := C'.predict q.2 u.2 t ref delta (s.1.2, s.2.1.2, s.2.2.2)
    ((a.1, b.1), (a.2.1, b.2.1), (a.2.2, b.2.2))
  correct := fun z s =>
    let a := C.correct z.1 (s.1.1, s.2.1.1, s.2.2.1)
    let b := C'.correct z.2 (s.1.2, s.2.1.2, s.2.2.2)
    ((a.1, b.1), (a.2.1, b.2.1), (a.2.2, b.2.2))
  initX := fun z x => (C.initX z.1 x.1, C'.initX z.2 x.2)
  initCov := fun z P => (C.initCov z.1 P.1, C'.initCov z.2 P.2)
  zeroX := (C.zeroX, C'.zeroX)
  setPoseCov := (C.setPoseCov, C'.setPoseCov)
  resetCov := (C.resetCov, C'.resetCov)
  resetPar := (C.resetPar, C'.resetPar)

variable {C C' : Core}

/-- Two configurations as one; the switches are those of the first. -/
def Cfg.pair (g : Cfg C) (g' : Cfg C') : Cfg (pairCore C C') :=
  { smooth := g.smooth, historyLength := g.historyLength, predictToCurrent := g.predictToCurrent, useControl := g.useControl
    permitCorrected := g.permitCorrected, publishTf := g.publishTf, publishAccel := g.publishAccel
    sensorTimeout := g.sensorTimeout, processNoise := (g.processNoise, g'.processNoise)
    initialCov := (g.initialCov, g'.initialCov), keptNoise := (g.keptNoise, g'.keptNoise), keptCov := (g.keptCov, g'.keptCov)
    initialState := (g.initialState, g'.initialState), disabledAtStartup := g.disabledAtStartup, ctl0 := (g.ctl0, g'.ctl0) }

/-- The same switches. -/
structure Cfg.SameSwitches (g : Cfg C) (g' : Cfg C') : Prop where
  smooth : g'.smooth = g.smooth
  history : g'.historyLength = g.historyLength
  toCurrent : g'.predictToCurrent = g.predictToCurrent
  control : g'.useControl = g.useControl
  permit : g'.permitCorrected = g.permitCorrected
  tf : g'.publishTf = g.publishTf
  accel : g'.publishAccel = g.publishAccel
  timeout : g'.sensorTimeout = g.sensorTimeout
  disabled : g'.disabledAtStartup = g.disabledAtStartup

/-- The first of the two events, and the second. -/
def Node.Event.fst : Node.Event (pairCore C C') → Node.Event C
  | .sensor topic stamp z => .sensor topic stamp (Option.map (fun a : C.Z × C'.Z => a.1) z)
  | .control u t => .control (u : C.Ctl × C'.Ctl).1 t
  | .setPose stamp now r =>
    .setPose stamp now (Option.map (fun a : (C.X × C'.X) × (C.Cov × C'.Cov) => (a.1.1, a.2.1)) r)
  | .reset => .reset
  | .toggle on => .toggle on
  | .enable => .enable
  | .tick now now2 tfOk => .tick now now2 tfOk

def Node.Event.snd : Node.Event (pairCore C C') → Node.Event C'
  | .sensor topic stamp z => .sensor topic stamp (Option.map (fun a : C.Z × C'.Z => a.2) z)
  | .control u t => .control (u : C.Ctl × C'.Ctl).2 t
  | .setPose stamp now r =>
    .setPose stamp now (Option.map (fun a : (C.X × C'.X) × (C.Cov × C'.Cov) => (a.1.2, a.2.2)) r)
  | .reset => .reset
  | .toggle on => .toggle on
  | .enable => .enable
  | .tick now now2 tfOk => .tick now now2 tfOk

def Out.fst : Out (pairCore C C') → Out C
  | .odom t x P => .odom t (x : C.X × C'.X).1 (P : C.Cov × C'.Cov).1
  | .tf t => .tf t
  | .accel t => .accel t

def Out.snd : Out (pairCore C C') → Out C'
  | .odom t x P => .odom t (x : C.X × C'.X).2 (P : C.Cov × C'.Cov).2
  | .tf t => .tf t
  | .accel t => .accel t

/-- The pair does what its first part does. -/
def fstSim (C C' : Core) : CoreSim (pairCore C C') C 0 where
  low := 0
  X x x' := x' = (x : C.X × C'.X).1
  Cov P P' := P' = (P : C.Cov × C'.Cov).1
  Ext e e' := e' = (e : C.Ext × C'.Ext).1
  Par q q' := q' = (q : C.Par × C'.Par).1
  Z z z' := z' = (z : C.Z × C'.Z).1
  Ctl u t u' t' := u' = (u : C.Ctl × C'.Ctl).1 ∧ t' = t
  predict := by
    rintro q _ u t _ _ x _ P _ e _ ref delta - rfl ⟨rfl, rfl⟩ rfl rfl rfl
    rw [Int.add_zero]
    exact ⟨rfl, rfl, rfl⟩
  correct := by
    rintro z _ x _ P _ e _ rfl rfl rfl rfl
    exact ⟨rfl, rfl, rfl⟩
  initX := by
    rintro z _ x _ rfl rfl
    rfl
  initCov := by
    rintro z _ P _ rfl rfl
    rfl

/-- The pair does what its second part does. -/
def sndSim (C C' : Core) : CoreSim (pairCore C C') C' 0 where
  low := 0
  X x x' := x' = (x : C.X × C'.X).2
  Cov P P' := P' = (P : C.Cov × C'.Cov).2
  Ext e e' := e' = (e : C.Ext × C'.Ext).2
  Par q q' := q' = (q : C.Par × C'.Par).2
  Z z z' := z' = (z : C.Z × C'.Z).2
  Ctl u t u' t' := u' = (u : C.Ctl × C'.Ctl).2 ∧ t' = t
  predict := by
    rintro q _ u t _ _ x _ P _ e _ ref delta - rfl ⟨rfl, rfl⟩ rfl rfl rfl
    rw [Int.add_zero]
    exact ⟨rfl, rfl, rfl⟩
  correct := by
    rintro z _ x _ P _ e _ rfl rfl rfl rfl
    exact ⟨rfl, rfl, rfl⟩
  initX := by
    rintro z _ x _ rfl rfl
    rfl
  initCov := by
    rintro z _ P _ rfl rfl
    rfl

theorem run_fst {P : MQueue (pairCore C C')} {P' : MQueue C} (κ : QueueSim (fstSim C C') P P') (g : Cfg C) (g' : Cfg C')
    (e : C.Ext) (e' : C'.Ext) (u : C.Ctl) (u' : C'.Ctl) (now : Int) (es : List (Node.Event (pairCore C C'))) :
    (Node.run g (Node.start g P' e u now) (es.map Node.Event.fst)).2 =
      (Node.run (g.pair g') (Node.start (g.pair g') P (e, e') (u, u') now) es).2.map Out.fst := by
  have hg : CfgSim (fstSim C C') (g.pair g') g := ⟨rfl, rfl, rfl, rfl, rfl, rfl, rfl, rfl, rfl, rfl, rfl, rfl⟩
  have he : List.Forall₂ (EventSim (fstSim C C')) es (es.map Node.Event.fst) := by
    rw [List.forall₂_map_right_iff, List.forall₂_same]
    intro ev _
    have pos : ∀ t, Pos 0 0 t := fun t => Or.inl rfl
    cases ev with
    | sensor topic stamp z =>
      have := EventSim.sensor (σ := fstSim C C') topic (stamp := stamp) (z := z)
        (z' := Option.map (fun a : C.Z × C'.Z => a.1) z) (pos _) (by
        cases z with
        | none => exact .none
        | some z => exact .some rfl)
      rwa [Int.add_zero] at this
    | control v t => exact .control ⟨rfl, rfl⟩
    | setPose stamp now r =>
      have := EventSim.setPose (σ := fstSim C C') (stamp := stamp) (now := now)
        (r := r) (r' := Option.map (fun a : (C.X × C'.X) × (C.Cov × C'.Cov) => (a.1.1, a.2.1)) r) (pos _) (pos _)
        (by cases r with
          | none => exact .none
          | some r => exact .some ⟨rfl, rfl⟩) (fun _ => ⟨rfl, rfl⟩)
      rwa [Int.add_zero, Int.add_zero] at this
    | reset => exact .reset rfl fun h => ⟨h.1, rfl⟩
    | toggle on => exact .toggle on
    | enable => exact .enable
    | tick now now2 tfOk =>
      have := EventSim.tick (σ := fstSim C C') tfOk (pos now) (pos now2)
      rwa [Int.add_zero, Int.add_zero] at this
  have hst : NodeSim κ (Node.start (g.pair g') P (e, e') (u, u') now) (Node.start g P' e u now) := by
    have := NodeSim.start (κ := κ) (g := g.pair g') (g' := g) hg rfl rfl ⟨rfl, rfl⟩ (e := (e, e')) (e' := e) rfl
      (u := (u, u')) (u' := u) ⟨rfl, rfl⟩ now
    rwa [Int.add_zero] at this
  have h := (NodeSim.run hg he hst).2
  generalize (Node.run (g.pair g') (Node.start (g.pair g') P (e, e') (u, u') now) es).2 = os at h
  generalize (Node.run g (Node.start g P' e u now) (es.map Node.Event.fst)).2 = os' at h
  induction h with
  | nil => rfl
  | cons hab _ ih =>
    rw [List.map_cons, ← ih]
    congr 1
    cases hab with
    | odom hx hP =>
      have hx : _ = _ := hx
      have hP : _ = _ := hP
      rw [hx, hP, Int.add_zero]
      rfl
    | tf t => rw [Int.add_zero]; rfl
    | accel t => rw [Int.add_zero]; rfl

theorem run_snd {P : MQueue (pairCore C C')} {P' : MQueue C'} (κ : QueueSim (sndSim C C') P P') (g : Cfg C) (g' : Cfg C')
    (hs : g.SameSwitches g') (e : C.Ext) (e' : C'.Ext) (u : C.Ctl) (u' : C'.Ctl) (now : Int)
    (es : List (Node.Event (pairCore C C'))) :
    (Node.run g' (Node.start g' P' e' u' now) (es.map Node.Event.snd)).2 =
      (Node.run (g.pair g') (Node.start (g.pair g') P (e, e') (u, u') now) es).2.map Out.snd := by
  have hg : CfgSim (sndSim C C') (g.pair g') g' := ⟨hs.smooth, hs.history, hs.toCurrent, hs.control, hs.permit, hs.tf,
    hs.accel, hs.timeout, rfl, rfl, rfl, rfl⟩
  have he : List.Forall₂ (EventSim (sndSim C C')) es (es.map Node.Event.snd) := by
    rw [List.forall₂_map_right_iff, List.forall₂_same]
    intro ev _
    have pos : ∀ t, Pos 0 0 t := fun t => Or.inl rfl
    cases ev with
    | sensor topic stamp z =>
      have := EventSim.sensor (σ := sndSim C C') topic (stamp := stamp) (z := z)
        (z' := Option.map (fun a : C.Z × C'.Z => a.2) z) (pos _) (by
        cases z with
        | none => exact .none
        | some z => exact .some rfl)
      rwa [Int.add_zero] at this
    | control v t => exact .control ⟨rfl, rfl⟩
    | setPose stamp now r =>
      have := EventSim.setPose (σ := sndSim C C') (stamp := stamp) (now := now)
        (r := r) (r' := Option.map (fun a : (C.X × C'.X) × (C.Cov × C'.Cov) => (a.1.2, a.2.2)) r) (pos _) (pos _)
        (by cases r with
          | none => exact .none
          | some r => exact .some ⟨rfl, rfl⟩) (fun _ => ⟨rfl, rfl⟩)
      rwa [Int.add_zero, Int.add_zero] at this
    | reset => exact .reset rfl fun h => ⟨h.1, rfl⟩
    | toggle on => exact .toggle on
    | enable => exact .enable
    | tick now now2 tfOk =>
      have := EventSim.tick (σ := sndSim C C') tfOk (pos now) (pos now2)
      rwa [Int.add_zero, Int.add_zero] at this
  have hst : NodeSim κ (Node.start (g.pair g') P (e, e') (u, u') now) (Node.start g' P' e' u' now) := by
    have := NodeSim.start (κ := κ) (g := g.pair g') (g' := g') hg rfl hs.disabled ⟨rfl, rfl⟩ (e := (e, e')) (e' := e') rfl
      (u := (u, u')) (u' := u') ⟨rfl, rfl⟩ now
    rwa [Int.add_zero] at this
  have h := (NodeSim.run hg he hst).2
  generalize (Node.run (g.pair g') (Node.start (g.pair g') P (e, e') (u, u') now) es).2 = os at h
  generalize (Node.run g' (Node.start g' P' e' u' now) (es.map Node.Event.snd)).2 = os' at h
  induction h with
  | nil => rfl
  | cons hab _ ih =>
    rw [List.map_cons, ← ih]
    congr 1
    cases hab with
    | odom hx hP =>
      have hx : _ = _ := hx
      have hP : _ = _ := hP
      rw [hx, hP, Int.add_zero]
      rfl
    | tf t => rw [Int.add_zero]; rfl
    | accel t => rw [Int.add_zero]; rfl

end RL
