import Verif.Proofs.RescaleUkf
import Verif.Props.UkfCorrect
/-! # C107 for the unscented filter

The factorisation of a matrix that is not positive definite is left half done by Eigen, and half of it does not follow the
unit.  Here every estimate carries a mark that says whether all sigma points that have gone into it were drawn from positive
definite covariances, and every such estimate is the same in other units. -/

namespace RL
open Matrix

/-- The unscented filter (Model/Ukf.lean, `ukfCore`) with marks: they hold until sigma points are drawn from a matrix that
is not positive definite, and again for a state or covariance that has been set. -/
noncomputable def markedUkf (p : FilterPar) (llt : Llt) (k : UkfConst) : Core where
  X := Option State × Prop
  Cov := Mat15 × Prop
  Ext := UkfMem × Prop
  Par := Mat15
  Ctl := Fin 6 → ℝ
  Z := Payload
  predict := fun Q ctl ctlTime ref delta s =>
    let r := (ukfCore p llt k).predict Q ctl ctlTime ref delta (s.1.1, s.2.1.1, s.2.2.1)
    let good := (s.1.2 ∧ s.2.1.2 ∧ s.2.2.2) ∧ ((15 + k.lam) • s.2.1.1).PosDef
    ((r.1, good), (r.2.1, good), (r.2.2, good))
  correct := fun m s =>
    let r := (ukfCore p llt k).correct m (s.1.1, s.2.1.1, s.2.2.1)
    let good := (s.1.2 ∧ s.2.1.2 ∧ s.2.2.2) ∧ (s.2.2.1.uncorrected = true ∨ ((15 + k.lam) • s.2.1.1).PosDef)
    ((r.1, good), (r.2.1, good), (r.2.2, good))
  initX := fun m x => ((ukfCore p llt k).initX m x.1, x.2)
  initCov := fun m P => ((ukfCore p llt k).initCov m P.1, P.2)
  zeroX := ((ukfCore p llt k).zeroX, True)
  setPoseCov := ((ukfCore p llt k).setPoseCov, True)
  resetCov := ((ukfCore p llt k).resetCov, True)
  resetPar := (ukfCore p llt k).resetPar

variable {p : FilterPar} {llt : Llt} {k : UkfConst} {l : ℝ}

/-- The same configuration; the initial estimate is marked. -/
def Cfg.markedU (g : Cfg (ukfCore p llt k)) : Cfg (markedUkf p llt k) :=
  { smooth := g.smooth, historyLength := g.historyLength, predictToCurrent := g.predictToCurrent, useControl := g.useControl
    permitCorrected := g.permitCorrected, publishTf := g.publishTf, publishAccel := g.publishAccel
    sensorTimeout := g.sensorTimeout, processNoise := g.processNoise, initialCov := (g.initialCov, True)
    keptNoise := g.keptNoise, keptCov := (g.keptCov, True), initialState := (g.initialState, True)
    disabledAtStartup := g.disabledAtStartup, ctl0 := g.ctl0 }

/-- The same event; a pose that is set is marked. -/
def Node.Event.markedU : Node.Event (ukfCore p llt k) → Node.Event (markedUkf p llt k)
  | .sensor topic stamp z => .sensor topic stamp z
  | .control u t => .control u t
  | .setPose stamp now r => .setPose stamp now (Option.map (fun a => ((a.1, True), (a.2, True))) r)
  | .reset => .reset
  | .toggle on => .toggle on
  | .enable => .enable
  | .tick now now2 tfOk => .tick now now2 tfOk

/-- What is sent, without the mark. -/
def Out.unmarkedU : Out (markedUkf p llt k) → Out (ukfCore p llt k)
  | .odom t x P => .odom t (x : Option State × Prop).1 (P : Mat15 × Prop).1
  | .tf t => .tf t
  | .accel t => .accel t

/-- All sigma points that have gone into the estimate that is sent were drawn from positive definite covariances. -/
def Out.ClearU : Out (markedUkf p llt k) → Prop
  | .odom _ x P => (x : Option State × Prop).2 ∧ (P : Mat15 × Prop).2
  | _ => True

/-- The same event in other units. -/
noncomputable def Node.Event.rescaledU (l : ℝ) : Node.Event (ukfCore p llt k) → Node.Event (ukfCore p llt k)
  | .sensor topic stamp z => .sensor topic stamp (Option.map (Payload.rescaled l 1) z)
  | .control u t => .control (ctlRescaled l 1 u) t
  | .setPose stamp now r => .setPose stamp now (Option.map (fun a => (Option.map (State.rescaled l 1) a.1, rescaleCov l 1 a.2)) r)
  | e => e

/-- The same message in other units. -/
def Out.rescaledU (l : ℝ) : Out (ukfCore p llt k) → Out (ukfCore p llt k)
  | .odom t x P => .odom t (Option.map (State.rescaled l 1) x) (rescaleCov l 1 P)
  | o => o

/-- The same configuration in other units. -/
noncomputable def Cfg.rescaledU (l : ℝ) (g : Cfg (ukfCore p llt k)) : Cfg (ukfCore p llt k) :=
  { g with
    initialState := Option.map (State.rescaled l 1) g.initialState
    initialCov := rescaleCov l 1 g.initialCov
    processNoise := rescaleCov l 1 g.processNoise
    keptCov := rescaleCov l 1 g.keptCov
    keptNoise := rescaleCov l 1 g.keptNoise
    ctl0 := ctlRescaled l 1 g.ctl0 }

/-- No measured variance is below the floor 1e-9 in either unit, and no length is normalised as if it were an angle. -/
structure Payload.RescalableU (l : ℝ) (m : Payload) : Prop where
  floor : ∀ i, m.upd i = true → 1e-9 ≤ m.R i i ∧ 1e-9 ≤ rescaleCov l 1 m.R i i
  own : OwnPlace m.indices.get

/-- Measurements as in `Payload.RescalableU`; no `set_pose` that cannot be transformed. -/
def Node.Event.RescalableU (l : ℝ) : Node.Event (ukfCore p llt k) → Prop
  | .setPose _ _ r => r ≠ none
  | .sensor _ _ z => ∀ m : Payload, z = some m → m.RescalableU l
  | _ => True

/-- One correction of the unscented filter, in other units. -/
theorem Ukf.correct_scaled (hl : 0 < l) (llt : Llt) (k : UkfConst) {m : Payload} (hm : m.RescalableU l) (x : State) (P : Mat15)
    (mem : UkfMem) (h : mem.uncorrected = true ∨ ((15 + k.lam) • P).PosDef) :
    Ukf.correct llt k (m.rescaled l 1) (x.rescaled l 1) (rescaleCov l 1 P) (mem.rescaled l) =
      (Ukf.correct llt k m x P mem).map fun r => (r.1.rescaled l 1, rescaleCov l 1 r.2.1, r.2.2.rescaled l) := by
  have h0 : ∀ i, unitOf l 1 i ≠ 0 := fun i => (unitOf_pos hl i).ne'
  have hpts : (mem.rescaled l).refresh llt k (x.rescaled l 1) (rescaleCov l 1 P) =
      fun s => (mem.refresh llt k x P s).rescaled l 1 := by
    unfold UkfMem.refresh
    show (if mem.uncorrected = true then _ else _) = _
    by_cases hu : mem.uncorrected = true
    · rw [if_pos hu]
      simp only [if_pos hu]
      rfl
    · rw [if_neg hu]
      simp only [if_neg hu]
      exact funext fun s => sigma_scaled llt k hl x (h.resolve_left hu) s
  unfold Ukf.correct
  dsimp only
  have hR' : (m.rescaled l 1).R = rescaleCov l 1 m.R := rfl
  have ht' : (m.rescaled l 1).thresh = m.thresh := rfl
  rw [hpts, indices_rescaled h0, hR', ht']
  rw [correctU_scaled hm.own hl k (mem.refresh llt k x P) (fun i => (m.z i).val) (fun i => ((m.rescaled l 1).z i).val) ?_ m.R ?_]
  · rw [Option.map_map, Option.map_map]
    rfl
  · intro a
    exact (rescaledZ h0 m _).2.2.2 ((mem_indices m _).1 (List.get_mem m.indices a)).2
  · intro a
    obtain ⟨a, b⟩ := hm.floor _ ((mem_indices m _).1 (List.get_mem m.indices a)).1
    rw [sanitize_above a]
    exact sanitize_above b

/-- Marks change nothing. -/
noncomputable def unmarkSimU (p : FilterPar) (llt : Llt) (k : UkfConst) : CoreSim (markedUkf p llt k) (ukfCore p llt k) 0 where
  low := 0
  X x x' := x' = (x : Option State × Prop).1
  Cov P P' := P' = (P : Mat15 × Prop).1
  Ext e e' := e' = (e : UkfMem × Prop).1
  Par q q' := q' = q
  Z z z' := z' = z
  Ctl u t u' t' := u' = u ∧ t' = t
  predict := by
    rintro q _ u t _ _ x _ P _ e _ ref delta - rfl ⟨rfl, rfl⟩ rfl rfl rfl
    rw [Int.add_zero]
    exact ⟨rfl, rfl, rfl⟩
  correct := by
    rintro z _ x _ P _ e _ rfl rfl rfl rfl
    exact ⟨rfl, rfl, rfl⟩
  initX := by
    rintro z _ x _ rfl rfl
    rfl
  initCov := by
    rintro z _ P _ rfl rfl
    rfl

/-- The filter in other units treats what it sees in the same way while the marks hold. -/
noncomputable def rescaledSimU (p : FilterPar) (hd : p.dynamic = false) (llt : Llt) (k : UkfConst) (hl : 0 < l) :
    CoreSim (markedUkf p llt k) (ukfCore p llt k) 0 where
  low := 0
  X x x' := (x : Option State × Prop).2 → x' = Option.map (State.rescaled l 1) (x : Option State × Prop).1
  Cov P P' := (P : Mat15 × Prop).2 → P' = rescaleCov l 1 (P : Mat15 × Prop).1
  Ext e e' := (e : UkfMem × Prop).2 → e' = UkfMem.rescaled l (e : UkfMem × Prop).1
  Par q q' := q' = rescaleCov l 1 q
  Z z z' := z' = Payload.rescaled l 1 z ∧ z.RescalableU l
  Ctl _ _ _ _ := True
  predict := by
    rintro q _ u t u' t' ⟨x, a⟩ x' ⟨P, b⟩ P' ⟨e, c⟩ e' ref delta hr rfl - hx hP he
    have key : (a ∧ b ∧ c) ∧ ((15 + k.lam) • P).PosDef →
        ((ukfCore p llt k).predict (rescaleCov l 1 q) u' t' (ref + 0) delta (x', P', e')).1 =
          Option.map (State.rescaled l 1) ((ukfCore p llt k).predict q u t ref delta (x, P, e)).1 ∧
        ((ukfCore p llt k).predict (rescaleCov l 1 q) u' t' (ref + 0) delta (x', P', e')).2.1 =
          rescaleCov l 1 ((ukfCore p llt k).predict q u t ref delta (x, P, e)).2.1 ∧
        ((ukfCore p llt k).predict (rescaleCov l 1 q) u' t' (ref + 0) delta (x', P', e')).2.2 =
          UkfMem.rescaled l ((ukfCore p llt k).predict q u t ref delta (x, P, e)).2.2 := by
      rintro ⟨⟨ha, hb, hc⟩, hpd⟩
      replace hx : x' = Option.map (State.rescaled l 1) x := hx ha
      replace hP : P' = rescaleCov l 1 P := hP hb
      replace he : e' = UkfMem.rescaled l e := he hc
      subst hx hP he
      cases x with
      | none => exact ⟨rfl, rfl, rfl⟩
      | some x =>
        have h := predictU_scaled hd llt k hl q u u' t ref (toSec delta) x hpd
        have e1 : (ukfCore p llt k).predict q u t ref delta (some x, P, e) =
            match Ukf.predict p llt k q u t ref (toSec delta) x P with
          | some r => (some r.1, r.2.1, r.2.2)
          | none => (none, P, e) := rfl
        have e2 : (ukfCore p llt k).predict (rescaleCov l 1 q) u' t' (ref + 0) delta
            (Option.map (State.rescaled l 1) (some x), rescaleCov l 1 P, UkfMem.rescaled l e) =
            match Ukf.predict p llt k (rescaleCov l 1 q) u' t ref (toSec delta) (x.rescaled l 1) (rescaleCov l 1 P) with
          | some r => (some r.1, r.2.1, r.2.2)
          | none => (none, rescaleCov l 1 P, UkfMem.rescaled l e) := rfl
        rw [e1, e2, h]
        cases Ukf.predict p llt k q u t ref (toSec delta) x P with
        | none => exact ⟨rfl, rfl, rfl⟩
        | some r => exact ⟨rfl, rfl, rfl⟩
    exact ⟨fun h => (key h).1, fun h => (key h).2.1, fun h => (key h).2.2⟩
  correct := by
    rintro z _ ⟨x, a⟩ x' ⟨P, b⟩ P' ⟨e, c⟩ e' ⟨rfl, hz⟩ hx hP he
    have key : (a ∧ b ∧ c) ∧ (UkfMem.uncorrected e = true ∨ ((15 + k.lam) • P).PosDef) →
        ((ukfCore p llt k).correct (Payload.rescaled l 1 z) (x', P', e')).1 =
          Option.map (State.rescaled l 1) ((ukfCore p llt k).correct z (x, P, e)).1 ∧
        ((ukfCore p llt k).correct (Payload.rescaled l 1 z) (x', P', e')).2.1 =
          rescaleCov l 1 ((ukfCore p llt k).correct z (x, P, e)).2.1 ∧
        ((ukfCore p llt k).correct (Payload.rescaled l 1 z) (x', P', e')).2.2 =
          UkfMem.rescaled l ((ukfCore p llt k).correct z (x, P, e)).2.2 := by
      rintro ⟨⟨ha, hb, hc⟩, hpd⟩
      replace hx : x' = Option.map (State.rescaled l 1) x := hx ha
      replace hP : P' = rescaleCov l 1 P := hP hb
      replace he : e' = UkfMem.rescaled l e := he hc
      subst hx hP he
      cases x with
      | none => exact ⟨rfl, rfl, rfl⟩
      | some x =>
        have h := Ukf.correct_scaled hl llt k hz x P e hpd
        have e1 : (ukfCore p llt k).correct z (some x, P, e) = match Ukf.correct llt k z x P e with
          | some r => (some r.1, r.2.1, r.2.2)
          | none => (none, P, e) := rfl
        have e2 : (ukfCore p llt k).correct (Payload.rescaled l 1 z)
            (Option.map (State.rescaled l 1) (some x), rescaleCov l 1 P, UkfMem.rescaled l e) =
            match Ukf.correct llt k (Payload.rescaled l 1 z) (x.rescaled l 1) (rescaleCov l 1 P) (UkfMem.rescaled l e) with
          | some r => (some r.1, r.2.1, r.2.2)
          | none => (none, rescaleCov l 1 P, UkfMem.rescaled l e) := rfl
        rw [e1, e2, h]
        cases Ukf.correct llt k z x P e with
        | none => exact ⟨rfl, rfl, rfl⟩
        | some r => exact ⟨rfl, rfl, rfl⟩
    exact ⟨fun h => (key h).1, fun h => (key h).2.1, fun h => (key h).2.2⟩
  initX := by
    rintro z _ ⟨x, a⟩ x' ⟨rfl, -⟩ hx ha
    replace hx : x' = Option.map (State.rescaled l 1) x := hx ha
    subst hx
    show Option.bind _ (initState (Payload.rescaled l 1 z)) = Option.map _ (Option.bind x (initState z))
    cases x with
    | none => rfl
    | some x =>
      have h := initState_rescaled (l := l) (s := 1) (fun i => (unitOf_pos hl i).ne') z x.rescaled_same
      show initState (Payload.rescaled l 1 z) (x.rescaled l 1) = Option.map _ (initState z x)
      generalize initState z x = r at h
      generalize initState (Payload.rescaled l 1 z) (x.rescaled l 1) = r' at h
      cases h with
      | none => rfl
      | some h =>
        obtain ⟨n, -, hn, h⟩ := h
        rw [hn rfl] at h
        rw [h, Option.map_some]
        congr 1
        funext i
        simp [State.rescaled]
  initCov := by
    rintro z _ ⟨P, b⟩ P' ⟨rfl, -⟩ hP hb
    replace hP : P' = rescaleCov l 1 P := hP hb
    subst hP
    exact initCov_rescaled z P

theorem run_unmarkedU (p : FilterPar) (llt : Llt) (k : UkfConst) (P : MQueue (markedUkf p llt k)) (P' : MQueue (ukfCore p llt k))
    (κ : QueueSim (unmarkSimU p llt k) P P') (cfg : Cfg (ukfCore p llt k)) (mem : UkfMem) (u : Fin 6 → ℝ) (now : Int)
    (es : List (Node.Event (ukfCore p llt k))) :
    (Node.run cfg (Node.start cfg P' mem u now) es).2 =
      (Node.run cfg.markedU (Node.start cfg.markedU P (mem, True) u now) (es.map Node.Event.markedU)).2.map Out.unmarkedU := by
  have hg : CfgSim (unmarkSimU p llt k) cfg.markedU cfg := ⟨rfl, rfl, rfl, rfl, rfl, rfl, rfl, rfl, rfl, rfl, rfl, rfl⟩
  have he : List.Forall₂ (EventSim (unmarkSimU p llt k)) (es.map Node.Event.markedU) es := by
    rw [List.forall₂_map_left_iff, List.forall₂_same]
    intro e _
    have pos : ∀ t, Pos 0 0 t := fun t => Or.inl rfl
    cases e with
    | sensor topic stamp z =>
      have := EventSim.sensor (σ := unmarkSimU p llt k) topic (stamp := stamp) (z := z) (z' := z) (pos _) (by
        cases z with
        | none => exact .none
        | some z => exact .some rfl)
      rwa [Int.add_zero] at this
    | control v t => exact .control ⟨rfl, rfl⟩
    | setPose stamp now r =>
      have := EventSim.setPose (σ := unmarkSimU p llt k) (stamp := stamp) (now := now)
        (r := Option.map (fun a : Option State × Mat15 => ((a.1, True), (a.2, True))) r) (r' := r) (pos _) (pos _)
        (by cases r with
          | none => exact .none
          | some r => exact .some ⟨rfl, rfl⟩) (fun _ => ⟨rfl, rfl⟩)
      rwa [Int.add_zero, Int.add_zero] at this
    | reset => exact .reset rfl fun h => ⟨h.1, rfl⟩
    | toggle on => exact .toggle on
    | enable => exact .enable
    | tick now now2 tfOk =>
      have := EventSim.tick (σ := unmarkSimU p llt k) tfOk (pos now) (pos now2)
      rwa [Int.add_zero, Int.add_zero] at this
  have hst : NodeSim κ (Node.start cfg.markedU P (mem, True) u now) (Node.start cfg P' mem u now) := by
    have := NodeSim.start (κ := κ) (g := cfg.markedU) (g' := cfg) hg rfl rfl ⟨rfl, rfl⟩ (e := (mem, True)) (e' := mem) rfl
      (u := u) (u' := u) ⟨rfl, rfl⟩ now
    rwa [Int.add_zero] at this
  have h := (NodeSim.run hg he hst).2
  generalize (Node.run cfg.markedU (Node.start cfg.markedU P (mem, True) u now) (es.map Node.Event.markedU)).2 = os at h
  generalize (Node.run cfg (Node.start cfg P' mem u now) es).2 = os' at h
  induction h with
  | nil => rfl
  | cons hab _ ih =>
    rw [List.map_cons, ← ih]
    congr 1
    cases hab with
    | odom hx hP =>
      have hx : _ = _ := hx
      have hP : _ = _ := hP
      rw [Int.add_zero, hx, hP]
      rfl
    | tf t => rw [Int.add_zero]; rfl
    | accel t => rw [Int.add_zero]; rfl

theorem run_rescaledU (p : FilterPar) (hd : p.dynamic = false) (llt : Llt) (k : UkfConst) (hl : 0 < l)
    (P : MQueue (markedUkf p llt k)) (P' : MQueue (ukfCore p llt k)) (κ : QueueSim (rescaledSimU p hd llt k hl) P P')
    (cfg : Cfg (ukfCore p llt k)) (u : Fin 6 → ℝ) (now : Int) (es : List (Node.Event (ukfCore p llt k)))
    (hes : ∀ e ∈ es, e.RescalableU l) :
    List.Forall₂ (fun o o' => o.ClearU → o' = Out.rescaledU l o.unmarkedU)
      (Node.run cfg.markedU (Node.start cfg.markedU P (UkfMem.init, True) u now) (es.map Node.Event.markedU)).2
      (Node.run (cfg.rescaledU l) (Node.start (cfg.rescaledU l) P' UkfMem.init (ctlRescaled l 1 u) now)
        (es.map (Node.Event.rescaledU l))).2 := by
  have hg : CfgSim (rescaledSimU p hd llt k hl) cfg.markedU (cfg.rescaledU l) :=
    ⟨rfl, rfl, rfl, rfl, rfl, rfl, rfl, rfl, rfl, fun _ => rfl, rfl, fun _ => rfl⟩
  have z0 : State.rescaled l 1 0 = 0 := by
    funext i
    simp [State.rescaled]
  have zero : (some (0 : State)) = Option.map (State.rescaled l 1) (some (0 : State)) := by
    rw [Option.map_some, z0]
  have he : List.Forall₂ (EventSim (rescaledSimU p hd llt k hl)) (es.map Node.Event.markedU) (es.map (Node.Event.rescaledU l)) := by
    rw [List.forall₂_map_left_iff, List.forall₂_map_right_iff, List.forall₂_same]
    intro e he
    have hk := hes e he
    have pos : ∀ t, Pos 0 0 t := fun t => Or.inl rfl
    cases e with
    | sensor topic stamp z =>
      have := EventSim.sensor (σ := rescaledSimU p hd llt k hl) topic (stamp := stamp) (z := z)
        (z' := Option.map (Payload.rescaled l 1) z) (pos _) (by
          cases z with
          | none => exact .none
          | some z => exact .some ⟨rfl, hk z rfl⟩)
      rwa [Int.add_zero] at this
    | control v t => exact .control trivial
    | setPose stamp now r =>
      have := EventSim.setPose (σ := rescaledSimU p hd llt k hl) (stamp := stamp) (now := now)
        (r := Option.map (fun a : Option State × Mat15 => ((a.1, True), (a.2, True))) r)
        (r' := Option.map (fun a => (Option.map (State.rescaled l 1) a.1, rescaleCov l 1 a.2)) r) (pos _) (pos _)
        (by cases r with
          | none => exact .none
          | some r => exact .some ⟨fun _ => rfl, fun _ => rfl⟩)
        (fun h => absurd (by cases r with
          | none => rfl
          | some r => cases h) hk)
      rwa [Int.add_zero, Int.add_zero] at this
    | reset => exact .reset (fun _ => zero) fun _ => trivial
    | toggle on => exact .toggle on
    | enable => exact .enable
    | tick now now2 tfOk =>
      have := EventSim.tick (σ := rescaledSimU p hd llt k hl) tfOk (pos now) (pos now2)
      rwa [Int.add_zero, Int.add_zero] at this
  have hst : NodeSim κ (Node.start cfg.markedU P (UkfMem.init, True) u now)
      (Node.start (cfg.rescaledU l) P' UkfMem.init (ctlRescaled l 1 u) now) := by
    have := NodeSim.start (κ := κ) (g := cfg.markedU) (g' := cfg.rescaledU l) hg (fun _ => rfl) rfl trivial
      (e := (UkfMem.init, True)) (e' := UkfMem.init) (fun _ => by
        show UkfMem.init = UkfMem.rescaled l UkfMem.init
        unfold UkfMem.rescaled UkfMem.init
        simp only [z0]) (u := u) (u' := ctlRescaled l 1 u) trivial now
    rwa [Int.add_zero] at this
  refine List.Forall₂.imp ?_ (NodeSim.run hg he hst).2
  intro o o' h hc
  cases h with
  | odom hx hP =>
    have h1 : _ = _ := hx hc.1
    have h2 : _ = _ := hP hc.2
    rw [Int.add_zero, h1, h2]
    rfl
  | tf t => rw [Int.add_zero]; rfl
  | accel t => rw [Int.add_zero]; rfl

/-- C107 for the unscented filter: a node told every length in other units, and configured in them, sends every estimate
all of whose sigma points were drawn from positive definite covariances in those units, control included, when the process
noise is constant, no `set_pose` fails, no measured variance is below 1e-9 in either unit and no length is taken for an
angle (`OwnPlace`).  `os` is what the node sends, with the marks. -/
theorem C107_ukf_partial (p : FilterPar) (hd : p.dynamic = false) (llt : Llt) (k : UkfConst) (hl : 0 < l)
    (cfg : Cfg (ukfCore p llt k)) (u : Fin 6 → ℝ) (now : Int) (es : List (Node.Event (ukfCore p llt k)))
    (hes : ∀ e ∈ es, e.RescalableU l) :
    ∃ os : List (Out (markedUkf p llt k)),
      os = (Node.run cfg.markedU (Node.start cfg.markedU (PQueue.sortedList _ _) (UkfMem.init, True) u now)
        (es.map Node.Event.markedU)).2 ∧
      (Node.run cfg (Node.start cfg (PQueue.sortedList _ _) UkfMem.init u now) es).2 = os.map Out.unmarkedU ∧
      List.Forall₂ (fun o o' => o.ClearU → o' = Out.rescaledU l o.unmarkedU) os
        (Node.run (cfg.rescaledU l) (Node.start (cfg.rescaledU l) (PQueue.sortedList _ _) UkfMem.init (ctlRescaled l 1 u) now)
          (es.map (Node.Event.rescaledU l))).2 :=
  ⟨_, rfl, run_unmarkedU p llt k _ _ (QueueSim.sorted _) cfg UkfMem.init u now es,
    run_rescaledU p hd llt k hl _ _ (QueueSim.sorted _) cfg u now es hes⟩

/-- A configuration for the example below. -/
noncomputable def paceCfg (llt : Llt) (k : UkfConst) : Cfg (ukfCore plainPar llt k) :=
  { smooth := true, historyLength := 1000, predictToCurrent := false, useControl := false, permitCorrected := false
    publishTf := true, publishAccel := true, sensorTimeout := 100, processNoise := defaultQ
    initialCov := (1e-9 : ℝ) • (1 : Mat15), keptNoise := defaultQ, keptCov := (1e-9 : ℝ) • (1 : Mat15)
    initialState := some 0, disabledAtStartup := false, ctl0 := (0 : Fin 6 → ℝ) }

/-- A forward velocity, measured twice. -/
noncomputable def paces (llt : Llt) (k : UkfConst) : List (Node.Event (ukfCore plainPar llt k)) :=
  [.sensor "a" 1 (some (oneVar iVx 1 .unlimited)), .sensor "a" 2 (some (oneVar iVx 2 .unlimited)), .tick 3 3 true]

/-- The filter after the first of the two measurements. -/
noncomputable def paced (llt : Llt) (k : UkfConst) :
    (markedUkf plainPar llt k).X × (markedUkf plainPar llt k).Cov × (markedUkf plainPar llt k).Ext :=
  ((markedUkf plainPar llt k).initX (oneVar iVx 1 .unlimited) ((some 0 : Option State), True),
    (markedUkf plainPar llt k).initCov (oneVar iVx 1 .unlimited) ((1e-9 : ℝ) • (1 : Mat15), True), (UkfMem.init, True))

/-- The filter after the second of the two measurements. -/
noncomputable def pacedTwice (llt : Llt) (k : UkfConst) :
    (markedUkf plainPar llt k).X × (markedUkf plainPar llt k).Cov × (markedUkf plainPar llt k).Ext :=
  (markedUkf plainPar llt k).correct (oneVar iVx 2 .unlimited)
    ((markedUkf plainPar llt k).predict (defaultQ : Mat15) (0 : Fin 6 → ℝ) 0 2 1 (paced llt k))

theorem paces_sent (llt : Llt) (k : UkfConst) : (Node.run (paceCfg llt k).markedU
      (Node.start (paceCfg llt k).markedU (PQueue.sortedList _ _) (UkfMem.init, True) (0 : Fin 6 → ℝ) 0)
      ((paces llt k).map Node.Event.markedU)).2 =
    [.tf 2, .odom 2 (pacedTwice llt k).1 (pacedTwice llt k).2.1, .accel 2] := by
  simp [Node.run, Node.step, Node.start, Node.sensor, Node.enqueue, Node.periodic, Node.advance, Node.integrate, paces,
      Node.drain, Node.publish, PQueue.sortedList, PQueue.insertSorted, PQueue.size, Filt.processMeasurement, paceCfg,
      Cfg.markedU, Node.Event.markedU, paced, pacedTwice, Filt.correct, Filt.predict]

theorem predict_uncorrected (llt : Llt) (k : UkfConst) (Q : Mat15) (u : Fin 6 → ℝ) (t ref delta : Int) (x : Option State) (P : Mat15)
    (mem : UkfMem) (h : mem.uncorrected = true) :
    UkfMem.uncorrected ((ukfCore plainPar llt k).predict Q u t ref delta (x, P, mem)).2.2 = true := by
  show UkfMem.uncorrected (match x.bind (fun x => Ukf.predict plainPar llt k Q u t ref (toSec delta) x P) with
    | some r => ((some r.1 : Option State), r.2.1, r.2.2)
    | none => (none, P, mem)).2.2 = true
  cases x with
  | none => exact h
  | some x =>
    show UkfMem.uncorrected (match Ukf.predict plainPar llt k Q u t ref (toSec delta) x P with
      | some r => ((some r.1 : Option State), r.2.1, r.2.2)
      | none => (none, P, mem)).2.2 = true
    unfold Ukf.predict
    dsimp only
    split_ifs
    · exact h
    · rfl

/-- In millimetres, what is sent after the two measurements is covered by `C107_ukf_partial`. -/
example (llt : Llt) : ∃ k : UkfConst, setConstants 1 0 2 = some k ∧ (∀ e ∈ paces llt k, e.RescalableU 1000) ∧
    ∀ o ∈ (Node.run (paceCfg llt k).markedU
      (Node.start (paceCfg llt k).markedU (PQueue.sortedList _ _) (UkfMem.init, True) (0 : Fin 6 → ℝ) 0)
      ((paces llt k).map Node.Event.markedU)).2, o.ClearU := by
  obtain ⟨k, hk, hlam⟩ : ∃ k : UkfConst, setConstants 1 0 2 = some k ∧ 15 + k.lam = 15 := by
    unfold setConstants
    dsimp only
    rw [if_neg (by norm_num)]
    exact ⟨_, rfl, by norm_num⟩
  have hz : ∀ v, (oneVar iVx v .unlimited).RescalableU 1000 := by
    intro v
    refine ⟨fun i _ => ?_, ?_⟩
    · show 1e-9 ≤ (1 : Mat15) i i ∧ 1e-9 ≤ rescaleCov 1000 1 1 i i
      simp only [rescaleCov, Matrix.of_apply, Matrix.one_apply_eq]
      fin_cases i <;> norm_num [unitOf]
    · rw [oneVar_indices]
      intro r h ha
      have : ([iVx].get ⟨r.val, h⟩) = iVx := List.mem_singleton.1 (List.get_mem [iVx] ⟨r.val, h⟩)
      rw [this] at ha
      exact absurd ha (by decide)
  refine ⟨k, hk, ?_, ?_⟩
  · intro e he
    simp only [paces, List.mem_cons, List.not_mem_nil, or_false] at he
    rcases he with rfl | rfl | rfl
    · rintro m hm
      injection hm with hm
      exact hm ▸ hz 1
    · rintro m hm
      injection hm with hm
      exact hm ▸ hz 2
    · trivial
  · rw [paces_sent]
    have hpd : ((15 + k.lam) • initCov (oneVar iVx 1 .unlimited) ((1e-9 : ℝ) • (1 : Mat15))).PosDef := by
      have e : (15 + k.lam) • initCov (oneVar iVx 1 .unlimited) ((1e-9 : ℝ) • (1 : Mat15)) =
          diagonal (fun i => if i = iVx then 15 else 15 * 1e-9) := by
        ext i j
        rw [hlam, Matrix.smul_apply]
        show (15 : ℝ) • (if decide (i = iVx) && decide (j = iVx) then (1 : Mat15) i j else ((1e-9 : ℝ) • (1 : Mat15)) i j) = _
        by_cases hij : i = j
        · subst hij
          rw [diagonal_apply_eq, Matrix.smul_apply, Matrix.one_apply_eq]
          by_cases hi : i = iVx <;> simp [hi]
        · rw [diagonal_apply_ne _ hij, Matrix.smul_apply, Matrix.one_apply_ne hij]
          simp
      rw [e]
      exact Matrix.PosDef.diagonal fun i => by split_ifs <;> norm_num
    have good : (pacedTwice llt k).1.2 := ⟨⟨⟨⟨trivial, trivial, trivial⟩, hpd⟩, ⟨⟨trivial, trivial, trivial⟩, hpd⟩,
      ⟨⟨trivial, trivial, trivial⟩, hpd⟩⟩, Or.inl (predict_uncorrected llt k _ _ _ _ _ _ _ _ rfl)⟩
    intro o ho
    simp only [List.mem_cons, List.not_mem_nil, or_false] at ho
    rcases ho with rfl | rfl | rfl
    · trivial
    · exact ⟨good, good⟩
    · trivial

/-! ## Where it fails -/

/-- The factor of a covariance in which the position x (spread `a`) and the heading are correlated. -/
noncomputable def driftL (g : Fin 15 → ℝ) (a : ℝ) : Mat15 := .of fun i j =>
  if i = j then (if i = iX then a else if i = iYaw then 1 / 2 else g i) else if i = iYaw ∧ j = iX then 1 / 2 else 0

/-- What `setConstants` computes for `alpha` 1, `kappa` -14 and `beta` 0. -/
theorem unit_const : ∃ k : UkfConst, setConstants 1 (-14) 0 = some k ∧ 15 + k.lam = 1 ∧ (∀ i, k.c (.inr i) = 1 / 2) := by
  unfold setConstants
  dsimp only
  rw [if_neg (by norm_num)]
  refine ⟨_, rfl, by norm_num, fun i => ?_⟩
  show (1 : ℝ) / (2 * (15 + _)) = 1 / 2
  norm_num

theorem driftL_lower (g : Fin 15 → ℝ) (a : ℝ) (i j : Fin 15) (h : i < j) : driftL g a i j = 0 := by
  show (if i = j then _ else if i = iYaw ∧ j = iX then (1 : ℝ) / 2 else 0) = 0
  rw [if_neg h.ne, if_neg]
  rintro ⟨rfl, rfl⟩
  exact absurd h (by decide)

theorem driftL_diag {g : Fin 15 → ℝ} (hg : ∀ i, 0 < g i) {a : ℝ} (ha : 0 < a) (i : Fin 15) : 0 < driftL g a i i := by
  show 0 < (if i = i then (if i = iX then a else if i = iYaw then (1 : ℝ) / 2 else g i) else _)
  rw [if_pos rfl]
  split_ifs
  · exact ha
  · norm_num
  · exact hg i

theorem driftL_posDef {g : Fin 15 → ℝ} (hg : ∀ i, 0 < g i) {a : ℝ} (ha : 0 < a) : (driftL g a * (driftL g a).transpose).PosDef := by
  have := PosDef.one (n := Fin 15) (R := ℝ)
  have h := this.mul_mul_conjTranspose_same (B := driftL g a)
    (Matrix.vecMul_injective_of_isUnit ((Matrix.isUnit_iff_isUnit_det _).2 (lower_det_isUnit (driftL_lower g a) (driftL_diag hg ha))))
  rwa [conjTranspose_eq_transpose_of_trivial, Matrix.mul_one] at h

theorem driftL_yaw (g : Fin 15 → ℝ) (a : ℝ) (i : Fin 15) : driftL g a iYaw i = (if i = iX then 1 / 2 else 0) + (if i = iYaw then 1 / 2 else 0) := by
  show (if iYaw = i then _ else if iYaw = iYaw ∧ i = iX then (1 : ℝ) / 2 else 0) = _
  by_cases h : i = iYaw
  · subst h
    rw [if_pos rfl, if_neg (by decide), if_pos rfl, if_neg (by decide), if_pos rfl, zero_add]
  · rw [if_neg (fun h' => h h'.symm)]
    by_cases h' : i = iX
    · rw [if_pos ⟨rfl, h'⟩, if_pos h', if_neg h, add_zero]
    · rw [if_neg (fun h => h' h.2), if_neg h', if_neg h, add_zero]

theorem driftL_sum (g : Fin 15 → ℝ) (a : ℝ) (F : Fin 15 → ℝ) : ∑ i, driftL g a iYaw i * F i = F iX / 2 + F iYaw / 2 := by
  simp only [driftL_yaw, add_mul, ite_mul, zero_mul, Finset.sum_add_distrib, Finset.sum_ite_eq', Finset.mem_univ, if_true]
  ring

theorem driftL_x (g : Fin 15 → ℝ) (a : ℝ) (i : Fin 15) : driftL g a iX i = if i = iX then a else 0 := by
  show (if iX = i then _ else if iX = iYaw ∧ i = iX then (1 : ℝ) / 2 else 0) = _
  by_cases h : i = iX
  · subst h
    rw [if_pos rfl, if_pos rfl, if_pos rfl]
  · rw [if_neg (fun h' => h h'.symm), if_neg (fun h => absurd h.1 (by decide)), if_neg h]

/-- A correction by a heading alone, one radian ahead of the estimate: the position moves by a third of its spread, taken
for an angle. -/
theorem compass_moves (llt : Llt) {k : UkfConst} (hk : setConstants 1 (-14) 0 = some k) (h1 : 15 + k.lam = 1)
    (hc : ∀ i, k.c (.inr i) = 1 / 2) {g : Fin 15 → ℝ} (hg : ∀ i, 0 < g i) {a : ℝ}
    (ha : 0 < a) (hn : normalizeAngle (-a) = -normalizeAngle a)
    (z : Fin 15 → ℝ) (hz : z iYaw = 1) (R : Mat15) (hR : R iYaw iYaw = 1) :
    ∃ r, ukfCorrectAt (fun _ : Fin 1 => iYaw) k (sigmaPoints llt k 0 (driftL g a * (driftL g a).transpose)) z R .unlimited 0
      (driftL g a * (driftL g a).transpose) = some r ∧ r.1 iX = normalizeAngle a / 3 := by
  have hpi := Real.pi_gt_three
  have hL : llt.L ((15 + k.lam) • (driftL g a * (driftL g a).transpose)) = driftL g a := by
    rw [h1, one_smul]
    exact llt.eq_of (driftL_lower g a) (driftL_diag hg ha)
  obtain ⟨pts, hpts⟩ : ∃ pts, pts = sigmaPoints llt k 0 (driftL g a * (driftL g a).transpose) := ⟨_, rfl⟩
  have hp0 : pts (.inl ()) = 0 := by rw [hpts]; rfl
  have hp1 : ∀ i r, pts (.inr (.inl i)) r = driftL g a r i := by
    intro i r
    rw [hpts]
    show (0 : ℝ) + llt.L ((15 + k.lam) • (driftL g a * (driftL g a).transpose)) r i = _
    rw [hL, zero_add]
  have hp2 : ∀ i r, pts (.inr (.inr i)) r = -driftL g a r i := by
    intro i r
    rw [hpts]
    show (0 : ℝ) - llt.L ((15 + k.lam) • (driftL g a * (driftL g a).transpose)) r i = _
    rw [hL, zero_sub]
  have hyx : driftL g a iYaw iX = 1 / 2 := by rw [driftL_yaw, if_pos rfl, if_neg (by decide), add_zero]
  have hyy : driftL g a iYaw iYaw = 1 / 2 := by rw [driftL_yaw, if_neg (by decide), if_pos rfl, zero_add]
  have hvar : (driftL g a * (driftL g a).transpose) iYaw iYaw = 1 / 2 := by
    rw [Matrix.mul_apply]
    simp only [transpose_apply]
    rw [driftL_sum g a (driftL g a iYaw), hyx, hyy]
    norm_num
  have hang : ∀ i : Fin 1, angularIdx ((fun _ : Fin 1 => iYaw) i) := fun _ => Or.inr (Or.inr rfl)
  have hzh : predictedMeas (fun _ : Fin 1 => iYaw) k pts = fun _ => 0 := by
    funext i
    unfold predictedMeas
    rw [if_pos (hang i), hpts]
    have := C62_angle_mean_partial llt hk (by rw [h1]; exact one_pos) 0 _ (driftL_posDef hg ha) iYaw (by rw [hvar]; norm_num)
    rw [this]
    exact normalizeAngle_of_mem (by show -Real.pi < (0 : ℝ); linarith) (by show (0 : ℝ) ≤ Real.pi; linarith)
  have hn0 : normalizeAngle 0 = 0 := normalizeAngle_of_mem (by linarith) (by linarith)
  have hb : ∀ i, 0 ≤ driftL g a iYaw i ∧ driftL g a iYaw i ≤ 1 := by
    intro i
    rw [driftL_yaw]
    split_ifs <;> norm_num
  have md0 : ∀ j, measDiff (fun _ : Fin 1 => iYaw) (fun _ => 0) (pts (.inl ())) j = 0 := by
    intro j
    unfold measDiff
    rw [if_pos (hang j), hp0]
    show normalizeAngle ((0 : ℝ) - 0) = 0
    rw [sub_zero, hn0]
  have md1 : ∀ i j, measDiff (fun _ : Fin 1 => iYaw) (fun _ => 0) (pts (.inr (.inl i))) j = driftL g a iYaw i := by
    intro i j
    unfold measDiff
    rw [if_pos (hang j), hp1, sub_zero]
    exact normalizeAngle_of_mem (by linarith [hb i]) (by linarith [hb i])
  have md2 : ∀ i j, measDiff (fun _ : Fin 1 => iYaw) (fun _ => 0) (pts (.inr (.inr i))) j = -driftL g a iYaw i := by
    intro i j
    unfold measDiff
    rw [if_pos (hang j), hp2, sub_zero]
    exact normalizeAngle_of_mem (by linarith [hb i]) (by linarith [hb i])
  have sd : ∀ d : State, stateDiff (fun _ : Fin 1 => iYaw) d iX = normalizeAngle (d iX) := by
    intro d
    unfold stateDiff
    rw [dif_pos (by decide), if_pos (hang 0)]
  have hnx : ∀ i, normalizeAngle (-driftL g a iX i) = -normalizeAngle (driftL g a iX i) := by
    intro i
    rw [driftL_x]
    split_ifs
    · exact hn
    · rw [neg_zero, hn0, neg_zero]
  have hM : ∀ i j, measCovar (fun _ : Fin 1 => iYaw) k pts i j = 1 / 2 := by
    intro i j
    unfold measCovar
    rw [hzh, Matrix.sum_apply, Fintype.sum_sum_type, Fintype.sum_sum_type]
    simp only [Matrix.smul_apply, vecMulVec_apply, smul_eq_mul, md1, md2, hc, Finset.univ_unique, Finset.sum_singleton]
    rw [show (default : Unit) = () from rfl, md0, md0, ← Finset.sum_add_distrib]
    have : ∀ i, (1 : ℝ) / 2 * (driftL g a iYaw i * driftL g a iYaw i) + 1 / 2 * (-driftL g a iYaw i * -driftL g a iYaw i) =
        driftL g a iYaw i * driftL g a iYaw i := fun i => by ring
    rw [Finset.sum_congr rfl fun i _ => this i, driftL_sum g a (driftL g a iYaw), hyx, hyy]
    norm_num
  have hC : ∀ j, crossCovar (fun _ : Fin 1 => iYaw) k pts 0 iX j = normalizeAngle a / 2 := by
    intro j
    unfold crossCovar
    rw [hzh, Matrix.sum_apply, Fintype.sum_sum_type, Fintype.sum_sum_type]
    simp only [Matrix.smul_apply, vecMulVec_apply, smul_eq_mul, md1, md2, hc, Finset.univ_unique, Finset.sum_singleton, sd,
      sub_zero, hp1, hp2, hnx]
    rw [show (default : Unit) = () from rfl, md0, ← Finset.sum_add_distrib]
    have : ∀ i, (1 : ℝ) / 2 * (normalizeAngle (driftL g a iX i) * driftL g a iYaw i) +
        1 / 2 * (-normalizeAngle (driftL g a iX i) * -driftL g a iYaw i) = driftL g a iYaw i * normalizeAngle (driftL g a iX i) :=
      fun i => by ring
    rw [Finset.sum_congr rfl fun i _ => this i, driftL_sum g a (fun i => normalizeAngle (driftL g a iX i)), driftL_x, driftL_x,
      if_pos rfl, if_neg (by decide), hn0]
    ring
  have hS : measCovar (fun _ : Fin 1 => iYaw) k pts + subR (fun _ : Fin 1 => iYaw) R = (3 / 2 : ℝ) • 1 := by
    ext i j
    have hij : i = j := Subsingleton.elim i j
    subst hij
    rw [Matrix.add_apply, hM, Matrix.smul_apply, Matrix.one_apply_eq]
    unfold subR
    rw [Matrix.of_apply, if_pos rfl, hR, sanitize_one]
    norm_num
  have hinv : ((3 / 2 : ℝ) • (1 : Matrix (Fin 1) (Fin 1) ℝ))⁻¹ = (2 / 3 : ℝ) • 1 := by
    apply Matrix.inv_eq_right_inv
    rw [Matrix.smul_mul, Matrix.one_mul, smul_smul]
    norm_num
  have hy : ukfInnovation (fun _ : Fin 1 => iYaw) z (predictedMeas (fun _ : Fin 1 => iYaw) k pts) = fun _ => 1 := by
    funext i
    unfold ukfInnovation
    rw [if_pos (hang i), hzh, hz, sub_zero]
    exact normalizeAngle_of_mem (by linarith) (by linarith)
  rw [← hpts]
  unfold ukfCorrectAt
  dsimp only
  rw [hS, hinv, hy, if_neg (by rw [Matrix.det_fin_one]; simp), if_pos (show checkMahalanobis _ _ .unlimited from trivial)]
  refine ⟨_, rfl, ?_⟩
  have hni : ¬ (iX = iRoll ∨ iX = iPitch ∨ iX = iYaw) := by decide
  dsimp only
  unfold wrapStateAngles
  rw [if_neg hni, Pi.add_apply, Matrix.mulVec, dotProduct, Fin.sum_univ_one, Matrix.mul_smul, Matrix.mul_one, Matrix.smul_apply, hC]
  show (0 : ℝ) + _ = _
  rw [smul_eq_mul]
  ring

/-- C107 is false of the unscented filter for a heading measured alone: the spread of the position is taken for an angle
(C20).  An uncertainty of 4 m, correlated with the heading, becomes one of 4 - 2π, and turning left moves the robot back; in
units of 10 m it stays 0.4, and turning left moves the robot forward. -/
theorem C107_ukf_compass (llt : Llt) : ∃ (k : UkfConst) (m : Payload) (P : Mat15) (mem : UkfMem) (r r' : State × Mat15 × UkfMem),
    setConstants 1 (-14) 0 = some k ∧ P.PosDef ∧ Ukf.correct llt k m 0 P mem = some r ∧
    Ukf.correct llt k (m.rescaled 0.1 1) 0 (rescaleCov 0.1 1 P) mem = some r' ∧
    r.1 iX = (4 - 2 * Real.pi) / 3 ∧ r'.1 iX = 0.4 / 3 := by
  have hpi := Real.pi_gt_three
  have hpi' := Real.pi_lt_d2
  obtain ⟨k, hk, h1, hc⟩ := unit_const
  have e4 : normalizeAngle 4 = 4 - 2 * Real.pi := by
    have := normalizeAngle_add_two_pi (4 - 2 * Real.pi) 1
    rw [normalizeAngle_of_mem (a := 4 - 2 * Real.pi) (by linarith) (by linarith)] at this
    rw [← this]
    congr 1
    push_cast
    ring
  have e4' : normalizeAngle (-4) = -normalizeAngle 4 := normalizeAngle_neg (by rw [e4]; linarith)
  have e04 : normalizeAngle 0.4 = 0.4 := normalizeAngle_of_mem (by linarith) (by norm_num at *; linarith)
  have e04' : normalizeAngle (-0.4) = -normalizeAngle 0.4 := normalizeAngle_neg (by rw [e04]; norm_num at *; linarith)
  have hg : ∀ i : Fin 15, 0 < unitOf 0.1 1 i := unitOf_pos (by norm_num)
  have hP : rescaleCov 0.1 1 (driftL 1 4 * (driftL 1 4).transpose) =
      driftL (unitOf 0.1 1) 0.4 * (driftL (unitOf 0.1 1) 0.4).transpose := by
    have hD : diagonal (unitOf 0.1 1) * driftL 1 4 = driftL (unitOf 0.1 1) 0.4 := by
      ext i j
      rw [diagonal_mul]
      show _ * (if i = j then (if i = iX then (4 : ℝ) else if i = iYaw then 1 / 2 else 1) else
        if i = iYaw ∧ j = iX then 1 / 2 else 0) = (if i = j then (if i = iX then (0.4 : ℝ) else if i = iYaw then 1 / 2 else
        unitOf 0.1 1 i) else if i = iYaw ∧ j = iX then 1 / 2 else 0)
      have ux : unitOf 0.1 1 iX = 0.1 := rfl
      have uy : unitOf 0.1 1 iYaw = 1 := rfl
      by_cases hx : i = iX
      · subst hx
        have : ¬ (iX = iYaw ∧ j = iX) := fun h => absurd h.1 (by decide)
        rw [if_pos rfl, if_pos rfl, if_neg this, ux]
        split_ifs <;> norm_num
      · rw [if_neg hx, if_neg hx]
        by_cases hy : i = iYaw
        · subst hy
          rw [if_pos rfl, if_pos rfl, uy, one_mul]
        · have hn : ¬ (i = iYaw ∧ j = iX) := fun h => hy h.1
          rw [if_neg hy, if_neg hy, if_neg hn]
          split_ifs <;> simp
    rw [rescaleCov_eq, ← hD, transpose_mul, diagonal_transpose]
    simp only [Matrix.mul_assoc]
  have hget : ([iYaw].get : Fin 1 → Fin 15) = fun _ => iYaw := by
    funext i
    fin_cases i
    rfl
  have run : ∀ (m : Payload) (P : Mat15), m.indices = [iYaw] → m.thresh = .unlimited →
      Ukf.correct llt k m 0 P ⟨fun _ => 0, false⟩ = (ukfCorrectAt (fun _ : Fin 1 => iYaw) k (sigmaPoints llt k 0 P)
        (fun i => (m.z i).val) m.R .unlimited 0 P).map fun r => (r.1, r.2.1, ⟨sigmaPoints llt k 0 P, false && !r.2.2⟩) := by
    intro m P hi ht
    unfold Ukf.correct UkfMem.refresh
    rw [hi, ht]
    show (ukfCorrectAt (n := 1) [iYaw].get k _ _ _ _ _ _).map _ = _
    rw [hget]
    rfl
  have hi' : ((oneVar iYaw 1 .unlimited).rescaled 0.1 1).indices = [iYaw] := by
    rw [indices_rescaled (fun i => (hg i).ne'), oneVar_indices]
  obtain ⟨r, hr, hrx⟩ := compass_moves llt hk h1 hc (g := 1) (fun _ => one_pos) (a := 4) (by norm_num) e4'
    (fun i => ((oneVar iYaw 1 .unlimited).z i).val) rfl (oneVar iYaw 1 .unlimited).R rfl
  obtain ⟨r', hr', hrx'⟩ := compass_moves llt hk h1 hc hg (a := 0.4) (by norm_num) e04'
    (fun i => (((oneVar iYaw 1 .unlimited).rescaled 0.1 1).z i).val)
    (by show (1 : ℝ) * 1 = 1; norm_num) ((oneVar iYaw 1 .unlimited).rescaled 0.1 1).R
    (by show (1 : ℝ) * (1 : Mat15) iYaw iYaw * 1 = 1; rw [Matrix.one_apply_eq]; norm_num)
  refine ⟨k, oneVar iYaw 1 .unlimited, driftL 1 4 * (driftL 1 4).transpose, ⟨fun _ => 0, false⟩,
    (r.1, r.2.1, ⟨sigmaPoints llt k 0 (driftL 1 4 * (driftL 1 4).transpose), false && !r.2.2⟩),
    (r'.1, r'.2.1, ⟨sigmaPoints llt k 0 (driftL (unitOf 0.1 1) 0.4 * (driftL (unitOf 0.1 1) 0.4).transpose), false && !r'.2.2⟩),
    hk, driftL_posDef (fun _ => one_pos) (by norm_num), ?_, ?_, ?_, ?_⟩
  · rw [run _ _ (oneVar_indices _ _ _) rfl, hr]
    rfl
  · rw [run _ _ hi' rfl, hP, hr']
    rfl
  · exact hrx.trans (by rw [e4])
  · exact hrx'.trans (by rw [e04])
end RL
