import Verif.Proofs.Turn
import Verif.Props.Origin
/-! # C92: the heading of the world frame does not matter -/

namespace RL
open Matrix

/-- The same state seen from a world frame turned by `-θ` about the vertical axis. -/
noncomputable def State.turned (θ : ℝ) (x : State) : State := fun i =>
  if i = 0 then Real.cos θ * x 0 - Real.sin θ * x 1
  else if i = 1 then Real.sin θ * x 0 + Real.cos θ * x 1
  else if i = 5 then x 5 + θ
  else x i

/-- The same measurement seen from that frame. -/
noncomputable def Payload.turned (θ : ℝ) (m : Payload) : Payload :=
  { m with
    z := fun i =>
      match m.z 0, m.z 1 with
      | .fin a, .fin b =>
        if i = 0 then .fin (Real.cos θ * a - Real.sin θ * b)
        else if i = 1 then .fin (Real.sin θ * a + Real.cos θ * b)
        else if i = 5 then (m.z 5).movedBy θ
        else m.z i
      | _, _ => if i = 5 then (m.z 5).movedBy θ else m.z i
    R := turnCov θ m.R }

/-- `x` and `y` are measured together, and no variance is below the floor 1e-9 in either frame. -/
structure Payload.Turnable (θ : ℝ) (m : Payload) : Prop where
  both : m.upd 0 = m.upd 1
  finite : m.upd 0 = true → (m.z 0).isFin = true ∧ (m.z 1).isFin = true
  floor : ∀ i, m.upd i = true → 1e-9 ≤ m.R i i ∧ 1e-9 ≤ turnCov θ m.R i i

/-- The same event seen from that frame. -/
noncomputable def Node.Event.turned {p : FilterPar} (θ : ℝ) : Node.Event (ekfCore p) → Node.Event (ekfCore p)
  | .sensor topic stamp z => .sensor topic stamp (Option.map (Payload.turned θ) z)
  | .setPose stamp now r => .setPose stamp now (Option.map (fun a => (Option.map (State.turned θ) a.1, turnCov θ a.2)) r)
  | e => e

/-- The same message sent, seen from that frame; headings count up to full turns. -/
inductive Out.Turned {p : FilterPar} (θ : ℝ) : Out (ekfCore p) → Out (ekfCore p) → Prop
  | odom (t : Int) {x x' : Option State} {P P' : Mat15} (hx : Option.Rel (SameTurned θ) x x') (hP : P' = turnCov θ P) :
      Out.Turned θ (.odom t x P) (.odom t x' P')
  | tf (t : Int) : Out.Turned θ (.tf t) (.tf t)
  | accel (t : Int) : Out.Turned θ (.accel t) (.accel t)

/-- The same configuration seen from that frame. -/
noncomputable def Cfg.turned {p : FilterPar} (θ : ℝ) (g : Cfg (ekfCore p)) : Cfg (ekfCore p) :=
  { g with
    initialState := Option.map (State.turned θ) g.initialState
    initialCov := turnCov θ g.initialCov
    processNoise := turnCov θ g.processNoise
    keptCov := turnCov θ g.keptCov
    keptNoise := turnCov θ g.keptNoise }

/-- Neither `reset` nor a `set_pose` that cannot be transformed; measurements as in `Payload.Turnable`. -/
def Node.Event.KeepsHeading {p : FilterPar} (θ : ℝ) : Node.Event (ekfCore p) → Prop
  | .reset => False
  | .setPose _ _ r => r ≠ none
  | .sensor _ _ z => ∀ m : Payload, z = some m → m.Turnable θ
  | _ => True

theorem State.turned_same (θ : ℝ) (x : State) : SameTurned θ x (x.turned θ) := by
  refine ⟨?_, ?_, ⟨0, ?_⟩, fun i h0 h1 h5 => ?_⟩ <;> simp [State.turned]
  simp [*]

theorem turnedZ {θ : ℝ} {m : Payload} (h : m.Turnable θ) (i : Fin 15) :
    (m.upd i = true → ((m.turned θ).z i).isFin = (m.z i).isFin ∧ ((m.turned θ).z i).isNan = (m.z i).isNan ∧
      ((m.turned θ).z i).isInf = (m.z i).isInf) := by
  intro hu
  simp only [Payload.turned]
  by_cases h0 : i = 0
  · subst h0
    obtain ⟨a, b⟩ := h.finite hu
    cases h0 : m.z 0 <;> cases h1 : m.z 1 <;> simp_all [Dbl.isFin, Dbl.isNan, Dbl.isInf]
  · by_cases h1 : i = 1
    · subst h1
      obtain ⟨a, b⟩ := h.finite (h.both.trans hu)
      cases h0 : m.z 0 <;> cases h1 : m.z 1 <;> simp_all [Dbl.isFin, Dbl.isNan, Dbl.isInf]
    · by_cases h5 : i = 5
      · subst h5
        cases m.z 0 <;> cases m.z 1 <;> cases m.z 5 <;> simp [Dbl.isFin, Dbl.isNan, Dbl.isInf, Dbl.movedBy]
      · cases m.z 0 <;> cases m.z 1 <;> simp [h0, h1, h5]

theorem indices_turned {θ : ℝ} {m : Payload} (h : m.Turnable θ) : (m.turned θ).indices = m.indices := by
  unfold Payload.indices
  refine List.filter_congr fun i _ => ?_
  have := turnedZ h i
  show (m.upd i && _ && _) = _
  cases hu : m.upd i with
  | false => rfl
  | true =>
    obtain ⟨-, a, b⟩ := this hu
    rw [a, b]

theorem mem_indices (m : Payload) (i : Fin 15) : i ∈ m.indices ↔ m.upd i = true ∧ (m.z i).isFin = true := by
  simp only [Payload.indices, List.mem_filter, Bool.and_eq_true]
  cases m.z i <;> simp [Dbl.isNan, Dbl.isInf, Dbl.isFin, List.mem_finRange]

/-- C92 for one correction. -/
theorem correct_turned {θ : ℝ} {m : Payload} (hm : m.Turnable θ) {x x' : State} (h : SameTurned θ x x') (P : Mat15) :
    Option.Rel (fun r r' => SameTurned θ r.1 r'.1 ∧ r'.2 = turnCov θ r.2)
      (Ekf.correct m x P) (Ekf.correct (m.turned θ) x' (turnCov θ P)) := by
  unfold Ekf.correct
  rw [indices_turned hm]
  have hup : ∀ a, m.upd (m.indices.get a) = true := fun a => ((mem_indices m _).1 (List.get_mem m.indices a)).1
  have hnd : m.indices.Nodup := (List.nodup_finRange 15).filter _
  have hc : (∃ a, m.indices.get a = 0) ↔ ∃ a, m.indices.get a = 1 := by
    rw [← List.mem_iff_get, ← List.mem_iff_get, mem_indices, mem_indices]
    constructor
    · rintro ⟨hu, -⟩
      exact ⟨hm.both ▸ hu, (hm.finite hu).2⟩
    · rintro ⟨hu, -⟩
      exact ⟨hm.both.trans hu, (hm.finite (hm.both.trans hu)).1⟩
  refine correctAt_turned (List.nodup_iff_injective_get.1 hnd) hc h _ _ m.R (fun a => (hm.floor _ (hup a)).1)
    (fun a => (hm.floor _ (hup a)).2) m.thresh P ?_
  have hy : (innovation m.indices.get (fun i => ((m.turned θ).z i).val) x') = fun a =>
      (turn θ).mulVec (fun i => if i = iRoll ∨ i = iPitch ∨ i = iYaw then normalizeAngle ((m.z i).val - x i)
        else (m.z i).val - x i) (m.indices.get a) := by
    funext a
    obtain ⟨v, hv⟩ := finite_of_mem m _ (List.get_mem m.indices a)
    have hu := hup a
    unfold innovation
    dsimp only
    revert hv hu
    generalize m.indices.get a = i
    intro hv hu
    rw [turn_mulVec]
    by_cases h0 : i = 0
    · subst h0
      obtain ⟨f0, f1⟩ := hm.finite hu
      cases e0 : m.z 0 <;> cases e1 : m.z 1 <;> simp_all [Dbl.isFin, Payload.turned, Dbl.val, h.px, iRoll, iPitch, iYaw]
      ring
    · by_cases h1 : i = 1
      · subst h1
        obtain ⟨f0, f1⟩ := hm.finite (hm.both.trans hu)
        cases e0 : m.z 0 <;> cases e1 : m.z 1 <;> simp_all [Dbl.isFin, Payload.turned, Dbl.val, h.py, iRoll, iPitch, iYaw]
        ring
      · by_cases h5 : i = 5
        · subst h5
          obtain ⟨k, hk⟩ := h.yaw
          have e : ((m.turned θ).z 5).val - x' 5 = (m.z 5).val - x 5 + ((-k : ℤ) : ℝ) * (2 * Real.pi) := by
            have : ((m.turned θ).z 5).val = (m.z 5).val + θ := by
              cases e0 : m.z 0 <;> cases e1 : m.z 1 <;> simp [Payload.turned, e0, e1, hv, Dbl.movedBy, Dbl.val]
            rw [this, hk]
            push_cast
            ring
          rw [e, normalizeAngle_add_two_pi]
          simp [iYaw]
        · have e : ((m.turned θ).z i).val - x' i = (m.z i).val - x i := by
            rw [h.rest i h0 h1 h5]
            cases e0 : m.z 0 <;> cases e1 : m.z 1 <;> simp [Payload.turned, e0, e1, h0, h1, h5]
          rw [e]
          simp [h0, h1]
  have he := turnSub_mul θ (List.nodup_iff_injective_get.1 hnd) hc
  have hH : ∀ v : State, (subH m.indices.get).mulVec v = fun a => v (m.indices.get a) := by
    intro v
    funext a
    simp [Matrix.mulVec, dotProduct, subH]
  have hyx : innovation m.indices.get (fun i => (m.z i).val) x = (subH m.indices.get).mulVec
      (fun i => if i = iRoll ∨ i = iPitch ∨ i = iYaw then normalizeAngle ((m.z i).val - x i) else (m.z i).val - x i) := by
    rw [hH]
    rfl
  rw [hy, hyx, Matrix.mulVec_mulVec, he, ← Matrix.mulVec_mulVec, hH]

/-- C92 for the first measurement: its state. -/
theorem initState_turned {θ : ℝ} {m : Payload} (hm : m.Turnable θ) {x x' : State} (h : SameTurned θ x x') :
    Option.Rel (SameTurned θ) (initState m x) (initState (m.turned θ) x') := by
  have hf : (∀ i, (m.turned θ).upd i = true → ((m.turned θ).z i).isFin = true) ↔ ∀ i, m.upd i = true → (m.z i).isFin = true := by
    refine forall_congr' fun i => imp_congr_right fun hu => ?_
    rw [(turnedZ hm i hu).1]
  unfold initState
  by_cases hA : ∀ i, m.upd i = true → (m.z i).isFin = true
  · rw [if_pos hA, if_pos (hf.2 hA)]
    refine .some ?_
    have hb := hm.both
    have hu : (m.turned θ).upd = m.upd := rfl
    rw [hu]
    refine ⟨?_, ?_, ?_, fun i h0 h1 h5 => ?_⟩
    · rw [← hb]
      cases e : m.upd 0 with
      | false => simpa using h.px
      | true =>
        obtain ⟨f0, f1⟩ := hm.finite e
        cases e0 : m.z 0 <;> cases e1 : m.z 1 <;> simp_all [Dbl.isFin, Payload.turned, Dbl.val]
    · rw [← hb]
      cases e : m.upd 0 with
      | false => simpa using h.py
      | true =>
        obtain ⟨f0, f1⟩ := hm.finite e
        cases e0 : m.z 0 <;> cases e1 : m.z 1 <;> simp_all [Dbl.isFin, Payload.turned, Dbl.val]
    · cases e : m.upd 5 with
      | false => simpa using h.yaw
      | true =>
        have f := hA 5 e
        refine ⟨0, ?_⟩
        cases e0 : m.z 0 <;> cases e1 : m.z 1 <;> cases e5 : m.z 5 <;> simp_all [Dbl.isFin, Payload.turned, Dbl.val, Dbl.movedBy]
    · rw [h.rest i h0 h1 h5]
      cases e0 : m.z 0 <;> cases e1 : m.z 1 <;> simp [Payload.turned, e0, e1, h0, h1, h5]
  · rw [if_neg hA, if_neg fun h' => hA (hf.1 h')]
    exact .none

/-- C92 for the first measurement: its covariance. -/
theorem initCov_turned {θ : ℝ} {m : Payload} (hm : m.Turnable θ) (P : Mat15) :
    initCov (m.turned θ) (turnCov θ P) = turnCov θ (initCov m P) := by
  ext i j
  have hb := hm.both
  have hu : (m.turned θ).upd = m.upd := rfl
  have hR : (m.turned θ).R = turnCov θ m.R := rfl
  simp only [initCov, Matrix.of_apply, hu, hR, turnCov_apply]
  by_cases i0 : i = 0
  · subst i0
    by_cases j0 : j = 0
    · subst j0
      cases h : m.upd 0 <;> simp [h, ← hb]
    · by_cases j1 : j = 1
      · subst j1
        cases h : m.upd 0 <;> simp [h, ← hb]
      · cases h : m.upd 0 <;> cases m.upd j <;> simp [h, ← hb, j0, j1]
  · by_cases i1 : i = 1
    · subst i1
      by_cases j0 : j = 0
      · subst j0
        cases h : m.upd 0 <;> simp [h, ← hb]
      · by_cases j1 : j = 1
        · subst j1
          cases h : m.upd 0 <;> simp [h, ← hb]
        · cases h : m.upd 0 <;> cases m.upd j <;> simp [h, ← hb, j0, j1]
    · by_cases j0 : j = 0
      · subst j0
        cases h : m.upd 0 <;> cases m.upd i <;> simp [h, ← hb, i0, i1]
      · by_cases j1 : j = 1
        · subst j1
          cases h : m.upd 0 <;> cases m.upd i <;> simp [h, ← hb, i0, i1]
        · simp [i0, i1, j0, j1]

/-- The two filters treat what they see in the same way. -/
noncomputable def turnedSim (p : FilterPar) (θ : ℝ) : CoreSim (ekfCore p) (ekfCore p) 0 where
  low := 0
  X x x' := Option.Rel (SameTurned θ) x x'
  Cov P P' := P' = turnCov θ P
  Ext _ _ := True
  Par q q' := q' = turnCov θ q
  Z z z' := z' = Payload.turned θ z ∧ z.Turnable θ
  Ctl u t u' t' := u' = u ∧ t' = t
  predict := by
    rintro q _ _ _ u t x x' P _ e e' ref delta - rfl ⟨rfl, rfl⟩ hx rfl -
    cases hx with
    | none => exact ⟨.none, rfl, trivial⟩
    | some hx =>
      rename_i x x'
      have h := predict_turned p hx q u t ref (toSec delta) P
      have e1 : (ekfCore p).predict q u t ref delta (some x, P, e) = match Ekf.predict p q u t ref (toSec delta) x P with
        | some r => (some r.1, r.2, ())
        | none => (none, P, ()) := rfl
      have e2 : (ekfCore p).predict (turnCov θ q) u t (ref + 0) delta (some x', turnCov θ P, e') =
          match Ekf.predict p (turnCov θ q) u t (ref + 0) (toSec delta) x' (turnCov θ P) with
        | some r => (some r.1, r.2, ())
        | none => (none, turnCov θ P, ()) := rfl
      rw [e1, e2, Int.add_zero]
      generalize Ekf.predict p q u t ref (toSec delta) x P = r at h
      generalize Ekf.predict p (turnCov θ q) u t ref (toSec delta) x' (turnCov θ P) = r' at h
      cases h with
      | none => exact ⟨.none, rfl, trivial⟩
      | some h => exact ⟨.some h.1, h.2, trivial⟩
  correct := by
    rintro z _ x x' P _ e e' ⟨rfl, hz⟩ hx rfl -
    cases hx with
    | none => exact ⟨.none, rfl, trivial⟩
    | some hx =>
      rename_i x x'
      have h := correct_turned hz hx P
      have e1 : (ekfCore p).correct z (some x, P, e) = match Ekf.correct z x P with
        | some r => (some r.1, r.2, ())
        | none => (none, P, ()) := rfl
      have e2 : (ekfCore p).correct (Payload.turned θ z) (some x', turnCov θ P, e') =
          match Ekf.correct (Payload.turned θ z) x' (turnCov θ P) with
        | some r => (some r.1, r.2, ())
        | none => (none, turnCov θ P, ()) := rfl
      rw [e1, e2]
      generalize Ekf.correct z x P = r at h
      generalize Ekf.correct (Payload.turned θ z) x' (turnCov θ P) = r' at h
      cases h with
      | none => exact ⟨.none, rfl, trivial⟩
      | some h => exact ⟨.some h.1, h.2, trivial⟩
  initX := by
    rintro z _ x x' ⟨rfl, hz⟩ hx
    cases hx with
    | none => exact .none
    | some hx => exact initState_turned hz hx
  initCov := by
    rintro z _ P _ ⟨rfl, hz⟩ rfl
    exact initCov_turned hz P

/-- C92: a node told everything as seen from a world frame with another heading says everything as seen from that frame:
the same messages, with turned positions, headings and covariances, whatever happens except `reset`, a `set_pose` that
cannot be transformed, a measurement of only one of `x` and `y`, and a variance below the floor of 1e-9.  For all queue
implementations that break ties in the same way. -/
theorem C92_any_queue_partial (p : FilterPar) (θ : ℝ) (P P' : MQueue (ekfCore p)) (κ : QueueSim (turnedSim p θ) P P')
    (cfg : Cfg (ekfCore p)) (u : Fin 6 → ℝ) (now : Int) (es : List (Node.Event (ekfCore p)))
    (hes : ∀ e ∈ es, e.KeepsHeading θ) :
    List.Forall₂ (Out.Turned θ) (Node.run cfg (Node.start cfg P () u now) es).2
      (Node.run (cfg.turned θ) (Node.start (cfg.turned θ) P' () u now) (es.map (Node.Event.turned θ))).2 := by
  have hg : CfgSim (turnedSim p θ) cfg (cfg.turned θ) := ⟨rfl, rfl, rfl, rfl, rfl, rfl, rfl, rfl, rfl, rfl, rfl, rfl⟩
  have same : ∀ x : Option State, Option.Rel (SameTurned θ) x (Option.map (State.turned θ) x) := by
    intro x
    cases x with
    | none => exact .none
    | some x => exact .some (x.turned_same θ)
  have he : List.Forall₂ (EventSim (turnedSim p θ)) es (es.map (Node.Event.turned θ)) := by
    rw [List.forall₂_map_right_iff, List.forall₂_same]
    intro e he
    have hk := hes e he
    have pos : ∀ t, Pos 0 0 t := fun t => Or.inl rfl
    cases e with
    | sensor topic stamp z =>
      have := EventSim.sensor (σ := turnedSim p θ) topic (stamp := stamp) (z := z) (z' := Option.map (Payload.turned θ) z)
        (pos _) (by cases z with
          | none => exact .none
          | some z => exact .some ⟨rfl, hk z rfl⟩)
      rwa [Int.add_zero] at this
    | control v t => exact .control ⟨rfl, rfl⟩
    | setPose stamp now r =>
      cases r with
      | none => exact absurd rfl hk
      | some r =>
        have := EventSim.setPose (σ := turnedSim p θ) (stamp := stamp) (now := now) (r := some r)
          (r' := some (Option.map (State.turned θ) r.1, turnCov θ r.2)) (pos _) (pos _) (.some ⟨same r.1, rfl⟩)
          (fun h => by cases h)
        rwa [Int.add_zero, Int.add_zero] at this
    | reset => exact absurd hk id
    | toggle on => exact .toggle on
    | enable => exact .enable
    | tick now now2 tfOk =>
      have := EventSim.tick (σ := turnedSim p θ) tfOk (pos now) (pos now2)
      rwa [Int.add_zero, Int.add_zero] at this
  have hs : NodeSim κ (Node.start cfg P () u now) (Node.start (cfg.turned θ) P' () u now) := by
    have := NodeSim.start (κ := κ) (g := cfg) (g' := cfg.turned θ) hg (same _) rfl ⟨rfl, rfl⟩ (e := ()) (e' := ()) trivial
      (u := u) (u' := u) ⟨rfl, rfl⟩ now
    rwa [Int.add_zero] at this
  refine List.Forall₂.imp ?_ (NodeSim.run hg he hs).2
  intro o o' h
  cases h with
  | odom hx hP => rw [Int.add_zero]; exact .odom _ hx hP
  | tf t => rw [Int.add_zero]; exact .tf t
  | accel t => rw [Int.add_zero]; exact .accel t

/-- C92 for the queue that keeps its elements sorted. -/
theorem C92_heading_partial (p : FilterPar) (θ : ℝ) (cfg : Cfg (ekfCore p)) (u : Fin 6 → ℝ) (now : Int)
    (es : List (Node.Event (ekfCore p))) (hes : ∀ e ∈ es, e.KeepsHeading θ) :
    List.Forall₂ (Out.Turned θ) (Node.run cfg (Node.start cfg (PQueue.sortedList _ _) () u now) es).2
      (Node.run (cfg.turned θ) (Node.start (cfg.turned θ) (PQueue.sortedList _ _) () u now) (es.map (Node.Event.turned θ))).2 :=
  C92_any_queue_partial p θ _ _ (QueueSim.sorted _) cfg u now es hes

theorem turned_vx (θ : ℝ) : Payload.turned θ vxZ = vxZ := by
  unfold Payload.turned vxZ demoZ
  rw [turnCov_one]
  congr 1
  funext i
  by_cases h : i = 5
  · subst h
    rfl
  · simp [h, iVx]

/-- C92 fails across a `reset`: the robot then looks along the x axis of the world frame, wherever that points. -/
theorem C92_reset : ∃ (p : FilterPar) (θ : ℝ) (cfg : Cfg (ekfCore p)) (u : Fin 6 → ℝ) (now : Int)
    (es : List (Node.Event (ekfCore p))),
    ¬ List.Forall₂ (Out.Turned θ) (Node.run cfg (Node.start cfg (PQueue.sortedList _ _) () u now) es).2
      (Node.run (cfg.turned θ) (Node.start (cfg.turned θ) (PQueue.sortedList _ _) () u now) (es.map (Node.Event.turned θ))).2 := by
  refine ⟨plainPar, 1, demoCfg plainPar, 0, 0, [.reset, .sensor "t" 1 (some vxZ), .tick 2 2 false], ?_⟩
  have run : ∀ cfg : Cfg (ekfCore plainPar), cfg.disabledAtStartup = false → cfg.smooth = true → cfg.predictToCurrent = false →
      cfg.permitCorrected = false → cfg.publishAccel = true →
      ∃ (P : Mat15),
      (Node.run cfg (Node.start cfg (PQueue.sortedList _ _) () (0 : Fin 6 → ℝ) 0) [.reset, .sensor "t" 1 (some vxZ), .tick 2 2 false]).2 =
      [.odom 1 (initState vxZ 0) P, .accel 1] := by
    intro cfg h1 h2 h3 h4 h5
    refine ⟨initCov vxZ cfg.keptCov, ?_⟩
    simp [Node.run, Node.step, Node.start, Node.reset, Node.sensor, Node.enqueue, Node.periodic, Node.advance, Node.integrate,
      Node.drain, Node.publish, PQueue.sortedList, PQueue.insertSorted, PQueue.size, Filt.processMeasurement, Filt.reset,
      Filt.setCov, Filt.setPar, Filt.setSensorTimeout, h1, h2, h3, h4, h5, ekfCore]
    rfl
  obtain ⟨P, e⟩ := run (demoCfg plainPar) rfl rfl rfl rfl rfl
  obtain ⟨P', e'⟩ := run ((demoCfg plainPar).turned 1) rfl rfl rfl rfl rfl
  have em : ([.reset, .sensor "t" 1 (some vxZ), .tick 2 2 false] : List (Node.Event (ekfCore plainPar))).map
      (Node.Event.turned 1) = [.reset, .sensor "t" 1 (some vxZ), .tick 2 2 false] := by
    show ([.reset, .sensor "t" 1 (some (Payload.turned 1 vxZ)), .tick 2 2 false] :
      List (Node.Event (ekfCore plainPar))) = _
    rw [turned_vx]
  rw [em, e, e', init_vx]
  intro h
  cases h with
  | cons h _ =>
    cases h with
    | odom _ hx _ =>
      cases hx with
      | some hx =>
        obtain ⟨k, hk⟩ := hx.yaw
        simp only [iVx, Fin.reduceEq, if_false] at hk
        have hp := Real.two_le_pi
        have h1 : -(1 : ℝ) = k * (2 * Real.pi) := by linarith
        rcases lt_trichotomy k 0 with hneg | rfl | hpos
        · have : (k : ℝ) ≤ -1 := by exact_mod_cast (by omega : k ≤ -1)
          nlinarith
        · simp at h1
        · have : (1 : ℝ) ≤ k := by exact_mod_cast (by omega : 1 ≤ k)
          nlinarith

/-- A measurement of the pose in the plane, a control input and a known pose, seen from any heading. -/
example (θ : ℝ) : ∀ e ∈ ([.sensor "t" 1 (some (demoZ (fun i => decide (i = iX ∨ i = iY ∨ i = iYaw)) (fun _ => .fin 1))),
    .control (0 : Fin 6 → ℝ) 1, .setPose 2 2 (some (some 0, (1 : Mat15))), .tick 3 3 true] :
    List (Node.Event (ekfCore demoPar))), e.KeepsHeading θ := by
  intro e he
  simp only [List.mem_cons, List.not_mem_nil, or_false] at he
  rcases he with rfl | rfl | rfl | rfl
  · intro m hm
    injection hm with hm
    subst hm
    refine ⟨rfl, fun _ => ⟨rfl, rfl⟩, fun i _ => ?_⟩
    show 1e-9 ≤ (1 : Mat15) i i ∧ 1e-9 ≤ turnCov θ 1 i i
    rw [turnCov_one, Matrix.one_apply_eq]
    norm_num
  · trivial
  · simp [Node.Event.KeepsHeading]
  · trivial

end RL
