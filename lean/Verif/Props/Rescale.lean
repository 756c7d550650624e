import Verif.Proofs.Rescale
import Verif.Props.Heading
import Verif.Props.Commute
/-! # C107 and C108: the unit of length does not matter, and left and right are treated alike -/

namespace RL
open Matrix

/-- The same state in other units of length (`l` new units make one old unit) or in a mirror (`s = -1`). -/
def State.rescaled (l s : ℝ) (x : State) : State := fun i => unitOf l s i * x i

/-- The same measurement. -/
noncomputable def Payload.rescaled (l s : ℝ) (m : Payload) : Payload :=
  { m with z := fun i => (m.z i).smul (unitOf l s i), R := rescaleCov l s m.R }

/-- The same command. -/
def ctlRescaled (l s : ℝ) (u : Fin 6 → ℝ) : Fin 6 → ℝ := fun c => unitOf l s (velIdx c) * u c

/-- The same event. -/
noncomputable def Node.Event.rescaled {p : FilterPar} (l s : ℝ) : Node.Event (ekfCore p) → Node.Event (ekfCore p)
  | .sensor topic stamp z => .sensor topic stamp (Option.map (Payload.rescaled l s) z)
  | .control u t => .control (ctlRescaled l s u) t
  | .setPose stamp now r => .setPose stamp now (Option.map (fun a => (Option.map (State.rescaled l s) a.1, rescaleCov l s a.2)) r)
  | e => e

/-- The same message sent. -/
def Out.rescaled {p : FilterPar} (l s : ℝ) : Out (ekfCore p) → Out (ekfCore p)
  | .odom t x P => .odom t (Option.map (State.rescaled l s) x) (rescaleCov l s P)
  | o => o

/-- The same message sent; angles count up to full turns. -/
inductive Out.Rescaled {p : FilterPar} (l s : ℝ) : Out (ekfCore p) → Out (ekfCore p) → Prop
  | odom (t : Int) {x x' : Option State} {P P' : Mat15} (hx : Option.Rel (SameScaled l s) x x') (hP : P' = rescaleCov l s P) :
      Out.Rescaled l s (.odom t x P) (.odom t x' P')
  | tf (t : Int) : Out.Rescaled l s (.tf t) (.tf t)
  | accel (t : Int) : Out.Rescaled l s (.accel t) (.accel t)

/-- The same configuration. -/
noncomputable def Cfg.rescaled {p : FilterPar} (l s : ℝ) (g : Cfg (ekfCore p)) : Cfg (ekfCore p) :=
  { g with
    initialState := Option.map (State.rescaled l s) g.initialState
    initialCov := rescaleCov l s g.initialCov
    processNoise := rescaleCov l s g.processNoise
    keptCov := rescaleCov l s g.keptCov
    keptNoise := rescaleCov l s g.keptNoise
    ctl0 := ctlRescaled l s g.ctl0 }

/-- In other units, no measured variance is below the floor 1e-9 in either of them; in the mirror, roll and yaw are not
measured. -/
structure Payload.Rescalable (l s : ℝ) (m : Payload) : Prop where
  floor : l = 1 ∨ ∀ i, m.upd i = true → 1e-9 ≤ m.R i i ∧ 1e-9 ≤ rescaleCov l s m.R i i
  level : s = 1 ∨ m.upd iRoll = false ∧ m.upd iYaw = false

/-- Measurements as in `Payload.Rescalable`; in other units no `set_pose` that cannot be transformed. -/
def Node.Event.Rescalable {p : FilterPar} (l s : ℝ) : Node.Event (ekfCore p) → Prop
  | .setPose _ _ r => l = 1 ∨ r ≠ none
  | .sensor _ _ z => ∀ m : Payload, z = some m → m.Rescalable l s
  | _ => True

variable {l s : ℝ}

theorem State.rescaled_same (x : State) : SameScaled l s x (x.rescaled l s) :=
  ⟨0, fun _ _ => rfl, fun _ => rfl, by funext i; simp [State.rescaled]⟩

theorem rescaledZ (h0 : ∀ i, unitOf l s i ≠ 0) (m : Payload) (i : Fin 15) :
    ((m.rescaled l s).z i).isFin = (m.z i).isFin ∧ ((m.rescaled l s).z i).isNan = (m.z i).isNan ∧
      ((m.rescaled l s).z i).isInf = (m.z i).isInf ∧
      ((m.z i).isFin = true → ((m.rescaled l s).z i).val = unitOf l s i * (m.z i).val) := by
  show ((m.z i).smul _).isFin = _ ∧ ((m.z i).smul _).isNan = _ ∧ ((m.z i).smul _).isInf = _ ∧ (_ → ((m.z i).smul _).val = _)
  cases m.z i with
  | fin a => exact ⟨rfl, rfl, rfl, fun _ => rfl⟩
  | nan => exact ⟨rfl, rfl, rfl, fun h => by cases h⟩
  | inf b => simp [Dbl.smul, h0 i, Dbl.isFin, Dbl.isNan, Dbl.isInf]

theorem indices_rescaled (h0 : ∀ i, unitOf l s i ≠ 0) (m : Payload) : (m.rescaled l s).indices = m.indices := by
  unfold Payload.indices
  refine List.filter_congr fun i _ => ?_
  obtain ⟨-, a, b, -⟩ := rescaledZ h0 m i
  rw [a, b]
  rfl

theorem sanitize_above {v : ℝ} (h : 1e-9 ≤ v) : sanitize v = v := by
  have h0 : ¬ v < 0 := by
    have : (0 : ℝ) < 1e-9 := by norm_num
    linarith
  unfold sanitize
  simp only [if_neg h0, if_neg (not_lt.2 h)]

theorem normalizeAngle_neg {a : ℝ} (h : normalizeAngle a ≠ Real.pi) : normalizeAngle (-a) = -normalizeAngle a := by
  obtain ⟨h1, h2, k, h3⟩ := normalizeAngle_spec a
  have h2' : normalizeAngle a < Real.pi := lt_of_le_of_ne h2 h
  have e : -a = -normalizeAngle a + ((-k : ℤ) : ℝ) * (2 * Real.pi) := by
    rw [h3]
    push_cast
    ring
  rw [e, normalizeAngle_add_two_pi]
  exact normalizeAngle_of_mem (by linarith) (by linarith)

/-- One correction in other units or in the mirror, whatever is measured; in the mirror no measured roll or yaw is exactly
half a turn away from the estimate. -/
theorem correct_rescaled (hl : 0 < l) (hs : s = 1 ∨ s = -1) {m : Payload}
    (hf : l = 1 ∨ ∀ i, m.upd i = true → 1e-9 ≤ m.R i i ∧ 1e-9 ≤ rescaleCov l s m.R i i)
    {x x' : State} (h : SameScaled l s x x') (P : Mat15)
    (hh : s = 1 ∨ ∀ i ∈ m.indices, i = iRoll ∨ i = iYaw → normalizeAngle ((m.z i).val - x i) ≠ Real.pi) :
    Option.Rel (fun r r' => SameScaled l s r.1 r'.1 ∧ r'.2 = rescaleCov l s r.2)
      (Ekf.correct m x P) (Ekf.correct (m.rescaled l s) x' (rescaleCov l s P)) := by
  have h0 := unitOf_ne_zero hl hs
  unfold Ekf.correct
  rw [indices_rescaled h0]
  refine correctAt_scaled hl hs h _ _ m.R ?_ m.thresh P ?_
  · intro a
    have hu := ((mem_indices m _).1 (List.get_mem m.indices a)).1
    generalize m.indices.get a = i at hu
    rcases hf with rfl | hf
    · have e : ∀ v : ℝ, unitOf 1 s i * v * unitOf 1 s i = v := by
        intro v
        rw [mul_right_comm, unitOf_sq hs, one_mul]
      rw [e, e]
    · obtain ⟨a, b⟩ := hf i hu
      rw [sanitize_above a]
      exact sanitize_above b
  · funext a
    have hmem := List.get_mem m.indices a
    have hfin := ((mem_indices m _).1 hmem).2
    unfold innovation
    generalize m.indices.get a = i at hmem hfin
    obtain ⟨-, -, -, hv⟩ := rescaledZ h0 m i
    have hv := hv hfin
    dsimp only
    obtain ⟨k, hk, hk1, hx'⟩ := h
    have hxi : x' i = unitOf l s i * x i + k i * (2 * Real.pi) := congrFun hx' i
    rw [hv, hxi]
    by_cases hi : i = iRoll ∨ i = iPitch ∨ i = iYaw
    · rw [if_pos hi, if_pos hi]
      have e : unitOf l s i * (m.z i).val - (unitOf l s i * x i + k i * (2 * Real.pi)) =
          unitOf l s i * ((m.z i).val - x i) + ((-k i : ℤ) : ℝ) * (2 * Real.pi) := by
        push_cast
        ring
      rw [e, normalizeAngle_add_two_pi]
      by_cases h1 : unitOf l s i = 1
      · rw [h1, one_mul, one_mul]
      · have hs' : s = -1 := by
          rcases hs with rfl | hs
          · exact absurd (by rcases hi with rfl | rfl | rfl <;> rfl) h1
          · exact hs
        subst hs'
        have hry : i = iRoll ∨ i = iYaw := by
          rcases hi with rfl | rfl | rfl
          · exact Or.inl rfl
          · exact absurd rfl h1
          · exact Or.inr rfl
        have hu : unitOf l (-1) i = -1 := by rcases hry with rfl | rfl <;> rfl
        rcases hh with hh | hh
        · norm_num at hh
        · rw [hu, neg_one_mul, neg_one_mul]
          exact normalizeAngle_neg (hh i hmem hry)
    · rw [if_neg hi, if_neg hi, hk i hi]
      push_cast
      ring

/-- The first measurement: its state. -/
theorem initState_rescaled (h0 : ∀ i, unitOf l s i ≠ 0) (m : Payload) {x x' : State} (h : SameScaled l s x x') :
    Option.Rel (SameScaled l s) (initState m x) (initState (m.rescaled l s) x') := by
  have hf : (∀ i, (m.rescaled l s).upd i = true → ((m.rescaled l s).z i).isFin = true) ↔
      ∀ i, m.upd i = true → (m.z i).isFin = true := by
    refine forall_congr' fun i => imp_congr_right fun hu => ?_
    rw [(rescaledZ h0 m i).1]
  unfold initState
  by_cases hA : ∀ i, m.upd i = true → (m.z i).isFin = true
  · rw [if_pos hA, if_pos (hf.2 hA)]
    refine .some ?_
    obtain ⟨k, hk, hk1, hx'⟩ := h
    refine ⟨fun i => if m.upd i = true then 0 else k i, fun i hi => ?_, fun h => ?_, ?_⟩
    · dsimp only
      split
      · rfl
      · exact hk i hi
    · funext i
      rw [hk1 h]
      simp
    · funext i
      show (if m.upd i = true then ((m.rescaled l s).z i).val else x' i) = unitOf l s i *
        (if m.upd i = true then (m.z i).val else x i) + ((if m.upd i = true then 0 else k i : ℤ) : ℝ) * (2 * Real.pi)
      by_cases hu : m.upd i = true
      · rw [if_pos hu, if_pos hu, if_pos hu, (rescaledZ h0 m i).2.2.2 (hA i hu)]
        simp
      · rw [if_neg hu, if_neg hu, if_neg hu, hx']
  · rw [if_neg hA, if_neg fun h' => hA (hf.1 h')]
    exact .none

/-- The first measurement: its covariance. -/
theorem initCov_rescaled (m : Payload) (P : Mat15) :
    initCov (m.rescaled l s) (rescaleCov l s P) = rescaleCov l s (initCov m P) := by
  ext i j
  have hu : (m.rescaled l s).upd = m.upd := rfl
  have hR : (m.rescaled l s).R = rescaleCov l s m.R := rfl
  simp only [initCov, rescaleCov, Matrix.of_apply, hu, hR]
  split <;> rfl

/-- The two filters treat what they see in the same way. -/
noncomputable def rescaledSim (p : FilterPar) (hl : 0 < l) (hs : s = 1 ∨ s = -1) (hp : p.Fits l s) :
    CoreSim (ekfCore p) (ekfCore p) 0 where
  low := 0
  X x x' := Option.Rel (SameScaled l s) x x'
  Cov P P' := P' = rescaleCov l s P
  Ext _ _ := True
  Par q q' := q' = rescaleCov l s q
  Z z z' := z' = Payload.rescaled l s z ∧ z.Rescalable l s
  Ctl u t u' t' := u' = ctlRescaled l s u ∧ t' = t
  predict := by
    rintro q _ u _ _ t x x' P _ e e' ref delta - rfl ⟨rfl, rfl⟩ hx rfl -
    cases hx with
    | none => exact ⟨.none, rfl, trivial⟩
    | some hx =>
      rename_i x x'
      have h := predict_scaled hs hp hx q u t ref (toSec delta) P
      have e1 : (ekfCore p).predict q u t ref delta (some x, P, e) = match Ekf.predict p q u t ref (toSec delta) x P with
        | some r => (some r.1, r.2, ())
        | none => (none, P, ()) := rfl
      have e2 : (ekfCore p).predict (rescaleCov l s q) (ctlRescaled l s u) t (ref + 0) delta (some x', rescaleCov l s P, e') =
          match Ekf.predict p (rescaleCov l s q) (ctlRescaled l s u) t (ref + 0) (toSec delta) x' (rescaleCov l s P) with
        | some r => (some r.1, r.2, ())
        | none => (none, rescaleCov l s P, ()) := rfl
      rw [e1, e2, Int.add_zero]
      have h : Option.Rel _ (Ekf.predict p q u t ref (toSec delta) x P)
        (Ekf.predict p (rescaleCov l s q) (ctlRescaled l s u) t ref (toSec delta) x' (rescaleCov l s P)) := h
      generalize Ekf.predict p q u t ref (toSec delta) x P = r at h
      generalize Ekf.predict p (rescaleCov l s q) (ctlRescaled l s u) t ref (toSec delta) x' (rescaleCov l s P) = r' at h
      cases h with
      | none => exact ⟨.none, rfl, trivial⟩
      | some h => exact ⟨.some h.1, h.2, trivial⟩
  correct := by
    rintro z _ x x' P _ e e' ⟨rfl, hz⟩ hx rfl -
    cases hx with
    | none => exact ⟨.none, rfl, trivial⟩
    | some hx =>
      rename_i x x'
      have h := correct_rescaled hl hs hz.floor hx P (hz.level.imp_right fun hz i hi hry => by
        have hu := ((mem_indices z i).1 hi).1
        rcases hry with rfl | rfl
        · rw [hz.1] at hu; cases hu
        · rw [hz.2] at hu; cases hu)
      have e1 : (ekfCore p).correct z (some x, P, e) = match Ekf.correct z x P with
        | some r => (some r.1, r.2, ())
        | none => (none, P, ()) := rfl
      have e2 : (ekfCore p).correct (Payload.rescaled l s z) (some x', rescaleCov l s P, e') =
          match Ekf.correct (Payload.rescaled l s z) x' (rescaleCov l s P) with
        | some r => (some r.1, r.2, ())
        | none => (none, rescaleCov l s P, ()) := rfl
      rw [e1, e2]
      generalize Ekf.correct z x P = r at h
      generalize Ekf.correct (Payload.rescaled l s z) x' (rescaleCov l s P) = r' at h
      cases h with
      | none => exact ⟨.none, rfl, trivial⟩
      | some h => exact ⟨.some h.1, h.2, trivial⟩
  initX := by
    rintro z _ x x' ⟨rfl, hz⟩ hx
    cases hx with
    | none => exact .none
    | some hx => exact initState_rescaled (unitOf_ne_zero hl hs) z hx
  initCov := by
    rintro z _ P _ ⟨rfl, hz⟩ rfl
    exact initCov_rescaled z P

theorem rescaled_setPoseCov (hs : s = 1 ∨ s = -1) : rescaleCov 1 s ((1e-6 : ℝ) • (1 : Mat15)) = (1e-6 : ℝ) • 1 := by
  rw [rescaleCov_smul]
  congr 1
  ext i j
  simp only [rescaleCov, Matrix.of_apply, Matrix.one_apply]
  split
  · rename_i h
    subst h
    rw [mul_one, unitOf_sq hs]
  · simp

theorem run_rescaled (p : FilterPar) (hl : 0 < l) (hs : s = 1 ∨ s = -1) (hp : p.Fits l s) (P P' : MQueue (ekfCore p))
    (κ : QueueSim (rescaledSim p hl hs hp) P P') (cfg : Cfg (ekfCore p)) (u : Fin 6 → ℝ) (now : Int)
    (es : List (Node.Event (ekfCore p))) (hes : ∀ e ∈ es, e.Rescalable l s) :
    List.Forall₂ (Out.Rescaled l s) (Node.run cfg (Node.start cfg P () u now) es).2
      (Node.run (cfg.rescaled l s) (Node.start (cfg.rescaled l s) P' () (ctlRescaled l s u) now)
        (es.map (Node.Event.rescaled l s))).2 := by
  have hg : CfgSim (rescaledSim p hl hs hp) cfg (cfg.rescaled l s) :=
    ⟨rfl, rfl, rfl, rfl, rfl, rfl, rfl, rfl, rfl, rfl, rfl, rfl⟩
  have same : ∀ x : Option State, Option.Rel (SameScaled l s) x (Option.map (State.rescaled l s) x) := by
    intro x
    cases x with
    | none => exact .none
    | some x => exact .some x.rescaled_same
  have zero : Option.Rel (SameScaled l s) (some (0 : State)) (some (0 : State)) :=
    .some ⟨0, fun _ _ => rfl, fun _ => rfl, by funext i; simp⟩
  have he : List.Forall₂ (EventSim (rescaledSim p hl hs hp)) es (es.map (Node.Event.rescaled l s)) := by
    rw [List.forall₂_map_right_iff, List.forall₂_same]
    intro e he
    have hk := hes e he
    have pos : ∀ t, Pos 0 0 t := fun t => Or.inl rfl
    cases e with
    | sensor topic stamp z =>
      have := EventSim.sensor (σ := rescaledSim p hl hs hp) topic (stamp := stamp) (z := z)
        (z' := Option.map (Payload.rescaled l s) z)
        (pos _) (by cases z with
          | none => exact .none
          | some z => exact .some ⟨rfl, hk z rfl⟩)
      rwa [Int.add_zero] at this
    | control v t => exact .control ⟨rfl, rfl⟩
    | setPose stamp now r =>
      have := EventSim.setPose (σ := rescaledSim p hl hs hp) (stamp := stamp) (now := now) (r := r)
        (r' := Option.map (fun a => (Option.map (State.rescaled l s) a.1, rescaleCov l s a.2)) r) (pos _) (pos _)
        (by cases r with
          | none => exact .none
          | some r => exact .some ⟨same r.1, rfl⟩)
        (fun h => ⟨zero, by
          rcases hk with rfl | hk
          · exact (rescaled_setPoseCov hs).symm
          · exact absurd h hk⟩)
      rwa [Int.add_zero, Int.add_zero] at this
    | reset => exact .reset zero fun h => ⟨h.1, rfl⟩
    | toggle on => exact .toggle on
    | enable => exact .enable
    | tick now now2 tfOk =>
      have := EventSim.tick (σ := rescaledSim p hl hs hp) tfOk (pos now) (pos now2)
      rwa [Int.add_zero, Int.add_zero] at this
  have hst : NodeSim κ (Node.start cfg P () u now) (Node.start (cfg.rescaled l s) P' () (ctlRescaled l s u) now) := by
    have := NodeSim.start (κ := κ) (g := cfg) (g' := cfg.rescaled l s) hg (same _) rfl ⟨rfl, rfl⟩ (e := ()) (e' := ()) trivial
      (u := u) (u' := ctlRescaled l s u) ⟨rfl, rfl⟩ now
    rwa [Int.add_zero] at this
  refine List.Forall₂.imp ?_ (NodeSim.run hg he hst).2
  intro o o' h
  cases h with
  | odom hx hP => rw [Int.add_zero]; exact .odom _ hx hP
  | tf t => rw [Int.add_zero]; exact .tf t
  | accel t => rw [Int.add_zero]; exact .accel t

theorem rescaled_exact {p : FilterPar} {os os' : List (Out (ekfCore p))} (h : List.Forall₂ (Out.Rescaled l 1) os os') :
    os' = os.map (Out.rescaled l 1) := by
  induction h with
  | nil => rfl
  | cons hab _ ih =>
    rw [List.map_cons, ← ih]
    congr 1
    cases hab with
    | odom t hx hP =>
      rw [hP]
      cases hx with
      | none => rfl
      | some hx =>
        rename_i x x'
        obtain ⟨k, -, hk, hx⟩ := hx
        have e : x' = State.rescaled l 1 x := by
          rw [hx, hk rfl]
          funext i
          simp [State.rescaled]
        rw [e]
        rfl
    | tf t => rfl
    | accel t => rfl

/-- C107: a node told every length in other units, and configured in them, says everything in those units: the same
messages, with scaled positions, velocities and accelerations, equal angles, and covariances scaled to match, whatever
happens, when nothing is controlled, the process noise is constant, no `set_pose` fails and no measured variance is below
1e-9 in either unit.  For all queue implementations that break ties in the same way. -/
theorem C107_any_queue_partial (p : FilterPar) (hl : 0 < l) (hc : p.useControl = false) (hd : p.dynamic = false)
    (P P' : MQueue (ekfCore p)) (κ : QueueSim (rescaledSim p hl (Or.inl rfl) ⟨Or.inr ⟨hc, hd⟩, Or.inl rfl⟩) P P')
    (cfg : Cfg (ekfCore p)) (u : Fin 6 → ℝ) (now : Int) (es : List (Node.Event (ekfCore p)))
    (hes : ∀ e ∈ es, e.Rescalable l 1) :
    (Node.run (cfg.rescaled l 1) (Node.start (cfg.rescaled l 1) P' () (ctlRescaled l 1 u) now)
        (es.map (Node.Event.rescaled l 1))).2 =
      (Node.run cfg (Node.start cfg P () u now) es).2.map (Out.rescaled l 1) :=
  rescaled_exact (run_rescaled p hl _ _ P P' κ cfg u now es hes)

/-- C107 for the queue that keeps its elements sorted. -/
theorem C107_units_partial (p : FilterPar) (hl : 0 < l) (hc : p.useControl = false) (hd : p.dynamic = false)
    (cfg : Cfg (ekfCore p)) (u : Fin 6 → ℝ) (now : Int) (es : List (Node.Event (ekfCore p)))
    (hes : ∀ e ∈ es, e.Rescalable l 1) :
    (Node.run (cfg.rescaled l 1) (Node.start (cfg.rescaled l 1) (PQueue.sortedList _ _) () (ctlRescaled l 1 u) now)
        (es.map (Node.Event.rescaled l 1))).2 =
      (Node.run cfg (Node.start cfg (PQueue.sortedList _ _) () u now) es).2.map (Out.rescaled l 1) :=
  C107_any_queue_partial p hl hc hd _ _ (QueueSim.sorted _) cfg u now es hes

/-- C108: a node told everything as seen in a mirror that exchanges left and right says everything as seen in the mirror,
angles up to full turns, whatever happens, when the limits of the controlled axes are not negative and neither roll nor
yaw is measured.  For all queue implementations that break ties in the same way. -/
theorem C108_any_queue_partial (p : FilterPar)
    (hc : p.useControl = false ∨ ∀ c, 0 ≤ p.accLim c ∧ 0 ≤ p.decLim c)
    (P P' : MQueue (ekfCore p)) (κ : QueueSim (rescaledSim p one_pos (Or.inr rfl) ⟨Or.inl rfl, Or.inr hc⟩) P P')
    (cfg : Cfg (ekfCore p)) (u : Fin 6 → ℝ) (now : Int) (es : List (Node.Event (ekfCore p)))
    (hes : ∀ e ∈ es, e.Rescalable 1 (-1)) :
    List.Forall₂ (Out.Rescaled 1 (-1)) (Node.run cfg (Node.start cfg P () u now) es).2
      (Node.run (cfg.rescaled 1 (-1)) (Node.start (cfg.rescaled 1 (-1)) P' () (ctlRescaled 1 (-1) u) now)
        (es.map (Node.Event.rescaled 1 (-1)))).2 :=
  run_rescaled p _ _ _ P P' κ cfg u now es hes

/-- C108 for the queue that keeps its elements sorted. -/
theorem C108_mirror_partial (p : FilterPar)
    (hc : p.useControl = false ∨ ∀ c, 0 ≤ p.accLim c ∧ 0 ≤ p.decLim c)
    (cfg : Cfg (ekfCore p)) (u : Fin 6 → ℝ) (now : Int) (es : List (Node.Event (ekfCore p)))
    (hes : ∀ e ∈ es, e.Rescalable 1 (-1)) :
    List.Forall₂ (Out.Rescaled 1 (-1)) (Node.run cfg (Node.start cfg (PQueue.sortedList _ _) () u now) es).2
      (Node.run (cfg.rescaled 1 (-1)) (Node.start (cfg.rescaled 1 (-1)) (PQueue.sortedList _ _) () (ctlRescaled 1 (-1) u) now)
        (es.map (Node.Event.rescaled 1 (-1)))).2 :=
  C108_any_queue_partial p hc _ _ (QueueSim.sorted _) cfg u now es hes

/-- C108 for one correction by any measurement, orientations included, when no measured roll or yaw is exactly half a turn
away from the estimate. -/
theorem C108_orientation_partial (m : Payload) {x x' : State} (h : SameScaled 1 (-1) x x') (P : Mat15)
    (hh : ∀ i ∈ m.indices, i = iRoll ∨ i = iYaw → normalizeAngle ((m.z i).val - x i) ≠ Real.pi) :
    Option.Rel (fun r r' => SameScaled 1 (-1) r.1 r'.1 ∧ r'.2 = rescaleCov 1 (-1) r.2)
      (Ekf.correct m x P) (Ekf.correct (m.rescaled 1 (-1)) x' (rescaleCov 1 (-1) P)) :=
  correct_rescaled one_pos (Or.inr rfl) (Or.inl rfl) h P (Or.inr hh)

/-! ## Where it fails -/

/-- C107 is false of the control model: 0.01 is compared with velocities, whatever their unit.  Slowly reversing is
treated as accelerating in one unit and as braking in another, although the limits are given in the unit. -/
theorem C107_control : ∃ l state control accLim accGain decLim decGain : ℝ, 0 < l ∧ 0 < accGain ∧ 0 < decGain ∧
    computeControlAcceleration state control accLim accGain decLim decGain = -0.008 ∧
    computeControlAcceleration (l * state) (l * control) (l * accLim) accGain (l * decLim) decGain = l * -0.016 := by
  refine ⟨100, 0.004, -0.004, 1, 1, 1, 2, by norm_num, by norm_num, by norm_num, ?_, ?_⟩
  · unfold computeControlAcceleration
    norm_num [abs_of_pos, abs_of_neg]
  · unfold computeControlAcceleration
    norm_num [abs_of_pos, abs_of_neg]

/-- C107 is false of dynamic process noise, whatever noise is configured for the new unit: the linear and the angular
velocity are added up as if they had the same unit. -/
theorem C107_dynamic_noise (p : FilterPar) (hd : p.dynamic = true) {l : ℝ} (hl : 0 < l) (hl1 : l ≠ 1) (Q' : Mat15) :
    ∃ x : State, noiseQ p Q' (x.rescaled l 1) ≠ rescaleCov l 1 (noiseQ p 1 x) := by
  by_contra hall
  have hall : ∀ x : State, noiseQ p Q' (x.rescaled l 1) = rescaleCov l 1 (noiseQ p 1 x) := by
    intro x
    by_contra h
    exact hall ⟨x, h⟩
  have key : ∀ x : State, (∑ c : Fin 6, (x.rescaled l 1) (velIdx c) ^ 2) * Q' 0 0 = l * (∑ c : Fin 6, x (velIdx c) ^ 2) * l := by
    intro x
    have h := congrFun (congrFun (hall x) 0) 0
    simp only [noiseQ, hd, if_true, writeDyn, rescaleCov, Matrix.of_apply, Matrix.one_apply_eq, unitOf] at h
    have s1 := Real.mul_self_sqrt (Finset.sum_nonneg (s := Finset.univ) fun (c : Fin 6) _ => sq_nonneg ((x.rescaled l 1) (velIdx c)))
    have s2 := Real.mul_self_sqrt (Finset.sum_nonneg (s := Finset.univ) fun (c : Fin 6) _ => sq_nonneg (x (velIdx c)))
    rw [← s1, ← s2]
    norm_num at h
    linarith
  have h1 := key (fun i => if i = 6 then 1 else 0)
  have h2 := key (fun i => if i = 11 then 1 else 0)
  simp [Fin.sum_univ_succ, State.rescaled, velIdx, unitOf] at h1 h2
  have h3 : l * l * (l * l - 1) = 0 := by
    rw [h2] at h1
    linear_combination h1
  have h4 : l * l = 1 := by
    rcases mul_eq_zero.1 h3 with h | h
    · exact absurd h (mul_pos hl hl).ne'
    · linarith
  rcases mul_self_eq_one_iff.1 h4 with h | h
  · exact hl1 h
  · linarith

theorem certain_one {m : Payload} {i : Fin 15} (hi : m.indices = [i]) (hthr : m.thresh = .unlimited) (hR : m.GoodR) :
    m.Certain where
  ungated := hthr
  good := hR
  proper := by
    rw [hi]
    show Matrix.det (n := Fin 1) _ ≠ 0
    rw [Matrix.det_fin_one]
    show sanitize (m.R i i) ≠ 0
    have : (0 : ℝ) < 1e-9 := by norm_num
    have hp : (1e-9 : ℝ) ≤ sanitize (m.R i i) := by
      unfold sanitize
      dsimp only
      split_ifs <;> linarith
    linarith

theorem rescaleCov_psd {P : Mat15} (h : P.PosSemidef) : (rescaleCov l s P).PosSemidef := by
  have := h.mul_mul_conjTranspose_same (diagonal (unitOf l s))
  rw [Matrix.diagonal_conjTranspose] at this
  rw [rescaleCov_eq]
  exact this

/-- C107 is false below the floor for variances: a position with variance 1e-9 square metres, measured at 1 m with the
estimate 0 of the same variance, moves it by half; the same in units of 10 m moves it by a hundredth of that, because the
variance 1e-11 is raised to 1e-9. -/
theorem C107_floor : ∃ (m : Payload) (P : Mat15) (r r' : State × Mat15), P.PosSemidef ∧ m.Certain ∧ Ekf.correct m 0 P = some r ∧
    Ekf.correct (m.rescaled 0.1 1) 0 (rescaleCov 0.1 1 P) = some r' ∧ r.1 iX = 1 / 2 ∧ r'.1 iX = 0.1 / 101 := by
  have hP : ((1e-9 : ℝ) • (1 : Mat15)).PosSemidef := PosSemidef.one.smul (by norm_num)
  obtain ⟨m, hm⟩ : ∃ m : Payload, m = ⟨fun k => decide (k = iX), fun _ => .fin 1, (1e-9 : ℝ) • 1, .unlimited⟩ := ⟨_, rfl⟩
  have hi : m.indices = [iX] := by
    rw [hm]
    exact oneVar_indices iX 1 .unlimited
  have hi' : (m.rescaled 0.1 1).indices = [iX] := by
    rw [indices_rescaled (unitOf_ne_zero (by norm_num) (Or.inl rfl)), hi]
  have hc : m.Certain := certain_one hi (by rw [hm]) (by
    have : m.R = (1e-9 : ℝ) • 1 := by rw [hm]
    unfold Payload.GoodR
    rw [this]
    exact hP.submatrix _)
  have hc' : (m.rescaled 0.1 1).Certain := certain_one hi' (by rw [hm]; rfl) (by
    have : (m.rescaled 0.1 1).R = rescaleCov 0.1 1 ((1e-9 : ℝ) • 1) := by rw [hm]; rfl
    unfold Payload.GoodR
    rw [this]
    exact (rescaleCov_psd hP).submatrix _)
  refine ⟨m, (1e-9 : ℝ) • 1, _, _, hP, hc, correct_one iX hi hc 0 hP, correct_one iX hi' hc' 0 (rescaleCov_psd hP), ?_, ?_⟩
  · have hR : m.R iX iX = 1e-9 := by rw [hm]; simp
    have hz : (m.z iX).val = 1 := by rw [hm]; rfl
    have hni : ¬ (iX = iRoll ∨ iX = iPitch ∨ iX = iYaw) := by decide
    simp only [wrapStateAngles, if_neg hni, hR, hz, sanitize_above le_rfl, Matrix.smul_apply, Matrix.one_apply_eq, Pi.zero_apply,
      smul_eq_mul]
    norm_num
  · have hR : (m.rescaled 0.1 1).R iX iX = 1e-11 := by
      rw [hm]
      simp only [Payload.rescaled, rescaleCov, Matrix.of_apply, Matrix.smul_apply, Matrix.one_apply_eq, smul_eq_mul]
      show (0.1 : ℝ) * _ * 0.1 = _
      norm_num
    have hz : ((m.rescaled 0.1 1).z iX).val = 0.1 := by
      rw [hm]
      show (0.1 : ℝ) * 1 = _
      norm_num
    have hPe : rescaleCov 0.1 1 ((1e-9 : ℝ) • 1) iX iX = 1e-11 := by
      simp only [rescaleCov, Matrix.of_apply, Matrix.smul_apply, Matrix.one_apply_eq, smul_eq_mul]
      show (0.1 : ℝ) * _ * 0.1 = _
      norm_num
    have hsan : sanitize 1e-11 = 1e-9 := by
      unfold sanitize
      norm_num
    have hni : ¬ (iX = iRoll ∨ iX = iPitch ∨ iX = iYaw) := by decide
    simp only [wrapStateAngles, if_neg hni, hR, hz, hsan, hPe, Pi.zero_apply]
    norm_num

/-- C107 is false after a `set_pose` that cannot be transformed: the covariance is then 1e-6, whatever the unit. -/
theorem C107_set_pose (p : FilterPar) {l : ℝ} (hl : 0 < l) (hl1 : l ≠ 1) (cfg : Cfg (ekfCore p)) (P : MQueue (ekfCore p))
    (u : Fin 6 → ℝ) (stamp now : Int) :
    (Node.step (cfg.rescaled l 1) (Node.start (cfg.rescaled l 1) P () (ctlRescaled l 1 u) now)
      (Node.Event.rescaled l 1 (.setPose stamp now none))).1.filt.cov ≠
    rescaleCov l 1 (Node.step cfg (Node.start cfg P () u now) (.setPose stamp now none)).1.filt.cov := by
  have e : ∀ (g : Cfg (ekfCore p)) (n : Node (ekfCore p) P), (Node.step g n (.setPose stamp now none)).1.filt.cov =
      ((1e-6 : ℝ) • (1 : Mat15) : Mat15) := fun _ _ => rfl
  have h0 : (Node.Event.rescaled l 1 (.setPose stamp now none) : Node.Event (ekfCore p)) = .setPose stamp now none := rfl
  rw [h0, e, e]
  intro h
  have h := congrFun (congrFun h 0) 0
  simp only [rescaleCov, Matrix.of_apply, Matrix.smul_apply, Matrix.one_apply_eq, smul_eq_mul, unitOf] at h
  have : l * l = 1 := by linarith
  rcases mul_self_eq_one_iff.1 this with h | h
  · exact hl1 h
  · linarith

/-- C108 is false for a heading measured exactly half a turn away from the estimate: the robot turns left, and the robot in
the mirror turns left as well. -/
theorem C108_half_turn : ∃ (m : Payload) (r r' : State × Mat15), m.Certain ∧ Ekf.correct m 0 1 = some r ∧
    Ekf.correct (m.rescaled 1 (-1)) 0 (rescaleCov 1 (-1) 1) = some r' ∧ r.1 iYaw = Real.pi / 2 ∧ r'.1 iYaw = Real.pi / 2 := by
  have hpi := Real.pi_pos
  have h1 : rescaleCov 1 (-1) 1 = 1 := by
    ext i j
    simp only [rescaleCov, Matrix.of_apply, Matrix.one_apply]
    split
    · rename_i h
      subst h
      rw [mul_one, unitOf_sq (Or.inr rfl)]
    · simp
  have hi' : ((oneVar iYaw Real.pi .unlimited).rescaled 1 (-1)).indices = [iYaw] := by
    rw [indices_rescaled (unitOf_ne_zero one_pos (Or.inr rfl)), oneVar_indices]
  have hc' : ((oneVar iYaw Real.pi .unlimited).rescaled 1 (-1)).Certain := certain_one hi' rfl (by
    have : ((oneVar iYaw Real.pi .unlimited).rescaled 1 (-1)).R = 1 := h1
    unfold Payload.GoodR
    rw [this]
    exact PosSemidef.one.submatrix _)
  rw [h1]
  refine ⟨oneVar iYaw Real.pi .unlimited, _, _, oneVar_certain _ _,
    correct_one iYaw (oneVar_indices _ _ _) (oneVar_certain _ _) 0 PosSemidef.one,
    correct_one iYaw hi' hc' 0 PosSemidef.one, ?_, ?_⟩
  · have hR : (oneVar iYaw Real.pi .unlimited).R iYaw iYaw = 1 := rfl
    have hz : ((oneVar iYaw Real.pi .unlimited).z iYaw).val = Real.pi := rfl
    simp only [wrapStateAngles, or_true, if_true, hR, hz, sanitize_one, Matrix.one_apply_eq, Pi.zero_apply, sub_zero]
    rw [normalizeAngle_of_mem (a := Real.pi) (by linarith) le_rfl, normalizeAngle_of_mem (by linarith) (by linarith)]
    ring
  · have hR : ((oneVar iYaw Real.pi .unlimited).rescaled 1 (-1)).R iYaw iYaw = 1 := by
      show rescaleCov 1 (-1) 1 iYaw iYaw = 1
      rw [h1, Matrix.one_apply_eq]
    have hz : (((oneVar iYaw Real.pi .unlimited).rescaled 1 (-1)).z iYaw).val = -Real.pi := by
      show (-1 : ℝ) * Real.pi = _
      ring
    have hn : normalizeAngle (-Real.pi) = Real.pi := by
      have := normalizeAngle_add_two_pi Real.pi (-1)
      rw [normalizeAngle_of_mem (a := Real.pi) (by linarith) le_rfl] at this
      refine Eq.trans ?_ this
      congr 1
      push_cast
      ring
    simp only [wrapStateAngles, or_true, if_true, hR, hz, sanitize_one, Matrix.one_apply_eq, Pi.zero_apply, sub_zero, hn]
    rw [normalizeAngle_of_mem (by linarith) (by linarith)]
    ring

/-- Measurements of a position with variance 1, a failed and a successful `set_pose`, a command and a reset, in millimetres
and in the mirror. -/
example : (∀ e ∈ ([.sensor "t" 1 (some (demoZ (fun i => decide (i = iX ∨ i = iY ∨ i = iVyaw)) (fun _ => .fin 1))),
    .control (0 : Fin 6 → ℝ) 1, .setPose 2 2 (some (some 0, (1 : Mat15))), .reset, .tick 3 3 true] :
    List (Node.Event (ekfCore plainPar))), e.Rescalable 1000 1) ∧
    ∀ e ∈ ([.sensor "t" 1 (some (demoZ (fun i => decide (i = iX ∨ i = iY ∨ i = iVyaw)) (fun _ => .fin 1))),
    .control (0 : Fin 6 → ℝ) 1, .setPose 2 2 none, .reset, .tick 3 3 true] :
    List (Node.Event (ekfCore demoPar))), e.Rescalable 1 (-1) := by
  constructor
  · intro e he
    simp only [List.mem_cons, List.not_mem_nil, or_false] at he
    rcases he with rfl | rfl | rfl | rfl | rfl
    · intro m hm
      injection hm with hm
      subst hm
      refine ⟨Or.inr fun i _ => ?_, Or.inl rfl⟩
      show 1e-9 ≤ (1 : Mat15) i i ∧ 1e-9 ≤ rescaleCov 1000 1 1 i i
      simp only [rescaleCov, Matrix.of_apply, Matrix.one_apply_eq]
      fin_cases i <;> norm_num [unitOf]
    · trivial
    · exact Or.inr (by simp)
    · trivial
    · trivial
  · intro e he
    simp only [List.mem_cons, List.not_mem_nil, or_false] at he
    rcases he with rfl | rfl | rfl | rfl | rfl
    · intro m hm
      injection hm with hm
      subst hm
      exact ⟨Or.inl rfl, Or.inr ⟨rfl, rfl⟩⟩
    · trivial
    · exact Or.inl rfl
    · trivial
    · trivial

example : ∀ c, 0 ≤ demoPar.accLim c ∧ 0 ≤ demoPar.decLim c := fun _ => ⟨zero_le_one, zero_le_one⟩

end RL
