import Verif.Proofs.NodeSim
import Verif.Spec.EkfDemo
/-! # C90: the origin of the world frame does not matter -/

namespace RL
open Matrix

/-- The same state seen from an origin that is off by `-d`. -/
def State.moved (d : Fin 3 → ℝ) (x : State) : State := fun i => if h : i.val < 3 then x i + d ⟨i, h⟩ else x i

/-- The same measured value seen from an origin off by `-d`. -/
def Dbl.movedBy (d : ℝ) : Dbl → Dbl
  | .fin a => .fin (a + d)
  | v => v

/-- The same measurement seen from that origin. -/
def Payload.moved (d : Fin 3 → ℝ) (m : Payload) : Payload :=
  { m with z := fun i => if h : i.val < 3 then (m.z i).movedBy (d ⟨i, h⟩) else m.z i }

/-- The same event: positions in it seen from that origin. -/
def Node.Event.moved {p : FilterPar} (d : Fin 3 → ℝ) : Node.Event (ekfCore p) → Node.Event (ekfCore p)
  | .sensor topic stamp z => .sensor topic stamp (Option.map (Payload.moved d) z)
  | .setPose stamp now r => .setPose stamp now (Option.map (fun a => (Option.map (State.moved d) a.1, a.2)) r)
  | e => e

/-- The same message sent: positions seen from that origin. -/
def Out.moved {p : FilterPar} (d : Fin 3 → ℝ) : Out (ekfCore p) → Out (ekfCore p)
  | .odom t x P => .odom t (Option.map (State.moved d) x) P
  | o => o

/-- The same configuration: the initial state seen from that origin. -/
def Cfg.moved {p : FilterPar} (d : Fin 3 → ℝ) (g : Cfg (ekfCore p)) : Cfg (ekfCore p) :=
  { g with initialState := Option.map (State.moved d) g.initialState }

/-- Neither `reset` nor a `set_pose` that cannot be transformed. -/
def Node.Event.KeepsOrigin {p : FilterPar} : Node.Event (ekfCore p) → Prop
  | .reset => False
  | .setPose _ _ r => r ≠ none
  | _ => True

theorem moved_pos (d : Fin 3 → ℝ) (x : State) : State.moved d x = x + State.moved d 0 := by
  funext i
  simp only [State.moved, Pi.add_apply, Pi.zero_apply]
  split <;> simp

theorem transferF_moved (d : Fin 3 → ℝ) (x : State) (dt : ℝ) : transferF (State.moved d x) dt = transferF x dt := rfl

theorem transferJ_moved (d : Fin 3 → ℝ) (x : State) (dt : ℝ) : transferJ (State.moved d x) dt = transferJ x dt := by
  unfold transferJ
  rw [transferF_moved]
  rfl

theorem fEntry_position (t : Trig) (dt : ℝ) (i j : Fin 15) (h : j.val < 3) : fEntry t dt i j = none := by
  have : j = 0 ∨ j = 1 ∨ j = 2 := by omega
  rcases this with rfl | rfl | rfl <;> fin_cases i <;> rfl

theorem transferF_position (x : State) (dt : ℝ) (d : Fin 3 → ℝ) :
    (transferF x dt).mulVec (State.moved d 0) = State.moved d 0 := by
  funext i
  have e : ∀ j, transferF x dt i j * State.moved d 0 j = (1 : Mat15) i j * State.moved d 0 j := by
    intro j
    by_cases h : j.val < 3
    · simp [transferF, writeF, fEntry_position _ _ i j h]
    · simp [State.moved, h]
  simp only [mulVec, dotProduct, e]
  exact congrFun (Matrix.one_mulVec (State.moved d 0)) i

theorem wrap_moved (d : Fin 3 → ℝ) (x : State) : wrapStateAngles (State.moved d x) = State.moved d (wrapStateAngles x) := by
  funext i
  fin_cases i <;> rfl

theorem control_moved (p : FilterPar) (ca : Fin 6 → ℝ) (dt : ℝ) (d : Fin 3 → ℝ) (x : State) :
    applyControl p ca dt (State.moved d x) = State.moved d (applyControl p ca dt x) := by
  funext i
  fin_cases i <;> rfl

/-- C90 for one prediction. -/
theorem predict_moved (p : FilterPar) (Q : Mat15) (ctl : Fin 6 → ℝ) (ct ref : Int) (dt : ℝ) (x : State) (P : Mat15)
    (d : Fin 3 → ℝ) : Ekf.predict p Q ctl ct ref dt (State.moved d x) P =
      (Ekf.predict p Q ctl ct ref dt x P).map fun r => (State.moved d r.1, r.2) := by
  have e1 : prepareControl p ctl ct ref (State.moved d x) = prepareControl p ctl ct ref x := by
    funext c
    fin_cases c <;> rfl
  have e2 : noiseQ p Q (State.moved d x) = noiseQ p Q x := by
    unfold noiseQ writeDyn
    have : ∀ c : Fin 6, State.moved d x (velIdx c) = x (velIdx c) := by
      intro c
      fin_cases c <;> rfl
    simp only [this]
  have e3 : State.moved d x iPitch = x iPitch := rfl
  unfold Ekf.predict
  simp only [e1, e2, e3, transferJ_moved, transferF_moved, control_moved]
  split
  · rfl
  · rw [moved_pos d (applyControl _ _ _ _), Matrix.mulVec_add, transferF_position, ← moved_pos, wrap_moved]
    rfl

theorem indices_moved (d : Fin 3 → ℝ) (m : Payload) : (m.moved d).indices = m.indices := by
  unfold Payload.indices Payload.moved
  refine List.filter_congr fun i _ => ?_
  dsimp only
  split
  · cases m.z i <;> rfl
  · rfl

theorem finite_of_mem (m : Payload) (k : Fin 15) (h : k ∈ m.indices) : ∃ a, m.z k = .fin a := by
  simp only [Payload.indices, List.mem_filter, Bool.and_eq_true] at h
  obtain ⟨-, ⟨-, h1⟩, h2⟩ := h
  cases hz : m.z k with
  | fin a => exact ⟨a, rfl⟩
  | nan => rw [hz] at h1; cases h1
  | inf s => rw [hz] at h2; cases h2

/-- C90 for one correction. -/
theorem correct_moved (m : Payload) (x : State) (P : Mat15) (d : Fin 3 → ℝ) :
    Ekf.correct (m.moved d) (State.moved d x) P = (Ekf.correct m x P).map fun r => (State.moved d r.1, r.2) := by
  unfold Ekf.correct
  have hfin : ∀ i : Fin m.indices.length, ∃ a, m.z (m.indices.get i) = .fin a := by
    exact fun i => finite_of_mem m _ (List.get_mem m.indices i)
  have key : ∀ (l : List (Fin 15)), (∀ i : Fin l.length, ∃ a, m.z (l.get i) = .fin a) →
      correctAt l.get (fun i => ((m.moved d).z i).val) m.R m.thresh (State.moved d x) P =
      (correctAt l.get (fun i => (m.z i).val) m.R m.thresh x P).map fun r => (State.moved d r.1, r.2) := by
    intro l hl
    have hy : innovation l.get (fun i => ((m.moved d).z i).val) (State.moved d x) =
        innovation l.get (fun i => (m.z i).val) x := by
      funext i
      obtain ⟨a, ha⟩ := hl i
      have : ((m.moved d).z (l.get i)).val - State.moved d x (l.get i) = (m.z (l.get i)).val - x (l.get i) := by
        simp only [Payload.moved, State.moved]
        split
        · rw [ha]
          simp [Dbl.movedBy, Dbl.val]
        · rfl
      unfold innovation
      simp only [this]
    unfold correctAt
    rw [hy]
    split
    · rfl
    · split
      · rw [moved_pos d x, add_right_comm, ← moved_pos, wrap_moved]
        rfl
      · rfl
  have h := key m.indices hfin
  rw [← h]
  show correctAt (m.moved d).indices.get _ m.R m.thresh _ _ = _
  rw [indices_moved]

theorem initState_moved (m : Payload) (x : State) (d : Fin 3 → ℝ) :
    initState (m.moved d) (State.moved d x) = (initState m x).map (State.moved d) := by
  have hf : ∀ i, ((m.moved d).z i).isFin = (m.z i).isFin := by
    intro i
    simp only [Payload.moved]
    split
    · cases m.z i <;> rfl
    · rfl
  unfold initState
  simp only [hf]
  by_cases h : ∀ i, m.upd i = true → (m.z i).isFin = true
  · rw [if_pos h, if_pos (show ∀ i, (m.moved d).upd i = true → _ from h)]
    simp only [Option.map_some, Option.some.injEq]
    funext i
    have hi := h i
    simp only [Payload.moved, State.moved]
    by_cases hu : m.upd i = true
    · simp only [hu, if_true]
      have := hi hu
      split
      · cases hz : m.z i with
        | fin a => simp [Dbl.movedBy, Dbl.val]
        | nan => rw [hz] at this; cases this
        | inf s => rw [hz] at this; cases this
      · rfl
    · simp only [hu]
      rfl
  · rw [if_neg h, if_neg (show ¬ ∀ i, (m.moved d).upd i = true → _ from h)]
    rfl

/-- The two filters treat what they see in the same way. -/
noncomputable def movedSim (p : FilterPar) (d : Fin 3 → ℝ) : CoreSim (ekfCore p) (ekfCore p) 0 where
  low := 0
  X x x' := x' = Option.map (State.moved d) x
  Cov P P' := P' = P
  Ext _ _ := True
  Par q q' := q' = q
  Z z z' := z' = Payload.moved d z
  Ctl u t u' t' := u' = u ∧ t' = t
  predict := by
    rintro _ q _ _ u t x _ _ P e e' ref delta - rfl ⟨rfl, rfl⟩ rfl rfl -
    cases x with
    | none => exact ⟨rfl, rfl, trivial⟩
    | some x =>
      have h := predict_moved p q u t ref (toSec delta) x P d
      have e1 : (ekfCore p).predict q u t ref delta (some x, P, e) = match Ekf.predict p q u t ref (toSec delta) x P with
        | some r => (some r.1, r.2, ())
        | none => (none, P, ()) := rfl
      have e2 : (ekfCore p).predict q u t (ref + 0) delta (Option.map (State.moved d) (some x), P, e') =
          match Ekf.predict p q u t (ref + 0) (toSec delta) (State.moved d x) P with
        | some r => (some r.1, r.2, ())
        | none => (none, P, ()) := rfl
      rw [e1, e2, Int.add_zero, h]
      cases Ekf.predict p q u t ref (toSec delta) x P with
      | none => exact ⟨rfl, rfl, trivial⟩
      | some r => exact ⟨rfl, rfl, trivial⟩
  correct := by
    rintro z _ x _ _ P e e' rfl rfl rfl -
    cases x with
    | none => exact ⟨rfl, rfl, trivial⟩
    | some x =>
      have h := correct_moved z x P d
      have e1 : (ekfCore p).correct z (some x, P, e) = match Ekf.correct z x P with
        | some r => (some r.1, r.2, ())
        | none => (none, P, ()) := rfl
      have e2 : (ekfCore p).correct (Payload.moved d z) (Option.map (State.moved d) (some x), P, e') =
          match Ekf.correct (Payload.moved d z) (State.moved d x) P with
        | some r => (some r.1, r.2, ())
        | none => (none, P, ()) := rfl
      rw [e1, e2, h]
      cases Ekf.correct z x P with
      | none => exact ⟨rfl, rfl, trivial⟩
      | some r => exact ⟨rfl, rfl, trivial⟩
  initX := by
    rintro z _ x _ rfl rfl
    cases x with
    | none => rfl
    | some x => exact initState_moved z x d
  initCov := by
    rintro z _ P _ rfl rfl
    rfl

/-- Two sorted lists break ties in the same way. -/
def QueueSim.sorted {C C' : Core} {c : Int} (σ : CoreSim C C' c) :
    QueueSim σ (PQueue.sortedList (Meas C) Meas.time) (PQueue.sortedList (Meas C') Meas.time) where
  Rel q q' := List.Forall₂ (MeasSim σ) q.1 q'.1
  empty := .nil
  push := by
    rintro ⟨q, hq⟩ ⟨q', hq'⟩ m m' h hm
    show List.Forall₂ (MeasSim σ) (PQueue.insertSorted _ m q) (PQueue.insertSorted _ m' q')
    replace h : List.Forall₂ (MeasSim σ) q q' := h
    clear hq hq'
    induction h with
    | nil => exact .cons hm .nil
    | cons hab h ih =>
      rename_i a b l l'
      unfold PQueue.insertSorted
      have e1 := hm.time
      have e2 := hab.time
      by_cases hlt : m.time < a.time
      · rw [if_pos hlt, if_pos (show m'.time < b.time by omega)]
        exact .cons hm (.cons hab h)
      · rw [if_neg hlt, if_neg (show ¬ m'.time < b.time by omega)]
        exact .cons hab ih
  top := by
    rintro ⟨q, hq⟩ ⟨q', hq'⟩ h
    have h : List.Forall₂ (MeasSim σ) q q' := h
    show Option.Rel _ q.head? q'.head?
    cases h with
    | nil => exact .none
    | cons hab _ => exact .some hab
  pop := by
    rintro ⟨q, hq⟩ ⟨q', hq'⟩ m h -
    have h : List.Forall₂ (MeasSim σ) q q' := h
    show List.Forall₂ _ q.tail q'.tail
    cases h with
    | nil => exact .nil
    | cons _ h' => exact h'
  size := by
    rintro ⟨q, hq⟩ ⟨q', hq'⟩ h
    exact (List.Forall₂.length_eq (show List.Forall₂ (MeasSim σ) q q' from h)).symm

theorem out_moved {p : FilterPar} {d : Fin 3 → ℝ} {l l' : List (Out (ekfCore p))}
    (h : List.Forall₂ (OutSim (movedSim p d)) l l') : l' = l.map (Out.moved d) := by
  induction h with
  | nil => rfl
  | cons hab _ ih =>
    rw [List.map_cons, ← ih]
    congr 1
    cases hab with
    | odom hx hP =>
      have hx : _ = _ := hx
      have hP : _ = _ := hP
      rw [hx, hP, Int.add_zero]
      rfl
    | tf t => rw [Int.add_zero]; rfl
    | accel t => rw [Int.add_zero]; rfl

/-- C90: a node told everything as seen from another origin says everything as seen from that origin: the same
messages, with moved positions and equal covariances, whatever happens except `reset` and a `set_pose` that cannot be
transformed.  For all queue implementations that break ties in the same way. -/
theorem C90_any_queue_partial (p : FilterPar) (d : Fin 3 → ℝ) (P P' : MQueue (ekfCore p)) (κ : QueueSim (movedSim p d) P P')
    (cfg : Cfg (ekfCore p)) (u : Fin 6 → ℝ) (now : Int) (es : List (Node.Event (ekfCore p)))
    (hes : ∀ e ∈ es, e.KeepsOrigin) :
    (Node.run (cfg.moved d) (Node.start (cfg.moved d) P' () u now) (es.map (Node.Event.moved d))).2 =
      (Node.run cfg (Node.start cfg P () u now) es).2.map (Out.moved d) := by
  have hg : CfgSim (movedSim p d) cfg (cfg.moved d) := ⟨rfl, rfl, rfl, rfl, rfl, rfl, rfl, rfl, rfl, rfl, rfl, rfl⟩
  have he : List.Forall₂ (EventSim (movedSim p d)) es (es.map (Node.Event.moved d)) := by
    rw [List.forall₂_map_right_iff, List.forall₂_same]
    intro e he
    have hk := hes e he
    have pos : ∀ t, Pos 0 0 t := fun t => Or.inl rfl
    cases e with
    | sensor topic stamp z =>
      have := EventSim.sensor (σ := movedSim p d) topic (stamp := stamp) (z := z) (z' := Option.map (Payload.moved d) z)
        (pos _) (by cases z with
          | none => exact .none
          | some z => exact .some rfl)
      rwa [Int.add_zero] at this
    | control v t => exact .control ⟨rfl, rfl⟩
    | setPose stamp now r =>
      cases r with
      | none => exact absurd rfl hk
      | some r =>
        have := EventSim.setPose (σ := movedSim p d) (stamp := stamp) (now := now) (r := some r)
          (r' := some (Option.map (State.moved d) r.1, r.2)) (pos _) (pos _) (.some ⟨rfl, rfl⟩) (fun h => by cases h)
        rwa [Int.add_zero, Int.add_zero] at this
    | reset => exact absurd hk id
    | toggle on => exact .toggle on
    | enable => exact .enable
    | tick now now2 tfOk =>
      have := EventSim.tick (σ := movedSim p d) tfOk (pos now) (pos now2)
      rwa [Int.add_zero, Int.add_zero] at this
  have hs : NodeSim κ (Node.start cfg P () u now) (Node.start (cfg.moved d) P' () u now) := by
    have := NodeSim.start (κ := κ) (g := cfg) (g' := cfg.moved d) hg rfl rfl ⟨rfl, rfl⟩ (e := ()) (e' := ()) trivial
      (u := u) (u' := u) ⟨rfl, rfl⟩ now
    rwa [Int.add_zero] at this
  exact out_moved (NodeSim.run hg he hs).2

/-- C90 for the queue that keeps its elements sorted. -/
theorem C90_origin_partial (p : FilterPar) (d : Fin 3 → ℝ) (cfg : Cfg (ekfCore p)) (u : Fin 6 → ℝ) (now : Int)
    (es : List (Node.Event (ekfCore p))) (hes : ∀ e ∈ es, e.KeepsOrigin) :
    (Node.run (cfg.moved d) (Node.start (cfg.moved d) (PQueue.sortedList _ _) () u now) (es.map (Node.Event.moved d))).2 =
      (Node.run cfg (Node.start cfg (PQueue.sortedList _ _) () u now) es).2.map (Out.moved d) :=
  C90_any_queue_partial p d _ _ (QueueSim.sorted _) cfg u now es hes

/-- A measurement of the forward velocity. -/
def vxZ : Payload := demoZ (fun i => decide (i = iVx)) (fun i => if i = iVx then .fin 1 else .nan)

theorem init_vx : initState vxZ 0 = some (fun i => if i = iVx then 1 else 0) := by
  unfold initState
  rw [if_pos]
  · congr 1
    funext i
    by_cases h : i = iVx <;> simp [vxZ, demoZ, h]
  · intro i hi
    simp only [vxZ, demoZ, decide_eq_true_eq] at hi ⊢
    simp [hi, Dbl.isFin]

/-- C90 fails across a `reset`: the robot is then at the origin of the world frame, wherever that is. -/
theorem C90_reset : ∃ (p : FilterPar) (d : Fin 3 → ℝ) (cfg : Cfg (ekfCore p)) (u : Fin 6 → ℝ) (now : Int)
    (es : List (Node.Event (ekfCore p))),
    (Node.run (cfg.moved d) (Node.start (cfg.moved d) (PQueue.sortedList _ _) () u now) (es.map (Node.Event.moved d))).2 ≠
      (Node.run cfg (Node.start cfg (PQueue.sortedList _ _) () u now) es).2.map (Out.moved d) := by
  refine ⟨plainPar, fun _ => 1, demoCfg plainPar, 0, 0, [.reset, .sensor "t" 1 (some vxZ), .tick 2 2 false], ?_⟩
  have run : ∀ cfg : Cfg (ekfCore plainPar), cfg.disabledAtStartup = false → cfg.smooth = true → cfg.predictToCurrent = false →
      cfg.permitCorrected = false → cfg.publishAccel = true →
      ∃ (P : Mat15),
      (Node.run cfg (Node.start cfg (PQueue.sortedList _ _) () (0 : Fin 6 → ℝ) 0) [.reset, .sensor "t" 1 (some vxZ), .tick 2 2 false]).2 =
      [.odom 1 (initState vxZ 0) P, .accel 1] := by
    intro cfg h1 h2 h3 h4 h5
    refine ⟨initCov vxZ cfg.keptCov, ?_⟩
    simp [Node.run, Node.step, Node.start, Node.reset, Node.sensor, Node.enqueue, Node.periodic, Node.advance, Node.integrate,
      Node.drain, Node.publish, PQueue.sortedList, PQueue.insertSorted, PQueue.size, Filt.processMeasurement, Filt.reset,
      Filt.setCov, Filt.setPar, Filt.setSensorTimeout, h1, h2, h3, h4, h5, ekfCore]
    rfl
  obtain ⟨P, e⟩ := run (demoCfg plainPar) rfl rfl rfl rfl rfl
  obtain ⟨P', e'⟩ := run ((demoCfg plainPar).moved fun _ => 1) rfl rfl rfl rfl rfl
  have em : ([.reset, .sensor "t" 1 (some vxZ), .tick 2 2 false] : List (Node.Event (ekfCore plainPar))).map
      (Node.Event.moved fun _ => 1) = [.reset, .sensor "t" 1 (some vxZ), .tick 2 2 false] := by
    have : Payload.moved (fun _ => 1) vxZ = vxZ := by
      unfold Payload.moved vxZ demoZ
      congr 1
      funext i
      by_cases h : i.val < 3
      · have : i ≠ iVx := by
          intro e
          rw [e] at h
          exact absurd h (by decide)
        simp [h, this, Dbl.movedBy]
      · simp [h]
    show ([.reset, .sensor "t" 1 (some (Payload.moved (fun _ => 1) vxZ)), .tick 2 2 false] :
      List (Node.Event (ekfCore plainPar))) = _
    rw [this]
  rw [em, e, e']
  intro h
  simp only [List.map_cons, Out.moved] at h
  injection h with h1 _
  injection h1 with _ hx _
  rw [init_vx] at hx
  have h0 := congrArg (fun o : Option State => (o.getD 0) 0) hx
  simp [State.moved, iVx] at h0

/-- Measurements, a control input and a known pose, seen from the origin and from elsewhere. -/
example : ∀ e ∈ ([.sensor "t" 1 (some vxZ), .control (0 : Fin 6 → ℝ) 1, .setPose 2 2 (some (some 0, (1 : Mat15))), .tick 3 3 true] :
    List (Node.Event (ekfCore demoPar))), e.KeepsOrigin := by
  intro e he
  simp only [List.mem_cons, List.not_mem_nil, or_false] at he
  rcases he with rfl | rfl | rfl | rfl <;> simp [Node.Event.KeepsOrigin]

end RL
