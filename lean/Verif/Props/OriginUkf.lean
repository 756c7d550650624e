import Verif.Props.Epoch
import Verif.Props.Ukf
import Verif.Props.UkfMemory
/-! # C90 and C91 for the unscented filter -/

namespace RL
open Matrix

section
variable {k : UkfConst} (d : Fin 3 → ℝ)

theorem moved_sub (x y : State) : State.moved d x - State.moved d y = x - y := by
  rw [moved_pos d x, moved_pos d y]
  abel

theorem moved_add (x y : State) : State.moved d (x + y) = State.moved d x + y := by
  rw [moved_pos d x, moved_pos d (x + y)]
  abel

theorem moved_angular {i : Fin 15} (h : angularIdx i) (x : State) : State.moved d x i = x i := by
  rcases h with rfl | rfl | rfl <;> rfl

theorem sigma_moved (llt : Llt) (k : UkfConst) (x : State) (P : Mat15) (s : Sig) :
    sigmaPoints llt k (State.moved d x) P s = State.moved d (sigmaPoints llt k x P s) := by
  rcases s with s | s | s
  · rfl
  · exact (moved_add d x _).symm
  · show State.moved d x - _ = State.moved d (x - _)
    rw [sub_eq_add_neg, sub_eq_add_neg, moved_add]

theorem project_moved (dt : ℝ) (x : State) : projectPoint dt (State.moved d x) = State.moved d (projectPoint dt x) := by
  unfold projectPoint
  rw [transferF_moved, moved_pos d x, Matrix.mulVec_add, transferF_position, ← moved_pos]

/-- Weighted means follow the origin. -/
theorem mean_moved (hw : ∑ s, k.w s = 1) (pts : Sig → State) (i : Fin 15) :
    ∑ s, k.w s * State.moved d (pts s) i = State.moved d (fun j => ∑ s, k.w s * pts s j) i := by
  have e : ∀ x : State, State.moved d x i = x i + State.moved d 0 i := fun x => congrFun (moved_pos d x) i
  rw [e]
  simp only [e (pts _), mul_add, Finset.sum_add_distrib, ← Finset.sum_mul, hw, one_mul]

theorem ukfMean_moved (hw : ∑ s, k.w s = 1) (pts : Sig → State) :
    ukfMean k (fun s => State.moved d (pts s)) = State.moved d (ukfMean k pts) := by
  funext i
  unfold ukfMean
  by_cases hi : angularIdx i
  · rw [if_pos hi, moved_angular d hi]
    simp only [moved_angular d hi, if_pos hi]
  · rw [if_neg hi, mean_moved d hw]
    unfold State.moved
    simp only [if_neg hi]

theorem ukfCovar_moved (pts : Sig → State) (x : State) :
    ukfCovar k (fun s => State.moved d (pts s)) (State.moved d x) = ukfCovar k pts x := by
  unfold ukfCovar
  simp only [moved_sub]

theorem predictU_moved (p : FilterPar) (llt : Llt) (hw : ∑ s, k.w s = 1) (Q : Mat15) (ctl : Fin 6 → ℝ) (ct ref : Int) (dt : ℝ)
    (x : State) (P : Mat15) : Ukf.predict p llt k Q ctl ct ref dt (State.moved d x) P =
      (Ukf.predict p llt k Q ctl ct ref dt x P).map fun r =>
        (State.moved d r.1, r.2.1, { pts := fun s => State.moved d (r.2.2.pts s), uncorrected := r.2.2.uncorrected }) := by
  have e2 : ∀ y : State, noiseQ p Q (State.moved d y) = noiseQ p Q y := by
    intro y
    unfold noiseQ writeDyn
    have : ∀ c : Fin 6, State.moved d y (velIdx c) = y (velIdx c) := by
      intro c
      fin_cases c <;> rfl
    simp only [this]
  have e3 : ∀ y : State, State.moved d y iPitch = y iPitch := fun _ => rfl
  unfold Ukf.predict
  simp only [sigma_moved, project_moved, ukfMean_moved d hw, ukfCovar_moved, e2, e3, wrap_moved]
  split
  · rfl
  · rfl

variable {n : ℕ} (e : Fin n → Fin 15)

theorem predictedMeas_moved (hw : ∑ s, k.w s = 1) (pts : Sig → State) (i : Fin n) :
    predictedMeas e k (fun s => State.moved d (pts s)) i = predictedMeas e k pts i + State.moved d 0 (e i) := by
  unfold predictedMeas
  by_cases hi : angularIdx (e i)
  · rw [if_pos hi, if_pos hi, moved_angular d hi]
    simp only [moved_angular d hi]
    simp
  · rw [if_neg hi, if_neg hi, mean_moved d hw, moved_pos]
    rfl

theorem measDiff_moved (zh : Fin n → ℝ) (pt : State) :
    measDiff e (fun i => zh i + State.moved d 0 (e i)) (State.moved d pt) = measDiff e zh pt := by
  funext i
  have : State.moved d pt (e i) - (zh i + State.moved d 0 (e i)) = pt (e i) - zh i := by
    rw [moved_pos d pt, Pi.add_apply]
    ring
  unfold measDiff
  simp only [this]

theorem correctU_moved (hw : ∑ s, k.w s = 1) (pts : Sig → State) (z z' : Fin 15 → ℝ)
    (hz : ∀ i, z' (e i) = z (e i) + State.moved d 0 (e i)) (R : Mat15) (thr : Thresh) (x : State) (P : Mat15) :
    ukfCorrectAt e k (fun s => State.moved d (pts s)) z' R thr (State.moved d x) P =
      (ukfCorrectAt e k pts z R thr x P).map fun r => (State.moved d r.1, r.2) := by
  have e1 : predictedMeas e k (fun s => State.moved d (pts s)) = fun i => predictedMeas e k pts i + State.moved d 0 (e i) :=
    funext fun i => predictedMeas_moved d e hw pts i
  have e2 : measCovar e k (fun s => State.moved d (pts s)) = measCovar e k pts := by
    unfold measCovar
    simp only [e1, measDiff_moved]
  have e3 : crossCovar e k (fun s => State.moved d (pts s)) (State.moved d x) = crossCovar e k pts x := by
    unfold crossCovar
    simp only [e1, measDiff_moved, moved_sub]
  have e4 : ukfInnovation e z' (fun i => predictedMeas e k pts i + State.moved d 0 (e i)) =
      ukfInnovation e z (predictedMeas e k pts) := by
    funext i
    have : z' (e i) - (predictedMeas e k pts i + State.moved d 0 (e i)) = z (e i) - predictedMeas e k pts i := by
      rw [hz]
      ring
    unfold ukfInnovation
    simp only [this]
  unfold ukfCorrectAt
  dsimp only
  rw [e2, e3, e1, e4]
  by_cases hd : (measCovar e k pts + subR e R).det = 0
  · rw [if_pos hd, if_pos hd]
    rfl
  · rw [if_neg hd, if_neg hd]
    by_cases hc : checkMahalanobis (ukfInnovation e z (predictedMeas e k pts)) (measCovar e k pts + subR e R)⁻¹ thr
    · rw [if_pos hc, if_pos hc, ← moved_add, wrap_moved]
      rfl
    · rw [if_neg hc, if_neg hc]
      rfl

/-- The sigma points a filter is constructed with teach it nothing, wherever the origin. -/
theorem correctU_start (hw : ∑ s, k.w s = 1) (z : Fin 15 → ℝ) (R : Mat15) (x : State) (P : Mat15) :
    ukfCorrectAt e k (fun _ => 0) z R .unlimited x P =
      if (subR e R).det = 0 then none else some (wrapStateAngles x, P, true) := by
  obtain ⟨h1, h2, h3⟩ := correct_degenerate e hw x
  unfold ukfCorrectAt
  simp only [h1, h2, zero_add, Matrix.zero_mul, Matrix.zero_mulVec, add_zero, sub_zero, checkMahalanobis, if_true]

end

theorem values_moved (d : Fin 3 → ℝ) (m : Payload) (i : Fin m.indices.length) :
    ((m.moved d).z (m.indices.get i)).val = (m.z (m.indices.get i)).val + State.moved d 0 (m.indices.get i) := by
  obtain ⟨a, ha⟩ := finite_of_mem m _ (List.get_mem m.indices i)
  simp only [Payload.moved, State.moved]
  split
  · rw [ha]
    simp [Dbl.movedBy, Dbl.val]
  · simp

/-- The memories of the two filters: the same flag, and moved sigma points while they are in use; or, if `new`, those of a
filter that has just been constructed. -/
def MemMoved (new : Prop) (d : Fin 3 → ℝ) (m m' : UkfMem) : Prop :=
  m'.uncorrected = m.uncorrected ∧ (m.uncorrected = true →
    (m'.pts = fun s => State.moved d (m.pts s)) ∨ (new ∧ m.pts = (fun _ => 0) ∧ m'.pts = fun _ => 0))

theorem Ukf.correct_moved {p : FilterPar} (llt : Llt) (k : UkfConst) (hw : ∑ s, k.w s = 1) (new : Prop) (d : Fin 3 → ℝ) (m : Payload)
    (ht : new → m.thresh = .unlimited) (x : State) (P : Mat15) (mem mem' : UkfMem) (hm : MemMoved new d mem mem') :
    (Ukf.correct llt k (m.moved d) (State.moved d x) P mem' = none ∧ Ukf.correct llt k m x P mem = none) ∨
    ∃ r r', Ukf.correct llt k m x P mem = some r ∧ Ukf.correct llt k (m.moved d) (State.moved d x) P mem' = some r' ∧
      r'.1 = State.moved d r.1 ∧ r'.2.1 = r.2.1 ∧ MemMoved new d r.2.2 r'.2.2 := by
  obtain ⟨hu, hp⟩ := hm
  have hidx : ∀ pts : Sig → State, ukfCorrectAt (m.moved d).indices.get k pts (fun i => ((m.moved d).z i).val) (m.moved d).R
      (m.moved d).thresh (State.moved d x) P = ukfCorrectAt m.indices.get k pts (fun i => ((m.moved d).z i).val) m.R
      m.thresh (State.moved d x) P := by
    intro pts
    show ukfCorrectAt (m.moved d).indices.get k pts _ m.R m.thresh _ _ = _
    rw [indices_moved]
  have moved : ∀ pts : Sig → State, ukfCorrectAt m.indices.get k (fun s => State.moved d (pts s))
      (fun i => ((m.moved d).z i).val) m.R m.thresh (State.moved d x) P =
      (ukfCorrectAt m.indices.get k pts (fun i => (m.z i).val) m.R m.thresh x P).map fun r => (State.moved d r.1, r.2) :=
    fun pts => correctU_moved d m.indices.get hw pts _ _ (values_moved d m) m.R m.thresh x P
  unfold Ukf.correct
  simp only [hidx]
  by_cases hun : mem.uncorrected = true
  · have hun' : mem'.uncorrected = true := by rw [hu]; exact hun
    unfold UkfMem.refresh
    simp only [hun, hun', if_true, Bool.true_and]
    rcases hp hun with h1 | ⟨h0, h1, h2⟩
    · rw [h1, moved]
      cases ukfCorrectAt m.indices.get k mem.pts (fun i => (m.z i).val) m.R m.thresh x P with
      | none => exact Or.inl ⟨rfl, rfl⟩
      | some r => exact Or.inr ⟨_, _, rfl, rfl, rfl, rfl, rfl, fun _ => Or.inl rfl⟩
    · rw [h1, h2, ht h0, correctU_start _ hw, correctU_start _ hw]
      split
      · exact Or.inl ⟨rfl, rfl⟩
      · refine Or.inr ⟨_, _, rfl, rfl, wrap_moved d x, rfl, rfl, fun h => ?_⟩
        cases h
  · have hun1 : mem.uncorrected = false := by simpa using hun
    have hun' : mem'.uncorrected = false := by rw [hu]; exact hun1
    unfold UkfMem.refresh
    simp only [hun1, hun', Bool.false_eq_true, if_false, Bool.false_and]
    have : sigmaPoints llt k (State.moved d x) P = fun s => State.moved d (sigmaPoints llt k x P s) :=
      funext fun s => sigma_moved d llt k x P s
    rw [this, moved]
    cases ukfCorrectAt m.indices.get k (sigmaPoints llt k x P) (fun i => (m.z i).val) m.R m.thresh x P with
    | none => exact Or.inl ⟨rfl, rfl⟩
    | some r => exact Or.inr ⟨_, _, rfl, rfl, rfl, rfl, rfl, fun h => by cases h⟩

/-- The two filters treat what they see in the same way. -/
noncomputable def movedSimU (p : FilterPar) (llt : Llt) (k : UkfConst) (hw : ∑ s, k.w s = 1) (new : Prop)
    (d : Fin 3 → ℝ) : CoreSim (ukfCore p llt k) (ukfCore p llt k) 0 where
  low := 0
  X x x' := x' = Option.map (State.moved d) x
  Cov P P' := P' = P
  Ext m m' := MemMoved new d m m'
  Par q q' := q' = q
  Z z z' := z' = Payload.moved d z ∧ (new → Payload.thresh z = .unlimited)
  Ctl u t u' t' := u' = u ∧ t' = t
  predict := by
    rintro _ q _ _ u t x _ _ P e e' ref delta - rfl ⟨rfl, rfl⟩ rfl rfl hm
    cases x with
    | none => exact ⟨rfl, rfl, hm⟩
    | some x =>
      have h := predictU_moved d p llt hw q u t ref (toSec delta) x P
      rw [Int.add_zero]
      cases hp : Ukf.predict p llt k q u t ref (toSec delta) x P with
      | none =>
        rw [hp] at h
        have e1 := ukfCore_predict_none (mem := e) hp
        have e2 := ukfCore_predict_none (mem := e') h
        have e1 : (ukfCore p llt k).predict q u t ref delta (some x, P, e) = _ := e1
        have e2 : (ukfCore p llt k).predict q u t ref delta (Option.map (State.moved d) (some x), P, e') = _ := e2
        rw [e1, e2]
        exact ⟨rfl, rfl, hm⟩
      | some r =>
        rw [hp] at h
        have e1 := ukfCore_predict_some (mem := e) hp
        have e2 := ukfCore_predict_some (mem := e') h
        have e1 : (ukfCore p llt k).predict q u t ref delta (some x, P, e) = _ := e1
        have e2 : (ukfCore p llt k).predict q u t ref delta (Option.map (State.moved d) (some x), P, e') = _ := e2
        rw [e1, e2]
        exact ⟨rfl, rfl, rfl, fun _ => Or.inl rfl⟩
  correct := by
    rintro z _ x _ _ P e e' ⟨rfl, ht⟩ rfl rfl hm
    cases x with
    | none => exact ⟨rfl, rfl, hm⟩
    | some x =>
      rcases Ukf.correct_moved (p := p) llt k hw new d z ht x P e e' hm with ⟨h1, h2⟩ | ⟨r, r', h1, h2, h3, h4, h5⟩
      · have e1 : (ukfCore p llt k).correct z (some x, P, e) = _ := ukfCore_correct_none h2
        have e2 : (ukfCore p llt k).correct (Payload.moved d z) (Option.map (State.moved d) (some x), P, e') = _ :=
          ukfCore_correct_none h1
        rw [e1, e2]
        exact ⟨rfl, rfl, hm⟩
      · have e1 : (ukfCore p llt k).correct z (some x, P, e) = _ := ukfCore_correct_some h1
        have e2 : (ukfCore p llt k).correct (Payload.moved d z) (Option.map (State.moved d) (some x), P, e') = _ :=
          ukfCore_correct_some h2
        rw [e1, e2]
        exact ⟨by rw [h3]; rfl, h4, h5⟩
  initX := by
    rintro z _ x _ ⟨rfl, -⟩ rfl
    cases x with
    | none => rfl
    | some x => exact initState_moved z x d
  initCov := by
    rintro z _ P _ ⟨rfl, -⟩ rfl
    rfl

section node
variable {p : FilterPar} {llt : Llt} {k : UkfConst}

/-- The same event for a node with the unscented filter: positions in it seen from an origin off by `-d`. -/
def Node.Event.movedU (d : Fin 3 → ℝ) : Node.Event (ukfCore p llt k) → Node.Event (ukfCore p llt k)
  | .sensor topic stamp z => .sensor topic stamp (Option.map (Payload.moved d) z)
  | .setPose stamp now r => .setPose stamp now (Option.map (fun a => (Option.map (State.moved d) a.1, a.2)) r)
  | e => e

/-- The same message sent: positions seen from that origin. -/
def Out.movedU (d : Fin 3 → ℝ) : Out (ukfCore p llt k) → Out (ukfCore p llt k)
  | .odom t x P => .odom t (Option.map (State.moved d) x) P
  | o => o

/-- The same configuration: the initial state seen from that origin. -/
def Cfg.movedU (d : Fin 3 → ℝ) (g : Cfg (ukfCore p llt k)) : Cfg (ukfCore p llt k) :=
  { g with initialState := Option.map (State.moved d) g.initialState }

/-- Neither `reset` nor a `set_pose` that cannot be transformed nor a measurement with a rejection threshold. -/
def Node.Event.KeepsOriginU : Node.Event (ukfCore p llt k) → Prop
  | .reset => False
  | .setPose _ _ r => r ≠ none
  | .sensor _ _ z => ∀ m : Payload, z = some m → m.thresh = .unlimited
  | _ => True

theorem outU_moved {hw : ∑ s, k.w s = 1} {new : Prop} {d : Fin 3 → ℝ} {l l' : List (Out (ukfCore p llt k))}
    (h : List.Forall₂ (OutSim (movedSimU p llt k hw new d)) l l') : l' = l.map (Out.movedU d) := by
  induction h with
  | nil => rfl
  | cons hab _ ih =>
    rw [List.map_cons, ← ih]
    congr 1
    cases hab with
    | odom hx hP =>
      have hx : _ = _ := hx
      have hP : _ = _ := hP
      rw [hx, hP, Int.add_zero]
      rfl
    | tf t => rw [Int.add_zero]; rfl
    | accel t => rw [Int.add_zero]; rfl

end node

/-- Neither `reset` nor a `set_pose` that cannot be transformed. -/
def Node.Event.KeepsOriginV {p : FilterPar} {llt : Llt} {k : UkfConst} : Node.Event (ukfCore p llt k) → Prop
  | .reset => False
  | .setPose _ _ r => r ≠ none
  | _ => True

theorem eventsU_moved {p : FilterPar} {llt : Llt} {k : UkfConst} (hw : ∑ s, k.w s = 1) (new : Prop) (d : Fin 3 → ℝ)
    (es : List (Node.Event (ukfCore p llt k))) (hes : ∀ e ∈ es, e.KeepsOriginV)
    (ht : new → ∀ e ∈ es, e.KeepsOriginU) :
    List.Forall₂ (EventSim (movedSimU p llt k hw new d)) es (es.map (Node.Event.movedU d)) := by
  rw [List.forall₂_map_right_iff, List.forall₂_same]
  intro e he
  have hk := hes e he
  have pos : ∀ t, Pos 0 0 t := fun t => Or.inl rfl
  cases e with
  | sensor topic stamp z =>
    have := EventSim.sensor (σ := movedSimU p llt k hw new d) topic (stamp := stamp) (z := z)
      (z' := Option.map (Payload.moved d) z) (pos _) (by cases z with
        | none => exact .none
        | some z => exact .some ⟨rfl, fun h => ht h _ he z rfl⟩)
    rwa [Int.add_zero] at this
  | control v t => exact .control ⟨rfl, rfl⟩
  | setPose stamp now r =>
    cases r with
    | none => exact absurd rfl hk
    | some r =>
      have := EventSim.setPose (σ := movedSimU p llt k hw new d) (stamp := stamp) (now := now) (r := some r)
        (r' := some (Option.map (State.moved d) r.1, r.2)) (pos _) (pos _) (.some ⟨rfl, rfl⟩) (fun h => by cases h)
      rwa [Int.add_zero, Int.add_zero] at this
  | reset => exact absurd hk id
  | toggle on => exact .toggle on
  | enable => exact .enable
  | tick now now2 tfOk =>
    have := EventSim.tick (σ := movedSimU p llt k hw new d) tfOk (pos now) (pos now2)
    rwa [Int.add_zero, Int.add_zero] at this

theorem keepsU {p : FilterPar} {llt : Llt} {k : UkfConst} {e : Node.Event (ukfCore p llt k)} (h : e.KeepsOriginU) :
    e.KeepsOriginV := by
  cases e <;> first | exact h | trivial

theorem cfgU_moved {p : FilterPar} {llt : Llt} {k : UkfConst} (hw : ∑ s, k.w s = 1) (new : Prop) (d : Fin 3 → ℝ)
    (cfg : Cfg (ukfCore p llt k)) : CfgSim (movedSimU p llt k hw new d) cfg (cfg.movedU d) :=
  ⟨rfl, rfl, rfl, rfl, rfl, rfl, rfl, rfl, rfl, rfl, rfl, rfl⟩

theorem startU_moved {p : FilterPar} {llt : Llt} {k : UkfConst} (hw : ∑ s, k.w s = 1) (d : Fin 3 → ℝ)
    (cfg : Cfg (ukfCore p llt k)) (u : Fin 6 → ℝ) (now : Int) :
    NodeSim (QueueSim.sorted (movedSimU p llt k hw True d)) (Node.start cfg (PQueue.sortedList _ _) UkfMem.init u now)
      (Node.start (cfg.movedU d) (PQueue.sortedList _ _) UkfMem.init u now) := by
  have := NodeSim.start (κ := QueueSim.sorted (movedSimU p llt k hw True d)) (g := cfg) (g' := cfg.movedU d)
    (cfgU_moved hw True d cfg) rfl rfl ⟨rfl, rfl⟩
    (e := UkfMem.init) (e' := UkfMem.init) ⟨rfl, fun _ => Or.inr ⟨trivial, rfl, rfl⟩⟩ (u := u) (u' := u) ⟨rfl, rfl⟩ now
  rwa [Int.add_zero] at this

/-- C90 for the unscented filter: a node told everything as seen from another origin says everything as seen from that
origin, whatever happens except `reset`, a `set_pose` that cannot be transformed, and measurements with a rejection
threshold.  This includes start-up, where the sigma points are zero whatever the origin (C18).  Rejection thresholds:
`C90_ukf_threshold_partial`, `C90_ukf_gate`. -/
theorem C90_ukf_partial (p : FilterPar) (llt : Llt) {alpha kappa beta : ℝ} {k : UkfConst}
    (hk : setConstants alpha kappa beta = some k) (d : Fin 3 → ℝ) (cfg : Cfg (ukfCore p llt k)) (u : Fin 6 → ℝ) (now : Int)
    (es : List (Node.Event (ukfCore p llt k))) (hes : ∀ e ∈ es, e.KeepsOriginU) :
    (Node.run (cfg.movedU d) (Node.start (cfg.movedU d) (PQueue.sortedList _ _) UkfMem.init u now)
        (es.map (Node.Event.movedU d))).2 =
      (Node.run cfg (Node.start cfg (PQueue.sortedList _ _) UkfMem.init u now) es).2.map (Out.movedU d) := by
  have hw := C16_weights_sum_to_one hk
  exact outU_moved (NodeSim.run (cfgU_moved hw True d cfg)
    (eventsU_moved hw True d es (fun e he => keepsU (hes e he)) fun _ => hes) (startU_moved hw d cfg u now)).2

/-- Measurements, a control input and a known pose. -/
example (llt : Llt) (k : UkfConst) : ∀ e ∈ ([.sensor "t" 1 (some vxZ), .control (0 : Fin 6 → ℝ) 1,
    .setPose 2 2 (some (some 0, (1 : Mat15))), .tick 3 3 true] : List (Node.Event (ukfCore demoPar llt k))), e.KeepsOriginU := by
  intro e he
  simp only [List.mem_cons, List.not_mem_nil, or_false] at he
  rcases he with rfl | rfl | rfl | rfl
  · rintro m h
    injection h with h
    subst h
    rfl
  · trivial
  · exact fun h => by cases h
  · trivial

/-- Two unscented filters with clocks that differ by `c`: they do not look at the control input (ukf.cpp:310-405). -/
noncomputable def laterSimU (p : FilterPar) (llt : Llt) (k : UkfConst) (c : Int) :
    CoreSim (ukfCore p llt k) (ukfCore p llt k) c where
  low := 0
  X x x' := x' = x
  Cov P P' := P' = P
  Ext m m' := m' = m
  Par q q' := q' = q
  Z z z' := z' = z
  Ctl _ _ _ _ := True
  predict := by
    rintro _ q u t u' t' _ x _ P _ e ref delta hr rfl h rfl rfl rfl
    cases x with
    | none => exact ⟨rfl, rfl, rfl⟩
    | some x => exact ⟨rfl, rfl, rfl⟩
  correct := by
    rintro _ z _ x _ P _ e rfl rfl rfl rfl
    exact ⟨rfl, rfl, rfl⟩
  initX := by
    rintro _ z _ x rfl rfl
    rfl
  initCov := by
    rintro _ z _ P rfl rfl
    rfl

/-- C91 for the unscented filter: all times need only be after the epoch, whatever the control parameters; a `reset` or
an uninitialised control vector make no difference. -/
theorem C91_ukf_partial (p : FilterPar) (llt : Llt) (k : UkfConst) (c : Int) (cfg : Cfg (ukfCore p llt k)) (mem : UkfMem)
    (u u' : Fin 6 → ℝ) (now : Int) (es : List (Node.Event (ukfCore p llt k))) (hes : ∀ e ∈ es, e.AfterEpoch c 0) :
    (Node.run cfg (Node.start cfg (PQueue.sortedList _ _) mem u' (now + c)) (es.map (Node.Event.later c))).2 =
      (Node.run cfg (Node.start cfg (PQueue.sortedList _ _) mem u now) es).2.map (Out.later c) := by
  have hg : CfgSim (laterSimU p llt k c) cfg cfg := ⟨rfl, rfl, rfl, rfl, rfl, rfl, rfl, rfl, rfl, rfl, rfl, rfl⟩
  have pos : ∀ {t}, Node.Event.AfterEpoch.late c 0 t → Pos 0 c t := by
    intro t ht
    unfold Node.Event.AfterEpoch.late at ht
    unfold Pos
    omega
  have he : List.Forall₂ (EventSim (laterSimU p llt k c)) es (es.map (Node.Event.later c)) := by
    rw [List.forall₂_map_right_iff, List.forall₂_same]
    intro e he
    have hk := hes e he
    cases e with
    | sensor topic stamp z =>
      refine .sensor topic (pos hk) ?_
      cases z with
      | none => exact .none
      | some z => exact .some rfl
    | control v t => exact .control trivial
    | setPose stamp now r =>
      refine .setPose (pos hk.1) (pos hk.2) ?_ fun _ => ⟨rfl, rfl⟩
      cases r with
      | none => exact .none
      | some r => exact .some ⟨rfl, rfl⟩
    | reset => exact .reset rfl fun _ => trivial
    | toggle on => exact .toggle on
    | enable => exact .enable
    | tick now now2 tfOk => exact .tick tfOk (pos hk.1) (pos hk.2)
  have hs : NodeSim (QueueSim.sorted (laterSimU p llt k c)) (Node.start cfg (PQueue.sortedList _ _) mem u now)
      (Node.start cfg (PQueue.sortedList _ _) mem u' (now + c)) :=
    NodeSim.start (κ := QueueSim.sorted (laterSimU p llt k c)) (g := cfg) (g' := cfg) hg rfl rfl trivial
      (e := mem) (e' := mem) rfl (u := u) (u' := u') trivial now
  have h := (NodeSim.run hg he hs).2
  revert h
  generalize (Node.run cfg (Node.start cfg (PQueue.sortedList _ _) mem u now) es).2 = l
  generalize (Node.run cfg (Node.start cfg (PQueue.sortedList _ _) mem u' (now + c)) (es.map (Node.Event.later c))).2 = l'
  intro h
  induction h with
  | nil => rfl
  | cons hab _ ih =>
    rw [List.map_cons, ← ih]
    congr 1
    cases hab with
    | odom hx hP =>
      have hx : _ = _ := hx
      have hP : _ = _ := hP
      rw [hx, hP]
      rfl
    | tf t => rfl
    | accel t => rfl

/-- Times after the epoch on both clocks. -/
example (llt : Llt) (k : UkfConst) : ∀ e ∈ ([.sensor "t" 5 (some vxZ), .control (0 : Fin 6 → ℝ) 0, .reset, .tick 7 8 true] :
    List (Node.Event (ukfCore demoPar llt k))), e.AfterEpoch (-3) 0 := by
  intro e he
  simp only [List.mem_cons, List.not_mem_nil, or_false] at he
  rcases he with rfl | rfl | rfl | rfl <;> simp [Node.Event.AfterEpoch, Node.Event.AfterEpoch.late]

end RL
