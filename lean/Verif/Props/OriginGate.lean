import Verif.Props.OriginUkf
import Verif.Props.UkfCorrect
/-! # C90: a rejection threshold before the first prediction of the unscented filter -/

namespace RL
open Matrix

/-- A message that says `x = v` with variance 1, to be rejected as `t` says. -/
def saysX (v : ℝ) (t : Thresh) : Payload := ⟨fun i => decide (i = 0), fun i => if i = 0 then .fin v else .nan, 1, t⟩

theorem saysX_indices (v : ℝ) (t : Thresh) : (saysX v t).indices = [0] := rfl

theorem saysX_val (v : ℝ) (t : Thresh) : ((saysX v t).z 0).val = v := rfl

theorem saysX_init (v w : ℝ) (t : Thresh) : initState (saysX v t) (Pi.single 0 w) = some (Pi.single 0 v) := by
  unfold initState
  rw [if_pos]
  · congr 1
    funext i
    by_cases h : i = 0
    · subst h; simp [saysX]
    · simp [saysX, h]
  · intro i hi
    have : i = 0 := by simpa [saysX] using hi
    subst this
    rfl

theorem saysX_cov (v : ℝ) (t : Thresh) : initCov (saysX v t) 1 = 1 := by
  ext i j
  unfold initCov
  rw [Matrix.of_apply]
  split <;> rfl

/-- Ten metres along the x axis. -/
def tenX : Fin 3 → ℝ := fun i => if i = 0 then 10 else 0

theorem saysX_moved (v : ℝ) (t : Thresh) : Payload.moved tenX (saysX v t) = saysX (v + 10) t := by
  unfold Payload.moved saysX
  congr 1
  funext i
  by_cases h : i = 0
  · subst h; rfl
  · by_cases h3 : i.val < 3
    · simp [h, Dbl.movedBy]
    · simp [h, h3]

theorem single_moved (v : ℝ) : State.moved tenX (Pi.single 0 v) = Pi.single 0 (v + 10) := by
  funext i
  unfold State.moved tenX
  by_cases h : i = 0
  · subst h; simp
  · rw [Pi.single_eq_of_ne h, Pi.single_eq_of_ne h]
    split
    · rw [if_neg, add_zero]
      intro h'
      exact h (Fin.ext (Fin.mk.inj h'))
    · rfl

theorem subR_one {n : ℕ} (e : Fin n → Fin 15) (he : Function.Injective e) : subR e 1 = 1 := by
  ext i j
  unfold subR
  rw [Matrix.of_apply]
  by_cases h : i = j
  · subst h
    rw [if_pos rfl, one_apply_eq, one_apply_eq]
    unfold sanitize
    norm_num
  · rw [if_neg h, one_apply_ne h, one_apply_ne (fun h' => h (he h'))]

/-- A correction on sigma points that are all zero. -/
theorem correct_on_zero {n : ℕ} (e : Fin n → Fin 15) (he : Function.Injective e) {k : UkfConst} (hw : ∑ s, k.w s = 1)
    (z : Fin 15 → ℝ) (thr : Thresh) (x : State) (P : Mat15) :
    (checkMahalanobis (ukfInnovation e z 0) 1 thr →
      ukfCorrectAt e k (fun _ => 0) z 1 thr x P = some (wrapStateAngles x, P, true)) ∧
    (¬ checkMahalanobis (ukfInnovation e z 0) 1 thr →
      ukfCorrectAt e k (fun _ => 0) z 1 thr x P = some (x, P, false)) := by
  obtain ⟨a1, a2, a3⟩ := correct_degenerate e hw x
  unfold ukfCorrectAt
  dsimp only
  have hS : measCovar e k (fun _ => 0) + subR e 1 = 1 := by rw [a1, zero_add, subR_one e he]
  rw [hS, a1, a2, a3, inv_one, if_neg (by rw [det_one]; exact one_ne_zero)]
  constructor
  · intro h
    rw [if_pos h]
    simp
  · intro h
    rw [if_neg h]

theorem e0_injective : Function.Injective ([0] : List (Fin 15)).get := fun i j _ =>
  Subsingleton.elim (α := Fin 1) i j

theorem check_zero (e : Fin 1 → Fin 15) (he : e 0 = 0) (z : Fin 15 → ℝ) :
    checkMahalanobis (ukfInnovation e z 0) 1 (.sigmas 1) ↔ z 0 * z 0 < 1 := by
  have hy : ukfInnovation e z 0 0 = z 0 := by
    unfold ukfInnovation
    rw [he, if_neg (by decide)]
    exact sub_zero _
  show ¬ (ukfInnovation e z 0 ⬝ᵥ (1 : Matrix (Fin 1) (Fin 1) ℝ).mulVec (ukfInnovation e z 0) ≥ 1 * 1) ↔ _
  rw [one_mulVec]
  show ¬ (∑ i : Fin 1, ukfInnovation e z 0 i * ukfInnovation e z 0 i ≥ 1 * 1) ↔ _
  rw [Fin.sum_univ_one, hy, not_le, one_mul]

theorem wrap_single (v : ℝ) : wrapStateAngles (Pi.single 0 v) = Pi.single 0 v := by
  funext i
  unfold wrapStateAngles
  split
  · rename_i h
    have : i ≠ 0 := by rcases h with rfl | rfl | rfl <;> decide
    rw [Pi.single_eq_of_ne this]
    exact normalizeAngle_of_mem (by linarith [Real.pi_pos]) Real.pi_pos.le
  · rfl

/-- The second message, when the robot is at the origin: it passes the test, and from then on sigma points are drawn
anew. -/
theorem second_near (llt : Llt) {k : UkfConst} (hw : ∑ s, k.w s = 1) :
    Ukf.correct llt k (saysX 0 (.sigmas 1)) (Pi.single 0 0) 1 UkfMem.init =
      some (Pi.single 0 0, 1, { pts := fun _ => 0, uncorrected := false }) := by
  unfold Ukf.correct
  dsimp only
  have h := (correct_on_zero ([0] : List (Fin 15)).get e0_injective hw (fun i => ((saysX 0 (.sigmas 1)).z i).val) (.sigmas 1)
    (Pi.single 0 0) 1).1 ((check_zero _ rfl _).2 (by rw [saysX_val]; norm_num))
  rw [wrap_single] at h
  show Option.map _ (ukfCorrectAt ([0] : List (Fin 15)).get k (fun _ => 0) _ 1 (.sigmas 1) _ 1) = _
  rw [h]
  rfl

/-- The second message, when the robot is far from the origin: it is rejected. -/
theorem second_far (llt : Llt) {k : UkfConst} (hw : ∑ s, k.w s = 1) :
    Ukf.correct llt k (saysX 10 (.sigmas 1)) (Pi.single 0 10) 1 UkfMem.init = some (Pi.single 0 10, 1, UkfMem.init) := by
  unfold Ukf.correct
  dsimp only
  have h := (correct_on_zero ([0] : List (Fin 15)).get e0_injective hw (fun i => ((saysX 10 (.sigmas 1)).z i).val) (.sigmas 1)
    (Pi.single 0 10) 1).2 (fun h => absurd ((check_zero _ rfl _).1 h) (by rw [saysX_val]; norm_num))
  show Option.map _ (ukfCorrectAt ([0] : List (Fin 15)).get k (fun _ => 0) _ 1 (.sigmas 1) _ 1) = _
  rw [h]
  rfl

/-- The third message far from the origin has no effect. -/
theorem third_far (llt : Llt) {k : UkfConst} (hw : ∑ s, k.w s = 1) :
    Ukf.correct llt k (saysX 11 .unlimited) (Pi.single 0 10) 1 UkfMem.init =
      some (Pi.single 0 10, 1, { pts := fun _ => 0, uncorrected := false }) := by
  unfold Ukf.correct
  dsimp only
  have h := (correct_on_zero ([0] : List (Fin 15)).get e0_injective hw (fun i => ((saysX 11 .unlimited).z i).val) .unlimited
    (Pi.single 0 10) 1).1 trivial
  rw [wrap_single] at h
  show Option.map _ (ukfCorrectAt ([0] : List (Fin 15)).get k (fun _ => 0) _ 1 .unlimited _ 1) = _
  rw [h]
  rfl

/-- Near the origin it moves the robot. -/
theorem third_near (llt : Llt) {k : UkfConst} (hk : setConstants 1 0 2 = some k) :
    ∃ x P m, Ukf.correct llt k (saysX 1 .unlimited) (Pi.single 0 0) 1 { pts := fun _ => 0, uncorrected := false } =
      some (x, P, m) ∧ x 0 = 1 / 2 := by
  obtain ⟨-, h15, -⟩ := setConstants_spec hk
  have hl : k.lam = 0 := by linarith
  have hna : ¬ angular 0 := by unfold angular; decide
  have key : ∃ r : State × Mat15 × Bool,
      ukfCorrectAt (fun _ : Fin 1 => (0 : Fin 15)) k (sigmaPoints llt k (Pi.single 0 0) 1)
        (fun i => ((saysX 1 .unlimited).z i).val) 1 .unlimited (Pi.single 0 0) 1 = some r ∧ r.1 0 = 1 / 2 := by
    have hc : Calm (fun _ : Fin 1 => (0 : Fin 15)) k (Pi.single 0 0) 1 :=
      ⟨fun _ h => absurd h hna, fun _ h => absurd h hna, fun _ h => absurd h hna, fun _ _ _ h => absurd h hna⟩
    have hpos : 0 < 15 + k.lam := by rw [hl]; norm_num
    have hS1 : subR (fun _ : Fin 1 => (0 : Fin 15)) 1 = 1 := subR_one _ (fun i j _ => Subsingleton.elim i j)
    unfold ukfCorrectAt
    dsimp only
    rw [measCovar_fresh llt hk hpos _ 1 PosDef.one _ hc, crossCovar_fresh llt hk hpos _ 1 PosDef.one _ hc,
      predictedMeas_fresh llt hk hpos _ 1 PosDef.one _ hc, hS1]
    obtain ⟨S, hS⟩ : ∃ S : Matrix (Fin 1) (Fin 1) ℝ,
        S = (1 : Mat15).submatrix (fun _ : Fin 1 => (0 : Fin 15)) (fun _ => 0) + 1 := ⟨_, rfl⟩
    rw [← hS]
    have hS00 : S 0 0 = 2 := by
      rw [hS]
      show (1 : Mat15) 0 0 + (1 : Matrix (Fin 1) (Fin 1) ℝ) 0 0 = 2
      rw [one_apply_eq, one_apply_eq]; norm_num
    have hinv : S⁻¹ 0 0 = 1 / 2 := by
      rw [Matrix.inv_def, Matrix.adjugate_fin_one, det_fin_one, hS00]
      simp
    rw [if_neg (by rw [det_fin_one, hS00]; norm_num), if_pos (show checkMahalanobis _ _ Thresh.unlimited from trivial)]
    refine ⟨_, rfl, ?_⟩
    have hw : ∀ y : State, wrapStateAngles y 0 = y 0 := fun y => if_neg (by decide)
    dsimp only
    rw [hw, Pi.add_apply, Pi.single_eq_same, zero_add]
    show ∑ j : Fin 1, ((1 : Mat15).submatrix id (fun _ : Fin 1 => (0 : Fin 15)) * S⁻¹) 0 j * _ = _
    rw [Fin.sum_univ_one, Matrix.mul_apply, Fin.sum_univ_one, hinv]
    have hy : ukfInnovation (fun _ : Fin 1 => (0 : Fin 15)) (fun i => ((saysX 1 .unlimited).z i).val)
        (fun _ => (0 : ℝ)) 0 = 1 := by
      unfold ukfInnovation
      rw [if_neg (by decide)]
      show ((saysX 1 .unlimited).z 0).val - (0 : ℝ) = 1
      rw [saysX_val, sub_zero]
    rw [hy]
    show (1 : Mat15) 0 0 * (1 / 2) * 1 = 1 / 2
    rw [one_apply_eq]; norm_num
  obtain ⟨r, hr, h2⟩ := key
  refine ⟨r.1, r.2.1, { pts := sigmaPoints llt k (Pi.single 0 0) 1, uncorrected := false }, ?_, h2⟩
  have hget : ([0] : List (Fin 15)).get = fun _ => 0 := by
    funext i
    rw [List.get_eq_getElem]
    simp
  show Option.map _ (ukfCorrectAt ([0] : List (Fin 15)).get k (sigmaPoints llt k (Pi.single 0 0) 1) _ 1 .unlimited _ 1) = _
  rw [hget]
  exact congrArg _ hr

/-- Everything the node has to do here: three messages with one stamp, then a cycle. -/
theorem three_messages {C : Core} (cfg : Cfg C) (h1 : cfg.disabledAtStartup = false) (h2 : cfg.smooth = false)
    (h3 : cfg.predictToCurrent = false) (h4 : cfg.permitCorrected = false) (h5 : cfg.publishAccel = false)
    (h6 : cfg.useControl = false) (e : C.Ext) (u : C.Ctl) (z1 z2 z3 : C.Z) (x2 x3 : C.X) (P2 P3 : C.Cov) (e2 e3 : C.Ext)
    (c2 : C.correct z2 (C.initX z1 cfg.initialState, C.initCov z1 cfg.initialCov, e) = (x2, P2, e2))
    (c3 : C.correct z3 (x2, P2, e2) = (x3, P3, e3)) :
    (Node.run cfg (Node.start cfg (PQueue.sortedList _ _) e u 0)
      [.sensor "t" 1 (some z1), .sensor "t" 1 (some z2), .sensor "t" 1 (some z3), .tick 2 2 false]).2 = [.odom 1 x3 P3] := by
  simp [Node.run, Node.step, Node.start, Node.sensor, Node.enqueue, Node.periodic, Node.advance, Node.integrate,
      Node.drain, Node.publish, PQueue.sortedList, PQueue.insertSorted, PQueue.size, Filt.processMeasurement, Filt.correct,
      h1, h2, h3, h4, h5, h6, c2, c3]

/-- A node with nothing but a filter. -/
noncomputable def bareCfg (p : FilterPar) (llt : Llt) (k : UkfConst) : Cfg (ukfCore p llt k) :=
  { smooth := false, historyLength := 0, predictToCurrent := false, useControl := false, permitCorrected := false
    publishTf := false, publishAccel := false, sensorTimeout := 100, processNoise := defaultQ
    initialCov := (1 : Mat15), keptNoise := defaultQ, keptCov := (1 : Mat15)
    initialState := some 0, disabledAtStartup := false, ctl0 := (0 : Fin 6 → ℝ) }

/-- C90, refuted for the unscented filter: before the first prediction the sigma points are zero, so a rejection threshold
compares a measurement with the origin of the world frame rather than with the estimate.  Three messages with one stamp say
`x = 0`, `x = 0`, `x = 1`, seen from elsewhere `x = 10`, `x = 10`, `x = 11`; only the second one has a threshold.  Seen from
elsewhere it is rejected, although it is exactly what the filter expects, and the third one is then ignored. -/
theorem C90_ukf_gate (p : FilterPar) (llt : Llt) {k : UkfConst} (hk : setConstants 1 0 2 = some k) :
    ∃ (d : Fin 3 → ℝ) (cfg : Cfg (ukfCore p llt k)) (u : Fin 6 → ℝ) (now : Int) (es : List (Node.Event (ukfCore p llt k))),
      (∀ e ∈ es, match e with | .reset | .setPose .. => False | _ => True) ∧
      (Node.run (cfg.movedU d) (Node.start (cfg.movedU d) (PQueue.sortedList _ _) UkfMem.init u now)
        (es.map (Node.Event.movedU d))).2 ≠
      (Node.run cfg (Node.start cfg (PQueue.sortedList _ _) UkfMem.init u now) es).2.map (Out.movedU d) := by
  have hw := C16_weights_sum_to_one hk
  refine ⟨tenX, bareCfg p llt k, 0, 0,
    [.sensor "t" 1 (some (saysX 0 .unlimited)), .sensor "t" 1 (some (saysX 0 (.sigmas 1))),
      .sensor "t" 1 (some (saysX 1 .unlimited)), .tick 2 2 false], ?_, ?_⟩
  · simp
  obtain ⟨x3, P3, m3, h3, hx3⟩ := third_near llt hk
  have z0 : (some 0 : Option State) = some (Pi.single 0 0) := by rw [Pi.single_zero]
  have near := three_messages (bareCfg p llt k) rfl rfl rfl rfl rfl rfl UkfMem.init (0 : Fin 6 → ℝ) (saysX 0 .unlimited)
    (saysX 0 (.sigmas 1)) (saysX 1 .unlimited) (some (Pi.single 0 0)) (some x3) (1 : Mat15) P3 { pts := fun _ => 0, uncorrected := false } m3
    (by
      have : (ukfCore p llt k).initX (saysX 0 .unlimited) (bareCfg p llt k).initialState = some (Pi.single 0 0) := by
        show (some (0 : State)).bind (initState (saysX 0 .unlimited)) = some (Pi.single 0 0)
        rw [z0, Option.bind_some, saysX_init]
      rw [this]
      show (ukfCore p llt k).correct _ (some (Pi.single 0 0), initCov (saysX 0 .unlimited) 1, UkfMem.init) = _
      rw [saysX_cov]
      exact ukfCore_correct_some (second_near llt hw))
    (ukfCore_correct_some h3)
  have far := three_messages ((bareCfg p llt k).movedU tenX) rfl rfl rfl rfl rfl rfl UkfMem.init (0 : Fin 6 → ℝ)
    (saysX 10 .unlimited) (saysX 10 (.sigmas 1)) (saysX 11 .unlimited) (some (Pi.single 0 10)) (some (Pi.single 0 10)) (1 : Mat15)
    (1 : Mat15) UkfMem.init { pts := fun _ => 0, uncorrected := false }
    (by
      have : (ukfCore p llt k).initX (saysX 10 .unlimited) ((bareCfg p llt k).movedU tenX).initialState =
          some (Pi.single 0 10) := by
        show (Option.map (State.moved tenX) (some (0 : State))).bind (initState (saysX 10 .unlimited)) = some (Pi.single 0 10)
        rw [z0, Option.map_some, single_moved, Option.bind_some, saysX_init]
      rw [this]
      show (ukfCore p llt k).correct _ (some (Pi.single 0 10), initCov (saysX 10 .unlimited) 1, UkfMem.init) = _
      rw [saysX_cov]
      exact ukfCore_correct_some (second_far llt hw))
    (ukfCore_correct_some (third_far llt hw))
  have em : ([.sensor "t" 1 (some (saysX 0 .unlimited)), .sensor "t" 1 (some (saysX 0 (.sigmas 1))),
      .sensor "t" 1 (some (saysX 1 .unlimited)), .tick 2 2 false] : List (Node.Event (ukfCore p llt k))).map
      (Node.Event.movedU tenX) = [.sensor "t" 1 (some (saysX 10 .unlimited)), .sensor "t" 1 (some (saysX 10 (.sigmas 1))),
      .sensor "t" 1 (some (saysX 11 .unlimited)), .tick 2 2 false] := by
    have a := saysX_moved 0 .unlimited
    have b := saysX_moved 0 (.sigmas 1)
    have c := saysX_moved 1 .unlimited
    rw [zero_add] at a b
    rw [show (1 : ℝ) + 10 = 11 by norm_num] at c
    rw [← a, ← b, ← c]
    rfl
  rw [em, near, far]
  intro h
  injection h with h _
  injection h with _ h _
  have h : (some (Pi.single 0 10) : Option State) = some (State.moved tenX x3) := h
  have h0 := congrFun (Option.some.inj h) 0
  have : State.moved tenX x3 0 = x3 0 + 10 := rfl
  rw [this, hx3, Pi.single_eq_same] at h0
  norm_num at h0

/-! ## After the first prediction -/

theorem node_run_append {C : Core} {P : MQueue C} (cfg : Cfg C) (n : Node C P) (a b : List (Node.Event C)) :
    Node.run cfg n (a ++ b) = ((Node.run cfg (Node.run cfg n a).1 b).1,
      (Node.run cfg n a).2 ++ (Node.run cfg (Node.run cfg n a).1 b).2) := by
  induction a generalizing n with
  | nil => rfl
  | cons e a ih =>
    rw [List.cons_append]
    show ((Node.run cfg (n.step cfg e).1 (a ++ b)).1, (n.step cfg e).2 ++ (Node.run cfg (n.step cfg e).1 (a ++ b)).2) = _
    rw [ih]
    exact congrArg (Prod.mk _) (List.append_assoc ..).symm

theorem node_later {p : FilterPar} {llt : Llt} {k : UkfConst} {hw : ∑ s, k.w s = 1} {d : Fin 3 → ℝ}
    {n n' : Node (ukfCore p llt k) (PQueue.sortedList _ _)}
    (h : NodeSim (QueueSim.sorted (movedSimU p llt k hw True d)) n n') (hn : n.filt.ext ≠ UkfMem.init) :
    NodeSim (QueueSim.sorted (movedSimU p llt k hw False d)) n n' := by
  have hm : ∀ {m m'}, MeasSim (movedSimU p llt k hw True d) m m' → MeasSim (movedSimU p llt k hw False d) m m' :=
    fun h => ⟨h.time, h.pos, h.topic, ⟨h.z.1, False.elim⟩, h.ctl⟩
  have hs : ∀ {m m'}, SnapSim (movedSimU p llt k hw True d) m m' → SnapSim (movedSimU p llt k hw False d) m m' :=
    fun h => ⟨h.x, h.cov, h.last, h.pos⟩
  refine ⟨⟨h.filt.init, h.filt.x, h.filt.cov, ?_, h.filt.par, h.filt.ctl, h.filt.last, h.filt.timeout, h.filt.set⟩,
    List.Forall₂.imp (fun _ _ => hm) h.queue, h.states.imp fun _ _ => hs, h.meas.imp fun _ _ => hm, h.msg, h.pose, h.ctl, h.pub,
    h.on, h.enabled, h.fresh⟩
  obtain ⟨h1, h2⟩ : MemMoved True d n.filt.ext n'.filt.ext := h.filt.ext
  refine ⟨h1, fun hu => Or.inl ?_⟩
  rcases h2 hu with h3 | ⟨-, h3, -⟩
  · exact h3
  · refine absurd ?_ hn
    have : ∀ m : UkfMem, m.uncorrected = true → m.pts = (fun _ => 0) → m = UkfMem.init := by
      rintro ⟨_, _⟩ rfl rfl
      rfl
    exact this _ hu h3

/-- C90 for the unscented filter with rejection thresholds: once the filter has predicted or used a measurement, so that
its sigma points are no longer those it was constructed with, thresholds do not matter either.  Missing, because false:
thresholds before that (`C90_ukf_gate`). -/
theorem C90_ukf_threshold_partial (p : FilterPar) (llt : Llt) {alpha kappa beta : ℝ} {k : UkfConst}
    (hk : setConstants alpha kappa beta = some k) (d : Fin 3 → ℝ) (cfg : Cfg (ukfCore p llt k)) (u : Fin 6 → ℝ) (now : Int)
    (es es' : List (Node.Event (ukfCore p llt k))) (hes : ∀ e ∈ es, e.KeepsOriginU)
    (hn : (Node.run cfg (Node.start cfg (PQueue.sortedList _ _) UkfMem.init u now) es).1.filt.ext ≠ UkfMem.init)
    (hes' : ∀ e ∈ es', e.KeepsOriginV) :
    (Node.run (cfg.movedU d) (Node.start (cfg.movedU d) (PQueue.sortedList _ _) UkfMem.init u now)
        ((es ++ es').map (Node.Event.movedU d))).2 =
      (Node.run cfg (Node.start cfg (PQueue.sortedList _ _) UkfMem.init u now) (es ++ es')).2.map (Out.movedU d) := by
  have hw := C16_weights_sum_to_one hk
  have r1 := NodeSim.run (cfgU_moved hw True d cfg)
    (eventsU_moved hw True d es (fun e he => keepsU (hes e he)) fun _ => hes) (startU_moved hw d cfg u now)
  have r2 := NodeSim.run (cfgU_moved hw False d cfg) (eventsU_moved hw False d es' hes' False.elim) (node_later r1.1 hn)
  rw [List.map_append, node_run_append, node_run_append, List.map_append, outU_moved r1.2, outU_moved r2.2]

theorem two_messages {C : Core} (cfg : Cfg C) (h1 : cfg.disabledAtStartup = false) (h2 : cfg.smooth = false)
    (h3 : cfg.predictToCurrent = false) (h4 : cfg.permitCorrected = false) (h5 : cfg.publishAccel = false)
    (h6 : cfg.useControl = false) (e : C.Ext) (u : C.Ctl) (z1 z2 : C.Z) (x2 : C.X) (P2 : C.Cov) (e2 : C.Ext)
    (c2 : C.correct z2 (C.initX z1 cfg.initialState, C.initCov z1 cfg.initialCov, e) = (x2, P2, e2)) :
    (Node.run cfg (Node.start cfg (PQueue.sortedList _ _) e u 0)
      [.sensor "t" 1 (some z1), .sensor "t" 1 (some z2), .tick 2 2 false]).1.filt.ext = e2 := by
  simp [Node.run, Node.step, Node.start, Node.sensor, Node.enqueue, Node.periodic, Node.advance, Node.integrate,
      Node.drain, Node.publish, PQueue.sortedList, PQueue.insertSorted, PQueue.size, Filt.processMeasurement, Filt.correct,
      h1, h2, h3, h4, h5, h6, c2]

/-- Two messages are enough. -/
example (p : FilterPar) (llt : Llt) {k : UkfConst} (hk : setConstants 1 0 2 = some k) :
    ∃ (cfg : Cfg (ukfCore p llt k)) (es : List (Node.Event (ukfCore p llt k))), (∀ e ∈ es, e.KeepsOriginU) ∧
      (Node.run cfg (Node.start cfg (PQueue.sortedList _ _) UkfMem.init (0 : Fin 6 → ℝ) 0) es).1.filt.ext ≠ UkfMem.init := by
  have hw := C16_weights_sum_to_one hk
  refine ⟨{ bareCfg p llt k with initialState := some (Pi.single 0 10 : State) },
    [.sensor "t" 1 (some (saysX 10 .unlimited)), .sensor "t" 1 (some (saysX 11 .unlimited)), .tick 2 2 false], ?_, ?_⟩
  · intro e he
    simp only [List.mem_cons, List.not_mem_nil, or_false] at he
    rcases he with rfl | rfl | rfl
    · rintro m ⟨⟩; rfl
    · rintro m ⟨⟩; rfl
    · trivial
  · rw [two_messages (C := ukfCore p llt k) _ rfl rfl rfl rfl rfl rfl UkfMem.init (0 : Fin 6 → ℝ) (saysX 10 .unlimited)
      (saysX 11 .unlimited) (some (Pi.single 0 10)) (1 : Mat15) { pts := fun _ => 0, uncorrected := false }
      (by
        show (ukfCore p llt k).correct (saysX 11 .unlimited) ((some (Pi.single 0 10 : State)).bind (initState (saysX 10 .unlimited)),
          initCov (saysX 10 .unlimited) 1, UkfMem.init) = _
        rw [saysX_cov, Option.bind_some, saysX_init]
        exact ukfCore_correct_some (third_far llt hw))]
    intro h
    exact Bool.noConfusion (congrArg UkfMem.uncorrected h)

end RL
