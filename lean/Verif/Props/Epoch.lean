import Verif.Props.Origin
/-! # C91: the epoch of the clock does not matter -/

namespace RL

/-- The same event on a clock that is ahead by `c`. -/
def Node.Event.later {C : Core} (c : Int) : Node.Event C → Node.Event C
  | .sensor topic stamp z => .sensor topic (stamp + c) z
  | .control u stamp => .control u (stamp + c)
  | .setPose stamp now r => .setPose (stamp + c) (now + c) r
  | .tick now now2 tfOk => .tick (now + c) (now2 + c) tfOk
  | e => e

/-- The same message on a clock that is ahead by `c`. -/
def Out.later {C : Core} (c : Int) : Out C → Out C
  | .odom t x P => .odom (t + c) x P
  | .tf t => .tf (t + c)
  | .accel t => .accel (t + c)

/-- All times of an event are positive and at least `start`, on both clocks. -/
def Node.Event.AfterEpoch {C : Core} (c start : Int) : Node.Event C → Prop
  | .sensor _ stamp _ => late stamp
  | .setPose stamp now _ => late stamp ∧ late now
  | .tick now now2 _ => late now ∧ late now2
  | _ => True
where late (t : Int) : Prop := (0 < t ∧ start ≤ t) ∧ (0 < t + c ∧ start ≤ t + c)

/-- Control inputs that do the same: not used, the same one, both zero, or the same one from before the epoch (which
has timed out at all times more than `L` after it). -/
def SameControl (p : FilterPar) (c : Int) (L : ℕ) (u : Fin 6 → ℝ) (t : Int) (u' : Fin 6 → ℝ) (t' : Int) : Prop :=
  p.useControl = false ∨ (u' = u ∧ t' = t + c) ∨ (u = 0 ∧ u' = 0) ∨ (t = 0 ∧ t' = 0 ∧ u' = u ∧ p.ctlTimeout ≤ L + 1)

theorem prepareControl_later (p : FilterPar) {u u' : Fin 6 → ℝ} {t t' c : Int} {L : ℕ} (h : SameControl p c L u t u' t')
    {ref : Int} (hr : Pos L c ref) (x : State) :
    prepareControl p u' t' (ref + c) x = prepareControl p u t ref x := by
  funext k
  unfold prepareControl
  rcases h with h | ⟨rfl, rfl⟩ | ⟨rfl, rfl⟩ | ⟨rfl, rfl, rfl, hL⟩
  · simp [h]
  · have : ref + c - (t + c) = ref - t := by omega
    rw [this]
  · simp
  · have : decide (ref + c - 0 ≥ p.ctlTimeout) = decide (ref - 0 ≥ p.ctlTimeout) := by
      apply decide_eq_decide.2
      unfold Pos at hr
      omega
    simp only [this]

theorem predict_later (p : FilterPar) (Q : Mat15) {u u' : Fin 6 → ℝ} {t t' c : Int} {L : ℕ}
    (h : SameControl p c L u t u' t') {ref : Int} (hr : Pos L c ref) (dt : ℝ) (x : State) (P : Mat15) :
    Ekf.predict p Q u' t' (ref + c) dt x P = Ekf.predict p Q u t ref dt x P := by
  unfold Ekf.predict
  simp only [prepareControl_later p h hr]

/-- Two filters with clocks that differ by `c`. -/
noncomputable def laterSim (p : FilterPar) (c : Int) (L : ℕ) : CoreSim (ekfCore p) (ekfCore p) c where
  low := L
  X x x' := x' = x
  Cov P P' := P' = P
  Ext _ _ := True
  Par q q' := q' = q
  Z z z' := z' = z
  Ctl u t u' t' := SameControl p c L u t u' t'
  predict := by
    rintro _ q u t u' t' _ x _ P e e' ref delta hr rfl h rfl rfl -
    cases x with
    | none => exact ⟨rfl, rfl, trivial⟩
    | some x =>
      have h := predict_later p q h hr (toSec delta) x P
      have e1 : (ekfCore p).predict q u t ref delta (some x, P, e) = match Ekf.predict p q u t ref (toSec delta) x P with
        | some r => (some r.1, r.2, ())
        | none => (none, P, ()) := rfl
      have e2 : (ekfCore p).predict q u' t' (ref + c) delta (some x, P, e') =
          match Ekf.predict p q u' t' (ref + c) (toSec delta) x P with
        | some r => (some r.1, r.2, ())
        | none => (none, P, ()) := rfl
      rw [e1, e2, h]
      cases Ekf.predict p q u t ref (toSec delta) x P with
      | none => exact ⟨rfl, rfl, trivial⟩
      | some r => exact ⟨rfl, rfl, trivial⟩
  correct := by
    rintro _ z _ x _ P e e' rfl rfl rfl -
    exact ⟨rfl, rfl, trivial⟩
  initX := by
    rintro _ z _ x rfl rfl
    rfl
  initCov := by
    rintro _ z _ P rfl rfl
    rfl

theorem out_later {p : FilterPar} {c : Int} {L : ℕ} {l l' : List (Out (ekfCore p))}
    (h : List.Forall₂ (OutSim (laterSim p c L)) l l') : l' = l.map (Out.later c) := by
  induction h with
  | nil => rfl
  | cons hab _ ih =>
    rw [List.map_cons, ← ih]
    congr 1
    cases hab with
    | odom hx hP =>
      have hx : _ = _ := hx
      have hP : _ = _ := hP
      rw [hx, hP]
      rfl
    | tf t => rfl
    | accel t => rfl

theorem run_later (p : FilterPar) (c start : Int) (L : ℕ) (hL : (L : Int) < max 1 start) (P P' : MQueue (ekfCore p))
    (κ : QueueSim (laterSim p c L) P P')
    (cfg : Cfg (ekfCore p)) (u : Fin 6 → ℝ) (now : Int) (es : List (Node.Event (ekfCore p)))
    (hes : ∀ e ∈ es, e.AfterEpoch c start) (h0 : SameControl p c L cfg.ctl0 0 cfg.ctl0 0) (hu : SameControl p c L u 0 u 0)
    (hr : Node.Event.reset ∈ es → ∀ {u t u' t'}, SameControl p c L u t u' t' → SameControl p c L u 0 u' 0) :
    (Node.run cfg (Node.start cfg P' () u (now + c)) (es.map (Node.Event.later c))).2 =
      (Node.run cfg (Node.start cfg P () u now) es).2.map (Out.later c) := by
  have hg : CfgSim (laterSim p c L) cfg cfg := ⟨rfl, rfl, rfl, rfl, rfl, rfl, rfl, rfl, rfl, rfl, rfl, rfl⟩
  have pos : ∀ {t}, Node.Event.AfterEpoch.late c start t → Pos L c t := by
    intro t ht
    unfold Node.Event.AfterEpoch.late at ht
    unfold Pos
    omega
  have he : List.Forall₂ (EventSim (laterSim p c L)) es (es.map (Node.Event.later c)) := by
    rw [List.forall₂_map_right_iff, List.forall₂_same]
    intro e he
    have hk := hes e he
    cases e with
    | sensor topic stamp z =>
      refine .sensor topic (pos hk) ?_
      cases z with
      | none => exact .none
      | some z => exact .some rfl
    | control v t => exact .control (Or.inr (Or.inl ⟨rfl, rfl⟩))
    | setPose stamp now r =>
      refine .setPose (pos hk.1) (pos hk.2) ?_ fun _ => ⟨rfl, rfl⟩
      cases r with
      | none => exact .none
      | some r => exact .some ⟨rfl, rfl⟩
    | reset => exact .reset rfl (hr he)
    | toggle on => exact .toggle on
    | enable => exact .enable
    | tick now now2 tfOk => exact .tick tfOk (pos hk.1) (pos hk.2)
  have hs : NodeSim κ (Node.start cfg P () u now) (Node.start cfg P' () u (now + c)) :=
    NodeSim.start (κ := κ) (g := cfg) (g' := cfg) hg rfl rfl h0 (e := ()) (e' := ()) trivial (u := u) (u' := u) hu now
  exact out_later (NodeSim.run hg he hs).2

/-- C91: if all times are after the epoch on both clocks (with control in use: by at least the control timeout), a node
whose clock is ahead by `c` sends the same messages with stamps ahead by `c`, whatever happens. -/
theorem C91_epoch_partial (p : FilterPar) (c : Int) (cfg : Cfg (ekfCore p)) (u : Fin 6 → ℝ) (now : Int)
    (es : List (Node.Event (ekfCore p)))
    (hes : ∀ e ∈ es, e.AfterEpoch c (if p.useControl then p.ctlTimeout else 0)) :
    (Node.run cfg (Node.start cfg (PQueue.sortedList _ _) () u (now + c)) (es.map (Node.Event.later c))).2 =
      (Node.run cfg (Node.start cfg (PQueue.sortedList _ _) () u now) es).2.map (Out.later c) := by
  by_cases hp : p.useControl = true
  · rw [if_pos hp] at hes
    have hL : p.ctlTimeout ≤ ((p.ctlTimeout - 1).toNat : Int) + 1 := by omega
    refine run_later p c p.ctlTimeout (p.ctlTimeout - 1).toNat (by omega) _ _ (QueueSim.sorted _) cfg u now es hes
      (Or.inr (Or.inr (Or.inr ⟨rfl, rfl, rfl, hL⟩))) (Or.inr (Or.inr (Or.inr ⟨rfl, rfl, rfl, hL⟩))) fun _ => ?_
    rintro v t v' t' (h | ⟨rfl, -⟩ | h | ⟨-, -, rfl, -⟩)
    · exact Or.inl h
    · exact Or.inr (Or.inr (Or.inr ⟨rfl, rfl, rfl, hL⟩))
    · exact Or.inr (Or.inr (Or.inl h))
    · exact Or.inr (Or.inr (Or.inr ⟨rfl, rfl, rfl, hL⟩))
  · rw [if_neg hp] at hes
    rw [Bool.not_eq_true] at hp
    exact run_later p c 0 0 (by decide) _ _ (QueueSim.sorted _) cfg u now es hes (Or.inl hp) (Or.inl hp)
      fun _ _ _ _ _ _ => Or.inl hp

/-- C91 right after the epoch: the same holds if the control vector of the filter starts at zero and nobody resets. -/
theorem C91_near_epoch_partial (p : FilterPar) (c : Int) (cfg : Cfg (ekfCore p)) (now : Int)
    (es : List (Node.Event (ekfCore p))) (hes : ∀ e ∈ es, e.AfterEpoch c 0) (h0 : cfg.ctl0 = (0 : Fin 6 → ℝ))
    (hr : Node.Event.reset ∉ es) :
    (Node.run cfg (Node.start cfg (PQueue.sortedList _ _) () (0 : Fin 6 → ℝ) (now + c)) (es.map (Node.Event.later c))).2 =
      (Node.run cfg (Node.start cfg (PQueue.sortedList _ _) () (0 : Fin 6 → ℝ) now) es).2.map (Out.later c) :=
  run_later p c 0 0 (by decide) _ _ (QueueSim.sorted _) cfg 0 now es hes (Or.inr (Or.inr (Or.inl ⟨h0, h0⟩)))
    (Or.inr (Or.inr (Or.inl ⟨rfl, rfl⟩))) fun h => absurd h hr

/-- C91 fails at the epoch: a message stamped zero is dropped, the same message on any later clock is not. -/
theorem C91_at_epoch : ∃ (p : FilterPar) (c : Int) (cfg : Cfg (ekfCore p)) (u : Fin 6 → ℝ) (now : Int)
    (es : List (Node.Event (ekfCore p))),
    (Node.run cfg (Node.start cfg (PQueue.sortedList _ _) () u (now + c)) (es.map (Node.Event.later c))).2 ≠
      (Node.run cfg (Node.start cfg (PQueue.sortedList _ _) () u now) es).2.map (Out.later c) := by
  refine ⟨plainPar, 1, demoCfg plainPar, 0, 0, [.sensor "t" 0 (some vxZ), .tick 2 2 false], ?_⟩
  have e1 : (Node.run (demoCfg plainPar) (Node.start (demoCfg plainPar) (PQueue.sortedList _ _) () (0 : Fin 6 → ℝ) 0)
      [.sensor "t" 0 (some vxZ), .tick 2 2 false]).2 = [] := by
    simp [Node.run, Node.step, Node.start, Node.sensor, Node.periodic, Node.advance, Node.integrate,
      Node.publish, PQueue.sortedList, demoCfg]
  have e2 : (Node.run (demoCfg plainPar) (Node.start (demoCfg plainPar) (PQueue.sortedList _ _) () (0 : Fin 6 → ℝ) 1)
      [.sensor "t" 1 (some vxZ), .tick 3 3 false]).2 ≠ [] := by
    simp [Node.run, Node.step, Node.start, Node.sensor, Node.enqueue, Node.periodic, Node.advance, Node.integrate,
      Node.drain, Node.publish, PQueue.sortedList, PQueue.insertSorted, PQueue.size, Filt.processMeasurement, demoCfg]
  rw [e1]
  exact e2

/-- C91 fails right after the epoch: with control in use but no command yet, what is sent depends on what the control
vector of the filter, which is never initialised (filter_base.cpp:58), happens to contain.  By `C91_epoch_partial` it
does not from the control timeout on. -/
theorem C91_uninitialised_control : ∃ (p : FilterPar) (cfg : Cfg (ekfCore p)) (u u' : Fin 6 → ℝ)
    (es : List (Node.Event (ekfCore p))), (∀ e ∈ es, e.AfterEpoch 0 1) ∧ (∀ v t, Node.Event.control v t ∉ es) ∧
    (Node.run cfg (Node.start cfg (PQueue.sortedList _ _) () u 0) es).2 ≠
      (Node.run cfg (Node.start cfg (PQueue.sortedList _ _) () u' 0) es).2 := by
  refine ⟨demoPar, { demoCfg demoPar with predictToCurrent := true }, 0, fun _ => 2,
    [.sensor "t" 1 (some vxZ), .tick 2 2 false], ?_, ?_, ?_⟩
  · intro e he
    simp only [List.mem_cons, List.not_mem_nil, or_false] at he
    rcases he with rfl | rfl <;> simp [Node.Event.AfterEpoch, Node.Event.AfterEpoch.late]
  · intro v t h
    simp at h
  · have run : ∀ u : Fin 6 → ℝ, ∃ P A : Mat15,
        (Node.run { demoCfg demoPar with predictToCurrent := true } (Node.start { demoCfg demoPar with predictToCurrent := true }
          (PQueue.sortedList _ _) () u 0) [.sensor "t" 1 (some vxZ), .tick 2 2 false]).2 =
        [.odom 2 ((ekfCore demoPar).predict (defaultQ : Mat15) u 0 2 1 (initState vxZ 0, A, ())).1 P, .accel 2] := by
      intro u
      refine ⟨((ekfCore demoPar).predict (defaultQ : Mat15) u 0 2 1 (initState vxZ 0, initCov vxZ (demoCfg demoPar).initialCov, ())).2.1,
        initCov vxZ (demoCfg demoPar).initialCov, ?_⟩
      simp [Node.run, Node.step, Node.start, Node.sensor, Node.enqueue, Node.periodic, Node.advance, Node.integrate,
        Node.drain, Node.publish, PQueue.sortedList, PQueue.insertSorted, PQueue.size, Filt.processMeasurement, Node.predictTo,
        Filt.predict, Filt.setLastTime, demoCfg]
      exact ⟨rfl, rfl⟩
    have acc : ∀ (u : Fin 6 → ℝ) (A : Mat15), (((ekfCore demoPar).predict (defaultQ : Mat15) u 0 2 1
        (initState vxZ 0, A, ())).1).map (fun x => x iAx) = some (if u 0 = 0 then -1 else if u 0 = 2 then 1 else
          computeControlAcceleration 1 (u 0) 1 1 1 1) := by
      intro u A
      rw [init_vx]
      show Option.map (fun x : State => x iAx) (match Ekf.predict demoPar defaultQ u 0 2 (toSec 1) (fun i => if i = iVx then 1 else 0) A with
        | some r => (some r.1, r.2, ())
        | none => (none, A, ())).1 = _
      unfold Ekf.predict
      have hc : ¬ Real.cos ((fun i => if i = iVx then (1 : ℝ) else 0) iPitch) = 0 := by
        simp [iVx, iPitch]
      simp only [if_neg hc, Option.map_some]
      congr 1
      have hrow : ∀ y : State, wrapStateAngles ((transferF (fun i => if i = iVx then (1 : ℝ) else 0) (toSec 1)).mulVec y) iAx = y iAx := by
        intro y
        have e : ∀ j, transferF (fun i => if i = iVx then (1 : ℝ) else 0) (toSec 1) iAx j = (1 : Mat15) iAx j := by
          intro j
          have : fEntry (trig (fun i => if i = iVx then (1 : ℝ) else 0)) (toSec 1) iAx j = none := by fin_cases j <;> rfl
          simp [transferF, writeF, this]
        have e2 : (transferF (fun i => if i = iVx then (1 : ℝ) else 0) (toSec 1)).mulVec y iAx = y iAx := by
          simp only [Matrix.mulVec, dotProduct, e]
          exact congrFun (Matrix.one_mulVec y) iAx
        unfold wrapStateAngles
        rw [if_neg (by decide), e2]
      rw [hrow]
      show (if demoPar.ctlUpd 0 then prepareControl demoPar u 0 2 (fun i => if i = iVx then (1 : ℝ) else 0) 0 else 0) = _
      rw [if_pos (show demoPar.ctlUpd 0 = true from rfl)]
      have hv : (fun i : Fin 15 => if i = iVx then (1 : ℝ) else 0) (velIdx 0) = 1 := rfl
      have ht : ¬ ((2 : Int) - 0 ≥ demoPar.ctlTimeout) := by decide
      unfold prepareControl
      rw [if_pos (show demoPar.useControl = true from rfl)]
      simp only [hv, decide_eq_false ht]
      rw [if_pos (show demoPar.ctlUpd 0 = true from rfl)]
      simp only [Bool.false_eq_true, if_false]
      show computeControlAcceleration 1 (u 0) 1 1 1 1 = _
      split
      · rename_i h0
        rw [h0]
        norm_num [computeControlAcceleration]
      · split
        · rename_i h2
          rw [h2]
          norm_num [computeControlAcceleration]
        · rfl
    obtain ⟨P, A, e⟩ := run 0
    obtain ⟨P', A', e'⟩ := run fun _ => 2
    intro h
    rw [e, e'] at h
    injection h with h1 _
    injection h1 with _ hx _
    have h2 := congrArg (Option.map fun x : State => x iAx) hx
    have h3 := acc 0 A
    have h4 := acc (fun _ => 2) A'
    have h5 := h3.symm.trans (h2.trans h4)
    norm_num at h5

/-- A measurement, a reset and an update, a second after the epoch and a day later. -/
example : ∀ e ∈ ([.sensor "t" 1000000000 (some vxZ), .reset, .tick 1000000000 1000000000 true] :
    List (Node.Event (ekfCore demoPar))),
    e.AfterEpoch 86400000000000 (if demoPar.useControl then demoPar.ctlTimeout else 0) := by
  intro e he
  simp only [List.mem_cons, List.not_mem_nil, or_false] at he
  rcases he with rfl | rfl | rfl <;> simp [Node.Event.AfterEpoch, Node.Event.AfterEpoch.late, demoPar]

end RL
