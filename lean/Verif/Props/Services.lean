import Verif.Props.Stale
import Verif.Props.Fusion
import Verif.Proofs.NodeClock
/-! # C26 to C29: set_pose, reset, toggle, enable -/

namespace RL
variable {C : Core} {P : MQueue C}

/-! ## C26: set_pose -/

/-- C26, partial.  A `set_pose` that could be transformed takes effect completely: the estimate is the given one, the
clock is the present, nothing is pending or retained, and until the next reset or `set_pose` nothing stamped at or
before it is accepted.  Missing: the last clause of the property, which is false (below). -/
theorem C26_set_pose_partial (cfg : Cfg C) (n : Node C P) (stamp now : Int) (x : C.X) (cov : C.Cov) :
    let n' := n.setPose stamp now (some (x, cov))
    n'.filt.x = x ∧ n'.filt.cov = cov ∧ n'.filt.lastTime = now ∧ P.elems n'.queue = 0 ∧ n'.stateHist = [] ∧
      n'.measHist = [] ∧
      (∀ es, (∀ e ∈ es, e.isReset = false) → (∀ e ∈ es, e.isSetPose = false) →
        ∀ a ∈ accepted cfg n' es, stamp < a.2) :=
  ⟨rfl, rfl, rfl, P.elems_empty, rfl, rfl,
    fun es h1 h2 => C25_nothing_at_or_before_set_pose cfg n stamp now (some (x, cov)) es h1 h2⟩

/-- C26 is false for poses that cannot be transformed: whatever the estimate was, it becomes the zero state with the
small default covariance, and everything pending and retained is discarded. -/
theorem C26_untransformable_pose_wipes_estimate (n : Node C P) (stamp now : Int) :
    (n.setPose stamp now none).filt.x = C.zeroX ∧ (n.setPose stamp now none).filt.cov = C.setPoseCov ∧
      P.elems (n.setPose stamp now none).queue = 0 :=
  ⟨rfl, rfl, P.elems_empty⟩

/-- `set_pose` does not initialise the filter: on a node that has not fused anything yet the next measurement still
goes through the initialising copy. -/
theorem C26_does_not_initialise (n : Node C P) (stamp now : Int) (r : Option (C.X × C.Cov)) :
    (n.setPose stamp now r).filt.initialized = n.filt.initialized := rfl

/-- The stamps remembered per topic survive `set_pose`. -/
theorem C26_keeps_topic_stamps (n : Node C P) (stamp now : Int) (r : Option (C.X × C.Cov)) :
    (n.setPose stamp now r).lastMsg = n.lastMsg := rfl

/-- A concrete node with an estimate, something pending and a history, hit by a pose without transform. -/
example :
    let cfg := auditCfg true 100 1000
    let n := ((auditNode cfg).run cfg [.sensor "a" 10 (some (1 : Int)), .tick 11 11 true, .sensor "a" 30 (some (3 : Int))]).1
    n.filt.x = [.init 1] ∧ AuditQ.size n.queue = 1 ∧ n.stateHist.length = 1 ∧
    (n.setPose 20 21 none).filt.x = [] ∧ (n.setPose 20 21 (some ([.init 7], ()))).filt.x = [.init 7] :=
  ⟨rfl, rfl, rfl, rfl, rfl⟩

/-! ## C27: reset -/

/-- C27 is false: a node started with a non-zero initial state does not return to it, for any filter, any configuration
and any previous history. -/
theorem C27_initial_state_not_restored (cfg : Cfg C) (ext0 : C.Ext) (fctl0 : C.Ctl) (k : Int)
    (h : cfg.initialState ≠ C.zeroX) (n : Node C P) :
    (n.reset cfg).filt.x ≠ (Node.start cfg P ext0 fctl0 k).filt.x := fun e => h e.symm

/-- C27 is false: the control input survives a reset (in the filter with its stamp, in the node without). -/
theorem C27_control_survives_reset (cfg : Cfg C) (hu : cfg.useControl = true) (n : Node C P) (c : C.Ctl) (t : Int) :
    ((n.control cfg c t).reset cfg).filt.ctl = c ∧ ((n.control cfg c t).reset cfg).filt.ctlTime = t ∧
      ((n.control cfg c t).reset cfg).ctl = c ∧ ((n.control cfg c t).reset cfg).ctlTime = 0 := by
  simp [Node.control, hu, Node.reset, Filt.reset, Filt.setCov, Filt.setPar, Filt.setSensorTimeout, Filt.setControl]

/-- Members that only control messages change, without control. -/
theorem run_noCtl (cfg : Cfg C) (hu : cfg.useControl = false) (es : List (Node.Event C)) (n : Node C P) :
    (n.run cfg es).1.ctl = n.ctl ∧ (n.ctlTime = 0 → (n.run cfg es).1.ctlTime = 0) ∧
      (n.run cfg es).1.filt.ctl = n.filt.ctl ∧ (n.run cfg es).1.filt.ctlTime = n.filt.ctlTime := by
  induction es generalizing n with
  | nil => exact ⟨rfl, id, rfl, rfl⟩
  | cons e es ih =>
    have hs : (n.step cfg e).1.ctl = n.ctl ∧ (n.ctlTime = 0 → (n.step cfg e).1.ctlTime = 0) ∧
        (n.step cfg e).1.filt.ctl = n.filt.ctl ∧ (n.step cfg e).1.filt.ctlTime = n.filt.ctlTime := by
      cases e with
      | sensor topic stamp z =>
        obtain ⟨s1, s2, s3, s4, s5, s6, _⟩ := n.sensor_spec topic stamp z []
        show (n.sensor topic stamp z).ctl = _ ∧ (_ → (n.sensor topic stamp z).ctlTime = 0) ∧
          (n.sensor topic stamp z).filt.ctl = _ ∧ (n.sensor topic stamp z).filt.ctlTime = _
        rw [s1, s5, s6]; exact ⟨rfl, id, rfl, rfl⟩
      | control c t => simp [Node.step, Node.control, hu]
      | setPose a b c => exact ⟨rfl, id, rfl, rfl⟩
      | reset => exact ⟨rfl, fun _ => rfl, rfl, rfl⟩
      | toggle on =>
        show (n.toggle on).1.ctl = _ ∧ (_ → (n.toggle on).1.ctlTime = 0) ∧ (n.toggle on).1.filt.ctl = _ ∧
          (n.toggle on).1.filt.ctlTime = _
        unfold Node.toggle
        split <;> exact ⟨rfl, id, rfl, rfl⟩
      | enable => exact ⟨rfl, id, rfl, rfl⟩
      | tick now now2 tfOk =>
        have hin := Node.periodic_inputs cfg n now now2 tfOk
        refine ⟨hin.ctl, fun h => hin.ctlTime.trans h, ?_⟩
        show (n.periodic cfg now now2 tfOk).1.filt.ctl = _ ∧ (n.periodic cfg now now2 tfOk).1.filt.ctlTime = _
        have hadv : (n.advance cfg now now2).filt.ctl = n.filt.ctl ∧ (n.advance cfg now now2).filt.ctlTime = n.filt.ctlTime := by
          have hproc : ∀ (L : List (Meas C)) (f : Filt C), (L.foldl Filt.processMeasurement f).ctl = f.ctl ∧
              (L.foldl Filt.processMeasurement f).ctlTime = f.ctlTime := by
            intro L f
            rw [← fuse_reverse]
            exact ⟨(fuse_params f _).2.1, (fuse_params f _).2.2.1⟩
          unfold Node.advance
          split
          · cases ht : P.top n.queue with
            | none =>
              unfold Node.integrate
              simp only [ht]
              split <;> exact ⟨rfl, rfl⟩
            | some first =>
              obtain ⟨R, L, f, -, -, -, -, -, hf, e⟩ := C21_fuses_due_in_order_late cfg n now hu first ht
              have hfc : f.ctl = n.filt.ctl ∧ f.ctlTime = n.filt.ctlTime := by
                rcases hf with rfl | ⟨s, _, rfl⟩ <;> exact ⟨rfl, rfl⟩
              rw [e]
              have := hproc L f
              dsimp only
              split
              · exact ⟨this.1.trans hfc.1, this.2.trans hfc.2⟩
              · exact ⟨this.1.trans hfc.1, this.2.trans hfc.2⟩
          · dsimp only
            split <;> exact ⟨rfl, rfl⟩
        by_cases he : n.enabled = true
        · obtain ⟨p, hp⟩ := Node.periodic_enabled cfg n now now2 tfOk he
          rw [hp]
          split <;> exact hadv
        · rw [Node.periodic_disabled cfg n now now2 tfOk (by simpa using he)]; exact ⟨rfl, rfl⟩
    obtain ⟨a1, a2, a3, a4⟩ := ih (n.step cfg e).1
    exact ⟨a1.trans hs.1, fun h => a2 (hs.2.1 h), a3.trans hs.2.2.1, a4.trans hs.2.2.2⟩

/-- C27, partial.  Without control input, with the zero initial state and a filter without hidden memory, a reset after
any run gives exactly the node as started (at clock reading 0), except that the on/off switches stay as they are, if the
two covariance parameters were set.
Missing: non-zero `initial_state`, control input, filters with memory (UKF) and covariance parameters left at their
default (`C27_default_noise_lost`); there it is false. -/
theorem C27_reset_partial [Subsingleton C.Ext] (cfg : Cfg C) (hu : cfg.useControl = false)
    (hx : cfg.initialState = C.zeroX) (hN : cfg.keptNoise = cfg.processNoise) (hP : cfg.keptCov = cfg.initialCov) (ext0 : C.Ext) (fctl0 : C.Ctl) (k : Int) (es : List (Node.Event C)) :
    let n := ((Node.start cfg P ext0 fctl0 k).run cfg es).1
    n.reset cfg = { Node.start cfg P ext0 fctl0 0 with toggledOn := n.toggledOn, enabled := n.enabled } := by
  intro n
  obtain ⟨h1, _, h3, h4⟩ := run_noCtl cfg hu es (Node.start cfg P ext0 fctl0 k)
  have e1 : n.ctl = cfg.ctl0 := h1
  have e3 : n.filt.ctl = fctl0 := h3
  have e4 : n.filt.ctlTime = 0 := h4
  have e5 : n.filt.ext = ext0 := Subsingleton.elim _ _
  unfold Node.reset Node.start
  simp only [Filt.reset, Filt.setCov, Filt.setPar, Filt.setSensorTimeout, e1, e3, e4, e5, hx, hN, hP]

example :
    let cfg := auditCfg true 100 1000
    cfg.useControl = false ∧ cfg.initialState = Audit.zeroX ∧ cfg.keptNoise = cfg.processNoise ∧
    cfg.keptCov = cfg.initialCov ∧
    ((auditNode cfg).run cfg [.sensor "a" 10 (some (1 : Int)), .tick 11 11 true, .toggle false]).1.filt.x ≠ [] := by
  refine ⟨rfl, rfl, rfl, rfl, fun h => by cases h⟩

/-! ## C28: toggle -/

/-- C28.  Asking for the state the node is already in is refused and changes nothing; asking for the other one is
granted and changes the switch only. -/
theorem C28_toggle (n : Node C P) (on : Bool) :
    (on = n.toggledOn → n.toggle on = (n, false)) ∧
    (on ≠ n.toggledOn → n.toggle on = ({ n with toggledOn := on }, true)) := by
  constructor <;> intro h <;> simp [Node.toggle, h]

/-- The events that are not allowed to interfere in `C28_frozen_while_off`. -/
def Node.Event.passive : Node.Event C → Bool
  | .toggle _ => false
  | .setPose _ _ _ => false
  | .reset => false
  | _ => true

/-- C28.  While the node is off (any messages, commands, cycles) the estimate does not change. -/
theorem C28_frozen_while_off (cfg : Cfg C) (es : List (Node.Event C)) (hp : ∀ e ∈ es, e.passive = true) (n : Node C P)
    (hoff : n.toggledOn = false) :
    (n.run cfg es).1.filt.x = n.filt.x ∧ (n.run cfg es).1.filt.cov = n.filt.cov ∧
      (n.run cfg es).1.filt.ext = n.filt.ext ∧ (n.run cfg es).1.toggledOn = false := by
  induction es generalizing n with
  | nil => exact ⟨rfl, rfl, rfl, hoff⟩
  | cons e es ih =>
    have hs : (n.step cfg e).1.filt.x = n.filt.x ∧ (n.step cfg e).1.filt.cov = n.filt.cov ∧
        (n.step cfg e).1.filt.ext = n.filt.ext ∧ (n.step cfg e).1.toggledOn = false := by
      cases e with
      | sensor topic stamp z =>
        obtain ⟨s1, s2, s3, s4, s5, s6, s7, _⟩ := n.sensor_spec topic stamp z []
        show (n.sensor topic stamp z).filt.x = _ ∧ (n.sensor topic stamp z).filt.cov = _ ∧
          (n.sensor topic stamp z).filt.ext = _ ∧ (n.sensor topic stamp z).toggledOn = _
        rw [s1, s7]; exact ⟨rfl, rfl, rfl, hoff⟩
      | control c t =>
        show (n.control cfg c t).filt.x = _ ∧ (n.control cfg c t).filt.cov = _ ∧ (n.control cfg c t).filt.ext = _ ∧
          (n.control cfg c t).toggledOn = _
        unfold Node.control
        split <;> exact ⟨rfl, rfl, rfl, hoff⟩
      | setPose a b c => exact absurd (hp _ List.mem_cons_self) (by simp [Node.Event.passive])
      | reset => exact absurd (hp _ List.mem_cons_self) (by simp [Node.Event.passive])
      | toggle on => exact absurd (hp _ List.mem_cons_self) (by simp [Node.Event.passive])
      | enable => exact ⟨rfl, rfl, rfl, hoff⟩
      | tick now now2 tfOk =>
        show (n.periodic cfg now now2 tfOk).1.filt.x = _ ∧ (n.periodic cfg now now2 tfOk).1.filt.cov = _ ∧
          (n.periodic cfg now now2 tfOk).1.filt.ext = _ ∧ (n.periodic cfg now now2 tfOk).1.toggledOn = _
        by_cases he : n.enabled = true
        · obtain ⟨p, hp⟩ := Node.periodic_enabled cfg n now now2 tfOk he
          have hadv : (n.advance cfg now now2).filt.x = n.filt.x ∧ (n.advance cfg now now2).filt.cov = n.filt.cov ∧
              (n.advance cfg now now2).filt.ext = n.filt.ext ∧ (n.advance cfg now now2).toggledOn = false := by
            unfold Node.advance
            simp only [hoff]
            cases n.filt.initialized <;> exact ⟨rfl, rfl, rfl, rfl⟩
          rw [hp]
          split <;> exact hadv
        · rw [Node.periodic_disabled cfg n now now2 tfOk (by simpa using he)]; exact ⟨rfl, rfl, rfl, hoff⟩
    obtain ⟨a1, a2, a3, a4⟩ := ih (fun e he => hp e (List.mem_cons_of_mem _ he)) (n.step cfg e).1 hs.2.2.2
    exact ⟨a1.trans hs.1, a2.trans hs.2.1, a3.trans hs.2.2.1, a4⟩

/-- C28.  A cycle while off discards everything pending and moves the clock of an initialised filter to the present. -/
theorem C28_off_cycle (cfg : Cfg C) (n : Node C P) (now now2 : Int) (tfOk : Bool) (hoff : n.toggledOn = false)
    (he : n.enabled = true) :
    P.elems (n.periodic cfg now now2 tfOk).1.queue = 0 ∧
      (n.filt.initialized = true → (n.periodic cfg now now2 tfOk).1.filt.lastTime = now2) := by
  obtain ⟨p, hp⟩ := Node.periodic_enabled cfg n now now2 tfOk he
  have hadv : P.elems (n.advance cfg now now2).queue = 0 ∧
      (n.filt.initialized = true → (n.advance cfg now now2).filt.lastTime = now2) := by
    unfold Node.advance
    simp only [hoff]
    exact ⟨P.elems_empty, fun hi => by simp [hi, Filt.setLastTime]⟩
  rw [hp]
  split <;> exact hadv

/-- C28, partial.  Without smoothing, the time spent off is never predicted over: after an off cycle at `t` the clock is
`t`, so a measurement processed next predicts by its stamp minus `t`, and not at all if its stamp is not newer.
Missing: nodes with smoothing, where it is false (below). -/
theorem C28_no_big_step_partial (cfg : Cfg C) (hs : cfg.smooth = false) (n : Node C P) (now t : Int) (tfOk : Bool)
    (hoff : n.toggledOn = false) (he : n.enabled = true) (hi : n.filt.initialized = true) (m : Meas C) (now' : Int)
    (hm : m.time ≤ now') :
    let n1 := ((n.periodic cfg now t tfOk).1.toggle true).1
    let n2 := { n1 with queue := P.push n1.queue m }
    cfg.predictToCurrent = false →
    ((n2.integrate cfg now').filt.x, (n2.integrate cfg now').filt.cov, (n2.integrate cfg now').filt.ext) =
      C.correct m.z (if t < m.time then
        C.predict n.filt.par n.filt.ctl n.filt.ctlTime m.time (m.time - t) (n.filt.x, n.filt.cov, n.filt.ext)
        else (n.filt.x, n.filt.cov, n.filt.ext)) := by
  intro n1 n2 hpc
  obtain ⟨p, hp⟩ := Node.periodic_enabled cfg n now t tfOk he
  have ep : (n.periodic cfg now t tfOk).1 = { n with queue := P.empty, filt := n.filt.setLastTime t, lastPub := p } := by
    rw [hp, hs]
    simp [Node.advance, hoff, hi]
  have e1 : n1 = { n with queue := P.empty, filt := n.filt.setLastTime t, lastPub := p, toggledOn := true } := by
    show ((n.periodic cfg now t tfOk).1.toggle true).1 = _
    rw [ep]
    simp [Node.toggle, hoff]
  have e2 : n2.filt = n.filt.setLastTime t := by show n1.filt = _; rw [e1]
  have hq : P.elems n2.queue = {m} := by
    show P.elems (P.push n1.queue m) = _
    rw [e1, P.elems_push]
    show m ::ₘ P.elems P.empty = _
    rw [P.elems_empty]; rfl
  obtain ⟨L, _, h2, _, h4⟩ := C21_fuses_due_in_order cfg n2 now' (by rw [hq]; simp) (Or.inl hs)
  have hL : L = [m] := by
    rw [hq] at h2
    have : (L : Multiset (Meas C)) = {m} := by rw [h2, Multiset.filter_singleton]; simp [hm]
    exact Multiset.coe_eq_singleton.1 this
  rw [h4, hL, e2, hpc]
  simp only [List.foldl_cons, List.foldl_nil, Bool.false_eq_true, and_false, if_false]
  by_cases hd : t < m.time
  · have hd' : t ≤ m.time := by omega
    simp [Filt.processMeasurement, Filt.setLastTime, hi, Filt.predict, Filt.correct, hd, hd']
  · by_cases hd' : t ≤ m.time <;>
      simp [Filt.processMeasurement, Filt.setLastTime, hi, Filt.correct, hd, hd']

/-- C28 is false with smoothing: the history survives being off, so a message stamped just before the last off cycle
rewinds to before the node was switched off and the whole time off is predicted over in one step (89 here, from the
snapshot at 10 to the stamp 99), although the clock had been moved to 100. -/
theorem C28_big_step_with_smoothing :
    let cfg := auditCfg true 1000 1000
    ((auditNode cfg).run cfg [.sensor "a" 10 (some (1 : Int)), .tick 11 11 true, .toggle false, .tick 50 50 true,
      .tick 100 100 true, .toggle true, .sensor "a" 99 (some (2 : Int)), .tick 101 101 true]).1.filt.x =
      [.init 1, .predict 0 89, .correct 2] ∧
    let cfg := auditCfg false 1000 1000
    ((auditNode cfg).run cfg [.sensor "a" 10 (some (1 : Int)), .tick 11 11 true, .toggle false, .tick 50 50 true,
      .tick 100 100 true, .toggle true, .sensor "a" 99 (some (2 : Int)), .tick 101 101 true]).1.filt.x =
      [.init 1, .correct 2] := ⟨rfl, rfl⟩

/-! ## C29: enable -/

/-- C29.  As long as no enable request has been made, a node that starts disabled sends nothing, whatever happens, and
its cycles change nothing at all. -/
theorem C29_silent_until_enabled (cfg : Cfg C) (es : List (Node.Event C)) (hne : ∀ e ∈ es, e ≠ .enable) (n : Node C P)
    (hd : n.enabled = false) :
    (n.run cfg es).2 = [] ∧ (n.run cfg es).1.enabled = false ∧
      ∀ now now2 tfOk, ((n.run cfg es).1.periodic cfg now now2 tfOk) = ((n.run cfg es).1, []) := by
  induction es generalizing n with
  | nil => exact ⟨rfl, hd, fun a b c => Node.periodic_disabled cfg n a b c hd⟩
  | cons e es ih =>
    have hs : (n.step cfg e).2 = [] ∧ (n.step cfg e).1.enabled = false := by
      cases e with
      | sensor topic stamp z => exact ⟨rfl, (n.sensor_spec topic stamp z []).2.2.2.2.2.2.2.1.trans hd⟩
      | control c t =>
        refine ⟨rfl, ?_⟩
        show (n.control cfg c t).enabled = _
        unfold Node.control
        split <;> exact hd
      | setPose a b c => exact ⟨rfl, hd⟩
      | reset => exact ⟨rfl, hd⟩
      | toggle on =>
        refine ⟨rfl, ?_⟩
        show (n.toggle on).1.enabled = _
        unfold Node.toggle
        split <;> exact hd
      | enable => exact absurd rfl (hne _ List.mem_cons_self)
      | tick a b c =>
        have e := Node.periodic_disabled cfg n a b c hd
        show (n.periodic cfg a b c).2 = _ ∧ (n.periodic cfg a b c).1.enabled = _
        rw [e]; exact ⟨rfl, hd⟩
    obtain ⟨i1, i2, i3⟩ := ih (fun e he => hne e (List.mem_cons_of_mem _ he)) (n.step cfg e).1 hs.2
    refine ⟨?_, i2, i3⟩
    show (n.step cfg e).2 ++ ((n.step cfg e).1.run cfg es).2 = []
    rw [hs.1, i1]; rfl

/-- C29.  Enabling is permanent: no later event, not even a reset, disables the node. -/
theorem C29_enabled_for_ever (cfg : Cfg C) (es : List (Node.Event C)) (n : Node C P) (h : n.enabled = true) :
    (n.run cfg es).1.enabled = true := by
  induction es generalizing n with
  | nil => exact h
  | cons e es ih =>
    refine ih (n.step cfg e).1 ?_
    cases e with
    | sensor topic stamp z => exact (n.sensor_spec topic stamp z []).2.2.2.2.2.2.2.1.trans h
    | control c t =>
      show (n.control cfg c t).enabled = _
      unfold Node.control
      split <;> exact h
    | setPose a b c => exact h
    | reset => exact h
    | toggle on =>
      show (n.toggle on).1.enabled = _
      unfold Node.toggle
      split <;> exact h
    | enable => rfl
    | tick a b c => exact (Node.periodic_inputs cfg n a b c).enabled.trans h

/-- A disabled node with pending data; then the same node enabled publishes. -/
example :
    let cfg : Cfg Audit := { auditCfg false 0 1000 with disabledAtStartup := true }
    (auditNode cfg).enabled = false ∧
    ((auditNode cfg).run cfg [.sensor "a" 10 (some (1 : Int)), .tick 11 11 true]).2 = [] ∧
    ((auditNode cfg).run cfg [.sensor "a" 10 (some (1 : Int)), .tick 11 11 true, .enable, .tick 12 12 true]).2.length = 3 :=
  ⟨rfl, rfl, rfl⟩

end RL
