import Verif.Proofs.SmoothingRun
import Verif.Spec.Audit
/-! # C24: control inputs of replayed measurements -/

namespace RL
variable {C : Core} {P : MQueue C}

/-- The control the filter should hold: that of the newest control message. -/
def newestControl : C.Ctl × Int → List (Node.Event C) → C.Ctl × Int
  | c, [] => c
  | _, .control u t :: es => newestControl (u, t) es
  | c, _ :: es => newestControl c es

theorem drain_plain_ctl (cfg : Cfg C) (now : Int) (k : Nat) (n : Node C P) :
    (Node.drain cfg now k 0 n).filt.ctl = n.filt.ctl ∧ (Node.drain cfg now k 0 n).filt.ctlTime = n.filt.ctlTime := by
  obtain ⟨L, -, -, -, h, -⟩ := Node.drain_fuses cfg now k 0 n (Or.inr (Int.le_refl _))
  rw [h]
  have e : L.foldl Filt.processMeasurement n.filt = fuse n.filt L.reverse := (fuse_reverse _ _).symm
  rw [e]
  exact ⟨(fuse_params n.filt _).2.1, (fuse_params n.filt _).2.2.1⟩

/-- C24, partial: without smoothing nothing is ever replayed, and after any run (resets included) the filter holds the
newest command.  Missing: replay after late data, where the statement is false (below). -/
theorem C24_newest_control_partial (cfg : Cfg C) (hs : cfg.smooth = false) (hu : cfg.useControl = true)
    (es : List (Node.Event C)) (n : Node C P) :
    ((n.run cfg es).1.filt.ctl, (n.run cfg es).1.filt.ctlTime) = newestControl (n.filt.ctl, n.filt.ctlTime) es := by
  induction es generalizing n with
  | nil => rfl
  | cons e es ih =>
    have hstep : ∀ n' : Node C P, n' = (n.step cfg e).1 →
        (n'.filt.ctl, n'.filt.ctlTime) = newestControl (n.filt.ctl, n.filt.ctlTime) [e] := by
      rintro n' rfl
      cases e with
      | sensor topic stamp z =>
        obtain ⟨s1, _⟩ := n.sensor_spec topic stamp z []
        show ((n.sensor topic stamp z).filt.ctl, (n.sensor topic stamp z).filt.ctlTime) = _
        rw [s1]; rfl
      | control c t => simp [Node.step, Node.control, hu, newestControl, Filt.setControl]
      | setPose a b c => rfl
      | reset => rfl
      | toggle on =>
        show ((n.toggle on).1.filt.ctl, (n.toggle on).1.filt.ctlTime) = _
        unfold Node.toggle
        split <;> rfl
      | enable => rfl
      | tick now now2 tfOk =>
        show ((n.periodic cfg now now2 tfOk).1.filt.ctl, (n.periodic cfg now now2 tfOk).1.filt.ctlTime) = _
        have hadv : (n.advance cfg now now2).filt.ctl = n.filt.ctl ∧ (n.advance cfg now now2).filt.ctlTime = n.filt.ctlTime := by
          unfold Node.advance
          split
          · unfold Node.integrate
            split
            · simp only [hs, Bool.false_and, Bool.false_eq_true, if_false]
              have := drain_plain_ctl cfg now (P.size n.queue) n
              split
              · exact this
              · exact this
            · dsimp only
              split <;> exact ⟨rfl, rfl⟩
          · dsimp only
            split <;> exact ⟨rfl, rfl⟩
        by_cases he : n.enabled = true
        · obtain ⟨p, hp⟩ := Node.periodic_enabled cfg n now now2 tfOk he
          rw [hp, hs]
          show ((n.advance cfg now now2).filt.ctl, (n.advance cfg now now2).filt.ctlTime) = _
          rw [hadv.1, hadv.2]; rfl
        · rw [Node.periodic_disabled cfg n now now2 tfOk (by simpa using he)]; rfl
    have h1 := ih (n.step cfg e).1
    show ((((n.step cfg e).1.run cfg es).1).filt.ctl, (((n.step cfg e).1.run cfg es).1).filt.ctlTime) = _
    rw [h1, hstep _ rfl]
    cases e <;> rfl

/-- The configuration of the refutations: smoothing and control on. -/
def replayCfg : Cfg Audit := { auditCfg true 1000 1000 with useControl := true }

/-- C24 is false: a measurement replayed after a rewind can be processed under a later control than the one recorded
with it.  Stamp 30 was received under control 1; after control 2 and a late stamp 20 it is predicted again under 2.
(The loop restores the control of the first *N* popped measurements, `N` being the number taken back; the late one is
among them, so the last replayed one is left out.) -/
theorem C24_replayed_under_wrong_control :
    ((auditNode replayCfg).run replayCfg
      [.control (1 : Int) 1, .sensor "a" 10 (some (1 : Int)), .tick 11 11 true, .sensor "a" 30 (some (3 : Int)),
       .tick 31 31 true]).1.filt.x = [.init 1, .predict 1 20, .correct 3] ∧
    ((auditNode replayCfg).run replayCfg
      [.control (1 : Int) 1, .sensor "a" 10 (some (1 : Int)), .tick 11 11 true, .sensor "a" 30 (some (3 : Int)),
       .tick 31 31 true, .control (2 : Int) 32, .sensor "b" 20 (some (2 : Int)), .tick 40 40 true]).1.filt.x =
      [.init 1, .predict 2 10, .correct 2, .predict 2 10, .correct 3] := ⟨rfl, rfl⟩

/-- C24 is false: after a replay the filter can hold an older command than the newest one. -/
theorem C24_newest_control_lost :
    let es : List (Node.Event Audit) :=
      [.control (1 : Int) 1, .sensor "a" 10 (some (1 : Int)), .tick 11 11 true, .sensor "a" 30 (some (3 : Int)),
       .tick 31 31 true, .sensor "b" 20 (some (2 : Int)), .control (2 : Int) 32, .tick 40 40 true]
    newestControl (C := Audit) ((0 : Int), 0) es = ((2 : Int), 32) ∧
    ((auditNode replayCfg).run replayCfg es).1.filt.ctl = (1 : Int) ∧
    ((auditNode replayCfg).run replayCfg es).1.ctl = (2 : Int) := ⟨rfl, rfl, rfl⟩

/-- Meeting the hypotheses of the partial theorem: two commands, a late measurement, a reset. -/
example :
    let cfg : Cfg Audit := { auditCfg false 0 1000 with useControl := true }
    cfg.smooth = false ∧ cfg.useControl = true ∧
    ((auditNode cfg).run cfg [.control (1 : Int) 1, .sensor "a" 10 (some (1 : Int)), .tick 11 11 true,
      .control (2 : Int) 12, .sensor "b" 5 (some (3 : Int)), .tick 31 31 true, .reset]).1.filt.ctl = (2 : Int) :=
  ⟨rfl, rfl, rfl⟩

end RL
