import Verif.Proofs.NodeClock
import Verif.Spec.Audit
import Verif.Props.Fusion
import Verif.Props.Stale
/-! # C30 and C31: published stamps, sensor timeout -/

namespace RL
variable {C : Core} {P : MQueue C}

/-- The stamps of the odometry messages among what was sent. -/
def odomStamps (o : List (Out C)) : List Int :=
  o.filterMap (fun | .odom s _ _ => some s | _ => none)

theorem odomStamps_append (a b : List (Out C)) : odomStamps (a ++ b) = odomStamps a ++ odomStamps b :=
  List.filterMap_append

/-- What a publication sends, and what it leaves. -/
theorem publish_spec (cfg : Cfg C) (n : Node C P) (tfOk : Bool) (hp : cfg.permitCorrected = false) :
    odomStamps (n.publish cfg tfOk).2 =
      (if n.filt.initialized = true ∧ n.lastPub < n.filt.lastTime then [n.filt.lastTime] else []) ∧
    (n.publish cfg tfOk).1.lastPub = if n.filt.initialized then n.filt.lastTime else n.lastPub := by
  unfold Node.publish
  by_cases hi : n.filt.initialized = true
  · simp only [hi, if_true, hp, Bool.not_false, Bool.true_and, true_and]
    refine ⟨?_, trivial⟩
    by_cases hc : n.lastPub < n.filt.lastTime
    · have : ¬ n.filt.lastTime ≤ n.lastPub := by omega
      cases ha : cfg.publishAccel <;> cases ht : cfg.publishTf <;> cases tfOk <;>
        simp [hc, odomStamps]
    · have : n.filt.lastTime ≤ n.lastPub := by omega
      simp [hc, this, odomStamps]
  · simp [hi, odomStamps]

/-- C30, partial.  A node without smoothing, under a clock that does not go back, started at any time: between resets
the stamps of its odometry messages strictly increase.  Missing: smoothing nodes, where it is false (below). -/
theorem C30_stamps_increase_partial (cfg : Cfg C) (hs : cfg.smooth = false) (hp : cfg.permitCorrected = false)
    (ext0 : C.Ext) (fctl0 : C.Ctl) (k : Int) (es : List (Node.Event C)) (hclk : Clocked k es)
    (hr : ∀ e ∈ es, e.isReset = false) :
    (odomStamps ((Node.start cfg P ext0 fctl0 k).run cfg es).2).Pairwise (fun a b => a < b) := by
  suffices key : ∀ (es : List (Node.Event C)) (k : Int) (n : Node C P), n.filt.lastTime ≤ k → Clocked k es →
      (∀ e ∈ es, e.isReset = false) →
      (odomStamps (n.run cfg es).2).Pairwise (fun a b => a < b) ∧
      (n.filt.initialized = true → n.lastPub ≤ n.filt.lastTime →
        ∀ s ∈ odomStamps (n.run cfg es).2, n.lastPub < s) by
    exact (key es k _ (Int.le_refl _) hclk hr).1
  intro es
  induction es with
  | nil => intro k n _ _ _; simp [Node.run, odomStamps]
  | cons e es ih =>
    intro k n hk hc hr
    obtain ⟨hc1, hc2, hc3⟩ := hc.cons
    have hr' : ∀ e ∈ es, e.isReset = false := fun e he => hr e (List.mem_cons_of_mem _ he)
    have quiet : ∀ n' : Node C P, (n.step cfg e) = (n', []) → n'.lastPub = n.lastPub →
        n'.filt.lastTime ≤ clockAfter k [e] →
        (n.filt.initialized = true → n'.filt.initialized = true ∧ n.filt.lastTime ≤ n'.filt.lastTime) →
        (odomStamps (n.run cfg (e :: es)).2).Pairwise (fun a b => a < b) ∧
        (n.filt.initialized = true → n.lastPub ≤ n.filt.lastTime → ∀ s ∈ odomStamps (n.run cfg (e :: es)).2, n.lastPub < s) := by
      intro n' e1 e2 e3 e4
      have hrun : (n.run cfg (e :: es)).2 = (n'.run cfg es).2 := by
        show (n.step cfg e).2 ++ ((n.step cfg e).1.run cfg es).2 = _
        rw [e1]; rfl
      obtain ⟨i1, i2⟩ := ih (clockAfter k [e]) n' e3 hc2 hr'
      rw [hrun]
      refine ⟨i1, fun hi hl => ?_⟩
      obtain ⟨h1, h2⟩ := e4 hi
      rw [← e2]
      exact i2 h1 (by rw [e2]; omega)
    cases e with
    | sensor topic stamp z =>
      obtain ⟨s1, _⟩ := n.sensor_spec topic stamp z []
      refine quiet (n.sensor topic stamp z) rfl ?_ (by rw [s1]; exact hk) (by rw [s1]; exact fun h => ⟨h, Int.le_refl _⟩)
      unfold Node.sensor
      split
      · rfl
      · dsimp only
        split
        · cases z <;> rfl
        · rfl
    | control c t =>
      refine quiet (n.control cfg c t) rfl ?_ ?_ ?_ <;> unfold Node.control <;> split <;>
        first | rfl | exact hk | exact fun h => ⟨h, Int.le_refl _⟩
    | setPose stamp now r =>
      exact quiet (n.setPose stamp now r) rfl rfl (Int.le_refl _)
        (fun h => ⟨h, Int.le_trans hk hc1.1⟩)
    | reset => exact absurd (hr _ List.mem_cons_self) (by simp [Node.Event.isReset])
    | toggle on =>
      refine quiet (n.toggle on).1 rfl ?_ ?_ ?_ <;> unfold Node.toggle <;> split <;>
        first | rfl | exact hk | exact fun h => ⟨h, Int.le_refl _⟩
    | enable => exact quiet n.enable rfl rfl hk (fun h => ⟨h, Int.le_refl _⟩)
    | tick now now2 tfOk =>
      by_cases he : n.enabled = true
      · have hkn : k ≤ now := hc1.1
        have hnn : now ≤ now2 := hc1.2.1
        -- the clock does not go back during a cycle
        have hadv : (n.advance cfg now now2).filt.lastTime ≤ now2 ∧
            (n.filt.initialized = true → (n.advance cfg now now2).filt.initialized = true ∧
              n.filt.lastTime ≤ (n.advance cfg now now2).filt.lastTime) ∧
            (n.advance cfg now now2).lastPub = n.lastPub := by
          have hdr : (Node.drain cfg now (P.size n.queue) 0 n).filt.lastTime ≤ now ∧
              (n.filt.initialized = true → (Node.drain cfg now (P.size n.queue) 0 n).filt.initialized = true ∧
                n.filt.lastTime ≤ (Node.drain cfg now (P.size n.queue) 0 n).filt.lastTime) ∧
              (Node.drain cfg now (P.size n.queue) 0 n).lastPub = n.lastPub := by
            refine Node.drain_induct cfg now (fun a => a.filt.lastTime ≤ now ∧ (n.filt.initialized = true →
              a.filt.initialized = true ∧ n.filt.lastTime ≤ a.filt.lastTime) ∧ a.lastPub = n.lastPub) ?_ _ _ _
              ⟨by omega, fun h => ⟨h, Int.le_refl _⟩, rfl⟩
            intro r a m ha ht hm
            have hf : ∃ f0 : Filt C, f0.initialized = a.filt.initialized ∧ f0.lastTime = a.filt.lastTime ∧
                (Node.drainStep cfg r a m).filt = f0.processMeasurement m := by
              by_cases hd : (cfg.useControl && decide (r > 0)) = true
              · exact ⟨a.filt.setControl m.ctl m.ctlTime, rfl, rfl, by simp [Node.drainStep, hd]⟩
              · exact ⟨a.filt, rfl, rfl, by simp only [Node.drainStep, hd]; rfl⟩
            obtain ⟨f0, hf1, hf2, hf⟩ := hf
            refine ⟨?_, ?_, ha.2.2⟩
            · rw [hf, Filt.processMeasurement_lastTime, hf2]
              have := ha.1
              split <;> omega
            · intro hi
              obtain ⟨h1, h2⟩ := ha.2.1 hi
              rw [hf, Filt.processMeasurement_lastTime, hf1, hf2, h1]
              refine ⟨Filt.processMeasurement_initialized _ _, ?_⟩
              simp only [if_true]
              omega
          unfold Node.advance
          split
          · unfold Node.integrate
            split
            · simp only [hs, Bool.false_and, Bool.false_eq_true, if_false]
              obtain ⟨d1, d2, d3⟩ := hdr
              split
              · rw [Node.predictTo_filt]
                refine ⟨hnn, fun hi => ⟨(d2 hi).1, ?_⟩, d3⟩
                show _ ≤ now
                omega
              · exact ⟨by omega, d2, d3⟩
            · dsimp only
              split
              · rw [Node.predictTo_filt]
                refine ⟨hnn, fun hi => ⟨hi, ?_⟩, rfl⟩
                show _ ≤ now
                omega
              · exact ⟨by omega, fun hi => ⟨hi, Int.le_refl _⟩, rfl⟩
          · dsimp only
            by_cases hi : n.filt.initialized = true
            · simp only [hi, if_true]
              refine ⟨Int.le_refl _, fun _ => ⟨hi, ?_⟩, trivial⟩
              show _ ≤ now2
              omega
            · simp only [hi]
              exact ⟨by simp; omega, fun h => absurd h (by simp), trivial⟩
        obtain ⟨a1, a2, a3⟩ := hadv
        obtain ⟨p1, p2⟩ := publish_spec cfg (n.advance cfg now now2) tfOk hp
        have hper : n.step cfg (.tick now now2 tfOk) = (n.advance cfg now now2).publish cfg tfOk := by
          show n.periodic cfg now now2 tfOk = _
          simp [Node.periodic, he, hs]
        have hrun : odomStamps (n.run cfg (.tick now now2 tfOk :: es)).2 =
            odomStamps ((n.advance cfg now now2).publish cfg tfOk).2 ++
              odomStamps (((n.advance cfg now now2).publish cfg tfOk).1.run cfg es).2 := by
          show odomStamps ((n.step cfg (.tick now now2 tfOk)).2 ++ ((n.step cfg (.tick now now2 tfOk)).1.run cfg es).2) = _
          rw [hper, odomStamps_append]
        obtain ⟨q, hq⟩ := Node.publish_state cfg (n.advance cfg now now2) tfOk
        have hfilt : ((n.advance cfg now now2).publish cfg tfOk).1.filt = (n.advance cfg now now2).filt := by rw [hq]
        have hih := ih now2 ((n.advance cfg now now2).publish cfg tfOk).1 (by rw [hfilt]; exact a1) hc2 hr'
        rw [hfilt, p2] at hih
        rw [hrun, p1]
        by_cases hpub : (n.advance cfg now now2).filt.initialized = true ∧
            (n.advance cfg now now2).lastPub < (n.advance cfg now now2).filt.lastTime
        · rw [if_pos hpub]
          have hlater := hih.2 hpub.1 (by rw [hpub.1]; exact Int.le_refl _)
          rw [hpub.1] at hlater
          refine ⟨?_, fun hi hl s hs' => ?_⟩
          · rw [List.singleton_append, List.pairwise_cons]
            exact ⟨hlater, hih.1⟩
          · rw [List.singleton_append] at hs'
            have h0 := hpub.2
            rw [a3] at h0
            rcases List.mem_cons.1 hs' with rfl | hs'
            · exact h0
            · have : (n.advance cfg now now2).filt.lastTime < s := hlater s hs'
              omega
        · rw [if_neg hpub, List.nil_append]
          refine ⟨hih.1, fun hi hl s hs' => ?_⟩
          obtain ⟨h1, h2⟩ := a2 hi
          have hlater := hih.2 h1 (by rw [h1]; exact Int.le_refl _) s hs'
          rw [h1] at hlater
          have hle : (n.advance cfg now now2).filt.lastTime ≤ n.lastPub := by
            rw [← a3]
            exact Int.not_lt.1 (fun h => hpub ⟨h1, h⟩)
          simp only [if_true] at hlater
          omega
      · have e1 := Node.periodic_disabled cfg n now now2 tfOk (by simpa using he)
        refine quiet n (by show n.periodic cfg now now2 tfOk = _; rw [e1]) rfl ?_ (fun h => ⟨h, Int.le_refl _⟩)
        have h1 : k ≤ now := hc1.1
        have h2 : now ≤ now2 := hc1.2.1
        show _ ≤ now2
        omega

/-- C30 is false with smoothing: with a measurement at 10, a prediction to 1000 by timeout, a late measurement at 20 and
one at 30 the odometry stamps are 10, 1000, 30. -/
theorem C30_stamp_goes_back_with_smoothing :
    let cfg := auditCfg true 100000 100
    odomStamps ((auditNode cfg).run cfg [.sensor "a" 10 (some (1 : Int)), .tick 11 11 true, .tick 1000 1000 true,
      .sensor "a" 20 (some (2 : Int)), .tick 1001 1001 true, .sensor "a" 30 (some (3 : Int)), .tick 1002 1002 true]).2 =
      [10, 1000, 30] := rfl

/-- The same events without smoothing, meeting the hypotheses of the partial theorem. -/
example :
    let cfg := auditCfg false 0 100
    let es : List (Node.Event Audit) := [.sensor "a" 10 (some (1 : Int)), .tick 11 11 true, .tick 1000 1000 true,
      .sensor "a" 20 (some (2 : Int)), .tick 1001 1001 true, .sensor "a" 1030 (some (3 : Int)), .tick 1032 1032 true]
    cfg.smooth = false ∧ cfg.permitCorrected = false ∧
    odomStamps ((auditNode cfg).run cfg es).2 = [10, 1000, 1030] := ⟨rfl, rfl, rfl⟩

/-! ## C31 -/

/-- C31.  A cycle that finds nothing to fuse: an uninitialised filter is untouched; an initialised one is carried
forward to the present exactly when the time since its last update reaches the timeout (or prediction to the current
time is configured), in one prediction over the time elapsed since its clock, and is untouched otherwise. -/
theorem C31_timeout (cfg : Cfg C) (n : Node C P) (now : Int) (hq : P.elems n.queue = 0) :
    (n.filt.initialized = false → (n.integrate cfg now) = n) ∧
    (n.filt.initialized = true → n.filt.sensorTimeout ≤ now - n.filt.lastTime →
      ((n.integrate cfg now).filt.x, (n.integrate cfg now).filt.cov, (n.integrate cfg now).filt.ext) =
        C.predict n.filt.par n.filt.ctl n.filt.ctlTime now (now - n.filt.lastTime) (n.filt.x, n.filt.cov, n.filt.ext)
      ∧ (n.integrate cfg now).filt.lastTime = now) ∧
    (n.filt.initialized = true → now - n.filt.lastTime < n.filt.sensorTimeout → cfg.predictToCurrent = false →
      (n.integrate cfg now) = n) := by
  have ht : P.top n.queue = none := (P.top_none _).2 hq
  refine ⟨fun hi => ?_, fun hi hd => ?_, fun hi hd hp => ?_⟩
  · simp [Node.integrate, ht, hi]
  · simp [Node.integrate, ht, hi, hd, Node.predictTo, Filt.predict, Filt.setLastTime]
    omega
  · have : ¬ n.filt.sensorTimeout ≤ now - n.filt.lastTime := by omega
    simp [Node.integrate, ht, hi, this, hp]

/-- The boundary: at 99 after the last update nothing happens, at 100 the filter is predicted by 100. -/
example :
    let cfg := auditCfg false 0 100
    let n := ((auditNode cfg).run cfg [.sensor "a" 10 (some (1 : Int)), .tick 11 11 true]).1
    (n.integrate cfg 109).filt.x = [.init 1] ∧ (n.integrate cfg 110).filt.x = [.init 1, .predict 0 100] := ⟨rfl, rfl⟩

end RL
