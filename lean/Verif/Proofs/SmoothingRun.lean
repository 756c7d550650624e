import Verif.Proofs.Smoothing
/-! # Lagged-data smoothing: whole cycles and whole runs -/

namespace RL
variable {C : Core} {P : MQueue C}

/-- The members a cycle never writes. -/
structure SameInputs (a b : Node C P) : Prop where
  lastMsg : a.lastMsg = b.lastMsg
  lastSetPose : a.lastSetPose = b.lastSetPose
  ctl : a.ctl = b.ctl
  ctlTime : a.ctlTime = b.ctlTime
  toggledOn : a.toggledOn = b.toggledOn
  enabled : a.enabled = b.enabled

theorem SameInputs.refl (a : Node C P) : SameInputs a a := ⟨rfl, rfl, rfl, rfl, rfl, rfl⟩
theorem SameInputs.trans {a b c : Node C P} (h : SameInputs a b) (k : SameInputs b c) : SameInputs a c :=
  ⟨h.1.trans k.1, h.2.trans k.2, h.3.trans k.3, h.4.trans k.4, h.5.trans k.5, h.6.trans k.6⟩

namespace Node

theorem drain_inputs (cfg : Cfg C) (now : Int) (k : Nat) (r : Int) (n : Node C P) :
    SameInputs (drain cfg now k r n) n :=
  drain_induct cfg now (fun a => SameInputs a n)
    (fun _ _ _ h _ _ => ⟨h.1, h.2, h.3, h.4, h.5, h.6⟩) k r n (SameInputs.refl n)

theorem drainStep_stateHist (cfg : Cfg C) (r : Int) (n : Node C P) (m : Meas C) :
    (drainStep cfg r n m).stateHist = (drainStep cfg r n m).filt.snap :: n.stateHist ∨
      (drainStep cfg r n m).stateHist = n.stateHist := by
  have : ∃ b : Bool, (drainStep cfg r n m).stateHist =
      if b = true then (drainStep cfg r n m).filt.snap :: n.stateHist else n.stateHist := ⟨_, rfl⟩
  obtain ⟨b, hb⟩ := this
  cases b
  · exact Or.inr hb
  · exact Or.inl hb

theorem revertTo_inputs (n : Node C P) (t : Int) : SameInputs (n.revertTo t).1 n := by
  unfold revertTo
  dsimp only
  split <;> exact ⟨rfl, rfl, rfl, rfl, rfl, rfl⟩

theorem integrate_inputs (cfg : Cfg C) (n : Node C P) (now : Int) : SameInputs (n.integrate cfg now) n := by
  unfold integrate
  split
  · dsimp only
    have key : ∀ r : Node C P × Int, SameInputs r.1 n →
        SameInputs (if (drain cfg now (P.size r.1.queue) r.2 r.1).filt.initialized && cfg.predictToCurrent
          then (drain cfg now (P.size r.1.queue) r.2 r.1).predictTo now
          else drain cfg now (P.size r.1.queue) r.2 r.1) n := by
      intro r hr
      have := (drain_inputs cfg now (P.size r.1.queue) r.2 r.1).trans hr
      split
      · exact ⟨this.1, this.2, this.3, this.4, this.5, this.6⟩
      · exact this
    apply key
    split
    · exact revertTo_inputs _ _
    · exact SameInputs.refl n
  · dsimp only
    split
    · exact ⟨rfl, rfl, rfl, rfl, rfl, rfl⟩
    · exact SameInputs.refl n

theorem publish_state (cfg : Cfg C) (n : Node C P) (tfOk : Bool) :
    ∃ p, (n.publish cfg tfOk).1 = { n with lastPub := p } := by
  unfold publish
  split
  · exact ⟨_, rfl⟩
  · exact ⟨n.lastPub, rfl⟩

/-- An enabled node: a cycle is integration (or discarding) followed by bookkeeping. -/
theorem periodic_enabled (cfg : Cfg C) (n : Node C P) (now now2 : Int) (tfOk : Bool) (he : n.enabled = true) :
    ∃ p, (n.periodic cfg now now2 tfOk).1 =
      if cfg.smooth then
        ({ n.advance cfg now now2 with lastPub := p }).clearExpired
          ((n.advance cfg now now2).filt.lastTime - cfg.historyLength)
      else { n.advance cfg now now2 with lastPub := p } := by
  obtain ⟨p, hp⟩ := publish_state cfg (n.advance cfg now now2) tfOk
  refine ⟨p, ?_⟩
  unfold periodic
  simp only [he, Bool.not_true, Bool.false_eq_true, if_false, hp]

theorem periodic_on (cfg : Cfg C) (n : Node C P) (now now2 : Int) (tfOk : Bool) (he : n.enabled = true)
    (ht : n.toggledOn = true) :
    ∃ p, (n.periodic cfg now now2 tfOk).1 =
      if cfg.smooth then
        ({ n.integrate cfg now with lastPub := p }).clearExpired
          ((n.integrate cfg now).filt.lastTime - cfg.historyLength)
      else { n.integrate cfg now with lastPub := p } := by
  have : n.advance cfg now now2 = n.integrate cfg now := by simp [advance, ht]
  rw [← this]
  exact periodic_enabled cfg n now now2 tfOk he

theorem advance_inputs (cfg : Cfg C) (n : Node C P) (now now2 : Int) : SameInputs (n.advance cfg now now2) n := by
  unfold advance
  split
  · exact integrate_inputs cfg n now
  · exact ⟨rfl, rfl, rfl, rfl, rfl, rfl⟩

theorem periodic_disabled (cfg : Cfg C) (n : Node C P) (now now2 : Int) (tfOk : Bool) (he : n.enabled = false) :
    n.periodic cfg now now2 tfOk = (n, []) := by
  simp [periodic, he]

theorem periodic_inputs (cfg : Cfg C) (n : Node C P) (now now2 : Int) (tfOk : Bool) :
    SameInputs (n.periodic cfg now now2 tfOk).1 n := by
  by_cases he : n.enabled = true
  · obtain ⟨p, hp⟩ := periodic_enabled cfg n now now2 tfOk he
    have := advance_inputs cfg n now now2
    rw [hp]
    split <;> exact ⟨this.1, this.2, this.3, this.4, this.5, this.6⟩
  · rw [periodic_disabled cfg n now now2 tfOk (by simpa using he)]
    exact SameInputs.refl n

end Node

/-- What the smoothing theorem asks of a cycle: if the oldest pending measurement is older than the filter clock some
retained snapshot is older still, and the cycle does not predict for lack of data. -/
def Node.Covered (n : Node C P) : Node.Event C → Prop
  | .sensor _ _ _ => True
  | .tick now _ _ =>
    (∀ first, P.top n.queue = some first → n.filt.initialized = true → first.time < n.filt.lastTime →
      ∃ s ∈ n.stateHist, s.lastTime < first.time) ∧
    (P.top n.queue = none → n.filt.initialized = true → now - n.filt.lastTime < n.filt.sensorTimeout)
  | _ => False

/-- Settings under which smoothing is exact. -/
structure SmoothCfg (cfg : Cfg C) : Prop where
  smooth : cfg.smooth = true
  noCtl : cfg.useControl = false
  noPredict : cfg.predictToCurrent = false
  hist : 0 ≤ cfg.historyLength

theorem SInv.integrate [Subsingleton C.Ext] {cfg : Cfg C} (hc : SmoothCfg cfg) {f0 : Filt C} {n : Node C P}
    {G : List (Meas C)} (h : SInv f0 n G (fun _ => True)) {now now2 : Int} {tfOk : Bool}
    (hcov : n.Covered (.tick now now2 tfOk)) :
    ∃ G', SInv f0 (n.integrate cfg now) G' (fun _ => True) ∧
      (G' : Multiset (Meas C)) + P.elems (n.integrate cfg now).queue = (G : Multiset (Meas C)) + P.elems n.queue ∧
      (n.filt.initialized = true → (n.integrate cfg now).filt.initialized = true) ∧
      (n.filt.initialized = true → ∀ t0, (∀ m ∈ P.elems n.queue, t0 < m.time) → (∃ s ∈ n.stateHist, s.lastTime = t0) →
        ∃ s ∈ (n.integrate cfg now).stateHist, s.lastTime = t0) := by
  obtain ⟨hcov1, hcov2⟩ := hcov
  cases ht : P.top n.queue with
  | none =>
    have e : n.integrate cfg now = n := by
      unfold Node.integrate
      simp only [ht, hc.noPredict, Bool.false_or]
      by_cases hi : n.filt.initialized = true
      · have := hcov2 ht hi
        have h' : ¬ now - n.filt.lastTime ≥ n.filt.sensorTimeout := by omega
        simp [h']
      · simp [hi]
    rw [e]
    exact ⟨G, h, rfl, id, fun _ _ _ h => h⟩
  | some first =>
    -- a common end: run the loop from a state in which nothing pending is older than the clock
    have fin : ∀ (n' : Node C P) (r : Int) (G0 : List (Meas C)), SInv f0 n' G0 (fun _ => True) →
        (n'.filt.initialized = true → ∀ m ∈ P.elems n'.queue, n'.filt.lastTime ≤ m.time) →
        ∃ G', SInv f0 (Node.drain cfg now (P.size n'.queue) r n') G' (fun _ => True) ∧
          (G' : Multiset (Meas C)) + P.elems (Node.drain cfg now (P.size n'.queue) r n').queue =
            (G0 : Multiset (Meas C)) + P.elems n'.queue ∧
          (n'.filt.initialized = true → (Node.drain cfg now (P.size n'.queue) r n').filt.initialized = true) ∧
          (∀ s ∈ n'.stateHist, s ∈ (Node.drain cfg now (P.size n'.queue) r n').stateHist) := by
      intro n' r G0 hn' hq
      have hin : n'.filt.initialized = true →
          (Node.drain cfg now (P.size n'.queue) r n').filt.initialized = true := fun hi =>
        Node.drain_induct cfg now (fun a => a.filt.initialized = true)
          (fun _ _ _ _ _ _ => Filt.processMeasurement_initialized _ _) _ r n' hi
      have hsub : ∀ s ∈ n'.stateHist, s ∈ (Node.drain cfg now (P.size n'.queue) r n').stateHist :=
        Node.drain_induct cfg now (fun a => ∀ s ∈ n'.stateHist, s ∈ a.stateHist)
          (fun r a m ha _ _ s hs => by
            have := ha s hs
            rcases Node.drainStep_stateHist cfg r a m with e | e <;> rw [e]
            · exact List.mem_cons_of_mem _ this
            · exact this) _ r n' (fun _ => id)
      obtain ⟨G', g1, g2, g3⟩ := SInv.drain hc.smooth hc.noCtl now (P.size n'.queue) r n' G0
        (hn'.weaken fun _ _ => trivial) hq
      refine ⟨G', ?_, g2, hin, hsub⟩
      rcases g3 with ⟨rfl, e⟩ | g3
      · rw [e]; exact hn'
      · refine g1.weaken fun t _ => Or.inr fun m hm => ?_
        have := Node.drain_left cfg now (P.size n'.queue) r n' (Nat.le_refl _) m (Node.top_mem hm)
        omega
    have e : n.integrate cfg now =
        let r := if first.time < n.filt.lastTime then
            ((n.revertTo (first.time - 1)).1, (P.size (n.revertTo (first.time - 1)).1.queue : Int) - (P.size n.queue : Int))
          else (n, 0)
        Node.drain cfg now (P.size r.1.queue) r.2 r.1 := by
      unfold Node.integrate
      simp [ht, hc.smooth, hc.noPredict]
    rw [e]
    by_cases hlate : first.time < n.filt.lastTime
    · simp only [hlate, if_true]
      by_cases hi : n.filt.initialized = true
      · obtain ⟨s, hs, hst⟩ := hcov1 first ht hi hlate
        obtain ⟨G0, h1, h2, _, h4, h5, h6⟩ := h.revert hi (t := first.time - 1) ⟨s, hs, by omega⟩ (fuse_params f0)
        obtain ⟨G', g1, g2, g3, g4⟩ := fin (n.revertTo (first.time - 1)).1 _ G0 h1 (by
          intro _ m hm
          rcases h6 m hm with hm | hm
          · have := P.top_min _ _ ht m hm
            omega
          · omega)
        refine ⟨G', g1, g2.trans h2, fun _ => g3 h4, ?_⟩
        rintro _ t0 hq ⟨s0, hs0, rfl⟩
        refine ⟨s0, g4 s0 ?_, rfl⟩
        have hft := hq first (Node.top_mem ht)
        have hin : s0 ∈ n.stateHist.dropWhile (fun s => decide (s.lastTime > first.time - 1)) := by
          have hsplit := List.takeWhile_append_dropWhile
            (p := fun s : Snap C => decide (s.lastTime > first.time - 1)) (l := n.stateHist)
          rw [← hsplit] at hs0
          rcases List.mem_append.1 hs0 with h' | h'
          · have := takeWhile_gt (f := Snap.lastTime) _ _ s0 h'
            omega
          · exact h'
        unfold Node.revertTo
        dsimp only
        split
        · exact hin
        · exact hin
      · obtain ⟨e1, e2, e3⟩ := h.uninit (by simpa using hi)
        have er : (n.revertTo (first.time - 1)).1 = { n with stateHist := [] } := by
          unfold Node.revertTo
          simp [e3]
        have en : ({ n with stateHist := [] } : Node C P) = n := by
          rw [← e3]
        rw [er, en]
        obtain ⟨G', g1, g2, g3, g4⟩ := fin n ((P.size n.queue : Int) - (P.size n.queue : Int)) G h (fun hi' => absurd hi' hi)
        exact ⟨G', g1, g2, g3, fun hi' => absurd hi' hi⟩
    · simp only [hlate, if_false]
      obtain ⟨G', g1, g2, g3, g4⟩ := fin n 0 G h (by
        intro _ m hm
        have := P.top_min _ _ ht m hm
        omega)
      exact ⟨G', g1, g2, g3, fun _ t0 _ ⟨s, hs, e⟩ => ⟨s, g4 s hs, e⟩⟩

theorem SInv.periodic [Subsingleton C.Ext] {cfg : Cfg C} (hc : SmoothCfg cfg) {f0 : Filt C} {n : Node C P}
    {G : List (Meas C)} (h : SInv f0 n G (fun _ => True)) {now now2 : Int} {tfOk : Bool}
    (he : n.enabled = true) (ht : n.toggledOn = true) (hcov : n.Covered (.tick now now2 tfOk)) :
    ∃ G', SInv f0 (n.periodic cfg now now2 tfOk).1 G' (fun _ => True) ∧
      (G' : Multiset (Meas C)) + P.elems (n.periodic cfg now now2 tfOk).1.queue =
        (G : Multiset (Meas C)) + P.elems n.queue ∧
      (n.filt.initialized = true → (n.periodic cfg now now2 tfOk).1.filt.initialized = true) ∧
      (n.filt.initialized = true → ∀ t0, (∀ m ∈ P.elems n.queue, t0 < m.time) → (∃ s ∈ n.stateHist, s.lastTime = t0) →
        (n.periodic cfg now now2 tfOk).1.filt.lastTime ≤ t0 + cfg.historyLength →
        ∃ s ∈ (n.periodic cfg now now2 tfOk).1.stateHist, s.lastTime = t0) := by
  obtain ⟨G', h1, h2, h3, h4⟩ := h.integrate hc hcov
  obtain ⟨p, hp⟩ := Node.periodic_on cfg n now now2 tfOk he ht
  rw [hp, hc.smooth]
  simp only [if_true]
  have h1' : SInv f0 ({ n.integrate cfg now with lastPub := p }) G' (fun _ => True) :=
    ⟨h1.est, h1.sorted, h1.ssorted, h1.le, h1.sle, h1.uninit, h1.hist, h1.snaps⟩
  refine ⟨G', h1'.clearExpired _ ?_, h2, h3, ?_⟩
  · have := hc.hist
    show _ ≤ (n.integrate cfg now).filt.lastTime
    omega
  · intro hi t0 hq hs hl
    obtain ⟨s, hs', e⟩ := h4 hi t0 hq hs
    refine ⟨s, ?_, e⟩
    show s ∈ (n.integrate cfg now).stateHist.rdropWhile _
    rw [h1.ssorted.rdropWhile_eq]
    have hall : ∀ l : List (Snap C), Desc Snap.lastTime l → ∀ k, ∀ s ∈ l, k ≤ s.lastTime →
        s ∈ l.takeWhile (fun s => decide (k ≤ s.lastTime)) := by
      intro l
      induction l with
      | nil => intro _ _ s hs; simp at hs
      | cons a l ih =>
        intro hd k s hs hk
        have := hd.le_head s hs
        have hka : k ≤ a.lastTime := by omega
        simp only [List.takeWhile_cons, hka, decide_true, if_true]
        rcases List.mem_cons.1 hs with rfl | hs
        · exact List.mem_cons_self
        · exact List.mem_cons_of_mem _ (ih hd.tail k s hs hk)
    refine hall _ h1.ssorted _ s hs' ?_
    have : (n.integrate cfg now).filt.lastTime ≤ t0 + cfg.historyLength := hl
    omega

/-- Accepting or refusing one message. -/
theorem Node.sensor_spec (n : Node C P) (topic : String) (stamp : Int) (z : Option C.Z) (es : List (Node.Event C)) :
    (n.sensor topic stamp z).filt = n.filt ∧ (n.sensor topic stamp z).stateHist = n.stateHist ∧
    (n.sensor topic stamp z).measHist = n.measHist ∧ (n.sensor topic stamp z).lastSetPose = n.lastSetPose ∧
    (n.sensor topic stamp z).ctl = n.ctl ∧ (n.sensor topic stamp z).ctlTime = n.ctlTime ∧
    (n.sensor topic stamp z).toggledOn = n.toggledOn ∧ (n.sensor topic stamp z).enabled = n.enabled ∧
    P.elems (n.sensor topic stamp z).queue +
        (arrivals n.lastSetPose n.ctl n.ctlTime (n.sensor topic stamp z).lastMsg es : Multiset (Meas C)) =
      P.elems n.queue +
        (arrivals n.lastSetPose n.ctl n.ctlTime n.lastMsg (.sensor topic stamp z :: es) : Multiset (Meas C)) := by
  by_cases h1 : n.lastSetPose ≥ stamp
  · have e : n.sensor topic stamp z = n := by simp [Node.sensor, h1]
    rw [e]
    refine ⟨rfl, rfl, rfl, rfl, rfl, rfl, rfl, rfl, ?_⟩
    have : ¬ (n.lastSetPose < stamp ∧ ∀ l, n.lastMsg topic = some l → l ≤ stamp) := by
      rintro ⟨h, _⟩; omega
    rw [arrivals, if_neg this]
  · by_cases h2 : (n.lastMsg topic).getD stamp ≤ stamp
    · have hc : n.lastSetPose < stamp ∧ ∀ l, n.lastMsg topic = some l → l ≤ stamp := by
        refine ⟨by omega, fun l hl => ?_⟩
        rw [hl] at h2
        exact h2
      rw [arrivals, if_pos hc]
      cases z with
      | none =>
        have e : n.sensor topic stamp none =
            { n with lastMsg := fun t => if t = topic then some stamp else n.lastMsg t } := by
          simp [Node.sensor, h1, h2]
        rw [e]
        exact ⟨rfl, rfl, rfl, rfl, rfl, rfl, rfl, rfl, rfl⟩
      | some z =>
        have e : n.sensor topic stamp (some z) =
            { n.enqueue topic z stamp with lastMsg := fun t => if t = topic then some stamp else n.lastMsg t } := by
          simp [Node.sensor, h1, h2, Node.enqueue]
        rw [e]
        refine ⟨rfl, rfl, rfl, rfl, rfl, rfl, rfl, rfl, ?_⟩
        simp only [Node.enqueue, P.elems_push]
        rw [← Multiset.cons_coe, Multiset.cons_add, Multiset.add_cons]
    · have e : n.sensor topic stamp z = n := by simp [Node.sensor, h1, h2]
      rw [e]
      refine ⟨rfl, rfl, rfl, rfl, rfl, rfl, rfl, rfl, ?_⟩
      have : ¬ (n.lastSetPose < stamp ∧ ∀ l, n.lastMsg topic = some l → l ≤ stamp) := by
        rintro ⟨_, h⟩
        cases hl : n.lastMsg topic with
        | none => rw [hl] at h2; exact h2 (Int.le_refl _)
        | some l => rw [hl] at h2; exact h2 (h l hl)
      rw [arrivals, if_neg this]

/-- The run theorem, in terms of the ghost list. -/
theorem SInv.run [Subsingleton C.Ext] {cfg : Cfg C} (hc : SmoothCfg cfg) {f0 : Filt C} (es : List (Node.Event C)) :
    ∀ (n : Node C P) (G : List (Meas C)), SInv f0 n G (fun _ => True) → n.enabled = true → n.toggledOn = true →
      Along cfg Node.Covered n es →
      ∃ G', SInv f0 (n.run cfg es).1 G' (fun _ => True) ∧
        (G' : Multiset (Meas C)) + P.elems (n.run cfg es).1.queue =
          (G : Multiset (Meas C)) + P.elems n.queue +
            (arrivals n.lastSetPose n.ctl n.ctlTime n.lastMsg es : Multiset (Meas C)) := by
  induction es with
  | nil => intro n G h _ _ _; exact ⟨G, h, by simp [Node.run, arrivals]⟩
  | cons e es ih =>
    intro n G h he ht hal
    obtain ⟨hcov, hal⟩ := hal
    cases e with
    | sensor topic stamp z =>
      obtain ⟨s1, s2, s3, s4, s5, s6, s7, s8, s9⟩ := n.sensor_spec topic stamp z es
      have h' : SInv f0 (n.sensor topic stamp z) G (fun _ => True) :=
        ⟨by rw [s1]; exact h.est, h.sorted, by rw [s2]; exact h.ssorted, by rw [s1]; exact h.le,
         by rw [s1, s2]; exact h.sle, by rw [s1, s2, s3]; exact h.uninit, by rw [s1, s2, s3]; exact h.hist,
         by rw [s2]; exact h.snaps⟩
      obtain ⟨G', g1, g2⟩ := ih (n.sensor topic stamp z) G h' (s8.trans he) (s7.trans ht) hal
      refine ⟨G', g1, ?_⟩
      show _ + P.elems ((n.sensor topic stamp z).run cfg es).1.queue = _
      rw [g2, s4, s5, s6, Multiset.add_assoc, s9, Multiset.add_assoc]
    | tick now now2 tfOk =>
      obtain ⟨G1, h1, h2, _, _⟩ := h.periodic hc he ht hcov
      have hin := Node.periodic_inputs cfg n now now2 tfOk
      obtain ⟨G', g1, g2⟩ := ih (n.periodic cfg now now2 tfOk).1 G1 h1 (hin.enabled.trans he) (hin.toggledOn.trans ht) hal
      refine ⟨G', g1, ?_⟩
      show _ + P.elems ((n.periodic cfg now now2 tfOk).1.run cfg es).1.queue = _
      rw [g2, h2, hin.lastSetPose, hin.ctl, hin.ctlTime, hin.lastMsg]
      rfl
    | control _ _ => exact absurd hcov (by simp [Node.Covered])
    | setPose _ _ _ => exact absurd hcov (by simp [Node.Covered])
    | reset => exact absurd hcov (by simp [Node.Covered])
    | toggle _ => exact absurd hcov (by simp [Node.Covered])
    | enable => exact absurd hcov (by simp [Node.Covered])

/-- A node that has not fused anything satisfies the invariant. -/
theorem SInv.init {n : Node C P} (h : n.filt.initialized = false) (h1 : n.stateHist = []) (h2 : n.measHist = []) :
    SInv n.filt n [] (fun _ => True) where
  est := SameEst.refl _
  sorted := List.Pairwise.nil
  ssorted := by rw [h1]; exact List.Pairwise.nil
  le := fun hi => by rw [h] at hi; cases hi
  sle := by rw [h1]; simp
  uninit := fun _ => ⟨rfl, h2, h1⟩
  hist := fun hi => by rw [h] at hi; cases hi
  snaps := by rw [h1]; simp

end RL
