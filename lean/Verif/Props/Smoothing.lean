import Verif.Proofs.SmoothingRun
import Verif.Spec.Audit
/-! # C22: lagged-data smoothing equals in-order fusion -/

namespace RL
variable {C : Core} {P : MQueue C}

/-- C22.  A smoothing node that never runs out of history holds, after any run of messages and cycles, exactly the
estimate obtained by fusing in stamp order all accepted measurements that are not still waiting: nothing is lost,
nothing is used twice, whatever the arrival order.  (For filters without hidden memory, such as the EKF; no control
input, no prediction to the current time.) -/
theorem C22_smoothing_is_in_order_fusion [Subsingleton C.Ext] (cfg : Cfg C) (hc : SmoothCfg cfg)
    (n : Node C P) (he : n.enabled = true) (ht : n.toggledOn = true) (hi : n.filt.initialized = false)
    (hq : P.elems n.queue = 0) (hs : n.stateHist = []) (hm : n.measHist = [])
    (es : List (Node.Event C)) (hcov : Along cfg Node.Covered n es) :
    ∃ L : List (Meas C), L.Pairwise (fun a b => a.time ≤ b.time) ∧
      (L : Multiset (Meas C)) + P.elems (n.run cfg es).1.queue =
        (arrivals n.lastSetPose n.ctl n.ctlTime n.lastMsg es : Multiset (Meas C)) ∧
      SameEst (n.run cfg es).1.filt (L.foldl Filt.processMeasurement n.filt) := by
  obtain ⟨G, g1, g2⟩ := SInv.run hc es n [] (SInv.init hi hs hm) he ht hcov
  refine ⟨G.reverse, ?_, ?_, ?_⟩
  · rw [List.pairwise_reverse]; exact g1.sorted
  · have hr : (G.reverse : Multiset (Meas C)) = G := Multiset.coe_eq_coe.2 (List.reverse_perm G)
    rw [hr, g2, hq]
    simp
  · have := fuse_reverse n.filt G.reverse
    rw [List.reverse_reverse] at this
    rw [← this]; exact g1.est

/-- Sorted lists of measurements with distinct stamps and the same content are equal. -/
theorem sorted_unique {L L' : List (Meas C)} (h : L.Pairwise (fun a b => a.time ≤ b.time))
    (h' : L'.Pairwise (fun a b => a.time ≤ b.time)) (hp : L.Perm L')
    (hd : ∀ a ∈ L, ∀ b ∈ L, a.time = b.time → a = b) : L = L' :=
  hp.eq_of_pairwise (fun a b ha hb h1 h2 => hd a ha b (hp.mem_iff.2 hb) (by omega)) h h'

/-- C22.  Arrival order does not matter: two nodes (even with different queue implementations) that started from the
same filter and accepted the same measurements with distinct stamps in different orders, in different cycles, hold the
same estimate once both have fused everything. -/
theorem C22_order_independent [Subsingleton C.Ext] {P' : MQueue C} (cfg : Cfg C) (hc : SmoothCfg cfg)
    (n : Node C P) (n' : Node C P') (hf : n.filt = n'.filt)
    (he : n.enabled = true) (ht : n.toggledOn = true) (hi : n.filt.initialized = false)
    (hq : P.elems n.queue = 0) (hs : n.stateHist = []) (hm : n.measHist = [])
    (he' : n'.enabled = true) (ht' : n'.toggledOn = true)
    (hq' : P'.elems n'.queue = 0) (hs' : n'.stateHist = []) (hm' : n'.measHist = [])
    (es es' : List (Node.Event C)) (hcov : Along cfg Node.Covered n es) (hcov' : Along cfg Node.Covered n' es')
    (hsame : (arrivals n.lastSetPose n.ctl n.ctlTime n.lastMsg es).Perm
      (arrivals n'.lastSetPose n'.ctl n'.ctlTime n'.lastMsg es'))
    (hdist : ∀ a ∈ arrivals n.lastSetPose n.ctl n.ctlTime n.lastMsg es,
      ∀ b ∈ arrivals n.lastSetPose n.ctl n.ctlTime n.lastMsg es, a.time = b.time → a = b)
    (hdone : P.elems (n.run cfg es).1.queue = 0) (hdone' : P'.elems (n'.run cfg es').1.queue = 0) :
    SameEst (n.run cfg es).1.filt (n'.run cfg es').1.filt := by
  obtain ⟨L, a1, a2, a3⟩ := C22_smoothing_is_in_order_fusion cfg hc n he ht hi hq hs hm es hcov
  obtain ⟨L', b1, b2, b3⟩ := C22_smoothing_is_in_order_fusion cfg hc n' he' ht' (hf ▸ hi) hq' hs' hm' es' hcov'
  rw [hdone, Multiset.add_zero, Multiset.coe_eq_coe] at a2
  rw [hdone', Multiset.add_zero, Multiset.coe_eq_coe] at b2
  have e : L = L' := sorted_unique a1 b1 (a2.trans (hsame.trans b2.symm))
    (fun a ha b hb => hdist a (a2.mem_iff.1 ha) b (a2.mem_iff.1 hb))
  rw [← e, ← hf] at b3
  exact a3.trans b3.symm

/-- Only messages and cycles, and no cycle predicts for lack of data. -/
def Node.NoTimeout (n : Node C P) : Node.Event C → Prop
  | .sensor _ _ _ => True
  | .tick now _ _ => P.top n.queue = none → n.filt.initialized = true → now - n.filt.lastTime < n.filt.sensorTimeout
  | _ => False

theorem fuse_lastTime_le (f0 : Filt C) (h0 : f0.initialized = false) (B : Int) :
    ∀ G : List (Meas C), (∀ m ∈ G, m.time ≤ B) → G ≠ [] → (fuse f0 G).lastTime ≤ B
  | [], _, h => absurd rfl h
  | [m], hG, _ => by
    rw [fuse_cons, Filt.processMeasurement_lastTime]
    have : (fuse f0 []).initialized = false := h0
    rw [this]
    exact hG m (by simp)
  | m :: a :: G, hG, _ => by
    have := fuse_lastTime_le f0 h0 B (a :: G) (fun x hx => hG x (List.mem_cons_of_mem _ hx)) (by simp)
    rw [fuse_cons, Filt.processMeasurement_lastTime]
    have h1 := hG m (by simp)
    split <;> omega

/-- Once a snapshot at `t0` is held and every other stamp lies in the following `history_length`, history suffices. -/
theorem covered_from_snapshot [Subsingleton C.Ext] {cfg : Cfg C} (hc : SmoothCfg cfg) {f0 : Filt C}
    (h0 : f0.initialized = false) (t0 : Int) (es : List (Node.Event C)) :
    ∀ (n : Node C P) (G : List (Meas C)), SInv f0 n G (fun _ => True) → n.enabled = true → n.toggledOn = true →
      n.filt.initialized = true → (∃ s ∈ n.stateHist, s.lastTime = t0) →
      (∀ m ∈ G, m.time ≤ t0 + cfg.historyLength) → G ≠ [] →
      (∀ m ∈ P.elems n.queue, t0 < m.time ∧ m.time ≤ t0 + cfg.historyLength) →
      (∀ m ∈ arrivals n.lastSetPose n.ctl n.ctlTime n.lastMsg es, t0 < m.time ∧ m.time ≤ t0 + cfg.historyLength) →
      Along cfg Node.NoTimeout n es → Along cfg Node.Covered n es := by
  induction es with
  | nil => intros; trivial
  | cons e es ih =>
    intro n G h he ht hi hs hG hGne hQ hA hal
    obtain ⟨hno, hal⟩ := hal
    cases e with
    | sensor topic stamp z =>
      refine ⟨trivial, ?_⟩
      obtain ⟨s1, s2, s3, s4, s5, s6, s7, s8, s9⟩ := n.sensor_spec topic stamp z es
      have h' : SInv f0 (n.sensor topic stamp z) G (fun _ => True) :=
        ⟨by rw [s1]; exact h.est, h.sorted, by rw [s2]; exact h.ssorted, by rw [s1]; exact h.le,
         by rw [s1, s2]; exact h.sle, by rw [s1, s2, s3]; exact h.uninit, by rw [s1, s2, s3]; exact h.hist,
         by rw [s2]; exact h.snaps⟩
      have hall : ∀ m ∈ P.elems (n.sensor topic stamp z).queue +
          (arrivals n.lastSetPose n.ctl n.ctlTime (n.sensor topic stamp z).lastMsg es : Multiset (Meas C)),
          t0 < m.time ∧ m.time ≤ t0 + cfg.historyLength := by
        intro m hm
        rw [s9] at hm
        rcases Multiset.mem_add.1 hm with hm | hm
        · exact hQ m hm
        · exact hA m hm
      refine ih (n.sensor topic stamp z) G h' (s8.trans he) (s7.trans ht) (by rw [s1]; exact hi)
        (by rw [s2]; exact hs) hG hGne (fun m hm => hall m (Multiset.mem_add.2 (Or.inl hm))) ?_ hal
      intro m hm
      rw [s4, s5, s6] at hm
      exact hall m (Multiset.mem_add.2 (Or.inr hm))
    | tick now now2 tfOk =>
      have hcov : n.Covered (.tick now now2 tfOk) := by
        refine ⟨fun first hf _ _ => ?_, hno⟩
        obtain ⟨s, hs, rfl⟩ := hs
        exact ⟨s, hs, (hQ first (Node.top_mem hf)).1⟩
      refine ⟨hcov, ?_⟩
      obtain ⟨G1, h1, h2, h3, h4⟩ := h.periodic hc he ht hcov
      have hin := Node.periodic_inputs cfg n now now2 tfOk
      have hB : ∀ m ∈ (G1 : Multiset (Meas C)) + P.elems (n.periodic cfg now now2 tfOk).1.queue,
          m.time ≤ t0 + cfg.historyLength := by
        intro m hm
        rw [h2] at hm
        rcases Multiset.mem_add.1 hm with hm | hm
        · exact hG m hm
        · exact (hQ m hm).2
      have hG1 : ∀ m ∈ G1, m.time ≤ t0 + cfg.historyLength := fun m hm => hB m (Multiset.mem_add.2 (Or.inl hm))
      have hG1ne : G1 ≠ [] := by
        rintro rfl
        have := h1.est.initialized
        rw [h3 hi] at this
        have h00 : (fuse f0 ([] : List (Meas C))).initialized = false := h0
        rw [h00] at this
        cases this
      have hlast : (n.periodic cfg now now2 tfOk).1.filt.lastTime ≤ t0 + cfg.historyLength := by
        rw [h1.est.lastTime]
        exact fuse_lastTime_le f0 h0 _ G1 hG1 hG1ne
      have hQ1 : ∀ m ∈ P.elems (n.periodic cfg now now2 tfOk).1.queue, t0 < m.time := by
        -- everything still waiting is newer than the clock, or was in the queue before
        intro m hm
        obtain ⟨p, hp⟩ := Node.periodic_on cfg n now now2 tfOk he ht
        have hm' : m ∈ P.elems (n.integrate cfg now).queue := by
          rw [hp, hc.smooth] at hm; exact hm
        have hsub : ∀ m ∈ P.elems (n.integrate cfg now).queue, t0 < m.time := by
          intro m hm
          unfold Node.integrate at hm
          cases htop : P.top n.queue with
          | none =>
            simp only [htop] at hm
            split at hm <;> exact (hQ m hm).1
          | some first =>
            simp only [htop, hc.smooth, hc.noPredict, Bool.and_false, Bool.true_and] at hm
            have hfirst := (hQ first (Node.top_mem htop)).1
            have hdr : ∀ (k : Nat) (r : Int) (a : Node C P), (∀ m ∈ P.elems a.queue, t0 < m.time) →
                ∀ m ∈ P.elems (Node.drain cfg now k r a).queue, t0 < m.time := fun k r a ha =>
              Node.drain_induct cfg now (fun b => ∀ m ∈ P.elems b.queue, t0 < m.time)
                (fun _ b _ hb htb _ m hm => hb m (Node.mem_pop htb hm)) k r a ha
            refine hdr _ _ _ ?_ m hm
            split
            · intro q hq
              rename_i hl
              simp only [decide_eq_true_eq] at hl
              obtain ⟨s, hs', hst⟩ := hcov.1 first htop hi hl
              obtain ⟨_, _, _, _, _, _, h6⟩ := h.revert hi (t := first.time - 1) ⟨s, hs', by omega⟩ (fuse_params f0)
              rcases h6 q hq with hq | hq
              · exact (hQ q hq).1
              · omega
            · exact fun q hq => (hQ q hq).1
        exact hsub m hm'
      refine ih (n.periodic cfg now now2 tfOk).1 G1 h1 (hin.enabled.trans he) (hin.toggledOn.trans ht) (h3 hi)
        (h4 hi t0 (fun m hm => (hQ m hm).1) hs hlast) hG1 hG1ne
        (fun m hm => ⟨hQ1 m hm, hB m (Multiset.mem_add.2 (Or.inr hm))⟩) ?_ hal
      intro m hm
      rw [hin.lastSetPose, hin.ctl, hin.ctlTime, hin.lastMsg] at hm
      exact hA m hm
    | control _ _ => exact absurd hno (by simp [Node.NoTimeout])
    | setPose _ _ _ => exact absurd hno (by simp [Node.NoTimeout])
    | reset => exact absurd hno (by simp [Node.NoTimeout])
    | toggle _ => exact absurd hno (by simp [Node.NoTimeout])
    | enable => exact absurd hno (by simp [Node.NoTimeout])

/-- C22, in the user's terms.  A first measurement (stamp `t0`) arrives and is fused.  Whatever arrives afterwards, in
whatever order and spread over whatever cycles, as long as every stamp lies in `(t0, t0 + history_length]` and the node
never predicts for lack of data: the estimate is the in-order fusion of everything accepted so far that is not still
waiting. -/
theorem C22_within_history_length [Subsingleton C.Ext] (cfg : Cfg C) (hc : SmoothCfg cfg)
    (n : Node C P) (he : n.enabled = true) (ht : n.toggledOn = true) (hi : n.filt.initialized = false)
    (hq : P.elems n.queue = 0) (hs : n.stateHist = []) (hm : n.measHist = [])
    (topic : String) (t0 : Int) (z : C.Z) (hsp : n.lastSetPose < t0) (hlm : n.lastMsg topic = none)
    (now now2 : Int) (tfOk : Bool) (hnow : t0 ≤ now) (es : List (Node.Event C))
    (hA : ∀ m ∈ arrivals n.lastSetPose n.ctl n.ctlTime (fun t => if t = topic then some t0 else n.lastMsg t) es,
      t0 < m.time ∧ m.time ≤ t0 + cfg.historyLength)
    (hno : Along cfg Node.NoTimeout (n.run cfg [.sensor topic t0 (some z), .tick now now2 tfOk]).1 es) :
    ∃ L : List (Meas C), L.Pairwise (fun a b => a.time ≤ b.time) ∧
      (L : Multiset (Meas C)) + P.elems (n.run cfg (.sensor topic t0 (some z) :: .tick now now2 tfOk :: es)).1.queue =
        (⟨t0, topic, z, n.ctl, n.ctlTime⟩ ::
          arrivals n.lastSetPose n.ctl n.ctlTime (fun t => if t = topic then some t0 else n.lastMsg t) es : List (Meas C)) ∧
      SameEst (n.run cfg (.sensor topic t0 (some z) :: .tick now now2 tfOk :: es)).1.filt
        (L.foldl Filt.processMeasurement n.filt) := by
  -- the first two events
  have hacc : n.lastSetPose < t0 ∧ ∀ l, n.lastMsg topic = some l → l ≤ t0 := ⟨hsp, fun l hl => by rw [hlm] at hl; cases hl⟩
  have earr : arrivals n.lastSetPose n.ctl n.ctlTime n.lastMsg (.sensor topic t0 (some z) :: .tick now now2 tfOk :: es) =
      ⟨t0, topic, z, n.ctl, n.ctlTime⟩ ::
        arrivals n.lastSetPose n.ctl n.ctlTime (fun t => if t = topic then some t0 else n.lastMsg t) es := by
    rw [arrivals, if_pos hacc]
    rfl
  obtain ⟨s1, s2, s3, s4, s5, s6, s7, s8, s9⟩ := n.sensor_spec topic t0 (some z) []
  have hq1 : P.elems (n.sensor topic t0 (some z)).queue = {⟨t0, topic, z, n.ctl, n.ctlTime⟩} := by
    have e : arrivals n.lastSetPose n.ctl n.ctlTime n.lastMsg [.sensor topic t0 (some z)] =
        [⟨t0, topic, z, n.ctl, n.ctlTime⟩] := by
      rw [arrivals, if_pos hacc]; rfl
    rw [e, hq] at s9
    simpa [arrivals] using s9
  have hlm1 : (n.sensor topic t0 (some z)).lastMsg = fun t => if t = topic then some t0 else n.lastMsg t := by
    have h1 : ¬ n.lastSetPose ≥ t0 := by omega
    simp [Node.sensor, h1, hlm, Node.enqueue]
  have h1 : SInv n.filt (n.sensor topic t0 (some z)) [] (fun _ => True) := by
    have := SInv.init hi hs hm
    exact ⟨by rw [s1]; exact this.est, this.sorted, by rw [s2]; exact this.ssorted, by rw [s1]; exact this.le,
         by rw [s1, s2]; exact this.sle, by rw [s1, s2, s3]; exact this.uninit, by rw [s1, s2, s3]; exact this.hist,
         by rw [s2]; exact this.snaps⟩
  have hcov1 : (n.sensor topic t0 (some z)).Covered (.tick now now2 tfOk) := by
    refine ⟨fun _ _ hi' => ?_, fun _ hi' => ?_⟩ <;> rw [s1, hi] at hi' <;> cases hi'
  obtain ⟨G1, p1, p2, _, _⟩ := h1.periodic hc (s8.trans he) (s7.trans ht) hcov1
  have hin := Node.periodic_inputs cfg (n.sensor topic t0 (some z)) now now2 tfOk
  -- the first cycle fuses the first measurement
  obtain ⟨p, hp⟩ := Node.periodic_on cfg (n.sensor topic t0 (some z)) now now2 tfOk (s8.trans he) (s7.trans ht)
  have htop : P.top (n.sensor topic t0 (some z)).queue = some ⟨t0, topic, z, n.ctl, n.ctlTime⟩ := by
    cases htop : P.top (n.sensor topic t0 (some z)).queue with
    | none =>
      have := (P.top_none _).1 htop
      rw [hq1] at this
      simp at this
    | some m =>
      have := Node.top_mem htop
      rw [hq1, Multiset.mem_singleton] at this
      rw [this]
  have hpop : P.elems (P.pop (n.sensor topic t0 (some z)).queue) = 0 := by
    have := P.elems_pop _ _ htop
    rw [hq1, ← Multiset.cons_zero] at this
    exact (Multiset.cons_inj_right _).1 this
  have hptop : P.top (P.pop (n.sensor topic t0 (some z)).queue) = none := (P.top_none _).2 hpop
  have hsize : P.size (n.sensor topic t0 (some z)).queue = 1 := by unfold PQueue.size; rw [hq1]; rfl
  have hrv : (n.sensor topic t0 (some z)).revertTo (t0 - 1) = (n.sensor topic t0 (some z), false) := by
    have e : (n.sensor topic t0 (some z)).stateHist = [] := s2.trans hs
    unfold Node.revertTo
    simp only [e, List.takeWhile_nil, List.dropWhile_nil, List.getLast?_nil, List.isEmpty_nil, Bool.not_true]
    rw [← e]
  have hdr : (n.sensor topic t0 (some z)).integrate cfg now =
      Node.drainStep cfg 0 (n.sensor topic t0 (some z)) ⟨t0, topic, z, n.ctl, n.ctlTime⟩ := by
    have hd : ∀ r : Int, Node.drain cfg now 1 r (n.sensor topic t0 (some z)) =
        Node.drainStep cfg 0 (n.sensor topic t0 (some z)) ⟨t0, topic, z, n.ctl, n.ctlTime⟩ := by
      intro r
      rw [Node.drain_step _ _ _ _ _ _ htop (by show ¬ now < t0; omega), Node.drain_zero]
      simp [Node.drainStep, hc.noCtl]
    unfold Node.integrate
    simp only [htop, hc.smooth, hc.noPredict, Bool.and_false, Bool.true_and, Bool.false_eq_true, if_false]
    split
    · rw [hrv]
      dsimp only
      rw [hsize, hd]
    · dsimp only
      rw [hsize, hd]
  have hf1 : ((n.sensor topic t0 (some z)).periodic cfg now now2 tfOk).1.filt =
      n.filt.processMeasurement ⟨t0, topic, z, n.ctl, n.ctlTime⟩ := by
    rw [hp, hc.smooth, hdr]
    show (Node.drainStep cfg 0 (n.sensor topic t0 (some z)) ⟨t0, topic, z, n.ctl, n.ctlTime⟩).filt = _
    simp [Node.drainStep, hc.noCtl, s1]
  have hl1 : ((n.sensor topic t0 (some z)).periodic cfg now now2 tfOk).1.filt.lastTime = t0 := by
    rw [hf1, Filt.processMeasurement_lastTime, hi]; rfl
  have hi1 : ((n.sensor topic t0 (some z)).periodic cfg now now2 tfOk).1.filt.initialized = true := by
    rw [hf1]; exact Filt.processMeasurement_initialized _ _
  have hqe : P.elems ((n.sensor topic t0 (some z)).periodic cfg now now2 tfOk).1.queue = 0 := by
    rw [hp, hc.smooth, hdr]; exact hpop
  have hsh : ∃ s ∈ ((n.sensor topic t0 (some z)).periodic cfg now now2 tfOk).1.stateHist, s.lastTime = t0 := by
    have hh := hc.hist
    rw [hp, hc.smooth, hdr]
    have e1 : (Node.drainStep cfg 0 (n.sensor topic t0 (some z)) ⟨t0, topic, z, n.ctl, n.ctlTime⟩).stateHist =
        [(n.filt.processMeasurement ⟨t0, topic, z, n.ctl, n.ctlTime⟩).snap] := by
      simp [Node.drainStep, hc.noCtl, hc.smooth, s1, s2, hs, hptop]
    have e2 : (Node.drainStep cfg 0 (n.sensor topic t0 (some z)) ⟨t0, topic, z, n.ctl, n.ctlTime⟩).filt =
        n.filt.processMeasurement ⟨t0, topic, z, n.ctl, n.ctlTime⟩ := by
      simp [Node.drainStep, hc.noCtl, s1]
    have e3 : (n.filt.processMeasurement ⟨t0, topic, z, n.ctl, n.ctlTime⟩).lastTime = t0 := by
      rw [Filt.processMeasurement_lastTime, hi]; rfl
    refine ⟨(n.filt.processMeasurement ⟨t0, topic, z, n.ctl, n.ctlTime⟩).snap, ?_, e3⟩
    show _ ∈ List.rdropWhile _ _
    rw [e1, e2, e3]
    have : ¬ (n.filt.processMeasurement ⟨t0, topic, z, n.ctl, n.ctlTime⟩).snap.lastTime < t0 - cfg.historyLength := by
      show ¬ (n.filt.processMeasurement ⟨t0, topic, z, n.ctl, n.ctlTime⟩).lastTime < _
      rw [e3]
      omega
    rw [show ([(n.filt.processMeasurement ⟨t0, topic, z, n.ctl, n.ctlTime⟩).snap] : List (Snap C)) =
      [] ++ [(n.filt.processMeasurement ⟨t0, topic, z, n.ctl, n.ctlTime⟩).snap] from rfl,
      List.rdropWhile_concat_neg _ _ _ (by simpa using this)]
    simp
  have hG1 : G1 = [⟨t0, topic, z, n.ctl, n.ctlTime⟩] := by
    rw [hqe, hq1] at p2
    have : (G1 : Multiset (Meas C)) = {⟨t0, topic, z, n.ctl, n.ctlTime⟩} := by simpa using p2
    exact Multiset.coe_eq_singleton.1 this
  have hcov : Along cfg Node.Covered n (.sensor topic t0 (some z) :: .tick now now2 tfOk :: es) := by
    refine ⟨trivial, hcov1, ?_⟩
    refine covered_from_snapshot hc hi t0 es _ G1 p1 (hin.enabled.trans (s8.trans he)) (hin.toggledOn.trans (s7.trans ht))
      hi1 hsh ?_ (by rw [hG1]; simp) (by
        intro m hm
        have : m ∈ P.elems ((n.sensor topic t0 (some z)).periodic cfg now now2 tfOk).1.queue := hm
        rw [hqe] at this
        exact absurd this (Multiset.notMem_zero m)) ?_ hno
    · intro m hm
      rw [hG1, List.mem_singleton] at hm
      subst hm
      have := hc.hist
      show t0 ≤ _
      omega
    · intro m hm
      refine hA m ?_
      have e1 := hin.lastSetPose.trans s4
      have e2 := hin.ctl.trans s5
      have e3 := hin.ctlTime.trans s6
      have e4 := hin.lastMsg.trans hlm1
      have hm' : m ∈ arrivals ((n.sensor topic t0 (some z)).periodic cfg now now2 tfOk).1.lastSetPose
        ((n.sensor topic t0 (some z)).periodic cfg now now2 tfOk).1.ctl
        ((n.sensor topic t0 (some z)).periodic cfg now now2 tfOk).1.ctlTime
        ((n.sensor topic t0 (some z)).periodic cfg now now2 tfOk).1.lastMsg es := hm
      rw [e1, e2, e3, e4] at hm'
      exact hm'
  obtain ⟨L, l1, l2, l3⟩ := C22_smoothing_is_in_order_fusion cfg hc n he ht hi hq hs hm _ hcov
  exact ⟨L, l1, l2.trans (by rw [earr]), l3⟩

/-- A run with late data: stamps 10, 30, 50 fused, then 20 and 40 arrive late; the log is the in-order one. -/
example :
    let cfg := auditCfg true 100 1000
    let es : List (Node.Event Audit) :=
      [.sensor "a" 10 (some (1 : Int)), .tick 11 11 true, .sensor "a" 30 (some (3 : Int)), .sensor "a" 50 (some (5 : Int)),
       .tick 51 51 true, .sensor "b" 20 (some (2 : Int)), .tick 52 52 true, .sensor "b" 40 (some (4 : Int)), .tick 53 53 true]
    ((auditNode cfg).run cfg es).1.filt.x =
      [.init 1, .predict 0 10, .correct 2, .predict 0 10, .correct 3, .predict 0 10, .correct 4, .predict 0 10, .correct 5] ∧
    SmoothCfg cfg ∧ Along cfg Node.Covered (auditNode cfg) es ∧
    Along cfg Node.NoTimeout ((auditNode cfg).run cfg (es.take 2)).1 (es.drop 2) := by
  refine ⟨rfl, ⟨rfl, rfl, rfl, by decide⟩, ?_, ?_⟩
  · refine ⟨trivial, ⟨?_, ?_⟩, trivial, trivial, ⟨?_, ?_⟩, trivial, ⟨?_, ?_⟩, trivial, ⟨?_, ?_⟩, trivial⟩
    · intro _ _ h; cases h
    · intro _ h; cases h
    · rintro first h - hlt; cases h; exact absurd hlt (by decide)
    · intro h; cases h
    · rintro first h - -; cases h; exact ⟨_, List.mem_cons_of_mem _ (List.mem_cons_of_mem _ List.mem_cons_self), by decide⟩
    · intro h; cases h
    · rintro first h - -; cases h; exact ⟨_, List.mem_cons_of_mem _ List.mem_cons_self, by decide⟩
    · intro h; cases h
  · refine ⟨trivial, trivial, ?_, trivial, ?_, trivial, ?_, trivial⟩ <;> intro h <;> cases h

/-- C22 is false as first stated, "enough history" read as "the lag is below `history_length`": with sparse data the
snapshots needed have expired although the late measurement has not.  Stamps 0 (fused), 100 (fused), then 95 arrives,
lagging 5 under a history of 10: 100 is fused a second time. -/
theorem C22_lag_below_history_is_not_enough :
    ∃ (cfg : Cfg Audit) (es : List (Node.Event Audit)), SmoothCfg cfg ∧ cfg.historyLength = 10 ∧
      es = [.sensor "a" 1 (some (1 : Int)), .tick 1 1 true, .sensor "a" 100 (some (2 : Int)), .tick 100 100 true,
            .sensor "b" 95 (some (3 : Int)), .tick 101 101 true] ∧
      ((auditNode cfg).run cfg es).1.filt.x =
        [.init 1, .predict 0 99, .correct 2, .correct 3, .correct 2] ∧
      (([⟨1, "a", (1 : Int), (0 : Int), 0⟩, ⟨95, "b", (3 : Int), (0 : Int), 0⟩, ⟨100, "a", (2 : Int), (0 : Int), 0⟩] :
        List (Meas Audit)).foldl Filt.processMeasurement (auditNode cfg).filt).x =
        [.init 1, .predict 0 94, .correct 3, .predict 0 5, .correct 2] :=
  ⟨auditCfg true 10 1000, _, ⟨rfl, rfl, rfl, by decide⟩, rfl, rfl, rfl, rfl⟩

end RL
