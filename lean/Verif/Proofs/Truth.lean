import Verif.Proofs.SmoothingRun
import Verif.Props.Fusion
/-! # Runs in which all data agree with one motion -/

namespace RL
variable {C : Core} {P : MQueue C}

/-- A motion as a filter sees it: the right states at a time and the measurements of that time, such that predicting and
correcting keep the state right. -/
structure Truth (C : Core) where
  ok : Int → C.X → Prop
  z : Int → C.Z → Prop
  predict : ∀ {q u ut ref δ t x P e}, ok t x → ok (t + δ) (C.predict q u ut ref δ (x, P, e)).1
  correct : ∀ {m x P e t}, ok t x → z t m → ok t (C.correct m (x, P, e)).1

/-- Nothing moves: what is right at one time is right at all times. -/
def Truth.Still (T : Truth C) : Prop := (∀ s t x, T.ok t x → T.ok s x) ∧ ∀ s t m, T.z t m → T.z s m

/-- What is asked of an event in a given state of the node:

* a measurement is one of its time and, as long as nothing has been fused, it gives the whole state;
* a pose is set to the state at the time it is set;
* a cycle: nothing moves, or the node is switched on and every pending measurement is not older than the filter or (with
  smoothing) than some state in the history. -/
def Truth.Fair (T : Truth C) (cfg : Cfg C) (n : Node C P) : Node.Event C → Prop
  | .sensor _ stamp z => ∀ m, z = some m → T.z stamp m ∧ (n.filt.initialized = false → T.ok stamp (C.initX m n.filt.x))
  | .setPose _ now r => n.filt.initialized = true → ∃ x cov, r = some (x, cov) ∧ T.ok now x
  | .tick _ _ _ => T.Still ∨ n.toggledOn = true ∧ (n.filt.initialized = true → ∀ m ∈ P.elems n.queue,
      n.filt.lastTime ≤ m.time ∨ cfg.smooth = true ∧ ∃ s ∈ n.stateHist, s.lastTime < m.time)
  | _ => True

/-- Everything the node holds is right. -/
structure Truth.Inv (T : Truth C) (n : Node C P) : Prop where
  est : n.filt.initialized = true → T.ok n.filt.lastTime n.filt.x
  first : n.filt.initialized = false → ∀ m ∈ P.elems n.queue, T.ok m.time (C.initX m.z n.filt.x)
  queue : ∀ m ∈ P.elems n.queue, T.z m.time m.z
  states : ∀ s ∈ n.stateHist, T.ok s.lastTime s.x
  meas : ∀ m ∈ n.measHist, T.z m.time m.z
  empty : n.filt.initialized = false → n.stateHist = []

namespace Truth
variable {T : Truth C} {cfg : Cfg C}

/-- One measurement, not late or of something that stands still. -/
theorem process {f : Filt C} {m : Meas C} (he : f.initialized = true → T.ok f.lastTime f.x)
    (hf : f.initialized = false → T.ok m.time (C.initX m.z f.x)) (hz : T.z m.time m.z)
    (hl : f.initialized = true → T.Still ∨ f.lastTime ≤ m.time) :
    T.ok (f.processMeasurement m).lastTime (f.processMeasurement m).x := by
  unfold Filt.processMeasurement
  cases hi : f.initialized with
  | false => exact hf hi
  | true =>
    have h0 := he hi
    simp only [if_true]
    by_cases hd : m.time - f.lastTime > 0
    · rw [if_pos hd, if_pos (by omega)]
      have h1 : T.ok m.time (C.predict f.par f.ctl f.ctlTime m.time (m.time - f.lastTime) (f.x, f.cov, f.ext)).1 := by
        have := T.predict (q := f.par) (u := f.ctl) (ut := f.ctlTime) (ref := m.time) (δ := m.time - f.lastTime)
          (P := f.cov) (e := f.ext) h0
        rwa [show f.lastTime + (m.time - f.lastTime) = m.time by omega] at this
      exact T.correct h1 hz
    · rw [if_neg hd]
      by_cases hd0 : m.time - f.lastTime ≥ 0
      · rw [if_pos hd0]
        rw [show f.lastTime = m.time by omega] at h0
        exact T.correct h0 hz
      · rw [if_neg hd0]
        rcases hl hi with hs | hs
        · exact T.correct h0 (hs.2 _ _ _ hz)
        · omega

/-- The loop. -/
theorem drain (now : Int) (k : ℕ) (r : Int) (n : Node C P) (h : T.Inv n)
    (hl : n.filt.initialized = true → T.Still ∨ ∀ m ∈ P.elems n.queue, n.filt.lastTime ≤ m.time) :
    T.Inv (Node.drain cfg now k r n) := by
  refine (Node.drain_induct cfg now (fun n => T.Inv n ∧ (n.filt.initialized = true →
    T.Still ∨ ∀ m ∈ P.elems n.queue, n.filt.lastTime ≤ m.time)) ?_ k r n ⟨h, hl⟩).1
  rintro r n m ⟨h, hl⟩ ht -
  have hmem := Node.top_mem ht
  have hctl : ∀ f : Filt C, (if (cfg.useControl && decide (r > 0)) = true then f.setControl m.ctl m.ctlTime else f).x = f.x ∧
      (if (cfg.useControl && decide (r > 0)) = true then f.setControl m.ctl m.ctlTime else f).lastTime = f.lastTime ∧
      (if (cfg.useControl && decide (r > 0)) = true then f.setControl m.ctl m.ctlTime else f).initialized = f.initialized := by
    intro f
    split <;> exact ⟨rfl, rfl, rfl⟩
  obtain ⟨c1, c2, c3⟩ := hctl n.filt
  have hp : T.ok (Node.drainStep cfg r n m).filt.lastTime (Node.drainStep cfg r n m).filt.x := by
    refine process (f := if (cfg.useControl && decide (r > 0)) = true then n.filt.setControl m.ctl m.ctlTime else n.filt)
      ?_ ?_ (h.queue m hmem) ?_
    · rw [c1, c2, c3]
      exact h.est
    · rw [c1, c3]
      exact fun hi => h.first hi m hmem
    · rw [c2, c3]
      exact fun hi => (hl hi).imp_right fun h => h m hmem
  have hi : (Node.drainStep cfg r n m).filt.initialized = true := Filt.processMeasurement_initialized _ _
  have ht2 : T.Still ∨ (Node.drainStep cfg r n m).filt.lastTime = m.time := by
    have e : (Node.drainStep cfg r n m).filt.lastTime = _ := Filt.processMeasurement_lastTime _ _
    rw [c2, c3] at e
    rw [e]
    split
    · rename_i h1
      rcases hl h1 with h | h
      · exact Or.inl h
      · exact Or.inr (max_eq_right (h m hmem))
    · exact Or.inr rfl
  refine ⟨⟨fun _ => hp, fun h0 => ?_, fun m' h' => h.queue m' (Node.mem_pop ht h'), ?_, ?_, fun h0 => ?_⟩, fun _ => ?_⟩
  · rw [hi] at h0
    cases h0
  · intro s hs
    have hs : s ∈ if (cfg.smooth && (match P.top (P.pop n.queue) with
        | none => true
        | some m' => decide (m'.time ≠ (Node.drainStep cfg r n m).filt.lastTime))) = true
      then (Node.drainStep cfg r n m).filt.snap :: n.stateHist else n.stateHist := hs
    have hs : s = (Node.drainStep cfg r n m).filt.snap ∨ s ∈ n.stateHist := by
      revert hs
      generalize (cfg.smooth && (match P.top (P.pop n.queue) with
        | none => true
        | some m' => decide (m'.time ≠ (Node.drainStep cfg r n m).filt.lastTime))) = b
      intro hs
      cases b
      · exact Or.inr hs
      · exact List.mem_cons.1 hs
    rcases hs with rfl | hs
    · exact hp
    · exact h.states s hs
  · intro m' hm'
    have hm' : m' ∈ if cfg.smooth = true then m :: n.measHist else n.measHist := hm'
    split at hm'
    · rcases List.mem_cons.1 hm' with rfl | hm'
      · exact h.queue _ hmem
      · exact h.meas _ hm'
    · exact h.meas _ hm'
  · rw [hi] at h0
    cases h0
  · refine ht2.imp_right fun e => ?_
    intro m' hm'
    rw [e]
    exact P.top_min _ _ ht _ (Node.mem_pop ht hm')

/-- Predicting to the present. -/
theorem predictTo {n : Node C P} (h : T.Inv n) (hi : n.filt.initialized = true) (now : Int) : T.Inv (n.predictTo now) := by
  refine ⟨fun _ => ?_, fun h0 => ?_, h.queue, h.states, h.meas, fun h0 => ?_⟩
  · rw [Node.predictTo_filt]
    have := T.predict (q := n.filt.par) (u := n.filt.ctl) (ut := n.filt.ctlTime) (ref := now) (δ := now - n.filt.lastTime)
      (P := n.filt.cov) (e := n.filt.ext) (h.est hi)
    rwa [show n.filt.lastTime + (now - n.filt.lastTime) = now by omega] at this
  · have : n.filt.initialized = false := h0
    rw [hi] at this
    cases this
  · have : n.filt.initialized = false := h0
    rw [hi] at this
    cases this

/-- Going back to a state of the history. -/
theorem revert {n : Node C P} (h : T.Inv n) (t : Int) : T.Inv (n.revertTo t).1 ∧
    (n.revertTo t).1.filt.initialized = n.filt.initialized := by
  unfold Node.revertTo
  dsimp only
  have sub : ∀ s ∈ n.stateHist.dropWhile (fun s => decide (s.lastTime > t)), s ∈ n.stateHist :=
    fun s hs => (List.dropWhile_sublist _).subset hs
  generalize hrest : n.stateHist.dropWhile (fun s => decide (s.lastTime > t)) = rest at *
  have main : ∀ s ∈ n.stateHist, T.Inv ({ n with
        stateHist := rest
        measHist := n.measHist.dropWhile (fun m => decide (m.time > t))
        queue := ((n.measHist.takeWhile (fun m => decide (m.time > t))).filter
          (fun m => decide (s.lastTime ≤ m.time))).foldl P.push n.queue
        filt := ((n.filt.setState s.x).setCov s.cov).setLastTime s.lastTime } : Node C P) := by
    intro s hs
    have hinit : n.filt.initialized = true := by
      by_contra h0
      rw [h.empty (by simpa using h0)] at hs
      cases hs
    refine ⟨fun _ => h.states s hs, fun h0 => ?_, ?_, fun s' hs' => h.states s' (sub s' hs'),
      fun m hm => h.meas m ((List.dropWhile_sublist _).subset hm), fun h0 => ?_⟩
    · have h0 : n.filt.initialized = false := h0
      rw [hinit] at h0
      cases h0
    · intro m hm
      have hm : m ∈ P.elems (List.foldl P.push n.queue _) := hm
      rw [elems_foldl_push] at hm
      rcases Multiset.mem_add.1 hm with hm | hm
      · exact h.meas m ((List.takeWhile_sublist _).subset (List.mem_of_mem_filter (Multiset.mem_coe.1 hm)))
      · exact h.queue m hm
    · have h0 : n.filt.initialized = false := h0
      rw [hinit] at h0
      cases h0
  cases rest with
  | cons s rest => exact ⟨main s (sub s List.mem_cons_self), rfl⟩
  | nil =>
    cases hl : (n.stateHist.takeWhile (fun s => decide (s.lastTime > t))).getLast? with
    | none => exact ⟨⟨h.est, h.first, h.queue, fun s hs => (by cases hs), h.meas, fun _ => rfl⟩, rfl⟩
    | some s =>
      exact ⟨main s ((List.takeWhile_sublist _).subset (List.mem_of_getLast? hl)), rfl⟩

/-- Going back far enough, everything pending is not older than the filter. -/
theorem revert_early {n : Node C P} {first : Meas C} (ht : P.top n.queue = some first)
    (hs : ∃ s ∈ n.stateHist, s.lastTime < first.time) :
    ∀ m ∈ P.elems (n.revertTo (first.time - 1)).1.queue, (n.revertTo (first.time - 1)).1.filt.lastTime ≤ m.time := by
  unfold Node.revertTo
  dsimp only
  obtain ⟨s0, hs0, hlt⟩ := hs
  cases hrest : n.stateHist.dropWhile (fun s => decide (s.lastTime > first.time - 1)) with
  | nil =>
    have := List.dropWhile_eq_nil_iff.1 hrest s0 hs0
    simp only [decide_eq_true_eq] at this
    omega
  | cons s rest =>
    have hhead : ¬ s.lastTime > first.time - 1 := by
      have := List.head_dropWhile_not (fun s : Snap C => decide (s.lastTime > first.time - 1)) (l := n.stateHist)
        (by rw [hrest]; simp)
      simp only [hrest, List.head_cons, decide_eq_false_iff_not] at this
      exact this
    intro m hm
    have hm : m ∈ P.elems (List.foldl P.push n.queue _) := hm
    rw [elems_foldl_push] at hm
    show s.lastTime ≤ m.time
    rcases Multiset.mem_add.1 hm with hm | hm
    · have := (List.mem_filter.1 (Multiset.mem_coe.1 hm)).2
      simpa using this
    · have := P.top_min _ _ ht _ hm
      omega

/-- A cycle. -/
theorem integrate {n : Node C P} (h : T.Inv n) (now : Int)
    (hl : T.Still ∨ (n.filt.initialized = true → ∀ m ∈ P.elems n.queue,
      n.filt.lastTime ≤ m.time ∨ cfg.smooth = true ∧ ∃ s ∈ n.stateHist, s.lastTime < m.time)) :
    T.Inv (n.integrate cfg now) := by
  unfold Node.integrate
  cases ht : P.top n.queue with
  | none =>
    dsimp only
    split
    · rename_i hc
      exact predictTo h (by simp at hc; exact hc.1) now
    · exact h
  | some first =>
    have key : ∀ r : Node C P × Int, T.Inv r.1 →
        (r.1.filt.initialized = true → T.Still ∨ ∀ m ∈ P.elems r.1.queue, r.1.filt.lastTime ≤ m.time) →
        T.Inv (if ((Node.drain cfg now (P.size r.1.queue) r.2 r.1).filt.initialized && cfg.predictToCurrent) = true
          then (Node.drain cfg now (P.size r.1.queue) r.2 r.1).predictTo now
          else Node.drain cfg now (P.size r.1.queue) r.2 r.1) := by
      intro r hr hrl
      have := drain (cfg := cfg) now (P.size r.1.queue) r.2 r.1 hr hrl
      split
      · rename_i hc
        exact predictTo this (by simp at hc; exact hc.1) now
      · exact this
    refine key _ ?_ ?_
    · split
      · exact (revert h _).1
      · exact h
    · split
      · rename_i hc
        intro hi
        have hi : n.filt.initialized = true := (revert h (first.time - 1)).2 ▸ hi
        refine hl.imp_right fun hl => revert_early ht ?_
        simp only [Bool.and_eq_true, decide_eq_true_eq] at hc
        rcases hl hi first (Node.top_mem ht) with h1 | h1
        · omega
        · exact h1.2
      · rename_i hc
        intro hi
        have hi : n.filt.initialized = true := hi
        refine hl.imp_right fun hl m hm => ?_
        simp only [Bool.and_eq_true, decide_eq_true_eq, not_and] at hc
        have h3 := P.top_min _ _ ht m hm
        rcases hl hi first (Node.top_mem ht) with h1 | h1
        · show n.filt.lastTime ≤ m.time
          omega
        · have := hc h1.1
          show n.filt.lastTime ≤ m.time
          omega

/-- One event. -/
theorem step {n : Node C P} (h : T.Inv n) {e : Node.Event C} (he : T.Fair cfg n e) :
    T.Inv (n.step cfg e).1 ∧ ∀ t x cov, Out.odom t x cov ∈ (n.step cfg e).2 → T.ok t x := by
  cases e with
  | sensor topic stamp z =>
    refine ⟨?_, fun t x cov ho => by cases ho⟩
    show T.Inv (n.sensor topic stamp z)
    unfold Node.sensor
    split
    · exact h
    · dsimp only
      split
      · cases z with
        | none => exact ⟨h.est, h.first, h.queue, h.states, h.meas, h.empty⟩
        | some m =>
          obtain ⟨h1, h2⟩ := he m rfl
          refine ⟨h.est, fun hi m' hm' => ?_, fun m' hm' => ?_, h.states, h.meas, h.empty⟩
          · have hm' : m' ∈ P.elems (P.push n.queue _) := hm'
            rw [P.elems_push] at hm'
            rcases Multiset.mem_cons.1 hm' with rfl | hm'
            · exact h2 hi
            · exact h.first hi m' hm'
          · have hm' : m' ∈ P.elems (P.push n.queue _) := hm'
            rw [P.elems_push] at hm'
            rcases Multiset.mem_cons.1 hm' with rfl | hm'
            · exact h1
            · exact h.queue m' hm'
      · exact h
  | control u t =>
    refine ⟨?_, fun t x cov ho => by cases ho⟩
    show T.Inv (n.control cfg u t)
    unfold Node.control
    split
    · exact ⟨h.est, h.first, h.queue, h.states, h.meas, h.empty⟩
    · exact h
  | setPose stamp now r =>
    refine ⟨?_, fun t x cov ho => by cases ho⟩
    have hq : P.elems (n.setPose stamp now r).queue = 0 := P.elems_empty
    refine ⟨fun hi => ?_, fun _ m hm => ?_, fun m hm => ?_, fun s hs => (by cases hs), fun m hm => (by cases hm), fun _ => rfl⟩
    · obtain ⟨x, cov, rfl, hx⟩ := he hi
      exact hx
    · have hm : m ∈ P.elems (n.setPose stamp now r).queue := hm
      rw [hq] at hm
      exact absurd hm (Multiset.notMem_zero m)
    · have hm : m ∈ P.elems (n.setPose stamp now r).queue := hm
      rw [hq] at hm
      exact absurd hm (Multiset.notMem_zero m)
  | reset =>
    refine ⟨?_, fun t x cov ho => by cases ho⟩
    have hq : P.elems (n.reset cfg).queue = 0 := P.elems_empty
    refine ⟨fun hi => (by cases hi), fun _ m hm => ?_, fun m hm => ?_, fun s hs => (by cases hs), fun m hm => (by cases hm), fun _ => rfl⟩
    · have hm : m ∈ P.elems (n.reset cfg).queue := hm
      rw [hq] at hm
      exact absurd hm (Multiset.notMem_zero m)
    · have hm : m ∈ P.elems (n.reset cfg).queue := hm
      rw [hq] at hm
      exact absurd hm (Multiset.notMem_zero m)
  | toggle on =>
    refine ⟨?_, fun t x cov ho => by cases ho⟩
    show T.Inv (n.toggle on).1
    unfold Node.toggle
    split
    · exact h
    · exact ⟨h.est, h.first, h.queue, h.states, h.meas, h.empty⟩
  | enable => exact ⟨⟨h.est, h.first, h.queue, h.states, h.meas, h.empty⟩, fun t x cov ho => by cases ho⟩
  | tick now now2 tfOk =>
    have h1 : T.Inv (n.advance cfg now now2) := by
      unfold Node.advance
      split
      · exact integrate h now (he.imp_right fun h => h.2)
      · rename_i hoff
        have hst : T.Still := by
          rcases he with h | h
          · exact h
          · exact absurd h.1 hoff
        have hq : ∀ m, m ∉ P.elems P.empty := by
          intro m
          rw [P.elems_empty]
          exact Multiset.notMem_zero m
        refine ⟨fun hi => ?_, fun _ m hm => absurd hm (hq m), fun m hm => absurd hm (hq m), h.states, h.meas, fun hi => ?_⟩
        · dsimp only at hi ⊢
          split at hi
          · rename_i h0
            rw [if_pos h0]
            exact hst.1 _ _ _ (h.est h0)
          · rename_i h0
            exact absurd hi h0
        · dsimp only at hi
          split at hi
          · rename_i h0
            have hi : n.filt.initialized = false := hi
            rw [h0] at hi
            cases hi
          · exact h.empty hi
    show T.Inv (n.periodic cfg now now2 tfOk).1 ∧ ∀ t x cov, Out.odom t x cov ∈ (n.periodic cfg now now2 tfOk).2 → T.ok t x
    unfold Node.periodic
    split
    · exact ⟨h, fun t x cov ho => by cases ho⟩
    · dsimp only
      have h2 : T.Inv ((n.advance cfg now now2).publish cfg tfOk).1 ∧
          ∀ t x cov, Out.odom t x cov ∈ ((n.advance cfg now now2).publish cfg tfOk).2 → T.ok t x := by
        unfold Node.publish
        split
        · rename_i hi
          refine ⟨⟨h1.est, h1.first, h1.queue, h1.states, h1.meas, h1.empty⟩, fun t x cov ho => ?_⟩
          dsimp only at ho
          rcases List.mem_append.1 ho with ho | ho
          · rcases List.mem_append.1 ho with ho | ho
            · split at ho <;> simp at ho
            · split at ho
              · rw [List.mem_singleton] at ho
                injection ho with e1 e2 e3
                subst e1 e2
                exact h1.est hi
              · cases ho
          · split at ho <;> simp at ho
        · exact ⟨h1, fun t x cov ho => by cases ho⟩
      refine ⟨?_, h2.2⟩
      split
      · refine ⟨h2.1.est, h2.1.first, h2.1.queue, fun s hs => h2.1.states s ?_, fun m hm => h2.1.meas m ?_, fun hi => ?_⟩
        · exact (List.rdropWhile_prefix _ (l := ((n.advance cfg now now2).publish cfg tfOk).1.stateHist)).subset hs
        · exact (List.rdropWhile_prefix _ (l := ((n.advance cfg now now2).publish cfg tfOk).1.measHist)).subset hm
        · show List.rdropWhile _ ((n.advance cfg now now2).publish cfg tfOk).1.stateHist = []
          rw [h2.1.empty hi]
          rfl
      · exact h2.1

/-- A run. -/
theorem run (es : List (Node.Event C)) : ∀ n : Node C P, T.Inv n → Along cfg (T.Fair cfg) n es →
    ∀ t x cov, Out.odom t x cov ∈ (n.run cfg es).2 → T.ok t x := by
  induction es with
  | nil => intro n _ _ t x cov ho; cases ho
  | cons e es ih =>
    intro n h ha t x cov ho
    obtain ⟨a1, a2⟩ := ha
    obtain ⟨s1, s2⟩ := step h a1
    have ho : Out.odom t x cov ∈ (n.step cfg e).2 ++ ((n.step cfg e).1.run cfg es).2 := ho
    rcases List.mem_append.1 ho with ho | ho
    · exact s2 t x cov ho
    · exact ih _ s1 a2 t x cov ho

/-- A node that has just started holds nothing. -/
theorem start (cfg : Cfg C) (P : MQueue C) (ext0 : C.Ext) (fctl0 : C.Ctl) (now : Int) :
    T.Inv (Node.start cfg P ext0 fctl0 now) := by
  have hq : ∀ m, m ∉ P.elems P.empty := by
    intro m
    rw [P.elems_empty]
    exact Multiset.notMem_zero m
  exact ⟨fun hi => (by cases hi), fun _ m hm => absurd hm (hq m), fun m hm => absurd hm (hq m), fun s hs => (by cases hs),
    fun m hm => (by cases hm), fun _ => rfl⟩

end Truth
end RL
