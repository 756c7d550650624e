import Mathlib.Data.Multiset.Filter
import Verif.Proofs.SmoothingRun
import Verif.Spec.Audit
/-! # C21: which measurements a cycle fuses, and in which order -/

namespace RL
variable {C : Core} {P : MQueue C}

/-- A filter predicted to the present (ros_filter.cpp:752-763 seen from outside). -/
def Filt.aged (f : Filt C) (now : Int) : Filt C :=
  { f.predict now (now - f.lastTime) with lastTime := now }

theorem Node.predictTo_filt (n : Node C P) (now : Int) : (n.predictTo now).filt = n.filt.aged now := by
  have : n.filt.lastTime + (now - n.filt.lastTime) = now := by omega
  simp [Node.predictTo, Filt.aged, Filt.setLastTime, Filt.predict, this]

/-- The loop run to its end takes exactly what is due. -/
theorem drain_due (cfg : Cfg C) (now : Int) (r : Int) (n : Node C P) (hr : cfg.useControl = false ∨ r ≤ 0) :
    ∃ L : List (Meas C), L.Pairwise (fun a b => a.time ≤ b.time) ∧
      (L : Multiset (Meas C)) = (P.elems n.queue).filter (fun m => m.time ≤ now) ∧
      P.elems (Node.drain cfg now (P.size n.queue) r n).queue = (P.elems n.queue).filter (fun m => now < m.time) ∧
      (Node.drain cfg now (P.size n.queue) r n).filt = L.foldl Filt.processMeasurement n.filt := by
  obtain ⟨L, h1, h2, h3, h4, _⟩ := Node.drain_fuses cfg now (P.size n.queue) r n hr
  have hleft := Node.drain_left cfg now _ r n (Nat.le_refl _)
  refine ⟨L, h1, ?_, ?_, h4⟩
  · rw [← h3, Multiset.filter_add, Multiset.filter_eq_self.2 h2,
      Multiset.filter_eq_nil.2 (fun m hm => by have := hleft m hm; omega), Multiset.add_zero]
  · rw [← h3, Multiset.filter_add, Multiset.filter_eq_nil.2 (fun m hm => by have := h2 m hm; omega),
      Multiset.filter_eq_self.2 hleft, Multiset.zero_add]

/-- C21.  A cycle without late data (or without smoothing) fuses exactly the queued measurements whose stamp is not
after the present, in stamp order, and keeps exactly the others; then, if so configured, it predicts to the present. -/
theorem C21_fuses_due_in_order (cfg : Cfg C) (n : Node C P) (now : Int) (hne : P.elems n.queue ≠ 0)
    (h : cfg.smooth = false ∨ ∀ m ∈ P.elems n.queue, n.filt.lastTime ≤ m.time) :
    ∃ L : List (Meas C), L.Pairwise (fun a b => a.time ≤ b.time) ∧
      (L : Multiset (Meas C)) = (P.elems n.queue).filter (fun m => m.time ≤ now) ∧
      P.elems (n.integrate cfg now).queue = (P.elems n.queue).filter (fun m => now < m.time) ∧
      (n.integrate cfg now).filt =
        let g := L.foldl Filt.processMeasurement n.filt
        if g.initialized ∧ cfg.predictToCurrent then g.aged now else g := by
  cases ht : P.top n.queue with
  | none => exact absurd ((P.top_none _).1 ht) hne
  | some first =>
    have hno : (cfg.smooth && decide (first.time < n.filt.lastTime)) = false := by
      rcases h with h | h
      · simp [h]
      · have := h first (Node.top_mem ht)
        simp [this]
    obtain ⟨L, h1, h2, h3, h4⟩ := drain_due cfg now 0 n (Or.inr (Int.le_refl _))
    refine ⟨L, h1, h2, ?_, ?_⟩
    · unfold Node.integrate
      simp only [ht, hno]
      rw [← h3]
      simp only [Bool.false_eq_true, if_false]
      split <;> rfl
    · unfold Node.integrate
      simp only [ht, hno, Bool.false_eq_true, if_false, ← h4, Bool.and_eq_true]
      split
      · exact Node.predictTo_filt _ _
      · rfl

/-- C21, late data under smoothing: the measurements taken back from the history are all at or after the late one, and
what is fused is exactly what is due of queue and taken-back measurements, in stamp order. -/
theorem C21_fuses_due_in_order_late (cfg : Cfg C) (n : Node C P) (now : Int) (hu : cfg.useControl = false)
    (first : Meas C) (ht : P.top n.queue = some first) :
    ∃ (R L : List (Meas C)) (f : Filt C), R.Sublist n.measHist ∧ (∀ m ∈ R, first.time ≤ m.time) ∧
      L.Pairwise (fun a b => a.time ≤ b.time) ∧
      (L : Multiset (Meas C)) = ((R : Multiset (Meas C)) + P.elems n.queue).filter (fun m => m.time ≤ now) ∧
      P.elems (n.integrate cfg now).queue = ((R : Multiset (Meas C)) + P.elems n.queue).filter (fun m => now < m.time) ∧
      (f = n.filt ∨ ∃ s ∈ n.stateHist, f = { n.filt with x := s.x, cov := s.cov, lastTime := s.lastTime }) ∧
      (n.integrate cfg now).filt =
        let g := L.foldl Filt.processMeasurement f
        if g.initialized ∧ cfg.predictToCurrent then g.aged now else g := by
  -- the state the loop starts from
  have key : ∀ r : Node C P × Int, ∀ R : List (Meas C), P.elems r.1.queue = (R : Multiset (Meas C)) + P.elems n.queue →
      ∃ L : List (Meas C), L.Pairwise (fun a b => a.time ≤ b.time) ∧
        (L : Multiset (Meas C)) = ((R : Multiset (Meas C)) + P.elems n.queue).filter (fun m => m.time ≤ now) ∧
        P.elems (Node.drain cfg now (P.size r.1.queue) r.2 r.1).queue =
          ((R : Multiset (Meas C)) + P.elems n.queue).filter (fun m => now < m.time) ∧
        (Node.drain cfg now (P.size r.1.queue) r.2 r.1).filt = L.foldl Filt.processMeasurement r.1.filt := by
    intro r R hr
    obtain ⟨L, h1, h2, h3, h4⟩ := drain_due cfg now r.2 r.1 (Or.inl hu)
    rw [hr] at h2 h3
    exact ⟨L, h1, h2, h3, h4⟩
  have fin : ∀ r : Node C P × Int, ∀ R : List (Meas C), ∀ f, P.elems r.1.queue = (R : Multiset (Meas C)) + P.elems n.queue →
      r.1.filt = f → n.integrate cfg now =
        (if (Node.drain cfg now (P.size r.1.queue) r.2 r.1).filt.initialized && cfg.predictToCurrent
          then (Node.drain cfg now (P.size r.1.queue) r.2 r.1).predictTo now
          else Node.drain cfg now (P.size r.1.queue) r.2 r.1) →
      ∃ L : List (Meas C), L.Pairwise (fun a b => a.time ≤ b.time) ∧
        (L : Multiset (Meas C)) = ((R : Multiset (Meas C)) + P.elems n.queue).filter (fun m => m.time ≤ now) ∧
        P.elems (n.integrate cfg now).queue = ((R : Multiset (Meas C)) + P.elems n.queue).filter (fun m => now < m.time) ∧
        (n.integrate cfg now).filt =
          let g := L.foldl Filt.processMeasurement f
          if g.initialized ∧ cfg.predictToCurrent then g.aged now else g := by
    intro r R f hr hf he
    obtain ⟨L, h1, h2, h3, h4⟩ := key r R hr
    refine ⟨L, h1, h2, ?_, ?_⟩
    · rw [he, ← h3]
      split <;> rfl
    · rw [he]
      simp only [← hf, ← h4, Bool.and_eq_true]
      split
      · exact Node.predictTo_filt _ _
      · rfl
  by_cases hlate : (cfg.smooth && decide (first.time < n.filt.lastTime)) = true
  · have hint : n.integrate cfg now =
        let r := ((n.revertTo (first.time - 1)).1,
          (P.size (n.revertTo (first.time - 1)).1.queue : Int) - (P.size n.queue : Int))
        (if (Node.drain cfg now (P.size r.1.queue) r.2 r.1).filt.initialized && cfg.predictToCurrent
          then (Node.drain cfg now (P.size r.1.queue) r.2 r.1).predictTo now
          else Node.drain cfg now (P.size r.1.queue) r.2 r.1) := by
      unfold Node.integrate
      simp only [ht, hlate, if_true]
    -- what the rewind did
    have hrev : ∃ (R : List (Meas C)) (f : Filt C), R.Sublist n.measHist ∧ (∀ m ∈ R, first.time ≤ m.time) ∧
        P.elems (n.revertTo (first.time - 1)).1.queue = (R : Multiset (Meas C)) + P.elems n.queue ∧
        (n.revertTo (first.time - 1)).1.filt = f ∧
        (f = n.filt ∨ ∃ s ∈ n.stateHist, f = { n.filt with x := s.x, cov := s.cov, lastTime := s.lastTime }) := by
      have hR : ∀ s : Snap C, ((n.measHist.takeWhile (fun m => decide (m.time > first.time - 1))).filter
          (fun m => decide (s.lastTime ≤ m.time))).Sublist n.measHist := fun s =>
        List.filter_sublist.trans (List.takeWhile_sublist _)
      have hR' : ∀ s : Snap C, ∀ m ∈ (n.measHist.takeWhile (fun m => decide (m.time > first.time - 1))).filter
          (fun m => decide (s.lastTime ≤ m.time)), first.time ≤ m.time := by
        intro s m hm
        have := takeWhile_gt (f := Meas.time) _ _ m (List.mem_filter.1 hm).1
        omega
      cases hrest : n.stateHist.dropWhile (fun s => decide (s.lastTime > first.time - 1)) with
      | cons s rest =>
        refine ⟨_, _, hR s, hR' s, ?_, rfl, Or.inr ⟨s, ?_, ?_⟩⟩
        · unfold Node.revertTo
          simp only [hrest]
          exact elems_foldl_push _ _
        · exact (List.dropWhile_sublist _).subset (by rw [hrest]; simp)
        · unfold Node.revertTo
          simp only [hrest]
          rfl
      | nil =>
        cases hp : (n.stateHist.takeWhile (fun s => decide (s.lastTime > first.time - 1))).getLast? with
        | none =>
          refine ⟨[], _, List.nil_sublist _, by simp, ?_, rfl, Or.inl ?_⟩ <;>
          · unfold Node.revertTo
            simp [hrest, hp]
        | some s =>
          refine ⟨_, _, hR s, hR' s, ?_, rfl, Or.inr ⟨s, ?_, ?_⟩⟩
          · unfold Node.revertTo
            simp only [hrest, hp]
            exact elems_foldl_push _ _
          · exact (List.takeWhile_sublist _).subset (List.mem_of_getLast? hp)
          · unfold Node.revertTo
            simp only [hrest, hp]
            rfl
    obtain ⟨R, f, r1, r2, r3, r4, r5⟩ := hrev
    obtain ⟨L, l1, l2, l3, l4⟩ := fin _ R f r3 r4 hint
    exact ⟨R, L, f, r1, r2, l1, l2, l3, r5, l4⟩
  · have hint : n.integrate cfg now =
        let r : Node C P × Int := (n, 0)
        (if (Node.drain cfg now (P.size r.1.queue) r.2 r.1).filt.initialized && cfg.predictToCurrent
          then (Node.drain cfg now (P.size r.1.queue) r.2 r.1).predictTo now
          else Node.drain cfg now (P.size r.1.queue) r.2 r.1) := by
      unfold Node.integrate
      simp only [ht, hlate]
      rfl
    obtain ⟨L, l1, l2, l3, l4⟩ := fin (n, 0) [] n.filt (by simp) rfl hint
    exact ⟨[], L, n.filt, List.nil_sublist _, by simp, l1, l2, l3, Or.inl rfl, l4⟩

/-- Messages 30, 10, 20, 50 arriving in that order, cycle at 40: 10, 20, 30 are fused in order, 50 waits. -/
example :
    let cfg := auditCfg false 0 1000
    let n := ((auditNode cfg).run cfg [.sensor "a" 30 (some (3 : Int)), .sensor "b" 10 (some (1 : Int)),
      .sensor "c" 20 (some (2 : Int)), .sensor "d" 50 (some (5 : Int))]).1
    AuditQ.elems n.queue ≠ 0 ∧ (cfg.smooth = false ∨ ∀ m ∈ AuditQ.elems n.queue, n.filt.lastTime ≤ m.time) ∧
    (n.integrate cfg 40).filt.x = [.init 1, .predict 0 10, .correct 2, .predict 0 10, .correct 3] ∧
    AuditQ.size (n.integrate cfg 40).queue = 1 := by
  refine ⟨?_, Or.inl rfl, rfl, rfl⟩
  intro h
  have := congrArg Multiset.card h
  revert this
  decide

end RL
