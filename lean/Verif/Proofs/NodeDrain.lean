import Mathlib.Data.Multiset.AddSub
import Verif.Model.Node
/-! # Lemmas about the measurement loop of the node -/

namespace RL
variable {C : Core} {P : MQueue C}

namespace Filt

theorem processMeasurement_initialized (f : Filt C) (m : Meas C) :
    (f.processMeasurement m).initialized = true := by
  unfold processMeasurement
  by_cases h : f.initialized = true
  · simp only [h, if_true]
    split <;> split <;> simp_all [correct, predict]
  · simp [h]

/-- The filter clock after a measurement. -/
theorem processMeasurement_lastTime (f : Filt C) (m : Meas C) :
    (f.processMeasurement m).lastTime =
      if f.initialized then max f.lastTime m.time else m.time := by
  unfold processMeasurement
  by_cases h : f.initialized = true
  · simp only [h, if_true]
    split <;> split <;> simp [correct, predict] <;> omega
  · simp [h]

end Filt

namespace Node

theorem drain_zero (cfg : Cfg C) (now : Int) (r : Int) (n : Node C P) : drain cfg now 0 r n = n := rfl

/-- The node after one iteration of the loop. -/
def drainStep (cfg : Cfg C) (r : Int) (n : Node C P) (m : Meas C) : Node C P :=
  let q := P.pop n.queue
  let doCtl := cfg.useControl && decide (r > 0)
  let f0 := if doCtl then n.filt.setControl m.ctl m.ctlTime else n.filt
  let f := f0.processMeasurement m
  let save := match P.top q with
    | none => true
    | some m' => decide (m'.time ≠ f.lastTime)
  { n with
    queue := q
    filt := f
    measHist := if cfg.smooth then m :: n.measHist else n.measHist
    stateHist := if cfg.smooth && save then f.snap :: n.stateHist else n.stateHist }

theorem drain_none (cfg : Cfg C) (now : Int) (k : Nat) (r : Int) (n : Node C P) (h : P.top n.queue = none) :
    drain cfg now k r n = n := by
  cases k with
  | zero => rfl
  | succ k => simp [drain, h]

theorem drain_future (cfg : Cfg C) (now : Int) (k : Nat) (r : Int) (n : Node C P) (m : Meas C)
    (h : P.top n.queue = some m) (hm : now < m.time) : drain cfg now k r n = n := by
  cases k with
  | zero => rfl
  | succ k => simp [drain, h, hm]

theorem drain_step (cfg : Cfg C) (now : Int) (k : Nat) (r : Int) (n : Node C P) (m : Meas C)
    (h : P.top n.queue = some m) (hm : ¬ now < m.time) :
    drain cfg now (k + 1) r n =
      drain cfg now k (if cfg.useControl && decide (r > 0) then r - 1 else r) (drainStep cfg r n m) := by
  rw [drain]
  simp only [h, hm, if_false]
  rfl

theorem size_pop {q : P.Q} {m : Meas C} (h : P.top q = some m) : P.size q = P.size (P.pop q) + 1 := by
  unfold PQueue.size
  rw [← P.elems_pop q m h, Multiset.card_cons]

theorem size_top_none {q : P.Q} (h : P.size q = 0) : P.top q = none :=
  (P.top_none q).2 (Multiset.card_eq_zero.1 h)

theorem top_mem {q : P.Q} {m : Meas C} (h : P.top q = some m) : m ∈ P.elems q := by
  rw [← P.elems_pop q m h]; exact Multiset.mem_cons_self _ _

theorem mem_pop {q : P.Q} {m m' : Meas C} (h : P.top q = some m) (h' : m' ∈ P.elems (P.pop q)) : m' ∈ P.elems q := by
  rw [← P.elems_pop q m h]; exact Multiset.mem_cons_of_mem h'

/-- The queue size is enough fuel: more changes nothing, so the loop of the model is the loop of the code, and the
loop of the code terminates. -/
theorem drain_fuel (cfg : Cfg C) (now : Int) (k : Nat) : ∀ (r : Int) (n : Node C P), P.size n.queue ≤ k →
    drain cfg now k r n = drain cfg now (P.size n.queue) r n := by
  induction k with
  | zero =>
    intro r n h
    have : P.size n.queue = 0 := by omega
    rw [this]
  | succ k ih =>
    intro r n h
    cases ht : P.top n.queue with
    | none => rw [drain_none _ _ _ _ _ ht, drain_none _ _ _ _ _ ht]
    | some m =>
      by_cases hm : now < m.time
      · rw [drain_future _ _ _ _ _ _ ht hm, drain_future _ _ _ _ _ _ ht hm]
      · have hs := size_pop (P := P) ht
        have hq : (drainStep cfg r n m).queue = P.pop n.queue := rfl
        rw [drain_step _ _ _ _ _ _ ht hm, hs, drain_step _ _ _ _ _ _ ht hm,
          ih _ (drainStep cfg r n m) (by rw [hq]; omega), hq]

/-- The general invariant rule for the loop: a property kept by every iteration is kept by the loop. -/
theorem drain_induct (cfg : Cfg C) (now : Int) (I : Node C P → Prop)
    (hstep : ∀ (r : Int) (n : Node C P) (m : Meas C), I n → P.top n.queue = some m → m.time ≤ now →
      I (drainStep cfg r n m)) :
    ∀ (k : Nat) (r : Int) (n : Node C P), I n → I (drain cfg now k r n) := by
  intro k
  induction k with
  | zero => intro r n h; exact h
  | succ k ih =>
    intro r n h
    cases ht : P.top n.queue with
    | none => rw [drain_none _ _ _ _ _ ht]; exact h
    | some m =>
      by_cases hm : now < m.time
      · rw [drain_future _ _ _ _ _ _ ht hm]; exact h
      · rw [drain_step _ _ _ _ _ _ ht hm]
        exact ih _ _ (hstep r n m h ht (by omega))

/-- What is left in the queue after the loop is stamped after the current time. -/
theorem drain_left (cfg : Cfg C) (now : Int) (k : Nat) : ∀ (r : Int) (n : Node C P), P.size n.queue ≤ k →
    ∀ m ∈ P.elems (drain cfg now k r n).queue, now < m.time := by
  induction k with
  | zero =>
    intro r n h m hm
    have h0 : P.elems n.queue = 0 := Multiset.card_eq_zero.1 (show P.size n.queue = 0 by omega)
    rw [drain_zero, h0] at hm
    exact absurd hm (Multiset.notMem_zero m)
  | succ k ih =>
    intro r n h m hm
    cases ht : P.top n.queue with
    | none =>
      rw [drain_none _ _ _ _ _ ht, (P.top_none _).1 ht] at hm
      exact absurd hm (Multiset.notMem_zero m)
    | some m0 =>
      by_cases hm0 : now < m0.time
      · rw [drain_future _ _ _ _ _ _ ht hm0] at hm
        have := P.top_min _ _ ht m hm
        omega
      · rw [drain_step _ _ _ _ _ _ ht hm0] at hm
        have hs := size_pop (P := P) ht
        exact ih _ (drainStep cfg r n m0) (by show P.size (P.pop n.queue) ≤ k; omega) m hm

/-- The loop fuses, in stamp order, exactly what it takes from the queue (no control being replayed). -/
theorem drain_fuses (cfg : Cfg C) (now : Int) (k : Nat) : ∀ (r : Int) (n : Node C P),
    (cfg.useControl = false ∨ r ≤ 0) →
    ∃ L : List (Meas C),
      L.Pairwise (fun a b => a.time ≤ b.time) ∧
      (∀ m ∈ L, m.time ≤ now) ∧
      (L : Multiset (Meas C)) + P.elems (drain cfg now k r n).queue = P.elems n.queue ∧
      (drain cfg now k r n).filt = L.foldl Filt.processMeasurement n.filt ∧
      (∀ m ∈ L, ∀ m' ∈ P.elems (drain cfg now k r n).queue, m.time ≤ m'.time) := by
  induction k with
  | zero => intro r n _; exact ⟨[], by simp [drain_zero]⟩
  | succ k ih =>
    intro r n hr
    cases ht : P.top n.queue with
    | none => rw [drain_none _ _ _ _ _ ht]; exact ⟨[], by simp⟩
    | some m =>
      by_cases hm : now < m.time
      · rw [drain_future _ _ _ _ _ _ ht hm]; exact ⟨[], by simp⟩
      · rw [drain_step _ _ _ _ _ _ ht hm]
        have hctl : (cfg.useControl && decide (r > 0)) = false := by
          rcases hr with h | h
          · simp [h]
          · simp [h]
        obtain ⟨L, h1, h2, h3, h4, h5⟩ := ih r (drainStep cfg r n m) hr
        simp only [hctl]
        refine ⟨m :: L, ?_, ?_, ?_, ?_, ?_⟩
        · refine List.pairwise_cons.2 ⟨fun b hb => ?_, h1⟩
          refine P.top_min _ _ ht b (mem_pop ht ?_)
          show b ∈ P.elems (drainStep cfg r n m).queue
          rw [← h3]
          exact Multiset.mem_add.2 (Or.inl hb)
        · intro b hb
          rcases List.mem_cons.1 hb with rfl | hb
          · omega
          · exact h2 b hb
        · rw [← Multiset.cons_coe, Multiset.cons_add]
          show m ::ₘ (_ + P.elems (drain cfg now k r (drainStep cfg r n m)).queue) = _
          rw [h3]
          exact P.elems_pop _ _ ht
        · show (drain cfg now k r (drainStep cfg r n m)).filt = _
          rw [h4, List.foldl_cons]
          simp [drainStep, hctl]
        · intro b hb b' hb'
          rcases List.mem_cons.1 hb with rfl | hb
          · refine P.top_min _ _ ht b' (mem_pop ht ?_)
            show b' ∈ P.elems (drainStep cfg r n b).queue
            rw [← h3]
            exact Multiset.mem_add.2 (Or.inr hb')
          · exact h5 b hb b' hb'

end Node
end RL
