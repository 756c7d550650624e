import Verif.Proofs.NodeDrain
import Verif.Proofs.Lists
import Verif.Spec.Fusion
/-!
# Lagged-data smoothing: the replay invariant

Ghost state: the list `G` (newest first) of measurements the current estimate is made of.
-/

namespace RL
variable {C : Core} {P : MQueue C}

theorem SameEst.refl (f : Filt C) : SameEst f f := ⟨rfl, rfl, rfl, rfl, rfl, rfl, rfl, rfl, rfl⟩

theorem SameEst.symm {f g : Filt C} (h : SameEst f g) : SameEst g f :=
  ⟨h.1.symm, h.2.symm, h.3.symm, h.4.symm, h.5.symm, h.6.symm, h.7.symm, h.8.symm, h.9.symm⟩

theorem SameEst.trans {f g k : Filt C} (h : SameEst f g) (h' : SameEst g k) : SameEst f k :=
  ⟨h.1.trans h'.1, h.2.trans h'.2, h.3.trans h'.3, h.4.trans h'.4, h.5.trans h'.5, h.6.trans h'.6, h.7.trans h'.7,
    h.8.trans h'.8, h.9.trans h'.9⟩

theorem SameEst.eq_predicted {f g : Filt C} (h : SameEst f g) : f = { g with predicted := f.predicted } := by
  obtain ⟨h1, h2, h3, h4, h5, h6, h7, h8, h9⟩ := h
  cases f; cases g
  simp_all

theorem SameEst.processMeasurement {f g : Filt C} (h : SameEst f g) (m : Meas C) :
    SameEst (f.processMeasurement m) (g.processMeasurement m) := by
  rw [h.eq_predicted]
  unfold Filt.processMeasurement
  by_cases hi : g.initialized = true
  · simp only [hi, if_true]
    split <;> split <;> constructor <;> simp_all [Filt.correct, Filt.predict]
  · simp only [hi]
    constructor <;> simp

/-- Fusing a newest-first list. -/
def fuse (f0 : Filt C) (G : List (Meas C)) : Filt C := G.foldr (fun m f => f.processMeasurement m) f0

theorem fuse_cons (f0 : Filt C) (m : Meas C) (G : List (Meas C)) :
    fuse f0 (m :: G) = (fuse f0 G).processMeasurement m := rfl

theorem fuse_reverse (f0 : Filt C) (L : List (Meas C)) : fuse f0 L.reverse = L.foldl Filt.processMeasurement f0 := by
  unfold fuse
  rw [List.foldr_reverse]

/-- A snapshot holds the estimate of a filter. -/
structure SnapOf (s : Snap C) (f : Filt C) : Prop where
  x : s.x = f.x
  cov : s.cov = f.cov
  lastTime : s.lastTime = f.lastTime
  init : f.initialized = true

/-- The replay invariant.  `cond t` says for which times `t` the newest snapshot not after `t` is guaranteed to
contain every fused measurement not after `t`. -/
structure SInv (f0 : Filt C) (n : Node C P) (G : List (Meas C)) (cond : Int → Prop) : Prop where
  est : SameEst n.filt (fuse f0 G)
  sorted : Desc Meas.time G
  ssorted : Desc Snap.lastTime n.stateHist
  le : n.filt.initialized = true → ∀ g ∈ G, g.time ≤ n.filt.lastTime
  sle : ∀ s ∈ n.stateHist, s.lastTime ≤ n.filt.lastTime
  uninit : n.filt.initialized = false → G = [] ∧ n.measHist = [] ∧ n.stateHist = []
  hist : n.filt.initialized = true → ∃ c, c ≤ n.filt.lastTime ∧
    n.measHist = G.takeWhile (fun m => decide (c ≤ m.time)) ∧ ∀ s ∈ n.stateHist, c ≤ s.lastTime
  snaps : ∀ t, cond t → ∀ s rest, n.stateHist.dropWhile (fun s => decide (s.lastTime > t)) = s :: rest →
    SnapOf s (fuse f0 (G.dropWhile (fun m => decide (m.time > t))))

/-- The condition inside the loop. -/
def Node.loopCond (n : Node C P) (t : Int) : Prop :=
  t < n.filt.lastTime ∨ ∀ m, P.top n.queue = some m → m.time ≠ n.filt.lastTime

theorem SInv.weaken {f0 : Filt C} {n : Node C P} {G : List (Meas C)} {c c' : Int → Prop}
    (h : SInv f0 n G c) (hc : ∀ t, c' t → c t) : SInv f0 n G c' :=
  { h with snaps := fun t ht => h.snaps t (hc t ht) }

theorem SInv.drainStep {cfg : Cfg C} (hs : cfg.smooth = true) (hu : cfg.useControl = false) {f0 : Filt C}
    {n : Node C P} {G : List (Meas C)} (h : SInv f0 n G n.loopCond) (r : Int) {m : Meas C}
    (ht : P.top n.queue = some m) (hq : n.filt.initialized = true → n.filt.lastTime ≤ m.time) :
    SInv f0 (Node.drainStep cfg r n m) (m :: G) (Node.drainStep cfg r n m).loopCond ∧
      (Node.drainStep cfg r n m).filt.initialized = true ∧
      (Node.drainStep cfg r n m).filt.lastTime = m.time := by
  have hf : (Node.drainStep cfg r n m).filt = n.filt.processMeasurement m := by simp [Node.drainStep, hu]
  have hi : (n.filt.processMeasurement m).initialized = true := Filt.processMeasurement_initialized _ _
  have hl : (n.filt.processMeasurement m).lastTime = m.time := by
    rw [Filt.processMeasurement_lastTime]
    by_cases hi' : n.filt.initialized = true
    · have := hq hi'
      simp only [hi', if_true]; omega
    · simp [hi']
  have hest : SameEst (n.filt.processMeasurement m) (fuse f0 (m :: G)) := h.est.processMeasurement m
  have hmh : (Node.drainStep cfg r n m).measHist = m :: n.measHist := by simp [Node.drainStep, hs]
  -- the state history either gets the new snapshot or stays
  have hsh : (Node.drainStep cfg r n m).stateHist = (n.filt.processMeasurement m).snap :: n.stateHist ∨
      ((Node.drainStep cfg r n m).stateHist = n.stateHist ∧
        ∃ m', P.top (P.pop n.queue) = some m' ∧ m'.time = m.time) := by
    cases htop : P.top (P.pop n.queue) with
    | none => left; simp [Node.drainStep, hs, hu, htop]
    | some m' =>
      by_cases hm' : m'.time = m.time
      · right
        refine ⟨?_, m', rfl, hm'⟩
        simp [Node.drainStep, hs, hu, htop, hl, hm']
      · left
        simp [Node.drainStep, hs, hu, htop, hl, hm']
  have hG : ∀ g ∈ G, g.time ≤ m.time := by
    intro g hg
    by_cases hi' : n.filt.initialized = true
    · exact Int.le_trans (h.le hi' g hg) (hq hi')
    · have := (h.uninit (by simpa using hi')).1
      subst this; simp at hg
  have hS : ∀ s ∈ n.stateHist, s.lastTime ≤ m.time := by
    intro s hs'
    by_cases hi' : n.filt.initialized = true
    · exact Int.le_trans (h.sle s hs') (hq hi')
    · have := (h.uninit (by simpa using hi')).2.2
      rw [this] at hs'; simp at hs'
  refine ⟨?_, by rw [hf]; exact hi, by rw [hf]; exact hl⟩
  refine { est := by rw [hf]; exact hest, sorted := List.pairwise_cons.2 ⟨hG, h.sorted⟩, ssorted := ?_, le := ?_,
           sle := ?_, uninit := ?_, hist := ?_, snaps := ?_ }
  · rcases hsh with e | ⟨e, _⟩ <;> rw [e]
    · exact List.pairwise_cons.2 ⟨fun s hs' => by
        show s.lastTime ≤ (n.filt.processMeasurement m).lastTime
        rw [hl]; exact hS s hs', h.ssorted⟩
    · exact h.ssorted
  · intro _ g hg
    rw [hf, hl]
    rcases List.mem_cons.1 hg with rfl | hg
    · exact Int.le_refl _
    · exact hG g hg
  · intro s hs'
    rw [hf, hl]
    rcases hsh with e | ⟨e, _⟩ <;> rw [e] at hs'
    · rcases List.mem_cons.1 hs' with rfl | hs'
      · exact Int.le_of_eq hl
      · exact hS s hs'
    · exact hS s hs'
  · intro hn; rw [hf, hi] at hn; cases hn
  · intro _
    rw [hf, hl, hmh]
    by_cases hi' : n.filt.initialized = true
    · obtain ⟨c, hc1, hc2, hc3⟩ := h.hist hi'
      have hcm : c ≤ m.time := Int.le_trans hc1 (hq hi')
      refine ⟨c, hcm, by simp [hcm, hc2], ?_⟩
      intro s hs'
      rcases hsh with e | ⟨e, _⟩ <;> rw [e] at hs'
      · rcases List.mem_cons.1 hs' with rfl | hs'
        · show c ≤ (n.filt.processMeasurement m).lastTime
          rw [hl]; exact hcm
        · exact hc3 s hs'
      · exact hc3 s hs'
    · obtain ⟨e1, e2, e3⟩ := h.uninit (by simpa using hi')
      refine ⟨m.time, Int.le_refl _, by simp [e1, e2], ?_⟩
      intro s hs'
      rcases hsh with e | ⟨e, _⟩ <;> rw [e, e3] at hs'
      · rcases List.mem_cons.1 hs' with rfl | hs'
        · show m.time ≤ (n.filt.processMeasurement m).lastTime
          rw [hl]
          exact Int.le_refl _
        · simp at hs'
      · simp at hs'
  · intro t hcond s rest hd
    by_cases htm : t < m.time
    · -- both lists lose their new head
      have hd' : n.stateHist.dropWhile (fun s => decide (s.lastTime > t)) = s :: rest := by
        rcases hsh with e | ⟨e, _⟩ <;> rw [e] at hd
        · have : (n.filt.processMeasurement m).snap.lastTime > t := by
            show (n.filt.processMeasurement m).lastTime > t
            omega
          simpa [List.dropWhile_cons, this] using hd
        · exact hd
      have : (m :: G).dropWhile (fun m => decide (m.time > t)) = G.dropWhile (fun m => decide (m.time > t)) := by
        simp [htm]
      rw [this]
      refine h.snaps t ?_ s rest hd'
      by_cases h1 : t < n.filt.lastTime
      · exact Or.inl h1
      · refine Or.inr fun m1 hm1 => ?_
        rw [ht] at hm1
        cases hm1
        omega
    · -- the newest snapshot itself
      have hnl : ¬ t < (Node.drainStep cfg r n m).filt.lastTime := by rw [hf, hl]; exact htm
      have hn := hcond.resolve_left hnl
      have e : (Node.drainStep cfg r n m).stateHist = (n.filt.processMeasurement m).snap :: n.stateHist := by
        rcases hsh with e | ⟨_, m', hm', hmt⟩
        · exact e
        · exact absurd (by rw [hf, hl]; exact hmt) (hn m' hm')
      rw [e] at hd
      have hns : ¬ (n.filt.processMeasurement m).snap.lastTime > t := by
        show ¬ (n.filt.processMeasurement m).lastTime > t
        omega
      have : (m :: G).dropWhile (fun m => decide (m.time > t)) = m :: G := by
        simp [htm]
      rw [this]
      rw [List.dropWhile_cons] at hd
      simp only [hns, decide_false] at hd
      obtain ⟨rfl, _⟩ := List.cons.inj hd
      exact ⟨hest.x, hest.cov, hest.lastTime, hest.initialized ▸ hi⟩

/-- The loop keeps the invariant and loses no measurement. -/
theorem SInv.drain {cfg : Cfg C} (hs : cfg.smooth = true) (hu : cfg.useControl = false) {f0 : Filt C} (now : Int)
    (k : Nat) : ∀ (r : Int) (n : Node C P) (G : List (Meas C)), SInv f0 n G n.loopCond →
      (n.filt.initialized = true → ∀ m ∈ P.elems n.queue, n.filt.lastTime ≤ m.time) →
      ∃ G', SInv f0 (Node.drain cfg now k r n) G' (Node.drain cfg now k r n).loopCond ∧
        (G' : Multiset (Meas C)) + P.elems (Node.drain cfg now k r n).queue = (G : Multiset (Meas C)) + P.elems n.queue ∧
        ((G' = G ∧ Node.drain cfg now k r n = n) ∨ (Node.drain cfg now k r n).filt.lastTime ≤ now) := by
  induction k with
  | zero => intro r n G h _; exact ⟨G, h, rfl, Or.inl ⟨rfl, rfl⟩⟩
  | succ k ih =>
    intro r n G h hq
    cases ht : P.top n.queue with
    | none => rw [Node.drain_none _ _ _ _ _ ht]; exact ⟨G, h, rfl, Or.inl ⟨rfl, rfl⟩⟩
    | some m =>
      by_cases hm : now < m.time
      · rw [Node.drain_future _ _ _ _ _ _ ht hm]; exact ⟨G, h, rfl, Or.inl ⟨rfl, rfl⟩⟩
      · rw [Node.drain_step _ _ _ _ _ _ ht hm]
        obtain ⟨h1, h2, h3⟩ := h.drainStep hs hu r ht (fun hi => hq hi m (Node.top_mem ht))
        obtain ⟨G', g1, g2, g3⟩ := ih (if (cfg.useControl && decide (r > 0)) = true then r - 1 else r)
          (Node.drainStep cfg r n m) (m :: G) h1 (by
          intro _ m' hm'
          rw [h3]
          exact P.top_min _ _ ht m' (Node.mem_pop ht hm'))
        refine ⟨G', g1, ?_, ?_⟩
        · rw [g2, ← Multiset.cons_coe, Multiset.cons_add, ← Multiset.add_cons]
          show _ + m ::ₘ P.elems (P.pop n.queue) = _
          rw [P.elems_pop _ _ ht]
        · right
          rcases g3 with ⟨_, e⟩ | g3
          · rw [e, h3]; omega
          · exact g3

theorem elems_foldl_push (l : List (Meas C)) : ∀ q : P.Q,
    P.elems (l.foldl P.push q) = (l : Multiset (Meas C)) + P.elems q := by
  induction l with
  | nil => intro q; simp
  | cons m l ih =>
    intro q
    rw [List.foldl_cons, ih, P.elems_push, ← Multiset.cons_coe, Multiset.add_cons, Multiset.cons_add]

/-- A successful rewind keeps the invariant and loses no measurement. -/
theorem SInv.revert [Subsingleton C.Ext] {f0 : Filt C} {n : Node C P} {G : List (Meas C)}
    (h : SInv f0 n G (fun _ => True)) (hi : n.filt.initialized = true) {t : Int}
    (hs : ∃ s ∈ n.stateHist, s.lastTime ≤ t) (hp : ∀ G', (fuse f0 G').par = f0.par ∧ (fuse f0 G').ctl = f0.ctl ∧
      (fuse f0 G').ctlTime = f0.ctlTime ∧ (fuse f0 G').sensorTimeout = f0.sensorTimeout) :
    ∃ G', SInv f0 (n.revertTo t).1 G' (fun _ => True) ∧
      (G' : Multiset (Meas C)) + P.elems (n.revertTo t).1.queue = (G : Multiset (Meas C)) + P.elems n.queue ∧
      (n.revertTo t).2 = true ∧ (n.revertTo t).1.filt.initialized = true ∧
      (n.revertTo t).1.filt.lastTime ≤ t ∧
      (∀ m ∈ P.elems (n.revertTo t).1.queue, m ∈ P.elems n.queue ∨ t < m.time) := by
  obtain ⟨s0, hs0, hs0t⟩ := hs
  -- the newest snapshot not after `t`
  obtain ⟨s, rest, hd⟩ : ∃ s rest, n.stateHist.dropWhile (fun s => decide (s.lastTime > t)) = s :: rest := by
    cases hd : n.stateHist.dropWhile (fun s => decide (s.lastTime > t)) with
    | nil =>
      rw [List.dropWhile_eq_nil_iff] at hd
      have := hd s0 hs0
      simp at this
      omega
    | cons s rest => exact ⟨s, rest, rfl⟩
  have hsmem : s ∈ n.stateHist := (List.dropWhile_sublist _).subset (by rw [hd]; simp)
  have hst : s.lastTime ≤ t := h.ssorted.dropWhile_le t s (by rw [hd]; simp)
  have hsnap := h.snaps t trivial s rest hd
  obtain ⟨c, hc1, hc2, hc3⟩ := h.hist hi
  have hct : c ≤ t := Int.le_trans (hc3 s hsmem) hst
  obtain ⟨hr1, hr2⟩ := rewind_truncated (f := Meas.time) h.sorted hct
  have hkeep : n.measHist.dropWhile (fun m => decide (m.time > t)) =
      (G.dropWhile (fun m => decide (m.time > t))).takeWhile (fun m => decide (c ≤ m.time)) := by rw [hc2]; exact hr1
  have hgone : n.measHist.takeWhile (fun m => decide (m.time > t)) = G.takeWhile (fun m => decide (m.time > t)) := by
    rw [hc2]; exact hr2
  have hrest : (G.takeWhile (fun m => decide (m.time > t))).filter (fun m => decide (s.lastTime ≤ m.time)) =
      G.takeWhile (fun m => decide (m.time > t)) := by
    rw [List.filter_eq_self]
    intro m hm
    have := takeWhile_gt (f := Meas.time) G t m hm
    simp; omega
  have hrev : n.revertTo t =
      ({ n with
        stateHist := s :: rest
        measHist := (G.dropWhile (fun m => decide (m.time > t))).takeWhile (fun m => decide (c ≤ m.time))
        queue := (G.takeWhile (fun m => decide (m.time > t))).foldl P.push n.queue
        filt := ((n.filt.setState s.x).setCov s.cov).setLastTime s.lastTime }, true) := by
    unfold Node.revertTo
    simp only [hd, hkeep, hgone, hrest]
    rfl
  have hdd : ∀ t', (t' : Int) ≤ t → ∀ l : List (Meas C), (l.dropWhile (fun m => decide (m.time > t))).dropWhile
      (fun m => decide (m.time > t')) = l.dropWhile (fun m => decide (m.time > t')) := by
    intro t' ht' l
    induction l with
    | nil => rfl
    | cons a l ih =>
      by_cases h1 : t < a.time
      · have : t' < a.time := by omega
        simp [h1, this, ih]
      · simp [h1]
  rw [hrev]
  refine ⟨G.dropWhile (fun m => decide (m.time > t)), ?_, ?_, rfl, hi, hst, ?_⟩
  · refine { est := ?_, sorted := h.sorted.dropWhile _, ssorted := ?_, le := ?_, sle := ?_, uninit := ?_, hist := ?_, snaps := ?_ }
    · obtain ⟨p1, p2, p3, p4⟩ := hp (G.dropWhile (fun m => decide (m.time > t)))
      obtain ⟨q1, q2, q3, q4⟩ := hp G
      refine ⟨hi.trans hsnap.init.symm, hsnap.x, hsnap.cov, Subsingleton.elim _ _, ?_, ?_, ?_, hsnap.lastTime, ?_⟩
      · exact h.est.par.trans (q1.trans p1.symm)
      · exact h.est.ctl.trans (q2.trans p2.symm)
      · exact h.est.ctlTime.trans (q3.trans p3.symm)
      · exact h.est.sensorTimeout.trans (q4.trans p4.symm)
    · exact hd ▸ h.ssorted.dropWhile _
    · intro _ g hg
      -- everything kept is covered by the snapshot's clock
      show g.time ≤ s.lastTime
      rw [hsnap.lastTime]
      have key : ∀ G' : List (Meas C), Desc Meas.time G' → ∀ g ∈ G', g.time ≤ (fuse f0 G').lastTime := by
        intro G' hG' g hg
        cases G' with
        | nil => simp at hg
        | cons a l =>
          have h1 := hG'.le_head g hg
          rw [fuse_cons, Filt.processMeasurement_lastTime]
          split <;> omega
      exact key _ (h.sorted.dropWhile _) g hg
    · intro s' hs'
      have := (hd ▸ h.ssorted.dropWhile (fun s => decide (s.lastTime > t)) : Desc Snap.lastTime (s :: rest))
      exact this.le_head s' hs'
    · intro hn; exact absurd hi (by rw [show n.filt.initialized = false from hn]; simp)
    · intro _
      refine ⟨c, hc3 s hsmem, rfl, ?_⟩
      intro s' hs'
      exact hc3 s' ((List.dropWhile_sublist _).subset (by rw [hd]; exact hs'))
    · intro t' _ s' rest' hd'
      by_cases ht' : t' ≤ t
      · have e : n.stateHist.dropWhile (fun s => decide (s.lastTime > t')) = s' :: rest' := by
          have : ∀ l : List (Snap C), (l.dropWhile (fun m => decide (m.lastTime > t))).dropWhile
              (fun m => decide (m.lastTime > t')) = l.dropWhile (fun m => decide (m.lastTime > t')) := by
            intro l
            induction l with
            | nil => rfl
            | cons a l ih =>
              by_cases h1 : t < a.lastTime
              · have : t' < a.lastTime := by omega
                simp [h1, this, ih]
              · simp [h1]
          rw [← this, hd]; exact hd'
        rw [hdd t' ht']
        exact h.snaps t' trivial s' rest' e
      · have hns : ¬ s.lastTime > t' := by omega
        simp only [List.dropWhile_cons, hns, decide_false] at hd'
        obtain ⟨rfl, _⟩ := List.cons.inj hd'
        have : (G.dropWhile (fun m => decide (m.time > t))).dropWhile (fun m => decide (m.time > t')) =
            G.dropWhile (fun m => decide (m.time > t)) := by
          cases hG : G.dropWhile (fun m => decide (m.time > t)) with
          | nil => rfl
          | cons a l =>
            have := h.sorted.dropWhile_le t a (by rw [hG]; simp)
            have : ¬ a.time > t' := by omega
            simp [this]
        rw [this]
        exact hsnap
  · rw [elems_foldl_push, ← Multiset.add_assoc]
    congr 1
    rw [Multiset.add_comm, Multiset.coe_add, List.takeWhile_append_dropWhile]
  · intro m hm
    rw [elems_foldl_push] at hm
    rcases Multiset.mem_add.1 hm with hm | hm
    · exact Or.inr (takeWhile_gt (f := Meas.time) G t m hm)
    · exact Or.inl hm

/-- Expiry keeps the invariant. -/
theorem SInv.clearExpired {f0 : Filt C} {n : Node C P} {G : List (Meas C)}
    (h : SInv f0 n G (fun _ => True)) (k : Int) (hk : k ≤ n.filt.lastTime) :
    SInv f0 (n.clearExpired k) G (fun _ => True) := by
  have es : (n.clearExpired k).stateHist = n.stateHist.takeWhile (fun s => decide (k ≤ s.lastTime)) :=
    h.ssorted.rdropWhile_eq k
  refine { est := h.est, sorted := h.sorted, ssorted := ?_, le := h.le, sle := ?_, uninit := ?_, hist := ?_, snaps := ?_ }
  · rw [es]; exact h.ssorted.takeWhile _
  · intro s hs
    rw [es] at hs
    exact h.sle s ((List.takeWhile_sublist _).subset hs)
  · intro hi
    obtain ⟨a, b, d⟩ := h.uninit hi
    refine ⟨a, ?_, ?_⟩
    · simp [Node.clearExpired, b]
    · simp [Node.clearExpired, d]
  · intro hi
    obtain ⟨c, hc1, hc2, hc3⟩ := h.hist hi
    refine ⟨max c k, Int.max_le.2 ⟨hc1, hk⟩, ?_, ?_⟩
    · have : Desc Meas.time n.measHist := by rw [hc2]; exact h.sorted.takeWhile _
      show n.measHist.rdropWhile _ = _
      rw [this.rdropWhile_eq k, hc2, takeWhile_ge_ge]
    · intro s hs
      rw [es] at hs
      have h1 := hc3 s ((List.takeWhile_sublist _).subset hs)
      have h2 := takeWhile_ge (f := Snap.lastTime) _ k s hs
      exact Int.max_le.2 ⟨h1, h2⟩
  · intro t _ s rest hd
    rw [es] at hd
    have hsplit := List.takeWhile_append_dropWhile (p := fun s : Snap C => decide (k ≤ s.lastTime)) (l := n.stateHist)
    refine h.snaps t trivial s (rest ++ n.stateHist.dropWhile (fun s => decide (k ≤ s.lastTime))) ?_
    conv_lhs => rw [← hsplit]
    rw [List.dropWhile_append, hd]
    simp

theorem fuse_params (f0 : Filt C) (G : List (Meas C)) :
    (fuse f0 G).par = f0.par ∧ (fuse f0 G).ctl = f0.ctl ∧ (fuse f0 G).ctlTime = f0.ctlTime ∧
      (fuse f0 G).sensorTimeout = f0.sensorTimeout := by
  induction G with
  | nil => exact ⟨rfl, rfl, rfl, rfl⟩
  | cons m G ih =>
    obtain ⟨i1, i2, i3, i4⟩ := ih
    rw [fuse_cons]
    unfold Filt.processMeasurement
    split
    · simp only
      split <;> split <;> exact ⟨i1, i2, i3, i4⟩
    · exact ⟨i1, i2, i3, i4⟩

end RL
