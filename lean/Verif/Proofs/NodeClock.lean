import Verif.Proofs.SmoothingRun
import Verif.Spec.Clock
/-! # Invariants of the node's clock and history under a monotone clock -/

namespace RL
variable {C : Core} {P : MQueue C}

/-- Every retained measurement is covered by the newest snapshot. -/
def Node.Cover (n : Node C P) : Prop := ∀ m ∈ n.measHist, ∃ s, n.stateHist.head? = some s ∧ m.time ≤ s.lastTime

/-- The history invariant; `k` is an upper bound of the filter clock. -/
structure HInv (cfg : Cfg C) (k : Int) (n : Node C P) : Prop where
  clock : n.filt.lastTime ≤ k
  ssorted : Desc Snap.lastTime n.stateHist
  msorted : Desc Meas.time n.measHist
  sle : ∀ s ∈ n.stateHist, s.lastTime ≤ n.filt.lastTime
  cover : n.Cover
  uninit : n.filt.initialized = false → n.stateHist = []
  plain : cfg.smooth = false → n.stateHist = [] ∧ n.measHist = []

/-- The version inside the loop. -/
structure LInv (cfg : Cfg C) (now : Int) (n : Node C P) : Prop where
  clock : n.filt.lastTime ≤ now
  ssorted : Desc Snap.lastTime n.stateHist
  msorted : Desc Meas.time n.measHist
  sle : ∀ s ∈ n.stateHist, s.lastTime ≤ n.filt.lastTime
  cover : n.Cover ∨ ∃ m ∈ P.elems n.queue, m.time ≤ now
  uninit : n.filt.initialized = false → n.stateHist = []
  plain : cfg.smooth = false → n.stateHist = [] ∧ n.measHist = []
  order : ∀ m ∈ n.measHist, ∀ q ∈ P.elems n.queue, m.time ≤ q.time

theorem LInv.drainStep {cfg : Cfg C} {now : Int} {n : Node C P} (h : LInv cfg now n) (r : Int) {m : Meas C}
    (ht : P.top n.queue = some m) (hm : m.time ≤ now) : LInv cfg now (Node.drainStep cfg r n m) := by
  have hmem := Node.top_mem ht
  have hf : ∃ f0 : Filt C, f0.initialized = n.filt.initialized ∧ f0.lastTime = n.filt.lastTime ∧
      (Node.drainStep cfg r n m).filt = f0.processMeasurement m := by
    by_cases hd : (cfg.useControl && decide (r > 0)) = true
    · exact ⟨n.filt.setControl m.ctl m.ctlTime, rfl, rfl, by simp [Node.drainStep, hd]⟩
    · exact ⟨n.filt, rfl, rfl, by simp only [Node.drainStep, hd]; rfl⟩
  obtain ⟨f0, hf1, hf2, hf⟩ := hf
  have hi : (Node.drainStep cfg r n m).filt.initialized = true := by
    rw [hf]; exact Filt.processMeasurement_initialized _ _
  have hl : (Node.drainStep cfg r n m).filt.lastTime = if n.filt.initialized then max n.filt.lastTime m.time else m.time := by
    rw [hf, Filt.processMeasurement_lastTime, hf1, hf2]
  have hml : m.time ≤ (Node.drainStep cfg r n m).filt.lastTime := by
    rw [hl]; split <;> omega
  have hln : (Node.drainStep cfg r n m).filt.lastTime ≤ now := by
    have := h.clock
    rw [hl]; split <;> omega
  have hS : ∀ s ∈ n.stateHist, s.lastTime ≤ (Node.drainStep cfg r n m).filt.lastTime := by
    intro s hs
    rw [hl]
    by_cases hi' : n.filt.initialized = true
    · have := h.sle s hs
      simp only [hi', if_true]; omega
    · rw [h.uninit (by simpa using hi')] at hs
      simp at hs
  have hM : ∀ a ∈ n.measHist, a.time ≤ m.time := fun a ha => h.order a ha m hmem
  have hmh : (Node.drainStep cfg r n m).measHist = if cfg.smooth then m :: n.measHist else n.measHist := rfl
  refine { clock := hln, ssorted := ?_, msorted := ?_, sle := ?_, cover := ?_, uninit := ?_, plain := ?_, order := ?_ }
  · rcases Node.drainStep_stateHist cfg r n m with e | e <;> rw [e]
    · exact List.pairwise_cons.2 ⟨hS, h.ssorted⟩
    · exact h.ssorted
  · rw [hmh]
    split
    · exact List.pairwise_cons.2 ⟨hM, h.msorted⟩
    · exact h.msorted
  · intro s hs
    rcases Node.drainStep_stateHist cfg r n m with e | e <;> rw [e] at hs
    · rcases List.mem_cons.1 hs with rfl | hs
      · exact Int.le_refl _
      · exact hS s hs
    · exact hS s hs
  · by_cases hsm : cfg.smooth = true
    · cases htop : P.top (P.pop n.queue) with
      | none =>
        left
        have e : (Node.drainStep cfg r n m).stateHist = (Node.drainStep cfg r n m).filt.snap :: n.stateHist := by
          simp [Node.drainStep, hsm, htop]
        intro a ha
        refine ⟨_, by rw [e]; rfl, ?_⟩
        rw [hmh, hsm] at ha
        simp only [if_true] at ha
        rcases List.mem_cons.1 ha with rfl | ha
        · exact hml
        · exact Int.le_trans (hM a ha) hml
      | some m' =>
        by_cases hm' : m'.time = (Node.drainStep cfg r n m).filt.lastTime
        · right
          exact ⟨m', Node.top_mem htop, by omega⟩
        · left
          have hm'' := hm'
          have e : (Node.drainStep cfg r n m).stateHist = (Node.drainStep cfg r n m).filt.snap :: n.stateHist := by
            simp only [Node.drainStep] at hm'
            simp only [Node.drainStep, hsm, htop, ne_eq, hm', not_false_eq_true, decide_true, Bool.and_self, if_true]
          intro a ha
          refine ⟨_, by rw [e]; rfl, ?_⟩
          rw [hmh, hsm] at ha
          simp only [if_true] at ha
          rcases List.mem_cons.1 ha with rfl | ha
          · exact hml
          · exact Int.le_trans (hM a ha) hml
    · left
      intro a ha
      rw [hmh, if_neg hsm, (h.plain (by simpa using hsm)).2] at ha
      simp at ha
  · intro hn; rw [hi] at hn; cases hn
  · intro hs
    obtain ⟨e1, e2⟩ := h.plain hs
    exact ⟨by simp [Node.drainStep, hs, e1], by simp [Node.drainStep, hs, e2]⟩
  · intro a ha q hq
    have hq' : q ∈ P.elems n.queue := Node.mem_pop ht hq
    rw [hmh] at ha
    split at ha
    · rcases List.mem_cons.1 ha with rfl | ha
      · exact P.top_min _ _ ht q hq'
      · exact h.order a ha q hq'
    · exact h.order a ha q hq'

/-- After the loop the outer invariant holds again. -/
theorem LInv.drain {cfg : Cfg C} {now : Int} {n : Node C P} (h : LInv cfg now n) (r : Int) :
    HInv cfg now (Node.drain cfg now (P.size n.queue) r n) := by
  have hl := Node.drain_induct cfg now (LInv cfg now) (fun r n m h ht hm => h.drainStep r ht hm) (P.size n.queue) r n h
  refine ⟨hl.clock, hl.ssorted, hl.msorted, hl.sle, ?_, hl.uninit, hl.plain⟩
  rcases hl.cover with hc | ⟨m, hm, hm'⟩
  · exact hc
  · have := Node.drain_left cfg now _ r n (Nat.le_refl _) m hm
    omega

theorem HInv.mono {cfg : Cfg C} {k k' : Int} {n : Node C P} (h : HInv cfg k n) (hk : k ≤ k') : HInv cfg k' n :=
  { h with clock := Int.le_trans h.clock hk }

theorem HInv.predictTo {cfg : Cfg C} {now : Int} {n : Node C P} (h : HInv cfg now n) : HInv cfg now (n.predictTo now) := by
  have hl : (n.predictTo now).filt.lastTime = now := by
    show n.filt.lastTime + (now - n.filt.lastTime) = now
    omega
  refine ⟨by rw [hl]; exact Int.le_refl _, h.ssorted, h.msorted, ?_, h.cover, h.uninit, h.plain⟩
  intro s hs
  have h1 := h.sle s hs
  have h2 := h.clock
  rw [hl]
  omega

theorem HInv.integrate {cfg : Cfg C} {now : Int} {n : Node C P} (h : HInv cfg now n) :
    HInv cfg now (n.integrate cfg now) := by
  unfold Node.integrate
  split
  · rename_i first ht
    dsimp only
    have fin : ∀ r : Node C P × Int, LInv cfg now r.1 →
        HInv cfg now (if (Node.drain cfg now (P.size r.1.queue) r.2 r.1).filt.initialized && cfg.predictToCurrent
          then (Node.drain cfg now (P.size r.1.queue) r.2 r.1).predictTo now
          else Node.drain cfg now (P.size r.1.queue) r.2 r.1) := by
      intro r hr
      have := hr.drain r.2
      split
      · exact this.predictTo
      · exact this
    apply fin
    have hmin := P.top_min _ _ ht
    by_cases hlate : (cfg.smooth && decide (first.time < n.filt.lastTime)) = true
    · rw [if_pos hlate]
      simp only [Bool.and_eq_true, decide_eq_true_eq] at hlate
      obtain ⟨hsm, hlate⟩ := hlate
      have hnow : first.time ≤ now := by have := h.clock; omega
      -- the rewind
      have hsle := h.ssorted.dropWhile_le (first.time - 1)
      cases hrest : n.stateHist.dropWhile (fun s => decide (s.lastTime > first.time - 1)) with
      | cons s rest =>
        have er : (n.revertTo (first.time - 1)).1 =
            { n with
              stateHist := s :: rest
              measHist := n.measHist.dropWhile (fun m => decide (m.time > first.time - 1))
              queue := ((n.measHist.takeWhile (fun m => decide (m.time > first.time - 1))).filter
                (fun m => decide (s.lastTime ≤ m.time))).foldl P.push n.queue
              filt := ((n.filt.setState s.x).setCov s.cov).setLastTime s.lastTime } := by
          unfold Node.revertTo
          simp only [hrest]
        rw [er]
        have hsd : Desc Snap.lastTime (s :: rest) := hrest ▸ h.ssorted.dropWhile _
        have hst : s.lastTime ≤ first.time - 1 := hsle s (by rw [hrest]; simp)
        have hsub : ∀ x ∈ s :: rest, x ∈ n.stateHist := fun x hx =>
          (List.dropWhile_sublist _).subset (by rw [hrest]; exact hx)
        refine { clock := ?_, ssorted := hsd, msorted := h.msorted.dropWhile _, sle := ?_, cover := ?_, uninit := ?_,
                 plain := ?_, order := ?_ }
        · show s.lastTime ≤ now
          omega
        · exact hsd.le_head
        · right
          refine ⟨first, ?_, hnow⟩
          show first ∈ P.elems (List.foldl P.push n.queue _)
          rw [elems_foldl_push]
          exact Multiset.mem_add.2 (Or.inr (Node.top_mem ht))
        · intro hi
          have := h.uninit hi
          rw [this] at hrest
          simp at hrest
        · intro hn; rw [hsm] at hn; cases hn
        · intro m hm q hq
          have h1 := h.msorted.dropWhile_le (first.time - 1) m hm
          have hq' : q ∈ P.elems (List.foldl P.push n.queue
            ((n.measHist.takeWhile (fun m => decide (m.time > first.time - 1))).filter
                (fun m => decide (s.lastTime ≤ m.time)))) := hq
          rw [elems_foldl_push] at hq'
          rcases Multiset.mem_add.1 hq' with hq' | hq'
          · have h2 := (List.mem_filter.1 hq').1
            have := takeWhile_gt (f := Meas.time) _ _ q h2
            omega
          · have := hmin q hq'
            omega
      | nil =>
        cases hp : (n.stateHist.takeWhile (fun s => decide (s.lastTime > first.time - 1))).getLast? with
        | none =>
          have er : (n.revertTo (first.time - 1)).1 = { n with stateHist := [] } := by
            unfold Node.revertTo
            simp only [hrest, hp]
          have hnil : n.stateHist = [] := by
            have hsplit := List.takeWhile_append_dropWhile
              (p := fun s : Snap C => decide (s.lastTime > first.time - 1)) (l := n.stateHist)
            rw [List.getLast?_eq_none_iff] at hp
            rw [← hsplit, hp, hrest]; rfl
          have hmn : n.measHist = [] := by
            cases hmh : n.measHist with
            | nil => rfl
            | cons a l =>
              obtain ⟨s, hs, _⟩ := h.cover a (by rw [hmh]; simp)
              rw [hnil] at hs
              simp at hs
          rw [er]
          exact { clock := h.clock, ssorted := List.Pairwise.nil, msorted := h.msorted, sle := by simp,
                  cover := Or.inr ⟨first, Node.top_mem ht, hnow⟩, uninit := fun _ => rfl,
                  plain := fun hn => (by rw [hsm] at hn; cases hn),
                  order := fun m hm => by simp only [hmn] at hm; simp at hm }
        | some s =>
          have er : (n.revertTo (first.time - 1)).1 =
              { n with
                stateHist := []
                measHist := n.measHist.dropWhile (fun m => decide (m.time > first.time - 1))
                queue := ((n.measHist.takeWhile (fun m => decide (m.time > first.time - 1))).filter
                  (fun m => decide (s.lastTime ≤ m.time))).foldl P.push n.queue
                filt := ((n.filt.setState s.x).setCov s.cov).setLastTime s.lastTime } := by
            unfold Node.revertTo
            simp only [hrest, hp]
          have hsm' : s ∈ n.stateHist := (List.takeWhile_sublist _).subset (List.mem_of_getLast? hp)
          rw [er]
          refine { clock := ?_, ssorted := List.Pairwise.nil, msorted := h.msorted.dropWhile _, sle := by simp,
                   cover := ?_, uninit := fun _ => rfl, plain := ?_, order := ?_ }
          · show s.lastTime ≤ now
            have := h.sle s hsm'
            have := h.clock
            omega
          · right
            refine ⟨first, ?_, hnow⟩
            show first ∈ P.elems (List.foldl P.push n.queue _)
            rw [elems_foldl_push]
            exact Multiset.mem_add.2 (Or.inr (Node.top_mem ht))
          · intro hn; rw [hsm] at hn; cases hn
          · intro m hm q hq
            have h1 := h.msorted.dropWhile_le (first.time - 1) m hm
            have hq' : q ∈ P.elems (List.foldl P.push n.queue
              ((n.measHist.takeWhile (fun m => decide (m.time > first.time - 1))).filter
                  (fun m => decide (s.lastTime ≤ m.time)))) := hq
            rw [elems_foldl_push] at hq'
            rcases Multiset.mem_add.1 hq' with hq' | hq'
            · have h2 := (List.mem_filter.1 hq').1
              have := takeWhile_gt (f := Meas.time) _ _ q h2
              omega
            · have := hmin q hq'
              omega
    · rw [if_neg hlate]
      refine ⟨h.clock, h.ssorted, h.msorted, h.sle, Or.inl h.cover, h.uninit, h.plain, ?_⟩
      intro m hm q hq
      by_cases hsm : cfg.smooth = true
      · have hnl : ¬ first.time < n.filt.lastTime := by simpa [hsm] using hlate
        obtain ⟨s, hs, hms⟩ := h.cover m hm
        have h1 := h.sle s (List.mem_of_mem_head? hs)
        have h2 := hmin q hq
        omega
      · rw [(h.plain (by simpa using hsm)).2] at hm
        simp at hm
  · dsimp only
    split
    · exact h.predictTo
    · exact h

theorem HInv.clearExpired {cfg : Cfg C} {k : Int} {n : Node C P} (h : HInv cfg k n) (c : Int) :
    HInv cfg k (n.clearExpired c) := by
  have es : (n.clearExpired c).stateHist = n.stateHist.takeWhile (fun s => decide (c ≤ s.lastTime)) :=
    h.ssorted.rdropWhile_eq c
  have em : (n.clearExpired c).measHist = n.measHist.takeWhile (fun s => decide (c ≤ s.time)) :=
    h.msorted.rdropWhile_eq c
  refine ⟨h.clock, by rw [es]; exact h.ssorted.takeWhile _, by rw [em]; exact h.msorted.takeWhile _, ?_, ?_, ?_, ?_⟩
  · intro s hs
    rw [es] at hs
    exact h.sle s ((List.takeWhile_sublist _).subset hs)
  · intro m hm
    rw [em] at hm
    obtain ⟨s, hs, hms⟩ := h.cover m ((List.takeWhile_sublist _).subset hm)
    have hc := takeWhile_ge (f := Meas.time) _ c m hm
    refine ⟨s, ?_, hms⟩
    rw [es]
    cases hsh : n.stateHist with
    | nil => rw [hsh] at hs; simp at hs
    | cons a l =>
      rw [hsh] at hs
      simp at hs
      subst hs
      have : c ≤ a.lastTime := by omega
      simp [this]
  · intro hi
    rw [es, h.uninit hi]; rfl
  · intro hn
    obtain ⟨a, b⟩ := h.plain hn
    rw [es, em, a, b]; exact ⟨rfl, rfl⟩

theorem HInv.advance {cfg : Cfg C} {now now2 : Int} {n : Node C P} (h : HInv cfg now n) (hn : now ≤ now2) :
    HInv cfg now2 (n.advance cfg now now2) := by
  unfold Node.advance
  split
  · exact h.integrate.mono hn
  · by_cases hi : n.filt.initialized = true
    · refine ⟨?_, h.ssorted, h.msorted, ?_, h.cover, ?_, h.plain⟩
      · simp only [hi, if_true]; exact Int.le_refl _
      · intro s hs
        have := h.sle s hs
        have := h.clock
        simp only [hi, if_true]
        show s.lastTime ≤ now2
        omega
      · intro h'
        simp only [hi, if_true] at h'
        exact absurd hi (by rw [show n.filt.initialized = false from h']; simp)
    · refine ⟨?_, h.ssorted, h.msorted, ?_, h.cover, ?_, h.plain⟩
      · simp only [hi]; exact Int.le_trans h.clock hn
      · simp only [hi]; exact h.sle
      · simp only [hi]; exact h.uninit

theorem HInv.lastPub {cfg : Cfg C} {k : Int} {n : Node C P} (h : HInv cfg k n) (p : Int) :
    HInv cfg k { n with lastPub := p } :=
  ⟨h.clock, h.ssorted, h.msorted, h.sle, h.cover, h.uninit, h.plain⟩

theorem HInv.periodic {cfg : Cfg C} {k now now2 : Int} {n : Node C P} (h : HInv cfg k n) (h1 : k ≤ now) (h2 : now ≤ now2)
    (tfOk : Bool) : HInv cfg now2 (n.periodic cfg now now2 tfOk).1 := by
  by_cases he : n.enabled = true
  · obtain ⟨p, hp⟩ := Node.periodic_enabled cfg n now now2 tfOk he
    rw [hp]
    have h' := ((h.mono h1).advance h2).lastPub p
    split
    · exact h'.clearExpired _
    · exact h'
  · rw [Node.periodic_disabled cfg n now now2 tfOk (by simpa using he)]
    exact h.mono (by omega)

/-- Every event keeps the invariant. -/
theorem HInv.step {cfg : Cfg C} {k : Int} {n : Node C P} (h : HInv cfg k n) (hk : 0 ≤ k) (e : Node.Event C)
    (hc : Clocked k [e]) : HInv cfg (clockAfter k [e]) (n.step cfg e).1 := by
  cases e with
  | sensor topic stamp z =>
    obtain ⟨s1, s2, s3, s4, s5, s6, s7, s8, s9⟩ := n.sensor_spec topic stamp z []
    have e : (n.step cfg (.sensor topic stamp z)).1 = n.sensor topic stamp z := rfl
    rw [e]
    exact ⟨by rw [s1]; exact h.clock, by rw [s2]; exact h.ssorted, by rw [s3]; exact h.msorted,
      by rw [s1, s2]; exact h.sle, by unfold Node.Cover; rw [s2, s3]; exact h.cover, by rw [s1, s2]; exact h.uninit,
      by rw [s2, s3]; exact h.plain⟩
  | control c t =>
    have e : (n.step cfg (.control c t)).1 = n.control cfg c t := rfl
    rw [e]
    unfold Node.control
    split
    · exact ⟨h.clock, h.ssorted, h.msorted, h.sle, h.cover, h.uninit, h.plain⟩
    · exact h
  | setPose stamp now r =>
    exact ⟨Int.le_refl _, List.Pairwise.nil, List.Pairwise.nil, by simp [Node.step, Node.setPose],
      by intro m hm; simp [Node.step, Node.setPose] at hm, fun _ => rfl, fun _ => ⟨rfl, rfl⟩⟩
  | reset =>
    exact ⟨hk, List.Pairwise.nil, List.Pairwise.nil, by simp [Node.step, Node.reset],
      by intro m hm; simp [Node.step, Node.reset] at hm, fun _ => rfl, fun _ => ⟨rfl, rfl⟩⟩
  | toggle on =>
    have e : (n.step cfg (.toggle on)).1 = (n.toggle on).1 := rfl
    rw [e]
    unfold Node.toggle
    split
    · exact h
    · exact ⟨h.clock, h.ssorted, h.msorted, h.sle, h.cover, h.uninit, h.plain⟩
  | enable => exact ⟨h.clock, h.ssorted, h.msorted, h.sle, h.cover, h.uninit, h.plain⟩
  | tick now now2 tfOk => exact h.periodic hc.1 hc.2.1 tfOk

theorem Clocked.cons {k : Int} {e : Node.Event C} {es : List (Node.Event C)} (h : Clocked k (e :: es)) :
    Clocked k [e] ∧ Clocked (clockAfter k [e]) es ∧ k ≤ clockAfter k [e] := by
  cases e <;> simp_all [Clocked, clockAfter]
  omega

theorem clockAfter_cons (k : Int) (e : Node.Event C) (es : List (Node.Event C)) :
    clockAfter k (e :: es) = clockAfter (clockAfter k [e]) es := by
  cases e <;> rfl

/-- Every run under a monotone clock keeps the invariant. -/
theorem HInv.run {cfg : Cfg C} (es : List (Node.Event C)) : ∀ {k : Int} {n : Node C P}, HInv cfg k n → 0 ≤ k →
    Clocked k es → HInv cfg (clockAfter k es) (n.run cfg es).1 := by
  induction es with
  | nil => intro k n h _ _; exact h
  | cons e es ih =>
    intro k n h hk hc
    obtain ⟨h1, h2, h3⟩ := hc.cons
    rw [clockAfter_cons]
    exact ih (h.step hk e h1) (by omega) h2

theorem HInv.start (cfg : Cfg C) (P : MQueue C) (ext0 : C.Ext) (fctl0 : C.Ctl) (now : Int) :
    HInv cfg now (Node.start cfg P ext0 fctl0 now) :=
  ⟨Int.le_refl _, List.Pairwise.nil, List.Pairwise.nil, by simp [Node.start], by intro m hm; simp [Node.start] at hm,
    fun _ => rfl, fun _ => ⟨rfl, rfl⟩⟩

end RL
