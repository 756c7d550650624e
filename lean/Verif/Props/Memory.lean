import Mathlib.Data.List.Infix
import Mathlib.Data.Multiset.Filter
import Mathlib.Algebra.Order.Group.Multiset
import Mathlib.Data.Multiset.Replicate
import Verif.Proofs.NodeClock
import Verif.Spec.Audit
/-! # C106: what the node keeps in memory -/

namespace RL
variable {C : Core} {P : MQueue C}

/-- The stamps of the usable messages a node was sent, in order of arrival. -/
def sentStamps (es : List (Node.Event C)) : List Int :=
  es.filterMap fun e => match e with
    | .sensor _ stamp (some _) => some stamp
    | _ => none

/-- The stamps of all measurements the node keeps, in the queue and in the history. -/
def heldStamps (n : Node C P) : Multiset Int :=
  (P.elems n.queue).map Meas.time + (n.measHist.map Meas.time : List Int)

theorem desc_dropWhile_filter {α : Type} {f : α → Int} {l : List α} (h : Desc f l) (t : Int) :
    l.dropWhile (fun a => decide (f a > t)) = l.filter (fun a => decide (f a ≤ t)) := by
  induction l with
  | nil => rfl
  | cons a l ih =>
    by_cases ha : f a > t
    · rw [List.dropWhile_cons_of_pos (by simpa using ha), ih h.tail, List.filter_cons_of_neg (by simpa using ha)]
    · rw [List.dropWhile_cons_of_neg (by simpa using ha)]
      symm
      rw [List.filter_eq_self]
      intro b hb
      have := h.le_head b hb
      simp only [decide_eq_true_eq]
      omega

theorem desc_expire_filter {α : Type} {f : α → Int} {l : List α} (h : Desc f l) (c : Int) :
    l.rdropWhile (fun a => decide (f a < c)) = l.filter (fun a => decide (c ≤ f a)) := by
  rw [h.rdropWhile_eq]
  induction l with
  | nil => rfl
  | cons a l ih =>
    by_cases hc : c ≤ f a
    · simp [hc, ih h.tail]
    · rw [List.takeWhile_cons_of_neg (by simpa using hc)]
      symm
      rw [List.filter_eq_nil_iff]
      intro b hb
      have := h.le_head b hb
      simp only [decide_eq_true_eq]
      omega

theorem map_filter_time {α : Type} (f : α → Int) (p : Int → Prop) [DecidablePred p] (l : List α) :
    (((l.filter (fun a => decide (p (f a)))).map f : List Int) : Multiset Int) =
      Multiset.filter p ((l.map f : List Int) : Multiset Int) := by
  rw [Multiset.filter_coe, List.filter_map]
  rfl

/-! ## Measurements -/

theorem held_drainStep (cfg : Cfg C) (r : Int) (n : Node C P) (m : Meas C) (ht : P.top n.queue = some m) :
    heldStamps (Node.drainStep cfg r n m) ≤ heldStamps n := by
  have h1 := P.elems_pop _ _ ht
  have hq : (Node.drainStep cfg r n m).queue = P.pop n.queue := rfl
  have hm : (Node.drainStep cfg r n m).measHist = if cfg.smooth then m :: n.measHist else n.measHist := rfl
  unfold heldStamps
  rw [hq, hm, ← h1, Multiset.map_cons]
  split
  · rw [List.map_cons, ← Multiset.cons_coe, Multiset.add_cons, Multiset.cons_add]
  · rw [Multiset.cons_add]
    exact Multiset.le_cons_self _ _

theorem held_drain (cfg : Cfg C) (now : Int) (k : Nat) (r : Int) (n : Node C P) :
    heldStamps (Node.drain cfg now k r n) ≤ heldStamps n :=
  Node.drain_induct cfg now (fun n' => heldStamps n' ≤ heldStamps n)
    (fun r n' m h ht _ => (held_drainStep cfg r n' m ht).trans h) k r n le_rfl

theorem held_revertTo (n : Node C P) (t : Int) : heldStamps (n.revertTo t).1 ≤ heldStamps n := by
  unfold Node.revertTo
  dsimp only
  split
  · exact le_rfl
  · rename_i s _
    unfold heldStamps
    dsimp only
    rw [elems_foldl_push, Multiset.map_add, Multiset.map_coe]
    have h1 : ((n.measHist.map Meas.time : List Int) : Multiset Int) =
        ((n.measHist.takeWhile (fun m => decide (m.time > t))).map Meas.time : List Int) +
        ((n.measHist.dropWhile (fun m => decide (m.time > t))).map Meas.time : List Int) := by
      rw [Multiset.coe_add, ← List.map_append, List.takeWhile_append_dropWhile]
    rw [h1, add_comm (_ : Multiset Int) ((P.elems n.queue).map Meas.time), add_assoc]
    refine add_le_add le_rfl (add_le_add ?_ le_rfl)
    exact Multiset.coe_le.2 ((List.filter_sublist.map _).subperm)

theorem held_predictTo (n : Node C P) (now : Int) : heldStamps (n.predictTo now) = heldStamps n := rfl

theorem held_integrate (cfg : Cfg C) (n : Node C P) (now : Int) :
    heldStamps (n.integrate cfg now) ≤ heldStamps n := by
  unfold Node.integrate
  split
  · dsimp only
    have fin : ∀ r : Node C P × Int, heldStamps r.1 ≤ heldStamps n →
        heldStamps (if (Node.drain cfg now (P.size r.1.queue) r.2 r.1).filt.initialized && cfg.predictToCurrent
          then (Node.drain cfg now (P.size r.1.queue) r.2 r.1).predictTo now
          else Node.drain cfg now (P.size r.1.queue) r.2 r.1) ≤ heldStamps n := by
      intro r hr
      split
      · rw [held_predictTo]; exact (held_drain ..).trans hr
      · exact (held_drain ..).trans hr
    apply fin
    split
    · exact held_revertTo _ _
    · exact le_rfl
  · dsimp only
    split
    · exact le_rfl
    · exact le_rfl

theorem held_advance (cfg : Cfg C) (n : Node C P) (now now2 : Int) :
    heldStamps (n.advance cfg now now2) ≤ heldStamps n := by
  unfold Node.advance
  split
  · exact held_integrate ..
  · unfold heldStamps
    dsimp only
    rw [P.elems_empty]
    exact add_le_add (Multiset.zero_le _) le_rfl

theorem held_clearExpired (n : Node C P) (c : Int) : heldStamps (n.clearExpired c) ≤ heldStamps n := by
  unfold heldStamps Node.clearExpired
  refine add_le_add le_rfl ?_
  exact Multiset.coe_le.2 (((List.rdropWhile_prefix _ _).sublist.map _).subperm)

theorem held_periodic (cfg : Cfg C) (n : Node C P) (now now2 : Int) (tfOk : Bool) :
    heldStamps (n.periodic cfg now now2 tfOk).1 ≤ heldStamps n := by
  by_cases he : n.enabled = true
  · obtain ⟨p, hp⟩ := Node.periodic_enabled cfg n now now2 tfOk he
    rw [hp]
    split
    · exact (held_clearExpired _ _).trans (held_advance cfg n now now2)
    · exact held_advance cfg n now now2
  · rw [Node.periodic_disabled cfg n now now2 tfOk (by simpa using he)]

theorem held_sensor (n : Node C P) (topic : String) (stamp : Int) (z : Option C.Z) :
    heldStamps (n.sensor topic stamp z) ≤ heldStamps n + (sentStamps [.sensor topic stamp z] : Multiset Int) := by
  unfold Node.sensor
  split
  · exact Multiset.le_add_right _ _
  · dsimp only
    split
    · cases z with
      | none => exact Multiset.le_add_right _ _
      | some z =>
        show (P.elems (P.push n.queue _)).map Meas.time + _ ≤ _ + ({stamp} : Multiset Int)
        rw [P.elems_push, Multiset.map_cons, Multiset.cons_add, ← Multiset.singleton_add, add_comm]
        exact le_rfl
    · exact Multiset.le_add_right _ _

theorem sentStamps_append (a b : List (Node.Event C)) : sentStamps (a ++ b) = sentStamps a ++ sentStamps b :=
  List.filterMap_append

theorem held_step (cfg : Cfg C) (n : Node C P) (e : Node.Event C) :
    heldStamps (n.step cfg e).1 ≤ heldStamps n + (sentStamps [e] : Multiset Int) := by
  cases e with
  | sensor topic stamp z => exact held_sensor n topic stamp z
  | control c t =>
    refine le_trans (le_of_eq ?_) (Multiset.le_add_right _ _)
    show heldStamps (n.control cfg c t) = heldStamps n
    unfold Node.control
    split <;> rfl
  | setPose stamp now r =>
    show (P.elems P.empty).map Meas.time + _ ≤ _
    rw [P.elems_empty]
    exact Multiset.zero_le _
  | reset =>
    show (P.elems P.empty).map Meas.time + _ ≤ _
    rw [P.elems_empty]
    exact Multiset.zero_le _
  | toggle on =>
    refine le_trans (le_of_eq ?_) (Multiset.le_add_right _ _)
    show heldStamps (n.toggle on).1 = heldStamps n
    unfold Node.toggle
    split <;> rfl
  | enable => exact Multiset.le_add_right _ _
  | tick now now2 tfOk => exact (held_periodic cfg n now now2 tfOk).trans (Multiset.le_add_right _ _)

theorem held_run (cfg : Cfg C) (es : List (Node.Event C)) : ∀ n : Node C P,
    heldStamps (n.run cfg es).1 ≤ heldStamps n + (sentStamps es : Multiset Int) := by
  induction es with
  | nil => intro n; exact Multiset.le_add_right _ _
  | cons e es ih =>
    intro n
    refine (ih (n.step cfg e).1).trans ?_
    have h1 := held_step cfg n e
    have h2 : ((sentStamps (e :: es) : List Int) : Multiset Int) = (sentStamps [e] : Multiset Int) + (sentStamps es : Multiset Int) := by
      rw [Multiset.coe_add, ← sentStamps_append]; rfl
    rw [h2, ← add_assoc]
    exact add_le_add h1 le_rfl

theorem held_start (cfg : Cfg C) (ext0 : C.Ext) (fctl0 : C.Ctl) (k : Int) :
    heldStamps (Node.start cfg P ext0 fctl0 k) = 0 := by
  show (P.elems P.empty).map Meas.time + _ = _
  rw [P.elems_empty]
  rfl

/-- What an enabled cycle leaves in the queue lies in the future. -/
theorem queue_after (cfg : Cfg C) (n : Node C P) (now now2 : Int) :
    ∀ m ∈ P.elems (n.advance cfg now now2).queue, now < m.time ∧ n.toggledOn = true := by
  intro m hm
  unfold Node.advance at hm
  split at hm
  · rename_i ht
    refine ⟨?_, ht⟩
    unfold Node.integrate at hm
    split at hm
    · have fin : ∀ r : Node C P × Int, m ∈ P.elems
          (if (Node.drain cfg now (P.size r.1.queue) r.2 r.1).filt.initialized && cfg.predictToCurrent
          then (Node.drain cfg now (P.size r.1.queue) r.2 r.1).predictTo now
          else Node.drain cfg now (P.size r.1.queue) r.2 r.1).queue → now < m.time := by
        intro r hr
        split at hr
        · exact Node.drain_left cfg now _ _ _ (Nat.le_refl _) m hr
        · exact Node.drain_left cfg now _ _ _ (Nat.le_refl _) m hr
      exact fin _ hm
    · rename_i htop
      have h0 := (P.top_none _).1 htop
      dsimp only at hm
      have hm' : m ∈ P.elems n.queue := by
        split at hm <;> exact hm
      rw [h0] at hm'
      exact absurd hm' (Multiset.notMem_zero m)
  · rw [P.elems_empty] at hm
    exact absurd hm (Multiset.notMem_zero m)

theorem clocked_append {a b : List (Node.Event C)} : ∀ {k : Int}, Clocked k (a ++ b) →
    Clocked k a ∧ Clocked (clockAfter k a) b := by
  induction a with
  | nil => intro k h; exact ⟨trivial, h⟩
  | cons e a ih =>
    intro k h
    obtain ⟨h1, h2, -⟩ := Clocked.cons h
    obtain ⟨i1, i2⟩ := ih h2
    refine ⟨?_, by rw [clockAfter_cons]; exact i2⟩
    cases e with
    | tick x y z => exact ⟨h1.1, h1.2.1, i1⟩
    | setPose x y z => exact ⟨h1.1, i1⟩
    | _ => exact i1

theorem run_append_fst (cfg : Cfg C) (a b : List (Node.Event C)) : ∀ n : Node C P,
    (n.run cfg (a ++ b)).1 = ((n.run cfg a).1.run cfg b).1 := by
  induction a with
  | nil => intro n; rfl
  | cons e a ih => intro n; exact ih (n.step cfg e).1

/-- What a cycle of an enabled node leaves in memory. -/
theorem held_after (cfg : Cfg C) {k now now2 : Int} {n : Node C P} (h : HInv cfg k n) (h1 : k ≤ now) (h2 : now ≤ now2)
    (hH : 0 ≤ cfg.historyLength) (tfOk : Bool) (he : n.enabled = true) :
    let n' := (n.periodic cfg now now2 tfOk).1
    ∀ t ∈ heldStamps n', if cfg.smooth then n'.filt.lastTime - cfg.historyLength ≤ t else now < t := by
  intro n' t ht
  obtain ⟨p, hp⟩ := Node.periodic_enabled cfg n now now2 tfOk he
  have hfull := (h.mono h1).advance h2
  have hq := queue_after cfg n now now2
  have en : n' = (n.periodic cfg now now2 tfOk).1 := rfl
  rw [hp] at en
  have hlt : n'.filt.lastTime = (n.advance cfg now now2).filt.lastTime := by
    rw [en]; split <;> rfl
  by_cases hsm : cfg.smooth = true
  · rw [if_pos hsm, hlt]
    rw [if_pos hsm] at en
    rw [en] at ht
    rcases Multiset.mem_add.1 ht with ht | ht
    · obtain ⟨m, hm, rfl⟩ := Multiset.mem_map.1 ht
      obtain ⟨hm1, hm2⟩ := hq m hm
      have : (n.advance cfg now now2).filt.lastTime ≤ now := by
        have := (h.mono h1).integrate.clock
        unfold Node.advance
        rw [if_pos hm2]
        exact this
      omega
    · have ht' : t ∈ ((n.advance cfg now now2).measHist.rdropWhile (fun m => decide (m.time <
          (n.advance cfg now now2).filt.lastTime - cfg.historyLength))).map Meas.time := ht
      rw [desc_expire_filter hfull.msorted] at ht'
      obtain ⟨m, hm, rfl⟩ := List.mem_map.1 ht'
      simpa using (List.mem_filter.1 hm).2
  · rw [if_neg hsm]
    rw [if_neg hsm] at en
    rw [en] at ht
    rcases Multiset.mem_add.1 ht with ht | ht
    · obtain ⟨m, hm, rfl⟩ := Multiset.mem_map.1 ht
      exact (hq m hm).1
    · have : (n.advance cfg now now2).measHist = [] := (hfull.plain (by simpa using hsm)).2
      have ht' : t ∈ (((n.advance cfg now now2).measHist.map Meas.time : List Int) : Multiset Int) := ht
      rw [this] at ht'
      simp at ht'

/-- C106.  In every run from start-up under a clock that does not go back: let a cycle of the enabled node end at
filter time `T`.  From then on the measurements the node keeps (queue and history together) are some of the messages
sent to it before that cycle whose stamps are at most `history_length` older than `T` — none of them twice — and some
of the messages sent after it.  Without smoothing only messages stamped after the time of the cycle can be left. -/
theorem C106_measurements_partial (cfg : Cfg C) (ext0 : C.Ext) (fctl0 : C.Ctl) (k : Int) (hk : 0 ≤ k)
    (hH : 0 ≤ cfg.historyLength) (es later : List (Node.Event C)) (now now2 : Int) (tfOk : Bool)
    (hclk : Clocked k (es ++ [.tick now now2 tfOk])) :
    let n := ((Node.start cfg P ext0 fctl0 k).run cfg es).1
    let n' := (n.periodic cfg now now2 tfOk).1
    let n'' := (n'.run cfg later).1
    n.enabled = true →
    (P.elems n''.queue).map Meas.time + (n''.measHist.map Meas.time : List Int) ≤
      (((sentStamps es).filter (fun t => decide
          (if cfg.smooth then n'.filt.lastTime - cfg.historyLength ≤ t else now < t)) : List Int) :
        Multiset Int) + (sentStamps later : List Int) := by
  intro n n' n'' he
  obtain ⟨c1, c2⟩ := clocked_append hclk
  have h := HInv.run es (HInv.start cfg P ext0 fctl0 k) hk c1
  have ha := held_after cfg h c2.1 c2.2.1 hH tfOk he
  have hb : heldStamps n' ≤ (sentStamps es : Multiset Int) := by
    refine (held_periodic cfg n now now2 tfOk).trans ?_
    have := held_run cfg es (Node.start cfg P ext0 fctl0 k)
    rwa [held_start, zero_add] at this
  refine (held_run cfg later n').trans (add_le_add ?_ le_rfl)
  rw [← Multiset.filter_coe]
  exact Multiset.le_filter.2 ⟨hb, ha⟩

/-! ## Snapshots -/

/-- Of every snapshot there is a measurement with the same stamp in the history, apart from `B` snapshots at the
earliest stamp. -/
def Snaps (B : Nat) (n : Node C P) : Prop :=
  ∃ v, ((n.stateHist.map Snap.lastTime : List Int) : Multiset Int) ≤
      ((n.measHist.map Meas.time : List Int) : Multiset Int) + Multiset.replicate B v ∧ ∀ s ∈ n.stateHist, v ≤ s.lastTime

/-- The number of waiting measurements that are older than the filter. -/
def lateCount (n : Node C P) : Nat :=
  if n.filt.initialized then Multiset.card ((P.elems n.queue).filter (fun m => m.time < n.filt.lastTime)) else 0

/-- The version inside the loop: `j` of the snapshots have no measurement so far. -/
structure SnapLoop (B : Nat) (v : Int) (j : Nat) (n : Node C P) : Prop where
  cnt : ((n.stateHist.map Snap.lastTime : List Int) : Multiset Int) ≤
      ((n.measHist.map Meas.time : List Int) : Multiset Int) + Multiset.replicate j v
  low : ∀ s ∈ n.stateHist, v ≤ s.lastTime
  room : j + lateCount n ≤ B
  vle : if n.filt.initialized then v ≤ n.filt.lastTime else ∀ m ∈ P.elems n.queue, v ≤ m.time
  veq : lateCount n ≠ 0 → n.filt.lastTime = v

theorem SnapLoop.step {cfg : Cfg C} (hsm : cfg.smooth = true) {B : Nat} {v : Int} {j : Nat} {n : Node C P}
    (h : SnapLoop B v j n) (r : Int) {m : Meas C} (ht : P.top n.queue = some m) :
    ∃ j', SnapLoop B v j' (Node.drainStep cfg r n m) := by
  have hmem := Node.top_mem ht
  have hpop := P.elems_pop _ _ ht
  have hmin := P.top_min _ _ ht
  have hf : ∃ f0 : Filt C, f0.initialized = n.filt.initialized ∧ f0.lastTime = n.filt.lastTime ∧
      (Node.drainStep cfg r n m).filt = f0.processMeasurement m := by
    by_cases hd : (cfg.useControl && decide (r > 0)) = true
    · exact ⟨n.filt.setControl m.ctl m.ctlTime, rfl, rfl, by simp [Node.drainStep, hd]⟩
    · exact ⟨n.filt, rfl, rfl, by simp only [Node.drainStep, hd]; rfl⟩
  obtain ⟨f0, hf1, hf2, hf⟩ := hf
  have hi : (Node.drainStep cfg r n m).filt.initialized = true := by
    rw [hf]; exact Filt.processMeasurement_initialized _ _
  have hl : (Node.drainStep cfg r n m).filt.lastTime =
      if n.filt.initialized then max n.filt.lastTime m.time else m.time := by
    rw [hf, Filt.processMeasurement_lastTime, hf1, hf2]
  have hmh : (Node.drainStep cfg r n m).measHist = m :: n.measHist := by
    show (if cfg.smooth then _ else _) = _
    rw [if_pos hsm]
  have hq : (Node.drainStep cfg r n m).queue = P.pop n.queue := rfl
  have hsh : (Node.drainStep cfg r n m).stateHist = n.stateHist ∨
      (Node.drainStep cfg r n m).stateHist = (Node.drainStep cfg r n m).filt.snap :: n.stateHist := by
    obtain ⟨b, hb⟩ : ∃ b : Bool, (Node.drainStep cfg r n m).stateHist =
        if b then (Node.drainStep cfg r n m).filt.snap :: n.stateHist else n.stateHist := ⟨_, rfl⟩
    cases b
    · exact Or.inl hb
    · exact Or.inr hb
  generalize hn' : Node.drainStep cfg r n m = n' at *
  have push : ∀ (a : Int) (M : Multiset Int), n'.filt.lastTime = a →
      a ::ₘ ((n.stateHist.map Snap.lastTime : List Int) : Multiset Int) ≤ M →
      ((n'.stateHist.map Snap.lastTime : List Int) : Multiset Int) ≤ M := by
    intro a M ha hM
    rcases hsh with e | e
    · rw [e]; exact (Multiset.le_cons_self _ _).trans hM
    · rw [e, List.map_cons, ← Multiset.cons_coe]
      rw [← ha] at hM
      exact hM
  have lowr : v ≤ n'.filt.lastTime → ∀ s ∈ n'.stateHist, v ≤ s.lastTime := by
    intro hv s hs
    rcases hsh with e | e
    · rw [e] at hs; exact h.low s hs
    · rw [e] at hs
      rcases List.mem_cons.1 hs with rfl | hs
      · exact hv
      · exact h.low s hs
  by_cases hlate : n.filt.initialized = true ∧ m.time < n.filt.lastTime
  · obtain ⟨hin, hlt⟩ := hlate
    have hl' : n'.filt.lastTime = n.filt.lastTime := by rw [hl, if_pos hin]; omega
    have hcard : lateCount n = lateCount n' + 1 := by
      unfold lateCount
      rw [if_pos hin, if_pos hi, hl', hq, ← hpop, Multiset.filter_cons_of_pos (p := fun m : Meas C => m.time < n.filt.lastTime) _ hlt,
        Multiset.card_cons]
    have hveq := h.veq (by omega)
    refine ⟨j + 1, ?_, lowr (by omega), by have := h.room; omega, by rw [if_pos hi]; omega, fun _ => by omega⟩
    refine push v _ (by omega) ?_
    rw [hmh, List.map_cons, ← Multiset.cons_coe, Multiset.replicate_succ, Multiset.add_cons, Multiset.cons_add]
    exact (Multiset.cons_le_cons_iff _).2 (h.cnt.trans (Multiset.le_cons_self _ _))
  · have hl' : n'.filt.lastTime = m.time := by
      rw [hl]
      split
      · rename_i hin
        have : ¬ m.time < n.filt.lastTime := fun hc => hlate ⟨hin, hc⟩
        omega
      · rfl
    have hzero : lateCount n' = 0 := by
      unfold lateCount
      rw [if_pos hi, hq, hl', Multiset.card_eq_zero, Multiset.filter_eq_nil]
      intro a ha
      have := hmin a (Node.mem_pop ht ha)
      omega
    have hv : v ≤ m.time := by
      have := h.vle
      split at this
      · rename_i hin
        have : ¬ m.time < n.filt.lastTime := fun hc => hlate ⟨hin, hc⟩
        omega
      · exact this m hmem
    refine ⟨j, ?_, lowr (by omega), by have := h.room; omega, by rw [if_pos hi]; omega, fun hc => absurd hzero hc⟩
    refine push m.time _ hl' ?_
    rw [hmh, List.map_cons, ← Multiset.cons_coe, Multiset.cons_add]
    exact (Multiset.cons_le_cons_iff _).2 h.cnt

theorem SnapLoop.drain {cfg : Cfg C} (hsm : cfg.smooth = true) {B : Nat} {v : Int} {j : Nat} {n : Node C P}
    (h : SnapLoop B v j n) (now : Int) (k : Nat) (r : Int) : Snaps B (Node.drain cfg now k r n) := by
  obtain ⟨j', h'⟩ := Node.drain_induct cfg now (fun n => ∃ j, SnapLoop B v j n)
    (fun r n m ⟨j, h⟩ ht _ => h.step hsm r ht) k r n ⟨j, h⟩
  refine ⟨v, h'.cnt.trans (add_le_add le_rfl ?_), h'.low⟩
  exact Multiset.replicate_le_replicate v |>.2 (by have := h'.room; omega)

theorem Snaps.integrate {cfg : Cfg C} {now : Int} {n : Node C P} {B : Nat} (hsm : cfg.smooth = true)
    (h : HInv cfg now n) (hs : Snaps B n) (hB : P.size n.queue ≤ B) : Snaps B (n.integrate cfg now) := by
  unfold Node.integrate
  split
  · rename_i first ht
    have fin : ∀ r : Node C P × Int, (∃ v j, SnapLoop B v j r.1) →
        Snaps B (if (Node.drain cfg now (P.size r.1.queue) r.2 r.1).filt.initialized && cfg.predictToCurrent
          then (Node.drain cfg now (P.size r.1.queue) r.2 r.1).predictTo now
          else Node.drain cfg now (P.size r.1.queue) r.2 r.1) := by
      rintro r ⟨v, j, hr⟩
      have := hr.drain hsm now (P.size r.1.queue) r.2
      split
      · exact this
      · exact this
    apply fin
    have hmin := P.top_min _ _ ht
    obtain ⟨v, hv, hlow⟩ := hs
    -- a node without snapshots can be given any number and stamp
    have bare : ∀ n1 : Node C P, n1.stateHist = [] → lateCount n1 ≤ B →
        ∃ v j, SnapLoop B v j n1 := by
      intro n1 e1 e2
      by_cases hin : n1.filt.initialized = true
      · exact ⟨n1.filt.lastTime, 0, by rw [e1]; exact Multiset.zero_le _, by rw [e1]; simp, by omega,
          by rw [if_pos hin], fun _ => rfl⟩
      · have hz : lateCount n1 = 0 := by unfold lateCount; rw [if_neg hin]
        cases htop : P.top n1.queue with
        | none =>
          refine ⟨0, 0, by rw [e1]; exact Multiset.zero_le _, by rw [e1]; simp, by omega, ?_, fun hc => absurd hz hc⟩
          rw [if_neg hin, (P.top_none _).1 htop]
          intro m hm
          exact absurd hm (Multiset.notMem_zero m)
        | some f =>
          refine ⟨f.time, 0, by rw [e1]; exact Multiset.zero_le _, by rw [e1]; simp, by omega, ?_,
            fun hc => absurd hz hc⟩
          rw [if_neg hin]
          exact P.top_min _ _ htop
    by_cases hlate : (cfg.smooth && decide (first.time < n.filt.lastTime)) = true
    · rw [if_pos hlate]
      simp only [Bool.and_eq_true, decide_eq_true_eq] at hlate
      obtain ⟨-, hlate⟩ := hlate
      dsimp only
      cases hrest : n.stateHist.dropWhile (fun s => decide (s.lastTime > first.time - 1)) with
      | cons s rest =>
        have er : (n.revertTo (first.time - 1)).1 =
            { n with
              stateHist := s :: rest
              measHist := n.measHist.dropWhile (fun m => decide (m.time > first.time - 1))
              queue := ((n.measHist.takeWhile (fun m => decide (m.time > first.time - 1))).filter
                (fun m => decide (s.lastTime ≤ m.time))).foldl P.push n.queue
              filt := ((n.filt.setState s.x).setCov s.cov).setLastTime s.lastTime } := by
          unfold Node.revertTo
          simp only [hrest]
        have hst : s.lastTime ≤ first.time - 1 := h.ssorted.dropWhile_le (first.time - 1) s (by rw [hrest]; simp)
        have hz : lateCount (n.revertTo (first.time - 1)).1 = 0 := by
          rw [er]
          unfold lateCount
          split
          · rw [Multiset.card_eq_zero, Multiset.filter_eq_nil]
            intro q hq
            dsimp only at hq
            rw [elems_foldl_push] at hq
            show ¬ q.time < s.lastTime
            rcases Multiset.mem_add.1 hq with hq | hq
            · have := takeWhile_gt (f := Meas.time) _ _ q (List.mem_filter.1 hq).1
              omega
            · have := hmin q hq
              omega
          · rfl
        have hvs : v ≤ s.lastTime := hlow s ((List.dropWhile_sublist _).subset (by rw [hrest]; simp))
        refine ⟨v, B, ?_, ?_, by omega, ?_, fun hc => absurd hz hc⟩
        · rw [er]
          dsimp only
          rw [← hrest, desc_dropWhile_filter h.ssorted, desc_dropWhile_filter h.msorted,
            map_filter_time Snap.lastTime (fun t => t ≤ first.time - 1),
            map_filter_time Meas.time (fun t => t ≤ first.time - 1)]
          refine (Multiset.filter_le_filter _ hv).trans ?_
          rw [Multiset.filter_add]
          exact add_le_add le_rfl (Multiset.filter_le _ _)
        · rw [er]
          intro x hx
          exact hlow x ((List.dropWhile_sublist _).subset (by rw [hrest]; exact hx))
        · have hin : (n.revertTo (first.time - 1)).1.filt.initialized = true := by
            rw [er]
            show n.filt.initialized = true
            by_contra hc
            have := h.uninit (by simpa using hc)
            rw [this] at hrest
            simp at hrest
          rw [if_pos hin, er]
          exact hvs
      | nil =>
        cases hp : (n.stateHist.takeWhile (fun s => decide (s.lastTime > first.time - 1))).getLast? with
        | none =>
          have er : (n.revertTo (first.time - 1)).1 = { n with stateHist := [] } := by
            unfold Node.revertTo
            simp only [hrest, hp]
          apply bare
          · rw [er]
          · rw [er]
            unfold lateCount
            split
            · exact (Multiset.card_le_card (Multiset.filter_le _ _)).trans hB
            · exact Nat.zero_le _
        | some s =>
          have er : (n.revertTo (first.time - 1)).1 =
              { n with
                stateHist := []
                measHist := n.measHist.dropWhile (fun m => decide (m.time > first.time - 1))
                queue := ((n.measHist.takeWhile (fun m => decide (m.time > first.time - 1))).filter
                  (fun m => decide (s.lastTime ≤ m.time))).foldl P.push n.queue
                filt := ((n.filt.setState s.x).setCov s.cov).setLastTime s.lastTime } := by
            unfold Node.revertTo
            simp only [hrest, hp]
          apply bare
          · rw [er]
          · rw [er]
            unfold lateCount
            split
            · dsimp only
              rw [elems_foldl_push, Multiset.filter_add]
              have hz : Multiset.filter (fun m => m.time < (((n.filt.setState s.x).setCov s.cov).setLastTime s.lastTime).lastTime)
                  (((n.measHist.takeWhile (fun m => decide (m.time > first.time - 1))).filter
                  (fun m => decide (s.lastTime ≤ m.time)) : List (Meas C)) : Multiset (Meas C)) = 0 := by
                rw [Multiset.filter_eq_nil]
                intro q hq
                have := (List.mem_filter.1 hq).2
                simp only [decide_eq_true_eq] at this
                show ¬ q.time < s.lastTime
                omega
              rw [hz, zero_add]
              exact (Multiset.card_le_card (Multiset.filter_le _ _)).trans hB
            · exact Nat.zero_le _
    · rw [if_neg hlate]
      show ∃ v j, SnapLoop B v j n
      have hnl : ¬ first.time < n.filt.lastTime := by simpa [hsm] using hlate
      have hz : lateCount n = 0 := by
        unfold lateCount
        split
        · rw [Multiset.card_eq_zero, Multiset.filter_eq_nil]
          intro q hq
          have := hmin q hq
          omega
        · rfl
      cases hsh : n.stateHist with
      | nil => exact bare n hsh (by omega)
      | cons s rest =>
        have hin : n.filt.initialized = true := by
          by_contra hc
          have := h.uninit (by simpa using hc)
          rw [this] at hsh
          simp at hsh
        have h1 := hlow s (by rw [hsh]; simp)
        have h2 := h.sle s (by rw [hsh]; simp)
        exact ⟨v, B, hv, hlow, by omega, by rw [if_pos hin]; omega, fun hc => absurd hz hc⟩
  · dsimp only
    split
    · exact hs
    · exact hs

theorem Snaps.clearExpired {cfg : Cfg C} {k : Int} {n : Node C P} {B : Nat} (h : HInv cfg k n) (hs : Snaps B n)
    (c : Int) : Snaps B (n.clearExpired c) := by
  obtain ⟨v, hv, hlow⟩ := hs
  refine ⟨v, ?_, fun s hs => hlow s ((List.rdropWhile_prefix _ _).sublist.subset hs)⟩
  unfold Node.clearExpired
  dsimp only
  rw [desc_expire_filter h.ssorted, desc_expire_filter h.msorted,
    map_filter_time Snap.lastTime (fun t => c ≤ t), map_filter_time Meas.time (fun t => c ≤ t)]
  refine (Multiset.filter_le_filter _ hv).trans ?_
  rw [Multiset.filter_add]
  exact add_le_add le_rfl (Multiset.filter_le _ _)

theorem Snaps.periodic {cfg : Cfg C} {k now now2 : Int} {n : Node C P} {B : Nat} (hsm : cfg.smooth = true)
    (h : HInv cfg k n) (h1 : k ≤ now) (h2 : now ≤ now2) (hs : Snaps B n) (hB : P.size n.queue ≤ B) (tfOk : Bool) :
    Snaps B (n.periodic cfg now now2 tfOk).1 := by
  by_cases he : n.enabled = true
  · obtain ⟨p, hp⟩ := Node.periodic_enabled cfg n now now2 tfOk he
    rw [hp, if_pos hsm]
    refine Snaps.clearExpired (((h.mono h1).advance h2).lastPub p) ?_ _
    show Snaps B (n.advance cfg now now2)
    unfold Node.advance
    split
    · exact hs.integrate hsm (h.mono h1) hB
    · exact hs
  · rw [Node.periodic_disabled cfg n now now2 tfOk (by simpa using he)]
    exact hs

/-- In this run never more than `B` messages wait when a cycle begins. -/
def AtMostWaiting (B : Nat) (cfg : Cfg C) (n : Node C P) (es : List (Node.Event C)) : Prop :=
  ∀ a b now now2 tfOk, es = a ++ .tick now now2 tfOk :: b → P.size (n.run cfg a).1.queue ≤ B

theorem Snaps.run {cfg : Cfg C} {B : Nat} (hsm : cfg.smooth = true) (es : List (Node.Event C)) :
    ∀ {k : Int} {n : Node C P}, HInv cfg k n → 0 ≤ k → Clocked k es → Snaps B n → AtMostWaiting B cfg n es →
      Snaps B (n.run cfg es).1 := by
  induction es with
  | nil => intro k n _ _ _ hs _; exact hs
  | cons e es ih =>
    intro k n h hk hc hs hB
    obtain ⟨h1, h2, h3⟩ := hc.cons
    have hB' : AtMostWaiting B cfg (n.step cfg e).1 es := by
      intro a b now now2 tfOk hab
      exact hB (e :: a) b now now2 tfOk (by rw [hab]; rfl)
    refine ih (h.step hk e h1) (by omega) h2 ?_ hB'
    cases e with
    | sensor topic stamp z =>
      obtain ⟨-, s2, s3, -⟩ := n.sensor_spec topic stamp z []
      show Snaps B (n.sensor topic stamp z)
      unfold Snaps
      rw [s2, s3]
      exact hs
    | control c t =>
      show Snaps B (n.control cfg c t)
      unfold Node.control
      split <;> exact hs
    | setPose stamp now r => exact ⟨0, Multiset.zero_le _, by simp [Node.step, Node.setPose]⟩
    | reset => exact ⟨0, Multiset.zero_le _, by simp [Node.step, Node.reset]⟩
    | toggle on =>
      show Snaps B (n.toggle on).1
      unfold Node.toggle
      split <;> exact hs
    | enable => exact hs
    | tick now now2 tfOk =>
      exact hs.periodic hsm h h1.1 h1.2.1 (hB [] es now now2 tfOk rfl) tfOk

/-- C106.  In every run of a smoothing node from start-up under a clock that does not go back, in which never more than
`B` messages wait when a cycle begins, the node keeps at most `B` more snapshots of the filter than it keeps
measurements. -/
theorem C106_snapshots_partial (cfg : Cfg C) (hsm : cfg.smooth = true) (ext0 : C.Ext) (fctl0 : C.Ctl) (k : Int)
    (hk : 0 ≤ k) (es : List (Node.Event C)) (hclk : Clocked k es) (B : Nat)
    (hB : AtMostWaiting B cfg (Node.start cfg P ext0 fctl0 k) es) :
    let n := ((Node.start cfg P ext0 fctl0 k).run cfg es).1
    n.stateHist.length ≤ n.measHist.length + B := by
  intro n
  obtain ⟨v, hv, -⟩ := Snaps.run hsm es (HInv.start cfg P ext0 fctl0 k) hk hclk
    ⟨0, Multiset.zero_le _, by simp [Node.start]⟩ hB
  have := Multiset.card_le_card hv
  simpa using this

/-- Three messages come to a smoothing node that has kept one snapshot, all older than the snapshot; when the history
of 25 has passed them only their snapshots are left. -/
def lateBatch : List (Node.Event Audit) :=
  [.sensor "a" 40 (some (1 : Int)), .tick 41 41 true, .sensor "b" 10 (some (2 : Int)), .sensor "b" 11 (some (3 : Int)),
   .sensor "b" 12 (some (4 : Int)), .tick 42 42 true, .sensor "a" 60 (some (5 : Int)), .tick 61 61 true]

/-- C106, why `B` more: late messages that find no older snapshot leave a snapshot each at the stamp of the filter,
which outlives the message. -/
theorem C106_more_snapshots_than_measurements :
    let cfg := auditCfg true 25 1000
    Clocked 0 lateBatch ∧ AtMostWaiting 3 cfg (auditNode cfg) lateBatch ∧
    ((auditNode cfg).run cfg lateBatch).1.measHist.map Meas.time = [60, 40] ∧
    ((auditNode cfg).run cfg lateBatch).1.stateHist.map Snap.lastTime = [60, 40, 40, 40] := by
  refine ⟨by simp [lateBatch, Clocked], ?_, rfl, rfl⟩
  intro a b now now2 tfOk h
  have hp : a <+: lateBatch := ⟨_, h.symm⟩
  rw [← List.mem_inits] at hp
  simp only [lateBatch, List.inits_cons, List.inits, List.map_cons, List.map_nil, List.mem_cons,
    List.not_mem_nil, or_false] at hp
  rcases hp with rfl | rfl | rfl | rfl | rfl | rfl | rfl | rfl | rfl
  all_goals decide

/-- `N` messages, one before each of `N` cycles. -/
def oneEach (z : C.Z) (N : Nat) : List (Node.Event C) :=
  (List.range N).flatMap fun i : Nat => [.sensor "a" ((i : Int) + 1) (some z), .tick ((i : Int) + 1) ((i : Int) + 1) true]

theorem oneEach_succ (z : C.Z) (N : Nat) : oneEach z (N + 1) = oneEach z N ++
    [.sensor "a" ((N : Int) + 1) (some z), .tick ((N : Int) + 1) ((N : Int) + 1) true] := by
  unfold oneEach
  rw [List.range_succ, List.flatMap_append, List.flatMap_cons, List.flatMap_nil, List.append_nil]

/-- C106, what is missing: a node that waits to be enabled (`disabled_at_startup`) stores every message, however many
cycles pass and however old they get. -/
theorem C106_disabled_node_stores_everything (cfg : Cfg C) (hd : cfg.disabledAtStartup = true) (ext0 : C.Ext)
    (fctl0 : C.Ctl) (z : C.Z) (N : Nat) :
    Clocked 0 (oneEach z N) ∧
    P.size ((Node.start cfg P ext0 fctl0 0).run cfg (oneEach z N)).1.queue = N := by
  have key : Clocked 0 (oneEach z N) ∧ clockAfter 0 (oneEach z N) = (N : Int) ∧
      (let n := ((Node.start cfg P ext0 fctl0 0).run cfg (oneEach z N)).1
       P.size n.queue = N ∧ n.enabled = false ∧ n.lastSetPose = 0 ∧ ∀ l, n.lastMsg "a" = some l → l ≤ (N : Int)) := by
    induction N with
    | zero =>
      refine ⟨trivial, rfl, ?_, ?_, rfl, ?_⟩
      · show Multiset.card (P.elems P.empty) = 0
        rw [P.elems_empty]; rfl
      · show (!cfg.disabledAtStartup) = false
        rw [hd]; rfl
      · intro l hl
        exact absurd (show (none : Option Int) = some l from hl) (by simp)
    | succ N ih =>
      obtain ⟨i1, i2, i3, i4, i5, i6⟩ := ih
      rw [oneEach_succ]
      have app : ∀ (a b : List (Node.Event C)) (k : Int), Clocked k a → Clocked (clockAfter k a) b →
          Clocked k (a ++ b) ∧ clockAfter k (a ++ b) = clockAfter (clockAfter k a) b := by
        intro a
        induction a with
        | nil => intro b k _ h; exact ⟨h, rfl⟩
        | cons e a ih =>
          intro b k h1 h2
          obtain ⟨j1, j2, -⟩ := Clocked.cons h1
          rw [clockAfter_cons] at h2
          obtain ⟨l1, l2⟩ := ih b _ j2 h2
          refine ⟨?_, by rw [List.cons_append, clockAfter_cons, l2, ← clockAfter_cons]⟩
          cases e with
          | tick x y z => exact ⟨j1.1, j1.2.1, l1⟩
          | setPose x y z => exact ⟨j1.1, l1⟩
          | _ => exact l1
      obtain ⟨a1, a2⟩ := app (oneEach z N)
        [.sensor "a" ((N : Int) + 1) (some z), .tick ((N : Int) + 1) ((N : Int) + 1) true] 0 i1
        (by rw [i2]; exact ⟨by omega, Int.le_refl _, trivial⟩)
      refine ⟨a1, by rw [a2]; show (N : Int) + 1 = _; push_cast; rfl, ?_⟩
      rw [run_append_fst]
      generalize ((Node.start cfg P ext0 fctl0 0).run cfg (oneEach z N)).1 = n at i3 i4 i5 i6
      have hs : n.sensor "a" ((N : Int) + 1) (some z) =
          { n.enqueue "a" z ((N : Int) + 1) with
            lastMsg := fun t => if t = "a" then some ((N : Int) + 1) else n.lastMsg t } := by
        unfold Node.sensor
        rw [if_neg (by rw [i5]; omega)]
        dsimp only
        rw [if_pos]
        · rfl
        · cases hl : n.lastMsg "a" with
          | none => exact Int.le_refl _
          | some l => have := i6 l hl; show l ≤ _; omega
      have hr : (n.run cfg [.sensor "a" ((N : Int) + 1) (some z), .tick ((N : Int) + 1) ((N : Int) + 1) true]).1 =
          n.sensor "a" ((N : Int) + 1) (some z) := by
        show ((n.sensor "a" ((N : Int) + 1) (some z)).periodic cfg _ _ true).1 = _
        rw [Node.periodic_disabled]
        rw [hs]
        exact i4
      rw [hr, hs]
      refine ⟨?_, i4, i5, ?_⟩
      · show Multiset.card (P.elems (P.push n.queue _)) = N + 1
        rw [P.elems_push, Multiset.card_cons]
        exact congrArg (· + 1) i3
      · intro l hl
        have : some ((N : Int) + 1) = some l := by simpa using hl
        simp only [Option.some.injEq] at this
        push_cast
        omega
  exact ⟨key.1, key.2.2.1⟩

/-- Meeting the hypotheses: seven messages and three cycles; after the last cycle the node keeps two of the first six,
and one message came after it. -/
example :
    let cfg := auditCfg true 25 1000
    let es := lateBatch.take 7
    let n := ((auditNode cfg).run cfg es).1
    let n' := (n.periodic cfg 61 61 true).1
    let n'' := (n'.run cfg [.sensor "a" 70 (some (6 : Int))]).1
    0 ≤ cfg.historyLength ∧ Clocked 0 (es ++ [.tick 61 61 true]) ∧ n.enabled = true ∧
    sentStamps es = [40, 10, 11, 12, 60] ∧ n'.filt.lastTime = 60 ∧
    n''.queue.1.map Meas.time = [70] ∧ n''.measHist.map Meas.time = [60, 40] := by
  refine ⟨by decide, by simp [lateBatch, Clocked], rfl, rfl, rfl, rfl, rfl⟩

end RL
