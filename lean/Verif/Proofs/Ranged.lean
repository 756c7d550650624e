import Verif.Model.Overflow
import Verif.Proofs.NodeTimes
/-! # Times that fit into 64 bits stay so -/

namespace RL
variable {C : Core} {P : MQueue C}

/-- A time from the epoch on that an `int64_t` can hold. -/
def Int64Time (t : Int) : Prop := 0 ≤ t ∧ t ≤ 9223372036854775807

theorem subX_fits {a b : Int} (ha : Int64Time a) (hb : Int64Time b) : subX a b = some (a - b) := by
  unfold subX fits
  rw [if_pos]
  unfold Int64Time at ha hb
  simp only [decide_eq_true_eq]
  omega

/-- Every time in the node is of this kind. -/
structure Ranged (n : Node C P) : Prop where
  last : Int64Time n.filt.lastTime
  fctl : Int64Time n.filt.ctlTime
  nctl : Int64Time n.ctlTime
  queue : ∀ m ∈ P.elems n.queue, Int64Time m.time ∧ Int64Time m.ctlTime
  hist : ∀ m ∈ n.measHist, Int64Time m.time ∧ Int64Time m.ctlTime
  snaps : ∀ s ∈ n.stateHist, Int64Time s.lastTime

/-- The times of an event. -/
def Node.Event.Ranged (cfg : Cfg C) : Node.Event C → Prop
  | .sensor _ stamp _ => Int64Time stamp
  | .control _ stamp => cfg.useControl = true → Int64Time stamp
  | .setPose _ now _ => Int64Time now
  | .tick now now2 _ => Int64Time now ∧ Int64Time now2
  | _ => True

variable {cfg : Cfg C}

theorem Filt.predictX_eq (ctl : Bool) {f : Filt C} {ref delta : Int} (hr : Int64Time ref) (hf : Int64Time f.ctlTime) :
    f.predictX ctl ref delta = some (f.predict ref delta) := by
  unfold Filt.predictX
  split
  · rw [subX_fits hr hf]; rfl
  · rfl

theorem Filt.processX_eq (ctl : Bool) {f : Filt C} {m : Meas C} (hm : Int64Time m.time) (hl : Int64Time f.lastTime)
    (hc : Int64Time f.ctlTime) : f.processX ctl m = some (f.processMeasurement m) := by
  unfold Filt.processX Filt.processMeasurement
  split
  · rw [subX_fits hm hl]
    dsimp only
    rw [Filt.predictX_eq ctl hm hc]
    by_cases hd : m.time - f.lastTime > 0
    · rw [if_pos hd, if_pos hd]; rfl
    · rw [if_neg hd, if_neg hd]
  · rfl

theorem Filt.processMeasurement_ctlTime (f : Filt C) (m : Meas C) : (f.processMeasurement m).ctlTime = f.ctlTime := by
  unfold Filt.processMeasurement
  split
  · dsimp only
    split <;> split <;> rfl
  · rfl

/-- One turn of the loop. -/
theorem Ranged.drainStep {n : Node C P} (hn : Ranged n) (r : Int) {m : Meas C} (ht : P.top n.queue = some m) :
    Ranged (Node.drainStep cfg r n m) ∧
      (if cfg.useControl && decide (r > 0) then n.filt.setControl m.ctl m.ctlTime else n.filt).processX cfg.useControl m =
        some (Node.drainStep cfg r n m).filt := by
  have hm := hn.queue m (Node.top_mem ht)
  have hl : Int64Time (if cfg.useControl && decide (r > 0) then n.filt.setControl m.ctl m.ctlTime else n.filt).lastTime := by
    split
    · exact hn.last
    · exact hn.last
  have hc : Int64Time (if cfg.useControl && decide (r > 0) then n.filt.setControl m.ctl m.ctlTime else n.filt).ctlTime := by
    split
    · exact hm.2
    · exact hn.fctl
  have e := Filt.processX_eq cfg.useControl hm.1 hl hc
  have hlt : Int64Time (Node.drainStep cfg r n m).filt.lastTime := by
    show Int64Time ((if cfg.useControl && decide (r > 0) then n.filt.setControl m.ctl m.ctlTime else n.filt).processMeasurement m).lastTime
    generalize (if cfg.useControl && decide (r > 0) then n.filt.setControl m.ctl m.ctlTime else n.filt) = f at hl
    rw [Filt.processMeasurement_lastTime]
    unfold Int64Time at hl hm ⊢
    have := hm.1
    split <;> omega
  refine ⟨⟨hlt, ?_, hn.nctl, fun m' hm' => hn.queue m' (Node.mem_pop ht hm'), ?_, ?_⟩, e⟩
  · show Int64Time ((if cfg.useControl && decide (r > 0) then n.filt.setControl m.ctl m.ctlTime else n.filt).processMeasurement m).ctlTime
    rw [Filt.processMeasurement_ctlTime]
    exact hc
  · intro m' hm'
    have e : (Node.drainStep cfg r n m).measHist = if cfg.smooth then m :: n.measHist else n.measHist := rfl
    rw [e] at hm'
    split at hm'
    · rcases List.mem_cons.1 hm' with rfl | h'
      · exact hm
      · exact hn.hist m' h'
    · exact hn.hist m' hm'
  · intro s hs
    rcases Node.drainStep_stateHist cfg r n m with e | e
    · rw [e] at hs
      rcases List.mem_cons.1 hs with rfl | hs
      · exact hlt
      · exact hn.snaps s hs
    · rw [e] at hs; exact hn.snaps s hs

theorem Ranged.drain (now : Int) (k : ℕ) : ∀ {n : Node C P}, Ranged n → ∀ r : Int,
    Node.drainX cfg now k r n = some (Node.drain cfg now k r n) ∧ Ranged (Node.drain cfg now k r n) := by
  induction k with
  | zero => intro n hn r; exact ⟨rfl, hn⟩
  | succ k ih =>
    intro n hn r
    cases ht : P.top n.queue with
    | none => rw [Node.drain_none _ _ _ _ _ ht]; exact ⟨by simp [Node.drainX, ht], hn⟩
    | some m =>
      by_cases hm : now < m.time
      · rw [Node.drain_future _ _ _ _ _ _ ht hm]; exact ⟨by simp [Node.drainX, ht, hm], hn⟩
      · obtain ⟨h1, h2⟩ := hn.drainStep (cfg := cfg) r ht
        obtain ⟨h3, h4⟩ := ih h1 (if cfg.useControl && decide (r > 0) then r - 1 else r)
        rw [Node.drain_step _ _ _ _ _ _ ht hm]
        refine ⟨?_, h4⟩
        rw [← h3, Node.drainX]
        simp only [ht, if_neg hm, h2]
        rfl

theorem Ranged.predictTo {n : Node C P} (hn : Ranged n) (ctl : Bool) {now : Int} (ht : Int64Time now) :
    n.predictToX ctl now = some (n.predictTo now) ∧ Ranged (n.predictTo now) := by
  have hs := subX_fits ht hn.last
  have hp := Filt.predictX_eq ctl (delta := now - n.filt.lastTime) ht hn.fctl
  have hl : n.filt.lastTime + (now - n.filt.lastTime) = now := by omega
  have ha : addX n.filt.lastTime (now - n.filt.lastTime) = some (n.filt.lastTime + (now - n.filt.lastTime)) := by
    unfold addX fits
    rw [if_pos]
    unfold Int64Time at ht
    simp only [decide_eq_true_eq]
    omega
  refine ⟨?_, ⟨?_, hn.fctl, hn.nctl, hn.queue, hn.hist, hn.snaps⟩⟩
  · unfold Node.predictToX
    simp only [hs, hp]
    have : (n.filt.predict now (now - n.filt.lastTime)).lastTime = n.filt.lastTime := rfl
    rw [this, ha]
    rfl
  · show Int64Time (n.filt.lastTime + (now - n.filt.lastTime))
    rw [hl]
    exact ht

theorem Ranged.revertTo {n : Node C P} (hn : Ranged n) (t : Int) : Ranged (n.revertTo t).1 := by
  unfold Node.revertTo
  have hrest : ∀ s ∈ n.stateHist.dropWhile (fun s => decide (s.lastTime > t)), s ∈ n.stateHist :=
    fun s hs => (List.dropWhile_sublist _).subset hs
  dsimp only
  split
  · exact ⟨hn.last, hn.fctl, hn.nctl, hn.queue, hn.hist, fun s hs => hn.snaps s (hrest s hs)⟩
  · rename_i s hs
    have hmem : s ∈ n.stateHist := by
      cases hr : n.stateHist.dropWhile (fun s => decide (s.lastTime > t)) with
      | nil =>
        rw [hr] at hs
        exact (List.takeWhile_sublist _).subset (List.mem_of_getLast? hs)
      | cons s' r =>
        rw [hr] at hs
        cases hs
        exact hrest s (by rw [hr]; exact List.mem_cons_self)
    refine ⟨hn.snaps s hmem, hn.fctl, hn.nctl, ?_, ?_, fun s hs => hn.snaps s (hrest s hs)⟩
    · intro m hm
      change m ∈ P.elems (List.foldl P.push n.queue _) at hm
      rw [elems_foldl_push] at hm
      rcases Multiset.mem_add.1 hm with hm | hm
      · exact hn.hist m ((List.takeWhile_sublist _).subset (List.mem_of_mem_filter (Multiset.mem_coe.1 hm)))
      · exact hn.queue m hm
    · intro m hm
      exact hn.hist m ((List.dropWhile_sublist _).subset hm)

theorem Ranged.integrate {n : Node C P} (hn : Ranged n) {now : Int} (ht : Int64Time now) :
    n.integrateX cfg now = some (n.integrate cfg now) ∧ Ranged (n.integrate cfg now) := by
  unfold Node.integrateX Node.integrate
  cases htop : P.top n.queue with
  | some first =>
    have hm := (hn.queue first (Node.top_mem htop)).1
    have hs : subX first.time 1 = some (first.time - 1) := subX_fits hm ⟨by decide, by decide⟩
    have rest : ∀ (r : Node C P × Int), Ranged r.1 →
        (match Node.drainX cfg now (P.size r.1.queue) r.2 r.1 with
          | none => none
          | some n1 => if n1.filt.initialized && cfg.predictToCurrent then n1.predictToX cfg.useControl now else some n1) =
          some (if (Node.drain cfg now (P.size r.1.queue) r.2 r.1).filt.initialized && cfg.predictToCurrent
            then (Node.drain cfg now (P.size r.1.queue) r.2 r.1).predictTo now
            else Node.drain cfg now (P.size r.1.queue) r.2 r.1) ∧
        Ranged (if (Node.drain cfg now (P.size r.1.queue) r.2 r.1).filt.initialized && cfg.predictToCurrent
            then (Node.drain cfg now (P.size r.1.queue) r.2 r.1).predictTo now
            else Node.drain cfg now (P.size r.1.queue) r.2 r.1) := by
      intro r hr
      obtain ⟨h1, h2⟩ := hr.drain (cfg := cfg) now (P.size r.1.queue) r.2
      rw [h1]
      dsimp only
      split
      · exact h2.predictTo cfg.useControl ht
      · exact ⟨rfl, h2⟩
    dsimp only
    by_cases hb : (cfg.smooth && decide (first.time < n.filt.lastTime)) = true
    · simp only [hb, if_true, hs, Option.map_some]
      exact rest ((n.revertTo (first.time - 1)).1, _) (hn.revertTo _)
    · simp only [hb]
      exact rest (n, 0) hn
  | none =>
    have hs := subX_fits ht hn.last
    dsimp only
    by_cases hi : n.filt.initialized = true
    · simp only [hi, if_true, hs, Bool.true_and]
      split
      · exact hn.predictTo cfg.useControl ht
      · exact ⟨rfl, hn⟩
    · simp only [hi]
      exact ⟨rfl, hn⟩

theorem Ranged.advance {n : Node C P} (hn : Ranged n) {now now2 : Int} (ht : Int64Time now) (ht2 : Int64Time now2) :
    n.advanceX cfg now now2 = some (n.advance cfg now now2) ∧ Ranged (n.advance cfg now now2) := by
  unfold Node.advanceX Node.advance
  split
  · exact hn.integrate ht
  · refine ⟨rfl, ?_, ?_, hn.nctl, ?_, hn.hist, hn.snaps⟩
    · dsimp only
      split
      · exact ht2
      · exact hn.last
    · dsimp only
      split
      · exact hn.fctl
      · exact hn.fctl
    · intro m hm
      rw [P.elems_empty] at hm
      exact absurd hm (Multiset.notMem_zero m)

theorem Node.publish_filt (cfg : Cfg C) (n : Node C P) (tfOk : Bool) : (n.publish cfg tfOk).1.filt = n.filt := by
  unfold Node.publish
  split <;> rfl

theorem Ranged.publish {n : Node C P} (hn : Ranged n) (tfOk : Bool) : Ranged (n.publish cfg tfOk).1 := by
  unfold Node.publish
  split
  · exact ⟨hn.last, hn.fctl, hn.nctl, hn.queue, hn.hist, hn.snaps⟩
  · exact hn

theorem Ranged.clear {n : Node C P} (hn : Ranged n) (t : Int) : Ranged (n.clearExpired t) :=
  ⟨hn.last, hn.fctl, hn.nctl, hn.queue, fun m hm => hn.hist m ((List.rdropWhile_prefix _ _).subset hm),
    fun s hs => hn.snaps s ((List.rdropWhile_prefix _ _).subset hs)⟩

/-- A cycle: all that can go wrong is the stamp of the transform. -/
theorem Ranged.periodic {n : Node C P} (hn : Ranged n) {now now2 : Int} (ht : Int64Time now) (ht2 : Int64Time now2) (tfOk : Bool)
    (offset : Int) (hh : Int64Time cfg.historyLength) :
    Ranged (n.periodic cfg now now2 tfOk).1 ∧
      n.periodicX cfg offset now now2 tfOk =
        if n.enabled && (n.advance cfg now now2).filt.initialized && !fits ((n.advance cfg now now2).filt.lastTime + offset)
        then none else some (n.periodic cfg now now2 tfOk) := by
  unfold Node.periodicX Node.periodic
  cases he : n.enabled with
  | false => exact ⟨hn, rfl⟩
  | true =>
    obtain ⟨h1, h2⟩ := hn.advance (cfg := cfg) ht ht2
    have h3 := h2.publish (cfg := cfg) tfOk
    have hs : subX ((n.advance cfg now now2).publish cfg tfOk).1.filt.lastTime cfg.historyLength = some _ :=
      subX_fits h3.last hh
    simp only [Bool.not_true, Bool.false_eq_true, if_false, h1, Bool.true_and]
    constructor
    · split
      · exact h3.clear _
      · exact h3
    · cases hi : (n.advance cfg now now2).filt.initialized with
      | false =>
        simp only [Bool.false_eq_true, if_false, Bool.false_and]
        split
        · rw [hs]; rfl
        · rfl
      | true =>
        simp only [if_true, Bool.true_and, addX]
        cases hf : fits ((n.advance cfg now now2).filt.lastTime + offset) with
        | false => simp
        | true =>
          simp only [if_true, Bool.not_true, Bool.false_eq_true, if_false]
          split
          · rw [hs]; rfl
          · rfl

theorem Ranged.step {n : Node C P} (hn : Ranged n) (e : Node.Event C) (he : e.Ranged cfg) (hh : Int64Time cfg.historyLength) :
    Ranged (n.step cfg e).1 := by
  cases e with
  | tick now now2 tfOk => exact (hn.periodic he.1 he.2 tfOk 0 hh).1
  | sensor topic stamp z =>
    show Ranged (n.sensor topic stamp z)
    unfold Node.sensor
    split
    · exact hn
    · dsimp only
      split
      · cases z with
        | none => exact ⟨hn.last, hn.fctl, hn.nctl, hn.queue, hn.hist, hn.snaps⟩
        | some z =>
          refine ⟨hn.last, hn.fctl, hn.nctl, ?_, hn.hist, hn.snaps⟩
          intro m hm
          change m ∈ P.elems (P.push n.queue _) at hm
          rw [P.elems_push] at hm
          rcases Multiset.mem_cons.1 hm with rfl | hm
          · exact ⟨he, hn.nctl⟩
          · exact hn.queue m hm
      · exact hn
  | control c t =>
    show Ranged (n.control cfg c t)
    unfold Node.control
    split
    · rename_i hu
      exact ⟨hn.last, he hu, he hu, hn.queue, hn.hist, hn.snaps⟩
    · exact hn
  | setPose stamp now r =>
    refine ⟨he, hn.fctl, hn.nctl, ?_, ?_, ?_⟩
    · intro m hm
      change m ∈ P.elems P.empty at hm
      rw [P.elems_empty] at hm
      exact absurd hm (Multiset.notMem_zero m)
    · intro m hm; simp [Node.step, Node.setPose] at hm
    · intro m hm; simp [Node.step, Node.setPose] at hm
  | reset =>
    have h0 : Int64Time 0 := ⟨by decide, by decide⟩
    refine ⟨h0, hn.fctl, h0, ?_, ?_, ?_⟩
    · intro m hm
      change m ∈ P.elems P.empty at hm
      rw [P.elems_empty] at hm
      exact absurd hm (Multiset.notMem_zero m)
    · intro m hm; simp [Node.step, Node.reset] at hm
    · intro m hm; simp [Node.step, Node.reset] at hm
  | toggle on =>
    show Ranged (n.toggle on).1
    unfold Node.toggle
    split
    · exact hn
    · exact ⟨hn.last, hn.fctl, hn.nctl, hn.queue, hn.hist, hn.snaps⟩
  | enable => exact ⟨hn.last, hn.fctl, hn.nctl, hn.queue, hn.hist, hn.snaps⟩

theorem Ranged.start (cfg : Cfg C) (P : MQueue C) (ext0 : C.Ext) (fctl0 : C.Ctl) {now : Int} (hnow : Int64Time now) :
    Ranged (Node.start cfg P ext0 fctl0 now) := by
  have h0 : Int64Time 0 := ⟨by decide, by decide⟩
  refine ⟨hnow, h0, h0, ?_, ?_, ?_⟩
  · intro m hm
    change m ∈ P.elems P.empty at hm
    rw [P.elems_empty] at hm
    exact absurd hm (Multiset.notMem_zero m)
  · intro m hm; simp [Node.start] at hm
  · intro m hm; simp [Node.start] at hm

end RL
