import Verif.Proofs.NodeInv
/-! # Where the times in a node come from -/

namespace RL
variable {C : Core} {P : MQueue C}

/-- Every time the node may show or go back to is one of `T`. -/
structure TInv (T : Int → Prop) (n : Node C P) : Prop where
  clock : n.filt.initialized = true → T n.filt.lastTime
  queue : ∀ m ∈ P.elems n.queue, T m.time
  hist : ∀ m ∈ n.measHist, T m.time
  snaps : ∀ s ∈ n.stateHist, T s.lastTime
  uninit : n.filt.initialized = false → n.stateHist = []

/-- The times an event brings. -/
def Node.Event.In (T : Int → Prop) : Node.Event C → Prop
  | .sensor _ stamp _ => T stamp
  | .setPose _ now _ => T now
  | .tick now now2 _ => T now ∧ T now2
  | _ => True

variable {cfg : Cfg C} {T : Int → Prop}

theorem TInv.drainStep {n : Node C P} (hn : TInv T n) (r : Int) {m : Meas C} (ht : P.top n.queue = some m) :
    TInv T (Node.drainStep cfg r n m) := by
  have hm := hn.queue m (Node.top_mem ht)
  have hf : ∃ f0 : Filt C, f0.lastTime = n.filt.lastTime ∧ f0.initialized = n.filt.initialized ∧
      (Node.drainStep cfg r n m).filt = f0.processMeasurement m := by
    by_cases hd : (cfg.useControl && decide (r > 0)) = true
    · exact ⟨n.filt.setControl m.ctl m.ctlTime, rfl, rfl, by simp [Node.drainStep, hd]⟩
    · exact ⟨n.filt, rfl, rfl, by simp only [Node.drainStep, hd]; rfl⟩
  obtain ⟨f0, h1, h0, h2⟩ := hf
  have hi : (Node.drainStep cfg r n m).filt.initialized = true := by
    rw [h2]; exact Filt.processMeasurement_initialized _ _
  have hc : T (Node.drainStep cfg r n m).filt.lastTime := by
    rw [h2, Filt.processMeasurement_lastTime, h1, h0]
    split
    · rename_i hh
      rcases (by omega : max n.filt.lastTime m.time = n.filt.lastTime ∨ max n.filt.lastTime m.time = m.time) with e | e <;> rw [e]
      · exact hn.clock hh
      · exact hm
    · exact hm
  refine ⟨fun _ => hc, fun m' hm' => hn.queue m' (Node.mem_pop ht hm'), ?_, ?_, fun h5 => absurd (h5.symm.trans hi) (by simp)⟩
  · intro m' hm'
    have e : (Node.drainStep cfg r n m).measHist = if cfg.smooth then m :: n.measHist else n.measHist := rfl
    rw [e] at hm'
    split at hm'
    · rcases List.mem_cons.1 hm' with rfl | h'
      · exact hm
      · exact hn.hist m' h'
    · exact hn.hist m' hm'
  · intro s hs
    rcases Node.drainStep_stateHist cfg r n m with e | e
    · rw [e] at hs
      rcases List.mem_cons.1 hs with rfl | hs
      · exact hc
      · exact hn.snaps s hs
    · rw [e] at hs; exact hn.snaps s hs

theorem TInv.predictTo {n : Node C P} (hn : TInv T n) {now : Int} (hi : n.filt.initialized = true) (ht : T now) :
    TInv T (n.predictTo now) := by
  refine ⟨fun _ => ?_, hn.queue, hn.hist, hn.snaps, fun h5 => absurd (h5.symm.trans hi) (by simp)⟩
  have e : (n.predictTo now).filt.lastTime = n.filt.lastTime + (now - n.filt.lastTime) := rfl
  rw [e, show n.filt.lastTime + (now - n.filt.lastTime) = now by omega]
  exact ht

theorem TInv.revertTo {n : Node C P} (hn : TInv T n) (t : Int) : TInv T (n.revertTo t).1 := by
  unfold Node.revertTo
  have hrest : ∀ s ∈ n.stateHist.dropWhile (fun s => decide (s.lastTime > t)), s ∈ n.stateHist :=
    fun s hs => (List.dropWhile_sublist _).subset hs
  dsimp only
  split
  · exact ⟨hn.clock, hn.queue, hn.hist, fun s hs => hn.snaps s (hrest s hs), fun h5 => by
      show n.stateHist.dropWhile _ = []
      rw [hn.uninit h5]; rfl⟩
  · rename_i s hs
    have hmem : s ∈ n.stateHist := by
      cases hr : n.stateHist.dropWhile (fun s => decide (s.lastTime > t)) with
      | nil =>
        rw [hr] at hs
        exact (List.takeWhile_sublist _).subset (List.mem_of_getLast? hs)
      | cons s' r =>
        rw [hr] at hs
        cases hs
        exact hrest s (by rw [hr]; exact List.mem_cons_self)
    have hi : n.filt.initialized = true := by
      cases hh : n.filt.initialized with
      | true => rfl
      | false => rw [hn.uninit hh] at hmem; simp at hmem
    refine ⟨fun _ => hn.snaps s hmem, ?_, ?_, fun s hs => hn.snaps s (hrest s hs), fun h5 => absurd (h5.symm.trans hi) (by simp)⟩
    · intro m hm
      change m ∈ P.elems (List.foldl P.push n.queue _) at hm
      rw [elems_foldl_push] at hm
      rcases Multiset.mem_add.1 hm with hm | hm
      · exact hn.hist m ((List.takeWhile_sublist _).subset (List.mem_of_mem_filter (Multiset.mem_coe.1 hm)))
      · exact hn.queue m hm
    · intro m hm
      exact hn.hist m ((List.dropWhile_sublist _).subset hm)

theorem TInv.integrate {n : Node C P} (hn : TInv T n) {now : Int} (ht : T now) : TInv T (n.integrate cfg now) := by
  unfold Node.integrate
  split
  · have drain : ∀ (r : Node C P × Int), TInv T r.1 →
        TInv T (if (Node.drain cfg now (P.size r.1.queue) r.2 r.1).filt.initialized && cfg.predictToCurrent
          then (Node.drain cfg now (P.size r.1.queue) r.2 r.1).predictTo now
          else Node.drain cfg now (P.size r.1.queue) r.2 r.1) := by
      intro r hr
      have := Node.drain_induct cfg now (TInv T) (fun r n m hn ht hm => hn.drainStep r ht) (P.size r.1.queue) r.2 r.1 hr
      split
      · rename_i hc
        simp only [Bool.and_eq_true] at hc
        exact this.predictTo hc.1 ht
      · exact this
    apply drain
    split
    · exact hn.revertTo _
    · exact hn
  · dsimp only
    split
    · rename_i hc
      simp only [Bool.and_eq_true] at hc
      exact hn.predictTo hc.1 ht
    · exact hn

theorem TInv.advance {n : Node C P} (hn : TInv T n) {now now2 : Int} (ht : T now) (ht2 : T now2) :
    TInv T (n.advance cfg now now2) := by
  unfold Node.advance
  split
  · exact hn.integrate ht
  · refine ⟨?_, ?_, hn.hist, hn.snaps, ?_⟩
    · dsimp only
      split
      · exact fun _ => ht2
      · exact hn.clock
    · intro m hm
      rw [P.elems_empty] at hm
      exact absurd hm (Multiset.notMem_zero m)
    · dsimp only
      split
      · exact hn.uninit
      · exact hn.uninit

/-- The stamp of what is sent. -/
def Out.stamp : Out C → Int
  | .odom t _ _ => t
  | .tf t => t
  | .accel t => t

theorem Node.publish_stamps (cfg : Cfg C) (n : Node C P) (tfOk : Bool) :
    ∀ o ∈ (n.publish cfg tfOk).2, n.filt.initialized = true ∧ o.stamp = n.filt.lastTime := by
  intro o ho
  unfold Node.publish at ho
  by_cases hi : n.filt.initialized = true
  · refine ⟨hi, ?_⟩
    simp only [hi, if_true] at ho
    rcases List.mem_append.1 ho with ho | ho
    · rcases List.mem_append.1 ho with ho | ho
      · split at ho
        · rw [List.mem_singleton.1 ho]; rfl
        · simp at ho
      · split at ho
        · rw [List.mem_singleton.1 ho]; rfl
        · simp at ho
    · split at ho
      · rw [List.mem_singleton.1 ho]; rfl
      · simp at ho
  · simp [hi] at ho

theorem TInv.periodic {n : Node C P} (hn : TInv T n) {now now2 : Int} (ht : T now) (ht2 : T now2) (tfOk : Bool) :
    TInv T (n.periodic cfg now now2 tfOk).1 ∧ ∀ o ∈ (n.periodic cfg now now2 tfOk).2, T o.stamp := by
  by_cases he : n.enabled = true
  · have ha := hn.advance (cfg := cfg) ht ht2
    obtain ⟨p, hp⟩ := Node.periodic_enabled cfg n now now2 tfOk he
    constructor
    · rw [hp]
      split
      · refine ⟨ha.clock, ha.queue, fun m hm => ha.hist m ?_, fun s hs => ha.snaps s ?_, fun h5 => ?_⟩
        · exact (List.rdropWhile_prefix _ _).subset hm
        · exact (List.rdropWhile_prefix _ _).subset hs
        · show (n.advance cfg now now2).stateHist.rdropWhile _ = []
          rw [ha.uninit h5]; rfl
      · exact ⟨ha.clock, ha.queue, ha.hist, ha.snaps, ha.uninit⟩
    · intro o ho
      have e : (n.periodic cfg now now2 tfOk).2 = ((n.advance cfg now now2).publish cfg tfOk).2 := by
        simp [Node.periodic, he]
      rw [e] at ho
      obtain ⟨h1, h2⟩ := Node.publish_stamps cfg _ tfOk o ho
      rw [h2]
      exact ha.clock h1
  · rw [Node.periodic_disabled cfg n now now2 tfOk (by simpa using he)]
    exact ⟨hn, by intro o ho; simp at ho⟩

theorem TInv.step {n : Node C P} (hn : TInv T n) (e : Node.Event C) (he : e.In T) :
    TInv T (n.step cfg e).1 ∧ ∀ o ∈ (n.step cfg e).2, T o.stamp := by
  cases e with
  | tick now now2 tfOk => exact hn.periodic he.1 he.2 tfOk
  | sensor topic stamp z =>
    refine ⟨?_, by intro o ho; simp [Node.step] at ho⟩
    show TInv T (n.sensor topic stamp z)
    unfold Node.sensor
    split
    · exact hn
    · dsimp only
      split
      · cases z with
        | none => exact ⟨hn.clock, hn.queue, hn.hist, hn.snaps, hn.uninit⟩
        | some z =>
          refine ⟨hn.clock, ?_, hn.hist, hn.snaps, hn.uninit⟩
          intro m hm
          change m ∈ P.elems (P.push n.queue _) at hm
          rw [P.elems_push] at hm
          rcases Multiset.mem_cons.1 hm with rfl | hm
          · exact he
          · exact hn.queue m hm
      · exact hn
  | control c t =>
    refine ⟨?_, by intro o ho; simp [Node.step] at ho⟩
    show TInv T (n.control cfg c t)
    unfold Node.control
    split
    · exact ⟨hn.clock, hn.queue, hn.hist, hn.snaps, hn.uninit⟩
    · exact hn
  | setPose stamp now r =>
    refine ⟨⟨fun _ => he, ?_, ?_, ?_, fun _ => rfl⟩, by intro o ho; simp [Node.step] at ho⟩
    · intro m hm
      change m ∈ P.elems P.empty at hm
      rw [P.elems_empty] at hm
      exact absurd hm (Multiset.notMem_zero m)
    · intro m hm; simp [Node.step, Node.setPose] at hm
    · intro m hm; simp [Node.step, Node.setPose] at hm
  | reset =>
    refine ⟨⟨fun h5 => Bool.noConfusion h5, ?_, ?_, ?_, fun _ => rfl⟩, by intro o ho; simp [Node.step] at ho⟩
    · intro m hm
      change m ∈ P.elems P.empty at hm
      rw [P.elems_empty] at hm
      exact absurd hm (Multiset.notMem_zero m)
    · intro m hm; simp [Node.step, Node.reset] at hm
    · intro m hm; simp [Node.step, Node.reset] at hm
  | toggle on =>
    refine ⟨?_, by intro o ho; simp [Node.step] at ho⟩
    show TInv T (n.toggle on).1
    unfold Node.toggle
    split
    · exact hn
    · exact ⟨hn.clock, hn.queue, hn.hist, hn.snaps, hn.uninit⟩
  | enable => exact ⟨⟨hn.clock, hn.queue, hn.hist, hn.snaps, hn.uninit⟩, by intro o ho; simp [Node.step] at ho⟩

theorem TInv.run (es : List (Node.Event C)) : ∀ {n : Node C P}, TInv T n → (∀ e ∈ es, e.In T) →
    TInv T (n.run cfg es).1 ∧ ∀ o ∈ (n.run cfg es).2, T o.stamp := by
  induction es with
  | nil => intro n hn _; exact ⟨hn, by intro o ho; simp [Node.run] at ho⟩
  | cons e es ih =>
    intro n hn he
    obtain ⟨s1, s2⟩ := hn.step (cfg := cfg) e (he e List.mem_cons_self)
    obtain ⟨r1, r2⟩ := ih s1 (fun e' h' => he e' (List.mem_cons_of_mem _ h'))
    refine ⟨r1, fun o ho => ?_⟩
    rcases List.mem_append.1 ho with ho | ho
    · exact s2 o ho
    · exact r2 o ho

theorem TInv.start (cfg : Cfg C) (P : MQueue C) (ext0 : C.Ext) (fctl0 : C.Ctl) (now : Int) :
    TInv T (Node.start cfg P ext0 fctl0 now) :=
  ⟨fun h5 => Bool.noConfusion h5, by
    intro m hm
    change m ∈ P.elems P.empty at hm
    rw [P.elems_empty] at hm
    exact absurd hm (Multiset.notMem_zero m), by intro m hm; simp [Node.start] at hm,
    by intro m hm; simp [Node.start] at hm, fun _ => rfl⟩

end RL
