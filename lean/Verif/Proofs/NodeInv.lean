import Verif.Proofs.NodeClock
/-! # Invariants of the estimate, lifted from the filter to the node -/

namespace RL
variable {C : Core} {P : MQueue C}

/-- What has to be shown about a filter for an invariant of its estimate to hold in a node: `I` for an initialised
filter, `I0` before; `Kz` and `Kc` are assumptions about measurements and commands. -/
structure EstInv (cfg : Cfg C) (I I0 : C.X → C.Cov → Prop) (Kz : C.Z → Prop) (Kc : C.Ctl → Prop) : Prop where
  predict : ∀ par, par = cfg.processNoise ∨ par = cfg.keptNoise → ∀ ctl ctlTime ref delta x cov ext, 0 ≤ delta → Kc ctl →
    I x cov → I (C.predict par ctl ctlTime ref delta (x, cov, ext)).1
      (C.predict par ctl ctlTime ref delta (x, cov, ext)).2.1
  correct : ∀ z x cov ext, Kz z → I x cov → I (C.correct z (x, cov, ext)).1 (C.correct z (x, cov, ext)).2.1
  init : ∀ z x cov, Kz z → I0 x cov → I (C.initX z x) (C.initCov z cov)
  start : I0 cfg.initialState cfg.initialCov
  reset : I0 C.zeroX cfg.keptCov
  ctl0 : Kc cfg.ctl0

/-- The assumptions about an event that hits node `n`. -/
def Node.Ok (I I0 : C.X → C.Cov → Prop) (Kz : C.Z → Prop) (Kc : C.Ctl → Prop) (n : Node C P) : Node.Event C → Prop
  | .sensor _ _ (some z) => Kz z
  | .control c _ => Kc c
  | .setPose _ _ r => I (r.getD (C.zeroX, C.setPoseCov)).1 (r.getD (C.zeroX, C.setPoseCov)).2 ∧
      (n.filt.initialized = false → I0 (r.getD (C.zeroX, C.setPoseCov)).1 (r.getD (C.zeroX, C.setPoseCov)).2)
  | _ => True

/-- The invariant of the filter inside a node. -/
structure FInv (cfg : Cfg C) (I I0 : C.X → C.Cov → Prop) (Kc : C.Ctl → Prop) (f : Filt C) : Prop where
  on : f.initialized = true → I f.x f.cov
  off : f.initialized = false → I0 f.x f.cov
  par : f.par = cfg.processNoise ∨ f.par = cfg.keptNoise
  ctl : Kc f.ctl

/-- The invariant of the node. -/
structure NInv (cfg : Cfg C) (I I0 : C.X → C.Cov → Prop) (Kz : C.Z → Prop) (Kc : C.Ctl → Prop) (n : Node C P) : Prop where
  filt : FInv cfg I I0 Kc n.filt
  queue : ∀ m ∈ P.elems n.queue, Kz m.z ∧ Kc m.ctl
  hist : ∀ m ∈ n.measHist, Kz m.z ∧ Kc m.ctl
  snaps : ∀ s ∈ n.stateHist, I s.x s.cov
  ctl : Kc n.ctl
  uninit : n.filt.initialized = false → n.stateHist = []

variable {cfg : Cfg C} {I I0 : C.X → C.Cov → Prop} {Kz : C.Z → Prop} {Kc : C.Ctl → Prop}

theorem FInv.process (h : EstInv cfg I I0 Kz Kc) {f : Filt C} (hf : FInv cfg I I0 Kc f) {m : Meas C} (hm : Kz m.z) :
    FInv cfg I I0 Kc (f.processMeasurement m) := by
  by_cases hi : f.initialized = true
  · have hx := hf.on hi
    have key : ∀ g : Filt C, g.initialized = true → I g.x g.cov → (g.par = cfg.processNoise ∨ g.par = cfg.keptNoise) → Kc g.ctl →
        FInv cfg I I0 Kc (g.correct m.z) := fun g h1 h2 h3 h4 =>
      ⟨fun _ => h.correct m.z g.x g.cov g.ext hm h2, fun h5 => absurd (h5.symm.trans h1) (by simp), h3, h4⟩
    have hp : FInv cfg I I0 Kc
        ((if m.time - f.lastTime > 0 then
          { f.predict m.time (m.time - f.lastTime) with predicted := (f.predict m.time (m.time - f.lastTime)).x }
          else f).correct m.z) := by
      split
      · refine key _ hi ?_ hf.par hf.ctl
        show I (C.predict f.par f.ctl f.ctlTime m.time _ (f.x, f.cov, f.ext)).1
          (C.predict f.par f.ctl f.ctlTime m.time _ (f.x, f.cov, f.ext)).2.1
        exact h.predict _ hf.par _ _ _ _ _ _ _ (by omega) hf.ctl hx
      · exact key f hi hx hf.par hf.ctl
    unfold Filt.processMeasurement
    simp only [hi, if_true]
    split
    · exact ⟨hp.on, hp.off, hp.par, hp.ctl⟩
    · exact hp
  · have hi' : f.initialized = false := by simpa using hi
    unfold Filt.processMeasurement
    simp only [hi', Bool.false_eq_true, if_false]
    exact ⟨fun _ => h.init _ _ _ hm (hf.off hi'), fun h5 => Bool.noConfusion h5, hf.par, hf.ctl⟩

theorem NInv.drainStep (h : EstInv cfg I I0 Kz Kc) {n : Node C P} (hn : NInv cfg I I0 Kz Kc n) (r : Int) {m : Meas C}
    (ht : P.top n.queue = some m) : NInv cfg I I0 Kz Kc (Node.drainStep cfg r n m) := by
  have hm := hn.queue m (Node.top_mem ht)
  have hf : FInv cfg I I0 Kc (Node.drainStep cfg r n m).filt := by
    by_cases hd : (cfg.useControl && decide (r > 0)) = true
    · have : (Node.drainStep cfg r n m).filt = (n.filt.setControl m.ctl m.ctlTime).processMeasurement m := by
        simp [Node.drainStep, hd]
      rw [this]
      exact FInv.process h (f := n.filt.setControl m.ctl m.ctlTime) ⟨hn.filt.on, hn.filt.off, hn.filt.par, hm.2⟩ hm.1
    · have : (Node.drainStep cfg r n m).filt = n.filt.processMeasurement m := by
        simp only [Node.drainStep, hd]; rfl
      rw [this]
      exact FInv.process h hn.filt hm.1
  have hi : (Node.drainStep cfg r n m).filt.initialized = true := by
    by_cases hd : (cfg.useControl && decide (r > 0)) = true
    · have : (Node.drainStep cfg r n m).filt = (n.filt.setControl m.ctl m.ctlTime).processMeasurement m := by
        simp [Node.drainStep, hd]
      rw [this]; exact Filt.processMeasurement_initialized _ _
    · have : (Node.drainStep cfg r n m).filt = n.filt.processMeasurement m := by
        simp only [Node.drainStep, hd]; rfl
      rw [this]; exact Filt.processMeasurement_initialized _ _
  refine ⟨hf, fun m' hm' => hn.queue m' (Node.mem_pop ht hm'), ?_, ?_, hn.ctl, fun h5 => absurd (h5.symm.trans hi) (by simp)⟩
  · intro m' hm'
    have : m' = m ∨ m' ∈ n.measHist := by
      have e : (Node.drainStep cfg r n m).measHist = if cfg.smooth then m :: n.measHist else n.measHist := rfl
      rw [e] at hm'
      split at hm'
      · exact List.mem_cons.1 hm'
      · exact Or.inr hm'
    rcases this with rfl | h'
    · exact hm
    · exact hn.hist m' h'
  · intro s hs
    rcases Node.drainStep_stateHist cfg r n m with e | e
    · rw [e] at hs
      rcases List.mem_cons.1 hs with rfl | hs
      · exact hf.on hi
      · exact hn.snaps s hs
    · rw [e] at hs; exact hn.snaps s hs

theorem NInv.predictTo (h : EstInv cfg I I0 Kz Kc) {n : Node C P} (hn : NInv cfg I I0 Kz Kc n) {now : Int}
    (hi : n.filt.initialized = true) (hk : n.filt.lastTime ≤ now) : NInv cfg I I0 Kz Kc (n.predictTo now) := by
  refine ⟨⟨fun _ => ?_, fun h5 => absurd (h5.symm.trans hi) (by simp), hn.filt.par, hn.filt.ctl⟩, hn.queue, hn.hist,
    hn.snaps, hn.ctl, fun h5 => absurd (h5.symm.trans hi) (by simp)⟩
  show I (C.predict n.filt.par n.filt.ctl n.filt.ctlTime now _ (n.filt.x, n.filt.cov, n.filt.ext)).1
    (C.predict n.filt.par n.filt.ctl n.filt.ctlTime now _ (n.filt.x, n.filt.cov, n.filt.ext)).2.1
  exact h.predict _ hn.filt.par _ _ _ _ _ _ _ (by omega) hn.filt.ctl (hn.filt.on hi)

theorem NInv.revertTo {n : Node C P} (hn : NInv cfg I I0 Kz Kc n) (t : Int) :
    NInv cfg I I0 Kz Kc (n.revertTo t).1 := by
  unfold Node.revertTo
  have hrest : ∀ s ∈ n.stateHist.dropWhile (fun s => decide (s.lastTime > t)), s ∈ n.stateHist :=
    fun s hs => (List.dropWhile_sublist _).subset hs
  dsimp only
  split
  · exact ⟨hn.filt, hn.queue, hn.hist, fun s hs => hn.snaps s (hrest s hs), hn.ctl, fun h5 => by
      show n.stateHist.dropWhile _ = []
      rw [hn.uninit h5]; rfl⟩
  · rename_i s hs
    have hmem : s ∈ n.stateHist := by
      cases hr : n.stateHist.dropWhile (fun s => decide (s.lastTime > t)) with
      | nil =>
        rw [hr] at hs
        exact (List.takeWhile_sublist _).subset (List.mem_of_getLast? hs)
      | cons s' r =>
        rw [hr] at hs
        cases hs
        exact hrest s (by rw [hr]; exact List.mem_cons_self)
    have hi : n.filt.initialized = true := by
      cases hh : n.filt.initialized with
      | true => rfl
      | false => rw [hn.uninit hh] at hmem; simp at hmem
    refine ⟨⟨fun _ => hn.snaps s hmem, fun h5 => absurd (h5.symm.trans hi) (by simp), hn.filt.par, hn.filt.ctl⟩, ?_, ?_,
      fun s hs => hn.snaps s (hrest s hs), hn.ctl, fun h5 => absurd (h5.symm.trans hi) (by simp)⟩
    · intro m hm
      change m ∈ P.elems (List.foldl P.push n.queue _) at hm
      rw [elems_foldl_push] at hm
      rcases Multiset.mem_add.1 hm with hm | hm
      · exact hn.hist m ((List.takeWhile_sublist _).subset (List.mem_of_mem_filter (Multiset.mem_coe.1 hm)))
      · exact hn.queue m hm
    · intro m hm
      exact hn.hist m ((List.dropWhile_sublist _).subset hm)

theorem Node.drainStep_clock {n : Node C P} {now : Int} (r : Int) {m : Meas C} (hm : m.time ≤ now)
    (hk : n.filt.lastTime ≤ now) : (Node.drainStep cfg r n m).filt.lastTime ≤ now := by
  have hf : ∃ f0 : Filt C, f0.lastTime = n.filt.lastTime ∧
      (Node.drainStep cfg r n m).filt = f0.processMeasurement m := by
    by_cases hd : (cfg.useControl && decide (r > 0)) = true
    · exact ⟨n.filt.setControl m.ctl m.ctlTime, rfl, by simp [Node.drainStep, hd]⟩
    · exact ⟨n.filt, rfl, by simp only [Node.drainStep, hd]; rfl⟩
  obtain ⟨f0, h1, h2⟩ := hf
  rw [h2, Filt.processMeasurement_lastTime, h1]
  split <;> omega

theorem Node.revertTo_clock {n : Node C P} (t k : Int) (hs : ∀ s ∈ n.stateHist, s.lastTime ≤ k)
    (hk : n.filt.lastTime ≤ k) : (n.revertTo t).1.filt.lastTime ≤ k := by
  unfold Node.revertTo
  dsimp only
  split
  · exact hk
  · rename_i s hs'
    refine hs s ?_
    cases hr : n.stateHist.dropWhile (fun s => decide (s.lastTime > t)) with
    | nil =>
      rw [hr] at hs'
      exact (List.takeWhile_sublist _).subset (List.mem_of_getLast? hs')
    | cons s' r =>
      rw [hr] at hs'
      cases hs'
      exact (List.dropWhile_sublist _).subset (by rw [hr]; exact List.mem_cons_self)

theorem NInv.integrate (h : EstInv cfg I I0 Kz Kc) {n : Node C P} (hn : NInv cfg I I0 Kz Kc n) {now : Int}
    (hh : HInv cfg now n) : NInv cfg I I0 Kz Kc (n.integrate cfg now) := by
  unfold Node.integrate
  split
  · rename_i first ht
    have drain : ∀ (r : Node C P × Int), NInv cfg I I0 Kz Kc r.1 → r.1.filt.lastTime ≤ now →
        NInv cfg I I0 Kz Kc (if (Node.drain cfg now (P.size r.1.queue) r.2 r.1).filt.initialized && cfg.predictToCurrent
          then (Node.drain cfg now (P.size r.1.queue) r.2 r.1).predictTo now
          else Node.drain cfg now (P.size r.1.queue) r.2 r.1) := by
      intro r hr hk
      have := Node.drain_induct cfg now (fun n => NInv cfg I I0 Kz Kc n ∧ n.filt.lastTime ≤ now)
        (fun r n m hn ht hm => ⟨hn.1.drainStep h r ht, Node.drainStep_clock r hm hn.2⟩) (P.size r.1.queue) r.2 r.1 ⟨hr, hk⟩
      split
      · rename_i hc
        simp only [Bool.and_eq_true] at hc
        exact this.1.predictTo h hc.1 this.2
      · exact this.1
    apply drain
    · split
      · exact hn.revertTo _
      · exact hn
    · split
      · exact Node.revertTo_clock _ _ (fun s hs => Int.le_trans (hh.sle s hs) hh.clock) hh.clock
      · exact hh.clock
  · rename_i ht
    dsimp only
    split
    · rename_i hc
      simp only [Bool.and_eq_true] at hc
      exact hn.predictTo h hc.1 hh.clock
    · exact hn

theorem NInv.advance (h : EstInv cfg I I0 Kz Kc) {n : Node C P} (hn : NInv cfg I I0 Kz Kc n) {now now2 : Int}
    (hh : HInv cfg now n) : NInv cfg I I0 Kz Kc (n.advance cfg now now2) := by
  unfold Node.advance
  split
  · exact hn.integrate h hh
  · refine ⟨?_, ?_, hn.hist, hn.snaps, hn.ctl, ?_⟩
    · dsimp only
      split
      · exact ⟨hn.filt.on, hn.filt.off, hn.filt.par, hn.filt.ctl⟩
      · exact hn.filt
    · intro m hm
      rw [P.elems_empty] at hm
      exact absurd hm (Multiset.notMem_zero m)
    · dsimp only
      split
      · exact hn.uninit
      · exact hn.uninit

theorem NInv.periodic (h : EstInv cfg I I0 Kz Kc) {n : Node C P} (hn : NInv cfg I I0 Kz Kc n) {now now2 : Int}
    (hh : HInv cfg now n) (tfOk : Bool) : NInv cfg I I0 Kz Kc (n.periodic cfg now now2 tfOk).1 ∧
    ∀ s x cov, Out.odom s x cov ∈ (n.periodic cfg now now2 tfOk).2 → I x cov := by
  by_cases he : n.enabled = true
  · have ha := hn.advance h (now2 := now2) hh
    obtain ⟨p, hp⟩ := Node.periodic_enabled cfg n now now2 tfOk he
    constructor
    · rw [hp]
      split
      · refine ⟨ha.filt, ha.queue, fun m hm => ha.hist m ?_, fun s hs => ha.snaps s ?_, ha.ctl, fun h5 => ?_⟩
        · exact (List.rdropWhile_prefix _ _).subset hm
        · exact (List.rdropWhile_prefix _ _).subset hs
        · show (n.advance cfg now now2).stateHist.rdropWhile _ = []
          rw [ha.uninit h5]; rfl
      · exact ⟨ha.filt, ha.queue, ha.hist, ha.snaps, ha.ctl, ha.uninit⟩
    · intro s x cov hmem
      have e : (n.periodic cfg now now2 tfOk).2 = ((n.advance cfg now now2).publish cfg tfOk).2 := by
        simp [Node.periodic, he]
      rw [e] at hmem
      unfold Node.publish at hmem
      by_cases hi : (n.advance cfg now now2).filt.initialized = true
      · have hx := ha.filt.on hi
        simp only [hi, if_true] at hmem
        rcases List.mem_append.1 hmem with hmem | hmem
        · rcases List.mem_append.1 hmem with hmem | hmem
          · split at hmem <;> simp at hmem
          · split at hmem
            · simp only [List.mem_singleton, Out.odom.injEq] at hmem
              obtain ⟨-, rfl, rfl⟩ := hmem
              exact hx
            · simp at hmem
        · split at hmem <;> simp at hmem
      · simp [hi] at hmem
  · rw [Node.periodic_disabled cfg n now now2 tfOk (by simpa using he)]
    exact ⟨hn, by intro s x cov hm; simp at hm⟩

theorem NInv.step (h : EstInv cfg I I0 Kz Kc) {n : Node C P} (hn : NInv cfg I I0 Kz Kc n) {k : Int}
    (hh : HInv cfg k n) (e : Node.Event C) (hc : Clocked k [e]) (he : n.Ok I I0 Kz Kc e) :
    NInv cfg I I0 Kz Kc (n.step cfg e).1 ∧ ∀ s x cov, Out.odom s x cov ∈ (n.step cfg e).2 → I x cov := by
  cases e with
  | tick now now2 tfOk => exact hn.periodic h (hh.mono hc.1) tfOk
  | sensor topic stamp z =>
    refine ⟨?_, by intro s x cov hm; simp [Node.step] at hm⟩
    show NInv cfg I I0 Kz Kc (n.sensor topic stamp z)
    unfold Node.sensor
    split
    · exact hn
    · dsimp only
      split
      · cases z with
        | none => exact ⟨hn.filt, hn.queue, hn.hist, hn.snaps, hn.ctl, hn.uninit⟩
        | some z =>
          refine ⟨hn.filt, ?_, hn.hist, hn.snaps, hn.ctl, hn.uninit⟩
          intro m hm
          change m ∈ P.elems (P.push n.queue _) at hm
          rw [P.elems_push] at hm
          rcases Multiset.mem_cons.1 hm with rfl | hm
          · exact ⟨he, hn.ctl⟩
          · exact hn.queue m hm
      · exact hn
  | control c t =>
    refine ⟨?_, by intro s x cov hm; simp [Node.step] at hm⟩
    show NInv cfg I I0 Kz Kc (n.control cfg c t)
    unfold Node.control
    split
    · exact ⟨⟨hn.filt.on, hn.filt.off, hn.filt.par, he⟩, hn.queue, hn.hist, hn.snaps, he, hn.uninit⟩
    · exact hn
  | setPose stamp now r =>
    refine ⟨⟨⟨fun _ => he.1, he.2, hn.filt.par, hn.filt.ctl⟩, ?_, ?_, ?_, hn.ctl, fun _ => rfl⟩,
      by intro s x cov hm; simp [Node.step] at hm⟩
    · intro m hm
      change m ∈ P.elems P.empty at hm
      rw [P.elems_empty] at hm
      exact absurd hm (Multiset.notMem_zero m)
    · intro m hm; simp [Node.step, Node.setPose] at hm
    · intro m hm; simp [Node.step, Node.setPose] at hm
  | reset =>
    refine ⟨⟨⟨fun h5 => Bool.noConfusion h5, fun _ => h.reset, Or.inr rfl, hn.filt.ctl⟩, ?_, ?_, ?_, hn.ctl, fun _ => rfl⟩,
      by intro s x cov hm; simp [Node.step] at hm⟩
    · intro m hm
      change m ∈ P.elems P.empty at hm
      rw [P.elems_empty] at hm
      exact absurd hm (Multiset.notMem_zero m)
    · intro m hm; simp [Node.step, Node.reset] at hm
    · intro m hm; simp [Node.step, Node.reset] at hm
  | toggle on =>
    refine ⟨?_, by intro s x cov hm; simp [Node.step] at hm⟩
    show NInv cfg I I0 Kz Kc (n.toggle on).1
    unfold Node.toggle
    split
    · exact hn
    · exact ⟨hn.filt, hn.queue, hn.hist, hn.snaps, hn.ctl, hn.uninit⟩
  | enable =>
    exact ⟨⟨hn.filt, hn.queue, hn.hist, hn.snaps, hn.ctl, hn.uninit⟩, by intro s x cov hm; simp [Node.step] at hm⟩

/-- The invariant along every run under a monotone clock, and for everything published. -/
theorem NInv.run (h : EstInv cfg I I0 Kz Kc) (es : List (Node.Event C)) : ∀ {n : Node C P} {k : Int},
    NInv cfg I I0 Kz Kc n → HInv cfg k n → 0 ≤ k → Clocked k es → Along cfg (Node.Ok I I0 Kz Kc) n es →
    NInv cfg I I0 Kz Kc (n.run cfg es).1 ∧ ∀ s x cov, Out.odom s x cov ∈ (n.run cfg es).2 → I x cov := by
  induction es with
  | nil => intro n k hn _ _ _ _; exact ⟨hn, by intro s x cov hm; simp [Node.run] at hm⟩
  | cons e es ih =>
    intro n k hn hh hk hc he
    obtain ⟨h1, h2, h3⟩ := hc.cons
    obtain ⟨s1, s2⟩ := hn.step h hh e h1 he.1
    obtain ⟨r1, r2⟩ := ih s1 (hh.step hk e h1) (by omega) h2 he.2
    refine ⟨r1, fun s x cov hm => ?_⟩
    rcases List.mem_append.1 hm with hm | hm
    · exact s2 s x cov hm
    · exact r2 s x cov hm

theorem NInv.start (h : EstInv cfg I I0 Kz Kc) (P : MQueue C) (ext0 : C.Ext) {fctl0 : C.Ctl} (hf : Kc fctl0) (now : Int) :
    NInv cfg I I0 Kz Kc (Node.start cfg P ext0 fctl0 now) :=
  ⟨⟨fun h5 => Bool.noConfusion h5, fun _ => h.start, Or.inl rfl, hf⟩, by
    intro m hm
    change m ∈ P.elems P.empty at hm
    rw [P.elems_empty] at hm
    exact absurd hm (Multiset.notMem_zero m), by intro m hm; simp [Node.start] at hm,
    by intro m hm; simp [Node.start] at hm, h.ctl0, fun _ => rfl⟩

end RL
