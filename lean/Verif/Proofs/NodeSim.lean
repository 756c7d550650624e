import Verif.Model.Node
/-! # Two nodes that do the same: a simulation between runs (helper lemmas for C90 to C92) -/

namespace RL

/-- Stamps `t` for one node and `t + c` for the other, both more than `L` after the epoch (nothing is asked when `c` is
zero). -/
def Pos (L : ℕ) (c t : Int) : Prop := c = 0 ∨ (L < t ∧ L < t + c)

/-- Two stored stamps that differ by `c`, or both have never been set. -/
def Stamp (c t t' : Int) : Prop := t' = t + c ∨ (t = 0 ∧ t' = 0)

theorem Stamp.le {L : ℕ} {c t t' s : Int} (h : Stamp c t t') (hp : Pos L c s) : s ≤ t ↔ s + c ≤ t' := by
  unfold Stamp Pos at *
  omega

theorem Stamp.lt {L : ℕ} {c t t' s : Int} (h : Stamp c t t') (hp : Pos L c s) : s < t ↔ s + c < t' := by
  unfold Stamp Pos at *
  omega

/-- Two filters (cores) that treat related data in a related way when the clock of the second is ahead by `c`.  `Name`
relates the names under which two nodes keep the same stream of messages. -/
structure CoreSim (C C' : Core) (c : Int) where
  low : ℕ
  Name : String → String → Prop := Eq
  biunique : ∀ {a b a' b'}, Name a b → Name a' b' → (a = a' ↔ b = b') := by
    rintro _ _ _ _ rfl rfl
    exact Iff.rfl
  X : C.X → C'.X → Prop
  Cov : C.Cov → C'.Cov → Prop
  Ext : C.Ext → C'.Ext → Prop
  Par : C.Par → C'.Par → Prop
  Z : C.Z → C'.Z → Prop
  Ctl : C.Ctl → Int → C'.Ctl → Int → Prop
  predict : ∀ {q q' u t u' t' x x' P P' e e'} (ref delta : Int), Pos low c ref → Par q q' → Ctl u t u' t' → X x x' → Cov P P' → Ext e e' →
    X (C.predict q u t ref delta (x, P, e)).1 (C'.predict q' u' t' (ref + c) delta (x', P', e')).1 ∧
    Cov (C.predict q u t ref delta (x, P, e)).2.1 (C'.predict q' u' t' (ref + c) delta (x', P', e')).2.1 ∧
    Ext (C.predict q u t ref delta (x, P, e)).2.2 (C'.predict q' u' t' (ref + c) delta (x', P', e')).2.2
  correct : ∀ {z z' x x' P P' e e'}, Z z z' → X x x' → Cov P P' → Ext e e' →
    X (C.correct z (x, P, e)).1 (C'.correct z' (x', P', e')).1 ∧
    Cov (C.correct z (x, P, e)).2.1 (C'.correct z' (x', P', e')).2.1 ∧
    Ext (C.correct z (x, P, e)).2.2 (C'.correct z' (x', P', e')).2.2
  initX : ∀ {z z' x x'}, Z z z' → X x x' → X (C.initX z x) (C'.initX z' x')
  initCov : ∀ {z z' P P'}, Z z z' → Cov P P' → Cov (C.initCov z P) (C'.initCov z' P')

variable {C C' : Core} {c : Int} (σ : CoreSim C C' c)

structure FiltSim (f : Filt C) (f' : Filt C') : Prop where
  init : f'.initialized = f.initialized
  x : σ.X f.x f'.x
  cov : σ.Cov f.cov f'.cov
  ext : σ.Ext f.ext f'.ext
  par : σ.Par f.par f'.par
  ctl : σ.Ctl f.ctl f.ctlTime f'.ctl f'.ctlTime
  last : Stamp c f.lastTime f'.lastTime
  timeout : f'.sensorTimeout = f.sensorTimeout
  set : f.initialized = true → f'.lastTime = f.lastTime + c ∧ Pos σ.low c f.lastTime

structure MeasSim (m : Meas C) (m' : Meas C') : Prop where
  time : m'.time = m.time + c
  pos : Pos σ.low c m.time
  topic : σ.Name m.topic m'.topic
  z : σ.Z m.z m'.z
  ctl : σ.Ctl m.ctl m.ctlTime m'.ctl m'.ctlTime

structure SnapSim (s : Snap C) (s' : Snap C') : Prop where
  x : σ.X s.x s'.x
  cov : σ.Cov s.cov s'.cov
  last : s'.lastTime = s.lastTime + c
  pos : Pos σ.low c s.lastTime

/-- Two queues that break ties in the same way. -/
structure QueueSim (P : MQueue C) (P' : MQueue C') where
  Rel : P.Q → P'.Q → Prop
  empty : Rel P.empty P'.empty
  push : ∀ {q q' m m'}, Rel q q' → MeasSim σ m m' → Rel (P.push q m) (P'.push q' m')
  top : ∀ {q q'}, Rel q q' → Option.Rel (MeasSim σ) (P.top q) (P'.top q')
  pop : ∀ {q q' m}, Rel q q' → P.top q = some m → Rel (P.pop q) (P'.pop q')
  size : ∀ {q q'}, Rel q q' → P'.size q' = P.size q

variable {σ} {P : MQueue C} {P' : MQueue C'} (κ : QueueSim σ P P')

structure CfgSim (σ : CoreSim C C' c) (g : Cfg C) (g' : Cfg C') : Prop where
  smooth : g'.smooth = g.smooth
  history : g'.historyLength = g.historyLength
  toCurrent : g'.predictToCurrent = g.predictToCurrent
  control : g'.useControl = g.useControl
  permit : g'.permitCorrected = g.permitCorrected
  tf : g'.publishTf = g.publishTf
  accel : g'.publishAccel = g.publishAccel
  timeout : g'.sensorTimeout = g.sensorTimeout
  noise : σ.Par g.processNoise g'.processNoise
  cov : σ.Cov g.initialCov g'.initialCov
  keptNoise : σ.Par g.keptNoise g'.keptNoise
  keptCov : σ.Cov g.keptCov g'.keptCov

structure NodeSim (n : Node C P) (n' : Node C' P') : Prop where
  filt : FiltSim σ n.filt n'.filt
  queue : κ.Rel n.queue n'.queue
  states : List.Forall₂ (SnapSim σ) n.stateHist n'.stateHist
  meas : List.Forall₂ (MeasSim σ) n.measHist n'.measHist
  msg : ∀ t t', σ.Name t t' → n'.lastMsg t' = (n.lastMsg t).map (· + c)
  pose : Stamp c n.lastSetPose n'.lastSetPose
  ctl : σ.Ctl n.ctl n.ctlTime n'.ctl n'.ctlTime
  pub : Stamp c n.lastPub n'.lastPub
  on : n'.toggledOn = n.toggledOn
  enabled : n'.enabled = n.enabled
  fresh : n.filt.initialized = false → n.stateHist = [] ∧ n.measHist = []

/-- The same event for both nodes. -/
inductive EventSim (σ : CoreSim C C' c) : Node.Event C → Node.Event C' → Prop
  | sensor (topic : String) {topic' : String} {stamp : Int} {z z'} (hp : Pos σ.low c stamp) (h : Option.Rel σ.Z z z')
      (hn : σ.Name topic topic' := by exact rfl) : EventSim σ (.sensor topic stamp z) (.sensor topic' (stamp + c) z')
  | control {u t u' t'} (h : σ.Ctl u t u' t') : EventSim σ (.control u t) (.control u' t')
  | setPose {stamp now : Int} {r r'} (hp : Pos σ.low c stamp) (hn : Pos σ.low c now)
      (h : Option.Rel (fun a b => σ.X a.1 b.1 ∧ σ.Cov a.2 b.2) r r')
      (h0 : r = none → σ.X C.zeroX C'.zeroX ∧ σ.Cov C.setPoseCov C'.setPoseCov) :
      EventSim σ (.setPose stamp now r) (.setPose (stamp + c) (now + c) r')
  | reset (hx : σ.X C.zeroX C'.zeroX) (hc : ∀ {u t u' t'}, σ.Ctl u t u' t' → σ.Ctl u 0 u' 0) : EventSim σ .reset .reset
  | toggle (on : Bool) : EventSim σ (.toggle on) (.toggle on)
  | enable : EventSim σ .enable .enable
  | tick {now now2 : Int} (tfOk : Bool) (hn : Pos σ.low c now) (hn2 : Pos σ.low c now2) :
      EventSim σ (.tick now now2 tfOk) (.tick (now + c) (now2 + c) tfOk)

/-- The same thing sent. -/
inductive OutSim (σ : CoreSim C C' c) : Out C → Out C' → Prop
  | odom {t x x' P P'} (hx : σ.X x x') (hP : σ.Cov P P') : OutSim σ (.odom t x P) (.odom (t + c) x' P')
  | tf (t) : OutSim σ (.tf t) (.tf (t + c))
  | accel (t) : OutSim σ (.accel t) (.accel (t + c))

namespace FiltSim
variable {f : Filt C} {f' : Filt C'}

theorem predict (h : FiltSim σ f f') {ref : Int} (hr : Pos σ.low c ref) (delta : Int) : FiltSim σ (f.predict ref delta) (f'.predict (ref + c) delta) := by
  have := σ.predict ref delta hr h.par h.ctl h.x h.cov h.ext
  exact ⟨h.init, this.1, this.2.1, this.2.2, h.par, h.ctl, h.last, h.timeout, h.set⟩

theorem correct (h : FiltSim σ f f') {z z'} (hz : σ.Z z z') : FiltSim σ (f.correct z) (f'.correct z') := by
  have := σ.correct hz h.x h.cov h.ext
  exact ⟨h.init, this.1, this.2.1, this.2.2, h.par, h.ctl, h.last, h.timeout, h.set⟩

theorem predicted (h : FiltSim σ f f') (a b) : FiltSim σ { f with predicted := a } { f' with predicted := b } :=
  ⟨h.init, h.x, h.cov, h.ext, h.par, h.ctl, h.last, h.timeout, h.set⟩

theorem setLast (h : FiltSim σ f f') {t : Int} (hp : Pos σ.low c t) :
    FiltSim σ (f.setLastTime t) (f'.setLastTime (t + c)) :=
  ⟨h.init, h.x, h.cov, h.ext, h.par, h.ctl, Or.inl rfl, h.timeout, fun _ => ⟨rfl, hp⟩⟩

theorem setControl (h : FiltSim σ f f') {u t u' t'} (hc : σ.Ctl u t u' t') :
    FiltSim σ (f.setControl u t) (f'.setControl u' t') :=
  ⟨h.init, h.x, h.cov, h.ext, h.par, hc, h.last, h.timeout, h.set⟩

theorem setXP (h : FiltSim σ f f') {x x' P P'} (hx : σ.X x x') (hP : σ.Cov P P') :
    FiltSim σ ((f.setState x).setCov P) ((f'.setState x').setCov P') :=
  ⟨h.init, hx, hP, h.ext, h.par, h.ctl, h.last, h.timeout, h.set⟩

theorem process (h : FiltSim σ f f') {m m'} (hm : MeasSim σ m m') :
    FiltSim σ (f.processMeasurement m) (f'.processMeasurement m') := by
  unfold Filt.processMeasurement
  rw [h.init]
  by_cases hi : f.initialized = true
  · simp only [hi, if_true]
    have ed : m'.time - f'.lastTime = m.time - f.lastTime := by
      have := (h.set hi).1
      have := hm.time
      omega
    rw [ed]
    have key : ∀ g g', FiltSim σ g g' → FiltSim σ
        (if m.time - f.lastTime ≥ 0 then { g with lastTime := m.time } else g)
        (if m.time - f.lastTime ≥ 0 then { g' with lastTime := m'.time } else g') := by
      intro g g' hg
      split
      · rw [hm.time]
        exact hg.setLast hm.pos
      · exact hg
    apply key
    apply FiltSim.correct _ hm.z
    split
    · rw [hm.time]
      exact (h.predict hm.pos _).predicted _ _
    · exact h
  · rw [Bool.not_eq_true] at hi
    simp only [hi, Bool.false_eq_true, if_false]
    exact ⟨rfl, σ.initX hm.z h.x, σ.initCov hm.z h.cov, h.ext, h.par, h.ctl, Or.inl hm.time, h.timeout,
      fun _ => ⟨hm.time, hm.pos⟩⟩

theorem snap (h : FiltSim σ f f') (hi : f.initialized = true) : SnapSim σ f.snap f'.snap :=
  ⟨h.x, h.cov, (h.set hi).1, (h.set hi).2⟩

end FiltSim

namespace NodeSim
variable {κ} {n : Node C P} {n' : Node C' P'} {g : Cfg C} {g' : Cfg C'}

theorem enqueue (h : NodeSim κ n n') {topic topic' : String} (ht : σ.Name topic topic') {stamp : Int} (hp : Pos σ.low c stamp)
    {z z'} (hz : σ.Z z z') : NodeSim κ (n.enqueue topic z stamp) (n'.enqueue topic' z' (stamp + c)) :=
  ⟨h.filt, κ.push h.queue ⟨rfl, hp, ht, hz, h.ctl⟩, h.states, h.meas, h.msg, h.pose, h.ctl, h.pub, h.on, h.enabled, h.fresh⟩

theorem sensor (h : NodeSim κ n n') {topic topic' : String} (ht : σ.Name topic topic') {stamp : Int} (hp : Pos σ.low c stamp)
    {z z'} (hz : Option.Rel σ.Z z z') : NodeSim κ (n.sensor topic stamp z) (n'.sensor topic' (stamp + c) z') := by
  unfold Node.sensor
  by_cases h1 : n.lastSetPose ≥ stamp
  · rw [if_pos h1, if_pos (show n'.lastSetPose ≥ stamp + c from (h.pose.le hp).1 h1)]
    exact h
  · rw [if_neg h1, if_neg (show ¬ n'.lastSetPose ≥ stamp + c from fun hh => h1 ((h.pose.le hp).2 hh))]
    have e : (n'.lastMsg topic').getD (stamp + c) = (n.lastMsg topic).getD stamp + c := by
      rw [h.msg _ _ ht]
      cases n.lastMsg topic <;> rfl
    simp only [e]
    by_cases h2 : (n.lastMsg topic).getD stamp ≤ stamp
    · rw [if_pos h2, if_pos (show (n.lastMsg topic).getD stamp + c ≤ stamp + c by omega)]
      have key : ∀ a a', NodeSim κ a a' → NodeSim κ
          { a with lastMsg := fun t => if t = topic then some stamp else a.lastMsg t }
          { a' with lastMsg := fun t => if t = topic' then some (stamp + c) else a'.lastMsg t } := by
        intro a a' ha
        refine ⟨ha.filt, ha.queue, ha.states, ha.meas, fun t t' h' => ?_, ha.pose, ha.ctl, ha.pub, ha.on, ha.enabled, ha.fresh⟩
        have hb := σ.biunique h' ht
        dsimp only
        by_cases he : t = topic
        · rw [if_pos he, if_pos (hb.1 he)]
          rfl
        · rw [if_neg he, if_neg fun hh => he (hb.2 hh)]
          exact ha.msg t t' h'
      apply key
      cases hz with
      | none => exact h
      | some hz => exact h.enqueue ht hp hz
    · rw [if_neg h2, if_neg (show ¬ (n.lastMsg topic).getD stamp + c ≤ stamp + c by omega)]
      exact h

theorem control (h : NodeSim κ n n') (hg : CfgSim σ g g') {u t u' t'} (hc : σ.Ctl u t u' t') :
    NodeSim κ (n.control g u t) (n'.control g' u' t') := by
  unfold Node.control
  rw [hg.control]
  split
  · exact ⟨h.filt.setControl hc, h.queue, h.states, h.meas, h.msg, h.pose, hc, h.pub, h.on, h.enabled, h.fresh⟩
  · exact h

theorem setPose (h : NodeSim κ n n') {stamp now : Int} (hn : Pos σ.low c now) {r r'}
    (hr : Option.Rel (fun a b => σ.X a.1 b.1 ∧ σ.Cov a.2 b.2) r r')
    (h0 : r = none → σ.X C.zeroX C'.zeroX ∧ σ.Cov C.setPoseCov C'.setPoseCov) :
    NodeSim κ (n.setPose stamp now r) (n'.setPose (stamp + c) (now + c) r') := by
  have : σ.X (r.getD (C.zeroX, C.setPoseCov)).1 (r'.getD (C'.zeroX, C'.setPoseCov)).1 ∧
      σ.Cov (r.getD (C.zeroX, C.setPoseCov)).2 (r'.getD (C'.zeroX, C'.setPoseCov)).2 := by
    cases hr with
    | none => exact h0 rfl
    | some hr => exact hr
  exact ⟨(h.filt.setXP this.1 this.2).setLast hn, κ.empty, .nil, .nil, h.msg, Or.inl rfl, h.ctl, h.pub, h.on, h.enabled,
    fun _ => ⟨rfl, rfl⟩⟩

theorem reset (h : NodeSim κ n n') (hg : CfgSim σ g g') (hx : σ.X C.zeroX C'.zeroX)
    (hc : ∀ {u t u' t'}, σ.Ctl u t u' t' → σ.Ctl u 0 u' 0) : NodeSim κ (n.reset g) (n'.reset g') := by
  refine ⟨⟨rfl, hx, hg.keptCov, h.filt.ext, hg.keptNoise, h.filt.ctl, Or.inr ⟨rfl, rfl⟩, hg.timeout, fun hh => ?_⟩, κ.empty, .nil,
    .nil, fun _ _ _ => rfl, Or.inr ⟨rfl, rfl⟩, hc h.ctl, Or.inr ⟨rfl, rfl⟩, h.on, h.enabled, fun _ => ⟨rfl, rfl⟩⟩
  cases hh

theorem forall₂_while {α β : Type} {R : α → β → Prop} {p : α → Bool} {q : β → Bool} (hpq : ∀ a b, R a b → p a = q b)
    {l : List α} {l' : List β} (h : List.Forall₂ R l l') :
    List.Forall₂ R (l.takeWhile p) (l'.takeWhile q) ∧ List.Forall₂ R (l.dropWhile p) (l'.dropWhile q) := by
  induction h with
  | nil => exact ⟨.nil, .nil⟩
  | cons hab h ih =>
    rename_i a b l l'
    simp only [List.takeWhile_cons, List.dropWhile_cons, hpq a b hab]
    split
    · exact ⟨.cons hab ih.1, ih.2⟩
    · exact ⟨.nil, .cons hab h⟩

theorem forall₂_filter {α β : Type} {R : α → β → Prop} {p : α → Bool} {q : β → Bool} (hpq : ∀ a b, R a b → p a = q b)
    {l : List α} {l' : List β} (h : List.Forall₂ R l l') : List.Forall₂ R (l.filter p) (l'.filter q) := by
  induction h with
  | nil => exact .nil
  | cons hab h ih =>
    rename_i a b l l'
    simp only [List.filter_cons, hpq a b hab]
    split
    · exact .cons hab ih
    · exact ih

theorem forall₂_last {α β : Type} {R : α → β → Prop} {l : List α} {l' : List β} (h : List.Forall₂ R l l') :
    Option.Rel R l.getLast? l'.getLast? := by
  induction h with
  | nil => exact .none
  | cons hab h ih =>
    cases h with
    | nil => exact .some hab
    | cons hab' h =>
      rw [List.getLast?_cons_cons, List.getLast?_cons_cons]
      exact ih

theorem forall₂_rdrop {α β : Type} {R : α → β → Prop} {p : α → Bool} {q : β → Bool} (hpq : ∀ a b, R a b → p a = q b)
    {l : List α} {l' : List β} (h : List.Forall₂ R l l') : List.Forall₂ R (l.rdropWhile p) (l'.rdropWhile q) := by
  unfold List.rdropWhile
  exact List.rel_reverse (forall₂_while hpq (List.rel_reverse h)).2

theorem pushAll {q : P.Q} {q' : P'.Q} (hq : κ.Rel q q') {l : List (Meas C)} {l' : List (Meas C')}
    (h : List.Forall₂ (MeasSim σ) l l') : κ.Rel (l.foldl P.push q) (l'.foldl P'.push q') := by
  induction h generalizing q q' with
  | nil => exact hq
  | cons hab h ih => exact ih (κ.push hq hab)

theorem revertTo (h : NodeSim κ n n') (t : Int) : NodeSim κ (n.revertTo t).1 (n'.revertTo (t + c)).1 := by
  have hs := forall₂_while (p := fun s : Snap C => decide (s.lastTime > t))
    (q := fun s : Snap C' => decide (s.lastTime > t + c))
    (fun a b hab => decide_eq_decide.2 (by have := hab.last; omega)) h.states
  have hm := forall₂_while (p := fun s : Meas C => decide (s.time > t))
    (q := fun s : Meas C' => decide (s.time > t + c))
    (fun a b hab => decide_eq_decide.2 (by have := hab.time; omega)) h.meas
  have fr : n.filt.initialized = false → n.stateHist.dropWhile (fun s => decide (s.lastTime > t)) = [] ∧
      n.measHist.dropWhile (fun m => decide (m.time > t)) = [] := by
    intro hi
    rw [(h.fresh hi).1, (h.fresh hi).2]
    exact ⟨rfl, rfl⟩
  have h1 := forall₂_last hs.1
  have h2 := hs.2
  unfold Node.revertTo
  dsimp only
  have some' : ∀ (s : Snap C) (s' : Snap C') (hab : SnapSim σ s s') (l : List (Snap C)) (l' : List (Snap C')),
      List.Forall₂ (SnapSim σ) l l' → (n.filt.initialized = false → l = []) →
      NodeSim κ { n with
        stateHist := l
        measHist := n.measHist.dropWhile (fun m => decide (m.time > t))
        queue := ((n.measHist.takeWhile (fun m => decide (m.time > t))).filter (fun m => decide (s.lastTime ≤ m.time))).foldl P.push n.queue
        filt := ((n.filt.setState s.x).setCov s.cov).setLastTime s.lastTime }
      { n' with
        stateHist := l'
        measHist := n'.measHist.dropWhile (fun m => decide (m.time > t + c))
        queue := ((n'.measHist.takeWhile (fun m => decide (m.time > t + c))).filter (fun m => decide (s'.lastTime ≤ m.time))).foldl P'.push n'.queue
        filt := ((n'.filt.setState s'.x).setCov s'.cov).setLastTime s'.lastTime } := by
    intro s s' hab l l' hl hfr
    refine ⟨?_, pushAll h.queue (forall₂_filter (fun x y hxy => decide_eq_decide.2 ?_) hm.1), hl, hm.2, h.msg, h.pose,
      h.ctl, h.pub, h.on, h.enabled, fun hi => ⟨hfr hi, (fr hi).2⟩⟩
    · rw [hab.last]
      exact (h.filt.setXP hab.x hab.cov).setLast hab.pos
    · have := hab.last
      have := hxy.time
      omega
  have hfr := fun hi => (fr hi).1
  revert h1 h2 hfr
  generalize n.stateHist.dropWhile (fun s => decide (s.lastTime > t)) = a
  generalize n'.stateHist.dropWhile (fun s => decide (s.lastTime > t + c)) = b
  generalize (n.stateHist.takeWhile (fun s => decide (s.lastTime > t))).getLast? = d
  generalize (n'.stateHist.takeWhile (fun s => decide (s.lastTime > t + c))).getLast? = d'
  intro h1 h2 hfr
  cases h2 with
  | cons hab hl => exact some' _ _ hab _ _ (.cons hab hl) hfr
  | nil =>
    cases h1 with
    | some hab => exact some' _ _ hab _ _ .nil hfr
    | none => exact ⟨h.filt, h.queue, .nil, h.meas, h.msg, h.pose, h.ctl, h.pub, h.on, h.enabled,
        fun hi => ⟨rfl, (h.fresh hi).2⟩⟩

theorem init_process (f : Filt C) (m : Meas C) : (f.processMeasurement m).initialized = true := by
  unfold Filt.processMeasurement
  by_cases hi : f.initialized = true
  · simp only [hi, if_true]
    split <;> split <;> exact hi
  · rw [if_neg hi]

theorem drain (h : NodeSim κ n n') (hg : CfgSim σ g g') (now : Int) (fuel : ℕ) (r : Int) :
    NodeSim κ (n.drain g now fuel r) (n'.drain g' (now + c) fuel r) := by
  induction fuel generalizing n n' r with
  | zero => exact h
  | succ fuel ih =>
    unfold Node.drain
    have ht := κ.top h.queue
    cases e : P.top n.queue with
    | none =>
      rw [e] at ht
      cases e' : P'.top n'.queue with
      | none => exact h
      | some m' => rw [e'] at ht; cases ht
    | some m =>
      rw [e] at ht
      cases e' : P'.top n'.queue with
      | none => rw [e'] at ht; cases ht
      | some m' =>
        rw [e'] at ht
        have hm : MeasSim σ m m' := by cases ht; assumption
        dsimp only
        by_cases hn : now < m.time
        · rw [if_pos hn, if_pos (show now + c < m'.time by have := hm.time; omega)]
          exact h
        · rw [if_neg hn, if_neg (show ¬ now + c < m'.time by have := hm.time; omega), hg.control]
          have hf : FiltSim σ ((if g.useControl && decide (r > 0) then n.filt.setControl m.ctl m.ctlTime else n.filt).processMeasurement m)
              ((if g.useControl && decide (r > 0) then n'.filt.setControl m'.ctl m'.ctlTime else n'.filt).processMeasurement m') := by
            apply FiltSim.process _ hm
            split
            · exact h.filt.setControl hm.ctl
            · exact h.filt
          have hi : ((if g.useControl && decide (r > 0) then n.filt.setControl m.ctl m.ctlTime else n.filt).processMeasurement m).initialized = true := by
            exact init_process _ m
          have hq := κ.pop h.queue e
          have key : ∀ sv sv' : Bool, sv' = sv → NodeSim κ
              { n with
                queue := P.pop n.queue
                filt := ((if g.useControl && decide (r > 0) then n.filt.setControl m.ctl m.ctlTime else n.filt).processMeasurement m)
                measHist := if g.smooth then m :: n.measHist else n.measHist
                stateHist := if g.smooth && sv then ((if g.useControl && decide (r > 0) then n.filt.setControl m.ctl m.ctlTime else n.filt).processMeasurement m).snap :: n.stateHist else n.stateHist }
              { n' with
                queue := P'.pop n'.queue
                filt := ((if g.useControl && decide (r > 0) then n'.filt.setControl m'.ctl m'.ctlTime else n'.filt).processMeasurement m')
                measHist := if g'.smooth then m' :: n'.measHist else n'.measHist
                stateHist := if g'.smooth && sv' then ((if g.useControl && decide (r > 0) then n'.filt.setControl m'.ctl m'.ctlTime else n'.filt).processMeasurement m').snap :: n'.stateHist else n'.stateHist } := by
            rintro sv _ rfl
            rw [hg.smooth]
            refine ⟨hf, hq, ?_, ?_, h.msg, h.pose, h.ctl, h.pub, h.on, h.enabled, fun hh => ?_⟩
            · dsimp only
              split
              · exact .cons (hf.snap hi) h.states
              · exact h.states
            · dsimp only
              split
              · exact .cons hm h.meas
              · exact h.meas
            · rw [hi] at hh
              cases hh
          apply ih
          have ht := κ.top hq
          revert ht
          generalize P.top (P.pop n.queue) = a
          generalize P'.top (P'.pop n'.queue) = b
          intro ht
          cases ht with
          | none => exact key _ _ rfl
          | some hab =>
            refine key _ _ (decide_eq_decide.2 ?_)
            rw [hab.time, (hf.set hi).1]
            omega

theorem predictTo (h : NodeSim κ n n') (hi : n.filt.initialized = true) {now : Int} (hn : Pos σ.low c now) :
    NodeSim κ (n.predictTo now) (n'.predictTo (now + c)) := by
  have hl := (h.filt.set hi).1
  unfold Node.predictTo
  have e1 : now + c - n'.filt.lastTime = now - n.filt.lastTime := by omega
  have e2 : (n'.filt.predict (now + c) (now - n.filt.lastTime)).lastTime + (now - n.filt.lastTime) = now + c := by
    show n'.filt.lastTime + _ = _
    omega
  have e3 : (n.filt.predict now (now - n.filt.lastTime)).lastTime + (now - n.filt.lastTime) = now := by
    show n.filt.lastTime + _ = _
    omega
  simp only [e1, e2, e3]
  refine ⟨(h.filt.predict hn _).setLast hn, h.queue, h.states, h.meas, h.msg, h.pose, h.ctl, h.pub, h.on, h.enabled,
    fun hh => ?_⟩
  change n.filt.initialized = false at hh
  rw [hi] at hh
  cases hh

theorem integrate (h : NodeSim κ n n') (hg : CfgSim σ g g') {now : Int} (hn : Pos σ.low c now) :
    NodeSim κ (n.integrate g now) (n'.integrate g' (now + c)) := by
  have step : ∀ {a : Node C P} {a' : Node C' P'}, NodeSim κ a a' → ∀ (b : Bool),
      NodeSim κ (if a.filt.initialized && b then a.predictTo now else a)
        (if a'.filt.initialized && b then a'.predictTo (now + c) else a') := by
    intro a a' ha b
    rw [ha.filt.init]
    split
    · rename_i hb
      rw [Bool.and_eq_true] at hb
      exact ha.predictTo hb.1 hn
    · exact ha
  unfold Node.integrate
  have ht := κ.top h.queue
  cases e : P.top n.queue with
  | none =>
    rw [e] at ht
    cases e' : P'.top n'.queue with
    | some m' => rw [e'] at ht; cases ht
    | none =>
      dsimp only
      have : (n'.filt.initialized && decide (now + c - n'.filt.lastTime ≥ n'.filt.sensorTimeout)) =
          (n.filt.initialized && decide (now - n.filt.lastTime ≥ n.filt.sensorTimeout)) := by
        rw [h.filt.init, h.filt.timeout]
        by_cases hi : n.filt.initialized = true
        · have := (h.filt.set hi).1
          rw [hi, Bool.true_and, Bool.true_and]
          apply decide_eq_decide.2
          omega
        · rw [Bool.not_eq_true] at hi
          rw [hi, Bool.false_and, Bool.false_and]
      rw [this, hg.toCurrent]
      exact step h _
  | some m =>
    rw [e] at ht
    cases e' : P'.top n'.queue with
    | none => rw [e'] at ht; cases ht
    | some m' =>
      rw [e'] at ht
      have hm : MeasSim σ m m' := by cases ht; assumption
      dsimp only
      have hlt : decide (m'.time < n'.filt.lastTime) = decide (m.time < n.filt.lastTime) := by
        apply decide_eq_decide.2
        rw [hm.time]
        exact (h.filt.last.lt hm.pos).symm
      rw [hlt, hg.smooth, hg.toCurrent]
      apply step
      split
      · have hr := h.revertTo (m.time - 1)
        have e1 : m.time - 1 + c = m'.time - 1 := by have := hm.time; omega
        rw [e1] at hr
        dsimp only
        rw [κ.size hr.queue, κ.size h.queue]
        exact hr.drain hg now _ _
      · dsimp only
        rw [κ.size h.queue]
        exact h.drain hg now _ _

theorem advance (h : NodeSim κ n n') (hg : CfgSim σ g g') {now now2 : Int} (hn : Pos σ.low c now) (hn2 : Pos σ.low c now2) :
    NodeSim κ (n.advance g now now2) (n'.advance g' (now + c) (now2 + c)) := by
  unfold Node.advance
  rw [h.on]
  split
  · exact h.integrate hg hn
  · rw [h.filt.init]
    refine ⟨?_, κ.empty, h.states, h.meas, h.msg, h.pose, h.ctl, h.pub, rfl, h.enabled, fun hh => h.fresh ?_⟩
    · dsimp only
      split
      · exact h.filt.setLast hn2
      · exact h.filt
    · dsimp only at hh
      split at hh <;> exact hh

theorem periodic (h : NodeSim κ n n') (hg : CfgSim σ g g') {now now2 : Int} (hn : Pos σ.low c now) (hn2 : Pos σ.low c now2)
    (tfOk : Bool) : NodeSim κ (n.periodic g now now2 tfOk).1 (n'.periodic g' (now + c) (now2 + c) tfOk).1 ∧
      List.Forall₂ (OutSim σ) (n.periodic g now now2 tfOk).2 (n'.periodic g' (now + c) (now2 + c) tfOk).2 := by
  unfold Node.periodic
  rw [h.enabled]
  split
  · exact ⟨h, .nil⟩
  · have ha : NodeSim κ (n.advance g now now2) (n'.advance g' (now + c) (now2 + c)) := h.advance hg hn hn2
    have hp : NodeSim κ ((n.advance g now now2).publish g tfOk).1 ((n'.advance g' (now + c) (now2 + c)).publish g' tfOk).1 ∧
        List.Forall₂ (OutSim σ) ((n.advance g now now2).publish g tfOk).2
          ((n'.advance g' (now + c) (now2 + c)).publish g' tfOk).2 := by
      revert ha
      generalize n.advance g now now2 = a
      generalize n'.advance g' (now + c) (now2 + c) = a'
      intro ha
      unfold Node.publish
      rw [ha.filt.init]
      by_cases hi : a.filt.initialized = true
      · have hl := ha.filt.set hi
        have ed : decide (a'.lastPub ≥ a'.filt.lastTime) = decide (a.lastPub ≥ a.filt.lastTime) := by
          apply decide_eq_decide.2
          rw [hl.1]
          exact (ha.pub.le hl.2).symm
        simp only [hi, if_true]
        rw [ed, hg.permit, hg.tf, hg.accel, hl.1]
        refine ⟨⟨ha.filt, ha.queue, ha.states, ha.meas, ha.msg, ha.pose, ha.ctl, Or.inl rfl, ha.on, ha.enabled, ha.fresh⟩, ?_⟩
        refine List.rel_append (List.rel_append ?_ ?_) ?_
        · split
          · exact .cons (.tf _) .nil
          · exact .nil
        · split
          · exact .cons (.odom ha.filt.x ha.filt.cov) .nil
          · exact .nil
        · split
          · exact .cons (.accel _) .nil
          · exact .nil
      · rw [Bool.not_eq_true] at hi
        simp only [hi, Bool.false_eq_true, if_false]
        exact ⟨ha, .nil⟩
    revert hp
    dsimp only
    generalize (n.advance g now now2).publish g tfOk = a
    generalize (n'.advance g' (now + c) (now2 + c)).publish g' tfOk = a'
    rintro ⟨hp, ho⟩
    refine ⟨?_, ho⟩
    rw [hg.smooth, hg.history]
    split
    · unfold Node.clearExpired
      by_cases hi : a.1.filt.initialized = true
      · have hl := hp.filt.set hi
        refine ⟨hp.filt, hp.queue, forall₂_rdrop (fun x y hxy => decide_eq_decide.2 ?_) hp.states,
          forall₂_rdrop (fun x y hxy => decide_eq_decide.2 ?_) hp.meas, hp.msg, hp.pose, hp.ctl, hp.pub, hp.on, hp.enabled,
          fun hh => ?_⟩
        · have := hxy.last
          omega
        · have := hxy.time
          omega
        · change a.1.filt.initialized = false at hh
          rw [hi] at hh
          cases hh
      · rw [Bool.not_eq_true] at hi
        have e := hp.fresh hi
        have s1 := hp.states
        have s2 := hp.meas
        rw [e.1] at s1
        rw [e.2] at s2
        have e1 : a'.1.stateHist = [] := by cases hh : a'.1.stateHist with
          | nil => rfl
          | cons x l => rw [hh] at s1; cases s1
        have e2 : a'.1.measHist = [] := by cases hh : a'.1.measHist with
          | nil => rfl
          | cons x l => rw [hh] at s2; cases s2
        refine ⟨hp.filt, hp.queue, ?_, ?_, hp.msg, hp.pose, hp.ctl, hp.pub, hp.on, hp.enabled, fun _ => ?_⟩
        · dsimp only
          rw [e.1, e1]
          exact .nil
        · dsimp only
          rw [e.2, e2]
          exact .nil
        · dsimp only
          rw [e.1, e.2]
          exact ⟨rfl, rfl⟩
    · exact hp

/-- One step keeps two nodes alike, and they send the same. -/
theorem step (h : NodeSim κ n n') (hg : CfgSim σ g g') {e e'} (he : EventSim σ e e') :
    NodeSim κ (n.step g e).1 (n'.step g' e').1 ∧ List.Forall₂ (OutSim σ) (n.step g e).2 (n'.step g' e').2 := by
  cases he with
  | sensor topic hp hz ht => exact ⟨h.sensor ht hp hz, .nil⟩
  | control hc => exact ⟨h.control hg hc, .nil⟩
  | setPose hp hn hr h0 => exact ⟨h.setPose hn hr h0, .nil⟩
  | reset hx hc => exact ⟨h.reset hg hx hc, .nil⟩
  | toggle on =>
    refine ⟨?_, .nil⟩
    show NodeSim κ (n.toggle on).1 (n'.toggle on).1
    unfold Node.toggle
    rw [h.on]
    split
    · exact h
    · exact ⟨h.filt, h.queue, h.states, h.meas, h.msg, h.pose, h.ctl, h.pub, rfl, h.enabled, h.fresh⟩
  | enable => exact ⟨⟨h.filt, h.queue, h.states, h.meas, h.msg, h.pose, h.ctl, h.pub, h.on, rfl, h.fresh⟩, .nil⟩
  | tick tfOk hn hn2 => exact h.periodic hg hn hn2 tfOk

/-- Whole runs. -/
theorem run (hg : CfgSim σ g g') {es es'} (he : List.Forall₂ (EventSim σ) es es') (h : NodeSim κ n n') :
    NodeSim κ (n.run g es).1 (n'.run g' es').1 ∧ List.Forall₂ (OutSim σ) (n.run g es).2 (n'.run g' es').2 := by
  induction he generalizing n n' with
  | nil => exact ⟨h, .nil⟩
  | cons hab _ ih =>
    have h1 := h.step hg hab
    have h2 := ih h1.1
    exact ⟨h2.1, List.rel_append h1.2 h2.2⟩

/-- Two nodes just started. -/
theorem start (hg : CfgSim σ g g') (hx : σ.X g.initialState g'.initialState) (hd : g'.disabledAtStartup = g.disabledAtStartup)
    (h0 : σ.Ctl g.ctl0 0 g'.ctl0 0) {e e' u u'} (he : σ.Ext e e') (hu : σ.Ctl u 0 u' 0) (now : Int) :
    NodeSim κ (Node.start g P e u now) (Node.start g' P' e' u' (now + c)) := by
  refine ⟨⟨rfl, hx, hg.cov, he, hg.noise, hu, Or.inl rfl, hg.timeout, fun hh => ?_⟩, κ.empty, .nil, .nil, fun _ _ _ => rfl,
    Or.inr ⟨rfl, rfl⟩, h0, Or.inr ⟨rfl, rfl⟩, rfl, congrArg not hd, fun _ => ⟨rfl, rfl⟩⟩
  cases hh

end NodeSim

end RL
