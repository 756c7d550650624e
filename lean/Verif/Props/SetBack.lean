import Verif.Props.Average
import Verif.Props.FirstDemo
import Verif.Props.Services
import Verif.Props.Regroup
/-!
# C140: after the clock has been set back the node goes on

A recording is played again, a simulation starts anew: the clock and the stamps go back.  The documented switch for that,
`reset_on_time_jump`, does nothing (`C102_time_jump`).  What then happens depends on `predict_to_current_time`.  Without it the
node is deaf and silent until the clock is where it was (`C140_silent`); a `reset` makes it start anew (`C140_reset_partial`).
With it the filter predicts into the past, which takes the process noise away again: the estimates sent afterwards have variances
that are too small or negative (`C140_negative`).
-/

namespace RL
open Matrix Real
open Nav (Given)

/-- The last message on a topic is younger than `t`. -/
def Node.Younger {C : Core} {P : MQueue C} (n : Node C P) (topic : String) (t : Int) : Prop := ∃ l, n.lastMsg topic = some l ∧ t < l

section
variable {C : Core} {P : MQueue C} (V : View C) (g : SysCfg C)

/-- What happens when things are played again: messages older than those already heard from the same source, commands, and
cycles at times before the time of the estimate, or after it by less than the sensor timeout. -/
def Sys.Ev.Again (s : Sys C P) : Sys.Ev → Prop
  | .odom i _ _ msg => ∀ a b, g.inputs.odomCds[i]? = some (a, b) →
      s.hub.node.Younger a.topic msg.stamp ∧ s.hub.node.Younger b.topic msg.stamp
  | .pose i _ _ msg => ∀ a, g.inputs.poseCds[i]? = some a → s.hub.node.Younger a.topic msg.stamp
  | .twist i _ _ msg => ∀ a, g.inputs.twistCds[i]? = some a → s.hub.node.Younger a.topic msg.stamp
  | .imu i _ _ msg => ∀ a b d, g.inputs.imuCds[i]? = some (a, b, d) →
      s.hub.node.Younger a.topic msg.stamp ∧ s.hub.node.Younger b.topic msg.stamp ∧ s.hub.node.Younger d.topic msg.stamp
  | .command _ _ => True
  | .enable => True
  | .tick now _ _ => now < s.hub.node.filt.lastTime + s.hub.node.filt.sensorTimeout
  | _ => False

/-- The same estimate, the same things heard, nothing waiting. -/
structure Sys.Idle (s s' : Sys C P) : Prop where
  x : s'.hub.node.filt.x = s.hub.node.filt.x
  cov : s'.hub.node.filt.cov = s.hub.node.filt.cov
  on : s'.hub.node.filt.initialized = s.hub.node.filt.initialized
  time : s'.hub.node.filt.lastTime = s.hub.node.filt.lastTime
  timeout : s'.hub.node.filt.sensorTimeout = s.hub.node.filt.sensorTimeout
  queue : s'.hub.node.queue = s.hub.node.queue
  heard : s'.hub.node.lastMsg = s.hub.node.lastMsg
  pub : s.hub.node.filt.initialized = true → s'.hub.node.lastPub = s.hub.node.filt.lastTime ∨ s'.hub.node.lastPub = s.hub.node.lastPub
  toggled : s'.hub.node.toggledOn = s.hub.node.toggledOn

theorem Sys.Idle.refl (s : Sys C P) : s.Idle s := ⟨rfl, rfl, rfl, rfl, rfl, rfl, rfl, fun _ => .inr rfl, rfl⟩

theorem Sys.Idle.trans {s s' s'' : Sys C P} (h : s.Idle s') (h' : s'.Idle s'') : s.Idle s'' :=
  ⟨h'.x.trans h.x, h'.cov.trans h.cov, h'.on.trans h.on, h'.time.trans h.time, h'.timeout.trans h.timeout, h'.queue.trans h.queue,
    h'.heard.trans h.heard, fun hi => by
      rcases h'.pub (h.on.trans hi) with e | e
      · exact .inl (e.trans h.time)
      · rw [e]; exact h.pub hi, h'.toggled.trans h.toggled⟩

theorem Sys.Ev.Again.mono {s s' : Sys C P} {e : Sys.Ev} (h : e.Again g s) (hs : s.Idle s') : e.Again g s' := by
  have hy : ∀ topic t, s.hub.node.Younger topic t → s'.hub.node.Younger topic t := by
    rintro topic t ⟨l, h1, h2⟩
    exact ⟨l, by rw [hs.heard]; exact h1, h2⟩
  cases e with
  | odom i buf junk msg => exact fun a b hab => ⟨hy _ _ (h a b hab).1, hy _ _ (h a b hab).2⟩
  | pose i buf junk msg => exact fun a ha => hy _ _ (h a ha)
  | twist i buf junk msg => exact fun a ha => hy _ _ (h a ha)
  | imu i buf junk msg => exact fun a b d hab => ⟨hy _ _ (h a b d hab).1, hy _ _ (h a b d hab).2.1, hy _ _ (h a b d hab).2.2⟩
  | command now u => trivial
  | enable => trivial
  | tick now now2 buf =>
    show now < _
    rw [hs.time, hs.timeout]
    exact h
  | _ => exact h.elim

theorem Node.Younger.sensor {n : Node C P} {topic : String} {t : Int} (h : n.Younger topic t) (z : Option C.Z) : n.sensor topic t z = n := by
  obtain ⟨l, h1, h2⟩ := h
  unfold Node.sensor
  split
  · rfl
  · rw [h1]
    dsimp only [Option.getD]
    rw [if_neg (not_le.2 h2)]

theorem Node.Younger.pose {h : Hub C P} {cd : CallbackData} {msg : PoseMsg} (hy : h.node.Younger cd.topic msg.stamp) (mk : Payload → C.Z)
    (c : PrepCtx) (target source : String) (imu : Bool) : h.poseCallback mk c msg cd target source imu = h := by
  obtain ⟨l, h1, h2⟩ := hy
  unfold Hub.poseCallback
  split
  · rfl
  · rw [h1]
    dsimp only [Option.getD]
    rw [if_neg (not_le.2 h2)]

theorem Node.Younger.twist {h : Hub C P} {cd : CallbackData} {msg : TwistMsg} (hy : h.node.Younger cd.topic msg.stamp) (mk : Payload → C.Z)
    (c : PrepCtx) (target : String) : h.twistCallback mk c msg cd target = h := by
  unfold Hub.twistCallback
  rw [hy.sensor]

theorem Node.Younger.accel {h : Hub C P} {cd : CallbackData} {msg : ImuMsg} (hy : h.node.Younger cd.topic msg.stamp) (mk : Payload → C.Z)
    (c : PrepCtx) (target : String) (grav : Bool) : h.accelCallback mk c msg cd target grav = h := by
  unfold Hub.accelCallback
  dsimp only
  rw [hy.sensor]

theorem Node.Younger.odom {h : Hub C P} {a b : CallbackData} {msg : OdomMsg} (ha : h.node.Younger a.topic msg.stamp)
    (hb : h.node.Younger b.topic msg.stamp) (mk : Payload → C.Z) (c : PrepCtx) : h.odomCallback mk c msg a b = h := by
  unfold Hub.odomCallback
  split
  · rfl
  · dsimp only
    rw [Node.Younger.pose (msg := { frame := msg.frame, stamp := msg.stamp, pos := msg.pos, ori := msg.ori, cov := msg.poseCov }) ha, ite_self]
    rw [Node.Younger.twist (msg := { frame := msg.child, stamp := msg.stamp, lin := msg.lin, ang := msg.ang, cov := msg.twistCov }) hb, ite_self]

theorem Node.Younger.imu {h : Hub C P} {a b d : CallbackData} {msg : ImuMsg} (ha : h.node.Younger a.topic msg.stamp)
    (hb : h.node.Younger b.topic msg.stamp) (hd : h.node.Younger d.topic msg.stamp) (mk : Payload → C.Z) (c : PrepCtx) (grav : Bool) :
    h.imuCallback mk c msg a b d grav = h := by
  unfold Hub.imuCallback
  split
  · rfl
  · dsimp only
    rw [Node.Younger.pose (msg := { frame := msg.frame, stamp := msg.stamp, pos := 0, ori := msg.ori, cov := angularCov msg.oriCov }) ha, ite_self]
    rw [Node.Younger.twist (msg := { frame := msg.frame, stamp := msg.stamp, lin := fun _ => .fin 0, ang := msg.vel, cov := angularCov msg.velCov })
      hb, ite_self, hd.accel, ite_self]

/-- A cycle at such a time. -/
theorem cycle_idle (hp : g.cfg.predictToCurrent = false) (hc : g.cfg.permitCorrected = false) (s : Sys C P)
    (hq : P.top s.hub.node.queue = none) (hon : s.hub.node.toggledOn = true)
    (hpub : s.hub.node.filt.initialized = true → s.hub.node.filt.lastTime ≤ s.hub.node.lastPub) (now now2 : Int) (buf : TfBuffer)
    (hn : now < s.hub.node.filt.lastTime + s.hub.node.filt.sensorTimeout) :
    (s.cycle V g now now2 buf).2 = [] ∧ s.Idle (s.cycle V g now now2 buf).1 := by
  have ha : s.hub.node.advance g.cfg now now2 = s.hub.node := by
    unfold Node.advance
    rw [if_pos hon]
    unfold Node.integrate
    rw [hq]
    have : ¬ now - s.hub.node.filt.lastTime ≥ s.hub.node.filt.sensorTimeout := by omega
    simp [hp, this]
  unfold Sys.cycle
  split
  swap
  · exact ⟨rfl, .refl s⟩
  rename_i hen
  have hper : s.hub.node.periodic g.cfg now now2 (Sys.tfDue g.frames buf) =
      (if g.cfg.smooth then ((s.hub.node.publish g.cfg (Sys.tfDue g.frames buf)).1).clearExpired
          ((s.hub.node.publish g.cfg (Sys.tfDue g.frames buf)).1.filt.lastTime - g.cfg.historyLength)
        else (s.hub.node.publish g.cfg (Sys.tfDue g.frames buf)).1, (s.hub.node.publish g.cfg (Sys.tfDue g.frames buf)).2) := by
    unfold Node.periodic
    rw [hen, ha]
    rfl
  dsimp only
  rw [hper]
  have hpb : (s.hub.node.publish g.cfg (Sys.tfDue g.frames buf)) =
      (if s.hub.node.filt.initialized then { s.hub.node with lastPub := s.hub.node.filt.lastTime } else s.hub.node, []) := by
    unfold Node.publish
    cases hi : s.hub.node.filt.initialized
    · rfl
    · have := hpub hi
      simp [hc, this]
  rw [hpb]
  refine ⟨rfl, ?_⟩
  dsimp only
  cases hi : s.hub.node.filt.initialized <;> cases hs : g.cfg.smooth
  · exact ⟨rfl, rfl, rfl, rfl, rfl, rfl, rfl, fun _ => .inr rfl, rfl⟩
  · exact ⟨rfl, rfl, rfl, rfl, rfl, rfl, rfl, fun _ => .inr rfl, rfl⟩
  · exact ⟨rfl, rfl, rfl, rfl, rfl, rfl, rfl, fun _ => .inl rfl, rfl⟩
  · exact ⟨rfl, rfl, rfl, rfl, rfl, rfl, rfl, fun _ => .inl rfl, rfl⟩

/-- C140 does not hold: whatever is played again, the node sends nothing and keeps its estimate, until the clock is where it was. -/
theorem C140_silent (hp : g.cfg.predictToCurrent = false) (hc : g.cfg.permitCorrected = false) (es : List Sys.Ev) :
    ∀ s : Sys C P, P.top s.hub.node.queue = none → s.hub.node.toggledOn = true →
    (s.hub.node.filt.initialized = true → s.hub.node.filt.lastTime ≤ s.hub.node.lastPub) → (∀ e ∈ es, e.Again g s) →
    (s.run V g es).2 = [] ∧ (s.run V g es).1.hub.node.filt.x = s.hub.node.filt.x ∧
      (s.run V g es).1.hub.node.filt.cov = s.hub.node.filt.cov := by
  have key : ∀ s : Sys C P, P.top s.hub.node.queue = none → s.hub.node.toggledOn = true →
      (s.hub.node.filt.initialized = true → s.hub.node.filt.lastTime ≤ s.hub.node.lastPub) → ∀ e : Sys.Ev, e.Again g s →
      (s.step V g e).2 = [] ∧ s.Idle (s.step V g e).1 := by
    intro s hq hon hpub e he
    cases e with
    | odom i buf junk msg =>
      unfold Sys.step
      dsimp only
      split
      · rename_i a b hab
        obtain ⟨h1, h2⟩ := he a b hab
        rw [Node.Younger.odom h1 h2, ite_self]
        exact ⟨rfl, .refl s⟩
      · exact ⟨rfl, .refl s⟩
    | pose i buf junk msg =>
      unfold Sys.step
      dsimp only
      split
      · rename_i a ha
        rw [Node.Younger.pose (he a ha), ite_self]
        exact ⟨rfl, .refl s⟩
      · exact ⟨rfl, .refl s⟩
    | twist i buf junk msg =>
      unfold Sys.step
      dsimp only
      split
      · rename_i a ha
        rw [Node.Younger.twist (he a ha), ite_self]
        exact ⟨rfl, .refl s⟩
      · exact ⟨rfl, .refl s⟩
    | imu i buf junk msg =>
      unfold Sys.step
      dsimp only
      split
      · rename_i a b d set hab _
        obtain ⟨h1, h2, h3⟩ := he a b d hab
        rw [Node.Younger.imu h1 h2 h3, ite_self]
        exact ⟨rfl, .refl s⟩
      · exact ⟨rfl, .refl s⟩
    | command now u =>
      refine ⟨rfl, ?_⟩
      unfold Sys.step Node.control
      dsimp only
      split
      · exact ⟨rfl, rfl, rfl, rfl, rfl, rfl, rfl, fun _ => .inr rfl, rfl⟩
      · exact .refl s
    | enable => exact ⟨rfl, rfl, rfl, rfl, rfl, rfl, rfl, rfl, fun _ => .inr rfl, rfl⟩
    | tick now now2 buf => exact cycle_idle V g hp hc s hq hon hpub now now2 buf he
    | _ => exact he.elim
  induction es with
  | nil => exact fun s _ _ _ _ => ⟨rfl, rfl, rfl⟩
  | cons e es ih =>
    intro s hq hon hpub hes
    obtain ⟨h1, h2⟩ := key s hq hon hpub e (hes e List.mem_cons_self)
    obtain ⟨i1, i2, i3⟩ := ih (s.step V g e).1 (by rw [h2.queue]; exact hq) (by rw [h2.toggled]; exact hon) (fun hi => by
        rw [h2.on] at hi
        rw [h2.time]
        rcases h2.pub hi with e | e
        · exact e.ge
        · rw [e]; exact hpub hi)
      (fun e' he' => (hes e' (List.mem_cons_of_mem _ he')).mono g h2)
    refine ⟨?_, i2.trans h2.x, i3.trans h2.cov⟩
    show (s.step V g e).2 ++ _ = []
    rw [h1]
    exact i1

/-! ## Nothing but a reset helps -/

/-- What has been heard, and the switches, are the same. -/
def Node.Same (n n' : Node C P) : Prop := n'.lastMsg = n.lastMsg ∧ n'.toggledOn = n.toggledOn ∧ n'.enabled = n.enabled

theorem drain_same (cfg : Cfg C) (now : Int) (fuel : ℕ) : ∀ (r : Int) (n : Node C P), n.Same (Node.drain cfg now fuel r n) := by
  induction fuel with
  | zero => exact fun _ _ => ⟨rfl, rfl, rfl⟩
  | succ fuel ih =>
    intro r n
    unfold Node.drain
    split
    · exact ⟨rfl, rfl, rfl⟩
    · dsimp only
      split
      · exact ⟨rfl, rfl, rfl⟩
      · exact ih _ _

theorem revertTo_same (n : Node C P) (t : Int) : n.Same (n.revertTo t).1 := by
  unfold Node.revertTo
  dsimp only
  split <;> exact ⟨rfl, rfl, rfl⟩

theorem periodic_same (cfg : Cfg C) (n : Node C P) (now now2 : Int) (ok : Bool) : n.Same (n.periodic cfg now now2 ok).1 := by
  have hi : n.Same (n.integrate cfg now) := by
    unfold Node.integrate
    split
    · dsimp only
      have e : ∀ m : Node C P, n.Same m → n.Same (if m.filt.initialized && cfg.predictToCurrent then m.predictTo now else m) := by
        intro m hm
        split <;> exact hm
      refine e _ ?_
      have e2 : ∀ m : Node C P × Int, n.Same m.1 → n.Same (Node.drain cfg now (P.size m.1.queue) m.2 m.1) := by
        intro m hm
        obtain ⟨h1, h2, h3⟩ := drain_same cfg now (P.size m.1.queue) m.2 m.1
        exact ⟨h1.trans hm.1, h2.trans hm.2.1, h3.trans hm.2.2⟩
      refine e2 _ ?_
      split
      · exact revertTo_same n _
      · exact ⟨rfl, rfl, rfl⟩
    · dsimp only
      split <;> exact ⟨rfl, rfl, rfl⟩
  have ha : n.Same (n.advance cfg now now2) := by
    unfold Node.advance
    split
    · exact hi
    · exact ⟨rfl, rfl, rfl⟩
  have hp : n.Same ((n.advance cfg now now2).publish cfg ok).1 := by
    unfold Node.publish
    split <;> exact ha
  unfold Node.periodic
  split
  · exact ⟨rfl, rfl, rfl⟩
  · dsimp only
    split <;> exact hp

/-- Messages of sensors. -/
def Sys.Ev.message : Sys.Ev → Bool
  | .odom .. => true
  | .pose .. => true
  | .twist .. => true
  | .imu .. => true
  | _ => false

theorem message_again (s : Sys C P) (e : Sys.Ev) (hm : e.message = true) (he : e.Again g s) : s.step V g e = (s, []) := by
  cases e with
  | odom i buf junk msg =>
    unfold Sys.step
    dsimp only
    split
    · rename_i a b hab
      obtain ⟨h1, h2⟩ := he a b hab
      rw [Node.Younger.odom h1 h2, ite_self]
    · rfl
  | pose i buf junk msg =>
    unfold Sys.step
    dsimp only
    split
    · rename_i a ha
      rw [Node.Younger.pose (he a ha), ite_self]
    · rfl
  | twist i buf junk msg =>
    unfold Sys.step
    dsimp only
    split
    · rename_i a ha
      rw [Node.Younger.twist (he a ha), ite_self]
    · rfl
  | imu i buf junk msg =>
    unfold Sys.step
    dsimp only
    split
    · rename_i a b d set hab _
      obtain ⟨h1, h2, h3⟩ := he a b d hab
      rw [Node.Younger.imu h1 h2 h3, ite_self]
    · rfl
  | _ => cases hm

theorem other_heard (s : Sys C P) (e : Sys.Ev) (hm : e.message = false) (hr : e ≠ .reset) :
    (s.step V g e).1.hub.node.lastMsg = s.hub.node.lastMsg := by
  cases e with
  | command now u =>
    show (s.hub.node.control g.cfg (V.ctl u) now).lastMsg = _
    unfold Node.control
    split <;> rfl
  | setPose now buf junk msg => rfl
  | reset => exact absurd rfl hr
  | toggle on =>
    show (s.hub.node.toggle on).1.lastMsg = _
    unfold Node.toggle
    split <;> rfl
  | enable => rfl
  | tick now now2 buf =>
    show (s.cycle V g now now2 buf).1.hub.node.lastMsg = _
    unfold Sys.cycle
    split
    · exact (periodic_same ..).1
    · rfl
  | _ => cases hm

theorem message_younger {s s' : Sys C P} (h : s'.hub.node.lastMsg = s.hub.node.lastMsg) {e : Sys.Ev} (hm : e.message = true)
    (he : e.Again g s) : e.Again g s' := by
  have hy : ∀ topic t, s.hub.node.Younger topic t → s'.hub.node.Younger topic t := by
    rintro topic t ⟨l, h1, h2⟩
    exact ⟨l, by rw [h]; exact h1, h2⟩
  cases e with
  | odom i buf junk msg => exact fun a b hab => ⟨hy _ _ (he a b hab).1, hy _ _ (he a b hab).2⟩
  | pose i buf junk msg => exact fun a ha => hy _ _ (he a ha)
  | twist i buf junk msg => exact fun a ha => hy _ _ (he a ha)
  | imu i buf junk msg => exact fun a b d hab => ⟨hy _ _ (he a b d hab).1, hy _ _ (he a b d hab).2.1, hy _ _ (he a b d hab).2.2⟩
  | _ => cases hm

/-- C140 does not hold: with any settings, and also when a pose is set or the filter is switched off and on in between, the node
does the same as if the sensors were silent. -/
theorem C140_deaf (es : List Sys.Ev) : ∀ s : Sys C P, (∀ e ∈ es, e ≠ .reset) → (∀ e ∈ es, e.message = true → e.Again g s) →
    s.run V g es = s.run V g (es.filter fun e => !e.message) := by
  induction es with
  | nil => exact fun _ _ _ => rfl
  | cons e es ih =>
    intro s hr hm
    cases h : e.message
    · rw [List.filter_cons_of_pos (by rw [h]; rfl)]
      have := ih (s.step V g e).1 (fun e' he' => hr e' (List.mem_cons_of_mem _ he')) (fun e' he' h' =>
        message_younger g (other_heard V g s e h (hr e List.mem_cons_self)) h' (hm e' (List.mem_cons_of_mem _ he') h'))
      simp only [Sys.run]
      rw [this]
    · rw [List.filter_cons_of_neg (by rw [h]; simp)]
      rw [← ih s (fun e' he' => hr e' (List.mem_cons_of_mem _ he')) (fun e' he' => hm e' (List.mem_cons_of_mem _ he'))]
      simp only [Sys.run]
      rw [message_again V g s e h (hm e List.mem_cons_self h)]
      rfl

theorem sensors_switches (cfg : Cfg C) (as : List (Node.Event C)) (h : ∀ a ∈ as, ∃ topic stamp z, a = .sensor topic stamp z) :
    ∀ n : Node C P, (n.run cfg as).1.toggledOn = n.toggledOn ∧ (n.run cfg as).1.enabled = n.enabled := by
  induction as with
  | nil => exact fun _ => ⟨rfl, rfl⟩
  | cons a as ih =>
    intro n
    obtain ⟨topic, stamp, z, rfl⟩ := h a List.mem_cons_self
    obtain ⟨h1, h2⟩ := ih (fun b hb => h b (List.mem_cons_of_mem _ hb)) (n.sensor topic stamp z)
    have : (n.sensor topic stamp z).toggledOn = n.toggledOn ∧ (n.sensor topic stamp z).enabled = n.enabled := by
      unfold Node.sensor
      split
      · exact ⟨rfl, rfl⟩
      · dsimp only
        split
        · cases z <;> exact ⟨rfl, rfl⟩
        · exact ⟨rfl, rfl⟩
    exact ⟨h1.trans this.1, h2.trans this.2⟩

theorem step_switches (s : Sys C P) (e : Sys.Ev) (ht : ∀ on, e ≠ .toggle on) (he : e ≠ .enable) :
    (s.step V g e).1.hub.node.toggledOn = s.hub.node.toggledOn ∧ (s.step V g e).1.hub.node.enabled = s.hub.node.enabled := by
  cases e with
  | odom i buf junk msg => rw [(s.step_eq V g _).1]; exact sensors_switches _ _ (Sys.events_sensors V g s _ trivial) _
  | pose i buf junk msg => rw [(s.step_eq V g _).1]; exact sensors_switches _ _ (Sys.events_sensors V g s _ trivial) _
  | twist i buf junk msg => rw [(s.step_eq V g _).1]; exact sensors_switches _ _ (Sys.events_sensors V g s _ trivial) _
  | imu i buf junk msg => rw [(s.step_eq V g _).1]; exact sensors_switches _ _ (Sys.events_sensors V g s _ trivial) _
  | command now u =>
    show (s.hub.node.control g.cfg (V.ctl u) now).toggledOn = _ ∧ (s.hub.node.control g.cfg (V.ctl u) now).enabled = _
    unfold Node.control
    split <;> exact ⟨rfl, rfl⟩
  | setPose now buf junk msg => exact ⟨rfl, rfl⟩
  | reset => exact ⟨rfl, rfl⟩
  | toggle on => exact absurd rfl (ht on)
  | enable => exact absurd rfl he
  | tick now now2 buf =>
    show (s.cycle V g now now2 buf).1.hub.node.toggledOn = _ ∧ (s.cycle V g now now2 buf).1.hub.node.enabled = _
    unfold Sys.cycle
    split
    · exact (periodic_same ..).2
    · exact ⟨rfl, rfl⟩

/-- C140 after a call of `reset`, as far as that works (`C27_reset_partial`): the node is as it was at its start, but for the
last angular velocity and the switches. -/
theorem C140_reset_partial [Subsingleton C.Ext] (hu : g.cfg.useControl = false) (hx : g.cfg.initialState = C.zeroX)
    (hN : g.cfg.keptNoise = g.cfg.processNoise) (hP : g.cfg.keptCov = g.cfg.initialCov) (ext0 : C.Ext) (fctl0 : C.Ctl) (t0 : Int)
    (d : Differ) (es : List Sys.Ev) (ht : ∀ on, .toggle on ∉ es) (he : .enable ∉ es) (es' : List Sys.Ev) :
    ∃ d', ((Sys.start g P ext0 fctl0 t0 d).run V g (es ++ .reset :: es')).2 =
      ((Sys.start g P ext0 fctl0 t0 d).run V g es).2 ++ ((Sys.start g P ext0 fctl0 0 d').run V g es').2 := by
  have hsw : ∀ (es : List Sys.Ev) (s : Sys C P), (∀ on, Sys.Ev.toggle on ∉ es) → Sys.Ev.enable ∉ es →
      (s.run V g es).1.hub.node.toggledOn = s.hub.node.toggledOn ∧ (s.run V g es).1.hub.node.enabled = s.hub.node.enabled := by
    intro es
    induction es with
    | nil => exact fun s _ _ => ⟨rfl, rfl⟩
    | cons e es ih =>
      intro s ht he
      obtain ⟨h1, h2⟩ := ih (s.step V g e).1 (fun on h => ht on (List.mem_cons_of_mem _ h)) (fun h => he (List.mem_cons_of_mem _ h))
      obtain ⟨h3, h4⟩ := step_switches V g s e (fun on h => ht on (h ▸ List.mem_cons_self)) (fun h => he (h ▸ List.mem_cons_self))
      exact ⟨h1.trans h3, h2.trans h4⟩
  obtain ⟨h1, h2⟩ := hsw es (Sys.start g P ext0 fctl0 t0 d) ht he
  have hr := C27_reset_partial (P := P) g.cfg hu hx hN hP ext0 fctl0 t0 ((Sys.start g P ext0 fctl0 t0 d).allEvents V g es)
  have hrun := Sys.run_node V g es (Sys.start g P ext0 fctl0 t0 d)
  rw [show (Sys.start g P ext0 fctl0 t0 d).hub.node = Node.start g.cfg P ext0 fctl0 t0 from rfl] at hrun
  dsimp only at hr
  rw [← hrun, h1, h2] at hr
  refine ⟨((Sys.start g P ext0 fctl0 t0 d).run V g es).1.diff, ?_⟩
  have hstep : (((Sys.start g P ext0 fctl0 t0 d).run V g es).1.step V g .reset).1 =
      Sys.start g P ext0 fctl0 0 ((Sys.start g P ext0 fctl0 t0 d).run V g es).1.diff := by
    show ({ hub := { node := ((Sys.start g P ext0 fctl0 t0 d).run V g es).1.hub.node.reset g.cfg
                     mem := { init := fun _ => none, prev := fun _ => none } }
            diff := ((Sys.start g P ext0 fctl0 t0 d).run V g es).1.diff } : Sys C P) = _
    rw [hr]
    rfl
  rw [Sys.run_append]
  refine congrArg (_ ++ ·) ?_
  show ((((Sys.start g P ext0 fctl0 t0 d).run V g es).1.step V g .reset).1.run V g es').2 = _
  rw [hstep]

end

/-! ## Predicting into the past -/

/-- A cycle in which the filter only predicts. -/
theorem Node.predict_tick {C : Core} {P : MQueue C} (cfg : Cfg C) (hp : cfg.predictToCurrent = true) (n : Node C P) (hen : n.enabled = true)
    (hon : n.toggledOn = true) (hq : P.top n.queue = none) (hi : n.filt.initialized = true) (now now2 : Int) (ok : Bool) :
    n.advance cfg now now2 = n.predictTo now ∧
    (n.periodic cfg now now2 ok).1.filt = (n.predictTo now).filt ∧ (n.periodic cfg now now2 ok).1.queue = n.queue ∧
    (n.periodic cfg now now2 ok).1.lastPub = now ∧
    (n.lastPub < now → Out.odom now (n.predictTo now).filt.x (n.predictTo now).filt.cov ∈ (n.periodic cfg now now2 ok).2) := by
  have ha : n.advance cfg now now2 = n.predictTo now := by
    unfold Node.advance
    rw [if_pos hon]
    unfold Node.integrate
    rw [hq]
    simp [hp, hi]
  have ht : (n.predictTo now).filt.lastTime = now := by
    show n.filt.lastTime + (now - n.filt.lastTime) = now
    omega
  have hi' : (n.predictTo now).filt.initialized = true := hi
  refine ⟨ha, ?_⟩
  have hpub : ((n.predictTo now).publish cfg ok).1 = { n.predictTo now with lastPub := now } := by
    unfold Node.publish
    rw [if_pos hi', ht]
  unfold Node.periodic
  rw [hen, ha]
  simp only [Bool.not_true, Bool.false_eq_true, if_false]
  refine ⟨?_, ?_, ?_, fun hl => ?_⟩
  · rw [hpub]; split <;> rfl
  · rw [hpub]; split <;> rfl
  · rw [hpub]; split <;> rfl
  · unfold Node.publish
    rw [if_pos hi', ht]
    have : ¬ now ≤ (n.predictTo now).lastPub := not_le.2 hl
    simp [this]

/-- A prediction of a robot that does not turn. -/
theorem ekf_step_back {p : FilterPar} (hc : ∀ c, p.ctlUpd c = false) (Q : Mat15) (ctl : Fin 6 → ℝ) (ct ref : Int) (dt : ℝ) (x : State) (S : Mat15)
    (hcos : cos (x iPitch) ≠ 0) (h10 : x 10 = 0) (h11 : x 11 = 0) :
    ∃ x' S', Ekf.predict p Q ctl ct ref dt x S = some (x', S') ∧ cos (x' iPitch) ≠ 0 ∧ x' 10 = 0 ∧ x' 11 = 0 ∧
      ∀ i : Fin 15, Held i → S' i i = S i i + dt * Q i i := by
  obtain ⟨r, hr⟩ : ∃ r, Ekf.predict p Q ctl ct ref dt x S = some r := by
    unfold Ekf.predict
    dsimp only
    rw [if_neg hcos]
    exact ⟨_, rfl⟩
  obtain ⟨x', S'⟩ := r
  refine ⟨x', S', hr, ?_, ?_, ?_, fun i hi => (predict_kept hc hr hi hi).2⟩
  · unfold Ekf.predict at hr
    dsimp only at hr
    rw [if_neg hcos, applyControl_none p hc] at hr
    obtain ⟨e1, -⟩ := Prod.mk.inj (Option.some.inj hr)
    rw [← e1]
    obtain ⟨k, hk⟩ := (wrap_upToTurns ((transferF x dt).mulVec x) 4).1 (Or.inr (Or.inl rfl))
    show cos (wrapStateAngles _ 4) ≠ 0
    rw [hk, cos_add_int_mul_two_pi, transferF_mulVec4]
    simpa [h10, h11, iPitch] using hcos
  · exact ((predict_kept hc hr (i := 10) (j := 10) (by simp [Held]) (by simp [Held])).1).trans h10
  · exact ((predict_kept hc hr (i := 11) (j := 11) (by simp [Held]) (by simp [Held])).1).trans h11

/-- C140 does not hold: with `predict_to_current_time` the cycle after the clock was set back takes the noise of that time off the
covariance, and the next one sends what is left. -/
theorem C140_negative {p : FilterPar} {P : MQueue (ekfCore p)} (g : SysCfg (ekfCore p)) (hp : g.cfg.predictToCurrent = true)
    (hc : ∀ c, p.ctlUpd c = false) (s : Sys (ekfCore p) P) (hen : s.hub.node.enabled = true) (hon : s.hub.node.toggledOn = true)
    (hq : P.top s.hub.node.queue = none) (hi : s.hub.node.filt.initialized = true) (x : State) (hx : s.hub.node.filt.x = some x)
    (hcos : cos (x iPitch) ≠ 0) (h10 : x 10 = 0) (h11 : x 11 = 0) {S Q : Mat15} (hS : s.hub.node.filt.cov = S)
    (hQ : s.hub.node.filt.par = Q) (t1 t1' t2 t2' : Int) (h12 : t1 < t2) (buf1 buf2 : TfBuffer) :
    ∃ m, Sent.odom t2 (some m) ∈ (s.run (ekfView p) g [.tick t1 t1' buf1, .tick t2 t2' buf2]).2 ∧
      ∀ i : Fin 3, m.twistCov ⟨7 * (3 + i.val), by omega⟩ =
        S ⟨9 + i.val, by omega⟩ ⟨9 + i.val, by omega⟩ +
          toSec (t2 - s.hub.node.filt.lastTime) * Q ⟨9 + i.val, by omega⟩ ⟨9 + i.val, by omega⟩ := by
  have key : ∀ (n : Node (ekfCore p) P) (x : State) (S Q : Mat15), n.filt.x = some x → n.filt.cov = S → n.filt.par = Q →
      cos (x iPitch) ≠ 0 → x 10 = 0 → x 11 = 0 → ∀ now, ∃ x' S', (n.predictTo now).filt.x = some x' ∧ (n.predictTo now).filt.cov = S' ∧
        cos (x' iPitch) ≠ 0 ∧ x' 10 = 0 ∧ x' 11 = 0 ∧ ∀ i : Fin 15, Held i → S' i i = S i i + toSec (now - n.filt.lastTime) * Q i i := by
    intro n x S Q hx hS hQ hcos h10 h11 now
    obtain ⟨x', S', h, h1, h2, h3, h4⟩ := ekf_step_back hc Q n.filt.ctl n.filt.ctlTime now (toSec (now - n.filt.lastTime)) x S hcos h10 h11
    have e : (ekfCore p).predict n.filt.par n.filt.ctl n.filt.ctlTime now (now - n.filt.lastTime) (n.filt.x, n.filt.cov, n.filt.ext) =
        (some x', S', ()) := by
      show (match n.filt.x.bind (fun x => Ekf.predict p n.filt.par n.filt.ctl n.filt.ctlTime now (toSec (now - n.filt.lastTime)) x n.filt.cov) with
        | some r => (some r.1, r.2, ())
        | none => (none, n.filt.cov, ())) = _
      rw [hx, hS, hQ, Option.bind_some, h]
    refine ⟨x', S', ?_, ?_, h1, h2, h3, h4⟩
    · show ((ekfCore p).predict n.filt.par n.filt.ctl n.filt.ctlTime now (now - n.filt.lastTime) (n.filt.x, n.filt.cov, n.filt.ext)).1 = _
      rw [e]
    · show ((ekfCore p).predict n.filt.par n.filt.ctl n.filt.ctlTime now (now - n.filt.lastTime) (n.filt.x, n.filt.cov, n.filt.ext)).2.1 = _
      rw [e]
  obtain ⟨n, hn⟩ : ∃ n, n = s.hub.node := ⟨_, rfl⟩
  rw [← hn] at hen hon hq hi hx hS hQ ⊢
  obtain ⟨-, a1, a2, a3, -⟩ := Node.predict_tick g.cfg hp n hen hon hq hi t1 t1' (Sys.tfDue g.frames buf1)
  obtain ⟨-, s1, s2⟩ := periodic_same g.cfg n t1 t1' (Sys.tfDue g.frames buf1)
  obtain ⟨x1, S1, hx1, hS1, c1, d1, e1, v1⟩ := key n x S Q hx hS hQ hcos h10 h11 t1
  obtain ⟨n1, hn1⟩ : ∃ n1, n1 = (n.periodic g.cfg t1 t1' (Sys.tfDue g.frames buf1)).1 := ⟨_, rfl⟩
  rw [← hn1] at a1 a2 a3 s1 s2
  have l1 : n1.filt.lastTime = t1 := by
    rw [a1]
    show n.filt.lastTime + (t1 - n.filt.lastTime) = t1
    omega
  obtain ⟨b0, b1, -, -, b4⟩ := Node.predict_tick g.cfg hp n1 (s2.trans hen) (s1.trans hon) (by rw [a2]; exact hq) (by rw [a1]; exact hi) t2 t2'
    (Sys.tfDue g.frames buf2)
  obtain ⟨x2, S2, hx2, hS2, -, -, -, v2⟩ := key n1 x1 S1 Q (by rw [a1]; exact hx1) (by rw [a1]; exact hS1) (by rw [a1]; exact hQ) c1 d1 e1 t2
  have hout := b4 (by rw [a3]; exact h12)
  have hs1 : (s.step (ekfView p) g (.tick t1 t1' buf1)).1.hub.node = n1 := by
    show (s.cycle (ekfView p) g t1 t1' buf1).1.hub.node = n1
    unfold Sys.cycle
    rw [if_pos (by rw [← hn]; exact hen), hn1, hn]
  obtain ⟨m, hm, hcov⟩ : ∃ m, odomMessage g.frames true x2 S2 t2 = some m ∧
      ∀ k : Fin 36, m.twistCov k = S2 ⟨k.val / 6 + 6, by omega⟩ ⟨k.val % 6 + 6, by omega⟩ := ⟨_, rfl, fun _ => rfl⟩
  refine ⟨m, ?_, fun i => ?_⟩
  · show _ ∈ (s.step (ekfView p) g (.tick t1 t1' buf1)).2 ++ (((s.step (ekfView p) g (.tick t1 t1' buf1)).1.cycle (ekfView p) g t2 t2' buf2).2 ++ [])
    rw [List.append_nil]
    refine List.mem_append_right _ ?_
    unfold Sys.cycle
    rw [hs1, if_pos (s2.trans hen)]
    dsimp only
    refine List.mem_map.2 ⟨_, hout, ?_⟩
    show Sent.odom t2 (((ekfView p).state (n1.predictTo t2).filt.x).bind fun y => odomMessage g.frames true y
      ((ekfView p).cov (n1.predictTo t2).filt.cov) t2) = _
    rw [hx2, hS2, ← hm]
    rfl
  · have hi : Held (⟨9 + i.val, by omega⟩ : Fin 15) := by simp [Held]
    have h1 : (⟨7 * (3 + i.val) / 6 + 6, by omega⟩ : Fin 15) = ⟨9 + i.val, by omega⟩ := Fin.ext (by simp only; omega)
    have h2 : (⟨7 * (3 + i.val) % 6 + 6, by omega⟩ : Fin 15) = ⟨9 + i.val, by omega⟩ := Fin.ext (by simp only; omega)
    rw [hcov]
    dsimp only
    rw [h1, h2, v2 _ hi, v1 _ hi, l1, add_assoc, ← add_mul, ← toSec_add]
    congr 3
    omega

/-! ## Examples -/

/-- A node that has run until 100 s. -/
noncomputable def replayed (c : NodeConf) : Sys (ekfCore c.par) (demoQ c.par) :=
  let s := Sys.start c.sys (demoQ c.par) () (0 : Fin 6 → ℝ) 0 ⟨0, 0, 0, 0⟩
  { s with
    hub :=
      { s.hub with
        node :=
          { s.hub.node with
            filt :=
              { s.hub.node.filt with
                x := some (0 : State), cov := (1 : Mat15), par := (1 : Mat15), initialized := true, lastTime := 100000000000
                sensorTimeout := 1000000000 }
            lastMsg := fun _ => some 100000000000, lastPub := 100000000000, enabled := true } } }

theorem replayed_message (c : NodeConf) : (Sys.Ev.twist 0 noTf 0 towMsg).Again c.sys (replayed c) := by
  intro a _
  exact ⟨100000000000, rfl, by norm_num [towMsg]⟩

example (c : NodeConf) (hp : c.sys.cfg.predictToCurrent = false) (hc : c.sys.cfg.permitCorrected = false) :
    ((replayed c).run (ekfView c.par) c.sys [.tick 1000000000 1000000000 noTf, .twist 0 noTf 0 towMsg, .tick 2000000000 2000000000 noTf]).2 = [] := by
  refine (C140_silent _ _ hp hc _ (replayed c) rfl rfl (fun _ => le_refl _) ?_).1
  intro e he
  fin_cases he
  · show (1000000000 : Int) < 100000000000 + 1000000000
    norm_num
  · exact replayed_message c
  · show (2000000000 : Int) < 100000000000 + 1000000000
    norm_num

/-- Setting a pose does not help. -/
example (c : NodeConf) : (replayed c).run (ekfView c.par) c.sys [.setPose 1000000000 noTf 0 quayPose, .twist 0 noTf 0 towMsg, .tick 2000000000 2000000000 noTf] =
    (replayed c).run (ekfView c.par) c.sys [.setPose 1000000000 noTf 0 quayPose, .tick 2000000000 2000000000 noTf] := by
  refine C140_deaf _ _ _ (replayed c) (fun e he => by fin_cases he <;> simp) ?_
  intro e he hm
  fin_cases he
  · cases hm
  · exact replayed_message c
  · cases hm

/-- Settings for which `reset` works. -/
example (c : NodeConf) : ∃ g : SysCfg (ekfCore c.par), ∃ d', ((Sys.start g (demoQ c.par) () (0 : Fin 6 → ℝ) 5 ⟨0, 0, 0, 0⟩).run (ekfView c.par) g
      ([.twist 0 noTf 0 towMsg, .tick 2000000000 2000000000 noTf] ++ .reset :: [.twist 0 noTf 0 towMsg])).2 =
    ((Sys.start g (demoQ c.par) () (0 : Fin 6 → ℝ) 5 ⟨0, 0, 0, 0⟩).run (ekfView c.par) g [.twist 0 noTf 0 towMsg, .tick 2000000000 2000000000 noTf]).2 ++
      ((Sys.start g (demoQ c.par) () (0 : Fin 6 → ℝ) 0 d').run (ekfView c.par) g [.twist 0 noTf 0 towMsg]).2 := by
  haveI : Subsingleton (ekfCore c.par).Ext := inferInstanceAs (Subsingleton Unit)
  exact ⟨{ c.sys with
    cfg := { c.sys.cfg with useControl := false, initialState := (ekfCore c.par).zeroX, keptNoise := c.sys.cfg.processNoise
                            keptCov := c.sys.cfg.initialCov } },
    C140_reset_partial _ _ rfl rfl rfl rfl _ _ _ _ _ (by simp) (by simp) _⟩

/-- Ten seconds before, a variance of one has become negative. -/
example (c : NodeConf) (hp : c.sys.cfg.predictToCurrent = true) (hc : ∀ k, c.par.ctlUpd k = false) :
    ∃ m, Sent.odom 90000000000 (some m) ∈
      ((replayed c).run (ekfView c.par) c.sys [.tick 89000000000 89000000000 noTf, .tick 90000000000 90000000000 noTf]).2 ∧ m.twistCov 35 = -9 := by
  obtain ⟨m, h1, h2⟩ := C140_negative (P := demoQ c.par) c.sys hp hc (replayed c) rfl rfl rfl rfl 0 rfl (by simp) rfl rfl (S := 1) (Q := 1) rfl rfl
    89000000000 89000000000 90000000000 90000000000 (by norm_num) noTf noTf
  refine ⟨m, h1, (h2 2).trans ?_⟩
  rw [Matrix.one_apply_eq]
  show 1 + toSec (90000000000 - 100000000000) * 1 = -9
  norm_num [toSec]

end RL
