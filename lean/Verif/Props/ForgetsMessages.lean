import Verif.Props.BetterMessages
/-! # C150 for the messages of whole nodes -/

namespace RL
open Matrix

/-- Inputs for velocities, rates and accelerations without rejection thresholds, and none for poses. -/
structure Inputs.Velocities (n : Inputs) : Prop where
  odom : ∀ (i : ℕ) (a b : CallbackData), n.odomCds[i]? = some (a, b) → a.sum = 0 ∧ b.Selects 6 6
  pose : ∀ (i : ℕ) (a : CallbackData), n.poseCds[i]? = some a → a.sum = 0
  twist : ∀ (i : ℕ) (b : CallbackData), n.twistCds[i]? = some b → b.Selects 6 6
  imu : ∀ (i : ℕ) (a b d : CallbackData), n.imuCds[i]? = some (a, b, d) → a.sum = 0 ∧ b.Selects 9 3 ∧
    d.Selects 12 3

/-- Sensors in the middle of the robot, turned in any way. -/
def Centred (buf : TfBuffer) : Prop := ∀ a b s t, buf a b s = some t → IsRot t.rot ∧ t.org = 0

/-- Velocities and accelerations come from sensors in the middle of the robot, with covariances that are ones; gravity is not
removed from accelerations, or by means of an orientation that comes with them. -/
def Sys.Ev.Centred (n : Inputs) : Sys.Ev → Prop
  | .odom _ buf _ m => RL.Centred buf ∧ (msgCov m.twistCov).PosSemidef
  | .twist _ buf _ m => RL.Centred buf ∧ (msgCov m.cov).PosSemidef
  | .imu i buf _ m => RL.Centred buf ∧ (msgCov3 m.velCov).PosSemidef ∧ (msgCov3 m.accCov).PosSemidef ∧
      (¬ |m.oriCov 0 + 1| < 1e-9 ∨ ∀ set, n.imus[i]? = some set → set.removeGravity = false)
  | _ => True

/-- Messages of the same kind about the same instant; the velocities and rates in two odometry messages differ by at most
√κ of the standard deviations in the first one. -/
inductive Sent.Close (κ : ℝ) : Sent → Sent → Prop
  | odom (t : Int) {m m' : Option OdomMsg} (h : ∀ a b, m = some a → m' = some b → ∀ k : Fin 3,
      ((b.lin k).val - (a.lin k).val) ^ 2 ≤ κ * a.twistCov ⟨7 * k.val, by omega⟩ ∧
        ((b.ang k).val - (a.ang k).val) ^ 2 ≤ κ * a.twistCov ⟨7 * (k.val + 3), by omega⟩) : Close κ (.odom t m) (.odom t m')
  | tf (t : Int) (m m' : Option TfMsg) : Close κ (.tf t m) (.tf t m')
  | accel (t : Int) (m m' : Option AccelMsg) : Close κ (.accel t m) (.accel t m')

theorem cross_zero (w : V3) : cross 0 w = 0 := by
  funext i
  fin_cases i <;> simp [cross]

theorem lookup_centred {buf : TfBuffer} (h : Centred buf) {a b : String} {s : Int} {t : Tf} (hl : lookupTransformSafe buf a b s = some t) :
    IsRot t.rot ∧ t.org = 0 := by
  unfold lookupTransformSafe at hl
  split at hl
  · rename_i h1; exact h _ _ _ _ (h1.trans hl)
  · split at hl
    · rename_i h1; exact h _ _ _ _ (h1.trans hl)
    · split at hl
      · injection hl with hl
        subst hl
        exact ⟨IsRot.one, rfl⟩
      · cases hl

/-- In the middle of the robot, what is made of a velocity does not depend on the estimate. -/
theorem twist_centred {c c' : PrepCtx} (hbuf : c'.buf = c.buf) (h2 : c'.twoD = c.twoD) (hc : Centred c.buf) (m : TwistMsg) (target : String)
    (q : Payload) : prepareTwist c' m target q = prepareTwist c m target q := by
  unfold prepareTwist
  rw [hbuf]
  cases hl : lookupTransformSafe c.buf target (if m.frame = "" then target else m.frame) m.stamp with
  | none => rfl
  | some t =>
    have ho := (lookup_centred hc hl).2
    simp only [Option.map_some, twistPayload, finish, h2, ho, cross_zero]

theorem twist_open {c : PrepCtx} (h2 : c.twoD = false) (hc : Centred c.buf) {m : TwistMsg} {cd : CallbackData}
    (hR : cd.Selects 6 6 ∧ (msgCov m.cov).PosSemidef ∨ cd.Selects 9 3 ∧ ∃ a, m.cov = angularCov a ∧ (msgCov3 a).PosSemidef)
    {target : String} {q : Payload} (h : prepareTwist c m target cd.blank = some q) : q.OpenMotion := by
  obtain ⟨t, hl, rfl⟩ := Option.map_eq_some_iff.1 h
  have ht := (lookup_centred hc hl).1
  have hu : ∀ i, cd.upd i = true → 6 ≤ i.val := by
    intro i hi
    rcases hR with ⟨h, _⟩ | ⟨h, _⟩ <;> have := h.upd i hi <;> omega
  have hth : cd.thresh = .unlimited := hR.elim (fun h => h.1.unlimited) fun h => h.1.unlimited
  unfold twistPayload finish
  dsimp only
  rw [h2, (C43_matrix_to_quaternion ht).2, copyCov6_eq]
  refine ⟨put_motion (by omega) (put_motion (by omega) hu _) _, good_of_psd ?_, hth⟩
  show (putBlock 6 6 0 (rot6d t.rot * msgCov m.cov * (rot6d t.rot)ᵀ)).PosSemidef
  rcases hR with ⟨_, hR⟩ | ⟨_, a, ha, hR⟩
  · exact putBlock_psd (by omega) (psd_conj hR _)
  · rw [ha, angular_block 6]
    exact putBlock_psd (by omega) (psd_conj hR _)

/-- In the middle of the robot, what is made of an acceleration does not depend on the estimate. -/
theorem accel_centred {c c' : PrepCtx} (hbuf : c'.buf = c.buf) (hb : c'.base = c.base) (h2 : c'.twoD = c.twoD)
    (hg : c'.gravity = c.gravity) (hc : Centred c.buf) {m : ImuMsg} {grav : Bool} (ho : ¬ |m.oriCov 0 + 1| < 1e-9 ∨ grav = false)
    (target : String) (rel : Bool) (q : Payload) : prepareAcceleration c' grav m target rel q = prepareAcceleration c grav m target rel q := by
  unfold prepareAcceleration
  rw [hbuf, hb]
  cases hl : lookupTransformSafe c.buf target (if m.frame = "" then c.base else m.frame) m.stamp with
  | none => rfl
  | some t =>
    have h0 := (lookup_centred hc hl).2
    rcases ho with ho | rfl
    · simp only [Option.map_some, accelPayload, finish, h2, h0, cross_zero, gravityPart, if_neg ho, hg]
    · simp only [Option.map_some, accelPayload, finish, h2, h0, cross_zero, Bool.false_eq_true, if_false]

theorem accel_open {c : PrepCtx} (h2 : c.twoD = false) (hc : Centred c.buf) {m : ImuMsg} {cd : CallbackData} (hcd : cd.Selects 12 3)
    (hR : (msgCov3 m.accCov).PosSemidef) {grav : Bool} {target : String} {q : Payload}
    (h : prepareAcceleration c grav m target cd.relative cd.blank = some q) : q.OpenMotion := by
  obtain ⟨t, hl, rfl⟩ := Option.map_eq_some_iff.1 h
  have ht := (lookup_centred hc hl).1
  unfold accelPayload finish
  dsimp only
  rw [h2, (C43_matrix_to_quaternion ht).2, copyCov3_eq]
  refine ⟨put_motion (by omega) (fun i hi => by have := hcd.upd i hi; omega) _, good_of_psd ?_, hcd.unlimited⟩
  exact putBlock_psd (n := 3) (off := 12) (by omega) (psd_conj hR _)

theorem asked_state {p : FilterPar} {c c' : PrepCtx} (hbuf : c'.buf = c.buf) (hw : c'.world = c.world) (hb : c'.base = c.base)
    (h2 : c'.twoD = c.twoD) (m : PoseMsg) : Sys.asked (ekfView p) c' m = Sys.asked (ekfView p) c m := by
  unfold Sys.asked preparePose poseFrames poseWith sourceTf finish
  simp only [hbuf, hw, hb, h2, Bool.false_eq_true, if_false]

variable {p : FilterPar} {g g' : SysCfg (ekfCore p)}

theorem events_centred {P P' : MQueue (ekfCore p)} (hi : g.inputs.Velocities) (hin : g'.inputs = g.inputs)
    (hfr : g'.frames = g.frames) (hgr : g'.gravity = g.gravity) (h2 : g.twoD = false) (h2' : g'.twoD = false) (s : Sys (ekfCore p) P) (s' : Sys (ekfCore p) P')
    {e : Sys.Ev} (h : e.Centred g.inputs) :
    s'.events (ekfView p) g' e = s.events (ekfView p) g e ∧ ∀ a ∈ s.events (ekfView p) g e, a.OpenMotion := by
  have one : ∀ (topic : String) (stamp : Int) {z : Option Payload}, (∀ q, z = some q → q.OpenMotion) →
      ∀ a ∈ [(.sensor topic stamp (z.map (ekfView p).meas) : Node.Event (ekfCore p))], Node.Event.OpenMotion a := by
    intro topic stamp z hz a ha
    rw [List.mem_singleton] at ha
    subst ha
    cases z with
    | none => trivial
    | some q => exact hz q rfl
  have nil : ∀ a ∈ ([] : List (Node.Event (ekfCore p))), Node.Event.OpenMotion a := fun a ha => absurd ha List.not_mem_nil
  have triv : ∀ e : Node.Event (ekfCore p), e.OpenMotion → ∀ a ∈ [e], Node.Event.OpenMotion a := by
    intro e he a ha
    rw [List.mem_singleton] at ha
    exact ha ▸ he
  cases e with
  | odom i buf junk m =>
    simp only [Sys.events, hin]
    cases hcd : g.inputs.odomCds[i]? with
    | none => exact ⟨rfl, nil⟩
    | some ab =>
      obtain ⟨a, b⟩ := ab
      obtain ⟨ha, hb⟩ := hi.odom i a b hcd
      dsimp only
      split
      · unfold Hub.odomEvents
        have na : ¬ a.sum > 0 := by omega
        simp only [if_neg na, List.nil_append]
        split
        · refine ⟨?_, one _ _ fun q hq => twist_open h2 h.1 (m := m.asTwist) (Or.inl ⟨hb, h.2⟩) hq⟩
          have := twist_centred (c := s.ctx (ekfView p) g buf junk) (c' := s'.ctx (ekfView p) g' buf junk) rfl (h2'.trans h2.symm) h.1
            m.asTwist g.frames.base b.blank
          have hb' : (s'.ctx (ekfView p) g' buf junk).base = g.frames.base := congrArg Frames.base hfr
          rw [hb', this]
          rfl
        · exact ⟨rfl, nil⟩
      · exact ⟨rfl, nil⟩
  | pose i buf junk m =>
    simp only [Sys.events, hin]
    cases hcd : g.inputs.poseCds[i]? with
    | none => exact ⟨rfl, nil⟩
    | some a =>
      have ha := hi.pose i a hcd
      dsimp only
      rw [if_neg (by omega), if_neg (by omega)]
      exact ⟨rfl, nil⟩
  | twist i buf junk m =>
    simp only [Sys.events, hin]
    cases hcd : g.inputs.twistCds[i]? with
    | none => exact ⟨rfl, nil⟩
    | some b =>
      dsimp only
      split
      · refine ⟨?_, one _ _ fun q hq => twist_open h2 h.1 (Or.inl ⟨hi.twist i b hcd, h.2⟩) hq⟩
        have := twist_centred (c := s.ctx (ekfView p) g buf junk) (c' := s'.ctx (ekfView p) g' buf junk) rfl (h2'.trans h2.symm) h.1
          m g.frames.base b.blank
        rw [hfr, this]
      · exact ⟨rfl, nil⟩
  | imu i buf junk m =>
    simp only [Sys.events, hin]
    cases hcd : g.inputs.imuCds[i]? with
    | none => exact ⟨rfl, nil⟩
    | some abd =>
      obtain ⟨a, b, d⟩ := abd
      obtain ⟨ha, hb, hd⟩ := hi.imu i a b d hcd
      cases hset : g.inputs.imus[i]? with
      | none => exact ⟨rfl, nil⟩
      | some set =>
        obtain ⟨hc, hv, hacc, hor⟩ := h
        have hor : ¬ |m.oriCov 0 + 1| < 1e-9 ∨ set.removeGravity = false := hor.imp id fun h => h set hset
        have hb' : (s'.ctx (ekfView p) g' buf junk).base = g.frames.base := congrArg Frames.base hfr
        dsimp only
        split
        · unfold Hub.imuEvents
          have na : ∀ q : Prop, ¬ (a.sum > 0 ∧ q) := fun q h => by omega
          simp only [if_neg (na _), List.nil_append]
          have e1 := twist_centred (c := s.ctx (ekfView p) g buf junk) (c' := s'.ctx (ekfView p) g' buf junk) rfl (h2'.trans h2.symm) hc
            m.asTwist g.frames.base b.blank
          have e2 := accel_centred (c := s.ctx (ekfView p) g buf junk) (c' := s'.ctx (ekfView p) g' buf junk) rfl hb' (h2'.trans h2.symm)
            hgr hc hor g.frames.base d.relative d.blank
          rw [hb', e1, e2]
          refine ⟨rfl, fun x hx => ?_⟩
          rcases List.mem_append.1 hx with hx | hx
          · split at hx
            · exact one _ _ (fun q hq => twist_open h2 hc (m := m.asTwist) (Or.inr ⟨hb, _, rfl, hv⟩) hq) x hx
            · exact nil x hx
          · split at hx
            · exact one _ _ (fun q hq => accel_open h2 hc hd hacc hq) x hx
            · exact nil x hx
        · exact ⟨rfl, nil⟩
  | command now u => exact ⟨rfl, triv _ trivial⟩
  | setPose now buf junk m =>
    have e := asked_state (p := p) (c := s.ctx (ekfView p) g buf junk) (c' := s'.ctx (ekfView p) g' buf junk) rfl
      (congrArg Frames.world hfr) (congrArg Frames.base hfr) (h2'.trans h2.symm) m
    refine ⟨?_, triv _ ?_⟩
    · show [Node.Event.setPose m.stamp now _] = [Node.Event.setPose m.stamp now _]
      rw [e]
    · cases ha : Sys.asked (ekfView p) (s.ctx (ekfView p) g buf junk) m with
      | none => trivial
      | some r =>
        have hm := asked_motion h2 ha
        have d : MotionDiag ((1e-6 : ℝ) • (1 : Mat15)) := motionDiag_smul (by norm_num)
        exact ⟨fun i hi => by rw [hm i i hi hi]; exact d.nonneg i hi, fun i j hi hj hne => by rw [hm i j hi hj]; exact d.off i j hi hj hne⟩
  | reset => exact ⟨rfl, triv _ trivial⟩
  | toggle on => exact ⟨rfl, triv _ trivial⟩
  | enable => exact ⟨rfl, triv _ trivial⟩
  | tick now now2 buf =>
    refine ⟨?_, triv _ trivial⟩
    simp only [Sys.events, hfr]

theorem allEvents_centred {P P' : MQueue (ekfCore p)} (hi : g.inputs.Velocities) (hin : g'.inputs = g.inputs)
    (hfr : g'.frames = g.frames) (hgr : g'.gravity = g.gravity) (h2 : g.twoD = false) (h2' : g'.twoD = false) (es : List Sys.Ev)
    (h : ∀ e ∈ es, e.Centred g.inputs) :
    ∀ (s : Sys (ekfCore p) P) (s' : Sys (ekfCore p) P'), s'.allEvents (ekfView p) g' es = s.allEvents (ekfView p) g es ∧
      ∀ a ∈ s.allEvents (ekfView p) g es, a.OpenMotion := by
  induction es with
  | nil => intro s s'; exact ⟨rfl, fun a ha => absurd ha List.not_mem_nil⟩
  | cons e es ih =>
    intro s s'
    obtain ⟨a1, a2⟩ := events_centred hi hin hfr hgr h2 h2' s s' (h e List.mem_cons_self)
    obtain ⟨b1, b2⟩ := ih (fun e he => h e (List.mem_cons_of_mem _ he)) (s.step (ekfView p) g e).1 (s'.step (ekfView p) g' e).1
    refine ⟨?_, fun a ha => ?_⟩
    · show s'.events (ekfView p) g' e ++ _ = s.events (ekfView p) g e ++ _
      rw [a1, b1]
    · rcases List.mem_append.1 ha with ha | ha
      · exact a2 a ha
      · exact b2 a ha

/-- A message sent by the node and the velocities it is made of. -/
inductive SpeedsOf : Out (ekfCore p) → Sent → Prop
  | odom (t : Int) (x : Option State) (P : Mat15) {m : Option OdomMsg}
      (h : ∀ a, m = some a → ∃ y, x = some y ∧ (∀ k : Fin 3, (a.lin k).val = y ⟨6 + k.val, by omega⟩ ∧ (a.ang k).val = y ⟨9 + k.val, by omega⟩) ∧
        a.twistCov = fun k => P ⟨k.val / 6 + 6, by omega⟩ ⟨k.val % 6 + 6, by omega⟩) :
      SpeedsOf (.odom t x P) (.odom t m)
  | tf (t : Int) (m : Option TfMsg) : SpeedsOf (.tf t) (.tf t m)
  | accel (t : Int) (m : Option AccelMsg) : SpeedsOf (.accel t) (.accel t m)

theorem shown_tells {P : MQueue (ekfCore p)} (s : Sys (ekfCore p) P) (e : Sys.Ev) (o : Out (ekfCore p)) :
    SpeedsOf o (s.shown (ekfView p) g e o) := by
  cases e with
  | tick now now2 buf =>
    unfold Sys.shown
    cases o with
    | odom t x M =>
      refine .odom t x M fun a ha => ?_
      obtain ⟨y, hy, hm⟩ := Option.bind_eq_some_iff.1 ha
      unfold odomMessage at hm
      rw [if_pos rfl] at hm
      injection hm with hm
      subst hm
      exact ⟨y, hy, fun k => by fin_cases k <;> exact ⟨rfl, rfl⟩, rfl⟩
    | tf t => exact .tf t _
    | accel t => exact .accel t _
  | _ =>
    cases o with
    | odom t x P => exact .odom t x P fun a h => by cases h
    | tf t => exact .tf t _
    | accel t => exact .accel t _

theorem run_tells {P : MQueue (ekfCore p)} (es : List Sys.Ev) : ∀ s : Sys (ekfCore p) P,
    List.Forall₂ SpeedsOf (s.hub.node.run g.cfg (s.allEvents (ekfView p) g es)).2 (s.run (ekfView p) g es).2 := by
  induction es with
  | nil => intro s; exact .nil
  | cons e es ih =>
    intro s
    show List.Forall₂ SpeedsOf (s.hub.node.run g.cfg (s.events (ekfView p) g e ++ (s.step (ekfView p) g e).1.allEvents (ekfView p) g es)).2
      ((s.step (ekfView p) g e).2 ++ ((s.step (ekfView p) g e).1.run (ekfView p) g es).2)
    rw [Node.run_append, (s.step_eq (ekfView p) g e).2]
    refine List.rel_append ?_ ?_
    · rw [List.forall₂_map_right_iff, List.forall₂_same]
      exact fun o _ => shown_tells s e o
    · rw [← (s.step_eq (ekfView p) g e).1]
      exact ih _

theorem tells_close {κ : ℝ} {os os' : List (Out (ekfCore p))} (h : List.Forall₂ (Out.Close κ) os os') :
    ∀ {ms ms' : List Sent}, List.Forall₂ SpeedsOf os ms → List.Forall₂ SpeedsOf os' ms' → List.Forall₂ (Sent.Close κ) ms ms' := by
  induction h with
  | nil =>
    intro ms ms' h1 h2
    cases h1
    cases h2
    exact .nil
  | cons ho _ ih =>
    intro ms ms' h1 h2
    cases h1 with
    | cons a1 b1 =>
      cases h2 with
      | cons a2 b2 =>
        refine .cons ?_ (ih b1 b2)
        cases ho with
        | odom t h =>
          cases a1 with
          | odom _ _ _ k1 =>
            cases a2 with
            | odom _ _ _ k2 =>
              refine .odom t fun a b ha hb k => ?_
              obtain ⟨y, hy, v1, e1⟩ := k1 a ha
              obtain ⟨y', hy', v2, -⟩ := k2 b hb
              have hw := (h y y' hy hy').1
              rw [(v1 k).1, (v1 k).2, (v2 k).1, (v2 k).2, e1]
              have w1 := hw.entry ⟨6 + k.val, by omega⟩ (by simp)
              have w2 := hw.entry ⟨9 + k.val, by omega⟩ (by simp; omega)
              refine ⟨w1.trans (le_of_eq ?_), w2.trans (le_of_eq ?_)⟩ <;> fin_cases k <;> rfl
        | tf t =>
          cases a1
          cases a2
          exact .tf t _ _
        | accel t =>
          cases a1
          cases a2
          exact .accel t _ _

/-- The same settings with another initial estimate. -/
def SysCfg.from (g : SysCfg (ekfCore p)) (x : State) : SysCfg (ekfCore p) := { g with cfg := g.cfg.from (some x) }

/-- C150 for whole nodes in space: two nodes with the same settings, without control, start with different estimates, and
get the same messages, from sensors of velocities and accelerations in the middle of the robot and without rejection
thresholds.  Then the
velocities and rates in all messages they send differ by at most as many of the standard deviations in the message as the
initial estimates did, and all messages are about the same instants. -/
theorem C150_messages (hp : ∀ c, p.ctlUpd c = false) (g : SysCfg (ekfCore p)) (hi : g.inputs.Velocities) (h2 : g.twoD = false)
    (hQ : MotionCov g.cfg.processNoise) (hQ' : MotionCov g.cfg.keptNoise) (hP : MotionDiag g.cfg.initialCov)
    (hpos : ∀ i : Fin 15, 6 ≤ i.val → 0 < (g.cfg.initialCov : Mat15) i i) (hP' : MotionDiag g.cfg.keptCov) (x x' : State)
    (u : Fin 6 → ℝ) (now : Int) (h0 : 0 ≤ now) (d d' : Differ) (es : List Sys.Ev) (he : ∀ e ∈ es, e.Centred g.inputs) (ht : Ticks now es) :
    List.Forall₂ (Sent.Close (distanceSq g.cfg.initialCov x x'))
      (Sys.run (ekfView p) (g.from x) (Sys.start (g.from x) (PQueue.sortedList _ _) () u now d) es).2
      (Sys.run (ekfView p) (g.from x') (Sys.start (g.from x') (PQueue.sortedList _ _) () u now d') es).2 := by
  have hκ : 0 ≤ distanceSq g.cfg.initialCov x x' := by
    refine Finset.sum_nonneg fun i _ => ?_
    split
    · exact le_rfl
    · exact div_nonneg (sq_nonneg _) (hpos i (by omega)).le
  obtain ⟨a1, a2⟩ := allEvents_centred (g := g.from x) (g' := g.from x') hi rfl rfl rfl h2 h2 es he
    (Sys.start (g.from x) (PQueue.sortedList _ _) () u now d) (Sys.start (g.from x') (PQueue.sortedList _ _) () u now d')
  have hh := C150_any_queue (p := p) hκ hp (QueueSim.sorted _) (QueueSim.sorted _) g.cfg hQ hQ' hP hP' (x := some x) (x' := some x')
    (fun y y' e e' => by cases e; cases e'; exact withinSd_distance hP hpos x x') u now h0 _ a2
    (allEvents_clocked es _ now h0 ht)
  have r2 := run_tells (g := g.from x') es (Sys.start (g.from x') (PQueue.sortedList _ _) () u now d')
  rw [a1] at r2
  exact tells_close hh (run_tells (g := g.from x) es (Sys.start (g.from x) (PQueue.sortedList _ _) () u now d)) r2

/-- Wheels in the middle of the robot; the nodes start with any two estimates. -/
example (x x' : State) : List.Forall₂ (Sent.Close (distanceSq (1 : Mat15) x x'))
    (Sys.run (ekfView plainPar) (slideCfg.from x) (Sys.start (slideCfg.from x) (PQueue.sortedList _ _) () (0 : Fin 6 → ℝ) 0 ⟨0, 0, 0, 0⟩)
      [.twist 0 (fun _ _ _ => some Tf.id) 0 { slideMsg with cov := evenCov 1 }, .tick 3 3 (fun _ _ _ => none),
        .setPose 5 (fun _ _ _ => some Tf.id) 0 ⟨"odom", 5, 0, ⟨0, 0, 0, 1⟩, fun _ => 0⟩, .tick 6 6 (fun _ _ _ => none)]).2
    (Sys.run (ekfView plainPar) (slideCfg.from x') (Sys.start (slideCfg.from x') (PQueue.sortedList _ _) () (0 : Fin 6 → ℝ) 0 ⟨0, 0, 0, 0⟩)
      [.twist 0 (fun _ _ _ => some Tf.id) 0 { slideMsg with cov := evenCov 1 }, .tick 3 3 (fun _ _ _ => none),
        .setPose 5 (fun _ _ _ => some Tf.id) 0 ⟨"odom", 5, 0, ⟨0, 0, 0, 1⟩, fun _ => 0⟩, .tick 6 6 (fun _ _ _ => none)]).2 := by
  have hd : MotionDiag (1 : Mat15) := by
    have := motionDiag_smul (zero_le_one (α := ℝ))
    rwa [one_smul] at this
  have hq : MotionCov (1 : Mat15) :=
    ⟨fun i j _ _ => by rw [Matrix.one_apply, Matrix.one_apply]; exact if_congr eq_comm rfl rfl, fun v _ => psd_form PosSemidef.one v⟩
  have hpos : ∀ i : Fin 15, 6 ≤ i.val → 0 < (1 : Mat15) i i := fun i _ => by
    rw [Matrix.one_apply_eq]
    exact one_pos
  refine C150_messages (p := plainPar) (fun _ => rfl) slideCfg ⟨?_, ?_, ?_, ?_⟩ rfl hq hq hd hpos hd x x' 0 0 le_rfl ⟨0, 0, 0, 0⟩
    ⟨0, 0, 0, 0⟩ _ (fun e he => ?_) (by simp [Ticks])
  · intro i a b h
    simp [slideCfg] at h
  · intro i a h
    simp [slideCfg] at h
  · intro i a h
    have : a = slideCd := by
      rcases i with _ | i
      · simpa [slideCfg] using h.symm
      · simp [slideCfg] at h
    subst this
    refine ⟨fun i hi => ?_, rfl⟩
    rcases of_decide_eq_true hi with rfl | rfl | rfl <;> decide
  · intro i a b d h
    simp [slideCfg] at h
  · simp only [List.mem_cons, List.not_mem_nil, or_false] at he
    rcases he with rfl | rfl | rfl | rfl
    · refine ⟨fun _ _ _ t h => ?_, ?_⟩
      · injection h with h
        subst h
        exact ⟨IsRot.one, rfl⟩
      · show (msgCov (evenCov 1)).PosSemidef
        rw [evenCov_eq]
        exact PosSemidef.one.smul zero_le_one
    · trivial
    · trivial
    · trivial

end RL
