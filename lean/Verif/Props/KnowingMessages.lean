import Verif.Proofs.SystemInv
import Verif.Props.Knowing
import Verif.Props.SystemPlane
import Verif.Props.MirrorNode
/-! # C146 for the messages of whole nodes -/

namespace RL
open Matrix

/-- An input that selects velocities and accelerations only and rejects nothing. -/
structure CallbackData.Motion (cd : CallbackData) : Prop where
  upd : ∀ i, cd.upd i = true → 6 ≤ i.val
  unlimited : cd.thresh = .unlimited

/-- No input selects a part of the pose, and none has a rejection threshold for what it selects. -/
structure Inputs.MotionOnly (n : Inputs) : Prop where
  odom : ∀ (i : ℕ) (a b : CallbackData), n.odomCds[i]? = some (a, b) → a.sum = 0 ∧ b.Motion
  pose : ∀ (i : ℕ) (a : CallbackData), n.poseCds[i]? = some a → a.sum = 0
  twist : ∀ (i : ℕ) (b : CallbackData), n.twistCds[i]? = some b → b.Motion
  imu : ∀ (i : ℕ) (a b d : CallbackData), n.imuCds[i]? = some (a, b, d) → a.sum = 0 ∧ b.Motion ∧ d.Motion

/-- Numbers, all of them finite. -/
def Numbers (v : Fin 3 → Dbl) : Prop := ∀ i, (v i).isFin = true

/-- The same messages arrive at the same inputs of two nodes, with the same stamps, frames and covariances, and any finite
values; the same transforms are known. -/
inductive Sys.Ev.SameKind : Sys.Ev → Sys.Ev → Prop
  | odom (i : ℕ) (buf : TfBuffer) (junk junk' : State) (m m' : OdomMsg) (hs : m'.stamp = m.stamp) (hc : m'.child = m.child)
      (hR : m'.twistCov = m.twistCov) (h1 : Numbers m.lin) (h2 : Numbers m.ang) (h1' : Numbers m'.lin) (h2' : Numbers m'.ang) :
      SameKind (.odom i buf junk m) (.odom i buf junk' m')
  | pose (i i' : ℕ) (buf buf' : TfBuffer) (junk junk' : State) (m m' : PoseMsg) :
      SameKind (.pose i buf junk m) (.pose i' buf' junk' m')
  | twist (i : ℕ) (buf : TfBuffer) (junk junk' : State) (m m' : TwistMsg) (hs : m'.stamp = m.stamp) (hf : m'.frame = m.frame)
      (hR : m'.cov = m.cov) (h1 : Numbers m.lin) (h2 : Numbers m.ang) (h1' : Numbers m'.lin) (h2' : Numbers m'.ang) :
      SameKind (.twist i buf junk m) (.twist i buf junk' m')
  | imu (i : ℕ) (buf : TfBuffer) (junk junk' : State) (m m' : ImuMsg) (hs : m'.stamp = m.stamp) (hf : m'.frame = m.frame)
      (hv : m'.velCov = m.velCov) (ha : m'.accCov = m.accCov) (h1 : Numbers m.vel) (h1' : Numbers m'.vel) :
      SameKind (.imu i buf junk m) (.imu i buf junk' m')
  | command (now : Int) (u u' : Fin 6 → ℝ) : SameKind (.command now u) (.command now u')
  | setPose (now : Int) (buf : TfBuffer) (junk junk' : State) (m m' : PoseMsg) (hs : m'.stamp = m.stamp) (hf : m'.frame = m.frame) :
      SameKind (.setPose now buf junk m) (.setPose now buf junk' m')
  | reset : SameKind .reset .reset
  | toggle (on : Bool) : SameKind (.toggle on) (.toggle on)
  | enable : SameKind .enable .enable
  | tick (now now2 : Int) (buf : TfBuffer) : SameKind (.tick now now2 buf) (.tick now now2 buf)

/-- Messages of the same kind about the same instant; two odometry messages say the same about how certain the velocities
are. -/
inductive Sent.SameSure : Sent → Sent → Prop
  | odom (t : Int) {m m' : Option OdomMsg} (h : ∀ a b, m = some a → m' = some b → b.twistCov = a.twistCov) :
      SameSure (.odom t m) (.odom t m')
  | tf (t : Int) (m m' : Option TfMsg) : SameSure (.tf t m) (.tf t m')
  | accel (t : Int) (m m' : Option AccelMsg) : SameSure (.accel t m) (.accel t m')

/-! ## What is made of the messages -/

theorem put_motion {off : ℕ} (ho : 6 ≤ off) {u : Fin 15 → Bool} (hu : ∀ i, u i = true → 6 ≤ i.val) (v : Fin 3 → Bool) :
    ∀ i, put off u v i = true → 6 ≤ i.val := by
  intro i hi
  unfold put at hi
  split at hi
  · rename_i h
    omega
  · exact hu i hi

theorem twist_sameKind {c c' : PrepCtx} (hbuf : c'.buf = c.buf) (h2 : c.twoD = false) (h2' : c'.twoD = false) {m m' : TwistMsg}
    (hs : m'.stamp = m.stamp) (hf : m'.frame = m.frame) (hR : m'.cov = m.cov) (h1 : Numbers m.lin) (h3 : Numbers m.ang)
    (h1' : Numbers m'.lin) (h3' : Numbers m'.ang) {cd : CallbackData} (hcd : cd.Motion) (target : String) :
    Option.Rel Payload.SameKind (prepareTwist c m target cd.blank) (prepareTwist c' m' target cd.blank) := by
  unfold prepareTwist
  rw [hbuf, hf, hs]
  cases lookupTransformSafe c.buf target (if m.frame = "" then target else m.frame) m.stamp with
  | none => exact .none
  | some t =>
    refine .some ?_
    unfold twistPayload finish
    dsimp only
    rw [h2, h2', hR]
    have fins : ∀ (c : PrepCtx) (m : TwistMsg), Numbers m.lin → Numbers m.ang → ∀ i,
        (put 9 (put 6 cd.blank.z fun i => (mulDbl t.rot m.lin i).add (.fin (cross t.org c.omega i))) (mulDbl t.rot m.ang) i).isFin = true := by
      intro c m h1 h3
      refine put_fin (put_fin (fun _ => rfl) fun i => ?_) (mulDbl_num _ h3)
      have := mulDbl_num t.rot h1 i
      cases h : mulDbl t.rot m.lin i with
      | fin x => rfl
      | _ => rw [h] at this; cases this
    exact ⟨rfl, put_motion (by omega) (put_motion (by omega) hcd.upd _) _, fun i _ => (fins c' m' h1' h3' i).trans (fins c m h1 h3 i).symm,
      fun _ _ _ _ => rfl, hcd.unlimited, hcd.unlimited⟩

theorem accel_sameKind {c c' : PrepCtx} (hbuf : c'.buf = c.buf) (hb : c'.base = c.base) (h2 : c.twoD = false) (h2' : c'.twoD = false)
    {m m' : ImuMsg} (hs : m'.stamp = m.stamp) (hf : m'.frame = m.frame) (hR : m'.accCov = m.accCov) {cd : CallbackData}
    (hcd : cd.Motion) (grav : Bool) (target : String) :
    Option.Rel Payload.SameKind (prepareAcceleration c grav m target cd.relative cd.blank)
      (prepareAcceleration c' grav m' target cd.relative cd.blank) := by
  unfold prepareAcceleration
  rw [hbuf, hb, hf, hs]
  cases lookupTransformSafe c.buf target (if m.frame = "" then c.base else m.frame) m.stamp with
  | none => exact .none
  | some t =>
    refine .some ?_
    unfold accelPayload finish
    dsimp only
    rw [h2, h2', hR]
    have fins : ∀ v : V3, ∀ i, (put 12 cd.blank.z (fun i => .fin (v i)) i).isFin = true :=
      fun v => put_fin (fun _ => rfl) fun _ => rfl
    exact ⟨rfl, put_motion (by omega) hcd.upd _, fun i _ => (fins _ i).trans (fins _ i).symm,
      fun _ _ _ _ => rfl, hcd.unlimited, hcd.unlimited⟩

theorem asked_sameKind {p p' : FilterPar} {c c' : PrepCtx} (hbuf : c'.buf = c.buf) (hw : c'.world = c.world) (h2 : c.twoD = false)
    (h2' : c'.twoD = false) {m m' : PoseMsg} (hs : m'.stamp = m.stamp) (hf : m'.frame = m.frame) :
    Option.Rel (fun a b : Option State × Mat15 => SameMotion a.2 b.2) (Sys.asked (ekfView p) c m) (Sys.asked (ekfView p') c' m') := by
  have e : poseFrames c' m'.frame c'.world false false = poseFrames c m.frame c.world false false := by
    unfold poseFrames
    rw [hw, hf]
  unfold Sys.asked preparePose
  dsimp only
  rw [e, hbuf, hs]
  cases lookupTransformSafe c.buf (poseFrames c m.frame c.world false false).1 (poseFrames c m.frame c.world false false).2
    (poseLookupTime m.stamp) with
  | none => exact .none
  | some t =>
    refine .some ?_
    intro i j hi _
    have out : ∀ M : M6, putBlock 6 0 Sys.blankPose.R M i j = Sys.blankPose.R i j := fun M =>
      dif_neg (by rintro ⟨⟨_, h⟩, _⟩; omega)
    simp only [poseWith, finish, h2, h2', Bool.false_eq_true, if_false, ekfView]
    exact (out _).trans (out _).symm

/-! ## What reaches the control flow -/

variable {p p' : FilterPar} {g : SysCfg (ekfCore p)} {g' : SysCfg (ekfCore p')}

theorem events_sameKind {P : MQueue (ekfCore p)} {P' : MQueue (ekfCore p')} (hi : g.inputs.MotionOnly) (hin : g'.inputs = g.inputs)
    (hfr : g'.frames = g.frames) (h2 : g.twoD = false) (h2' : g'.twoD = false) (s : Sys (ekfCore p) P) (s' : Sys (ekfCore p') P')
    {e e' : Sys.Ev} (h : e.SameKind e') :
    List.Forall₂ Node.Event.SameKind (s.events (ekfView p) g e) (s'.events (ekfView p') g' e') := by
  have one : ∀ (topic : String) (stamp : Int) {z z' : Option Payload}, Option.Rel Payload.SameKind z z' →
      List.Forall₂ Node.Event.SameKind [(.sensor topic stamp (z.map (ekfView p).meas) : Node.Event (ekfCore p))]
        [(.sensor topic stamp (z'.map (ekfView p').meas) : Node.Event (ekfCore p'))] := by
    intro topic stamp z z' hz
    refine .cons (.sensor topic stamp ?_) .nil
    cases hz with
    | none => exact .none
    | some h => exact .some h
  cases h with
  | odom i buf junk junk' m m' hs hc hR h1 h3 h1' h3' =>
    simp only [Sys.events, hin]
    cases hcd : g.inputs.odomCds[i]? with
    | none => exact .nil
    | some ab =>
      obtain ⟨a, b⟩ := ab
      obtain ⟨ha, hb⟩ := hi.odom i a b hcd
      dsimp only
      split
      · unfold Hub.odomEvents
        have na : ¬ a.sum > 0 := by omega
        simp only [if_neg na, List.nil_append, hs]
        split
        · refine one _ _ ?_
          have := twist_sameKind (c := s.ctx (ekfView p) g buf junk) (c' := s'.ctx (ekfView p') g' buf junk') rfl h2 h2'
            (m := m.asTwist) (m' := m'.asTwist) hs hc hR h1 h3 h1' h3' hb g.frames.base
          simpa only [Sys.ctx, hfr] using this
        · exact .nil
      · exact .nil
  | pose i i' buf buf' junk junk' m m' =>
    have none : ∀ {q : FilterPar} {k : SysCfg (ekfCore q)} {Q : MQueue (ekfCore q)} (r : Sys (ekfCore q) Q) (i : ℕ) (buf : TfBuffer) (junk : State)
        (m : PoseMsg), k.inputs = g.inputs → r.events (ekfView q) k (.pose i buf junk m) = [] := by
      intro q k Q r i buf junk m hk
      simp only [Sys.events, hk]
      cases hcd : g.inputs.poseCds[i]? with
      | none => rfl
      | some a =>
        have ha := hi.pose i a hcd
        dsimp only
        rw [if_neg (by omega)]
    rw [none s i buf junk m rfl, none s' i' buf' junk' m' hin]
    exact .nil
  | twist i buf junk junk' m m' hs hf hR h1 h3 h1' h3' =>
    simp only [Sys.events, hin]
    cases hcd : g.inputs.twistCds[i]? with
    | none => exact .nil
    | some b =>
      dsimp only
      split
      · rw [hs]
        refine one _ _ ?_
        rw [hfr]
        exact twist_sameKind (c := s.ctx (ekfView p) g buf junk) (c' := s'.ctx (ekfView p') g' buf junk') rfl h2 h2' hs hf hR h1 h3 h1' h3'
          (hi.twist i b hcd) g.frames.base
      · exact .nil
  | imu i buf junk junk' m m' hs hf hv hacc h1 h1' =>
    simp only [Sys.events, hin]
    cases hcd : g.inputs.imuCds[i]? with
    | none => exact .nil
    | some abd =>
      obtain ⟨a, b, d⟩ := abd
      obtain ⟨ha, hb, hd⟩ := hi.imu i a b d hcd
      cases g.inputs.imus[i]? with
      | none => exact .nil
      | some set =>
        dsimp only
        split
        · unfold Hub.imuEvents
          have na : ∀ q : Prop, ¬ (a.sum > 0 ∧ q) := fun q h => by omega
          simp only [if_neg (na _), List.nil_append, hs, hv, hacc]
          refine List.rel_append ?_ ?_
          · split
            · refine one _ _ ?_
              have := twist_sameKind (c := s.ctx (ekfView p) g buf junk) (c' := s'.ctx (ekfView p') g' buf junk') rfl h2 h2'
                (m := m.asTwist) (m' := m'.asTwist) hs hf (congrArg angularCov hv) (fun _ => rfl) h1 (fun _ => rfl) h1' hb g.frames.base
              simpa only [Sys.ctx, hfr] using this
            · exact .nil
          · split
            · refine one _ _ ?_
              have := accel_sameKind (c := s.ctx (ekfView p) g buf junk) (c' := s'.ctx (ekfView p') g' buf junk') rfl
                (congrArg Frames.base hfr) h2 h2' hs hf hacc hd set.removeGravity g.frames.base
              simpa only [Sys.ctx, hfr] using this
            · exact .nil
        · exact .nil
  | command now u u' => exact .cons (.control _ _ _) .nil
  | setPose now buf junk junk' m m' hs hf =>
    show List.Forall₂ _ [Node.Event.setPose m.stamp now _] [Node.Event.setPose m'.stamp now _]
    rw [hs]
    exact .cons (.setPose _ _ (asked_sameKind (c := s.ctx (ekfView p) g buf junk)
      (c' := s'.ctx (ekfView p') g' buf junk') rfl (congrArg Frames.world hfr) h2 h2' hs hf)) .nil
  | reset => exact .cons .reset .nil
  | toggle on => exact .cons (.toggle on) .nil
  | enable => exact .cons .enable .nil
  | tick now now2 buf =>
    simp only [Sys.events, hfr]
    exact .cons (.tick _ _ _) .nil

theorem allEvents_sameKind {P : MQueue (ekfCore p)} {P' : MQueue (ekfCore p')} (hi : g.inputs.MotionOnly) (hin : g'.inputs = g.inputs)
    (hfr : g'.frames = g.frames) (h2 : g.twoD = false) (h2' : g'.twoD = false) {es es' : List Sys.Ev}
    (h : List.Forall₂ Sys.Ev.SameKind es es') : ∀ (s : Sys (ekfCore p) P) (s' : Sys (ekfCore p') P'),
    List.Forall₂ Node.Event.SameKind (s.allEvents (ekfView p) g es) (s'.allEvents (ekfView p') g' es') := by
  induction h with
  | nil => intro s s'; exact .nil
  | cons he _ ih => intro s s'; exact List.rel_append (events_sameKind hi hin hfr h2 h2' s s' he) (ih _ _)

theorem Clocked.append {C : Core} {as bs : List (Node.Event C)} {k : Int} (h : Clocked k as) (h' : Clocked (clockAfter k as) bs) :
    Clocked k (as ++ bs) := by
  induction as generalizing k with
  | nil => exact h'
  | cons a as ih =>
    cases a with
    | tick now now2 tfOk => exact ⟨h.1, h.2.1, ih h.2.2 h'⟩
    | setPose stamp now r => exact ⟨h.1, ih h.2 h'⟩
    | sensor topic stamp z => exact ih (k := k) h h'
    | control u t => exact ih (k := k) h h'
    | reset => exact ih (k := k) h h'
    | toggle on => exact ih (k := k) h h'
    | enable => exact ih (k := k) h h'

theorem allEvents_clocked {P : MQueue (ekfCore p)} (es : List Sys.Ev) : ∀ (s : Sys (ekfCore p) P) (k : Int), 0 ≤ k → Ticks k es →
    Clocked k (s.allEvents (ekfView p) g es) := by
  induction es with
  | nil => intro s k _ _; trivial
  | cons e es ih =>
    intro s k hk hes
    obtain ⟨a, b, c⟩ := s.ticks_next (ekfView p) g hk hes
    exact a.append (ih _ _ b c)

/-- A message sent by the node and the estimate it is made of. -/
inductive Shows : Out (ekfCore p) → Sent → Prop
  | odom (t : Int) (x : Option State) (P : Mat15) {m : Option OdomMsg}
      (h : ∀ a, m = some a → x ≠ none ∧ a.twistCov = fun k => P ⟨k.val / 6 + 6, by omega⟩ ⟨k.val % 6 + 6, by omega⟩) :
      Shows (.odom t x P) (.odom t m)
  | tf (t : Int) (m : Option TfMsg) : Shows (.tf t) (.tf t m)
  | accel (t : Int) (m : Option AccelMsg) : Shows (.accel t) (.accel t m)

theorem shown_shows {P : MQueue (ekfCore p)} (s : Sys (ekfCore p) P) (e : Sys.Ev) (o : Out (ekfCore p)) :
    Shows o (s.shown (ekfView p) g e o) := by
  cases e with
  | tick now now2 buf =>
    unfold Sys.shown
    cases o with
    | odom t x M =>
      refine .odom t x M fun a ha => ?_
      obtain ⟨y, hy, hm⟩ := Option.bind_eq_some_iff.1 ha
      change (x : Option State) = some y at hy
      unfold odomMessage at hm
      rw [if_pos rfl] at hm
      injection hm with hm
      subst hm
      exact ⟨by rw [hy]; exact Option.some_ne_none _, rfl⟩
    | tf t => exact .tf t _
    | accel t => exact .accel t _
  | _ =>
    cases o with
    | odom t x P => exact .odom t x P fun a h => by cases h
    | tf t => exact .tf t _
    | accel t => exact .accel t _

theorem run_shows {P : MQueue (ekfCore p)} (es : List Sys.Ev) : ∀ s : Sys (ekfCore p) P,
    List.Forall₂ Shows (s.hub.node.run g.cfg (s.allEvents (ekfView p) g es)).2 (s.run (ekfView p) g es).2 := by
  induction es with
  | nil => intro s; exact .nil
  | cons e es ih =>
    intro s
    show List.Forall₂ Shows (s.hub.node.run g.cfg (s.events (ekfView p) g e ++ (s.step (ekfView p) g e).1.allEvents (ekfView p) g es)).2
      ((s.step (ekfView p) g e).2 ++ ((s.step (ekfView p) g e).1.run (ekfView p) g es).2)
    rw [Node.run_append, (s.step_eq (ekfView p) g e).2]
    refine List.rel_append ?_ ?_
    · rw [List.forall₂_map_right_iff, List.forall₂_same]
      exact fun o _ => shown_shows s e o
    · rw [← (s.step_eq (ekfView p) g e).1]
      exact ih _

theorem shows_sameSure {os : List (Out (ekfCore p))} {os' : List (Out (ekfCore p'))} (h : List.Forall₂ Out.SameKind os os') :
    ∀ {ms ms' : List Sent}, List.Forall₂ Shows os ms → List.Forall₂ Shows os' ms' → List.Forall₂ Sent.SameSure ms ms' := by
  induction h with
  | nil =>
    intro ms ms' h1 h2
    cases h1
    cases h2
    exact .nil
  | cons ho _ ih =>
    intro ms ms' h1 h2
    cases h1 with
    | cons a1 b1 =>
      cases h2 with
      | cons a2 b2 =>
        refine .cons ?_ (ih b1 b2)
        cases ho with
        | odom t h =>
          cases a1 with
          | odom _ _ _ k1 =>
            cases a2 with
            | odom _ _ _ k2 =>
              refine .odom t fun a b ha hb => ?_
              obtain ⟨n1, e1⟩ := k1 a ha
              obtain ⟨n2, e2⟩ := k2 b hb
              rw [e1, e2]
              funext k
              exact h n1 n2 _ _ (Nat.le_add_left _ _) (Nat.le_add_left _ _)
        | tf t =>
          cases a1
          cases a2
          exact .tf t _ _
        | accel t =>
          cases a1
          cases a2
          exact .accel t _ _

/-- C146 for whole nodes in space: two nodes with the same inputs, frames and switches, and inputs that select velocities,
rates and accelerations only and have no rejection thresholds.  They get messages with the same stamps, frames and
covariances at the same times, and whatever finite values: their odometry messages come at the same times, and whenever both
are finite, with the same covariance of the velocities. -/
theorem C146_messages (p p' : FilterPar) (g : SysCfg (ekfCore p)) (g' : SysCfg (ekfCore p')) (hi : g.inputs.MotionOnly)
    (hin : g'.inputs = g.inputs) (hfr : g'.frames = g.frames) (h2 : g.twoD = false) (h2' : g'.twoD = false)
    (hs : g.cfg.SameSwitches g'.cfg) (hQ : SameMotion g.cfg.processNoise g'.cfg.processNoise)
    (hK : SameMotion g.cfg.keptNoise g'.cfg.keptNoise) (hP : SameMotion g.cfg.initialCov g'.cfg.initialCov)
    (hC : SameMotion g.cfg.keptCov g'.cfg.keptCov) (u u' : Fin 6 → ℝ) (now : Int) (h0 : 0 ≤ now) (d d' : Differ)
    {es es' : List Sys.Ev} (he : List.Forall₂ Sys.Ev.SameKind es es') (ht : Ticks now es) :
    List.Forall₂ Sent.SameSure (Sys.run (ekfView p) g (Sys.start g (PQueue.sortedList _ _) () u now d) es).2
      (Sys.run (ekfView p') g' (Sys.start g' (PQueue.sortedList _ _) () u' now d') es').2 := by
  refine shows_sameSure (C146_same_certainty p p' g.cfg g'.cfg hs hQ hK hP hC u u' now h0
    (allEvents_sameKind hi hin hfr h2 h2' he (Sys.start g (PQueue.sortedList _ _) () u now d)
      (Sys.start g' (PQueue.sortedList _ _) () u' now d')) (allEvents_clocked es _ now h0 ht)) (run_shows (g := g) es (Sys.start g (PQueue.sortedList _ _) () u now d))
    (run_shows (g := g') es' (Sys.start g' (PQueue.sortedList _ _) () u' now d'))

/-- The wheels say something else. -/
def stillMsg : TwistMsg := { slideMsg with lin := fun _ => .fin 0, ang := fun _ => .fin 0 }

/-- Two robots with the same wheels: one slides through a turn, the other one stands still and is commanded and told where
it is. -/
example : List.Forall₂ Sent.SameSure
    (Sys.run (ekfView plainPar) slideCfg (Sys.start slideCfg (PQueue.sortedList _ _) () (0 : Fin 6 → ℝ) 0 ⟨0, 0, 0, 0⟩)
      [.twist 0 (fun _ _ _ => some Tf.id) 0 slideMsg, .tick 3 3 (fun _ _ _ => none), .command 4 0,
        .setPose 5 (fun _ _ _ => some Tf.id) 0 ⟨"odom", 5, 0, ⟨0, 0, 0, 1⟩, fun _ => 0⟩, .tick 6 6 (fun _ _ _ => none)]).2
    (Sys.run (ekfView plainPar) slideCfg (Sys.start slideCfg (PQueue.sortedList _ _) () (0 : Fin 6 → ℝ) 0 ⟨0, 0, 0, 0⟩)
      [.twist 0 (fun _ _ _ => some Tf.id) 0 stillMsg, .tick 3 3 (fun _ _ _ => none), .command 4 (fun _ => 1),
        .setPose 5 (fun _ _ _ => some Tf.id) 0 ⟨"odom", 5, ![1, 2, 3], ⟨0, 0, 1, 0⟩, fun _ => 1⟩, .tick 6 6 (fun _ _ _ => none)]).2 := by
  have same : ∀ P, SameMotion P P := fun _ _ _ _ _ => rfl
  have n3 : ∀ a b c : ℝ, Numbers ![.fin a, .fin b, .fin c] := by
    intro a b c i
    fin_cases i <;> rfl
  refine C146_messages plainPar plainPar slideCfg slideCfg ⟨?_, ?_, ?_, ?_⟩ rfl rfl rfl rfl ⟨rfl, rfl, rfl, rfl, rfl, rfl, rfl, rfl, rfl⟩
    (same _) (same _) (same _) (same _) 0 0 0 le_rfl ⟨0, 0, 0, 0⟩ ⟨0, 0, 0, 0⟩
    (.cons (.twist 0 _ 0 0 slideMsg stillMsg rfl rfl rfl (n3 _ _ _) (n3 _ _ _) (fun _ => rfl) fun _ => rfl) (.cons (.tick _ _ _)
      (.cons (.command _ _ _) (.cons (.setPose _ _ _ _ _ _ rfl rfl) (.cons (.tick _ _ _) .nil))))) (by simp [Ticks])
  · intro i a b h
    simp [slideCfg] at h
  · intro i a h
    simp [slideCfg] at h
  · intro i a h
    have : a = slideCd := by
      rcases i with _ | i
      · simpa [slideCfg] using h.symm
      · simp [slideCfg] at h
    subst this
    refine ⟨fun i hi => ?_, rfl⟩
    rcases of_decide_eq_true hi with rfl | rfl | rfl <;> decide
  · intro i a b d h
    simp [slideCfg] at h

end RL
