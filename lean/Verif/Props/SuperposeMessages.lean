import Verif.Props.ForgetsMessages
/-! # C148 for the messages of whole nodes -/

namespace RL
open Matrix

/-- Finite readings, the first of which is `a` times the second plus `b` times the third. -/
def SuperReads (a b : ℝ) (l l1 l2 : Fin 3 → Dbl) : Prop :=
  ∃ v w : V3, l1 = (fun i => .fin (v i)) ∧ l2 = (fun i => .fin (w i)) ∧ l = fun i => .fin (a * v i + b * w i)

/-- Three velocities that differ in their values only, of which the first is a weighted sum of the others. -/
structure TwistMsg.Super (a b : ℝ) (m m1 m2 : TwistMsg) : Prop where
  stamp1 : m1.stamp = m.stamp
  stamp2 : m2.stamp = m.stamp
  frame1 : m1.frame = m.frame
  frame2 : m2.frame = m.frame
  cov1 : m1.cov = m.cov
  cov2 : m2.cov = m.cov
  lin : SuperReads a b m.lin m1.lin m2.lin
  ang : SuperReads a b m.ang m1.ang m2.ang

/-- The same things happen to three nodes, with velocities and accelerations of which the first is a weighted sum of the
others, measured in the middle of the robot; commands and poses are arbitrary. -/
inductive Sys.Ev.Super (a b : ℝ) : Sys.Ev → Sys.Ev → Sys.Ev → Prop
  | odom (i : ℕ) (buf : TfBuffer) (hc : RL.Centred buf) (j j1 j2 : State) (m m1 m2 : OdomMsg) (h : m.asTwist.Super a b m1.asTwist m2.asTwist) :
      Super a b (.odom i buf j m) (.odom i buf j1 m1) (.odom i buf j2 m2)
  | pose (i : ℕ) (buf : TfBuffer) (j j1 j2 : State) (m m1 m2 : PoseMsg) :
      Super a b (.pose i buf j m) (.pose i buf j1 m1) (.pose i buf j2 m2)
  | twist (i : ℕ) (buf : TfBuffer) (hc : RL.Centred buf) (j j1 j2 : State) (m m1 m2 : TwistMsg) (h : m.Super a b m1 m2) :
      Super a b (.twist i buf j m) (.twist i buf j1 m1) (.twist i buf j2 m2)
  | imu (i : ℕ) (buf : TfBuffer) (hc : RL.Centred buf) (j j1 j2 : State) (m m1 m2 : ImuMsg) (s1 : m1.stamp = m.stamp) (s2 : m2.stamp = m.stamp)
      (f1 : m1.frame = m.frame) (f2 : m2.frame = m.frame) (c1 : m1.velCov = m.velCov) (c2 : m2.velCov = m.velCov)
      (h : SuperReads a b m.vel m1.vel m2.vel) (a1 : m1.accCov = m.accCov) (a2 : m2.accCov = m.accCov)
      (ha : m.acc = a • m1.acc + b • m2.acc) : Super a b (.imu i buf j m) (.imu i buf j1 m1) (.imu i buf j2 m2)
  | command (now : Int) (u u1 u2 : Fin 6 → ℝ) : Super a b (.command now u) (.command now u1) (.command now u2)
  | setPose (now : Int) (buf : TfBuffer) (j j1 j2 : State) (m m1 m2 : PoseMsg) (s1 : m1.stamp = m.stamp) (s2 : m2.stamp = m.stamp)
      (f1 : m1.frame = m.frame) (f2 : m2.frame = m.frame) : Super a b (.setPose now buf j m) (.setPose now buf j1 m1) (.setPose now buf j2 m2)
  | reset : Super a b .reset .reset .reset
  | toggle (on : Bool) : Super a b (.toggle on) (.toggle on) (.toggle on)
  | enable : Super a b .enable .enable .enable
  | tick (now now2 : Int) (buf : TfBuffer) : Super a b (.tick now now2 buf) (.tick now now2 buf) (.tick now now2 buf)

/-- Messages of the same kind about the same instant; the velocities and rates in the first odometry message are `a` times
those in the second plus `b` times those in the third. -/
inductive Sent.Super (a b : ℝ) : Sent → Sent → Sent → Prop
  | odom (t : Int) {m m1 m2 : Option OdomMsg} (h : ∀ r r1 r2, m = some r → m1 = some r1 → m2 = some r2 → ∀ k : Fin 3,
      (r.lin k).val = a * (r1.lin k).val + b * (r2.lin k).val ∧ (r.ang k).val = a * (r1.ang k).val + b * (r2.ang k).val) :
      Super a b (.odom t m) (.odom t m1) (.odom t m2)
  | tf (t : Int) (m m1 m2 : Option TfMsg) : Super a b (.tf t m) (.tf t m1) (.tf t m2)
  | accel (t : Int) (m m1 m2 : Option AccelMsg) : Super a b (.accel t m) (.accel t m1) (.accel t m2)

variable {a b : ℝ}

theorem SuperReads.numbers {l l1 l2 : Fin 3 → Dbl} (h : SuperReads a b l l1 l2) : Numbers l ∧ Numbers l1 ∧ Numbers l2 := by
  obtain ⟨v, w, rfl, rfl, rfl⟩ := h
  exact ⟨fun _ => rfl, fun _ => rfl, fun _ => rfl⟩

theorem SuperReads.rotated {l l1 l2 : Fin 3 → Dbl} (h : SuperReads a b l l1 l2) (r : M3) :
    SuperReads a b (mulDbl r l) (mulDbl r l1) (mulDbl r l2) := by
  obtain ⟨v, w, rfl, rfl, rfl⟩ := h
  refine ⟨r.mulVec v, r.mulVec w, funext fun i => mulDbl_fin _ _ _, funext fun i => mulDbl_fin _ _ _, funext fun i => ?_⟩
  rw [mulDbl_fin]
  have e : (fun i => a * v i + b * w i) = a • v + b • w := rfl
  rw [e, mulVec_add, mulVec_smul, mulVec_smul]
  rfl

theorem SuperReads.add_zero {l l1 l2 : Fin 3 → Dbl} (h : SuperReads a b l l1 l2) :
    SuperReads a b (fun i => (l i).add (.fin 0)) (fun i => (l1 i).add (.fin 0)) (fun i => (l2 i).add (.fin 0)) := by
  obtain ⟨v, w, rfl, rfl, rfl⟩ := h
  refine ⟨v, w, funext fun i => ?_, funext fun i => ?_, funext fun i => ?_⟩ <;> simp [Dbl.add]

theorem put_super {off : ℕ} {f f1 f2 : Fin 15 → Dbl} (hf : ∀ i, (f i).val = a * (f1 i).val + b * (f2 i).val) {l l1 l2 : Fin 3 → Dbl}
    (h : SuperReads a b l l1 l2) : ∀ i, (put off f l i).val = a * (put off f1 l1 i).val + b * (put off f2 l2 i).val := by
  obtain ⟨v, w, rfl, rfl, rfl⟩ := h
  intro i
  unfold put
  split
  · rfl
  · exact hf i

/-- What three nodes make of such velocities. -/
theorem twist_super {c c1 c2 : PrepCtx} (b1 : c1.buf = c.buf) (b2 : c2.buf = c.buf) (t : c.twoD = false) (t1 : c1.twoD = false)
    (t2 : c2.twoD = false) (hc : Centred c.buf) {m m1 m2 : TwistMsg} (h : m.Super a b m1 m2) {cd : CallbackData} (hcd : cd.Motion)
    (target : String) :
    (prepareTwist c m target cd.blank = none ∧ prepareTwist c1 m1 target cd.blank = none ∧ prepareTwist c2 m2 target cd.blank = none) ∨
      ∃ q q1 q2, prepareTwist c m target cd.blank = some q ∧ prepareTwist c1 m1 target cd.blank = some q1 ∧
        prepareTwist c2 m2 target cd.blank = some q2 ∧ q.Super a b q1 q2 := by
  have k1 := twist_sameKind b1 t t1 h.stamp1 h.frame1 h.cov1 h.lin.numbers.1 h.ang.numbers.1 h.lin.numbers.2.1 h.ang.numbers.2.1 hcd target
  have k2 := twist_sameKind b2 t t2 h.stamp2 h.frame2 h.cov2 h.lin.numbers.1 h.ang.numbers.1 h.lin.numbers.2.2 h.ang.numbers.2.2 hcd target
  unfold prepareTwist at k1 k2 ⊢
  rw [b1, h.frame1, h.stamp1] at k1 ⊢
  rw [b2, h.frame2, h.stamp2] at k2 ⊢
  cases hl : lookupTransformSafe c.buf target (if m.frame = "" then target else m.frame) m.stamp with
  | none => exact Or.inl ⟨rfl, rfl, rfl⟩
  | some s =>
    rw [hl] at k1 k2
    cases k1 with
    | some k1 =>
      cases k2 with
      | some k2 =>
        refine Or.inr ⟨_, _, _, rfl, rfl, rfl, k1, k2, fun i _ _ => ?_⟩
        have ho := (lookup_centred hc hl).2
        simp only [twistPayload, finish, t, t1, t2, Bool.false_eq_true, if_false, ho, cross_zero]
        refine put_super (put_super (fun i => ?_) (h.lin.rotated s.rot).add_zero) (h.ang.rotated s.rot) i
        show (0 : ℝ) = a * 0 + b * 0
        ring

/-- What three nodes make of such accelerations, if they do not remove gravity. -/
theorem accel_super {c c1 c2 : PrepCtx} (b1 : c1.buf = c.buf) (b2 : c2.buf = c.buf) (e1 : c1.base = c.base) (e2 : c2.base = c.base)
    (t : c.twoD = false) (t1 : c1.twoD = false) (t2 : c2.twoD = false) (hc : Centred c.buf) {m m1 m2 : ImuMsg} (s1 : m1.stamp = m.stamp)
    (s2 : m2.stamp = m.stamp) (f1 : m1.frame = m.frame) (f2 : m2.frame = m.frame) (a1 : m1.accCov = m.accCov) (a2 : m2.accCov = m.accCov)
    (ha : m.acc = a • m1.acc + b • m2.acc) {cd : CallbackData} (hcd : cd.Motion) (target : String) :
    (prepareAcceleration c false m target cd.relative cd.blank = none ∧ prepareAcceleration c1 false m1 target cd.relative cd.blank = none ∧
      prepareAcceleration c2 false m2 target cd.relative cd.blank = none) ∨
      ∃ q q1 q2, prepareAcceleration c false m target cd.relative cd.blank = some q ∧
        prepareAcceleration c1 false m1 target cd.relative cd.blank = some q1 ∧
        prepareAcceleration c2 false m2 target cd.relative cd.blank = some q2 ∧ q.Super a b q1 q2 := by
  have k1 := accel_sameKind b1 e1 t t1 s1 f1 a1 hcd false target
  have k2 := accel_sameKind b2 e2 t t2 s2 f2 a2 hcd false target
  unfold prepareAcceleration at k1 k2 ⊢
  rw [b1, e1, f1, s1] at k1 ⊢
  rw [b2, e2, f2, s2] at k2 ⊢
  cases hl : lookupTransformSafe c.buf target (if m.frame = "" then c.base else m.frame) m.stamp with
  | none => exact Or.inl ⟨rfl, rfl, rfl⟩
  | some s =>
    rw [hl] at k1 k2
    cases k1 with
    | some k1 =>
      cases k2 with
      | some k2 =>
        refine Or.inr ⟨_, _, _, rfl, rfl, rfl, k1, k2, fun i _ _ => ?_⟩
        have ho := (lookup_centred hc hl).2
        simp only [accelPayload, finish, t, t1, t2, Bool.false_eq_true, if_false, ho, cross_zero, add_zero, sub_zero]
        refine put_super (fun i => ?_) ⟨s.rot.mulVec m1.acc, s.rot.mulVec m2.acc, rfl, rfl, funext fun i => ?_⟩ i
        · show (0 : ℝ) = a * 0 + b * 0
          ring
        · rw [ha, mulVec_add, mulVec_smul, mulVec_smul]
          rfl

theorem asked_rest {p : FilterPar} {c : PrepCtx} (h2 : c.twoD = false) {m : PoseMsg} {r : Option State × Mat15}
    (h : Sys.asked (ekfView p) c m = some r) : ∃ x, r.1 = some x ∧ ∀ i : Fin 15, 6 ≤ i.val → x i = 0 := by
  obtain ⟨q, hq, rfl⟩ := Option.map_eq_some_iff.1 h
  unfold preparePose at hq
  dsimp only at hq
  split at hq
  · cases hq
  · rename_i t _
    simp only [poseWith, finish, h2, Bool.false_eq_true, if_false] at hq
    injection hq with hq
    subst hq
    refine ⟨_, rfl, fun i hi => ?_⟩
    dsimp only
    unfold put
    rw [dif_neg (by omega), dif_neg (by omega)]
    rfl

variable {p : FilterPar}

/-- Lists of events of three nodes that belong together. -/
def SuperEvents (a b : ℝ) (es es1 es2 : List (Node.Event (ekfCore p))) : Prop :=
  ∃ ts : List (Node.Event (ekfCore p) × Node.Event (ekfCore p) × Node.Event (ekfCore p)),
    ts.map (·.1) = es ∧ ts.map (·.2.1) = es1 ∧ ts.map (·.2.2) = es2 ∧ ∀ t ∈ ts, Node.Event.Super a b t.1 t.2.1 t.2.2

theorem SuperEvents.nil : SuperEvents a b (p := p) [] [] [] := ⟨[], rfl, rfl, rfl, fun _ h => absurd h List.not_mem_nil⟩

theorem SuperEvents.one {e e1 e2 : Node.Event (ekfCore p)} (h : Node.Event.Super a b e e1 e2) : SuperEvents a b [e] [e1] [e2] :=
  ⟨[(e, e1, e2)], rfl, rfl, rfl, fun t ht => by rw [List.mem_singleton] at ht; subst ht; exact h⟩

theorem SuperEvents.append {es es1 es2 fs fs1 fs2 : List (Node.Event (ekfCore p))} (h : SuperEvents a b es es1 es2)
    (k : SuperEvents a b fs fs1 fs2) : SuperEvents a b (es ++ fs) (es1 ++ fs1) (es2 ++ fs2) := by
  obtain ⟨ts, rfl, rfl, rfl, ht⟩ := h
  obtain ⟨us, rfl, rfl, rfl, hu⟩ := k
  exact ⟨ts ++ us, List.map_append, List.map_append, List.map_append, fun t h => (List.mem_append.1 h).elim (ht t) (hu t)⟩

theorem SuperEvents.reading (topic : String) (stamp : Int) {z z1 z2 : Option Payload}
    (h : (z = none ∧ z1 = none ∧ z2 = none) ∨ ∃ q q1 q2, z = some q ∧ z1 = some q1 ∧ z2 = some q2 ∧ q.Super a b q1 q2) :
    SuperEvents a b [(.sensor topic stamp (z.map (ekfView p).meas) : Node.Event (ekfCore p))]
      [.sensor topic stamp (z1.map (ekfView p).meas)] [.sensor topic stamp (z2.map (ekfView p).meas)] := by
  rcases h with ⟨rfl, rfl, rfl⟩ | ⟨q, q1, q2, rfl, rfl, rfl, h⟩
  · exact .one (.nothing topic stamp)
  · exact .one (.sensor topic stamp h)

theorem Selected.motion {cd : CallbackData} {off n : ℕ} (ho : 6 ≤ off) (h : cd.Selects off n) : cd.Motion :=
  ⟨fun i hi => by have := h.upd i hi; omega, h.unlimited⟩

theorem events_super {g g1 g2 : SysCfg (ekfCore p)} {P : MQueue (ekfCore p)} (hi : g.inputs.Velocities)
    (hgr : ∀ (i : ℕ) (set : SensorSet), g.inputs.imus[i]? = some set → set.removeGravity = false) (i1 : g1.inputs = g.inputs)
    (i2 : g2.inputs = g.inputs) (f1 : g1.frames = g.frames) (f2 : g2.frames = g.frames) (t : g.twoD = false) (t1 : g1.twoD = false)
    (t2 : g2.twoD = false) (s s1 s2 : Sys (ekfCore p) P) {e e1 e2 : Sys.Ev} (h : e.Super a b e1 e2) :
    SuperEvents a b (s.events (ekfView p) g e) (s1.events (ekfView p) g1 e1) (s2.events (ekfView p) g2 e2) := by
  cases h with
  | odom i buf hc j j1 j2 m m1 m2 h =>
    simp only [Sys.events, i1, i2]
    cases hcd : g.inputs.odomCds[i]? with
    | none => exact .nil
    | some ab =>
      obtain ⟨cp, ct⟩ := ab
      obtain ⟨ha, hb⟩ := hi.odom i cp ct hcd
      have st1 : m1.stamp = m.stamp := h.stamp1
      have st2 : m2.stamp = m.stamp := h.stamp2
      dsimp only
      split
      · unfold Hub.odomEvents
        have na : ¬ cp.sum > 0 := by omega
        simp only [if_neg na, List.nil_append, st1, st2]
        split
        · refine SuperEvents.reading _ _ ?_
          have := twist_super (c := s.ctx (ekfView p) g buf j) (c1 := s1.ctx (ekfView p) g1 buf j1) (c2 := s2.ctx (ekfView p) g2 buf j2)
            rfl rfl t t1 t2 hc h (Selected.motion (by omega) hb) g.frames.base
          simpa only [Sys.ctx, f1, f2] using this
        · exact .nil
      · exact .nil
  | pose i buf j j1 j2 m m1 m2 =>
    simp only [Sys.events, i1, i2]
    cases hcd : g.inputs.poseCds[i]? with
    | none => exact .nil
    | some cp =>
      have ha := hi.pose i cp hcd
      dsimp only
      rw [if_neg (by omega), if_neg (by omega), if_neg (by omega)]
      exact .nil
  | twist i buf hc j j1 j2 m m1 m2 h =>
    simp only [Sys.events, i1, i2]
    cases hcd : g.inputs.twistCds[i]? with
    | none => exact .nil
    | some ct =>
      dsimp only
      split
      · rw [h.stamp1, h.stamp2, f1, f2]
        exact SuperEvents.reading _ _ (twist_super (c := s.ctx (ekfView p) g buf j) (c1 := s1.ctx (ekfView p) g1 buf j1)
          (c2 := s2.ctx (ekfView p) g2 buf j2) rfl rfl t t1 t2 hc h (Selected.motion (by omega) (hi.twist i ct hcd)) g.frames.base)
      · exact .nil
  | imu i buf hc j j1 j2 m m1 m2 st1 st2 fr1 fr2 c1 c2 h a1 a2 hacc =>
    simp only [Sys.events, i1, i2]
    cases hcd : g.inputs.imuCds[i]? with
    | none => exact .nil
    | some abd =>
      obtain ⟨cp, ct, cacc⟩ := abd
      obtain ⟨ha, hb, hd⟩ := hi.imu i cp ct cacc hcd
      cases hset : g.inputs.imus[i]? with
      | none => exact .nil
      | some set =>
        dsimp only
        split
        · unfold Hub.imuEvents
          have na : ∀ q : Prop, ¬ (cp.sum > 0 ∧ q) := fun q h => by omega
          simp only [if_neg (na _), List.nil_append, st1, st2, c1, c2, a1, a2, hgr i set hset]
          refine SuperEvents.append ?_ ?_
          · split
            · refine SuperEvents.reading _ _ ?_
              have zero : SuperReads a b (fun _ => .fin 0) (fun _ => .fin 0) fun _ => .fin 0 :=
                ⟨0, 0, rfl, rfl, funext fun i => by simp⟩
              have := twist_super (c := s.ctx (ekfView p) g buf j) (c1 := s1.ctx (ekfView p) g1 buf j1) (c2 := s2.ctx (ekfView p) g2 buf j2)
                rfl rfl t t1 t2 hc (m := m.asTwist) (m1 := m1.asTwist) (m2 := m2.asTwist)
                ⟨st1, st2, fr1, fr2, congrArg angularCov c1, congrArg angularCov c2, zero, h⟩
                (Selected.motion (by omega) hb) g.frames.base
              simpa only [Sys.ctx, f1, f2] using this
            · exact .nil
          · split
            · refine SuperEvents.reading _ _ ?_
              have := accel_super (c := s.ctx (ekfView p) g buf j) (c1 := s1.ctx (ekfView p) g1 buf j1) (c2 := s2.ctx (ekfView p) g2 buf j2)
                rfl rfl (congrArg Frames.base f1) (congrArg Frames.base f2) t t1 t2 hc st1 st2 fr1 fr2 a1 a2 hacc
                (Selected.motion (by omega) hd) g.frames.base
              simpa only [Sys.ctx, f1, f2] using this
            · exact .nil
        · exact .nil
  | command now u u1 u2 => exact .one (.control _ _ _ _)
  | setPose now buf j j1 j2 m m1 m2 st1 st2 fr1 fr2 =>
    show SuperEvents a b [Node.Event.setPose m.stamp now _] [Node.Event.setPose m1.stamp now _] [Node.Event.setPose m2.stamp now _]
    rw [st1, st2]
    have k1 := asked_sameKind (p := p) (p' := p) (c := s.ctx (ekfView p) g buf j) (c' := s1.ctx (ekfView p) g1 buf j1) rfl
      (congrArg Frames.world f1) t t1 st1 fr1
    have k2 := asked_sameKind (p := p) (p' := p) (c := s.ctx (ekfView p) g buf j) (c' := s2.ctx (ekfView p) g2 buf j2) rfl
      (congrArg Frames.world f2) t t2 st2 fr2
    cases h0 : Sys.asked (ekfView p) (s.ctx (ekfView p) g buf j) m with
    | none =>
      rw [h0] at k1 k2
      cases h1 : Sys.asked (ekfView p) (s1.ctx (ekfView p) g1 buf j1) m1 with
      | some r1 => rw [h1] at k1; cases k1
      | none =>
        cases h2 : Sys.asked (ekfView p) (s2.ctx (ekfView p) g2 buf j2) m2 with
        | some r2 => rw [h2] at k2; cases k2
        | none => exact .one (.zero _ _)
    | some r =>
      rw [h0] at k1 k2
      cases h1 : Sys.asked (ekfView p) (s1.ctx (ekfView p) g1 buf j1) m1 with
      | none => rw [h1] at k1; cases k1
      | some r1 =>
        cases h2 : Sys.asked (ekfView p) (s2.ctx (ekfView p) g2 buf j2) m2 with
        | none => rw [h2] at k2; cases k2
        | some r2 =>
          rw [h1] at k1
          rw [h2] at k2
          cases k1 with
          | some k1 =>
            cases k2 with
            | some k2 =>
              obtain ⟨x, e0, z0⟩ := asked_rest t h0
              obtain ⟨x1, e1, z1⟩ := asked_rest t1 h1
              obtain ⟨x2, e2, z2⟩ := asked_rest t2 h2
              refine .one (.setPose _ _ (fun u v w a0 a1 a2 i hi => ?_) k1 k2)
              rw [e0] at a0
              rw [e1] at a1
              rw [e2] at a2
              injection a0 with a0
              injection a1 with a1
              injection a2 with a2
              rw [← a0, ← a1, ← a2, z0 i hi, z1 i hi, z2 i hi]
              ring
  | reset => exact .one .reset
  | toggle on => exact .one (.toggle on)
  | enable => exact .one .enable
  | tick now now2 buf =>
    simp only [Sys.events, f1, f2]
    exact .one (.tick _ _ _)

theorem allEvents_super {g g1 g2 : SysCfg (ekfCore p)} {P : MQueue (ekfCore p)} (hi : g.inputs.Velocities)
    (hgr : ∀ (i : ℕ) (set : SensorSet), g.inputs.imus[i]? = some set → set.removeGravity = false) (i1 : g1.inputs = g.inputs)
    (i2 : g2.inputs = g.inputs) (f1 : g1.frames = g.frames) (f2 : g2.frames = g.frames) (t : g.twoD = false) (t1 : g1.twoD = false)
    (t2 : g2.twoD = false) (ts : List (Sys.Ev × Sys.Ev × Sys.Ev)) (ht : ∀ e ∈ ts, e.1.Super a b e.2.1 e.2.2) :
    ∀ s s1 s2 : Sys (ekfCore p) P, SuperEvents a b (s.allEvents (ekfView p) g (ts.map (·.1)))
      (s1.allEvents (ekfView p) g1 (ts.map (·.2.1))) (s2.allEvents (ekfView p) g2 (ts.map (·.2.2))) := by
  induction ts with
  | nil => intro s s1 s2; exact .nil
  | cons e ts ih =>
    intro s s1 s2
    exact (events_super hi hgr i1 i2 f1 f2 t t1 t2 s s1 s2 (ht e List.mem_cons_self)).append
      (ih (fun e he => ht e (List.mem_cons_of_mem _ he)) _ _ _)

/-- Triples of messages that belong to triples of outputs. -/
theorem super_sent (os : List (Out (ekfCore p) × Out (ekfCore p) × Out (ekfCore p))) (h : ∀ o ∈ os, Out.Super a b o.1 o.2.1 o.2.2) :
    ∀ {ms ms1 ms2 : List Sent}, List.Forall₂ SpeedsOf (os.map (·.1)) ms → List.Forall₂ SpeedsOf (os.map (·.2.1)) ms1 →
      List.Forall₂ SpeedsOf (os.map (·.2.2)) ms2 → ∃ rs : List (Sent × Sent × Sent),
        ms = rs.map (·.1) ∧ ms1 = rs.map (·.2.1) ∧ ms2 = rs.map (·.2.2) ∧ ∀ r ∈ rs, Sent.Super a b r.1 r.2.1 r.2.2 := by
  induction os with
  | nil =>
    intro ms ms1 ms2 h0 h1 h2
    cases h0
    cases h1
    cases h2
    exact ⟨[], rfl, rfl, rfl, fun _ h => absurd h List.not_mem_nil⟩
  | cons o os ih =>
    intro ms ms1 ms2 h0 h1 h2
    cases h0 with
    | @cons _ s0 _ _ a0 b0 =>
      cases h1 with
      | @cons _ s1 _ _ a1 b1 =>
        cases h2 with
        | @cons _ s2 _ _ a2 b2 =>
          obtain ⟨rs, rfl, rfl, rfl, hr⟩ := ih (fun o ho => h o (List.mem_cons_of_mem _ ho)) b0 b1 b2
          refine ⟨(s0, s1, s2) :: rs, rfl, rfl, rfl, fun r hmem => ?_⟩
          rcases List.mem_cons.1 hmem with rfl | hmem
          · obtain ⟨o0, o1, o2⟩ := o
            have ho := h (o0, o1, o2) List.mem_cons_self
            dsimp only at ho a0 a1 a2 ⊢
            cases ho with
            | odom t hx =>
              cases a0 with
              | odom _ _ _ k0 =>
                cases a1 with
                | odom _ _ _ k1 =>
                  cases a2 with
                  | odom _ _ _ k2 =>
                    refine .odom t fun r r1 r2 e0 e1 e2 k => ?_
                    obtain ⟨y, hy, v0, -⟩ := k0 r e0
                    obtain ⟨y1, hy1, v1, -⟩ := k1 r1 e1
                    obtain ⟨y2, hy2, v2, -⟩ := k2 r2 e2
                    have hw := hx y y1 y2 hy hy1 hy2
                    rw [(v0 k).1, (v0 k).2, (v1 k).1, (v1 k).2, (v2 k).1, (v2 k).2]
                    exact ⟨hw _ (by simp), hw _ (by simp; omega)⟩
            | tf t =>
              cases a0
              cases a1
              cases a2
              exact .tf t _ _ _
            | accel t =>
              cases a0
              cases a1
              cases a2
              exact .accel t _ _ _
          · exact hr r hmem

/-- C148 for whole nodes in space: three nodes with the same settings, without control, get velocities and accelerations at
the same times from sensors in the middle of the robot, without rejection thresholds and without removing gravity.  If the readings and initial velocities of the
first are `a` times those of the second plus `b` times those of the third, so are the velocities and rates in all messages
it sends; and all messages are about the same instants. -/
theorem C148_messages (hp : ∀ c, p.ctlUpd c = false) (g : SysCfg (ekfCore p)) (hi : g.inputs.Velocities)
    (hgr : ∀ (i : ℕ) (set : SensorSet), g.inputs.imus[i]? = some set → set.removeGravity = false) (h2 : g.twoD = false)
    {x x1 x2 : State} (hx : Superposed a b x x1 x2) (u : Fin 6 → ℝ) (now : Int) (h0 : 0 ≤ now) (d d1 d2 : Differ)
    (ts : List (Sys.Ev × Sys.Ev × Sys.Ev)) (ht : ∀ e ∈ ts, e.1.Super a b e.2.1 e.2.2) (hclk : Ticks now (ts.map (·.1))) :
    ∃ rs : List (Sent × Sent × Sent),
      (Sys.run (ekfView p) (g.from x) (Sys.start (g.from x) (PQueue.sortedList _ _) () u now d) (ts.map (·.1))).2 = rs.map (·.1) ∧
      (Sys.run (ekfView p) (g.from x1) (Sys.start (g.from x1) (PQueue.sortedList _ _) () u now d1) (ts.map (·.2.1))).2 = rs.map (·.2.1) ∧
      (Sys.run (ekfView p) (g.from x2) (Sys.start (g.from x2) (PQueue.sortedList _ _) () u now d2) (ts.map (·.2.2))).2 = rs.map (·.2.2) ∧
      ∀ r ∈ rs, Sent.Super a b r.1 r.2.1 r.2.2 := by
  have r0 := run_tells (g := g.from x) (ts.map (·.1)) (Sys.start (g.from x) (PQueue.sortedList _ _) () u now d)
  have r1 := run_tells (g := g.from x1) (ts.map (·.2.1)) (Sys.start (g.from x1) (PQueue.sortedList _ _) () u now d1)
  have r2 := run_tells (g := g.from x2) (ts.map (·.2.2)) (Sys.start (g.from x2) (PQueue.sortedList _ _) () u now d2)
  have hc := allEvents_clocked (g := g.from x) (ts.map (·.1)) (Sys.start (g.from x) (PQueue.sortedList _ _) () u now d) now h0 hclk
  obtain ⟨es, e0, e1, e2, he⟩ := allEvents_super (g := g.from x) (g1 := g.from x1) (g2 := g.from x2) hi hgr rfl rfl rfl rfl h2 h2 h2 ts ht
    (Sys.start (g.from x) (PQueue.sortedList _ _) () u now d) (Sys.start (g.from x1) (PQueue.sortedList _ _) () u now d1)
    (Sys.start (g.from x2) (PQueue.sortedList _ _) () u now d2)
  rw [← e0] at r0 hc
  rw [← e1] at r1
  rw [← e2] at r2
  obtain ⟨os, o0, o1, o2, ho⟩ := C148_superposition (p := p) hp g.cfg (x := some x) (x1 := some x1) (x2 := some x2)
    (fun u v w a0 a1 a2 => by cases a0; cases a1; cases a2; exact hx) u now h0 es he hc
  have q0 : List.Forall₂ SpeedsOf (os.map (·.1)) _ := o0 ▸ r0
  have q1 : List.Forall₂ SpeedsOf (os.map (·.2.1)) _ := o1 ▸ r1
  have q2 : List.Forall₂ SpeedsOf (os.map (·.2.2)) _ := o2 ▸ r2
  exact super_sent os ho q0 q1 q2

/-- Another drive, and twice that of `slideMsg` less this one. -/
def driveMsg : TwistMsg := { slideMsg with lin := ![.fin 3, .fin 0, .fin 0], ang := ![.fin 0, .fin 0, .fin 1] }
def mixedMsg : TwistMsg := { slideMsg with lin := ![.fin (-1), .fin 4, .fin 0], ang := ![.fin 0, .fin 0, .fin 5] }

/-- Three robots with the same wheels, told different poses and commanded differently. -/
example (x1 x2 : State) : ∃ rs : List (Sent × Sent × Sent),
    (Sys.run (ekfView plainPar) (slideCfg.from fun i => 2 * x1 i + -1 * x2 i)
      (Sys.start (slideCfg.from fun i => 2 * x1 i + -1 * x2 i) (PQueue.sortedList _ _) () (0 : Fin 6 → ℝ) 0 ⟨0, 0, 0, 0⟩)
      [.twist 0 (fun _ _ _ => some Tf.id) 0 mixedMsg, .tick 3 3 (fun _ _ _ => none), .command 4 0,
        .setPose 5 (fun _ _ _ => some Tf.id) 0 ⟨"odom", 5, 0, ⟨0, 0, 0, 1⟩, fun _ => 0⟩, .tick 6 6 (fun _ _ _ => none)]).2 = rs.map (·.1) ∧
    (Sys.run (ekfView plainPar) (slideCfg.from x1) (Sys.start (slideCfg.from x1) (PQueue.sortedList _ _) () (0 : Fin 6 → ℝ) 0 ⟨0, 0, 0, 0⟩)
      [.twist 0 (fun _ _ _ => some Tf.id) 0 slideMsg, .tick 3 3 (fun _ _ _ => none), .command 4 (fun _ => 1),
        .setPose 5 (fun _ _ _ => some Tf.id) 0 ⟨"odom", 5, ![1, 2, 3], ⟨0, 0, 1, 0⟩, fun _ => 0⟩, .tick 6 6 (fun _ _ _ => none)]).2 = rs.map (·.2.1) ∧
    (Sys.run (ekfView plainPar) (slideCfg.from x2) (Sys.start (slideCfg.from x2) (PQueue.sortedList _ _) () (0 : Fin 6 → ℝ) 0 ⟨0, 0, 0, 0⟩)
      [.twist 0 (fun _ _ _ => some Tf.id) 0 driveMsg, .tick 3 3 (fun _ _ _ => none), .command 4 (fun _ => 2),
        .setPose 5 (fun _ _ _ => some Tf.id) 0 ⟨"odom", 5, 0, ⟨1, 0, 0, 0⟩, fun _ => 1⟩, .tick 6 6 (fun _ _ _ => none)]).2 = rs.map (·.2.2) ∧
    ∀ r ∈ rs, Sent.Super 2 (-1) r.1 r.2.1 r.2.2 := by
  have mid : Centred fun _ _ _ => some Tf.id := fun _ _ _ t h => by
    injection h with h
    subst h
    exact ⟨IsRot.one, rfl⟩
  have reads : mixedMsg.Super 2 (-1) slideMsg driveMsg := by
    refine ⟨rfl, rfl, rfl, rfl, rfl, rfl, ⟨![1, 2, 0], ![3, 0, 0], ?_, ?_, ?_⟩, ⟨![0, 0, 3], ![0, 0, 1], ?_, ?_, ?_⟩⟩ <;>
      (funext i; fin_cases i <;> simp [mixedMsg, slideMsg, driveMsg] <;> norm_num)
  refine C148_messages (p := plainPar) (fun _ => rfl) slideCfg ⟨?_, ?_, ?_, ?_⟩ (fun i set h => by simp [slideCfg] at h) rfl
    (fun _ _ => rfl) 0 0 le_rfl ⟨0, 0, 0, 0⟩ ⟨0, 0, 0, 0⟩
    ⟨0, 0, 0, 0⟩ [(_, _, _), (_, _, _), (_, _, _), (_, _, _), (_, _, _)] (fun e he => ?_) (by simp [Ticks])
  · intro i a b h
    simp [slideCfg] at h
  · intro i a h
    simp [slideCfg] at h
  · intro i a h
    have : a = slideCd := by
      rcases i with _ | i
      · simpa [slideCfg] using h.symm
      · simp [slideCfg] at h
    subst this
    refine ⟨fun i hi => ?_, rfl⟩
    rcases of_decide_eq_true hi with rfl | rfl | rfl <;> decide
  · intro i a b d h
    simp [slideCfg] at h
  · simp only [List.mem_cons, List.not_mem_nil, or_false] at he
    rcases he with rfl | rfl | rfl | rfl | rfl
    · exact .twist 0 _ mid _ _ _ _ _ _ reads
    · exact .tick _ _ _
    · exact .command _ _ _ _
    · exact .setPose _ _ _ _ _ _ _ _ rfl rfl rfl rfl
    · exact .tick _ _ _

end RL
