import Verif.Props.SuperposeMessages
import Verif.Props.Separate
/-! # C149 for the messages of whole nodes: what is measured of the velocities does not disturb the turn rates -/

namespace RL
open Matrix

/-- The rates of turn. -/
def IsRate (i : Fin 15) : Prop := 9 ≤ i.val ∧ i.val < 12

/-- A covariance in which errors of the rates have nothing to do with errors of the velocities. -/
def RatesApart (C : M6) : Prop := ∀ i j : Fin 6, 3 ≤ i.val → j.val < 3 → C i j = 0 ∧ C j i = 0

/-- Two messages that say the same about the rates, and anything about the velocities. -/
structure TwistMsg.SameRates (m m' : TwistMsg) : Prop where
  stamp : m'.stamp = m.stamp
  frame : m'.frame = m.frame
  ang : m'.ang = m.ang
  cov : ∀ i j : Fin 6, 3 ≤ i.val → 3 ≤ j.val → msgCov m'.cov i j = msgCov m.cov i j
  apart : RatesApart (msgCov m.cov)
  apart' : RatesApart (msgCov m'.cov)

/-- The same things happen to two nodes at the same times, and they hear the same about the rates; velocities,
accelerations, their covariances and poses are arbitrary. -/
inductive Sys.Ev.SameRates : Sys.Ev → Sys.Ev → Prop
  | odom (i : ℕ) (buf : TfBuffer) (junk junk' : State) (m m' : OdomMsg) (h : m.asTwist.SameRates m'.asTwist) :
      SameRates (.odom i buf junk m) (.odom i buf junk' m')
  | pose (i : ℕ) (buf : TfBuffer) (junk junk' : State) (m m' : PoseMsg) : SameRates (.pose i buf junk m) (.pose i buf junk' m')
  | twist (i : ℕ) (buf : TfBuffer) (junk junk' : State) (m m' : TwistMsg) (h : m.SameRates m') :
      SameRates (.twist i buf junk m) (.twist i buf junk' m')
  | imu (i : ℕ) (buf : TfBuffer) (junk junk' : State) (m m' : ImuMsg) (hs : m'.stamp = m.stamp) (hf : m'.frame = m.frame)
      (hv : m'.vel = m.vel) (hc : m'.velCov = m.velCov) (ha : m'.accCov 0 = m.accCov 0) :
      SameRates (.imu i buf junk m) (.imu i buf junk' m')
  | command (now : Int) (u u' : Fin 6 → ℝ) (h : ∀ c, IsRate (velIdx c) → u' c = u c) : SameRates (.command now u) (.command now u')
  | setPose (now : Int) (buf : TfBuffer) (junk junk' : State) (m m' : PoseMsg) (hs : m'.stamp = m.stamp) (hf : m'.frame = m.frame) :
      SameRates (.setPose now buf junk m) (.setPose now buf junk' m')
  | reset : SameRates .reset .reset
  | toggle (on : Bool) : SameRates (.toggle on) (.toggle on)
  | enable : SameRates .enable .enable
  | tick (now now2 : Int) (buf : TfBuffer) : SameRates (.tick now now2 buf) (.tick now now2 buf)

/-- Messages of the same kind about the same instant; two odometry messages say the same about the rates, covariances
included. -/
inductive Sent.SameRates : Sent → Sent → Prop
  | odom (t : Int) {m m' : Option OdomMsg} (h : ∀ a b, m = some a → m' = some b → (∀ k, (b.ang k).val = (a.ang k).val) ∧
      ∀ i j : Fin 6, 3 ≤ i.val → 3 ≤ j.val → msgCov b.twistCov i j = msgCov a.twistCov i j) : SameRates (.odom t m) (.odom t m')
  | tf (t : Int) (m m' : Option TfMsg) : SameRates (.tf t m) (.tf t m')
  | accel (t : Int) (m m' : Option AccelMsg) : SameRates (.accel t m) (.accel t m')

theorem isRate_unmixed : Unmixed IsRate :=
  ⟨fun i h => by unfold IsRate at h; omega, by unfold IsRate; decide, by unfold IsRate; decide, by unfold IsRate; decide⟩

theorem rot6d_mixed (r : M3) (i j : Fin 6) (h : (3 ≤ i.val ∧ j.val < 3) ∨ (i.val < 3 ∧ 3 ≤ j.val)) : rot6d r i j = 0 := by
  fin_cases i <;> fin_cases j <;> simp [rot6d] at h ⊢

theorem turned_entry (r : M3) (C : M6) (i j : Fin 6) :
    (rot6d r * C * (rot6d r)ᵀ) i j = ∑ l, ∑ k, rot6d r i k * C k l * rot6d r j l := by
  rw [Matrix.mul_apply]
  refine Finset.sum_congr rfl fun l _ => ?_
  rw [Matrix.mul_apply, Finset.sum_mul]
  rfl

theorem turned_rates (r : M3) {C C' : M6} (h : ∀ i j : Fin 6, 3 ≤ i.val → 3 ≤ j.val → C' i j = C i j) (i j : Fin 6) (hi : 3 ≤ i.val)
    (hj : 3 ≤ j.val) : (rot6d r * C' * (rot6d r)ᵀ) i j = (rot6d r * C * (rot6d r)ᵀ) i j := by
  rw [turned_entry, turned_entry]
  refine Finset.sum_congr rfl fun l _ => Finset.sum_congr rfl fun k _ => ?_
  by_cases hk : k.val < 3
  · rw [rot6d_mixed r i k (Or.inl ⟨hi, hk⟩)]
    ring
  by_cases hl : l.val < 3
  · rw [rot6d_mixed r j l (Or.inl ⟨hj, hl⟩)]
    ring
  rw [h k l (by omega) (by omega)]

theorem RatesApart.turned {C : M6} (h : RatesApart C) (r : M3) : RatesApart (rot6d r * C * (rot6d r)ᵀ) := by
  intro i j hi hj
  rw [turned_entry, turned_entry]
  constructor
  · refine Finset.sum_eq_zero fun l _ => Finset.sum_eq_zero fun k _ => ?_
    by_cases hk : k.val < 3
    · rw [rot6d_mixed r i k (Or.inl ⟨hi, hk⟩)]
      ring
    by_cases hl : 3 ≤ l.val
    · rw [rot6d_mixed r j l (Or.inr ⟨hj, hl⟩)]
      ring
    rw [(h k l (by omega) (by omega)).1]
    ring
  · refine Finset.sum_eq_zero fun l _ => Finset.sum_eq_zero fun k _ => ?_
    by_cases hk : 3 ≤ k.val
    · rw [rot6d_mixed r j k (Or.inr ⟨hj, hk⟩)]
      ring
    by_cases hl : l.val < 3
    · rw [rot6d_mixed r i l (Or.inl ⟨hi, hl⟩)]
      ring
    rw [(h l k (by omega) (by omega)).2]
    ring

theorem putBlock_rates {C : M6} (h : RatesApart C) (i j : Fin 15) (hi : IsRate i) (hj : ¬ IsRate j) :
    putBlock 6 6 0 C i j = 0 ∧ putBlock 6 6 0 C j i = 0 := by
  unfold IsRate at hi hj
  have k : j.val < 6 ∨ 12 ≤ j.val ∨ (6 ≤ j.val ∧ j.val < 9) := by omega
  simp only [putBlock, of_apply]
  by_cases hb : 6 ≤ j.val ∧ j.val < 12
  · rw [dif_pos (by omega), dif_pos (by omega)]
    exact h _ _ (by simp; omega) (by simp; omega)
  · rw [dif_neg (by omega), dif_neg (by omega)]
    exact ⟨rfl, rfl⟩

theorem twist_sameRates {c c' : PrepCtx} (hbuf : c'.buf = c.buf) (h2 : c.twoD = false) (h2' : c'.twoD = false) {m m' : TwistMsg}
    (h : m.SameRates m') {cd : CallbackData} (hcd : cd.Motion) (target : String) :
    Option.Rel (Payload.SameAbout IsRate) (prepareTwist c m target cd.blank) (prepareTwist c' m' target cd.blank) := by
  unfold prepareTwist
  rw [hbuf, h.frame, h.stamp]
  cases lookupTransformSafe c.buf target (if m.frame = "" then target else m.frame) m.stamp with
  | none => exact .none
  | some t =>
    refine .some ?_
    unfold twistPayload finish
    dsimp only
    rw [h2, h2', h.ang, copyCov6_eq, copyCov6_eq]
    have mot := put_motion (off := 9) (by omega) (put_motion (off := 6) (by omega) hcd.upd
      (maskAxes t.rot fun i => cd.blank.upd (axis 6 (by omega) i))) (maskAxes t.rot fun i => cd.blank.upd (axis 9 (by omega) i))
    refine ⟨mot, mot, fun _ _ => rfl, fun i hi _ => ?_, fun i j hi hj _ _ => ?_, fun i j hi hj _ _ => ?_, fun i j hi hj _ _ => ?_,
      hcd.unlimited, hcd.unlimited⟩
    · show put 9 _ (mulDbl t.rot m.ang) i = put 9 _ (mulDbl t.rot m.ang) i
      unfold put
      rw [dif_pos ⟨hi.1, by have := hi.2; omega⟩, dif_pos ⟨hi.1, by have := hi.2; omega⟩]
    · show putBlock 6 6 0 _ i j = putBlock 6 6 0 _ i j
      unfold IsRate at hi hj
      simp only [putBlock, of_apply]
      rw [dif_pos (by omega), dif_pos (by omega)]
      exact turned_rates _ h.cov _ _ (by simp; omega) (by simp; omega)
    · exact putBlock_rates (h.apart.turned _) i j hi hj
    · exact putBlock_rates (h.apart'.turned _) i j hi hj

theorem accel_sameRates {c c' : PrepCtx} (hbuf : c'.buf = c.buf) (hb : c'.base = c.base) (h2 : c.twoD = false) (h2' : c'.twoD = false)
    {m m' : ImuMsg} (hs : m'.stamp = m.stamp) (hf : m'.frame = m.frame) {cd : CallbackData} (hcd : cd.Motion) (grav : Bool)
    (target : String) :
    Option.Rel (Payload.SameAbout IsRate) (prepareAcceleration c grav m target cd.relative cd.blank)
      (prepareAcceleration c' grav m' target cd.relative cd.blank) := by
  unfold prepareAcceleration
  rw [hbuf, hb, hf, hs]
  cases lookupTransformSafe c.buf target (if m.frame = "" then c.base else m.frame) m.stamp with
  | none => exact .none
  | some t =>
    refine .some ?_
    unfold accelPayload finish
    dsimp only
    rw [h2, h2']
    have mot := put_motion (off := 12) (by omega) hcd.upd (maskAxes t.rot fun i => cd.blank.upd (axis 12 (by omega) i))
    have out : ∀ (C : M3) (i j : Fin 15), IsRate i → putBlock 3 12 (0 : Mat15) C i j = 0 ∧ putBlock 3 12 (0 : Mat15) C j i = 0 := by
      intro C i j hi
      unfold IsRate at hi
      simp only [putBlock, of_apply]
      rw [dif_neg (by omega), dif_neg (by omega)]
      exact ⟨rfl, rfl⟩
    refine ⟨mot, mot, fun _ _ => rfl, fun i hi _ => ?_, fun i j hi _ _ _ => ((out _ i j hi).1).trans ((out _ i j hi).1).symm,
      fun i j hi _ _ _ => out _ i j hi, fun i j hi _ _ _ => out _ i j hi, hcd.unlimited, hcd.unlimited⟩
    unfold IsRate at hi
    simp only [Bool.false_eq_true, if_false]
    unfold put
    rw [dif_neg (by omega), dif_neg (by omega)]

theorem asked_sameRates {p p' : FilterPar} {c c' : PrepCtx} (hbuf : c'.buf = c.buf) (hw : c'.world = c.world) (h2 : c.twoD = false)
    (h2' : c'.twoD = false) {m m' : PoseMsg} (hs : m'.stamp = m.stamp) (hf : m'.frame = m.frame) :
    Option.Rel (fun a b : Option State × Mat15 => SameValuesOpt IsRate a.1 b.1 ∧ SameAbout IsRate a.2 b.2) (Sys.asked (ekfView p) c m)
      (Sys.asked (ekfView p') c' m') := by
  have k := asked_sameKind (p := p) (p' := p') hbuf hw h2 h2' hs hf
  have mo : ∀ i, IsRate i → 6 ≤ i.val := isRate_unmixed.motion
  have ap : ∀ {P : Mat15}, SameMotion ((1e-6 : ℝ) • (1 : Mat15)) P → ApartFrom IsRate P := by
    intro P e i j hi hj h6
    have ne : i ≠ j := fun e => hj (e ▸ hi)
    rw [e i j (mo i hi) h6, e j i h6 (mo i hi), Matrix.smul_apply, Matrix.smul_apply, Matrix.one_apply_ne ne, Matrix.one_apply_ne ne.symm]
    simp
  cases h0 : Sys.asked (ekfView p) c m with
  | none =>
    rw [h0] at k
    cases h1 : Sys.asked (ekfView p') c' m' with
    | some r1 => rw [h1] at k; cases k
    | none => exact .none
  | some r =>
    rw [h0] at k
    cases h1 : Sys.asked (ekfView p') c' m' with
    | none => rw [h1] at k; cases k
    | some r1 =>
      have s0 := asked_motion h2 h0
      have s1 := asked_motion h2' h1
      obtain ⟨x, e0, z0⟩ := asked_rest h2 h0
      obtain ⟨x1, e1, z1⟩ := asked_rest h2' h1
      refine .some ⟨fun u v a0 a1 i hi => ?_, fun i j hi hj => ?_, ap s0, ap s1⟩
      · rw [e0] at a0
        rw [e1] at a1
        injection a0 with a0
        injection a1 with a1
        rw [← a0, ← a1, z0 i (mo i hi), z1 i (mo i hi)]
      · rw [s0 i j (mo i hi) (mo j hj), s1 i j (mo i hi) (mo j hj)]

theorem angularCov_apart (a : Fin 9 → ℝ) : RatesApart (msgCov (angularCov a)) := by
  intro i j hi hj
  have e : msgCov (angularCov a) = copyCov6 (angularCov a) := (copyCov6_eq _).symm
  rw [e]
  simp only [copyCov6, angularCov, of_apply]
  rw [dif_neg (by omega), dif_neg (by omega)]
  exact ⟨rfl, rfl⟩

variable {p p' : FilterPar} {g : SysCfg (ekfCore p)} {g' : SysCfg (ekfCore p')}

theorem events_sameRates {P : MQueue (ekfCore p)} {P' : MQueue (ekfCore p')} (hi : g.inputs.MotionOnly) (hin : g'.inputs = g.inputs)
    (hfr : g'.frames = g.frames) (h2 : g.twoD = false) (h2' : g'.twoD = false) (s : Sys (ekfCore p) P) (s' : Sys (ekfCore p') P')
    {e e' : Sys.Ev} (h : e.SameRates e') :
    List.Forall₂ (Node.Event.SameAbout IsRate) (s.events (ekfView p) g e) (s'.events (ekfView p') g' e') := by
  have one : ∀ (topic : String) (stamp : Int) {z z' : Option Payload}, Option.Rel (Payload.SameAbout IsRate) z z' →
      List.Forall₂ (Node.Event.SameAbout IsRate) [(.sensor topic stamp (z.map (ekfView p).meas) : Node.Event (ekfCore p))]
        [(.sensor topic stamp (z'.map (ekfView p').meas) : Node.Event (ekfCore p'))] := by
    intro topic stamp z z' hz
    refine .cons (.sensor topic stamp ?_) .nil
    cases hz with
    | none => exact .none
    | some h => exact .some h
  cases h with
  | odom i buf junk junk' m m' h =>
    have hs : m'.stamp = m.stamp := h.stamp
    simp only [Sys.events, hin]
    cases hcd : g.inputs.odomCds[i]? with
    | none => exact .nil
    | some ab =>
      obtain ⟨a, b⟩ := ab
      obtain ⟨ha, hb⟩ := hi.odom i a b hcd
      dsimp only
      split
      · unfold Hub.odomEvents
        have na : ¬ a.sum > 0 := by omega
        simp only [if_neg na, List.nil_append, hs]
        split
        · refine one _ _ ?_
          have := twist_sameRates (c := s.ctx (ekfView p) g buf junk) (c' := s'.ctx (ekfView p') g' buf junk') rfl h2 h2' h hb g.frames.base
          simpa only [Sys.ctx, hfr] using this
        · exact .nil
      · exact .nil
  | pose i buf junk junk' m m' =>
    simp only [Sys.events, hin]
    cases hcd : g.inputs.poseCds[i]? with
    | none => exact .nil
    | some a =>
      have ha := hi.pose i a hcd
      dsimp only
      rw [if_neg (by omega), if_neg (by omega)]
      exact .nil
  | twist i buf junk junk' m m' h =>
    simp only [Sys.events, hin]
    cases hcd : g.inputs.twistCds[i]? with
    | none => exact .nil
    | some b =>
      dsimp only
      split
      · rw [h.stamp]
        refine one _ _ ?_
        rw [hfr]
        exact twist_sameRates (c := s.ctx (ekfView p) g buf junk) (c' := s'.ctx (ekfView p') g' buf junk') rfl h2 h2' h
          (hi.twist i b hcd) g.frames.base
      · exact .nil
  | imu i buf junk junk' m m' hs hf hv hc hacc =>
    simp only [Sys.events, hin]
    cases hcd : g.inputs.imuCds[i]? with
    | none => exact .nil
    | some abd =>
      obtain ⟨a, b, d⟩ := abd
      obtain ⟨ha, hb, hd⟩ := hi.imu i a b d hcd
      cases g.inputs.imus[i]? with
      | none => exact .nil
      | some set =>
        dsimp only
        split
        · unfold Hub.imuEvents
          have na : ∀ q : Prop, ¬ (a.sum > 0 ∧ q) := fun q h => by omega
          simp only [if_neg (na _), List.nil_append, hs, hc, hacc]
          refine List.rel_append ?_ ?_
          · split
            · refine one _ _ ?_
              have cv : m'.asTwist.cov = m.asTwist.cov := congrArg angularCov hc
              have := twist_sameRates (c := s.ctx (ekfView p) g buf junk) (c' := s'.ctx (ekfView p') g' buf junk') rfl h2 h2'
                (m := m.asTwist) (m' := m'.asTwist) ⟨hs, hf, hv, fun i j _ _ => by rw [cv], angularCov_apart _, angularCov_apart _⟩ hb
                g.frames.base
              simpa only [Sys.ctx, hfr] using this
            · exact .nil
          · split
            · refine one _ _ ?_
              have := accel_sameRates (c := s.ctx (ekfView p) g buf junk) (c' := s'.ctx (ekfView p') g' buf junk') rfl
                (congrArg Frames.base hfr) h2 h2' hs hf hd set.removeGravity g.frames.base
              simpa only [Sys.ctx, hfr] using this
            · exact .nil
        · exact .nil
  | command now u u' h => exact .cons (.control _ h) .nil
  | setPose now buf junk junk' m m' hs hf =>
    show List.Forall₂ _ [Node.Event.setPose m.stamp now _] [Node.Event.setPose m'.stamp now _]
    rw [hs]
    exact .cons (.setPose _ _ (asked_sameRates (c := s.ctx (ekfView p) g buf junk)
      (c' := s'.ctx (ekfView p') g' buf junk') rfl (congrArg Frames.world hfr) h2 h2' hs hf)) .nil
  | reset => exact .cons .reset .nil
  | toggle on => exact .cons (.toggle on) .nil
  | enable => exact .cons .enable .nil
  | tick now now2 buf =>
    simp only [Sys.events, hfr]
    exact .cons (.tick _ _ _) .nil

theorem allEvents_sameRates {P : MQueue (ekfCore p)} {P' : MQueue (ekfCore p')} (hi : g.inputs.MotionOnly) (hin : g'.inputs = g.inputs)
    (hfr : g'.frames = g.frames) (h2 : g.twoD = false) (h2' : g'.twoD = false) {es es' : List Sys.Ev}
    (h : List.Forall₂ Sys.Ev.SameRates es es') : ∀ (s : Sys (ekfCore p) P) (s' : Sys (ekfCore p') P'),
    List.Forall₂ (Node.Event.SameAbout IsRate) (s.allEvents (ekfView p) g es) (s'.allEvents (ekfView p') g' es') := by
  induction h with
  | nil => intro s s'; exact .nil
  | cons he _ ih => intro s s'; exact List.rel_append (events_sameRates hi hin hfr h2 h2' s s' he) (ih _ _)

theorem speeds_sameRates {os : List (Out (ekfCore p))} {os' : List (Out (ekfCore p'))} (h : List.Forall₂ (Out.SameAbout IsRate) os os') :
    ∀ {ms ms' : List Sent}, List.Forall₂ SpeedsOf os ms → List.Forall₂ SpeedsOf os' ms' → List.Forall₂ Sent.SameRates ms ms' := by
  induction h with
  | nil =>
    intro ms ms' h1 h2
    cases h1
    cases h2
    exact .nil
  | cons ho _ ih =>
    intro ms ms' h1 h2
    cases h1 with
    | cons a1 b1 =>
      cases h2 with
      | cons a2 b2 =>
        refine .cons ?_ (ih b1 b2)
        cases ho with
        | odom t h =>
          cases a1 with
          | odom _ _ _ k1 =>
            cases a2 with
            | odom _ _ _ k2 =>
              refine .odom t fun a b ha hb => ?_
              obtain ⟨y, hy, v1, e1⟩ := k1 a ha
              obtain ⟨y', hy', v2, e2⟩ := k2 b hb
              obtain ⟨w1, w2⟩ := h y y' hy hy'
              refine ⟨fun k => ?_, fun i j hi hj => ?_⟩
              · rw [(v1 k).2, (v2 k).2]
                exact w1 _ ⟨by simp, by simp; omega⟩
              · rw [← copyCov6_eq, ← copyCov6_eq, e1, e2]
                simp only [copyCov6, of_apply]
                exact w2 _ _ ⟨by simp; omega, by simp; omega⟩ ⟨by simp; omega, by simp; omega⟩
        | tf t =>
          cases a1
          cases a2
          exact .tf t _ _
        | accel t =>
          cases a1
          cases a2
          exact .accel t _ _

/-- C149 for whole nodes in space and the rates of turn: two nodes with the same inputs, which select velocities, rates and
accelerations only and reject nothing, hear the same about the rates, not correlated with the velocities, and are commanded
and configured in the same way about them.  Then all odometry messages they send agree about the rates and their
covariances, whatever is measured of velocities and accelerations, with whatever covariances and mounted anywhere. -/
theorem C149_messages (p p' : FilterPar) (hp : p.SameAbout IsRate p') (g : SysCfg (ekfCore p)) (g' : SysCfg (ekfCore p'))
    (hi : g.inputs.MotionOnly) (hin : g'.inputs = g.inputs) (hfr : g'.frames = g.frames) (h2 : g.twoD = false) (h2' : g'.twoD = false)
    (hg : g.cfg.SameAbout IsRate g'.cfg) {u u' : Fin 6 → ℝ} (hu : SameCommand IsRate u u') (now : Int) (h0 : 0 ≤ now) (d d' : Differ)
    {es es' : List Sys.Ev} (he : List.Forall₂ Sys.Ev.SameRates es es') (ht : Ticks now es) :
    List.Forall₂ Sent.SameRates (Sys.run (ekfView p) g (Sys.start g (PQueue.sortedList _ _) () u now d) es).2
      (Sys.run (ekfView p') g' (Sys.start g' (PQueue.sortedList _ _) () u' now d') es').2 :=
  speeds_sameRates (C149_undisturbed isRate_unmixed p p' hp g.cfg g'.cfg hg hu now h0
      (allEvents_sameRates hi hin hfr h2 h2' he (Sys.start g (PQueue.sortedList _ _) () u now d)
        (Sys.start g' (PQueue.sortedList _ _) () u' now d'))
      (allEvents_clocked es _ now h0 ht))
    (run_tells (g := g) es (Sys.start g (PQueue.sortedList _ _) () u now d))
    (run_tells (g := g') es' (Sys.start g' (PQueue.sortedList _ _) () u' now d'))

/-- Two robots turning alike: one slides, the velocity of the other one is not even a number, and they are commanded and told
poses differently. -/
example : List.Forall₂ Sent.SameRates
    (Sys.run (ekfView plainPar) slideCfg (Sys.start slideCfg (PQueue.sortedList _ _) () (0 : Fin 6 → ℝ) 0 ⟨0, 0, 0, 0⟩)
      [.twist 0 (fun _ _ _ => some Tf.id) 0 { slideMsg with cov := evenCov 1 }, .tick 3 3 (fun _ _ _ => none), .command 4 0,
        .setPose 5 (fun _ _ _ => some Tf.id) 0 ⟨"odom", 5, 0, ⟨0, 0, 0, 1⟩, fun _ => 0⟩, .tick 6 6 (fun _ _ _ => none)]).2
    (Sys.run (ekfView plainPar) slideCfg (Sys.start slideCfg (PQueue.sortedList _ _) () (0 : Fin 6 → ℝ) 0 ⟨0, 0, 0, 0⟩)
      [.twist 0 (fun _ _ _ => some Tf.id) 0 { slideMsg with cov := evenCov 1, lin := fun _ => .nan }, .tick 3 3 (fun _ _ _ => none),
        .command 4 (fun c => if c = 0 then 1 else 0),
        .setPose 5 (fun _ _ _ => some Tf.id) 0 ⟨"odom", 5, ![1, 2, 3], ⟨0, 0, 1, 0⟩, fun _ => 1⟩, .tick 6 6 (fun _ _ _ => none)]).2 := by
  have ap : ApartFrom IsRate (1 : Mat15) := fun i j hi hj _ => by
    have ne : i ≠ j := fun e => hj (e ▸ hi)
    exact ⟨Matrix.one_apply_ne ne, Matrix.one_apply_ne ne.symm⟩
  have same : SameAbout IsRate (1 : Mat15) 1 := ⟨fun _ _ _ _ => rfl, ap, ap⟩
  have even : RatesApart (msgCov (evenCov 1)) := by
    intro i j hi hj
    have ne : i ≠ j := fun e => by subst e; omega
    rw [evenCov_eq, Matrix.smul_apply, Matrix.smul_apply, Matrix.one_apply_ne ne, Matrix.one_apply_ne ne.symm]
    simp
  refine C149_messages plainPar plainPar ⟨rfl, rfl, fun _ _ => rfl, fun _ _ => rfl, fun _ _ => rfl, fun _ _ => rfl, fun _ _ => rfl⟩
    slideCfg slideCfg ⟨?_, ?_, ?_, ?_⟩ rfl rfl rfl rfl
    ⟨⟨rfl, rfl, rfl, rfl, rfl, rfl, rfl, rfl, rfl⟩, same, same, same, same, ?_, fun _ _ => rfl⟩ (fun _ _ => rfl) 0 le_rfl ⟨0, 0, 0, 0⟩
    ⟨0, 0, 0, 0⟩
    (.cons (.twist 0 _ _ _ _ _ ⟨rfl, rfl, rfl, fun _ _ _ _ => rfl, even, even⟩) (.cons (.tick _ _ _)
      (.cons (.command _ _ _ fun c hc => if_neg fun e => by subst e; exact absurd hc.1 (by decide))
        (.cons (.setPose _ _ _ _ _ _ rfl rfl) (.cons (.tick _ _ _) .nil))))) (by simp [Ticks])
  · intro i a b h
    simp [slideCfg] at h
  · intro i a h
    simp [slideCfg] at h
  · intro i a h
    have : a = slideCd := by
      rcases i with _ | i
      · simpa [slideCfg] using h.symm
      · simp [slideCfg] at h
    subst this
    refine ⟨fun i hi => ?_, rfl⟩
    rcases of_decide_eq_true hi with rfl | rfl | rfl <;> decide
  · intro i a b d h
    simp [slideCfg] at h
  · intro u v hu hv i _
    rw [hu] at hv
    injection hv with hv
    rw [hv]

end RL
