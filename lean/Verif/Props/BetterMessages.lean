import Verif.Props.KnowingMessages
import Verif.Props.KnowingBetter
import Verif.Props.Forgets
/-! # C147 for the messages of whole nodes -/

namespace RL
open Matrix

/-- An input that selects some of `n` variables from number `off` on, and rejects nothing. -/
structure CallbackData.Selects (off n : ℕ) (cd : CallbackData) : Prop where
  upd : ∀ i, cd.upd i = true → off ≤ i.val ∧ i.val < off + n
  unlimited : cd.thresh = .unlimited

/-- Twist inputs select velocities, inertial sensors rates and accelerations (as in the parameters, ros_filter.cpp:1165-1755);
no input selects a part of the pose, and none has a rejection threshold for what it selects. -/
structure Inputs.Speeds (n : Inputs) : Prop where
  odom : ∀ (i : ℕ) (a b : CallbackData), n.odomCds[i]? = some (a, b) → a.sum = 0 ∧ b.Selects 6 6
  pose : ∀ (i : ℕ) (a : CallbackData), n.poseCds[i]? = some a → a.sum = 0
  twist : ∀ (i : ℕ) (b : CallbackData), n.twistCds[i]? = some b → b.Selects 6 6
  imu : ∀ (i : ℕ) (a b d : CallbackData), n.imuCds[i]? = some (a, b, d) → a.sum = 0 ∧ b.Selects 9 3 ∧ d.Selects 12 3

/-- Two covariances, the first one of a sensor that is at least as good; no variance is below that of the filter's floor. -/
structure Sounder {n : ℕ} (C C' : Matrix (Fin n) (Fin n) ℝ) : Prop where
  psd : C.PosSemidef
  psd' : C'.PosSemidef
  floor : ∀ v : Fin n → ℝ, 1e-9 * (v ⬝ᵥ v) ≤ v ⬝ᵥ C.mulVec v
  less : ∀ v : Fin n → ℝ, v ⬝ᵥ C.mulVec v ≤ v ⬝ᵥ C'.mulVec v

/-- A field of an inertial sensor message is missing in both messages, or better in the first one. -/
def SounderField (a a' : Fin 9 → ℝ) : Prop := a 0 = -1 ∧ a' 0 = -1 ∨ Sounder (msgCov3 a) (msgCov3 a')

/-- The same messages arrive at the same inputs of two nodes, with the same stamps and frames, and any finite values; the
same transforms are known, which are rotations and translations.  The covariances for the first node are at most those for
the second. -/
inductive Sys.Ev.Better : Sys.Ev → Sys.Ev → Prop
  | odom (i : ℕ) (buf : TfBuffer) (hb : ∀ a b s t, buf a b s = some t → IsRot t.rot) (junk junk' : State) (m m' : OdomMsg)
      (hs : m'.stamp = m.stamp) (hc : m'.child = m.child) (hR : Sounder (msgCov m.twistCov) (msgCov m'.twistCov))
      (h1 : Numbers m.lin) (h2 : Numbers m.ang) (h1' : Numbers m'.lin) (h2' : Numbers m'.ang) :
      Better (.odom i buf junk m) (.odom i buf junk' m')
  | pose (i i' : ℕ) (buf buf' : TfBuffer) (junk junk' : State) (m m' : PoseMsg) :
      Better (.pose i buf junk m) (.pose i' buf' junk' m')
  | twist (i : ℕ) (buf : TfBuffer) (hb : ∀ a b s t, buf a b s = some t → IsRot t.rot) (junk junk' : State) (m m' : TwistMsg)
      (hs : m'.stamp = m.stamp) (hf : m'.frame = m.frame) (hR : Sounder (msgCov m.cov) (msgCov m'.cov))
      (h1 : Numbers m.lin) (h2 : Numbers m.ang) (h1' : Numbers m'.lin) (h2' : Numbers m'.ang) :
      Better (.twist i buf junk m) (.twist i buf junk' m')
  | imu (i : ℕ) (buf : TfBuffer) (hb : ∀ a b s t, buf a b s = some t → IsRot t.rot) (junk junk' : State) (m m' : ImuMsg)
      (hs : m'.stamp = m.stamp) (hf : m'.frame = m.frame) (hv : SounderField m.velCov m'.velCov)
      (ha : SounderField m.accCov m'.accCov) (h1 : Numbers m.vel) (h1' : Numbers m'.vel) :
      Better (.imu i buf junk m) (.imu i buf junk' m')
  | command (now : Int) (u u' : Fin 6 → ℝ) : Better (.command now u) (.command now u')
  | setPose (now : Int) (buf : TfBuffer) (junk junk' : State) (m m' : PoseMsg) (hs : m'.stamp = m.stamp) (hf : m'.frame = m.frame) :
      Better (.setPose now buf junk m) (.setPose now buf junk' m')
  | reset : Better .reset .reset
  | toggle (on : Bool) : Better (.toggle on) (.toggle on)
  | enable : Better .enable .enable
  | tick (now now2 : Int) (buf : TfBuffer) : Better (.tick now now2 buf) (.tick now now2 buf)

/-- Messages of the same kind about the same instant; of no combination of velocities does the first odometry message claim a
larger variance. -/
inductive Sent.Surer : Sent → Sent → Prop
  | odom (t : Int) {m m' : Option OdomMsg} (h : ∀ a b, m = some a → m' = some b → ∀ v : Fin 6 → ℝ,
      v ⬝ᵥ (msgCov a.twistCov).mulVec v ≤ v ⬝ᵥ (msgCov b.twistCov).mulVec v) : Surer (.odom t m) (.odom t m')
  | tf (t : Int) (m m' : Option TfMsg) : Surer (.tf t m) (.tf t m')
  | accel (t : Int) (m m' : Option AccelMsg) : Surer (.accel t m) (.accel t m')

/-! ## What is made of the messages -/

theorem Sounder.better {n off : ℕ} (ho : off + n ≤ 15) {r C C' : Matrix (Fin n) (Fin n) ℝ} (h : Sounder C C') (hr : r * rᵀ = 1)
    {m m' : Payload} (hR : m.R = putBlock n off 0 (r * C * rᵀ)) (hR' : m'.R = putBlock n off 0 (r * C' * rᵀ))
    (hu : m'.upd = m.upd) (hi : ∀ i, m.upd i = true → off ≤ i.val ∧ i.val < off + n) (hz : ∀ i, (m.z i).isFin = true) :
    m.Better m' := by
  have form : ∀ (M : Matrix (Fin n) (Fin n) ℝ) (v : State), v ⬝ᵥ (putBlock n off 0 (r * M * rᵀ)).mulVec v =
      (v ᵥ* (emb n off * r)) ⬝ᵥ M.mulVec (v ᵥ* (emb n off * r)) := by
    intro M v
    rw [putBlock_eq ho, ← form_quad, transpose_mul]
    simp only [Matrix.mul_assoc]
  have at_ : ∀ (M : Mat15) (i : Fin 15), M i i = Pi.single i 1 ⬝ᵥ M.mulVec (Pi.single i 1) := by
    intro M i
    rw [single_one_dotProduct, mulVec_single_one]
    rfl
  have fl : ∀ i, m.upd i = true → 1e-9 ≤ m.R i i ∧ 1e-9 ≤ m'.R i i := by
    intro i h1
    have one : (Pi.single i 1 ᵥ* (emb n off * r)) ⬝ᵥ (Pi.single i 1 ᵥ* (emb n off * r)) = (1 : ℝ) := by
      have e := form 1 (Pi.single i 1)
      rw [Matrix.one_mulVec, Matrix.mul_one, hr, ← at_] at e
      rw [← e]
      unfold putBlock
      rw [of_apply, dif_pos ⟨hi i h1, hi i h1⟩, Matrix.one_apply_eq]
    have f := h.floor (Pi.single i 1 ᵥ* (emb n off * r))
    rw [one, mul_one, ← form, ← hR, ← at_] at f
    have g := h.less (Pi.single i 1 ᵥ* (emb n off * r))
    rw [← form, ← form, ← hR, ← hR', ← at_, ← at_] at g
    exact ⟨f, f.trans g⟩
  refine ⟨good_of_psd (hR ▸ putBlock_psd ho (psd_conj h.psd r)), good_of_psd (hR' ▸ putBlock_psd ho (psd_conj h.psd' r)),
    fun i h1 _ => ⟨hu ▸ h1, hz i⟩, fun i h1 => fl i (h1.elim (fun h => hu ▸ h) id), fun v _ => ?_⟩
  rw [hR, hR', form, form]
  exact h.less _

theorem Sounder.isFin_twist (t : Tf) (c : PrepCtx) (cd : CallbackData) {m : TwistMsg} (h1 : Numbers m.lin) (h3 : Numbers m.ang) : ∀ i,
    (put 9 (put 6 cd.blank.z fun i => (mulDbl t.rot m.lin i).add (.fin (cross t.org c.omega i))) (mulDbl t.rot m.ang) i).isFin = true := by
  refine put_fin (put_fin (fun _ => rfl) fun i => ?_) (mulDbl_num _ h3)
  have := mulDbl_num t.rot h1 i
  cases h : mulDbl t.rot m.lin i with
  | fin x => rfl
  | _ => rw [h] at this; cases this

theorem put_within {off n o : ℕ} (h1 : off ≤ o) (h2 : o + 3 ≤ off + n) {u : Fin 15 → Bool}
    (hu : ∀ i, u i = true → off ≤ i.val ∧ i.val < off + n) (v : Fin 3 → Bool) :
    ∀ i, put o u v i = true → off ≤ i.val ∧ i.val < off + n := by
  intro i hi
  unfold put at hi
  split at hi
  · rename_i h
    omega
  · exact hu i hi

theorem twist_better {c c' : PrepCtx} (hbuf : c'.buf = c.buf) (hb : ∀ a b s t, c.buf a b s = some t → IsRot t.rot)
    (h2 : c.twoD = false) (h2' : c'.twoD = false) {m m' : TwistMsg} (hs : m'.stamp = m.stamp) (hf : m'.frame = m.frame)
    (h1 : Numbers m.lin) (h3 : Numbers m.ang) {cd : CallbackData}
    (hR : cd.Selects 6 6 ∧ Sounder (msgCov m.cov) (msgCov m'.cov) ∨ cd.Selects 9 3 ∧ ∃ a a' : Fin 9 → ℝ, m.cov = angularCov a ∧
      m'.cov = angularCov a' ∧ Sounder (msgCov3 a) (msgCov3 a')) (target : String) :
    Option.Rel Payload.BetterMotion (prepareTwist c m target cd.blank) (prepareTwist c' m' target cd.blank) := by
  unfold prepareTwist
  rw [hbuf, hf, hs]
  cases hl : lookupTransformSafe c.buf target (if m.frame = "" then target else m.frame) m.stamp with
  | none => exact .none
  | some t =>
    have ht := lookup_isRot hb hl
    refine .some ?_
    unfold twistPayload finish
    dsimp only
    rw [h2, h2', (C43_matrix_to_quaternion ht).2, copyCov6_eq, copyCov6_eq]
    rcases hR with ⟨hcd, hR⟩ | ⟨hcd, a, a', ha, ha', hR⟩
    · have hi := put_within (off := 6) (n := 6) (o := 9) (by omega) (by omega)
        (put_within (off := 6) (n := 6) (o := 6) (by omega) (by omega) hcd.upd (maskAxes t.rot fun i => cd.upd (axis 6 (by omega) i)))
        (maskAxes t.rot fun i => cd.upd (axis 9 (by omega) i))
      exact ⟨hR.better (n := 6) (off := 6) (by omega) (rot6d_mul_transpose ht) rfl rfl rfl hi (Sounder.isFin_twist t c cd h1 h3), rfl,
        fun i h => (hi i h).1, hcd.unlimited, hcd.unlimited⟩
    · rw [ha, ha']
      have lin : (fun i => cd.upd (axis 6 (by omega) i)) = fun _ => false := by
        funext i
        rw [Bool.eq_false_iff]
        intro h
        have := (hcd.upd _ h).1
        simp only [axis] at this
        omega
      have hi : ∀ i, put 9 (put 6 cd.upd (maskAxes t.rot fun i => cd.upd (axis 6 (by omega) i)))
          (maskAxes t.rot fun i => cd.upd (axis 9 (by omega) i)) i = true → 9 ≤ i.val ∧ i.val < 9 + 3 := by
        refine put_within (by omega) (by omega) (fun i h => ?_) _
        unfold put at h
        split at h
        · rw [lin, maskAxes_none] at h
          cases h
        · exact hcd.upd i h
      exact ⟨hR.better (n := 3) (off := 9) (by omega) ht.1 (angular_block 6 _ _) (angular_block 6 _ _) rfl hi
        (Sounder.isFin_twist t c cd h1 h3), rfl, fun i h => by have := hi i h; omega, hcd.unlimited, hcd.unlimited⟩

theorem accel_better {c c' : PrepCtx} (hbuf : c'.buf = c.buf) (hb : ∀ a b s t, c.buf a b s = some t → IsRot t.rot)
    (hbase : c'.base = c.base) (h2 : c.twoD = false) (h2' : c'.twoD = false)
    {m m' : ImuMsg} (hs : m'.stamp = m.stamp) (hf : m'.frame = m.frame) (hR : Sounder (msgCov3 m.accCov) (msgCov3 m'.accCov))
    {cd : CallbackData} (hcd : cd.Selects 12 3) (grav : Bool) (target : String) :
    Option.Rel Payload.BetterMotion (prepareAcceleration c grav m target cd.relative cd.blank)
      (prepareAcceleration c' grav m' target cd.relative cd.blank) := by
  unfold prepareAcceleration
  rw [hbuf, hbase, hf, hs]
  cases hl : lookupTransformSafe c.buf target (if m.frame = "" then c.base else m.frame) m.stamp with
  | none => exact .none
  | some t =>
    have ht := lookup_isRot hb hl
    refine .some ?_
    unfold accelPayload finish
    dsimp only
    rw [h2, h2', (C43_matrix_to_quaternion ht).2, copyCov3_eq, copyCov3_eq]
    have hi := put_within (off := 12) (n := 3) (o := 12) (by omega) (by omega) hcd.upd
      (maskAxes t.rot fun i => cd.upd (axis 12 (by omega) i))
    have fins : ∀ v : V3, ∀ i, (put 12 cd.blank.z (fun i => .fin (v i)) i).isFin = true :=
      fun v => put_fin (fun _ => rfl) fun _ => rfl
    exact ⟨hR.better (n := 3) (off := 12) (by omega) ht.1 rfl rfl rfl hi (fins _), rfl,
      fun i h => by have := hi i h; omega, hcd.unlimited, hcd.unlimited⟩

theorem asked_motion {p : FilterPar} {c : PrepCtx} (h2 : c.twoD = false) {m : PoseMsg} {r : Option State × Mat15}
    (h : Sys.asked (ekfView p) c m = some r) : SameMotion ((1e-6 : ℝ) • (1 : Mat15)) r.2 := by
  obtain ⟨q, hq, rfl⟩ := Option.map_eq_some_iff.1 h
  unfold preparePose at hq
  dsimp only at hq
  split at hq
  · cases hq
  · rename_i t _
    simp only [poseWith, finish, h2, Bool.false_eq_true, if_false] at hq
    injection hq with hq
    subst hq
    intro i j hi _
    exact dif_neg (by rintro ⟨⟨_, h⟩, _⟩; omega)

theorem asked_better {p p' : FilterPar} {c c' : PrepCtx} (hbuf : c'.buf = c.buf) (hw : c'.world = c.world) (h2 : c.twoD = false)
    (h2' : c'.twoD = false) {m m' : PoseMsg} (hs : m'.stamp = m.stamp) (hf : m'.frame = m.frame) :
    Option.Rel (fun a b : Option State × Mat15 => MotionDiag a.2 ∧ MotionDiag b.2 ∧ SurerMotion a.2 b.2)
      (Sys.asked (ekfView p) c m) (Sys.asked (ekfView p') c' m') := by
  have h := asked_sameKind (p := p) (p' := p') hbuf hw h2 h2' hs hf
  have diag : ∀ {P : Mat15}, SameMotion ((1e-6 : ℝ) • (1 : Mat15)) P → MotionDiag P := by
    intro P e
    have d : MotionDiag ((1e-6 : ℝ) • (1 : Mat15)) := motionDiag_smul (by norm_num)
    exact ⟨fun i hi => by rw [e i i hi hi]; exact d.nonneg i hi, fun i j hi hj hne => by rw [e i j hi hj]; exact d.off i j hi hj hne⟩
  cases h1 : Sys.asked (ekfView p) c m with
  | none =>
    rw [h1] at h
    cases h3 : Sys.asked (ekfView p') c' m' with
    | none => exact .none
    | some r => rw [h3] at h; cases h
  | some r =>
    rw [h1] at h
    cases h3 : Sys.asked (ekfView p') c' m' with
    | none => rw [h3] at h; cases h
    | some r' =>
      rw [h3] at h
      cases h with
      | some h => exact .some ⟨diag (asked_motion h2 h1), diag (asked_motion h2' h3), fun v hv => (form_motion h hv).ge⟩

/-! ## What reaches the control flow -/

variable {p p' : FilterPar} {g : SysCfg (ekfCore p)} {g' : SysCfg (ekfCore p')}

theorem SounderField.present {a a' : Fin 9 → ℝ} (h : SounderField a a') :
    |a 0 + 1| < 1e-9 ∧ |a' 0 + 1| < 1e-9 ∨ ¬ |a 0 + 1| < 1e-9 ∧ ¬ |a' 0 + 1| < 1e-9 ∧ Sounder (msgCov3 a) (msgCov3 a') := by
  rcases h with ⟨h, h'⟩ | h
  · left
    rw [h, h']
    norm_num
  · right
    have at_ : ∀ b : Fin 9 → ℝ, b 0 = Pi.single (0 : Fin 3) 1 ⬝ᵥ (msgCov3 b).mulVec (Pi.single 0 1) := by
      intro b
      rw [single_one_dotProduct, mulVec_single_one]
      rfl
    have f := h.floor (Pi.single 0 1)
    rw [single_one_dotProduct, ← at_, Pi.single_eq_same] at f
    have l := h.less (Pi.single 0 1)
    rw [← at_, ← at_] at l
    refine ⟨fun e => ?_, fun e => ?_, h⟩
    · rw [abs_lt] at e
      norm_num at e f
      linarith [e.2]
    · rw [abs_lt] at e
      norm_num at e f
      linarith [e.2]

theorem events_better {P : MQueue (ekfCore p)} {P' : MQueue (ekfCore p')} (hi : g.inputs.Speeds) (hin : g'.inputs = g.inputs)
    (hfr : g'.frames = g.frames) (h2 : g.twoD = false) (h2' : g'.twoD = false) (s : Sys (ekfCore p) P) (s' : Sys (ekfCore p') P')
    {e e' : Sys.Ev} (h : e.Better e') :
    List.Forall₂ Node.Event.Better (s.events (ekfView p) g e) (s'.events (ekfView p') g' e') := by
  have one : ∀ (topic : String) (stamp : Int) {z z' : Option Payload}, Option.Rel Payload.BetterMotion z z' →
      List.Forall₂ Node.Event.Better [(.sensor topic stamp (z.map (ekfView p).meas) : Node.Event (ekfCore p))]
        [(.sensor topic stamp (z'.map (ekfView p').meas) : Node.Event (ekfCore p'))] := by
    intro topic stamp z z' hz
    refine .cons (.sensor topic stamp ?_) .nil
    cases hz with
    | none => exact .none
    | some h => exact .some h
  cases h with
  | odom i buf hb junk junk' m m' hs hc hR h1 h3 h1' h3' =>
    simp only [Sys.events, hin]
    cases hcd : g.inputs.odomCds[i]? with
    | none => exact .nil
    | some ab =>
      obtain ⟨a, b⟩ := ab
      obtain ⟨ha, hbs⟩ := hi.odom i a b hcd
      dsimp only
      split
      · unfold Hub.odomEvents
        have na : ¬ a.sum > 0 := by omega
        simp only [if_neg na, List.nil_append, hs]
        split
        · refine one _ _ ?_
          have := twist_better (c := s.ctx (ekfView p) g buf junk) (c' := s'.ctx (ekfView p') g' buf junk') rfl hb h2 h2'
            (m := m.asTwist) (m' := m'.asTwist) hs hc h1 h3 (Or.inl ⟨hbs, hR⟩) g.frames.base
          simpa only [Sys.ctx, hfr] using this
        · exact .nil
      · exact .nil
  | pose i i' buf buf' junk junk' m m' =>
    have none : ∀ {q : FilterPar} {k : SysCfg (ekfCore q)} {Q : MQueue (ekfCore q)} (r : Sys (ekfCore q) Q) (i : ℕ) (buf : TfBuffer) (junk : State)
        (m : PoseMsg), k.inputs = g.inputs → r.events (ekfView q) k (.pose i buf junk m) = [] := by
      intro q k Q r i buf junk m hk
      simp only [Sys.events, hk]
      cases hcd : g.inputs.poseCds[i]? with
      | none => rfl
      | some a =>
        have ha := hi.pose i a hcd
        dsimp only
        rw [if_neg (by omega)]
    rw [none s i buf junk m rfl, none s' i' buf' junk' m' hin]
    exact .nil
  | twist i buf hb junk junk' m m' hs hf hR h1 h3 h1' h3' =>
    simp only [Sys.events, hin]
    cases hcd : g.inputs.twistCds[i]? with
    | none => exact .nil
    | some b =>
      dsimp only
      split
      · rw [hs]
        refine one _ _ ?_
        rw [hfr]
        exact twist_better (c := s.ctx (ekfView p) g buf junk) (c' := s'.ctx (ekfView p') g' buf junk') rfl hb h2 h2' hs hf h1 h3
          (Or.inl ⟨hi.twist i b hcd, hR⟩) g.frames.base
      · exact .nil
  | imu i buf hbr junk junk' m m' hs hf hv hacc h1 h1' =>
    simp only [Sys.events, hin]
    cases hcd : g.inputs.imuCds[i]? with
    | none => exact .nil
    | some abd =>
      obtain ⟨a, b, d⟩ := abd
      obtain ⟨ha, hb, hd⟩ := hi.imu i a b d hcd
      cases g.inputs.imus[i]? with
      | none => exact .nil
      | some set =>
        dsimp only
        split
        · unfold Hub.imuEvents
          have na : ∀ q : Prop, ¬ (a.sum > 0 ∧ q) := fun q h => by omega
          simp only [if_neg (na _), List.nil_append, hs]
          refine List.rel_append ?_ ?_
          · rcases hv.present with ⟨e, e'⟩ | ⟨e, e', hR⟩
            · rw [if_neg (fun h => h.2 e), if_neg (fun h => h.2 e')]
              exact .nil
            · by_cases hsum : b.sum > 0
              · rw [if_pos ⟨hsum, e⟩, if_pos ⟨hsum, e'⟩]
                refine one _ _ ?_
                have := twist_better (c := s.ctx (ekfView p) g buf junk) (c' := s'.ctx (ekfView p') g' buf junk') rfl hbr h2 h2'
                  (m := m.asTwist) (m' := m'.asTwist) hs hf (fun _ => rfl) h1 (Or.inr ⟨hb, _, _, rfl, rfl, hR⟩) g.frames.base
                simpa only [Sys.ctx, hfr] using this
              · rw [if_neg (fun h => hsum h.1), if_neg (fun h => hsum h.1)]
                exact .nil
          · rcases hacc.present with ⟨e, e'⟩ | ⟨e, e', hR⟩
            · rw [if_neg (fun h => h.2 e), if_neg (fun h => h.2 e')]
              exact .nil
            · by_cases hsum : d.sum > 0
              · rw [if_pos ⟨hsum, e⟩, if_pos ⟨hsum, e'⟩]
                refine one _ _ ?_
                have := accel_better (c := s.ctx (ekfView p) g buf junk) (c' := s'.ctx (ekfView p') g' buf junk') rfl hbr
                  (congrArg Frames.base hfr) h2 h2' hs hf hR hd set.removeGravity g.frames.base
                simpa only [Sys.ctx, hfr] using this
              · rw [if_neg (fun h => hsum h.1), if_neg (fun h => hsum h.1)]
                exact .nil
        · exact .nil
  | command now u u' => exact .cons (.control _ _ _) .nil
  | setPose now buf junk junk' m m' hs hf =>
    show List.Forall₂ _ [Node.Event.setPose m.stamp now _] [Node.Event.setPose m'.stamp now _]
    rw [hs]
    exact .cons (.setPose _ _ (asked_better (c := s.ctx (ekfView p) g buf junk)
      (c' := s'.ctx (ekfView p') g' buf junk') rfl (congrArg Frames.world hfr) h2 h2' hs hf)) .nil
  | reset => exact .cons .reset .nil
  | toggle on => exact .cons (.toggle on) .nil
  | enable => exact .cons .enable .nil
  | tick now now2 buf =>
    simp only [Sys.events, hfr]
    exact .cons (.tick _ _ _) .nil

theorem allEvents_better {P : MQueue (ekfCore p)} {P' : MQueue (ekfCore p')} (hi : g.inputs.Speeds) (hin : g'.inputs = g.inputs)
    (hfr : g'.frames = g.frames) (h2 : g.twoD = false) (h2' : g'.twoD = false) {es es' : List Sys.Ev}
    (h : List.Forall₂ Sys.Ev.Better es es') : ∀ (s : Sys (ekfCore p) P) (s' : Sys (ekfCore p') P'),
    List.Forall₂ Node.Event.Better (s.allEvents (ekfView p) g es) (s'.allEvents (ekfView p') g' es') := by
  induction h with
  | nil => intro s s'; exact .nil
  | cons he _ ih => intro s s'; exact List.rel_append (events_better hi hin hfr h2 h2' s s' he) (ih _ _)

/-- The variance a message claims for a combination of velocities is that of the estimate. -/
theorem twistCov_form (P : Mat15) (v : Fin 6 → ℝ) :
    v ⬝ᵥ (msgCov fun k => P ⟨k.val / 6 + 6, by omega⟩ ⟨k.val % 6 + 6, by omega⟩).mulVec v =
      (fun i : Fin 15 => if h : 6 ≤ i.val ∧ i.val < 12 then v ⟨i.val - 6, by omega⟩ else 0) ⬝ᵥ
        P.mulVec fun i : Fin 15 => if h : 6 ≤ i.val ∧ i.val < 12 then v ⟨i.val - 6, by omega⟩ else 0 := by
  have key : ∀ f : Fin 15 → ℝ, (fun i : Fin 15 => if h : 6 ≤ i.val ∧ i.val < 12 then v ⟨i.val - 6, by omega⟩ else 0) ⬝ᵥ f =
      ∑ k : Fin 6, v k * f ⟨k.val + 6, by omega⟩ := by
    intro f
    simp [dotProduct, Fin.sum_univ_succ]
  rw [key]
  refine Finset.sum_congr rfl fun k _ => congrArg (v k * ·) ?_
  show _ = P ⟨k.val + 6, by omega⟩ ⬝ᵥ _
  rw [dotProduct_comm, key]
  show ∑ j : Fin 6, _ * v j = _
  refine Finset.sum_congr rfl fun j _ => ?_
  rw [mul_comm]
  refine congrArg (v j * ·) ?_
  unfold msgCov
  rw [of_apply]
  have e1 : (finProdFinEquiv (k, j)).val / 6 = k.val := by
    simp only [finProdFinEquiv_apply_val]
    omega
  have e2 : (finProdFinEquiv (k, j)).val % 6 = j.val := by
    simp only [finProdFinEquiv_apply_val]
    omega
  simp only [e1, e2]

theorem shows_surer {os : List (Out (ekfCore p))} {os' : List (Out (ekfCore p'))} (h : List.Forall₂ Out.Better os os') :
    ∀ {ms ms' : List Sent}, List.Forall₂ Shows os ms → List.Forall₂ Shows os' ms' → List.Forall₂ Sent.Surer ms ms' := by
  induction h with
  | nil =>
    intro ms ms' h1 h2
    cases h1
    cases h2
    exact .nil
  | cons ho _ ih =>
    intro ms ms' h1 h2
    cases h1 with
    | cons a1 b1 =>
      cases h2 with
      | cons a2 b2 =>
        refine .cons ?_ (ih b1 b2)
        cases ho with
        | odom t h =>
          cases a1 with
          | odom _ _ _ k1 =>
            cases a2 with
            | odom _ _ _ k2 =>
              refine .odom t fun a b ha hb v => ?_
              obtain ⟨n1, e1⟩ := k1 a ha
              obtain ⟨n2, e2⟩ := k2 b hb
              rw [e1, e2, twistCov_form, twistCov_form]
              exact h n1 n2 _ fun i hi => dif_neg (by omega)
        | tf t =>
          cases a1
          cases a2
          exact .tf t _ _
        | accel t =>
          cases a1
          cases a2
          exact .accel t _ _

/-- C147 for whole nodes in space: two nodes with the same inputs, frames and switches, whose inputs select velocities, rates
and accelerations only and have no rejection thresholds.  They get messages with the same stamps and frames at the same
times, with whatever finite values, and the covariances in the messages for the first are at most those for the second:
their odometry messages come at the same times, and whenever both are finite, the first one claims no larger variance of any
combination of velocities. -/
theorem C147_messages (p p' : FilterPar) (g : SysCfg (ekfCore p)) (g' : SysCfg (ekfCore p')) (hi : g.inputs.Speeds)
    (hin : g'.inputs = g.inputs) (hfr : g'.frames = g.frames) (h2 : g.twoD = false) (h2' : g'.twoD = false)
    (hg : g.cfg.Better g'.cfg) (u u' : Fin 6 → ℝ) (now : Int) (h0 : 0 ≤ now) (d d' : Differ)
    {es es' : List Sys.Ev} (he : List.Forall₂ Sys.Ev.Better es es') (ht : Ticks now es) :
    List.Forall₂ Sent.Surer (Sys.run (ekfView p) g (Sys.start g (PQueue.sortedList _ _) () u now d) es).2
      (Sys.run (ekfView p') g' (Sys.start g' (PQueue.sortedList _ _) () u' now d') es').2 :=
  shows_surer (C147_surer p p' g.cfg g'.cfg hg u u' now h0
    (allEvents_better hi hin hfr h2 h2' he (Sys.start g (PQueue.sortedList _ _) () u now d)
      (Sys.start g' (PQueue.sortedList _ _) () u' now d')) (allEvents_clocked es _ now h0 ht))
    (run_shows (g := g) es (Sys.start g (PQueue.sortedList _ _) () u now d))
    (run_shows (g := g') es' (Sys.start g' (PQueue.sortedList _ _) () u' now d'))

/-- Uncorrelated velocities with the variance `c`, as in a message. -/
def evenCov (c : ℝ) : Fin 36 → ℝ := fun k => if k.val / 6 = k.val % 6 then c else 0

theorem evenCov_eq (c : ℝ) : msgCov (evenCov c) = c • (1 : M6) := by
  ext i j
  unfold msgCov evenCov
  have e1 : (finProdFinEquiv (i, j)).val / 6 = i.val := by
    simp only [finProdFinEquiv_apply_val]
    omega
  have e2 : (finProdFinEquiv (i, j)).val % 6 = j.val := by
    simp only [finProdFinEquiv_apply_val]
    omega
  rw [of_apply, e1, e2, Matrix.smul_apply, Matrix.one_apply, smul_eq_mul]
  by_cases h : i = j
  · rw [if_pos (congrArg _ h), if_pos h, mul_one]
  · rw [if_neg (fun e => h (Fin.ext e)), if_neg h, mul_zero]

theorem evenCov_sounder : Sounder (msgCov (evenCov 1)) (msgCov (evenCov 2)) := by
  have sq : ∀ v : Fin 6 → ℝ, 0 ≤ v ⬝ᵥ v := fun v => Finset.sum_nonneg fun i _ => mul_self_nonneg _
  have form : ∀ (c : ℝ) (v : Fin 6 → ℝ), v ⬝ᵥ (c • (1 : M6)).mulVec v = c * (v ⬝ᵥ v) := by
    intro c v
    rw [Matrix.smul_mulVec, Matrix.one_mulVec, dotProduct_smul, smul_eq_mul]
  rw [evenCov_eq, evenCov_eq]
  refine ⟨PosSemidef.one.smul zero_le_one, PosSemidef.one.smul zero_le_two, fun v => ?_, fun v => ?_⟩
  · rw [form]
    exact mul_le_mul_of_nonneg_right (by norm_num) (sq v)
  · rw [form, form]
    exact mul_le_mul_of_nonneg_right (by norm_num) (sq v)

/-- Two robots whose wheels differ in quality: the one with the better wheels slides through a turn, the other one stands
still and is commanded and told where it is. -/
example : List.Forall₂ Sent.Surer
    (Sys.run (ekfView plainPar) slideCfg (Sys.start slideCfg (PQueue.sortedList _ _) () (0 : Fin 6 → ℝ) 0 ⟨0, 0, 0, 0⟩)
      [.twist 0 (fun _ _ _ => some Tf.id) 0 { slideMsg with cov := evenCov 1 }, .tick 3 3 (fun _ _ _ => none), .command 4 0,
        .setPose 5 (fun _ _ _ => some Tf.id) 0 ⟨"odom", 5, 0, ⟨0, 0, 0, 1⟩, fun _ => 0⟩, .tick 6 6 (fun _ _ _ => none)]).2
    (Sys.run (ekfView plainPar) slideCfg (Sys.start slideCfg (PQueue.sortedList _ _) () (0 : Fin 6 → ℝ) 0 ⟨0, 0, 0, 0⟩)
      [.twist 0 (fun _ _ _ => some Tf.id) 0 { stillMsg with cov := evenCov 2 }, .tick 3 3 (fun _ _ _ => none), .command 4 (fun _ => 1),
        .setPose 5 (fun _ _ _ => some Tf.id) 0 ⟨"odom", 5, ![1, 2, 3], ⟨0, 0, 1, 0⟩, fun _ => 1⟩, .tick 6 6 (fun _ _ _ => none)]).2 := by
  have same : ∀ P, SurerMotion P P := fun _ _ _ => le_rfl
  have hd : MotionDiag (1 : Mat15) := by
    have := motionDiag_smul (zero_le_one (α := ℝ))
    rwa [one_smul] at this
  have hq : MotionCov (1 : Mat15) :=
    ⟨fun i j _ _ => by rw [Matrix.one_apply, Matrix.one_apply]; exact if_congr eq_comm rfl rfl, fun v _ => psd_form PosSemidef.one v⟩
  have n3 : ∀ a b c : ℝ, Numbers ![.fin a, .fin b, .fin c] := by
    intro a b c i
    fin_cases i <;> rfl
  refine C147_messages plainPar plainPar slideCfg slideCfg ⟨?_, ?_, ?_, ?_⟩ rfl rfl rfl rfl
    ⟨⟨rfl, rfl, rfl, rfl, rfl, rfl, rfl, rfl, rfl⟩, ⟨hq, same _⟩, ⟨hq, same _⟩, ⟨hd, hd, same _⟩, ⟨hd, hd, same _⟩⟩
    0 0 0 le_rfl ⟨0, 0, 0, 0⟩ ⟨0, 0, 0, 0⟩
    (.cons (.twist 0 _ (fun _ _ _ t h => by injection h with h; subst h; exact IsRot.one) 0 0 _ _ rfl rfl evenCov_sounder (n3 _ _ _)
      (n3 _ _ _) (fun _ => rfl) fun _ => rfl) (.cons (.tick _ _ _)
      (.cons (.command _ _ _) (.cons (.setPose _ _ _ _ _ _ rfl rfl) (.cons (.tick _ _ _) .nil))))) (by simp [Ticks])
  · intro i a b h
    simp [slideCfg] at h
  · intro i a h
    simp [slideCfg] at h
  · intro i a h
    have : a = slideCd := by
      rcases i with _ | i
      · simpa [slideCfg] using h.symm
      · simp [slideCfg] at h
    subst this
    refine ⟨fun i hi => ?_, rfl⟩
    rcases of_decide_eq_true hi with rfl | rfl | rfl <;> decide
  · intro i a b d h
    simp [slideCfg] at h

end RL
