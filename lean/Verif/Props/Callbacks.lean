import Verif.Proofs.Callbacks
/-!
# What each message type can change (C32)
-/

namespace RL
open Matrix

/-! ## C32 -/

/-- Variables 2, 3, 4, 8, 9, 10 and 14: height, roll, pitch, their rates and the vertical acceleration. -/
def OutOfPlane (i : Fin 15) : Prop := i ∈ ([2, 3, 4, 8, 9, 10, 14] : List (Fin 15))

/-- A measurement fuses only variables of a set; in the plane also the zeros that keep the robot there. -/
def FusesOnly (twoD : Bool) (S : Fin 15 → Prop) (p : Payload) : Prop :=
  ∀ i, p.upd i = true → S i ∨ (twoD = true ∧ OutOfPlane i ∧ p.z i = .fin 0)

/-- Everything new in the queue fuses only variables of a set. -/
def NewFuseOnly {C : Core} {P : MQueue C} (mk : Payload → C.Z) (twoD : Bool) (S : Fin 15 → Prop) (h h' : Hub C P) : Prop :=
  ∀ m ∈ P.elems h'.node.queue, m ∈ P.elems h.node.queue ∨ ∃ p, m.z = mk p ∧ FusesOnly twoD S p

theorem finish_fuses (c : PrepCtx) (S : Fin 15 → Prop) (p : Payload) (hp : ∀ i, p.upd i = true → S i) :
    FusesOnly c.twoD S (finish c p) := by
  intro i hi
  unfold finish at hi ⊢
  cases h2 : c.twoD with
  | false =>
    rw [h2] at hi
    exact Or.inl (hp i hi)
  | true =>
    rw [h2] at hi
    simp only [if_true, forceTwoD] at hi ⊢
    by_cases ho : offPlane i = true
    · refine Or.inr ⟨trivial, ?_, by simp [ho]⟩
      revert ho
      fin_cases i <;> simp [offPlane, OutOfPlane]
    · simp only [ho] at hi
      exact Or.inl (hp i hi)

theorem prepareTwist_fuses (c : PrepCtx) (msg : TwistMsg) (target : String) (p r : Payload) (S : Fin 15 → Prop)
    (h : prepareTwist c msg target p = some r) (hlow : ∀ i : Fin 15, i.val < 6 ∨ 12 ≤ i.val → p.upd i = true → S i)
    (hlin : (∀ i : Fin 15, 6 ≤ i.val ∧ i.val < 9 → S i) ∨ ∀ i : Fin 15, 6 ≤ i.val ∧ i.val < 9 → p.upd i = false)
    (hang : ∀ i : Fin 15, 9 ≤ i.val ∧ i.val < 12 → S i) : FusesOnly c.twoD S r := by
  unfold prepareTwist at h
  obtain ⟨t, -, rfl⟩ := Option.map_eq_some_iff.mp h
  unfold twistPayload
  apply finish_fuses
  intro i hi
  simp only at hi
  by_cases h1 : 9 ≤ i.val ∧ i.val < 12
  · exact hang i h1
  · rw [put_out _ _ _ _ (by omega)] at hi
    by_cases h2 : 6 ≤ i.val ∧ i.val < 9
    · rcases hlin with hl | hl
      · exact hl i h2
      · rw [put_in _ _ _ _ (by omega), maskAxes_false] at hi
        · cases hi
        · intro j
          exact hl _ (by simp only [axis]; omega)
    · rw [put_out _ _ _ _ (by omega)] at hi
      exact hlow i (by omega) hi

theorem prepareAcceleration_fuses (c : PrepCtx) (g : Bool) (msg : ImuMsg) (target : String) (rel : Bool) (p r : Payload)
    (S : Fin 15 → Prop) (h : prepareAcceleration c g msg target rel p = some r)
    (hlow : ∀ i : Fin 15, i.val < 12 → p.upd i = true → S i) (hacc : ∀ i : Fin 15, 12 ≤ i.val → S i) :
    FusesOnly c.twoD S r := by
  unfold prepareAcceleration at h
  obtain ⟨t, -, rfl⟩ := Option.map_eq_some_iff.mp h
  unfold accelPayload
  apply finish_fuses
  intro i hi
  simp only at hi
  by_cases h1 : 12 ≤ i.val
  · exact hacc i h1
  · rw [put_out _ _ _ _ (by omega)] at hi
    exact hlow i (by omega) hi

theorem poseUpd_true (r : M3) (u : Fin 15 → Bool) (i : Fin 15) (h : poseUpd r u i = true) :
    (i.val < 3 ∧ ∃ j : Fin 15, j.val < 3 ∧ u j = true) ∨ (3 ≤ i.val ∧ i.val < 6 ∧ ∃ j : Fin 15, 3 ≤ j.val ∧ j.val < 6 ∧ u j = true) ∨
      (6 ≤ i.val ∧ u i = true) := by
  unfold poseUpd at h
  by_cases h1 : 3 ≤ i.val ∧ i.val < 6
  · rw [put_in _ _ _ _ h1] at h
    refine Or.inr (Or.inl ⟨h1.1, h1.2, ?_⟩)
    by_contra hn
    push Not at hn
    rw [maskAxes_false] at h
    · cases h
    · intro j
      exact Bool.eq_false_iff.mpr (hn _ (by simp only [axis]; omega) (by simp only [axis]; omega))
  · rw [put_out _ _ _ _ (by omega)] at h
    by_cases h2 : i.val < 3
    · rw [put_in _ _ _ _ (by omega)] at h
      refine Or.inl ⟨h2, ?_⟩
      by_contra hn
      push Not at hn
      rw [maskAxes_false] at h
      · cases h
      · intro j
        exact Bool.eq_false_iff.mpr (hn _ (by simp only [axis]; omega))
    · rw [put_out _ _ _ _ (by omega)] at h
      exact Or.inr (Or.inr ⟨by omega, h⟩)

/-- What `preparePose` may fuse, given a set that contains what it is configured to. -/
theorem preparePose_fuses (c : PrepCtx) (mem : PoseMem) (last : Int) (msg : PoseMsg) (topic target source : String)
    (diff rel imu : Bool) (p r : Payload) (S : Fin 15 → Prop)
    (h : (preparePose c mem last msg topic target source diff rel imu p).2 = some r)
    (habs : diff = false → ∀ (i : Fin 15) (r : M3), poseUpd r p.upd i = true → S i)
    (hdiff : diff = true → ∀ i : Fin 15, 9 ≤ i.val ∧ i.val < 12 → S i)
    (hlin : diff = true → (∀ i : Fin 15, 6 ≤ i.val ∧ i.val < 9 → S i) ∨ ∀ i : Fin 15, i.val < 3 → p.upd i = false) :
    FusesOnly c.twoD S r := by
  unfold preparePose at h
  simp only at h
  cases hl : lookupTransformSafe c.buf (poseFrames c msg.frame target diff imu).1 (poseFrames c msg.frame target diff imu).2
      (poseLookupTime msg.stamp) with
  | none =>
    rw [hl] at h
    cases h
  | some t =>
    rw [hl] at h
    simp only [poseWith] at h
    cases hd : diff with
    | true =>
      rw [hd] at h
      simp only [if_true] at h
      obtain ⟨old, -, h⟩ := Option.bind_eq_some_iff.mp h
      refine prepareTwist_fuses c _ _ _ r S h ?_ ?_ (hdiff hd)
      · intro i hi hu
        simp only [diffUpd] at hu
        rw [dif_neg (by omega)] at hu
        cases hu
      · rcases hlin hd with hl' | hl'
        · exact Or.inl hl'
        · right
          intro i hi
          simp only [diffUpd]
          rw [dif_pos (by omega)]
          rw [Bool.eq_false_iff]
          intro ht
          rcases poseUpd_true _ _ _ ht with ⟨-, j, hj, hu⟩ | ⟨h1, -⟩ | ⟨h1, -⟩
          · rw [hl' j hj] at hu
            cases hu
          · simp only at h1; omega
          · simp only at h1; omega
    | false =>
      rw [hd] at h
      simp only [Bool.false_eq_true, if_false, Option.some.injEq] at h
      rw [← h]
      apply finish_fuses
      intro i hi
      exact habs hd i _ hi

/-- From a prepared pose to the queue. -/
theorem poseCallback_new {C : Core} {P : MQueue C} (mk : Payload → C.Z) (c : PrepCtx) (h : Hub C P) (msg : PoseMsg)
    (cd : CallbackData) (target source : String) (imu : Bool) (S : Fin 15 → Prop)
    (hS : ∀ mem last r, (preparePose c mem last msg cd.topic target source cd.differential cd.relative imu cd.blank).2 = some r →
      FusesOnly c.twoD S r) : NewFuseOnly mk c.twoD S h (h.poseCallback mk c msg cd target source imu) := by
  intro m hm
  unfold Hub.poseCallback at hm
  split at hm
  · exact Or.inl hm
  · simp only at hm
    split at hm
    · rcases sensor_mem hm with hm | ⟨z, hz, hmz, -⟩
      · exact Or.inl hm
      · obtain ⟨r, hr, rfl⟩ := Option.map_eq_some_iff.mp hz
        exact Or.inr ⟨r, hmz, hS _ _ r hr⟩
    · exact Or.inl hm

theorem twistCallback_new {C : Core} {P : MQueue C} (mk : Payload → C.Z) (c : PrepCtx) (h : Hub C P) (msg : TwistMsg)
    (cd : CallbackData) (target : String) (S : Fin 15 → Prop)
    (hS : ∀ r, prepareTwist c msg target cd.blank = some r → FusesOnly c.twoD S r) :
    NewFuseOnly mk c.twoD S h (h.twistCallback mk c msg cd target) := by
  intro m hm
  rcases sensor_mem hm with hm | ⟨z, hz, hmz, -⟩
  · exact Or.inl hm
  · obtain ⟨r, hr, rfl⟩ := Option.map_eq_some_iff.mp hz
    exact Or.inr ⟨r, hmz, hS r hr⟩

theorem accelCallback_new {C : Core} {P : MQueue C} (mk : Payload → C.Z) (c : PrepCtx) (h : Hub C P) (msg : ImuMsg)
    (cd : CallbackData) (target : String) (grav : Bool) (S : Fin 15 → Prop)
    (hS : ∀ r, prepareAcceleration c grav msg target cd.relative cd.blank = some r → FusesOnly c.twoD S r) :
    NewFuseOnly mk c.twoD S h (h.accelCallback mk c msg cd target grav) := by
  intro m hm
  rcases sensor_mem hm with hm | ⟨z, hz, hmz, -⟩
  · exact Or.inl hm
  · obtain ⟨r, hr, rfl⟩ := Option.map_eq_some_iff.mp hz
    exact Or.inr ⟨r, hmz, hS r hr⟩

theorem NewFuseOnly.refl {C : Core} {P : MQueue C} (mk : Payload → C.Z) (b : Bool) (S : Fin 15 → Prop) (h : Hub C P) :
    NewFuseOnly mk b S h h := fun _ hm => Or.inl hm

theorem NewFuseOnly.mono {C : Core} {P : MQueue C} {mk : Payload → C.Z} {b : Bool} {S T : Fin 15 → Prop} {h h' : Hub C P}
    (hn : NewFuseOnly mk b S h h') (hST : ∀ i, S i → T i) : NewFuseOnly mk b T h h' := by
  intro m hm
  rcases hn m hm with hm | ⟨p, e, hp⟩
  · exact Or.inl hm
  · refine Or.inr ⟨p, e, fun i hi => ?_⟩
    rcases hp i hi with h1 | h1
    · exact Or.inl (hST i h1)
    · exact Or.inr h1

theorem NewFuseOnly.trans {C : Core} {P : MQueue C} {mk : Payload → C.Z} {b : Bool} {S : Fin 15 → Prop} {h h' h'' : Hub C P}
    (h1 : NewFuseOnly mk b S h h') (h2 : NewFuseOnly mk b S h' h'') : NewFuseOnly mk b S h h'' := by
  intro m hm
  rcases h2 m hm with hm | hm
  · exact h1 m hm
  · exact Or.inr hm

theorem flags_some {v : List Bool} {f : Fin 15 → Bool} (h : flags v = some f) : ∀ i, f i = v.getD i.val false := by
  unfold flags at h
  split at h
  · simp only [Option.some.injEq] at h
    intro i
    rw [← h]
  · cases h

theorem fillFalse_get {off n : ℕ} {v w : List Bool} (h : fillFalse off n v = some w) (i : ℕ) :
    w.getD i false = if off ≤ i ∧ i < off + n then false else v.getD i false := by
  have hl : off + n ≤ v.length := by
    by_contra hc
    rw [fillFalse_none.mpr (by omega)] at h
    cases h
  obtain ⟨w', e, -, g⟩ := fillFalse_some hl
  rw [e] at h
  cases h
  exact g i

theorem poseData_spec {s : SensorPar} {cd : CallbackData} (h : poseData s = some cd) :
    (∀ i, cd.upd i = if i.val < 6 then s.config.getD i.val false else false) ∧ cd.differential = s.differential := by
  unfold poseData poseVec at h
  simp only [Option.bind_eq_bind, Option.bind_eq_some_iff] at h
  obtain ⟨v, ⟨w, h1, h2⟩, f, h3, h4⟩ := h
  cases h4
  refine ⟨fun i => ?_, rfl⟩
  change f i = _
  rw [flags_some h3, fillFalse_get h2, fillFalse_get h1]
  by_cases h6 : i.val < 6
  · rw [if_neg (by omega), if_neg (by omega), if_pos h6]
  · rw [if_neg h6]
    split
    · rfl
    · rw [if_pos (by omega)]

/-- C32: a pose input changes poses only; in differential mode velocities only. -/
theorem C32_pose {C : Core} {P : MQueue C} (mk : Payload → C.Z) (c : PrepCtx) (h : Hub C P) (msg : PoseMsg) (s : SensorPar)
    (cd : CallbackData) (hcd : poseData s = some cd) (target source : String) :
    NewFuseOnly mk c.twoD (fun i => if s.differential then 6 ≤ i.val ∧ i.val < 12 else i.val < 6) h
      (h.poseCallback mk c msg cd target source false) := by
  obtain ⟨hu, hd⟩ := poseData_spec hcd
  apply poseCallback_new
  intro mem last r hr
  refine preparePose_fuses c mem last msg cd.topic target source _ _ _ _ r _ hr ?_ ?_ ?_
  · intro hf i r' ht
    rw [hd] at hf
    simp only [hf, Bool.false_eq_true, if_false]
    rcases poseUpd_true _ _ _ ht with ⟨h1, -⟩ | ⟨-, h1, -⟩ | ⟨h1, h2⟩
    · omega
    · exact h1
    · rw [show cd.blank.upd i = cd.upd i from rfl, hu, if_neg (by omega)] at h2
      cases h2
  · intro hf i hi
    rw [hd] at hf
    simp only [hf, if_true]
    omega
  · intro hf
    rw [hd] at hf
    left
    intro i hi
    simp only [hf, if_true]
    omega

theorem imuData_spec {s : SensorPar} {a b d : CallbackData} (h : imuData s = some (a, b, d)) :
    (∀ i, a.upd i = if 3 ≤ i.val ∧ i.val < 6 then s.config.getD i.val false else false) ∧
    (∀ i, b.upd i = if 9 ≤ i.val ∧ i.val < 12 then s.config.getD i.val false else false) ∧
    (∀ i, d.upd i = if 12 ≤ i.val then s.config.getD i.val false else false) ∧ a.differential = s.differential := by
  unfold imuData imuPoseVec imuTwistVec imuAccelVec at h
  simp only [Option.bind_eq_bind, Option.bind_eq_some_iff] at h
  obtain ⟨vp, ⟨x1, p1, x2, p2, p3⟩, vt, ⟨y1, t1, y2, t2, t3⟩, va, ⟨z1, a1, a2⟩, fp, hp, ft, ht, fa, ha, h4⟩ := h
  cases h4
  refine ⟨fun i => ?_, fun i => ?_, fun i => ?_, rfl⟩
  · change fp i = _
    rw [flags_some hp, fillFalse_get p3, fillFalse_get p2, fillFalse_get p1]
    split_ifs <;> first | rfl | omega
  · change ft i = _
    rw [flags_some ht, fillFalse_get t3, fillFalse_get t2, fillFalse_get t1]
    split_ifs <;> first | rfl | omega
  · change fa i = _
    rw [flags_some ha, fillFalse_get a2, fillFalse_get a1]
    split_ifs <;> first | rfl | omega

/-- C32: an IMU changes orientation (or, in differential mode, angular velocity), angular velocity and linear acceleration
only. -/
theorem C32_imu {C : Core} {P : MQueue C} (mk : Payload → C.Z) (c : PrepCtx) (h : Hub C P) (msg : ImuMsg) (s : SensorPar)
    (a b d : CallbackData) (hcd : imuData s = some (a, b, d)) (grav : Bool) :
    NewFuseOnly mk c.twoD
      (fun i => (s.differential = false ∧ 3 ≤ i.val ∧ i.val < 6) ∨ (9 ≤ i.val ∧ i.val < 12) ∨ 12 ≤ i.val) h
      (h.imuCallback mk c msg a b d grav) := by
  obtain ⟨ha, hb, hd, hdiff⟩ := imuData_spec hcd
  unfold Hub.imuCallback
  split
  · exact NewFuseOnly.refl _ _ _ _
  · simp only
    have s1 : ∀ h : Hub C P, NewFuseOnly mk c.twoD
        (fun i => (s.differential = false ∧ 3 ≤ i.val ∧ i.val < 6) ∨ (9 ≤ i.val ∧ i.val < 12) ∨ 12 ≤ i.val) h
        (h.poseCallback mk c ⟨msg.frame, msg.stamp, 0, msg.ori, angularCov msg.oriCov⟩ a c.base c.base true) := by
      intro h
      apply poseCallback_new
      intro mem last r hr
      refine preparePose_fuses c mem last _ a.topic _ _ _ _ _ _ r _ hr ?_ ?_ ?_
      · intro hf i r' ht
        rw [hdiff] at hf
        rcases poseUpd_true _ _ _ ht with ⟨-, j, hj, hu⟩ | ⟨h1, h2, -⟩ | ⟨h1, h2⟩
        · rw [show a.blank.upd j = a.upd j from rfl, ha, if_neg (by omega)] at hu
          cases hu
        · exact Or.inl ⟨hf, h1, h2⟩
        · rw [show a.blank.upd i = a.upd i from rfl, ha, if_neg (by omega)] at h2
          cases h2
      · intro _ i hi
        exact Or.inr (Or.inl hi)
      · intro _
        right
        intro i hi
        rw [show a.blank.upd i = a.upd i from rfl, ha, if_neg (by omega)]
    have s2 : ∀ h : Hub C P, NewFuseOnly mk c.twoD
        (fun i => (s.differential = false ∧ 3 ≤ i.val ∧ i.val < 6) ∨ (9 ≤ i.val ∧ i.val < 12) ∨ 12 ≤ i.val) h
        (h.twistCallback mk c ⟨msg.frame, msg.stamp, fun _ => .fin 0, msg.vel, angularCov msg.velCov⟩ b c.base) := by
      intro h
      apply twistCallback_new
      intro r hr
      refine prepareTwist_fuses c _ _ _ r _ hr ?_ ?_ ?_
      · intro i hi hu
        rw [show b.blank.upd i = b.upd i from rfl, hb, if_neg (by omega)] at hu
        cases hu
      · right
        intro i hi
        rw [show b.blank.upd i = b.upd i from rfl, hb, if_neg (by omega)]
      · intro i hi
        exact Or.inr (Or.inl hi)
    have s3 : ∀ h : Hub C P, NewFuseOnly mk c.twoD
        (fun i => (s.differential = false ∧ 3 ≤ i.val ∧ i.val < 6) ∨ (9 ≤ i.val ∧ i.val < 12) ∨ 12 ≤ i.val) h
        (h.accelCallback mk c msg d c.base grav) := by
      intro h
      apply accelCallback_new
      intro r hr
      refine prepareAcceleration_fuses c grav msg _ _ _ r _ hr ?_ ?_
      · intro i hi hu
        rw [show d.blank.upd i = d.upd i from rfl, hd, if_neg (by omega)] at hu
        cases hu
      · intro i hi
        exact Or.inr (Or.inr hi)
    have e1 : ∀ (q : Prop) [Decidable q], NewFuseOnly mk c.twoD
        (fun i => (s.differential = false ∧ 3 ≤ i.val ∧ i.val < 6) ∨ (9 ≤ i.val ∧ i.val < 12) ∨ 12 ≤ i.val) h
        (if q then h.poseCallback mk c ⟨msg.frame, msg.stamp, 0, msg.ori, angularCov msg.oriCov⟩ a c.base c.base true else h) := by
      intro q _
      split
      · exact s1 h
      · exact NewFuseOnly.refl _ _ _ _
    split
    · refine NewFuseOnly.trans ?_ (s3 _)
      split
      · exact NewFuseOnly.trans (e1 _) (s2 _)
      · exact e1 _
    · split
      · exact NewFuseOnly.trans (e1 _) (s2 _)
      · exact e1 _

theorem odomData_spec {s : SensorPar} {a b : CallbackData} (h : odomData s = some (a, b)) :
    (∀ i, a.upd i = if 6 ≤ i.val ∧ i.val < 12 then false else s.config.getD i.val false) ∧
    (∀ i, b.upd i = if i.val < 6 then false else s.config.getD i.val false) ∧ a.differential = s.differential := by
  unfold odomData odomVecs at h
  simp only [Option.bind_eq_bind, Option.bind_eq_some_iff] at h
  obtain ⟨v, ⟨p, h1, t, h2, hv⟩, fp, hp, ft, ht, h4⟩ := h
  cases hv
  cases h4
  refine ⟨fun i => ?_, fun i => ?_, rfl⟩
  · change fp i = _
    rw [flags_some hp, fillFalse_get h1]
  · change ft i = _
    rw [flags_some ht, fillFalse_get h2]
    split_ifs <;> first | rfl | omega

/-- C32: an odometry input changes poses and velocities only (in differential mode velocities only) if its configuration
selects no acceleration.  Missing: configurations that do, see `C32_odom_fuses_zero_acceleration`. -/
theorem C32_odom_partial {C : Core} {P : MQueue C} (mk : Payload → C.Z) (c : PrepCtx) (h : Hub C P) (msg : OdomMsg) (s : SensorPar)
    (a b : CallbackData) (hcd : odomData s = some (a, b)) (hna : ∀ i, 12 ≤ i → ¬ Selects s.config i) :
    NewFuseOnly mk c.twoD (fun i => (s.differential = false ∧ i.val < 6) ∨ (6 ≤ i.val ∧ i.val < 12)) h
      (h.odomCallback mk c msg a b) := by
  obtain ⟨ha, hb, hdiff⟩ := odomData_spec hcd
  unfold Hub.odomCallback
  split
  · exact NewFuseOnly.refl _ _ _ _
  · simp only
    have e1 : NewFuseOnly mk c.twoD (fun i => (s.differential = false ∧ i.val < 6) ∨ (6 ≤ i.val ∧ i.val < 12)) h
        (if a.sum > 0 then h.poseCallback mk c ⟨msg.frame, msg.stamp, msg.pos, msg.ori, msg.poseCov⟩ a c.world
          (if a.useChild = true then msg.child else c.base) false else h) := by
      split
      · apply poseCallback_new
        intro mem last r hr
        refine preparePose_fuses c mem last _ a.topic _ _ _ _ _ _ r _ hr ?_ ?_ ?_
        · intro hf i r' ht
          rw [hdiff] at hf
          rcases poseUpd_true _ _ _ ht with ⟨h1, -⟩ | ⟨-, h1, -⟩ | ⟨h1, h2⟩
          · exact Or.inl ⟨hf, by omega⟩
          · exact Or.inl ⟨hf, h1⟩
          · rw [show a.blank.upd i = a.upd i from rfl, ha] at h2
            split at h2
            · cases h2
            · exact absurd h2 (hna _ (by omega))
        · intro _ i hi
          exact Or.inr (by omega)
        · intro _
          left
          intro i hi
          exact Or.inr (by omega)
      · exact NewFuseOnly.refl _ _ _ _
    split
    · refine NewFuseOnly.trans e1 ?_
      apply twistCallback_new
      intro r hr
      refine prepareTwist_fuses c _ _ _ r _ hr ?_ ?_ ?_
      · intro i hi hu
        rw [show b.blank.upd i = b.upd i from rfl, hb] at hu
        split at hu
        · cases hu
        · exact absurd hu (hna _ (by omega))
      · left
        intro i hi
        exact Or.inr (by omega)
      · intro i hi
        exact Or.inr (by omega)
    · exact e1

theorem twistData_spec {s : SensorPar} {b : CallbackData} (h : twistData s = some b) :
    ∀ i, b.upd i = if i.val < 6 then false else s.config.getD i.val false := by
  unfold twistData twistVec at h
  simp only [Option.bind_eq_bind, Option.bind_eq_some_iff] at h
  obtain ⟨v, h1, ft, ht, h4⟩ := h
  cases h4
  intro i
  change ft i = _
  rw [flags_some ht, fillFalse_get h1]
  split_ifs <;> first | rfl | omega

/-- C32: a twist input changes velocities only if its configuration selects no acceleration.  Missing: configurations that
do, see `C32_twist_fuses_zero_acceleration`. -/
theorem C32_twist_partial {C : Core} {P : MQueue C} (mk : Payload → C.Z) (c : PrepCtx) (h : Hub C P) (msg : TwistMsg) (s : SensorPar)
    (b : CallbackData) (hcd : twistData s = some b) (hna : ∀ i, 12 ≤ i → ¬ Selects s.config i) (target : String) :
    NewFuseOnly mk c.twoD (fun i => 6 ≤ i.val ∧ i.val < 12) h (h.twistCallback mk c msg b target) := by
  have hb := twistData_spec hcd
  apply twistCallback_new
  intro r hr
  refine prepareTwist_fuses c _ _ _ r _ hr ?_ ?_ ?_
  · intro i hi hu
    rw [show b.blank.upd i = b.upd i from rfl, hb] at hu
    split at hu
    · cases hu
    · exact absurd hu (hna _ (by omega))
  · left
    intro i hi
    omega
  · intro i hi
    omega

/-- An acceleration of zero is fused, with variance zero. -/
def FusesZeroAcceleration (p : Payload) (i : Fin 15) : Prop :=
  12 ≤ i.val ∧ p.upd i = true ∧ p.z i = .fin 0 ∧ p.R i i = 0

theorem putBlock_out (n off : ℕ) (R : Mat15) (c : Matrix (Fin n) (Fin n) ℝ) (i j : Fin 15) (h : off + n ≤ i.val) :
    putBlock n off R c i j = R i j := by
  unfold putBlock
  rw [Matrix.of_apply, dif_neg]
  omega

/-- C32 fails: a twist input whose configuration selects an acceleration fuses zero for it, whatever the message says. -/
theorem C32_twist_fuses_zero_acceleration (c : PrepCtx) (h2 : c.twoD = false) (msg : TwistMsg) (s : SensorPar)
    (b : CallbackData) (hcd : twistData s = some b) (i : Fin 15) (hi : 12 ≤ i.val) (hs : Selects s.config i.val)
    (target : String) (r : Payload) (hr : prepareTwist c msg target b.blank = some r) : FusesZeroAcceleration r i := by
  have hb := twistData_spec hcd
  unfold prepareTwist at hr
  obtain ⟨t, -, rfl⟩ := Option.map_eq_some_iff.mp hr
  simp only [FusesZeroAcceleration, twistPayload, finish, h2, Bool.false_eq_true, if_false, CallbackData.blank]
  refine ⟨hi, ?_, ?_, ?_⟩
  · rw [put_out _ _ _ _ (by omega), put_out _ _ _ _ (by omega), hb, if_neg (by omega)]
    exact hs
  · rw [put_out _ _ _ _ (by omega), put_out _ _ _ _ (by omega)]
  · rw [putBlock_out _ _ _ _ _ _ (by omega)]
    rfl

/-- C32 fails: so do both parts of an odometry input. -/
theorem C32_odom_fuses_zero_acceleration (c : PrepCtx) (h2 : c.twoD = false) (msg : TwistMsg) (pmsg : PoseMsg) (s : SensorPar)
    (a b : CallbackData) (hcd : odomData s = some (a, b)) (i : Fin 15) (hi : 12 ≤ i.val) (hs : Selects s.config i.val)
    (target : String) :
    (∀ r, prepareTwist c msg target b.blank = some r → FusesZeroAcceleration r i) ∧
    (s.differential = false → ∀ mem last source r,
      (preparePose c mem last pmsg a.topic target source a.differential a.relative false a.blank).2 = some r →
      FusesZeroAcceleration r i) := by
  obtain ⟨ha, hb, hd⟩ := odomData_spec hcd
  constructor
  · intro r hr
    unfold prepareTwist at hr
    obtain ⟨t, -, rfl⟩ := Option.map_eq_some_iff.mp hr
    simp only [FusesZeroAcceleration, twistPayload, finish, h2, Bool.false_eq_true, if_false, CallbackData.blank]
    refine ⟨hi, ?_, ?_, ?_⟩
    · rw [put_out _ _ _ _ (by omega), put_out _ _ _ _ (by omega), hb, if_neg (by omega)]
      exact hs
    · rw [put_out _ _ _ _ (by omega), put_out _ _ _ _ (by omega)]
    · rw [putBlock_out _ _ _ _ _ _ (by omega)]
      rfl
  · intro hf mem last source r hr
    rw [hd, hf] at hr
    unfold preparePose at hr
    simp only at hr
    cases hl : lookupTransformSafe c.buf (poseFrames c pmsg.frame target false false).1
        (poseFrames c pmsg.frame target false false).2 (poseLookupTime pmsg.stamp) with
    | none =>
      rw [hl] at hr
      cases hr
    | some t =>
      rw [hl] at hr
      simp only [poseWith, Bool.false_eq_true, if_false, Option.some.injEq] at hr
      rw [← hr]
      simp only [FusesZeroAcceleration, finish, h2, Bool.false_eq_true, if_false, CallbackData.blank, poseUpd]
      refine ⟨hi, ?_, ?_, ?_⟩
      · rw [put_out _ _ _ _ (by omega), put_out _ _ _ _ (by omega), ha, if_neg (by omega)]
        exact hs
      · rw [put_out _ _ _ _ (by omega), put_out _ _ _ _ (by omega)]
      · rw [putBlock_out _ _ _ _ _ _ (by omega)]
        rfl

/-- The settings a sensor works with. -/
def modes (d : CallbackData) : Bool × Bool := (d.differential, d.relative)

/-- C37: the modes are the configured ones, except that a sensor configured as both differential and relative is
differential and nothing else, in all its parts; velocities of odometry and twist inputs have no modes. -/
theorem C37_modes (s : SensorPar) :
    (∀ d, poseData s = some d → modes d = (s.differential, s.relative && !s.differential)) ∧
    (∀ d, odomData s = some d → modes d.1 = (s.differential, s.relative && !s.differential) ∧ modes d.2 = (false, false)) ∧
    (∀ d, twistData s = some d → modes d = (false, false)) ∧
    (∀ d, imuData s = some d → modes d.1 = (s.differential, s.relative && !s.differential) ∧
      modes d.2.1 = (s.differential, s.relative && !s.differential) ∧
      modes d.2.2 = (s.differential, s.relative && !s.differential)) := by
  have e : s.rel = (s.relative && !s.differential) := by
    unfold SensorPar.rel
    cases s.relative <;> cases s.differential <;> rfl
  refine ⟨fun d h => ?_, fun d h => ?_, fun d h => ?_, fun d h => ?_⟩
  · simp only [poseData, Option.bind_eq_bind, Option.bind_eq_some_iff, Option.pure_def, Option.some.injEq] at h
    obtain ⟨_, -, _, -, rfl⟩ := h
    simp [modes, e]
  · simp only [odomData, Option.bind_eq_bind, Option.bind_eq_some_iff, Option.pure_def, Option.some.injEq] at h
    obtain ⟨_, -, _, -, _, -, rfl⟩ := h
    simp [modes, e]
  · simp only [twistData, Option.bind_eq_bind, Option.bind_eq_some_iff, Option.pure_def, Option.some.injEq] at h
    obtain ⟨_, -, _, -, rfl⟩ := h
    simp [modes]
  · simp only [imuData, Option.bind_eq_bind, Option.bind_eq_some_iff, Option.pure_def, Option.some.injEq] at h
    obtain ⟨_, -, _, -, _, -, _, -, _, -, _, -, rfl⟩ := h
    simp [modes, e]

/-- The first `n` flags set. -/
def flagsAtFirst (n : ℕ) : List Bool := List.replicate n true ++ List.replicate (15 - n) false

/-- A sensor with all variables selected. -/
def sensorDemo : SensorPar :=
  { name := "imu0", config := List.replicate 15 true, differential := false, relative := false, useChild := false
    poseThresh := .unlimited, twistThresh := .unlimited, accelThresh := .unlimited }

example : (poseData sensorDemo).isSome ∧ (imuData sensorDemo).isSome ∧ (odomData sensorDemo).isSome ∧
    (twistData sensorDemo).isSome ∧ Selects sensorDemo.config 12 := ⟨rfl, rfl, rfl, rfl, rfl⟩
example : (odomData { sensorDemo with config := flagsAtFirst 12 }).isSome ∧ ∀ i, 12 ≤ i → ¬ Selects (flagsAtFirst 12) i := by
  refine ⟨rfl, fun i hi h => ?_⟩
  unfold Selects flagsAtFirst at h
  rw [List.getD_append_right _ _ _ _ (by simpa using hi)] at h
  simp only [List.getD_eq_getElem?_getD, List.getElem?_replicate] at h
  split at h <;> cases h

end RL
