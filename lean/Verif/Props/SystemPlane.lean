import Verif.Proofs.UprightProper
import Verif.Props.SystemFlat
/-! # C120: a robot in the plane always hears a number -/

namespace RL
open Matrix Real Body
open Nav (Given)

/-! ## What it means -/

/-- A message of a sensor that stands upright: the parts that an input uses are numbers, come with a covariance that is sure of
nothing, with height, roll and pitch measured independently of everything else, roll and pitch equally well.  The input is
not differential.  Commands stay in the plane. -/
def FirmMessage (c : NodeConf) {Q : MQueue (ekfCore c.par)} (s : Sys (ekfCore c.par) Q) : Sys.Ev → Prop
  | .odom i buf _ msg => SaneBuf buf ∧ Standing buf ∧ ∀ set, c.inputs.odoms[i]? = some set →
      set.par.config.length = 15 ∧ set.par.differential = false ∧
      ((∃ j : Fin 15, ¬ (6 ≤ j.val ∧ j.val < 12) ∧ Selects set.par.config j.val) → (msgCov msg.poseCov).PosDef ∧ Level6 (msgCov msg.poseCov)) ∧
      ((∃ j : Fin 15, 6 ≤ j.val ∧ Selects set.par.config j.val) → (msgCov msg.twistCov).PosDef ∧ Level6 (msgCov msg.twistCov) ∧
        ∀ k, (msg.lin k).isFin = true ∧ (msg.ang k).isFin = true)
  | .pose i buf _ msg => SaneBuf buf ∧ Standing buf ∧ ∀ set, c.inputs.poses[i]? = some set →
      set.par.config.length = 15 ∧ set.par.differential = false ∧
      ((∃ j : Fin 15, j.val < 6 ∧ Selects set.par.config j.val) → (msgCov msg.cov).PosDef ∧ Level6 (msgCov msg.cov))
  | .twist i buf _ msg => SaneBuf buf ∧ Standing buf ∧ ∀ set, c.inputs.twists[i]? = some set →
      set.par.config.length = 15 ∧
      ((∃ j : Fin 15, 6 ≤ j.val ∧ Selects set.par.config j.val) → (msgCov msg.cov).PosDef ∧ Level6 (msgCov msg.cov) ∧
        ∀ k, (msg.lin k).isFin = true ∧ (msg.ang k).isFin = true)
  | .imu i buf _ msg => SaneBuf buf ∧ Standing buf ∧ ∀ set, c.inputs.imus[i]? = some set →
      set.par.config.length = 15 ∧ set.par.differential = false ∧
      ((∃ j : Fin 15, (3 ≤ j.val ∧ j.val < 6) ∧ Selects set.par.config j.val) → ¬ Withheld msg.oriCov →
        (msgCov3 msg.oriCov).PosDef ∧ Level6 (msgCov (angularCov msg.oriCov))) ∧
      ((∃ j : Fin 15, (9 ≤ j.val ∧ j.val < 12) ∧ Selects set.par.config j.val) → ¬ Withheld msg.velCov →
        (msgCov3 msg.velCov).PosDef ∧ Level6 (msgCov (angularCov msg.velCov)) ∧ ∀ k, (msg.vel k).isFin = true) ∧
      ((∃ j : Fin 15, 12 ≤ j.val ∧ Selects set.par.config j.val) → ¬ Withheld msg.accCov →
        (msgCov3 msg.accCov).PosDef ∧ Level3 (msgCov3 msg.accCov))
  | .setPose _ buf _ msg => SaneBuf buf ∧ Standing buf ∧ (msgCov msg.cov).PosSemidef ∧ Level6 (msgCov msg.cov) ∧
      (s.hub.node.filt.initialized = true ∨ msg.frame = c.frames.world ∧ ∀ i j, i ≠ j → msgCov msg.cov i j = 0)
  | .command _ u => PlanarCtl c.par u
  | _ => True

/-- There is an odometry message, all its entries are numbers, it is in the plane and has covariances; the same for
accelerations. -/
def SentFlat : Sent → Prop
  | .odom _ m => ∃ m', m = some m' ∧ m'.pos 2 = 0 ∧ (∃ yaw, m'.ori.mat = rotZ yaw) ∧
      (∀ k, (m'.lin k).isFin = true ∧ (m'.ang k).isFin = true) ∧ m'.lin 2 = .fin 0 ∧ m'.ang 0 = .fin 0 ∧ m'.ang 1 = .fin 0 ∧
      (msgCov m'.poseCov).PosSemidef ∧ (msgCov m'.twistCov).PosSemidef
  | .accel _ m => ∃ m', m = some m' ∧ m'.lin 2 = 0 ∧ (msgCov m'.cov).PosSemidef
  | .tf _ _ => True

/-! ## Preparation -/

/-- What is handed to the filter. -/
def Firm (q : Payload) : Prop := PlanarMeas q ∧ q.Proper ∧ q.Numbers

theorem LevelR.noOut {R : Mat15} (hl : LevelR R) : NoOutOfPlane R := by
  intro i hi j hj
  have h1 : ∀ i ∈ ([iZ, iRoll, iPitch, iVz, iVroll, iVpitch, iAz] : List (Fin 15)),
      ∀ j ∈ ([iX, iY, iYaw, iVx, iVy, iVyaw, iAx, iAy] : List (Fin 15)), offPlane i = true ∧ i ≠ j := by decide
  obtain ⟨a, b⟩ := h1 i hi j hj
  exact hl i j a b

theorem firm_block {p : Payload} {n off : ℕ} (ho : off + n ≤ 15) {C : Matrix (Fin n) (Fin n) ℝ} (hC : C.PosDef)
    (hR : p.R = putBlock n off 0 C) (hl : LevelR p.R) (hz : ∀ i, (p.z i).isFin = true) : Firm (forceTwoD p) := by
  refine ⟨⟨p, rfl, hl.noOut⟩, proper_block ho hC hR hl, fun i _ => ?_⟩
  show (if offPlane i then Dbl.fin 0 else p.z i).isFin = true
  split
  · rfl
  · exact hz i

theorem put_fin {off : ℕ} {f : Fin 15 → Dbl} {v : Fin 3 → Dbl} (hf : ∀ i, (f i).isFin = true) (hv : ∀ i, (v i).isFin = true) (i : Fin 15) :
    (put off f v i).isFin = true := by
  unfold put
  split
  · exact hv _
  · exact hf _

theorem mulDbl_num (r : M3) {v : Fin 3 → Dbl} (hv : ∀ i, (v i).isFin = true) (i : Fin 3) : (mulDbl r v i).isFin = true := by
  unfold mulDbl
  have h : ∀ a, ∃ x, v a = .fin x := by
    intro a
    have := hv a
    cases h : v a with
    | fin x => exact ⟨x, rfl⟩
    | _ => rw [h] at this; cases this
  obtain ⟨x, hx⟩ := h 0
  obtain ⟨y, hy⟩ := h 1
  obtain ⟨z, hz⟩ := h 2
  rw [hx, hy, hz]
  rfl

theorem posDef_turn {n : Type} [Fintype n] [DecidableEq n] {C R : Matrix n n ℝ} (h : C.PosDef) (hR : R * Rᵀ = 1) : (R * C * Rᵀ).PosDef := by
  have hu : IsUnit R := by
    rw [Matrix.isUnit_iff_isUnit_det]
    have := congrArg Matrix.det hR
    rw [Matrix.det_mul, Matrix.det_one] at this
    exact IsUnit.of_mul_eq_one _ this
  simpa [Matrix.conjTranspose_eq_transpose_of_trivial] using h.mul_mul_conjTranspose_same (Matrix.vecMul_injective_of_isUnit hu)

/-- The covariance of angles as a block of its own. -/
theorem angular_block (off : ℕ) (r : M3) (a : Fin 9 → ℝ) :
    putBlock 6 off 0 (rot6d r * msgCov (angularCov a) * (rot6d r)ᵀ) = putBlock 3 (off + 3) 0 (r * msgCov3 a * rᵀ) := by
  have e : ∀ i j : Fin 6, (rot6d r * msgCov (angularCov a) * (rot6d r)ᵀ) i j =
      if h : 3 ≤ i.val ∧ 3 ≤ j.val then (r * msgCov3 a * rᵀ) ⟨i.val - 3, by omega⟩ ⟨j.val - 3, by omega⟩ else 0 := by
    have e2 : msgCov (angularCov a) =
        (Matrix.of fun (i : Fin 6) (k : Fin 3) => if i.val = k.val + 3 then (1 : ℝ) else 0) * msgCov3 a *
          (Matrix.of fun (i : Fin 6) (k : Fin 3) => if i.val = k.val + 3 then (1 : ℝ) else 0)ᵀ := by
      rw [← copyCov6_eq, ← copyCov3_eq]
      ext i j
      fin_cases i <;> fin_cases j <;> simp [Matrix.mul_apply, Fin.sum_univ_three, copyCov6, copyCov3, angularCov]
    have e3 : rot6d r * (Matrix.of fun (i : Fin 6) (k : Fin 3) => if i.val = k.val + 3 then (1 : ℝ) else 0) =
        (Matrix.of fun (i : Fin 6) (k : Fin 3) => if i.val = k.val + 3 then (1 : ℝ) else 0) * r := by
      ext i j
      fin_cases i <;> fin_cases j <;> simp [Matrix.mul_apply, Fin.sum_univ_six, Fin.sum_univ_three, rot6d]
    set E : Matrix (Fin 6) (Fin 3) ℝ := Matrix.of fun (i : Fin 6) (k : Fin 3) => if i.val = k.val + 3 then (1 : ℝ) else 0 with hE
    have e4 : rot6d r * (E * msgCov3 a * Eᵀ) * (rot6d r)ᵀ = E * (r * msgCov3 a * rᵀ) * Eᵀ := by
      rw [show rot6d r * (E * msgCov3 a * Eᵀ) * (rot6d r)ᵀ = (rot6d r * E) * msgCov3 a * (rot6d r * E)ᵀ by
        rw [transpose_mul]; simp only [Matrix.mul_assoc], e3, transpose_mul]
      simp only [Matrix.mul_assoc]
    intro i j
    rw [e2, e4]
    set M := r * msgCov3 a * rᵀ
    fin_cases i <;> fin_cases j <;> simp [Matrix.mul_apply, Fin.sum_univ_three, hE]
  ext i j
  simp only [putBlock, of_apply]
  by_cases h6 : (off ≤ i.val ∧ i.val < off + 6) ∧ off ≤ j.val ∧ j.val < off + 6
  · rw [dif_pos h6, e]
    by_cases h3 : 3 ≤ i.val - off ∧ 3 ≤ j.val - off
    · rw [dif_pos h3, dif_pos (by omega)]
      congr 1
    · rw [dif_neg h3, dif_neg (by omega)]
      rfl
  · rw [dif_neg h6, dif_neg (by omega)]

theorem prepareTwist_firm (c : PrepCtx) (hd : c.twoD = true) (hb : SaneBuf c.buf) (hu : Standing c.buf) (msg : TwistMsg)
    (target : String) (u : Fin 15 → Bool) (thr : Thresh) (q : Payload) (h : prepareTwist c msg target (blank u thr) = some q)
    (hp : (msgCov msg.cov).PosDef ∨ ∃ a, msg.cov = angularCov a ∧ (msgCov3 a).PosDef) (hl : Level6 (msgCov msg.cov))
    (hz : ∀ k, (msg.lin k).isFin = true ∧ (msg.ang k).isFin = true) : Firm q := by
  unfold prepareTwist at h
  rw [Option.map_eq_some_iff] at h
  obtain ⟨t, hk, hq⟩ := h
  have ht := lookup_isRot hb.rot hk
  obtain ⟨a, ha⟩ := lookup_upright hu hk
  rw [← hq]
  unfold twistPayload finish
  dsimp only
  rw [if_pos hd]
  have e : rot6d (quatOf t.rot).mat * copyCov6 msg.cov * (rot6d (quatOf t.rot).mat)ᵀ =
      rot6d (rotZ a) * msgCov msg.cov * (rot6d (rotZ a))ᵀ := by
    rw [(C43_matrix_to_quaternion ht).2, copyCov6_eq, ha]
  rw [e]
  have hlev : LevelR (putBlock 6 6 0 (rot6d (rotZ a) * msgCov msg.cov * (rot6d (rotZ a))ᵀ)) :=
    LevelR.block6 zero_off (hl.turn a) (Or.inr rfl)
  have hfin : ∀ i, ((put 9 (put 6 (blank u thr).z fun i => (mulDbl t.rot msg.lin i).add (.fin (cross t.org c.omega i)))
      (mulDbl t.rot msg.ang)) i).isFin = true := by
    refine put_fin (put_fin (fun _ => rfl) fun i => ?_) (mulDbl_num _ fun k => (hz k).2)
    have := mulDbl_num t.rot (fun k => (hz k).1) i
    cases hm : mulDbl t.rot msg.lin i with
    | fin x => rfl
    | _ => rw [hm] at this; cases this
  rcases hp with hp | ⟨b, hb1, hb2⟩
  · exact firm_block (n := 6) (off := 6) (by omega) (posDef_turn hp (rot6d_mul_transpose (isRot_turn a))) rfl hlev hfin
  · have e2 : putBlock 6 6 0 (rot6d (rotZ a) * msgCov msg.cov * (rot6d (rotZ a))ᵀ) = putBlock 3 9 0 (rotZ a * msgCov3 b * (rotZ a)ᵀ) := by
      rw [hb1]
      exact angular_block 6 _ _
    exact firm_block (n := 3) (off := 9) (by omega) (posDef_turn hb2 (isRot_turn a).1) e2 hlev hfin

theorem prepareAcceleration_firm (c : PrepCtx) (hd : c.twoD = true) (hb : SaneBuf c.buf) (hu : Standing c.buf) (rg : Bool) (msg : ImuMsg)
    (target : String) (rel : Bool) (u : Fin 15 → Bool) (thr : Thresh) (q : Payload)
    (h : prepareAcceleration c rg msg target rel (blank u thr) = some q)
    (hp : (msgCov3 msg.accCov).PosDef) (hl : Level3 (msgCov3 msg.accCov)) : Firm q := by
  unfold prepareAcceleration at h
  rw [Option.map_eq_some_iff] at h
  obtain ⟨t, hk, hq⟩ := h
  have ht := lookup_isRot hb.rot hk
  obtain ⟨a, ha⟩ := lookup_upright hu hk
  rw [← hq]
  unfold accelPayload finish
  dsimp only
  rw [if_pos hd]
  have e : (quatOf t.rot).mat * copyCov3 msg.accCov * ((quatOf t.rot).mat)ᵀ = rotZ a * msgCov3 msg.accCov * (rotZ a)ᵀ := by
    rw [(C43_matrix_to_quaternion ht).2, copyCov3_eq, ha]
  rw [e]
  exact firm_block (n := 3) (off := 12) (by omega) (posDef_turn hp (isRot_turn a).1) rfl (LevelR.block3 (hl.turn a))
    (by
      intro i
      dsimp only
      exact put_fin (fun _ => rfl) (fun _ => rfl) i)

theorem preparePose_firm (c : PrepCtx) (hd : c.twoD = true) (hb : SaneBuf c.buf) (hu : Standing c.buf) (mem : PoseMem)
    (last : Int) (msg : PoseMsg) (topic target source : String) (relative imu : Bool) (u : Fin 15 → Bool) (thr : Thresh)
    (hp : (msgCov msg.cov).PosDef ∨ source = c.base ∧ ∃ a, msg.cov = angularCov a ∧ (msgCov3 a).PosDef) (hl : Level6 (msgCov msg.cov))
    (q : Payload) (hq : (preparePose c mem last msg topic target source false relative imu (blank u thr)).2 = some q) : Firm q := by
  have p2 := poseCov_level hb hu source (poseLookupTime msg.stamp) msg hl
  unfold preparePose at hq
  dsimp only at hq
  split at hq
  · cases hq
  · rename_i t hk
    have ht := lookup_isRot hb.rot hk
    obtain ⟨a, ha⟩ := poseRot_upright ht (lookup_upright hu hk) imu
    unfold poseWith at hq
    dsimp only at hq
    rw [ha] at hq
    simp only [Bool.false_eq_true, if_false] at hq
    injection hq with hq
    rw [← hq]
    unfold finish
    rw [if_pos hd]
    have hlev : LevelR (putBlock 6 0 0 (rot6d (rotZ a) * poseCov (sourceTf c source (poseLookupTime msg.stamp)) msg * (rot6d (rotZ a))ᵀ)) :=
      LevelR.block6 zero_off (p2.turn a) (Or.inl rfl)
    have hfin : ∀ (v w : V3) (i : Fin 15), ((put 3 (put 0 (blank u thr).z fun i => Dbl.fin (v i)) fun i => Dbl.fin (w i)) i).isFin = true :=
      fun v w => put_fin (put_fin (fun _ => rfl) fun _ => rfl) fun _ => rfl
    rcases hp with hp | ⟨hs, b, hb1, hb2⟩
    · have p1 : (poseCov (sourceTf c source (poseLookupTime msg.stamp)) msg).PosDef := by
        cases hs : sourceTf c source (poseLookupTime msg.stamp) with
        | none =>
          show (copyCov6 msg.cov).PosDef
          rw [copyCov6_eq]
          exact hp
        | some s =>
          have hr := sourceTf_isRot hb.rot source _ s hs
          show ((rot6d (quatOf s.rot).mat)ᵀ * copyCov6 msg.cov * rot6d (quatOf s.rot).mat).PosDef
          rw [(C43_matrix_to_quaternion hr).2, copyCov6_eq]
          have := posDef_turn hp (R := (rot6d s.rot)ᵀ) (by rw [transpose_transpose]; exact rot6d_transpose_mul hr)
          rwa [transpose_transpose] at this
      exact firm_block (n := 6) (off := 0) (by omega) (posDef_turn p1 (rot6d_mul_transpose (isRot_turn a))) rfl hlev (hfin _ _)
    · have hsrc : sourceTf c source (poseLookupTime msg.stamp) = none := by simp [sourceTf, hs]
      rw [hsrc] at hlev ⊢
      have e2 : putBlock 6 0 0 (rot6d (rotZ a) * poseCov none msg * (rot6d (rotZ a))ᵀ) = putBlock 3 3 0 (rotZ a * msgCov3 b * (rotZ a)ᵀ) := by
        show putBlock 6 0 0 (rot6d (rotZ a) * copyCov6 msg.cov * (rot6d (rotZ a))ᵀ) = _
        rw [copyCov6_eq, hb1]
        exact angular_block 0 _ _
      exact firm_block (n := 3) (off := 3) (by omega) (posDef_turn hb2 (isRot_turn a).1) e2 hlev (hfin _ _)

section Step
variable {c : NodeConf} {Q : MQueue (ekfCore c.par)} {s : Sys (ekfCore c.par) Q}

/-- The pose set by hand. -/
theorem asked_firm (hd : c.sw.twoD = true) {buf : TfBuffer} (hb : SaneBuf buf) (hu : Standing buf) (junk : State) (msg : PoseMsg)
    (hl : Level6 (msgCov msg.cov)) (x : Option State) (P : Mat15)
    (h : (Sys.asked (ekfView c.par) (s.ctx (ekfView c.par) c.sys buf junk) msg).getD
      ((ekfCore c.par).zeroX, (ekfCore c.par).setPoseCov) = (x, P)) : x ≠ none ∧ PlanarEst x P := by
  set k := s.ctx (ekfView c.par) c.sys buf junk with hk
  have hd' : k.twoD = true := hd
  have hone : ∀ i j : Fin 15, i ≠ j → ((1e-6 : ℝ) • (1 : Mat15)) i j = 0 := by
    intro i j hij
    simp [one_apply_ne hij]
  cases hr : (preparePose k { init := fun _ => none, prev := fun _ => none } msg.stamp msg "set_pose" k.world k.base false false
      false Sys.blankPose).2 with
  | none =>
    have e : (Sys.asked (ekfView c.par) k msg) = none := by
      unfold Sys.asked
      rw [hr]
      rfl
    rw [e] at h
    obtain ⟨h1, h2⟩ := Prod.mk.inj h
    have h1 : some (0 : State) = x := h1
    have h2 : (1e-6 : ℝ) • (1 : Mat15) = P := h2
    rw [← h1, ← h2]
    refine ⟨by simp, fun y hy => ?_⟩
    injection hy with hy
    rw [← hy]
    refine ⟨fun _ _ => rfl, fun i j hij => hone i j ?_⟩
    rintro rfl
    exact hij rfl
  | some q =>
    have e : (Sys.asked (ekfView c.par) k msg) = some (some (fun i => (q.z i).val), q.R) := by
      unfold Sys.asked
      rw [hr]
      rfl
    rw [e] at h
    obtain ⟨h1, h2⟩ := Prod.mk.inj h
    have h1 : some (fun i => (q.z i).val) = x := h1
    have h2 : q.R = P := h2
    rw [← h1, ← h2]
    refine ⟨by simp, fun y hy => ?_⟩
    injection hy with hy
    rw [← hy]
    unfold preparePose at hr
    dsimp only at hr
    split at hr
    · cases hr
    · rename_i t hl'
      have ht := lookup_isRot hb.rot hl'
      obtain ⟨a, ha⟩ := lookup_upright hu hl'
      have hsrc : sourceTf k k.base (poseLookupTime msg.stamp) = none := by simp [sourceTf]
      rw [hsrc] at hr
      simp only [poseWith, Bool.false_eq_true, if_false, Option.some.injEq] at hr
      unfold finish at hr
      rw [if_pos hd'] at hr
      have eC : rot6d (quatOf t.rot).mat * poseCov none msg * (rot6d (quatOf t.rot).mat)ᵀ =
          rot6d (rotZ a) * msgCov msg.cov * (rot6d (rotZ a))ᵀ := by
        rw [(C43_matrix_to_quaternion ht).2, ha]
        show rot6d (rotZ a) * copyCov6 msg.cov * _ = _
        rw [copyCov6_eq]
      rw [eC] at hr
      constructor
      · intro i hi
        rw [← hr]
        show (if offPlane i = true then Dbl.fin 0 else _).val = 0
        rw [if_pos hi]
        rfl
      · rw [← hr]
        exact forceTwoD_blk (LevelR.noOut (LevelR.block6 hone (hl.turn a) (Or.inl rfl)))

theorem events_firm (hin : c.inputs.Made) (hd : c.sw.twoD = true) (e : Sys.Ev) (h : FirmMessage c s e) :
    Along c.cfg (Node.Takes AlivePlanar AliveStart Firm (PlanarCtl c.par)) s.hub.node (s.events (ekfView c.par) c.sys e) := by
  cases e with
  | odom i buf junk msg =>
    obtain ⟨hb, hu, h⟩ := h
    simp only [Sys.events]
    cases hcd : c.sys.inputs.odomCds[i]? with
    | none => exact trivial
    | some d =>
      obtain ⟨a, b⟩ := d
      obtain ⟨set, hset, hdata⟩ := hin.odom i _ hcd
      obtain ⟨hlen, hdf, hp, ht⟩ := h set hset
      obtain ⟨ua, ub, -, -, da, ra, ca, sa, sb⟩ := odomData_full hdata hlen
      rw [hdf] at da
      dsimp only
      split
      · refine Hub.along_odom (fun hs _ q hq => ?_) fun hs q hq => ?_
        · unfold Hub.posePrep at hq
          rw [da] at hq
          obtain ⟨p1, p2⟩ := hp ((sa.1 hs).imp fun j hj => (ua j).1 hj)
          exact preparePose_firm (s.ctx (ekfView c.par) c.sys buf junk) hd hb hu s.hub.mem _ msg.asPose a.topic c.frames.world _ _ false
            a.upd a.thresh (Or.inl p1) p2 q hq
        · obtain ⟨t1, t2, t3⟩ := ht ((sb.1 hs).imp fun j hj => (ub j).1 hj)
          exact prepareTwist_firm _ hd hb hu msg.asTwist _ b.upd b.thresh q hq (Or.inl t1) t2 t3
      · exact trivial
  | pose i buf junk msg =>
    obtain ⟨hb, hu, h⟩ := h
    simp only [Sys.events]
    cases hcd : c.sys.inputs.poseCds[i]? with
    | none => exact trivial
    | some a =>
      obtain ⟨set, hset, hdata⟩ := hin.pose i _ hcd
      obtain ⟨hlen, hdf, hp⟩ := h set hset
      obtain ⟨ua, -, -, da, ra, sa⟩ := poseData_full hdata hlen
      rw [hdf] at da
      dsimp only
      split
      · rename_i hs
        have hf : s.hub.PoseFine (C := ekfCore c.par) Firm (ekfView c.par).meas (s.ctx (ekfView c.par) c.sys buf junk) msg a
            c.sys.frames.world c.sys.frames.base false := by
          intro _ q hq
          unfold Hub.posePrep at hq
          rw [da] at hq
          obtain ⟨p1, p2⟩ := hp ((sa.1 hs).imp fun j hj => (ua j).1 hj)
          exact preparePose_firm (s.ctx (ekfView c.par) c.sys buf junk) hd hb hu s.hub.mem _ msg a.topic c.frames.world _ _ false
            a.upd a.thresh (Or.inl p1) p2 q hq
        exact ⟨hf.takes, trivial⟩
      · exact trivial
  | twist i buf junk msg =>
    obtain ⟨hb, hu, h⟩ := h
    simp only [Sys.events]
    cases hcd : c.sys.inputs.twistCds[i]? with
    | none => exact trivial
    | some b =>
      obtain ⟨set, hset, hdata⟩ := hin.twist i _ hcd
      obtain ⟨hlen, ht⟩ := h set hset
      obtain ⟨ub, -, -, sb⟩ := twistData_full hdata hlen
      dsimp only
      split
      · rename_i hs
        refine ⟨Or.inr (map_forall (mk := (ekfView c.par).meas) fun q hq => ?_), trivial⟩
        obtain ⟨t1, t2, t3⟩ := ht ((sb.1 hs).imp fun j hj => (ub j).1 hj)
        exact prepareTwist_firm _ hd hb hu msg _ b.upd b.thresh q hq (Or.inl t1) t2 t3
      · exact trivial
  | imu i buf junk msg =>
    obtain ⟨hb, hu, h⟩ := h
    simp only [Sys.events]
    cases hcd : c.sys.inputs.imuCds[i]? with
    | none => exact trivial
    | some d =>
      obtain ⟨a, b, d⟩ := d
      obtain ⟨set, hset, hdata⟩ := hin.imu i _ hcd
      obtain ⟨hlen, hdf, hp, ht, ha⟩ := h set hset
      obtain ⟨ua, ub, ud, -, -, da, ra, sa, sb, sd⟩ := imuData_full hdata hlen
      rw [hdf] at da
      rw [show c.sys.inputs.imus[i]? = some set from hset]
      dsimp only
      split
      · refine Hub.along_imu (fun hs hw _ q hq => ?_) (fun hs hw q hq => ?_) (fun hs hw q hq => ?_)
        · unfold Hub.posePrep at hq
          rw [da] at hq
          obtain ⟨p1, p2⟩ := hp ((sa.1 hs).imp fun j hj => (ua j).1 hj) hw
          exact preparePose_firm (s.ctx (ekfView c.par) c.sys buf junk) hd hb hu s.hub.mem _ msg.asPose a.topic c.frames.base c.frames.base _ true
            a.upd a.thresh (Or.inr ⟨rfl, _, rfl, p1⟩) p2 q hq
        · obtain ⟨t1, t2, t3⟩ := ht ((sb.1 hs).imp fun j hj => (ub j).1 hj) hw
          exact prepareTwist_firm _ hd hb hu msg.asTwist _ b.upd b.thresh q hq (Or.inr ⟨_, rfl, t1⟩) t2 fun k => ⟨rfl, t3 k⟩
        · obtain ⟨a1, a2⟩ := ha ((sd.1 hs).imp fun j hj => (ud j).1 hj) hw
          exact prepareAcceleration_firm _ hd hb hu _ msg _ _ d.upd d.thresh q hq a1 a2
      · exact trivial
  | setPose now buf junk msg =>
    obtain ⟨hb, hu, hp, hl, h0⟩ := h
    have hA := asked_level (s := s) hd hb hu junk msg hp hl _ _ rfl
    have hB := asked_firm (s := s) hd hb hu junk msg hl _ _ rfl
    refine ⟨⟨⟨hB.1, hB.2, hA.1⟩, fun hi => ?_⟩, trivial⟩
    rcases h0 with h0 | h0
    · rw [hi] at h0
      cases h0
    · exact ⟨hB.1, hB.2, hA.2 h0.1 h0.2⟩
  | reset => exact ⟨trivial, trivial⟩
  | command now u => exact ⟨h, trivial⟩
  | toggle on => exact ⟨trivial, trivial⟩
  | enable => exact ⟨trivial, trivial⟩
  | tick now now2 buf => exact ⟨trivial, trivial⟩

end Step

theorem made_flat {p : FilterPar} {g : SysCfg (ekfCore p)} {m : Sent}
    (h : Sys.Made (ekfView p) g AlivePlanar (fun d => d.cov.PosSemidef) m) : SentFlat m := by
  cases h with
  | odom t x cov hI =>
    obtain ⟨h1, h2, h3⟩ := hI
    cases x with
    | none => exact absurd rfl h1
    | some y =>
      obtain ⟨f1, f2, f3, f4, f5, f6, f7⟩ := (flat_iff y).1 (h2 y rfl).1
      have hc := odomMessage_cov (fr := g.frames) (y := y) (t := t) h3 rfl
      refine ⟨_, rfl, f1, ⟨y iYaw, ?_⟩, fun k => by fin_cases k <;> exact ⟨rfl, rfl⟩, congrArg Dbl.fin f4, congrArg Dbl.fin f5,
        congrArg Dbl.fin f6, hc.1, hc.2⟩
      show (Quat.ofRPY (y iRoll) (y iPitch) (y iYaw)).mat = _
      rw [f2, f3, mat_ofRPY, setRPY_eq]
      simp [rot, rotX, rotY, rotZ]
  | tf t x cov buf hI => trivial
  | accel t x cov d hI hd =>
    obtain ⟨h1, h2, h3⟩ := hI
    cases x with
    | none => exact absurd rfl h1
    | some y =>
      obtain ⟨f1, f2, f3, f4, f5, f6, f7⟩ := (flat_iff y).1 (h2 y rfl).1
      exact ⟨_, rfl, f7, accelMessage_cov (fr := g.frames) (y := y) (t := t) h3 hd rfl⟩

/-- C120: a node in 2D mode whose sensors stand upright and are sure of nothing always sends numbers: there is an odometry
message and an acceleration whenever they are due, with the robot upright and in the plane, with covariances.  (Differential
inputs are left out: two poses with the same stamp give velocities that are not numbers.) -/
theorem C120_planar_partial {o : Given} {c : NodeConf} (h : loadNode o = some c) (hd : o.On "two_d_mode")
    (hQ : c.noise.PosSemidef) (hQ2 : NoOutOfPlane c.noise) (hdyn : o.On "dynamic_process_noise_covariance" → NoCross c.noise)
    (h0 : Uncorrelated c.cov) (hx : PlanarState c.initial) (Q : MQueue (ekfCore c.par)) (ctl0 : Fin 6 → ℝ)
    (hc : PlanarCtl c.par 0) (hc0 : PlanarCtl c.par ctl0) (now : Int)
    (hn : 0 ≤ now) (d : Differ) (hdc : d.cov.PosSemidef) (es : List Sys.Ev) (ht : Ticks now es)
    (ha : (Sys.start c.sys Q () ctl0 now d).Holds (ekfView c.par) c.sys (FirmMessage c) es) :
    ∀ m ∈ ((Sys.start c.sys Q () ctl0 now d).run (ekfView c.par) c.sys es).2, SentFlat m := by
  have hin := loadNode_made h
  have hd' : c.sw.twoD = true := (C102_settings_partial h).sw.twoD.2 hd
  have hE := alive_estInv c.cfg hQ (fun h' => hdyn ((C102_settings_partial h).sw.dynamic.1 h')) hQ2 h0 (C102_kept h) c.initial rfl hx hc
  intro m hm
  refine made_flat (Sys.run_inv (g := c.sys) (V := ekfView c.par) hE (M := fun _ => True) (D := fun d => d.cov.PosSemidef)
    (fun s e _ _ hA => ⟨events_firm hin hd' e hA, trivial⟩) ?_ es now (Sys.start c.sys Q () ctl0 now d) hn
    (NInv.start (fctl0 := ctl0) hE Q () hc0 now)
    (HInv.start c.cfg Q () ctl0 now) trivial hdc ht ha m hm)
  intro d now x cov y hI hx _
  exact differ_cov d now y hI.2.2

/-- The hypotheses of `C120_planar_partial` can be met, with a sensor that is turned, late data and a pose set by hand. -/
example : ∃ c, loadNode turningParams = some c ∧ turningParams.On "two_d_mode" ∧ c.noise.PosSemidef ∧ NoOutOfPlane c.noise ∧
    Uncorrelated c.cov ∧ ¬ turningParams.On "dynamic_process_noise_covariance" ∧ PlanarState c.initial ∧ PlanarCtl c.par 0 ∧
    let es : List Sys.Ev := [.twist 0 mastTf 0 { frame := "mast", stamp := 1000000000, lin := ![.fin 1, .fin 0, .fin 0], ang := fun _ => .fin 0
                                                 cov := copyOut6 1 },
      .tick 2000000000 2000000000 noTf,
      .setPose 3000000000 mastTf 0 { frame := c.frames.world, stamp := 3000000000, pos := 0, ori := ⟨0, 0, 0, 1⟩, cov := copyOut6 1 },
      .tick 4000000000 4000000000 noTf]
    Ticks 0 es ∧ (Sys.start c.sys (demoQ c.par) () (0 : Fin 6 → ℝ) 0 ⟨0, 0, 0, 0⟩).Holds (ekfView c.par) c.sys (FirmMessage c) es := by
  obtain ⟨c, h⟩ := turning_starts
  have doc := C102_settings_partial h
  have e1 : msgCov (copyOut6 1) = 1 := by rw [← copyCov6_eq, copyCov6_copyOut6]
  have pd : (msgCov (copyOut6 1)).PosDef := by
    rw [e1]
    exact Matrix.PosDef.one
  have lev : Level6 (msgCov (copyOut6 1)) := by
    rw [e1]
    exact ⟨fun i j _ hij => ⟨one_apply_ne hij, one_apply_ne (Ne.symm hij)⟩, by rw [one_apply_eq, one_apply_eq]⟩
  refine ⟨c, h, by simp [Nav.Given.On, turningParams], ?_, ?_, ?_, by simp [Nav.Given.On, turningParams], ?_, ?_, by simp [Ticks], ?_⟩
  · rw [doc.noise.unset (by simp [turningParams])]
    exact defaultQ_psd
  · rw [doc.noise.unset (by simp [turningParams])]
    intro i hi j hj
    have : ∀ i ∈ ([iZ, iRoll, iPitch, iVz, iVroll, iVpitch, iAz] : List (Fin 15)),
      ∀ j ∈ ([iX, iY, iYaw, iVx, iVy, iVyaw, iAx, iAy] : List (Fin 15)), i ≠ j := by decide
    exact ⟨diagonal_apply_ne _ (this i hi j hj), diagonal_apply_ne _ (this i hi j hj).symm⟩
  · rw [doc.cov.unset (by simp [turningParams])]
    exact uncorrelated_smul (by norm_num)
  · rw [doc.noInitial (by simp [turningParams])]
    exact ⟨rfl, rfl, rfl, rfl, rfl, rfl, rfl⟩
  · intro k _
    left
    by_contra hu
    have hu : ¬ c.control.useControl = false := hu
    have hu := Bool.of_not_eq_false hu
    have := doc.control hu
    simp [Nav.Given.On, turningParams] at this
  · refine ⟨⟨mastTf_sane, mastTf_stands, fun set hset => ⟨?_, fun _ => ⟨pd, lev, fun k => by fin_cases k <;> exact ⟨rfl, rfl⟩⟩⟩⟩, trivial,
      ⟨mastTf_sane, mastTf_stands, pd.posSemidef, lev, Or.inr ⟨rfl, fun i j hij => ?_⟩⟩, trivial, trivial⟩
    · rw [(turning_inputs h).1] at hset
      injection hset with hset
      rw [← hset]
      rfl
    · rw [e1]
      exact one_apply_ne hij

end RL
