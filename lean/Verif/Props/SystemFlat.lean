import Verif.Proofs.Upright
import Verif.Props.SystemCovDemo
/-! # C118 in 2D mode -/

namespace RL
open Matrix Real Body
open Nav (Given)

/-- Sensors stand upright, and the parts of a message that an input uses come with height, roll and pitch measured
independently of everything else, roll and pitch equally well. -/
def LevelMessage (c : NodeConf) : Sys.Ev → Prop
  | .odom i buf _ msg => Standing buf ∧ ∀ set, c.inputs.odoms[i]? = some set →
      ((∃ j : Fin 15, ¬ (6 ≤ j.val ∧ j.val < 12) ∧ Selects set.par.config j.val) → Level6 (msgCov msg.poseCov)) ∧
      ((∃ j : Fin 15, 6 ≤ j.val ∧ Selects set.par.config j.val) → Level6 (msgCov msg.twistCov))
  | .pose i buf _ msg => Standing buf ∧ ∀ set, c.inputs.poses[i]? = some set →
      ((∃ j : Fin 15, j.val < 6 ∧ Selects set.par.config j.val) → Level6 (msgCov msg.cov))
  | .twist i buf _ msg => Standing buf ∧ ∀ set, c.inputs.twists[i]? = some set →
      ((∃ j : Fin 15, 6 ≤ j.val ∧ Selects set.par.config j.val) → Level6 (msgCov msg.cov))
  | .imu i buf _ msg => Standing buf ∧ ∀ set, c.inputs.imus[i]? = some set →
      ((∃ j : Fin 15, (3 ≤ j.val ∧ j.val < 6) ∧ Selects set.par.config j.val) → ¬ Withheld msg.oriCov →
        Level6 (msgCov (angularCov msg.oriCov))) ∧
      ((∃ j : Fin 15, (9 ≤ j.val ∧ j.val < 12) ∧ Selects set.par.config j.val) → ¬ Withheld msg.velCov →
        Level6 (msgCov (angularCov msg.velCov))) ∧
      ((∃ j : Fin 15, 12 ≤ j.val ∧ Selects set.par.config j.val) → ¬ Withheld msg.accCov → Level3 (msgCov3 msg.accCov))
  | .setPose _ buf _ msg => Standing buf ∧ Level6 (msgCov msg.cov)
  | _ => True

/-- The covariances kept for the next differential measurement. -/
def PrevLevel (mem : PoseMem) : Prop := ∀ topic old, mem.prev topic = some old → old.2.PosSemidef ∧ Level6 old.2

theorem zero_off : ∀ i j : Fin 15, i ≠ j → (0 : Mat15) i j = 0 := fun _ _ _ => rfl

theorem prepareTwist_upright (c : PrepCtx) (hd : c.twoD = true) (hb : SaneBuf c.buf) (hu : Standing c.buf) (msg : TwistMsg)
    (target : String) (u : Fin 15 → Bool) (thr : Thresh) (q : Payload) (h : prepareTwist c msg target (blank u thr) = some q)
    (hp : (msgCov msg.cov).PosSemidef) (hl : Level6 (msgCov msg.cov)) : q.R.PosSemidef := by
  unfold prepareTwist at h
  rw [Option.map_eq_some_iff] at h
  obtain ⟨t, hk, hq⟩ := h
  have ht := lookup_isRot hb.rot hk
  obtain ⟨a, ha⟩ := lookup_upright hu hk
  rw [← hq]
  unfold twistPayload finish
  dsimp only
  rw [if_pos hd]
  have e : rot6d (quatOf t.rot).mat * copyCov6 msg.cov * (rot6d (quatOf t.rot).mat)ᵀ =
      rot6d (rotZ a) * msgCov msg.cov * (rot6d (rotZ a))ᵀ := by
    rw [(C43_matrix_to_quaternion ht).2, copyCov6_eq, ha]
  refine forceTwoD_psd ?_ ?_
  · show LevelR (putBlock 6 6 0 _)
    rw [e]
    exact LevelR.block6 zero_off (hl.turn a) (Or.inr rfl)
  · show (putBlock 6 6 0 _).PosSemidef
    rw [e]
    exact putBlock_psd (by omega) (psd_conj hp _)

theorem prepareAcceleration_upright (c : PrepCtx) (hd : c.twoD = true) (hb : SaneBuf c.buf) (hu : Standing c.buf) (rg : Bool) (msg : ImuMsg)
    (target : String) (rel : Bool) (u : Fin 15 → Bool) (thr : Thresh) (q : Payload)
    (h : prepareAcceleration c rg msg target rel (blank u thr) = some q)
    (hp : (msgCov3 msg.accCov).PosSemidef) (hl : Level3 (msgCov3 msg.accCov)) : q.R.PosSemidef := by
  unfold prepareAcceleration at h
  rw [Option.map_eq_some_iff] at h
  obtain ⟨t, hk, hq⟩ := h
  have ht := lookup_isRot hb.rot hk
  obtain ⟨a, ha⟩ := lookup_upright hu hk
  rw [← hq]
  unfold accelPayload finish
  dsimp only
  rw [if_pos hd]
  have e : (quatOf t.rot).mat * copyCov3 msg.accCov * ((quatOf t.rot).mat)ᵀ = rotZ a * msgCov3 msg.accCov * (rotZ a)ᵀ := by
    rw [(C43_matrix_to_quaternion ht).2, copyCov3_eq, ha]
  refine forceTwoD_psd ?_ ?_
  · show LevelR (putBlock 3 12 0 _)
    rw [e]
    exact LevelR.block3 (hl.turn a)
  · show (putBlock 3 12 0 _).PosSemidef
    rw [e]
    exact putBlock_psd (by omega) (psd_conj hp _)

theorem poseCov_level {c : PrepCtx} (hb : SaneBuf c.buf) (hu : Standing c.buf) (source : String) (time : Int) (msg : PoseMsg)
    (hl : Level6 (msgCov msg.cov)) : Level6 (poseCov (sourceTf c source time) msg) := by
  cases hs : sourceTf c source time with
  | none =>
    show Level6 (copyCov6 msg.cov)
    rw [copyCov6_eq]
    exact hl
  | some s =>
    have hr := sourceTf_isRot hb.rot source time s hs
    have : ∃ a, s.rot = rotZ a := by
      unfold sourceTf at hs
      split at hs
      · exact lookup_upright hu hs
      · cases hs
    obtain ⟨a, ha⟩ := this
    show Level6 ((rot6d (quatOf s.rot).mat)ᵀ * copyCov6 msg.cov * rot6d (quatOf s.rot).mat)
    rw [(C43_matrix_to_quaternion hr).2, copyCov6_eq, ha]
    exact hl.back a

/-- The rotation of the covariance of a pose. -/
theorem poseRot_upright {t : Tf} (ht : IsRot t.rot) (hu : ∃ a, t.rot = rotZ a) (imu : Bool) :
    ∃ a, (if imu then setRPY 0 0 (getRPY t.rot 2) else (quatOf t.rot).mat) = rotZ a := by
  cases imu
  · simpa [(C43_matrix_to_quaternion ht).2] using hu
  · refine ⟨getRPY t.rot 2, ?_⟩
    rw [if_pos rfl, setRPY_eq]
    simp [rot, rotX, rotY, rotZ]

theorem preparePose_upright (c : PrepCtx) (hd : c.twoD = true) (hb : SaneBuf c.buf) (hu : Standing c.buf) (mem : PoseMem) (hm : PrevLevel mem)
    (last : Int) (msg : PoseMsg) (topic target source : String) (diff relative imu : Bool) (u : Fin 15 → Bool) (thr : Thresh)
    (hp : (msgCov msg.cov).PosSemidef) (hl : Level6 (msgCov msg.cov)) :
    PrevLevel (preparePose c mem last msg topic target source diff relative imu (blank u thr)).1 ∧
      (last ≤ msg.stamp → ∀ q, (preparePose c mem last msg topic target source diff relative imu (blank u thr)).2 = some q →
        q.R.PosSemidef) := by
  have p1 := (poseCov_psd (sourceTf_isRot hb.rot source (poseLookupTime msg.stamp)) msg hp).1
  have p2 := poseCov_level hb hu source (poseLookupTime msg.stamp) msg hl
  unfold preparePose
  dsimp only
  split
  · exact ⟨hm, fun _ q hq => by cases hq⟩
  · rename_i t hk
    have ht := lookup_isRot hb.rot hk
    obtain ⟨a, ha⟩ := poseRot_upright ht (lookup_upright hu hk) imu
    unfold poseWith
    dsimp only
    rw [ha]
    cases diff with
    | true =>
      simp only [if_true]
      constructor
      · intro s old h
        dsimp only at h
        split at h
        · injection h with h
          rw [← h]
          exact ⟨p1, p2⟩
        · exact hm s old h
      · intro ho q hq
        rw [Option.bind_eq_some_iff] at hq
        obtain ⟨old, ho1, ho2⟩ := hq
        obtain ⟨m1, m2⟩ := hm topic old ho1
        refine prepareTwist_upright c hd hb hu _ _ _ thr q ho2 ?_ ?_
        · rw [← copyCov6_eq]
          simp only [diffTwist]
          rw [copyCov6_copyOut6]
          refine Matrix.PosSemidef.smul (Matrix.PosSemidef.add (psd_conj p1 _) (psd_conj m1 _)) ?_
          rw [sub_nonneg]
          unfold toSec
          exact mul_le_mul_of_nonneg_right (by exact_mod_cast ho) (by norm_num)
        · rw [← copyCov6_eq]
          simp only [diffTwist]
          rw [copyCov6_copyOut6]
          exact ((p2.turn a).add (m2.turn a)).smul _
    | false =>
      simp only [Bool.false_eq_true, if_false]
      constructor
      · split <;> exact hm
      · intro _ q hq
        injection hq with hq
        rw [← hq]
        unfold finish
        rw [if_pos hd]
        exact forceTwoD_psd (LevelR.block6 zero_off (p2.turn a) (Or.inl rfl)) (putBlock_psd (by omega) (psd_conj p1 _))

section Step
variable {c : NodeConf} {Q : MQueue (ekfCore c.par)} {s : Sys (ekfCore c.par) Q}

/-- The pose set by hand. -/
theorem asked_level (hd : c.sw.twoD = true) {buf : TfBuffer} (hb : SaneBuf buf) (hu : Standing buf) (junk : State) (msg : PoseMsg)
    (hp : (msgCov msg.cov).PosSemidef) (hl : Level6 (msgCov msg.cov)) (x : Option State) (P : Mat15)
    (h : (Sys.asked (ekfView c.par) (s.ctx (ekfView c.par) c.sys buf junk) msg).getD
      ((ekfCore c.par).zeroX, (ekfCore c.par).setPoseCov) = (x, P)) :
    P.PosSemidef ∧ (msg.frame = c.frames.world → (∀ i j, i ≠ j → msgCov msg.cov i j = 0) → Uncorrelated P) := by
  set k := s.ctx (ekfView c.par) c.sys buf junk with hk
  have hd' : k.twoD = true := hd
  have hone : Uncorrelated ((1e-6 : ℝ) • (1 : Mat15)) := by
    refine ⟨fun i => ?_, fun i j hij => ?_⟩
    · simp only [Matrix.smul_apply, one_apply_eq, smul_eq_mul, mul_one]
      norm_num
    · simp [one_apply_ne hij]
  cases hr : (preparePose k { init := fun _ => none, prev := fun _ => none } msg.stamp msg "set_pose" k.world k.base false false
      false Sys.blankPose).2 with
  | none =>
    have e : (Sys.asked (ekfView c.par) k msg) = none := by
      unfold Sys.asked
      rw [hr]
      rfl
    rw [e] at h
    have : P = (1e-6 : ℝ) • (1 : Mat15) := (Prod.mk.inj h).2.symm
    rw [this]
    exact ⟨hone.psd, fun _ _ => hone⟩
  | some q =>
    have e : (Sys.asked (ekfView c.par) k msg) = some (some (fun i => (q.z i).val), q.R) := by
      unfold Sys.asked
      rw [hr]
      rfl
    rw [e] at h
    obtain rfl : q.R = P := (Prod.mk.inj h).2
    unfold preparePose at hr
    dsimp only at hr
    split at hr
    · cases hr
    · rename_i t hl'
      have ht := lookup_isRot hb.rot hl'
      obtain ⟨a, ha⟩ := lookup_upright hu hl'
      have hsrc : sourceTf k k.base (poseLookupTime msg.stamp) = none := by simp [sourceTf]
      rw [hsrc] at hr
      simp only [poseWith, Bool.false_eq_true, if_false, Option.some.injEq] at hr
      unfold finish at hr
      rw [if_pos hd'] at hr
      have eC : rot6d (quatOf t.rot).mat * poseCov none msg * (rot6d (quatOf t.rot).mat)ᵀ =
          rot6d (rotZ a) * msgCov msg.cov * (rot6d (rotZ a))ᵀ := by
        rw [(C43_matrix_to_quaternion ht).2, ha]
        show rot6d (rotZ a) * copyCov6 msg.cov * _ = _
        rw [copyCov6_eq]
      rw [eC] at hr
      have hP : q.R.PosSemidef := by
        rw [← hr]
        exact forceTwoD_psd (LevelR.block6 hone.2 (hl.turn a) (Or.inl rfl)) (blankPose_psd (psd_conj hp _))
      refine ⟨hP, fun hf hdg => ?_⟩
      have et : t = Tf.id := by
        have e1 : (poseFrames k msg.frame k.world false false).1 = c.frames.world ∧
            (poseFrames k msg.frame k.world false false).2 = c.frames.world := by
          unfold poseFrames
          rw [hf]
          show _ ∧ _
          split
          · rename_i hw
            have hw : c.frames.world = "" := hw
            rw [hw]
            simp only [if_true]
            exact ⟨hw, hw⟩
          · exact ⟨rfl, rfl⟩
        rw [e1.1, e1.2] at hl'
        exact (Option.some.inj ((hb.lookup_self c.frames.world _).symm.trans hl')).symm
      have e6 : rotZ a = 1 := by
        rw [← ha, et]
        rfl
      rw [e6, rot6d_one, Matrix.one_mul, transpose_one, Matrix.mul_one] at hr
      refine ⟨fun i => hP.diag_nonneg, fun i j hij => ?_⟩
      rw [← hr]
      show (if i = j ∧ offPlane i = true then (1e-6 : ℝ) else putBlock 6 0 ((1e-6 : ℝ) • (1 : Mat15)) (msgCov msg.cov) i j) = 0
      rw [if_neg (fun h => hij h.1)]
      simp only [putBlock, Matrix.of_apply]
      split
      · exact hdg _ _ (fun he => hij (Fin.ext (by have := Fin.mk.inj he; omega)))
      · exact hone.2 i j hij

theorem events_level (hin : c.inputs.Made) (hd : c.sw.twoD = true) (hM : PrevLevel s.hub.mem) (e : Sys.Ev)
    (h : CovMessage c s e ∧ LevelMessage c e) :
    Along c.cfg (Node.Takes CovOk (fun _ P => Uncorrelated P) Payload.GoodR (fun _ => True)) s.hub.node
      (s.events (ekfView c.par) c.sys e) ∧ PrevLevel (s.step (ekfView c.par) c.sys e).1.hub.mem := by
  obtain ⟨h, g⟩ := h
  cases e with
  | odom i buf junk msg =>
    obtain ⟨hb, h⟩ := h
    obtain ⟨hu, g⟩ := g
    simp only [Sys.events, Sys.step]
    cases hcd : c.sys.inputs.odomCds[i]? with
    | none => exact ⟨trivial, hM⟩
    | some d =>
      obtain ⟨a, b⟩ := d
      obtain ⟨set, hset, hdata⟩ := hin.odom i _ hcd
      obtain ⟨hlen, hp, ht⟩ := h set hset
      obtain ⟨gp, gt⟩ := g set hset
      obtain ⟨ua, ub, -, -, da, ra, ca, sa, sb⟩ := odomData_full hdata hlen
      dsimp only
      split
      · have key := fun hs : a.sum > 0 => preparePose_upright (s.ctx (ekfView c.par) c.sys buf junk) hd hb hu s.hub.mem hM
          ((s.hub.node.lastMsg a.topic).getD msg.stamp) msg.asPose a.topic c.frames.world (if a.useChild then msg.child else c.frames.base)
          a.differential a.relative false a.upd a.thresh (hp ((sa.1 hs).imp fun j hj => (ua j).1 hj))
          (gp ((sa.1 hs).imp fun j hj => (ua j).1 hj))
        refine ⟨Hub.along_odom (fun hs hl q hq => good_of_psd ((key hs).2 hl q hq)) fun hs q hq => ?_,
          Hub.mem_odom hM fun hs => (key hs).1⟩
        exact good_of_psd (prepareTwist_upright _ hd hb hu msg.asTwist _ b.upd b.thresh q hq (ht ((sb.1 hs).imp fun j hj => (ub j).1 hj))
          (gt ((sb.1 hs).imp fun j hj => (ub j).1 hj)))
      · exact ⟨trivial, hM⟩
  | pose i buf junk msg =>
    obtain ⟨hb, h⟩ := h
    obtain ⟨hu, g⟩ := g
    simp only [Sys.events, Sys.step]
    cases hcd : c.sys.inputs.poseCds[i]? with
    | none => exact ⟨trivial, hM⟩
    | some a =>
      obtain ⟨set, hset, hdata⟩ := hin.pose i _ hcd
      obtain ⟨hlen, hp⟩ := h set hset
      have gp := g set hset
      obtain ⟨ua, -, -, da, ra, sa⟩ := poseData_full hdata hlen
      dsimp only
      split
      · rename_i hs
        have key := preparePose_upright (s.ctx (ekfView c.par) c.sys buf junk) hd hb hu s.hub.mem hM
          ((s.hub.node.lastMsg a.topic).getD msg.stamp) msg a.topic c.frames.world c.frames.base
          a.differential a.relative false a.upd a.thresh (hp ((sa.1 hs).imp fun j hj => (ua j).1 hj))
          (gp ((sa.1 hs).imp fun j hj => (ua j).1 hj))
        have hf : s.hub.PoseFine (C := ekfCore c.par) Payload.GoodR (ekfView c.par).meas (s.ctx (ekfView c.par) c.sys buf junk) msg a
            c.sys.frames.world c.sys.frames.base false := fun hl q hq => good_of_psd (key.2 hl q hq)
        exact ⟨⟨hf.takes, trivial⟩, Hub.mem_pose hM key.1⟩
      · exact ⟨trivial, hM⟩
  | twist i buf junk msg =>
    obtain ⟨hb, h⟩ := h
    obtain ⟨hu, g⟩ := g
    simp only [Sys.events, Sys.step]
    cases hcd : c.sys.inputs.twistCds[i]? with
    | none => exact ⟨trivial, hM⟩
    | some b =>
      obtain ⟨set, hset, hdata⟩ := hin.twist i _ hcd
      obtain ⟨hlen, ht⟩ := h set hset
      have gt := g set hset
      obtain ⟨ub, -, -, sb⟩ := twistData_full hdata hlen
      dsimp only
      split
      · rename_i hs
        refine ⟨⟨Or.inr (map_forall (mk := (ekfView c.par).meas) fun q hq => ?_), trivial⟩, hM⟩
        exact good_of_psd (prepareTwist_upright _ hd hb hu msg _ b.upd b.thresh q hq (ht ((sb.1 hs).imp fun j hj => (ub j).1 hj))
          (gt ((sb.1 hs).imp fun j hj => (ub j).1 hj)))
      · exact ⟨trivial, hM⟩
  | imu i buf junk msg =>
    obtain ⟨hb, h⟩ := h
    obtain ⟨hu, g⟩ := g
    simp only [Sys.events, Sys.step]
    cases hcd : c.sys.inputs.imuCds[i]? with
    | none => exact ⟨trivial, hM⟩
    | some d =>
      obtain ⟨a, b, d⟩ := d
      obtain ⟨set, hset, hdata⟩ := hin.imu i _ hcd
      obtain ⟨hlen, hp, ht, ha⟩ := h set hset
      obtain ⟨gp, gt, ga⟩ := g set hset
      obtain ⟨ua, ub, ud, -, -, da, ra, sa, sb, sd⟩ := imuData_full hdata hlen
      rw [show c.sys.inputs.imus[i]? = some set from hset]
      dsimp only
      split
      · have key := fun (hs : a.sum > 0) (hw : ¬ Withheld msg.oriCov) => preparePose_upright (s.ctx (ekfView c.par) c.sys buf junk) hd hb hu
          s.hub.mem hM ((s.hub.node.lastMsg a.topic).getD msg.stamp) msg.asPose a.topic c.frames.base c.frames.base
          a.differential a.relative true a.upd a.thresh (angularCov_psd (hp ((sa.1 hs).imp fun j hj => (ua j).1 hj) hw))
          (gp ((sa.1 hs).imp fun j hj => (ua j).1 hj) hw)
        refine ⟨Hub.along_imu (fun hs hw hl q hq => good_of_psd ((key hs hw).2 hl q hq)) (fun hs hw q hq => ?_) (fun hs hw q hq => ?_),
          Hub.mem_imu hM fun hs hw => (key hs hw).1⟩
        · exact good_of_psd (prepareTwist_upright _ hd hb hu msg.asTwist _ b.upd b.thresh q hq
            (angularCov_psd (ht ((sb.1 hs).imp fun j hj => (ub j).1 hj) hw)) (gt ((sb.1 hs).imp fun j hj => (ub j).1 hj) hw))
        · exact good_of_psd (prepareAcceleration_upright _ hd hb hu _ msg _ _ d.upd d.thresh q hq
            (ha ((sd.1 hs).imp fun j hj => (ud j).1 hj) hw) (ga ((sd.1 hs).imp fun j hj => (ud j).1 hj) hw))
      · exact ⟨trivial, hM⟩
  | setPose now buf junk msg =>
    obtain ⟨hb, hp, h0⟩ := h
    obtain ⟨hu, hl⟩ := g
    have hA := fun x P => asked_level (s := s) hd hb hu junk msg hp hl x P
    refine ⟨⟨⟨fun _ => (hA _ _ rfl).1, fun hi => ?_⟩, trivial⟩, fun _ _ h => by cases h⟩
    rcases h0 with h0 | h0
    · rw [hi] at h0
      cases h0
    · exact (hA _ _ rfl).2 h0.1 h0.2
  | reset => exact ⟨⟨trivial, trivial⟩, fun _ _ h => by cases h⟩
  | command now u => exact ⟨⟨trivial, trivial⟩, hM⟩
  | toggle on => exact ⟨⟨trivial, trivial⟩, hM⟩
  | enable => exact ⟨⟨trivial, trivial⟩, hM⟩
  | tick now now2 buf =>
    refine ⟨⟨trivial, trivial⟩, ?_⟩
    show PrevLevel (s.cycle (ekfView c.par) c.sys now now2 buf).1.hub.mem
    unfold Sys.cycle
    split <;> exact hM

end Step

/-- C118 for nodes in 2D mode: when sensors stand upright and measure height, roll and pitch independently of everything
else, roll and pitch equally well.  (Without the last, see `C118_turned`.) -/
theorem C118_planar_partial {o : Given} {c : NodeConf} (h : loadNode o = some c) (hd : o.On "two_d_mode")
    (hQ : c.noise.PosSemidef) (hdyn : o.On "dynamic_process_noise_covariance" → NoCross c.noise)
    (h0 : Uncorrelated c.cov) (Q : MQueue (ekfCore c.par)) (ctl0 : Fin 6 → ℝ) (now : Int)
    (hn : 0 ≤ now) (d : Differ) (hdc : d.cov.PosSemidef) (es : List Sys.Ev) (ht : Ticks now es)
    (ha : (Sys.start c.sys Q () ctl0 now d).Holds (ekfView c.par) c.sys (fun s e => CovMessage c s e ∧ LevelMessage c e) es) :
    ∀ m ∈ ((Sys.start c.sys Q () ctl0 now d).run (ekfView c.par) c.sys es).2, SentCov m := by
  have hin := loadNode_made h
  have hd' : c.sw.twoD = true := (C102_settings_partial h).sw.twoD.2 hd
  have hE := ekfCov_inv c.cfg hQ (fun h' => hdyn ((C102_settings_partial h).sw.dynamic.1 h')) h0 (C102_kept h)
  intro m hm
  refine made_cov (Sys.run_inv (g := c.sys) (V := ekfView c.par) hE (M := PrevLevel) (D := fun d => d.cov.PosSemidef)
    (fun s e _ hM hA => events_level hin hd' hM e hA) ?_ es now (Sys.start c.sys Q () ctl0 now d) hn (NInv.start (fctl0 := ctl0) hE Q () trivial now)
    (HInv.start c.cfg Q () ctl0 now) (fun _ _ h => by cases h) hdc ht ha m hm)
  intro d now x cov y hI hx _
  have hP : Matrix.PosSemidef (n := Fin 15) (R := ℝ) cov := hI (by rw [show (x : Option State) = some y from hx]; simp)
  exact differ_cov d now y hP

/-- A sensor that stands upright and is turned. -/
noncomputable def mastTf : TfBuffer := fun a b _ => if a = b then some Tf.id else some { rot := rotZ 1, org := ![1, 0, 0] }

theorem mastTf_sane : SaneBuf mastTf := by
  constructor
  · intro a b s t h
    unfold mastTf at h
    split at h <;> (injection h with h; rw [← h])
    · exact IsRot.one
    · exact isRot_turn 1
  · intro a s t h
    simp only [mastTf, if_true, Option.some.injEq] at h
    exact h.symm

theorem mastTf_stands : Standing mastTf := by
  intro a b s t h
  unfold mastTf at h
  split at h <;> (injection h with h; rw [← h])
  · exact ⟨0, rotZ_zero.symm⟩
  · exact ⟨1, rfl⟩

/-- The hypotheses of `C118_planar_partial` can be met, with a sensor that is turned and a pose set by hand. -/
example : ∃ c, loadNode turningParams = some c ∧ turningParams.On "two_d_mode" ∧ c.noise.PosSemidef ∧ Uncorrelated c.cov ∧
    ¬ turningParams.On "dynamic_process_noise_covariance" ∧
    let es : List Sys.Ev := [.twist 0 mastTf 0 { frame := "mast", stamp := 1000000000, lin := ![.fin 1, .fin 0, .fin 0], ang := fun _ => .fin 0
                                                 cov := copyOut6 1 },
      .tick 2000000000 2000000000 noTf,
      .setPose 3000000000 mastTf 0 { frame := c.frames.world, stamp := 3000000000, pos := 0, ori := ⟨0, 0, 0, 1⟩, cov := copyOut6 1 },
      .tick 4000000000 4000000000 noTf]
    Ticks 0 es ∧ (Sys.start c.sys (demoQ c.par) () (0 : Fin 6 → ℝ) 0 ⟨0, 0, 0, 0⟩).Holds (ekfView c.par) c.sys
      (fun s e => CovMessage c s e ∧ LevelMessage c e) es := by
  obtain ⟨c, h⟩ := turning_starts
  have doc := C102_settings_partial h
  have sane := mastTf_sane
  have stand := mastTf_stands
  have e1 : msgCov (copyOut6 1) = 1 := by rw [← copyCov6_eq, copyCov6_copyOut6]
  have psd : (msgCov (copyOut6 1)).PosSemidef := by
    rw [e1]
    exact Matrix.PosSemidef.one
  have lev : Level6 (msgCov (copyOut6 1)) := by
    rw [e1]
    exact ⟨fun i j _ hij => ⟨one_apply_ne hij, one_apply_ne (Ne.symm hij)⟩, by rw [one_apply_eq, one_apply_eq]⟩
  refine ⟨c, h, by simp [Nav.Given.On, turningParams], ?_, ?_, by simp [Nav.Given.On, turningParams], by simp [Ticks], ?_⟩
  · rw [doc.noise.unset (by simp [turningParams])]
    exact defaultQ_psd
  · rw [doc.cov.unset (by simp [turningParams])]
    exact uncorrelated_smul (by norm_num)
  refine ⟨⟨⟨sane, fun set hset => ⟨?_, fun _ => psd⟩⟩, stand, fun set _ _ => lev⟩, ⟨trivial, trivial⟩,
    ⟨⟨sane, psd, Or.inr ⟨rfl, fun i j hij => ?_⟩⟩, stand, lev⟩, ⟨trivial, trivial⟩, trivial⟩
  · rw [(turning_inputs h).1] at hset
    injection hset with hset
    rw [← hset]
    rfl
  · show msgCov (copyOut6 1) i j = 0
    rw [e1, one_apply_ne hij]

end RL
