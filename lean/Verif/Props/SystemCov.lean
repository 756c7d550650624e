import Verif.Proofs.SystemInv
import Verif.Props.PrepareCov
import Verif.Props.Informed
import Verif.Props.System
/-! # C118: covariances in, covariances out -/

namespace RL
open Matrix Real
open Nav (Given)

/-! ## What it means -/

/-- The parts of a message that an input uses come with covariances.  (An IMU marks what it does not measure.)  The pose set
by hand before anything has been measured is uncorrelated, in the frame of the world. -/
def CovMessage (c : NodeConf) {Q : MQueue (ekfCore c.par)} (s : Sys (ekfCore c.par) Q) : Sys.Ev → Prop
  | .odom i buf _ msg => SaneBuf buf ∧ ∀ set, c.inputs.odoms[i]? = some set → set.par.config.length = 15 ∧
      ((∃ j : Fin 15, ¬ (6 ≤ j.val ∧ j.val < 12) ∧ Selects set.par.config j.val) → (msgCov msg.poseCov).PosSemidef) ∧
      ((∃ j : Fin 15, 6 ≤ j.val ∧ Selects set.par.config j.val) → (msgCov msg.twistCov).PosSemidef)
  | .pose i buf _ msg => SaneBuf buf ∧ ∀ set, c.inputs.poses[i]? = some set → set.par.config.length = 15 ∧
      ((∃ j : Fin 15, j.val < 6 ∧ Selects set.par.config j.val) → (msgCov msg.cov).PosSemidef)
  | .twist i buf _ msg => SaneBuf buf ∧ ∀ set, c.inputs.twists[i]? = some set → set.par.config.length = 15 ∧
      ((∃ j : Fin 15, 6 ≤ j.val ∧ Selects set.par.config j.val) → (msgCov msg.cov).PosSemidef)
  | .imu i buf _ msg => SaneBuf buf ∧ ∀ set, c.inputs.imus[i]? = some set → set.par.config.length = 15 ∧
      ((∃ j : Fin 15, (3 ≤ j.val ∧ j.val < 6) ∧ Selects set.par.config j.val) → ¬ Withheld msg.oriCov →
        (msgCov3 msg.oriCov).PosSemidef) ∧
      ((∃ j : Fin 15, (9 ≤ j.val ∧ j.val < 12) ∧ Selects set.par.config j.val) → ¬ Withheld msg.velCov →
        (msgCov3 msg.velCov).PosSemidef) ∧
      ((∃ j : Fin 15, 12 ≤ j.val ∧ Selects set.par.config j.val) → ¬ Withheld msg.accCov → (msgCov3 msg.accCov).PosSemidef)
  | .setPose _ buf _ msg => SaneBuf buf ∧ (msgCov msg.cov).PosSemidef ∧
      (s.hub.node.filt.initialized = true ∨ msg.frame = c.frames.world ∧ ∀ i j, i ≠ j → msgCov msg.cov i j = 0)
  | _ => True

/-- A message that is sent comes with covariances. -/
def SentCov : Sent → Prop
  | .odom _ (some m) => (msgCov m.poseCov).PosSemidef ∧ (msgCov m.twistCov).PosSemidef
  | .accel _ (some m) => (msgCov m.cov).PosSemidef
  | _ => True

/-! ## Preparation -/

/-- The covariances kept for the next differential measurement. -/
def PrevCov (mem : PoseMem) : Prop := ∀ topic old, mem.prev topic = some old → old.2.PosSemidef

theorem good_of_psd {q : Payload} (h : q.R.PosSemidef) : q.GoodR := h.submatrix _

theorem preparePose_cov (c : PrepCtx) (hd : c.twoD = false) (hb : SaneBuf c.buf) (mem : PoseMem) (hm : PrevCov mem) (last : Int)
    (msg : PoseMsg) (topic target source : String) (diff relative imu : Bool) (u : Fin 15 → Bool) (thr : Thresh)
    (hp : (msgCov msg.cov).PosSemidef) :
    PrevCov (preparePose c mem last msg topic target source diff relative imu (blank u thr)).1 ∧
      (last ≤ msg.stamp → ∀ q, (preparePose c mem last msg topic target source diff relative imu (blank u thr)).2 = some q →
        q.R.PosSemidef) := by
  constructor
  · unfold preparePose
    dsimp only
    split
    · exact hm
    · rename_i t hl
      unfold poseWith
      dsimp only
      cases diff with
      | true =>
        simp only [if_true]
        intro s old h
        dsimp only at h
        split at h
        · injection h with h
          rw [← h]
          exact (poseCov_psd (sourceTf_isRot hb.rot source (poseLookupTime msg.stamp)) msg hp).1
        · exact hm s old h
      | false =>
        simp only [Bool.false_eq_true, if_false]
        split <;> exact hm
  · intro hl q hq
    cases diff with
    | true =>
      exact (C34_differential c hd mem _ last msg topic target source relative imu u thr hb.rot hl (fun old => hm topic old) _
        (Prod.mk.eta).symm hp).1 q hq
    | false =>
      exact (C34_pose c hd mem _ last msg topic target source relative imu u thr hb.rot q (Prod.ext rfl hq) hp).1

theorem angularCov_psd {a : Fin 9 → ℝ} (h : (msgCov3 a).PosSemidef) : (msgCov (angularCov a)).PosSemidef := by
  have e : msgCov (angularCov a) = Matrix.of fun i j : Fin 6 =>
      if h : 3 ≤ i.val ∧ 3 ≤ j.val then msgCov3 a ⟨i.val - 3, by omega⟩ ⟨j.val - 3, by omega⟩ else 0 := by
    rw [← copyCov6_eq, ← copyCov3_eq]
    ext i j
    fin_cases i <;> fin_cases j <;> rfl
  have e2 : msgCov (angularCov a) =
      (Matrix.of fun (i : Fin 6) (k : Fin 3) => if i.val = k.val + 3 then (1 : ℝ) else 0) * msgCov3 a *
        (Matrix.of fun (i : Fin 6) (k : Fin 3) => if i.val = k.val + 3 then (1 : ℝ) else 0)ᵀ := by
    rw [e]
    ext i j
    fin_cases i <;> fin_cases j <;> simp [Matrix.mul_apply, Fin.sum_univ_three]
  rw [e2]
  exact psd_conj h _

theorem blankPose_psd {C : M6} (h : C.PosSemidef) : (putBlock 6 0 ((1e-6 : ℝ) • (1 : Mat15)) C).PosSemidef := by
  have e : putBlock 6 0 ((1e-6 : ℝ) • (1 : Mat15)) C =
      putBlock 6 0 0 C + diagonal fun i : Fin 15 => if i.val < 6 then (0 : ℝ) else 1e-6 := by
    ext i j
    simp only [putBlock, Matrix.of_apply, Matrix.add_apply, Matrix.smul_apply, smul_eq_mul, Matrix.zero_apply, diagonal_apply, one_apply]
    split
    · rename_i hb
      rw [eq_comm, add_eq_left]
      split
      · rw [if_pos (by omega)]
      · rfl
    · rename_i hb
      by_cases hij : i = j
      · subst hij
        rw [if_pos rfl, if_pos rfl, if_neg (by omega)]
        ring
      · rw [if_neg hij, if_neg hij]
        ring
  rw [e]
  refine (putBlock_psd (by omega) h).add (PosSemidef.diagonal fun i => ?_)
  dsimp only
  split <;> norm_num

section Step
variable {c : NodeConf} {Q : MQueue (ekfCore c.par)} {s : Sys (ekfCore c.par) Q}

/-- The pose set by hand. -/
theorem asked_cov (hd : c.sw.twoD = false) {buf : TfBuffer} (hb : SaneBuf buf) (junk : State) (msg : PoseMsg)
    (hp : (msgCov msg.cov).PosSemidef) (x : Option State) (P : Mat15)
    (h : (Sys.asked (ekfView c.par) (s.ctx (ekfView c.par) c.sys buf junk) msg).getD
      ((ekfCore c.par).zeroX, (ekfCore c.par).setPoseCov) = (x, P)) :
    P.PosSemidef ∧ (msg.frame = c.frames.world → (∀ i j, i ≠ j → msgCov msg.cov i j = 0) → Uncorrelated P) := by
  set k := s.ctx (ekfView c.par) c.sys buf junk with hk
  have hd' : k.twoD = false := hd
  have hone : Uncorrelated ((1e-6 : ℝ) • (1 : Mat15)) := by
    refine ⟨fun i => ?_, fun i j hij => ?_⟩
    · simp only [Matrix.smul_apply, one_apply_eq, smul_eq_mul, mul_one]
      norm_num
    · simp [one_apply_ne hij]
  cases hr : (preparePose k { init := fun _ => none, prev := fun _ => none } msg.stamp msg "set_pose" k.world k.base false false
      false Sys.blankPose).2 with
  | none =>
    have e : (Sys.asked (ekfView c.par) k msg) = none := by
      unfold Sys.asked
      rw [hr]
      rfl
    rw [e] at h
    have : P = (1e-6 : ℝ) • (1 : Mat15) := (Prod.mk.inj h).2.symm
    rw [this]
    exact ⟨hone.psd, fun _ _ => hone⟩
  | some q =>
    have e : (Sys.asked (ekfView c.par) k msg) = some (some (fun i => (q.z i).val), q.R) := by
      unfold Sys.asked
      rw [hr]
      rfl
    rw [e] at h
    obtain rfl : q.R = P := (Prod.mk.inj h).2
    unfold preparePose at hr
    dsimp only at hr
    split at hr
    · cases hr
    · rename_i t hl
      have ht := lookup_isRot hb.rot hl
      have hsrc : sourceTf k k.base (poseLookupTime msg.stamp) = none := by simp [sourceTf]
      rw [hsrc] at hr
      simp only [poseWith, Bool.false_eq_true, if_false, Option.some.injEq] at hr
      have er : q.R = putBlock 6 0 ((1e-6 : ℝ) • (1 : Mat15)) (rot6d t.rot * msgCov msg.cov * (rot6d t.rot)ᵀ) := by
        rw [← hr]
        simp [finish, hd', Sys.blankPose, poseCov, copyCov6_eq, (C43_matrix_to_quaternion ht).2]
      rw [er]
      refine ⟨blankPose_psd (psd_conj hp _), fun hf hdg => ?_⟩
      have et : t = Tf.id := by
        have e1 : (poseFrames k msg.frame k.world false false).1 = c.frames.world ∧
            (poseFrames k msg.frame k.world false false).2 = c.frames.world := by
          unfold poseFrames
          rw [hf]
          show _ ∧ _
          split
          · rename_i hw
            have hw : c.frames.world = "" := hw
            rw [hw]
            simp only [if_true]
            exact ⟨hw, hw⟩
          · exact ⟨rfl, rfl⟩
        rw [e1.1, e1.2] at hl
        exact (Option.some.inj ((hb.lookup_self c.frames.world _).symm.trans hl)).symm
      rw [et]
      have e6 : rot6d (Tf.id.rot) = 1 := rot6d_one
      rw [e6, Matrix.one_mul, transpose_one, Matrix.mul_one]
      refine ⟨fun i => (blankPose_psd hp).diag_nonneg, fun i j hij => ?_⟩
      simp only [putBlock, Matrix.of_apply]
      split
      · exact hdg _ _ (fun he => hij (Fin.ext (by have := Fin.mk.inj he; omega)))
      · exact hone.2 i j hij

theorem events_cov (hin : c.inputs.Made) (hd : c.sw.twoD = false) (hM : PrevCov s.hub.mem) (e : Sys.Ev) (h : CovMessage c s e) :
    Along c.cfg (Node.Takes CovOk (fun _ P => Uncorrelated P) Payload.GoodR (fun _ => True)) s.hub.node
      (s.events (ekfView c.par) c.sys e) ∧ PrevCov (s.step (ekfView c.par) c.sys e).1.hub.mem := by
  cases e with
  | odom i buf junk msg =>
    obtain ⟨hb, h⟩ := h
    simp only [Sys.events, Sys.step]
    cases hcd : c.sys.inputs.odomCds[i]? with
    | none => exact ⟨trivial, hM⟩
    | some d =>
      obtain ⟨a, b⟩ := d
      obtain ⟨set, hset, hdata⟩ := hin.odom i _ hcd
      obtain ⟨hlen, hp, ht⟩ := h set hset
      obtain ⟨ua, ub, -, -, da, ra, ca, sa, sb⟩ := odomData_full hdata hlen
      dsimp only
      split
      · have key := fun hs : a.sum > 0 => preparePose_cov (s.ctx (ekfView c.par) c.sys buf junk) hd hb s.hub.mem hM
          ((s.hub.node.lastMsg a.topic).getD msg.stamp) msg.asPose a.topic c.frames.world (if a.useChild then msg.child else c.frames.base)
          a.differential a.relative false a.upd a.thresh (hp ((sa.1 hs).imp fun j hj => (ua j).1 hj))
        refine ⟨Hub.along_odom (fun hs hl q hq => good_of_psd ((key hs).2 hl q hq)) fun hs q hq => ?_,
          Hub.mem_odom hM fun hs => (key hs).1⟩
        exact good_of_psd (C34_twist _ hd msg.asTwist _ b.upd b.thresh hb.rot q hq (ht ((sb.1 hs).imp fun j hj => (ub j).1 hj))).1
      · exact ⟨trivial, hM⟩
  | pose i buf junk msg =>
    obtain ⟨hb, h⟩ := h
    simp only [Sys.events, Sys.step]
    cases hcd : c.sys.inputs.poseCds[i]? with
    | none => exact ⟨trivial, hM⟩
    | some a =>
      obtain ⟨set, hset, hdata⟩ := hin.pose i _ hcd
      obtain ⟨hlen, hp⟩ := h set hset
      obtain ⟨ua, -, -, da, ra, sa⟩ := poseData_full hdata hlen
      dsimp only
      split
      · rename_i hs
        have key := preparePose_cov (s.ctx (ekfView c.par) c.sys buf junk) hd hb s.hub.mem hM
          ((s.hub.node.lastMsg a.topic).getD msg.stamp) msg a.topic c.frames.world c.frames.base
          a.differential a.relative false a.upd a.thresh (hp ((sa.1 hs).imp fun j hj => (ua j).1 hj))
        have hf : s.hub.PoseFine (C := ekfCore c.par) Payload.GoodR (ekfView c.par).meas (s.ctx (ekfView c.par) c.sys buf junk) msg a
            c.sys.frames.world c.sys.frames.base false := fun hl q hq => good_of_psd (key.2 hl q hq)
        exact ⟨⟨hf.takes, trivial⟩, Hub.mem_pose hM key.1⟩
      · exact ⟨trivial, hM⟩
  | twist i buf junk msg =>
    obtain ⟨hb, h⟩ := h
    simp only [Sys.events, Sys.step]
    cases hcd : c.sys.inputs.twistCds[i]? with
    | none => exact ⟨trivial, hM⟩
    | some b =>
      obtain ⟨set, hset, hdata⟩ := hin.twist i _ hcd
      obtain ⟨hlen, ht⟩ := h set hset
      obtain ⟨ub, -, -, sb⟩ := twistData_full hdata hlen
      dsimp only
      split
      · rename_i hs
        refine ⟨⟨Or.inr (map_forall (mk := (ekfView c.par).meas) fun q hq => ?_), trivial⟩, hM⟩
        exact good_of_psd (C34_twist _ hd msg _ b.upd b.thresh hb.rot q hq (ht ((sb.1 hs).imp fun j hj => (ub j).1 hj))).1
      · exact ⟨trivial, hM⟩
  | imu i buf junk msg =>
    obtain ⟨hb, h⟩ := h
    simp only [Sys.events, Sys.step]
    cases hcd : c.sys.inputs.imuCds[i]? with
    | none => exact ⟨trivial, hM⟩
    | some d =>
      obtain ⟨a, b, d⟩ := d
      obtain ⟨set, hset, hdata⟩ := hin.imu i _ hcd
      obtain ⟨hlen, hp, ht, ha⟩ := h set hset
      obtain ⟨ua, ub, ud, -, -, da, ra, sa, sb, sd⟩ := imuData_full hdata hlen
      rw [show c.sys.inputs.imus[i]? = some set from hset]
      dsimp only
      split
      · have key := fun (hs : a.sum > 0) (hw : ¬ Withheld msg.oriCov) => preparePose_cov (s.ctx (ekfView c.par) c.sys buf junk) hd hb
          s.hub.mem hM ((s.hub.node.lastMsg a.topic).getD msg.stamp) msg.asPose a.topic c.frames.base c.frames.base
          a.differential a.relative true a.upd a.thresh (angularCov_psd (hp ((sa.1 hs).imp fun j hj => (ua j).1 hj) hw))
        refine ⟨Hub.along_imu (fun hs hw hl q hq => good_of_psd ((key hs hw).2 hl q hq)) (fun hs hw q hq => ?_) (fun hs hw q hq => ?_),
          Hub.mem_imu hM fun hs hw => (key hs hw).1⟩
        · exact good_of_psd (C34_twist _ hd msg.asTwist _ b.upd b.thresh hb.rot q hq
            (angularCov_psd (ht ((sb.1 hs).imp fun j hj => (ub j).1 hj) hw))).1
        · exact good_of_psd (C34_acceleration _ hd _ msg _ _ d.upd d.thresh hb.rot q hq
            (ha ((sd.1 hs).imp fun j hj => (ud j).1 hj) hw)).1
      · exact ⟨trivial, hM⟩
  | setPose now buf junk msg =>
    obtain ⟨hb, hp, hu⟩ := h
    have hA := fun x P => asked_cov (s := s) hd hb junk msg hp x P
    refine ⟨⟨⟨fun _ => (hA _ _ rfl).1, fun hi => ?_⟩, trivial⟩, fun _ _ h => by cases h⟩
    rcases hu with hu | hu
    · rw [hi] at hu
      cases hu
    · exact (hA _ _ rfl).2 hu.1 hu.2
  | reset => exact ⟨⟨trivial, trivial⟩, fun _ _ h => by cases h⟩
  | command now u => exact ⟨⟨trivial, trivial⟩, hM⟩
  | toggle on => exact ⟨⟨trivial, trivial⟩, hM⟩
  | enable => exact ⟨⟨trivial, trivial⟩, hM⟩
  | tick now now2 buf =>
    refine ⟨⟨trivial, trivial⟩, ?_⟩
    show PrevCov (s.cycle (ekfView c.par) c.sys now now2 buf).1.hub.mem
    unfold Sys.cycle
    split <;> exact hM

end Step

/-! ## The messages -/

theorem odomMessage_cov {fr : Frames} {y : State} {P : Mat15} (h : P.PosSemidef) {t : Int} {m : OdomMsg}
    (hm : odomMessage fr true y P t = some m) : (msgCov m.poseCov).PosSemidef ∧ (msgCov m.twistCov).PosSemidef := by
  unfold odomMessage at hm
  rw [if_pos rfl] at hm
  injection hm with hm
  subst hm
  constructor
  · have e : (msgCov fun k : Fin 36 => P ⟨k.val / 6, by omega⟩ ⟨k.val % 6, by omega⟩) =
        P.submatrix (fun i : Fin 6 => (⟨i.val, by omega⟩ : Fin 15)) fun i : Fin 6 => (⟨i.val, by omega⟩ : Fin 15) := by
      rw [← copyCov6_eq]
      ext i j
      fin_cases i <;> fin_cases j <;> rfl
    dsimp only
    rw [e]
    exact h.submatrix _
  · have e : (msgCov fun k : Fin 36 => P ⟨k.val / 6 + 6, by omega⟩ ⟨k.val % 6 + 6, by omega⟩) =
        P.submatrix (fun i : Fin 6 => (⟨i.val + 6, by omega⟩ : Fin 15)) fun i : Fin 6 => (⟨i.val + 6, by omega⟩ : Fin 15) := by
      rw [← copyCov6_eq]
      ext i j
      fin_cases i <;> fin_cases j <;> rfl
    dsimp only
    rw [e]
    exact h.submatrix _

theorem accelMessage_cov {fr : Frames} {y : State} {P : Mat15} (h : P.PosSemidef) {t : Int} {d : Differ} (hd : d.cov.PosSemidef)
    {m : AccelMsg} (hm : accelMessage fr true y P t d = some m) : (msgCov m.cov).PosSemidef := by
  unfold accelMessage at hm
  rw [if_pos rfl] at hm
  injection hm with hm
  subst hm
  dsimp only
  set S : M3 := P.submatrix (fun i : Fin 3 => (⟨i.val + 12, by omega⟩ : Fin 15)) fun i : Fin 3 => (⟨i.val + 12, by omega⟩ : Fin 15) with hS
  have e : (msgCov fun k : Fin 36 =>
      if h : k.val / 6 < 3 ∧ k.val % 6 < 3 then P ⟨k.val / 6 + 12, by omega⟩ ⟨k.val % 6 + 12, by omega⟩
      else if h : 3 ≤ k.val / 6 ∧ 3 ≤ k.val % 6 then d.cov ⟨k.val / 6 - 3, by omega⟩ ⟨k.val % 6 - 3, by omega⟩ else 0) =
      (Matrix.of fun (i : Fin 6) (k : Fin 3) => if i.val = k.val then (1 : ℝ) else 0) * S *
        (Matrix.of fun (i : Fin 6) (k : Fin 3) => if i.val = k.val then (1 : ℝ) else 0)ᵀ +
      (Matrix.of fun (i : Fin 6) (k : Fin 3) => if i.val = k.val + 3 then (1 : ℝ) else 0) * d.cov *
        (Matrix.of fun (i : Fin 6) (k : Fin 3) => if i.val = k.val + 3 then (1 : ℝ) else 0)ᵀ := by
    rw [← copyCov6_eq]
    ext i j
    fin_cases i <;> fin_cases j <;> simp [copyCov6, Matrix.mul_apply, Fin.sum_univ_three, hS]
  rw [e]
  exact (psd_conj (h.submatrix _) _).add (psd_conj hd _)

theorem differ_cov (d : Differ) (now : Int) (y : State) {P : Mat15} (h : P.PosSemidef) : (d.step true now y P).cov.PosSemidef := by
  have e : (d.step true now y P).cov = (2 / ((toSec now - d.lastTime) * (toSec now - d.lastTime))) •
      P.submatrix (fun i : Fin 3 => (⟨i.val + 9, by omega⟩ : Fin 15)) fun i : Fin 3 => (⟨i.val + 9, by omega⟩ : Fin 15) := by
    ext i j
    simp only [Differ.step, if_true, Matrix.of_apply, Matrix.smul_apply, Matrix.submatrix_apply, smul_eq_mul]
    ring
  rw [e]
  exact (h.submatrix _).smul (div_nonneg (by norm_num) (mul_self_nonneg _))

theorem made_cov {p : FilterPar} {g : SysCfg (ekfCore p)} {m : Sent}
    (h : Sys.Made (ekfView p) g CovOk (fun d => d.cov.PosSemidef) m) : SentCov m := by
  cases h with
  | odom t x cov hI =>
    cases x with
    | none => trivial
    | some y =>
      have hP : Matrix.PosSemidef (n := Fin 15) (R := ℝ) cov := hI (by simp)
      show SentCov (.odom t (odomMessage g.frames true y cov t))
      cases ho : odomMessage g.frames true y cov t with
      | none => trivial
      | some m => exact odomMessage_cov hP ho
  | tf t x cov buf hI => cases x <;> (unfold SentCov; trivial)
  | accel t x cov d hI hd =>
    cases x with
    | none => trivial
    | some y =>
      have hP : Matrix.PosSemidef (n := Fin 15) (R := ℝ) cov := hI (by simp)
      show SentCov (.accel t (accelMessage g.frames true y cov t d))
      cases ho : accelMessage g.frames true y cov t d with
      | none => trivial
      | some m => exact accelMessage_cov hP hd ho

/-! ## The property -/

/-- C118 for nodes that are not in 2D mode: from the parameters and the covariances in the messages to the covariances in the
messages that are sent, through rotations, differential measurements, late measurements, poses set by hand, resets. -/
theorem C118_spatial_partial {o : Given} {c : NodeConf} (h : loadNode o = some c) (hd : ¬ o.On "two_d_mode")
    (hQ : c.noise.PosSemidef) (hdyn : o.On "dynamic_process_noise_covariance" → NoCross c.noise)
    (h0 : Uncorrelated c.cov) (Q : MQueue (ekfCore c.par)) (ctl0 : Fin 6 → ℝ) (now : Int)
    (hn : 0 ≤ now) (d : Differ) (hdc : d.cov.PosSemidef) (es : List Sys.Ev) (ht : Ticks now es)
    (ha : (Sys.start c.sys Q () ctl0 now d).Holds (ekfView c.par) c.sys (CovMessage c) es) :
    ∀ m ∈ ((Sys.start c.sys Q () ctl0 now d).run (ekfView c.par) c.sys es).2, SentCov m := by
  have hin := loadNode_made h
  have hd' : c.sw.twoD = false := by
    cases h2 : c.sw.twoD with
    | false => rfl
    | true => exact absurd ((C102_settings_partial h).sw.twoD.1 h2) hd
  have hE := ekfCov_inv c.cfg hQ (fun h' => hdyn ((C102_settings_partial h).sw.dynamic.1 h')) h0 (C102_kept h)
  intro m hm
  refine made_cov (Sys.run_inv (g := c.sys) (V := ekfView c.par) hE (M := PrevCov) (D := fun d => d.cov.PosSemidef)
    (fun s e _ hM hA => events_cov hin hd' hM e hA) ?_ es now (Sys.start c.sys Q () ctl0 now d) hn (NInv.start (fctl0 := ctl0) hE Q () trivial now)
    (HInv.start c.cfg Q () ctl0 now) (fun _ _ h => by cases h) hdc ht ha m hm)
  intro d now x cov y hI hx _
  have hP : Matrix.PosSemidef (n := Fin 15) (R := ℝ) cov := hI (by rw [show (x : Option State) = some y from hx]; simp)
  exact differ_cov d now y hP

end RL
