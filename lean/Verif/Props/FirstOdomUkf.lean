import Verif.Props.FirstDemo
import Verif.Props.FirstOdom
import Verif.Props.UkfMemory
import Verif.Proofs.Llt
import Verif.Props.Definite
import Verif.Props.PrepareCov
/-! # C18 at the node: the velocities of the first odometry message are lost -/

namespace RL
open Matrix Real Body
open Nav (Given)

/-- A correction before any prediction leaves the estimate as it is, whatever is measured. -/
theorem correct_unpredicted (llt : Llt) {k : UkfConst} (hw : ∑ s, k.w s = 1) {z : Payload} (hz : (subR z.indices.get z.R).det ≠ 0)
    (x : State) (P : Mat15) : ∃ x' mem, Ukf.correct llt k z x P UkfMem.init = some (x', P, mem) ∧ (x' = x ∨ x' = wrapStateAngles x) := by
  obtain ⟨a1, a2, a3⟩ := correct_degenerate z.indices.get hw x
  unfold Ukf.correct
  dsimp only
  have hr : UkfMem.init.refresh llt k x P = fun _ => 0 := rfl
  rw [hr]
  unfold ukfCorrectAt
  dsimp only
  rw [a1, a2, a3, zero_add, if_neg hz]
  split
  · exact ⟨wrapStateAngles x, { pts := fun _ => 0, uncorrected := false }, by simp, .inr rfl⟩
  · exact ⟨_, _, rfl, .inl rfl⟩

/-- Two measurements with one stamp at the start of a node with the unscented filter. -/
theorem ukf_first_two {p : FilterPar} (llt : Llt) {k : UkfConst} (hw : ∑ s, k.w s = 1) {q r : Payload} {x0 : State} {P0 : Mat15}
    (hfin : ∀ j, q.upd j = true → (q.z j).isFin = true) (hr : (subR r.indices.get r.R).det ≠ 0) :
    ∃ x' : State, ((ukfCore p llt k).correct r ((ukfCore p llt k).initX q (some x0), (ukfCore p llt k).initCov q P0, UkfMem.init)).1 = some x' ∧
      ∀ j : Fin 15, 6 ≤ j.val → q.upd j = false → x' j = x0 j := by
  obtain ⟨x', mem, e, hx'⟩ := correct_unpredicted llt hw hr (fun j => if q.upd j then (q.z j).val else x0 j) (initCov q P0)
  have hx : initState q x0 = some (fun j => if q.upd j then (q.z j).val else x0 j) := by
    unfold initState
    rw [if_pos hfin]
  refine ⟨x', ?_, fun j hj hq => ?_⟩
  · show ((ukfCore p llt k).correct r (initState q x0, initCov q P0, UkfMem.init)).1 = _
    rw [hx, ukfCore_correct_some e]
  · rcases hx' with h | h
    · rw [h]
      simp [hq]
    · rw [h]
      unfold wrapStateAngles
      rw [if_neg (by
        rintro (h | h | h) <;> · rw [h] at hj; simp [iRoll, iPitch, iYaw] at hj)]
      simp [hq]

/-- C18, refuted for a whole node: whatever velocities the first odometry message reports, and however sure it is of them, a
node with the unscented filter sends the velocities of its initial state. -/
theorem C18_first_odometry {o : Given} {c : NodeConf} (h : loadNode o = some c) (llt : Llt) {k : UkfConst} (hk : loadUkf o = some k)
    (hd : ¬ o.On "two_d_mode") (hp : ¬ o.On "predict_to_current_time") (hdis : ¬ o.On "disabled_at_startup")
    (hsm : ¬ o.On "smooth_lagged_data") (hctl : ¬ o.On "use_control") (hw : c.frames.world ≠ "") (ctl0 : Fin 6 → ℝ) (t0 : Int)
    (d : Differ) {i : ℕ} {set : SensorSet} (hs : c.inputs.odoms[i]? = some set) (hl : set.par.config.length = 15)
    (hpose : ∃ j < 6, Selects set.par.config j) (htwist : ∃ j < 12, 6 ≤ j ∧ Selects set.par.config j)
    (hacc : ∀ j, Selects set.par.config j → j < 12) (hdiff : set.par.differential = false) (hrel : set.par.relative = false)
    (buf : TfBuffer) (hb : SaneBuf buf) (junk : State) (msg : OdomMsg) (hf : msg.frame = c.frames.world)
    (hch : msg.child = c.frames.base) (hlin : ∀ k, (msg.lin k).isFin = true) (hang : ∀ k, (msg.ang k).isFin = true)
    (hcov : (msgCov msg.twistCov).PosDef) (h0 : 0 < msg.stamp) (now now2 : Int) (hn : msg.stamp ≤ now) (buf2 : TfBuffer) :
    ∃ m, Sent.odom msg.stamp (some m) ∈ ((Sys.start (c.ukfSys llt k) (PQueue.sortedList _ _) UkfMem.init ctl0 t0 d).run
        (ukfView c.par llt k) (c.ukfSys llt k) [.odom i buf junk msg, .tick now now2 buf2]).2 ∧
      ∀ k : Fin 3, m.lin k = .fin (c.initial (axis 6 (by omega) k)) ∧ m.ang k = .fin (c.initial (axis 9 (by omega) k)) := by
  have doc := C102_settings_partial h
  have hwt : ∑ s, k.w s = 1 := by
    obtain ⟨a, -, h'⟩ := Option.bind_eq_some_iff.1 hk
    exact C16_weights_sum_to_one h'
  have h2 : c.sw.twoD = false := by
    rw [Bool.eq_false_iff, Ne, doc.sw.twoD]
    exact hd
  have hp' : c.sw.predictToCurrent = false := by
    rw [Bool.eq_false_iff, Ne, doc.sw.predictToCurrent]
    exact hp
  have hdis' : c.sw.disabled = false := by
    rw [Bool.eq_false_iff, Ne, doc.sw.disabled]
    exact hdis
  have hsm' : c.sw.smooth = false := by
    rw [Bool.eq_false_iff, Ne, doc.sw.smooth]
    exact hsm
  have hctl' : c.control.useControl = false := by
    rw [Bool.eq_false_iff]
    intro h'
    exact hctl (doc.control h')
  obtain ⟨a, b, hcd, hab⟩ : ∃ a b, c.inputs.odomCds[i]? = some (a, b) ∧ odomData set.par = some (a, b) := by
    obtain ⟨s', ⟨a, b⟩, h1, h2, -⟩ := doc.inputs.odoms.1 i (List.getElem?_eq_some_iff.1 hs).1
    obtain ⟨s'', h3, h4⟩ := (loadNode_made h).odom i (a, b) h2
    rw [hs] at h3
    injection h3 with h3
    exact ⟨a, b, h2, h3 ▸ h4⟩
  obtain ⟨ha, hbu, ht, -, hdi, hre, -, hsa, hsb⟩ := odomData_full hab hl
  rw [hdiff] at hdi
  rw [show set.par.rel = false by unfold SensorPar.rel; rw [hrel]; rfl] at hre
  set g := c.ukfSys llt k with hg
  set s := Sys.start g (PQueue.sortedList _ _) UkfMem.init ctl0 t0 d with hs0
  set x := s.ctx (ukfView c.par llt k) g buf junk with hx
  obtain ⟨q, e, e1, e2, -, -⟩ := preparePose_world x hb h2 s.hub.mem ((s.hub.node.lastMsg a.topic).getD msg.stamp) msg.asPose a.topic
    c.frames.base a.blank hw hf (by simp [sourceTf, hx, Sys.ctx, hg, NodeConf.ukfSys])
  obtain ⟨r, e', -, -, g3, g4, -⟩ := prepareTwist_base x hb h2 msg.asTwist b.blank hch hlin hang
  have hev : s.events (ukfView c.par llt k) g (.odom i buf junk msg) =
      [.sensor a.topic msg.stamp (some q), .sensor b.topic msg.stamp (some r)] := by
    simp only [Sys.events]
    rw [show g.inputs.odomCds[i]? = some (a, b) from hcd]
    have pa : a.sum > 0 := by
      obtain ⟨j, hj, hsel⟩ := hpose
      exact hsa.2 ⟨⟨j, by omega⟩, (ha _).2 ⟨by simp; omega, hsel⟩⟩
    have pb : b.sum > 0 := by
      obtain ⟨j, hj, hj', hsel⟩ := htwist
      exact hsb.2 ⟨⟨j, by omega⟩, (hbu _).2 ⟨hj', hsel⟩⟩
    dsimp only
    rw [if_pos (by omega)]
    unfold Hub.odomEvents
    rw [if_pos pa, if_pos pb]
    unfold Hub.posePrep
    rw [hdi, hre, show (if a.useChild = true then msg.child else (s.ctx (ukfView c.par llt k) g buf junk).base) = c.frames.base by
      rw [hch]; exact ite_self _]
    have e2' : (preparePose x s.hub.mem ((s.hub.node.lastMsg a.topic).getD msg.asPose.stamp) msg.asPose a.topic x.world
      c.frames.base false false false a.blank).2 = some q := e
    have g' : prepareTwist x msg.asTwist x.base b.blank = some r := e'
    rw [e2', g']
    rfl
  have hfin : ∀ j, q.upd j = true → (q.z j).isFin = true := by
    intro j hj
    rw [e2] at hj
    have hj' := (ha j).1 hj
    have := hacc _ hj'.2
    have hlt : j.val < 6 := by omega
    by_cases h3 : j.val < 3
    · have := e1.pos ⟨j.val, h3⟩
      rw [show axis 0 (by omega) ⟨j.val, h3⟩ = j from Fin.ext (by simp [axis])] at this
      rw [this]
      rfl
    · have := e1.ori ⟨j.val - 3, by omega⟩
      rw [show axis 3 (by omega) ⟨j.val - 3, by omega⟩ = j from Fin.ext (by simp [axis]; omega)] at this
      rw [this]
      rfl
  have hdef : r.Definite := by
    unfold Payload.Definite
    have hr : ∀ j : {j // r.upd j = true}, 6 ≤ j.1.val ∧ j.1.val < 12 := by
      rintro ⟨j, hj⟩
      rw [g3] at hj
      have := (hbu _).1 hj
      exact ⟨this.1, hacc _ this.2⟩
    have : r.R.submatrix (fun j : {j // r.upd j = true} => j.1) (fun j : {j // r.upd j = true} => j.1) =
        (msgCov msg.twistCov).submatrix (fun j : {j // r.upd j = true} => ⟨j.1.val - 6, by have := hr j; omega⟩)
          (fun j : {j // r.upd j = true} => ⟨j.1.val - 6, by have := hr j; omega⟩) := by
      ext u v
      have hu := hr u
      have hv := hr v
      have := g4 ⟨u.1.val - 6, by omega⟩ ⟨v.1.val - 6, by omega⟩
      rw [submatrix_apply, submatrix_apply, msgCov, of_apply]
      rw [show (msg.asTwist).cov = msg.twistCov from rfl] at this
      rw [← this]
      congr 1 <;> · apply Fin.ext; simp; omega
    rw [this]
    refine posDef_submatrix_inj hcov _ fun u v huv => ?_
    have hu := hr u
    have hv := hr v
    simp only [Fin.mk.injEq] at huv
    exact Subtype.ext (Fin.ext (by omega))
  obtain ⟨x', hx', hkeep⟩ := ukf_first_two (p := c.par) llt hwt (q := q) (r := r) (x0 := c.initial) (P0 := c.cov) hfin
    (hdef.used.isUnit.map Matrix.detMonoidHom).ne_zero
  have hout := Node.first_two g.cfg hsm' hp' hctl' hdis' UkfMem.init ctl0 t0 a.topic b.topic
    (by rw [ht.1, ht.2]; simp) msg.stamp q r now now2 (Sys.tfDue c.frames buf2) h0 hn
  have hsent := Sys.two_sent (ukfView c.par llt k) g s (.odom i buf junk msg) now now2 buf2 _ _ _ _ _ _ hev _ _ _ hout
  have hst : (ukfView c.par llt k).state ((ukfCore c.par llt k).correct r ((ukfCore c.par llt k).initX q g.cfg.initialState,
      (ukfCore c.par llt k).initCov q g.cfg.initialCov, UkfMem.init)).1 = some x' := hx'
  rw [hst, Option.bind_some] at hsent
  have hno : ∀ j : Fin 15, 6 ≤ j.val → j.val < 12 → x' j = c.initial j := fun j h6 h12 => by
    refine hkeep j h6 ?_
    rw [e2, Bool.eq_false_iff]
    intro h'
    exact ((ha j).1 h').1 ⟨h6, h12⟩
  refine ⟨_, hsent, fun k => ?_⟩
  fin_cases k
  · exact ⟨congrArg Dbl.fin (hno 6 (by simp) (by simp)), congrArg Dbl.fin (hno 9 (by simp) (by simp))⟩
  · exact ⟨congrArg Dbl.fin (hno 7 (by simp) (by simp)), congrArg Dbl.fin (hno 10 (by simp) (by simp))⟩
  · exact ⟨congrArg Dbl.fin (hno 8 (by simp) (by simp)), congrArg Dbl.fin (hno 11 (by simp) (by simp))⟩

/-- Without parameters of its own the unscented filter has its constants. -/
theorem loadUkf_default {o : Given} (h1 : o "alpha" = none) (h2 : o "kappa" = none) (h3 : o "beta" = none) : ∃ k, loadUkf o = some k := by
  have : readUkf o = some (0.001, 0, 2) := by
    simp [readUkf, Nav.Given.double, h1, h2, h3]
  unfold loadUkf
  rw [this, Option.bind_some]
  unfold setConstants
  dsimp only
  rw [if_neg (by norm_num)]
  exact ⟨_, rfl⟩

/-- The hypotheses of `C18_first_odometry` can be met: a robot that reports one metre per second is said to stand. -/
example : ∃ c k, loadNode slowParams = some c ∧ loadUkf slowParams = some k ∧ ∃ m, Sent.odom slowMsg.stamp (some m) ∈
    ((Sys.start (c.ukfSys eigenLlt k) (PQueue.sortedList _ _) UkfMem.init (0 : Fin 6 → ℝ) 0 ⟨0, 0, 0, 0⟩).run (ukfView c.par eigenLlt k)
      (c.ukfSys eigenLlt k) [.odom 0 noTf 0 slowMsg, .tick 2000000000 2000000000 noTf]).2 ∧
    slowMsg.lin 0 = .fin 1 ∧ m.lin 0 = .fin 0 := by
  obtain ⟨c, h⟩ := slow_starts
  obtain ⟨k, hk⟩ := loadUkf_default (o := slowParams) (by simp [slowParams]) (by simp [slowParams]) (by simp [slowParams])
  have doc := C102_settings_partial h
  have off : ∀ n, slowParams n = none → ¬ slowParams.On n := by
    intro n hn
    simp [Nav.Given.On, hn]
  have ho : c.frames.odom = "odom" := by
    rcases doc.frames.odom with h | ⟨-, h⟩
    · simp [slowParams] at h
    · exact h
  have hw : c.frames.world = "odom" := by
    rcases doc.frames.world with h | ⟨-, h⟩
    · simp [slowParams] at h
    · rw [h, ho]
  have hbase : c.frames.base = "base_link" := by
    rcases doc.frames.base with h | ⟨-, h⟩
    · simp [slowParams] at h
    · exact h
  have hx0 : c.initial = 0 := doc.noInitial (by simp [slowParams])
  obtain ⟨m, h1, h2⟩ := C18_first_odometry h eigenLlt hk (off _ (by simp [slowParams])) (off _ (by simp [slowParams]))
    (off _ (by simp [slowParams])) (off _ (by simp [slowParams])) (off _ (by simp [slowParams])) (by rw [hw]; decide)
    0 0 ⟨0, 0, 0, 0⟩ (slow_input h).1 rfl ⟨0, by norm_num, by simp [Selects, slowSet]⟩ ⟨6, by norm_num, le_rfl, by simp [Selects, slowSet]⟩
    (fun j hj => by
      have hlt : j < 15 := by
        by_contra hge
        have : slowSet.par.config[j]? = none := List.getElem?_eq_none (by simp [slowSet]; omega)
        simp [Selects, this] at hj
      interval_cases j <;> simp [Selects, slowSet] at hj ⊢) rfl rfl noTf noTf_sane 0 slowMsg hw.symm hbase.symm
    (fun i => by fin_cases i <;> rfl) (fun i => rfl)
    (by
      have : msgCov slowMsg.twistCov = 1 := by
        show msgCov (copyOut6 1) = 1
        rw [← copyCov6_eq, copyCov6_copyOut6]
      rw [this]
      exact PosDef.one)
    (by norm_num [slowMsg]) 2000000000 2000000000 (by norm_num [slowMsg]) noTf
  refine ⟨c, k, h, hk, m, h1, rfl, ?_⟩
  rw [(h2 0).1, hx0]
  rfl

/-- The hypotheses of `C119_first_pose_ukf` can be met. -/
example (k : UkfConst) : ∃ c, loadNode towedParams = some c ∧ ∃ m, Sent.odom 1000000000 (some m) ∈
    ((Sys.start (c.ukfSys eigenLlt k) (PQueue.sortedList _ _) UkfMem.init (0 : Fin 6 → ℝ) 0 ⟨0, 0, 0, 0⟩).run (ukfView c.par eigenLlt k)
      (c.ukfSys eigenLlt k) [.pose 0 noTf 0 quayPose, .tick 2000000000 2000000000 noTf]).2 ∧ SamePose quayPose m := by
  obtain ⟨c, h⟩ := towed_starts
  obtain ⟨hw, -⟩ := towed_frames h
  refine ⟨c, h, ?_⟩
  obtain ⟨m, h1, h2, -⟩ := C119_first_pose_ukf eigenLlt k h (towed_off _ (by simp [towedParams])) (towed_off _ (by simp [towedParams]))
    (towed_off _ (by simp [towedParams])) (by rw [hw]; decide) (PQueue.sortedList _ _) UkfMem.init 0 0 ⟨0, 0, 0, 0⟩ (towed_inputs h).1 rfl
    (fun j hj => by interval_cases j <;> simp [Selects, beacon]) rfl rfl noTf noTf_sane 0 quayPose hw.symm quay_unit quay_level
    (by norm_num [quayPose]) 2000000000 2000000000 (by norm_num [quayPose]) noTf
  exact ⟨m, h1, h2⟩

/-- The hypotheses of `C119_first_twist_ukf` can be met. -/
example (k : UkfConst) : ∃ c, loadNode towedParams = some c ∧ ∃ m, Sent.odom 1000000000 (some m) ∈
    ((Sys.start (c.ukfSys eigenLlt k) (PQueue.sortedList _ _) UkfMem.init (0 : Fin 6 → ℝ) 0 ⟨0, 0, 0, 0⟩).run (ukfView c.par eigenLlt k)
      (c.ukfSys eigenLlt k) [.twist 0 noTf 0 towMsg, .tick 2000000000 2000000000 noTf]).2 ∧ SameTwist towMsg m := by
  obtain ⟨c, h⟩ := towed_starts
  obtain ⟨-, hb⟩ := towed_frames h
  refine ⟨c, h, ?_⟩
  obtain ⟨m, h1, h2, -⟩ := C119_first_twist_ukf eigenLlt k h (towed_off _ (by simp [towedParams])) (towed_off _ (by simp [towedParams]))
    (towed_off _ (by simp [towedParams])) (PQueue.sortedList _ _) UkfMem.init 0 0 ⟨0, 0, 0, 0⟩ (towed_inputs h).2 rfl
    (fun j hj => by interval_cases j <;> simp [Selects, keel]) noTf noTf_sane 0 towMsg hb.symm
    (fun k => by fin_cases k <;> rfl) (fun k => by fin_cases k <;> rfl)
    (by norm_num [towMsg]) 2000000000 2000000000 (by norm_num [towMsg]) noTf
  exact ⟨m, h1, h2⟩

/-- A node with the unscented filter that has been initialised by its first measurement. -/
noncomputable def mooredUkf (c : NodeConf) (k : UkfConst) : Sys (ukfCore c.par eigenLlt k) (PQueue.sortedList _ _) :=
  let s := Sys.start (c.ukfSys eigenLlt k) (PQueue.sortedList _ _) UkfMem.init (0 : Fin 6 → ℝ) 0 ⟨0, 0, 0, 0⟩
  { s with hub := { s.hub with node := { s.hub.node with
      enabled := true, filt := { s.hub.node.filt with initialized := true, sensorTimeout := 1000000000 } } } }

/-- The hypotheses of `C119_set_pose_ukf` can be met. -/
example (k : UkfConst) : ∃ c, loadNode towedParams = some c ∧ ∃ m, Sent.odom 1000000000 (some m) ∈
    ((mooredUkf c k).run (ukfView c.par eigenLlt k) (c.ukfSys eigenLlt k)
      [.setPose 1000000000 noTf 0 quayPose, .tick 1000000001 1000000001 noTf]).2 ∧ SamePose quayPose m := by
  obtain ⟨c, h⟩ := towed_starts
  obtain ⟨hw, -⟩ := towed_frames h
  refine ⟨c, h, ?_⟩
  obtain ⟨m, h1, h2, -⟩ := C119_set_pose_ukf eigenLlt k h (towed_off _ (by simp [towedParams])) (towed_off _ (by simp [towedParams]))
    (by rw [hw]; decide) (mooredUkf c k) rfl rfl rfl noTf noTf_sane 0 quayPose hw.symm quay_unit quay_level 1000000000 1000000001 1000000001
    (by show (0 : Int) < _; norm_num) (by show (1000000001 : Int) - 1000000000 < 1000000000; norm_num) noTf
  exact ⟨m, h1, h2⟩

end RL
