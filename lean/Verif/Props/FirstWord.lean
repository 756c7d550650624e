import Verif.Proofs.SystemFirst
import Verif.Props.SystemDemo
import Verif.Props.Publication
/-! # C119: a pose that nothing else speaks about comes out as it went in -/

namespace RL
open Matrix Real Body
open Nav (Given)

/-- The rotation is not one that turns the robot straight up or down. -/
def NotVertical (q : Quat) : Prop := |q.mat 2 0| < 1

/-- An odometry message has the pose of a pose message, and its covariance. -/
structure SamePose (msg : PoseMsg) (m : OdomMsg) : Prop where
  pos : m.pos = msg.pos
  ori : m.ori.mat = msg.ori.mat
  cov : m.poseCov = msg.cov

/-- An odometry message has the velocities of a twist message, and their covariance. -/
structure SameTwist (msg : TwistMsg) (m : OdomMsg) : Prop where
  lin : m.lin = msg.lin
  ang : m.ang = msg.ang
  cov : m.twistCov = msg.cov

theorem cov36 {m : Mat15} {off : ℕ} (h : off + 6 ≤ 15) {cov : Fin 36 → ℝ}
    (hm : ∀ i j : Fin 6, m ⟨off + i.val, by omega⟩ ⟨off + j.val, by omega⟩ = cov (finProdFinEquiv (i, j))) (k : Fin 36) :
    m ⟨k.val / 6 + off, by omega⟩ ⟨k.val % 6 + off, by omega⟩ = cov k := by
  have := hm ⟨k.val / 6, by omega⟩ ⟨k.val % 6, by omega⟩
  have e : finProdFinEquiv ((⟨k.val / 6, by omega⟩ : Fin 6), (⟨k.val % 6, by omega⟩ : Fin 6)) = k := by
    apply Fin.ext
    simp [finProdFinEquiv]
    omega
  rw [e] at this
  rw [← this]
  congr 1 <;> · apply Fin.ext; simp; omega

/-- The message made from a state that has the pose. -/
theorem samePose_of {msg : PoseMsg} (hu : msg.ori.len2 = 1) (hv : NotVertical msg.ori) {q : Payload} (hq : MeasuresPose q (msgPose msg))
    (hc : CovAt6 q 0 (by omega) msg.cov) {fr : Frames} {x : State} {P : Mat15} {t : Int} (hx : ∀ i : Fin 15, i.val < 6 → x i = (q.z i).val)
    (hP : ∀ i j : Fin 15, i.val < 6 → j.val < 6 → P i j = q.R i j) :
    ∃ m, odomMessage fr true x P t = some m ∧ SamePose msg m := by
  rw [msgPose_unit hu] at hq
  refine ⟨_, rfl, ?_, ?_, ?_⟩
  · funext i
    have e := hq.pos i
    have := hx (axis 0 (by omega) i) (by simp only [axis]; omega)
    rw [e] at this
    fin_cases i <;> exact this
  · have e : ∀ i : Fin 3, x (axis 3 (by omega) i) = getRPY msg.ori.mat i := by
      intro i
      have := hx (axis 3 (by omega) i) (by simp only [axis]; omega)
      rw [hq.ori i] at this
      exact this
    show (Quat.ofRPY (x 3) (x 4) (x 5)).mat = _
    rw [mat_ofRPY]
    have e0 : x 3 = _ := e 0
    have e1 : x 4 = _ := e 1
    have e2 : x 5 = _ := e 2
    rw [e0, e1, e2]
    exact C43_same_rotation_partial (isRot_quat _ (by rw [hu]; norm_num)) hv
  · funext k
    have e := cov36 (m := q.R) (off := 0) (by omega) hc k
    rw [← e]
    exact hP _ _ (by simp; omega) (by simp; omega)

theorem preparePose_above (c : PrepCtx) (hd : c.twoD = false) (mem : PoseMem) (last : Int) (msg : PoseMsg)
    (topic target source : String) (p q : Payload) (h : (preparePose c mem last msg topic target source false false false p).2 = some q)
    (i : Fin 15) (hi : 6 ≤ i.val) : q.z i = p.z i := by
  unfold preparePose at h
  dsimp only at h
  split at h
  · cases h
  · simp only [poseWith, finish, hd, Bool.false_eq_true, if_false, Option.some.injEq] at h
    subst h
    simp only [put]
    rw [dif_neg (by omega), dif_neg (by omega)]

/-- A node with the given settings: what does not depend on the kind of filter it runs. -/
structure NodeConf.RunBy (c : NodeConf) {C : Core} (V : View C) (g : SysCfg C) : Prop where
  frames : g.frames = c.frames
  inputs : g.inputs = c.inputs
  twoD : g.twoD = c.sw.twoD
  predict : g.cfg.predictToCurrent = c.sw.predictToCurrent
  disabled : g.cfg.disabledAtStartup = c.sw.disabled
  state : ∀ q, V.state (C.initX (V.meas q) g.cfg.initialState) = initState q c.initial
  cov : ∀ q, V.cov (C.initCov (V.meas q) g.cfg.initialCov) = initCov q c.cov
  pose : ∀ x P, V.state (V.pose x P).1 = some x ∧ V.cov (V.pose x P).2 = P

theorem runBy_ekf (c : NodeConf) : c.RunBy (ekfView c.par) c.sys :=
  ⟨rfl, rfl, rfl, rfl, rfl, fun _ => rfl, fun _ => rfl, fun _ _ => ⟨rfl, rfl⟩⟩

theorem runBy_ukf (c : NodeConf) (llt : Llt) (k : UkfConst) : c.RunBy (ukfView c.par llt k) (c.ukfSys llt k) :=
  ⟨rfl, rfl, rfl, rfl, rfl, fun _ => rfl, fun _ => rfl, fun _ _ => ⟨rfl, rfl⟩⟩

section
variable {o : Given} {c : NodeConf}

theorem first_pose {C : Core} {V : View C} {g : SysCfg C} (hg : c.RunBy V g) (h : loadNode o = some c) (hd : ¬ o.On "two_d_mode") (hp : ¬ o.On "predict_to_current_time")
    (hdis : ¬ o.On "disabled_at_startup") (hw : c.frames.world ≠ "") (Q : MQueue C) (ext0 : C.Ext) (ctl0 : C.Ctl) (t0 : Int)
    (d : Differ) {i : ℕ} {set : SensorSet} (hs : c.inputs.poses[i]? = some set) (hl : set.par.config.length = 15)
    (hsel : ∀ j < 6, Selects set.par.config j) (hdiff : set.par.differential = false) (hrel : set.par.relative = false)
    (buf : TfBuffer) (hb : SaneBuf buf) (junk : State) (msg : PoseMsg) (hf : msg.frame = c.frames.world) (hu : msg.ori.len2 = 1)
    (hv : NotVertical msg.ori) (h0 : 0 < msg.stamp) (now now2 : Int) (hn : msg.stamp ≤ now) (buf2 : TfBuffer) :
    ∃ m, Sent.odom msg.stamp (some m) ∈ ((Sys.start g Q ext0 ctl0 t0 d).run V g
        [.pose i buf junk msg, .tick now now2 buf2]).2 ∧
      SamePose msg m ∧ m.frame = c.frames.world ∧ m.child = c.frames.baseOut ∧ m.stamp = msg.stamp ∧
      (∀ k : Fin 3, m.lin k = .fin (c.initial (axis 6 (by omega) k)) ∧ m.ang k = .fin (c.initial (axis 9 (by omega) k))) := by
  have doc := C102_settings_partial h
  rw [← hg.frames] at hf ⊢
  rw [← hg.frames] at hw
  have h2 : g.twoD = false := by
    rw [hg.twoD, Bool.eq_false_iff, Ne, doc.sw.twoD]
    exact hd
  have hp' : g.cfg.predictToCurrent = false := by
    rw [hg.predict, Bool.eq_false_iff, Ne, doc.sw.predictToCurrent]
    exact hp
  have hdis' : g.cfg.disabledAtStartup = false := by
    rw [hg.disabled, Bool.eq_false_iff, Ne, doc.sw.disabled]
    exact hdis
  obtain ⟨a, hcd, ha⟩ : ∃ a, c.inputs.poseCds[i]? = some a ∧ poseData set.par = some a := by
    obtain ⟨s', a, h1, h2, -⟩ := doc.inputs.poses.1 i (List.getElem?_eq_some_iff.1 hs).1
    obtain ⟨s'', h3, h4⟩ := (loadNode_made h).pose i a h2
    rw [hs] at h3
    injection h3 with h3
    exact ⟨a, h2, h3 ▸ h4⟩
  obtain ⟨h1, ht, -, h4, h5, hsum⟩ := poseData_full ha hl
  rw [hdiff] at h4
  rw [show set.par.rel = false by unfold SensorPar.rel; rw [hrel]; rfl] at h5
  set s := Sys.start g Q ext0 ctl0 t0 d with hs0
  obtain ⟨q, e, e1, e2, e3, -⟩ := preparePose_world (s.ctx V g buf junk) hb h2 s.hub.mem
    ((s.hub.node.lastMsg a.topic).getD msg.stamp) msg a.topic g.frames.base a.blank hw hf (by simp [sourceTf, Sys.ctx])
  have hev : s.events V g (.pose i buf junk msg) = [.sensor a.topic msg.stamp (some (V.meas q))] := by
    simp only [Sys.events]
    rw [show g.inputs.poseCds[i]? = some a by rw [hg.inputs]; exact hcd]
    dsimp only
    rw [if_pos (hsum.2 ⟨0, (h1 0).2 ⟨by simp, hsel 0 (by omega)⟩⟩)]
    unfold Hub.posePrep
    rw [h4, h5]
    have e' : (preparePose (s.ctx V g buf junk) s.hub.mem ((s.hub.node.lastMsg a.topic).getD msg.stamp) msg a.topic
      g.frames.world g.frames.base false false false a.blank).2 = some q := e
    rw [e']
    rfl
  have hsent := Sys.first_sent (P := Q) V g ext0 ctl0 t0 d _ a.topic msg.stamp (V.meas q) now now2 buf2 h0 hn hp' hdis' hev
  have hupd : ∀ j : Fin 15, q.upd j = true ↔ j.val < 6 := by
    intro j
    rw [e2]
    exact (h1 j).trans ⟨fun h => h.1, fun h => ⟨h, hsel _ h⟩⟩
  have hfin : ∀ j : Fin 15, j.val < 6 → (q.z j).isFin = true := by
    intro j hj
    by_cases h3 : j.val < 3
    · have := e1.pos ⟨j.val, h3⟩
      rw [show axis 0 (by omega) ⟨j.val, h3⟩ = j from Fin.ext (by simp [axis])] at this
      rw [this]
      rfl
    · have := e1.ori ⟨j.val - 3, by omega⟩
      rw [show axis 3 (by omega) ⟨j.val - 3, by omega⟩ = j from Fin.ext (by simp [axis]; omega)] at this
      rw [this]
      rfl
  have hx : initState q c.initial = some (fun j => if q.upd j then (q.z j).val else c.initial j) := by
    unfold initState
    rw [if_pos fun j hj => hfin j ((hupd j).1 hj)]
  have hx' : V.state (C.initX (V.meas q) g.cfg.initialState) =
      some (fun j => if q.upd j then (q.z j).val else c.initial j) := (hg.state q).trans hx
  rw [hx', Option.bind_some] at hsent
  obtain ⟨m, hm, hsame⟩ := samePose_of (msg := msg) hu hv e1 e3 (fr := g.frames) (t := msg.stamp)
    (x := fun j => if q.upd j then (q.z j).val else c.initial j) (P := initCov q c.cov)
    (fun j hj => by simp [(hupd j).2 hj]) (fun j k hj hk => by simp [initCov, (hupd j).2 hj, (hupd k).2 hk])
  have hm' : odomMessage g.frames true (fun j => if q.upd j then (q.z j).val else c.initial j)
      (V.cov (C.initCov (V.meas q) g.cfg.initialCov)) msg.stamp = some m := by rw [hg.cov]; exact hm
  rw [hm'] at hsent
  refine ⟨m, hsent, hsame, ?_⟩
  injection hm with hm
  subst hm
  have hno : ∀ j : Fin 15, ¬ j.val < 6 → q.upd j = false := fun j hj => by
    rw [Bool.eq_false_iff, Ne, hupd]
    exact hj
  refine ⟨rfl, rfl, rfl, fun k => ?_⟩
  fin_cases k
  · exact ⟨by simp [hno 6 (by simp), axis], by simp [hno 9 (by simp), axis]⟩
  · exact ⟨by simp [hno 7 (by simp), axis], by simp [hno 10 (by simp), axis]⟩
  · exact ⟨by simp [hno 8 (by simp), axis], by simp [hno 11 (by simp), axis]⟩

theorem first_twist {C : Core} {V : View C} {g : SysCfg C} (hg : c.RunBy V g) (h : loadNode o = some c) (hd : ¬ o.On "two_d_mode") (hp : ¬ o.On "predict_to_current_time")
    (hdis : ¬ o.On "disabled_at_startup") (Q : MQueue C) (ext0 : C.Ext) (ctl0 : C.Ctl) (t0 : Int)
    (d : Differ) {i : ℕ} {set : SensorSet} (hs : c.inputs.twists[i]? = some set) (hl : set.par.config.length = 15)
    (hsel : ∀ j < 15, Selects set.par.config j ↔ 6 ≤ j ∧ j < 12)
    (buf : TfBuffer) (hb : SaneBuf buf) (junk : State) (msg : TwistMsg) (hf : msg.frame = c.frames.base)
    (hlin : ∀ k, (msg.lin k).isFin = true) (hang : ∀ k, (msg.ang k).isFin = true)
    (h0 : 0 < msg.stamp) (now now2 : Int) (hn : msg.stamp ≤ now) (buf2 : TfBuffer) :
    ∃ m, Sent.odom msg.stamp (some m) ∈ ((Sys.start g Q ext0 ctl0 t0 d).run V g
        [.twist i buf junk msg, .tick now now2 buf2]).2 ∧
      SameTwist msg m ∧ m.frame = c.frames.world ∧ m.child = c.frames.baseOut ∧ m.stamp = msg.stamp ∧
      (∀ k : Fin 3, m.pos k = c.initial (axis 0 (by omega) k)) ∧ m.ori.mat = rot ![c.initial 3, c.initial 4, c.initial 5] := by
  have doc := C102_settings_partial h
  rw [← hg.frames] at hf ⊢
  have h2 : g.twoD = false := by
    rw [hg.twoD, Bool.eq_false_iff, Ne, doc.sw.twoD]
    exact hd
  have hp' : g.cfg.predictToCurrent = false := by
    rw [hg.predict, Bool.eq_false_iff, Ne, doc.sw.predictToCurrent]
    exact hp
  have hdis' : g.cfg.disabledAtStartup = false := by
    rw [hg.disabled, Bool.eq_false_iff, Ne, doc.sw.disabled]
    exact hdis
  obtain ⟨a, hcd, ha⟩ : ∃ a, c.inputs.twistCds[i]? = some a ∧ twistData set.par = some a := by
    obtain ⟨s', a, h1, h2, -⟩ := doc.inputs.twists.1 i (List.getElem?_eq_some_iff.1 hs).1
    obtain ⟨s'', h3, h4⟩ := (loadNode_made h).twist i a h2
    rw [hs] at h3
    injection h3 with h3
    exact ⟨a, h2, h3 ▸ h4⟩
  obtain ⟨h1, ht, -, hsum⟩ := twistData_full ha hl
  set s := Sys.start g Q ext0 ctl0 t0 d with hs0
  obtain ⟨q, e, e1, e2, e3, e4, -⟩ := prepareTwist_base (s.ctx V g buf junk) hb h2 msg a.blank hf hlin hang
  have hev : s.events V g (.twist i buf junk msg) = [.sensor a.topic msg.stamp (some (V.meas q))] := by
    simp only [Sys.events]
    rw [show g.inputs.twistCds[i]? = some a by rw [hg.inputs]; exact hcd]
    dsimp only
    rw [if_pos (hsum.2 ⟨6, (h1 6).2 ⟨by simp, (hsel 6 (by omega)).2 (by omega)⟩⟩)]
    have e' : prepareTwist (s.ctx V g buf junk) msg g.frames.base a.blank = some q := e
    rw [e']
    rfl
  have hsent := Sys.first_sent (P := Q) V g ext0 ctl0 t0 d _ a.topic msg.stamp (V.meas q) now now2 buf2 h0 hn hp' hdis' hev
  have hupd : ∀ j : Fin 15, q.upd j = true ↔ 6 ≤ j.val ∧ j.val < 12 := by
    intro j
    rw [e3]
    exact (h1 j).trans ⟨fun h => (hsel _ j.isLt).1 h.2, fun h => ⟨h.1, (hsel _ j.isLt).2 h⟩⟩
  have hz : ∀ j : Fin 6, q.z ⟨j.val + 6, by omega⟩ = if h : j.val < 3 then msg.lin ⟨j.val, h⟩ else msg.ang ⟨j.val - 3, by omega⟩ := by
    intro j
    fin_cases j
    · exact e1 0
    · exact e1 1
    · exact e1 2
    · exact e2 0
    · exact e2 1
    · exact e2 2
  have hfin : ∀ j : Fin 15, q.upd j = true → (q.z j).isFin = true := by
    intro j hj
    obtain ⟨h6, h12⟩ := (hupd j).1 hj
    have := hz ⟨j.val - 6, by omega⟩
    rw [show (⟨(⟨j.val - 6, by omega⟩ : Fin 6).val + 6, by simp; omega⟩ : Fin 15) = j from Fin.ext (by simp; omega)] at this
    rw [this]
    split
    · exact hlin _
    · exact hang _
  have hx : initState q c.initial = some (fun j => if q.upd j then (q.z j).val else c.initial j) := by
    unfold initState
    rw [if_pos hfin]
  have hx' : V.state (C.initX (V.meas q) g.cfg.initialState) =
      some (fun j => if q.upd j then (q.z j).val else c.initial j) := (hg.state q).trans hx
  rw [hx', Option.bind_some, hg.cov] at hsent
  have back : ∀ v : Dbl, v.isFin = true → Dbl.fin v.val = v := by
    intro v hv
    cases v with
    | fin x => rfl
    | _ => cases hv
  have hno : ∀ j : Fin 15, j.val < 6 → q.upd j = false := fun j hj => by
    rw [Bool.eq_false_iff, Ne, hupd]
    omega
  have hyes : ∀ j : Fin 15, 6 ≤ j.val ∧ j.val < 12 → q.upd j = true := fun j hj => (hupd j).2 hj
  refine ⟨_, hsent, ⟨?_, ?_, ?_⟩, rfl, rfl, rfl, ?_, ?_⟩
  · funext k
    fin_cases k
    · exact (congrArg Dbl.fin (by simp [hyes 6 (by simp)]; exact congrArg Dbl.val (e1 0))).trans (back _ (hlin 0))
    · exact (congrArg Dbl.fin (by simp [hyes 7 (by simp)]; exact congrArg Dbl.val (e1 1))).trans (back _ (hlin 1))
    · exact (congrArg Dbl.fin (by simp [hyes 8 (by simp)]; exact congrArg Dbl.val (e1 2))).trans (back _ (hlin 2))
  · funext k
    fin_cases k
    · exact (congrArg Dbl.fin (by simp [hyes 9 (by simp)]; exact congrArg Dbl.val (e2 0))).trans (back _ (hang 0))
    · exact (congrArg Dbl.fin (by simp [hyes 10 (by simp)]; exact congrArg Dbl.val (e2 1))).trans (back _ (hang 1))
    · exact (congrArg Dbl.fin (by simp [hyes 11 (by simp)]; exact congrArg Dbl.val (e2 2))).trans (back _ (hang 2))
  · funext k
    have e := cov36 (m := q.R) (off := 6) (by omega) e4 k
    rw [← e]
    show initCov q c.cov _ _ = _
    simp [initCov, hyes ⟨k.val / 6 + 6, by omega⟩ (by simp; omega), hyes ⟨k.val % 6 + 6, by omega⟩ (by simp; omega)]
  · intro k
    fin_cases k
    · simp [hno 0 (by simp), axis]
    · simp [hno 1 (by simp), axis]
    · simp [hno 2 (by simp), axis]
  · dsimp only
    rw [mat_ofRPY, setRPY_eq]
    simp [hno 3 (by simp), hno 4 (by simp), hno 5 (by simp)]

theorem set_pose_sent {C : Core} {V : View C} {g : SysCfg C} (hg : c.RunBy V g) (h : loadNode o = some c) (hd : ¬ o.On "two_d_mode") (hp : ¬ o.On "predict_to_current_time")
    (hw : c.frames.world ≠ "") {Q : MQueue C} (s : Sys C Q) (hi : s.hub.node.filt.initialized = true)
    (hen : s.hub.node.enabled = true) (hon : s.hub.node.toggledOn = true)
    (buf : TfBuffer) (hb : SaneBuf buf) (junk : State) (msg : PoseMsg) (hf : msg.frame = c.frames.world) (hu : msg.ori.len2 = 1)
    (hv : NotVertical msg.ori) (t now now2 : Int) (hlast : s.hub.node.lastPub < t) (hn : now - t < s.hub.node.filt.sensorTimeout)
    (buf2 : TfBuffer) :
    ∃ m, Sent.odom t (some m) ∈ (s.run V g [.setPose t buf junk msg, .tick now now2 buf2]).2 ∧
      SamePose msg m ∧ m.frame = c.frames.world ∧ m.child = c.frames.baseOut ∧ m.stamp = t ∧
      ∀ k : Fin 3, m.lin k = .fin 0 ∧ m.ang k = .fin 0 := by
  have doc := C102_settings_partial h
  rw [← hg.frames] at hf ⊢
  rw [← hg.frames] at hw
  have h2 : g.twoD = false := by
    rw [hg.twoD, Bool.eq_false_iff, Ne, doc.sw.twoD]
    exact hd
  have hp' : g.cfg.predictToCurrent = false := by
    rw [hg.predict, Bool.eq_false_iff, Ne, doc.sw.predictToCurrent]
    exact hp
  obtain ⟨q, e, e1, e2, e3, -⟩ := preparePose_world (s.ctx V g buf junk) hb h2 { init := fun _ => none, prev := fun _ => none }
    msg.stamp msg "set_pose" g.frames.base Sys.blankPose hw hf (by simp [sourceTf, Sys.ctx])
  have hz := preparePose_above _ h2 _ _ _ _ _ _ _ _ e
  set x : State := fun j => (q.z j).val with hx
  have hask : Sys.asked V (s.ctx V g buf junk) msg = some (V.pose x q.R) := by
    unfold Sys.asked
    have e' : (preparePose (s.ctx V g buf junk) { init := fun _ => none, prev := fun _ => none } msg.stamp msg "set_pose"
      (s.ctx V g buf junk).world (s.ctx V g buf junk).base false false false Sys.blankPose).2 = some q := e
    rw [e']
    rfl
  set n := s.hub.node.setPose msg.stamp t (some (V.pose x q.R)) with hn0
  have hnode : (s.step V g (.setPose t buf junk msg)).1.hub.node = n := by
    show s.hub.node.setPose msg.stamp t (Sys.asked V (s.ctx V g buf junk) msg) = n
    rw [hask]
  have hadv : n.advance g.cfg now now2 = n := by
    unfold Node.advance
    rw [if_pos (show n.toggledOn = true from hon)]
    exact (C31_timeout g.cfg n now (Q.elems_empty)).2.2 hi hn hp'
  have hout : Out.odom t (V.pose x q.R).1 (V.pose x q.R).2 ∈ (n.periodic g.cfg now now2 (Sys.tfDue g.frames buf2)).2 := by
    unfold Node.periodic
    rw [show n.enabled = true from hen, hadv]
    simp only [Bool.not_true, Bool.false_eq_true, if_false]
    unfold Node.publish
    rw [if_pos (show n.filt.initialized = true from hi)]
    dsimp only
    rw [decide_eq_false (show ¬ n.lastPub ≥ n.filt.lastTime from not_le.2 hlast)]
    simp only [Bool.and_false, Bool.not_false, if_true]
    refine List.mem_append_left _ (List.mem_append_right _ (List.mem_singleton.2 rfl))
  obtain ⟨m, hm, hsame⟩ := samePose_of (msg := msg) hu hv e1 e3 (fr := g.frames) (t := t) (x := x) (P := q.R)
    (fun j hj => rfl) (fun j k hj hk => rfl)
  refine ⟨m, ?_, hsame, ?_⟩
  · show _ ∈ _ ++ (_ ++ [])
    rw [List.append_nil]
    refine List.mem_append_right _ ?_
    rw [((Sys.step V g s (.setPose t buf junk msg)).1.step_eq V g (.tick now now2 buf2)).2]
    refine List.mem_map.2 ⟨.odom t (V.pose x q.R).1 (V.pose x q.R).2, ?_, congrArg (Sent.odom t) ?_⟩
    swap
    · rw [(hg.pose x q.R).1, (hg.pose x q.R).2]
      exact hm
    show _ ∈ _ ++ []
    rw [List.append_nil, hnode]
    exact hout
  · injection hm with hm
    subst hm
    have hx0 : ∀ j : Fin 15, 6 ≤ j.val → x j = 0 := fun j hj => by
      rw [hx]
      dsimp only
      rw [hz j hj]
      rfl
    refine ⟨rfl, rfl, rfl, fun k => ?_⟩
    fin_cases k
    · exact ⟨congrArg Dbl.fin (hx0 6 (by simp)), congrArg Dbl.fin (hx0 9 (by simp))⟩
    · exact ⟨congrArg Dbl.fin (hx0 7 (by simp)), congrArg Dbl.fin (hx0 10 (by simp))⟩
    · exact ⟨congrArg Dbl.fin (hx0 8 (by simp)), congrArg Dbl.fin (hx0 11 (by simp))⟩

/-- C119 for the first pose: all of it is used, and the cycle after it sends the pose and its covariance; the velocities are
those of the initial state. -/
theorem C119_first_pose (h : loadNode o = some c) (hd : ¬ o.On "two_d_mode") (hp : ¬ o.On "predict_to_current_time")
    (hdis : ¬ o.On "disabled_at_startup") (hw : c.frames.world ≠ "") (Q : MQueue (ekfCore c.par)) (ctl0 : Fin 6 → ℝ) (t0 : Int)
    (d : Differ) {i : ℕ} {set : SensorSet} (hs : c.inputs.poses[i]? = some set) (hl : set.par.config.length = 15)
    (hsel : ∀ j < 6, Selects set.par.config j) (hdiff : set.par.differential = false) (hrel : set.par.relative = false)
    (buf : TfBuffer) (hb : SaneBuf buf) (junk : State) (msg : PoseMsg) (hf : msg.frame = c.frames.world) (hu : msg.ori.len2 = 1)
    (hv : NotVertical msg.ori) (h0 : 0 < msg.stamp) (now now2 : Int) (hn : msg.stamp ≤ now) (buf2 : TfBuffer) :
    ∃ m, Sent.odom msg.stamp (some m) ∈ ((Sys.start c.sys Q () ctl0 t0 d).run (ekfView c.par) c.sys
        [.pose i buf junk msg, .tick now now2 buf2]).2 ∧
      SamePose msg m ∧ m.frame = c.frames.world ∧ m.child = c.frames.baseOut ∧ m.stamp = msg.stamp ∧
      (∀ k : Fin 3, m.lin k = .fin (c.initial (axis 6 (by omega) k)) ∧ m.ang k = .fin (c.initial (axis 9 (by omega) k))) :=
  first_pose (runBy_ekf c) h hd hp hdis hw Q () ctl0 t0 d hs hl hsel hdiff hrel buf hb junk msg hf hu hv h0 now now2 hn buf2

/-- C119 for the first velocities. -/
theorem C119_first_twist (h : loadNode o = some c) (hd : ¬ o.On "two_d_mode") (hp : ¬ o.On "predict_to_current_time")
    (hdis : ¬ o.On "disabled_at_startup") (Q : MQueue (ekfCore c.par)) (ctl0 : Fin 6 → ℝ) (t0 : Int)
    (d : Differ) {i : ℕ} {set : SensorSet} (hs : c.inputs.twists[i]? = some set) (hl : set.par.config.length = 15)
    (hsel : ∀ j < 15, Selects set.par.config j ↔ 6 ≤ j ∧ j < 12)
    (buf : TfBuffer) (hb : SaneBuf buf) (junk : State) (msg : TwistMsg) (hf : msg.frame = c.frames.base)
    (hlin : ∀ k, (msg.lin k).isFin = true) (hang : ∀ k, (msg.ang k).isFin = true)
    (h0 : 0 < msg.stamp) (now now2 : Int) (hn : msg.stamp ≤ now) (buf2 : TfBuffer) :
    ∃ m, Sent.odom msg.stamp (some m) ∈ ((Sys.start c.sys Q () ctl0 t0 d).run (ekfView c.par) c.sys
        [.twist i buf junk msg, .tick now now2 buf2]).2 ∧
      SameTwist msg m ∧ m.frame = c.frames.world ∧ m.child = c.frames.baseOut ∧ m.stamp = msg.stamp ∧
      (∀ k : Fin 3, m.pos k = c.initial (axis 0 (by omega) k)) ∧ m.ori.mat = rot ![c.initial 3, c.initial 4, c.initial 5] :=
  first_twist (runBy_ekf c) h hd hp hdis Q () ctl0 t0 d hs hl hsel buf hb junk msg hf hlin hang h0 now now2 hn buf2

/-- C119 for a pose set by hand on a node that has an estimate: the next cycle sends it, with no velocities. -/
theorem C119_set_pose (h : loadNode o = some c) (hd : ¬ o.On "two_d_mode") (hp : ¬ o.On "predict_to_current_time")
    (hw : c.frames.world ≠ "") {Q : MQueue (ekfCore c.par)} (s : Sys (ekfCore c.par) Q) (hi : s.hub.node.filt.initialized = true)
    (hen : s.hub.node.enabled = true) (hon : s.hub.node.toggledOn = true)
    (buf : TfBuffer) (hb : SaneBuf buf) (junk : State) (msg : PoseMsg) (hf : msg.frame = c.frames.world) (hu : msg.ori.len2 = 1)
    (hv : NotVertical msg.ori) (t now now2 : Int) (hlast : s.hub.node.lastPub < t) (hn : now - t < s.hub.node.filt.sensorTimeout)
    (buf2 : TfBuffer) :
    ∃ m, Sent.odom t (some m) ∈ (s.run (ekfView c.par) c.sys [.setPose t buf junk msg, .tick now now2 buf2]).2 ∧
      SamePose msg m ∧ m.frame = c.frames.world ∧ m.child = c.frames.baseOut ∧ m.stamp = t ∧
      ∀ k : Fin 3, m.lin k = .fin 0 ∧ m.ang k = .fin 0 :=
  set_pose_sent (runBy_ekf c) h hd hp hw s hi hen hon buf hb junk msg hf hu hv t now now2 hlast hn buf2

/-- The same for the unscented filter. -/
theorem C119_first_pose_ukf (llt : Llt) (k : UkfConst) (h : loadNode o = some c) (hd : ¬ o.On "two_d_mode") (hp : ¬ o.On "predict_to_current_time")
    (hdis : ¬ o.On "disabled_at_startup") (hw : c.frames.world ≠ "") (Q : MQueue (ukfCore c.par llt k)) (ext0 : UkfMem) (ctl0 : Fin 6 → ℝ) (t0 : Int)
    (d : Differ) {i : ℕ} {set : SensorSet} (hs : c.inputs.poses[i]? = some set) (hl : set.par.config.length = 15)
    (hsel : ∀ j < 6, Selects set.par.config j) (hdiff : set.par.differential = false) (hrel : set.par.relative = false)
    (buf : TfBuffer) (hb : SaneBuf buf) (junk : State) (msg : PoseMsg) (hf : msg.frame = c.frames.world) (hu : msg.ori.len2 = 1)
    (hv : NotVertical msg.ori) (h0 : 0 < msg.stamp) (now now2 : Int) (hn : msg.stamp ≤ now) (buf2 : TfBuffer) :
    ∃ m, Sent.odom msg.stamp (some m) ∈ ((Sys.start (c.ukfSys llt k) Q ext0 ctl0 t0 d).run (ukfView c.par llt k) (c.ukfSys llt k)
        [.pose i buf junk msg, .tick now now2 buf2]).2 ∧
      SamePose msg m ∧ m.frame = c.frames.world ∧ m.child = c.frames.baseOut ∧ m.stamp = msg.stamp ∧
      (∀ k : Fin 3, m.lin k = .fin (c.initial (axis 6 (by omega) k)) ∧ m.ang k = .fin (c.initial (axis 9 (by omega) k))) :=
  first_pose (runBy_ukf c llt k) h hd hp hdis hw Q ext0 ctl0 t0 d hs hl hsel hdiff hrel buf hb junk msg hf hu hv h0 now now2 hn buf2

/-- The same for the unscented filter. -/
theorem C119_first_twist_ukf (llt : Llt) (k : UkfConst) (h : loadNode o = some c) (hd : ¬ o.On "two_d_mode") (hp : ¬ o.On "predict_to_current_time")
    (hdis : ¬ o.On "disabled_at_startup") (Q : MQueue (ukfCore c.par llt k)) (ext0 : UkfMem) (ctl0 : Fin 6 → ℝ) (t0 : Int)
    (d : Differ) {i : ℕ} {set : SensorSet} (hs : c.inputs.twists[i]? = some set) (hl : set.par.config.length = 15)
    (hsel : ∀ j < 15, Selects set.par.config j ↔ 6 ≤ j ∧ j < 12)
    (buf : TfBuffer) (hb : SaneBuf buf) (junk : State) (msg : TwistMsg) (hf : msg.frame = c.frames.base)
    (hlin : ∀ k, (msg.lin k).isFin = true) (hang : ∀ k, (msg.ang k).isFin = true)
    (h0 : 0 < msg.stamp) (now now2 : Int) (hn : msg.stamp ≤ now) (buf2 : TfBuffer) :
    ∃ m, Sent.odom msg.stamp (some m) ∈ ((Sys.start (c.ukfSys llt k) Q ext0 ctl0 t0 d).run (ukfView c.par llt k) (c.ukfSys llt k)
        [.twist i buf junk msg, .tick now now2 buf2]).2 ∧
      SameTwist msg m ∧ m.frame = c.frames.world ∧ m.child = c.frames.baseOut ∧ m.stamp = msg.stamp ∧
      (∀ k : Fin 3, m.pos k = c.initial (axis 0 (by omega) k)) ∧ m.ori.mat = rot ![c.initial 3, c.initial 4, c.initial 5] :=
  first_twist (runBy_ukf c llt k) h hd hp hdis Q ext0 ctl0 t0 d hs hl hsel buf hb junk msg hf hlin hang h0 now now2 hn buf2

/-- The same for the unscented filter. -/
theorem C119_set_pose_ukf (llt : Llt) (k : UkfConst) (h : loadNode o = some c) (hd : ¬ o.On "two_d_mode") (hp : ¬ o.On "predict_to_current_time")
    (hw : c.frames.world ≠ "") {Q : MQueue (ukfCore c.par llt k)} (s : Sys (ukfCore c.par llt k) Q) (hi : s.hub.node.filt.initialized = true)
    (hen : s.hub.node.enabled = true) (hon : s.hub.node.toggledOn = true)
    (buf : TfBuffer) (hb : SaneBuf buf) (junk : State) (msg : PoseMsg) (hf : msg.frame = c.frames.world) (hu : msg.ori.len2 = 1)
    (hv : NotVertical msg.ori) (t now now2 : Int) (hlast : s.hub.node.lastPub < t) (hn : now - t < s.hub.node.filt.sensorTimeout)
    (buf2 : TfBuffer) :
    ∃ m, Sent.odom t (some m) ∈ (s.run (ukfView c.par llt k) (c.ukfSys llt k) [.setPose t buf junk msg, .tick now now2 buf2]).2 ∧
      SamePose msg m ∧ m.frame = c.frames.world ∧ m.child = c.frames.baseOut ∧ m.stamp = t ∧
      ∀ k : Fin 3, m.lin k = .fin 0 ∧ m.ang k = .fin 0 :=
  set_pose_sent (runBy_ukf c llt k) h hd hp hw s hi hen hon buf hb junk msg hf hu hv t now now2 hlast hn buf2

end

end RL
