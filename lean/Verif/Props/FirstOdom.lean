import Verif.Props.FirstWord
import Verif.Props.Commute
/-! # C119: why the first odometry message is left out -/

namespace RL
open Matrix Real Body
open Nav (Given)

/-- Two measurements with one stamp at the start, taken in the order of their arrival. -/
theorem Node.first_two {C : Core} (cfg : Cfg C) (hs : cfg.smooth = false) (hp : cfg.predictToCurrent = false)
    (hc : cfg.useControl = false) (he : cfg.disabledAtStartup = false) (ext0 : C.Ext) (fctl0 : C.Ctl) (t0 : Int) (ta tb : String)
    (hne : tb ≠ ta) (stamp : Int) (z1 z2 : C.Z) (now now2 : Int) (tfOk : Bool) (h0 : 0 < stamp) (hn : stamp ≤ now) :
    let r := C.correct z2 (C.initX z1 cfg.initialState, C.initCov z1 cfg.initialCov, ext0)
    Out.odom stamp r.1 r.2.1 ∈ ((Node.start cfg (PQueue.sortedList _ _) ext0 fctl0 t0).run cfg
      [.sensor ta stamp (some z1), .sensor tb stamp (some z2), .tick now now2 tfOk]).2 := by
  have h1 : ¬ stamp ≤ 0 := by omega
  have h2 : ¬ now < stamp := by omega
  simp [Node.run, Node.step, Node.start, Node.sensor, Node.enqueue, Node.periodic, Node.advance, Node.integrate, Node.drain,
    Node.publish, PQueue.sortedList, PQueue.insertSorted, PQueue.size, Filt.processMeasurement, Filt.correct, hs, hp, hc, he, hne, h1, h2]

/-- What is sent in the cycle after a message that made two measurements. -/
theorem Sys.two_sent {C : Core} {P : MQueue C} (V : View C) (g : SysCfg C) (s : Sys C P) (e : Sys.Ev) (now now2 : Int) (buf : TfBuffer)
    (ta tb : String) (ua ub : Int) (za zb : Option C.Z) (he : s.events V g e = [.sensor ta ua za, .sensor tb ub zb])
    (t : Int) (x : C.X) (cov : C.Cov)
    (h : Out.odom t x cov ∈ (s.hub.node.run g.cfg [.sensor ta ua za, .sensor tb ub zb, .tick now now2 (Sys.tfDue g.frames buf)]).2) :
    Sent.odom t ((V.state x).bind fun y => odomMessage g.frames true y (V.cov cov) t) ∈ (s.run V g [e, .tick now now2 buf]).2 := by
  have a := (s.step_eq V g e).1
  rw [he] at a
  rw [show ([.sensor ta ua za, .sensor tb ub zb, .tick now now2 (Sys.tfDue g.frames buf)] : List (Node.Event C)) =
      [.sensor ta ua za, .sensor tb ub zb] ++ [.tick now now2 (Sys.tfDue g.frames buf)] from rfl, Node.run_append, ← a] at h
  show _ ∈ _ ++ (_ ++ [])
  rw [List.append_nil, ((Sys.step V g s e).1.step_eq V g (.tick now now2 buf)).2]
  exact List.mem_append_right _ (List.mem_map.2 ⟨.odom t x cov, h, rfl⟩)

/-- Parameters of a node with one odometry input of which the position and the velocity ahead are used. -/
def slowParams : Given := fun n =>
  if n = "odom0" then some (.string "wheels")
  else if n = "odom0_config" then some (.bools ([true] ++ List.replicate 5 false ++ [true] ++ List.replicate 8 false))
  else none

theorem slow_typed : NodeTyped slowParams where
  bools := by simp [switchNames, slowParams]
  strings := by simp [slowParams]
  doubles := by simp [slowParams]
  fits := by simp [Fits, slowParams]
  frequency := by
    intro f hf
    have : f = 30 := by
      rcases hf with hf | ⟨-, hf⟩
      · simp [slowParams] at hf
      · exact hf
    subst this
    norm_num
  initial := by simp [slowParams]
  covs := by simp [slowParams]
  config := by simp [Nav.Given.On, slowParams]
  lists := by simp [slowParams]

theorem slow_sensor : SensorTyped slowParams ("odom" ++ "0") := by
  constructor <;> simp [slowParams]

theorem slow_starts : ∃ c, loadNode slowParams = some c := by
  obtain ⟨c, h, -⟩ := C102_starts slow_typed (a := 1) (b := 0) (c := 0) (d := 0)
    ⟨fun i hi => by
      have : i = 0 := by omega
      subst this
      rw [name0]
      exact ⟨"wheels", by simp [slowParams]⟩,
     fun i hi => by
      have : i = 0 := by omega
      subst this
      rw [name0]
      exact slow_sensor,
     by rw [name1]; simp [slowParams]⟩
    ⟨fun i hi => absurd hi (by omega), fun i hi => absurd hi (by omega), by rw [name0]; simp [slowParams]⟩
    ⟨fun i hi => absurd hi (by omega), fun i hi => absurd hi (by omega), by rw [name0]; simp [slowParams]⟩
    ⟨fun i hi => absurd hi (by omega), fun i hi => absurd hi (by omega), by rw [name0]; simp [slowParams]⟩
  exact ⟨c, h⟩

/-- What is read for the input. -/
def slowSet : SensorSet :=
  { par := { name := "odom0", config := [true] ++ List.replicate 5 false ++ [true] ++ List.replicate 8 false, differential := false
             relative := false, useChild := false, poseThresh := .unlimited, twistThresh := .unlimited, accelThresh := .unlimited }
    topic := "wheels", queueSize := 10, removeGravity := false }

theorem slow_input {c : NodeConf} (h : loadNode slowParams = some c) :
    c.inputs.odoms[0]? = some slowSet ∧ ∃ a b, odomData slowSet.par = some (a, b) ∧ c.inputs.odomCds[0]? = some (a, b) := by
  have h1 := loadNode_inputs h
  unfold readInputs at h1
  obtain ⟨l, e1, h1⟩ := Option.bind_eq_some_iff.1 h1
  obtain ⟨x2, -, h1⟩ := Option.bind_eq_some_iff.1 h1
  obtain ⟨x3, -, h1⟩ := Option.bind_eq_some_iff.1 h1
  obtain ⟨x4, -, h1⟩ := Option.bind_eq_some_iff.1 h1
  obtain ⟨x5, -, h1⟩ := Option.bind_eq_some_iff.1 h1
  obtain ⟨x6, -, h1⟩ := Option.bind_eq_some_iff.1 h1
  obtain ⟨x7, -, h1⟩ := Option.bind_eq_some_iff.1 h1
  obtain ⟨x8, -, h1⟩ := Option.bind_eq_some_iff.1 h1
  injection h1 with h1
  have s0 := sensorsFrom_some e1 0 (Nat.zero_le _)
  rw [Nat.zero_add] at s0
  have e : sensorAt slowParams "odom" (readOdom slowParams) 0 = some (some slowSet) := by
    unfold sensorAt
    rw [name0]
    simp [Nav.Given.string?, Nav.Given.bool, Nav.Given.bools, Nav.Given.int, Nav.Given.thresh, Given.string?, Given.bool, Given.bools,
      Given.int, Given.thresh, slowParams, readOdom, loadUpdateConfig, slowSet]
  rw [e] at s0
  injection s0 with s0
  have hset : c.inputs.odoms[0]? = some slowSet := by
    rw [← h1]
    exact s0.symm
  refine ⟨hset, ?_⟩
  obtain ⟨s', ⟨a, b⟩, h1, h2, -⟩ := (C102_settings_partial h).inputs.odoms.1 0 (List.getElem?_eq_some_iff.1 hset).1
  obtain ⟨s'', h3, h4⟩ := (loadNode_made h).odom 0 (a, b) h2
  rw [hset] at h3
  injection h3 with h3
  exact ⟨a, b, h3 ▸ h4, h2⟩

/-- The robot is at one metre and drives one metre per second; both with variance one. -/
noncomputable def slowMsg : OdomMsg :=
  { frame := "odom", child := "base_link", stamp := 1000000000, pos := ![1, 0, 0], ori := ⟨0, 0, 0, 1⟩, poseCov := copyOut6 1
    lin := ![.fin 1, .fin 0, .fin 0], ang := fun _ => .fin 0, twistCov := copyOut6 1 }

/-- C119 fails for the first odometry message: its two halves are fused one after the other, and what the first did not
measure is taken to be known from the initial state to `1e-9`.  So the position is taken over and the velocity is not: a
robot that reports one metre per second is said to stand. -/
theorem C119_first_odometry : ∃ c, loadNode slowParams = some c ∧ ∀ (junk : State) (d : Differ), ∃ m,
    Sent.odom slowMsg.stamp (some m) ∈ ((Sys.start c.sys (demoQ c.par) () (0 : Fin 6 → ℝ) 0 d).run (ekfView c.par) c.sys
      [.odom 0 noTf junk slowMsg, .tick 2000000000 2000000000 noTf]).2 ∧
    m.pos 0 = 1 ∧ ∃ v, m.lin 0 = .fin v ∧ 0 < v ∧ v < 1e-8 := by
  obtain ⟨c, h⟩ := slow_starts
  refine ⟨c, h, fun junk d => ?_⟩
  have doc := C102_settings_partial h
  obtain ⟨hin, a, b, hab, hcd⟩ := slow_input h
  obtain ⟨ha, hb, ht, hthr, hdiff, hrel, huse, hsa, hsb⟩ := odomData_full hab rfl
  have sel : ∀ j : Fin 15, Selects slowSet.par.config j.val ↔ j.val = 0 ∨ j.val = 6 := by
    intro j
    fin_cases j <;> simp [Selects, slowSet]
  have off : ∀ n, slowParams n = none → ¬ slowParams.On n := by
    intro n hn
    simp [Nav.Given.On, hn]
  have ho : c.frames.odom = "odom" := by
    rcases doc.frames.odom with h | ⟨-, h⟩
    · simp [slowParams] at h
    · exact h
  have hw : c.frames.world = "odom" := by
    rcases doc.frames.world with h | ⟨-, h⟩
    · simp [slowParams] at h
    · rw [h, ho]
  have hbase : c.frames.base = "base_link" := by
    rcases doc.frames.base with h | ⟨-, h⟩
    · simp [slowParams] at h
    · exact h
  have h2 : c.sw.twoD = false := by
    rw [Bool.eq_false_iff, Ne, doc.sw.twoD]
    exact off _ (by simp [slowParams])
  have hp : c.sw.predictToCurrent = false := by
    rw [Bool.eq_false_iff, Ne, doc.sw.predictToCurrent]
    exact off _ (by simp [slowParams])
  have hdis : c.sw.disabled = false := by
    rw [Bool.eq_false_iff, Ne, doc.sw.disabled]
    exact off _ (by simp [slowParams])
  have hsm : c.sw.smooth = false := by
    rw [Bool.eq_false_iff, Ne, doc.sw.smooth]
    exact off _ (by simp [slowParams])
  have hctl : c.control.useControl = false := by
    rw [Bool.eq_false_iff]
    intro h'
    exact off _ (by simp [slowParams]) (doc.control h')
  have hx0 : c.initial = 0 := doc.noInitial (by simp [slowParams])
  have hP0 : c.cov = (1e-9 : ℝ) • 1 := doc.cov.unset (by simp [slowParams])
  have hua : ∀ j : Fin 15, a.upd j = true ↔ j.val = 0 := by
    intro j
    rw [ha, sel j]
    omega
  have hub : ∀ j : Fin 15, b.upd j = true ↔ j.val = 6 := by
    intro j
    rw [hb, sel j]
    omega
  set s := Sys.start c.sys (demoQ c.par) () (0 : Fin 6 → ℝ) 0 d with hs0
  set x := s.ctx (ekfView c.par) c.sys noTf junk with hx
  obtain ⟨q, e, e1, e2, e3, -⟩ := preparePose_world x noTf_sane h2 s.hub.mem
    ((s.hub.node.lastMsg a.topic).getD slowMsg.stamp) slowMsg.asPose a.topic c.frames.base a.blank
    (by show c.frames.world ≠ ""; rw [hw]; decide) hw.symm (by simp [sourceTf, hx, Sys.ctx, NodeConf.sys])
  obtain ⟨r, g, g1, g2, g3, g4, g5⟩ := prepareTwist_base x noTf_sane h2 slowMsg.asTwist b.blank hbase.symm
    (fun i => by fin_cases i <;> rfl) (fun i => rfl)
  have hev : s.events (ekfView c.par) c.sys (.odom 0 noTf junk slowMsg) =
      [.sensor a.topic 1000000000 (some q), .sensor b.topic 1000000000 (some r)] := by
    simp only [Sys.events]
    rw [show c.sys.inputs.odomCds[0]? = some (a, b) from hcd]
    have pa : a.sum > 0 := hsa.2 ⟨0, (hua 0).2 rfl⟩
    have pb : b.sum > 0 := hsb.2 ⟨6, (hub 6).2 rfl⟩
    dsimp only
    rw [if_pos (by omega)]
    unfold Hub.odomEvents
    rw [if_pos pa, if_pos pb]
    unfold Hub.posePrep
    rw [hdiff, hrel, huse]
    have e' : (preparePose x s.hub.mem ((s.hub.node.lastMsg a.topic).getD slowMsg.asPose.stamp) slowMsg.asPose a.topic x.world
      (if slowSet.par.useChild then slowMsg.child else x.base) slowSet.par.differential slowSet.par.rel false a.blank).2 = some q := e
    have g' : prepareTwist x slowMsg.asTwist x.base b.blank = some r := g
    rw [e', g']
    rfl
  -- the state and the covariance after the pose
  have huq : ∀ j, q.upd j = true ↔ j.val = 0 := fun j => by rw [e2]; exact hua j
  have hur : ∀ j, r.upd j = true ↔ j.val = 6 := fun j => by rw [g3]; exact hub j
  have hz0 : q.z 0 = .fin 1 := e1.1 0
  have hz6 : r.z 6 = .fin 1 := g1 0
  have hR0 : q.R 0 0 = 1 := (e3 0 0).trans (show (1 : M6) 0 0 = 1 from Matrix.one_apply_eq _)
  have hR6 : r.R 6 6 = 1 := (g4 0 0).trans (show (1 : M6) 0 0 = 1 from Matrix.one_apply_eq _)
  have hx1 : initState q c.initial = some (fun j => if j.val = 0 then 1 else 0) := by
    unfold initState
    rw [if_pos (fun j hj => by
      have : j = 0 := Fin.ext ((huq j).1 hj)
      rw [this, hz0]
      rfl)]
    congr 1
    funext j
    by_cases hj : j.val = 0
    · have : j = 0 := Fin.ext hj
      subst this
      rw [(huq 0).2 rfl, hz0]
      simp [Dbl.val]
    · rw [Bool.eq_false_iff.2 (fun h => hj ((huq j).1 h)), hx0, if_neg hj]
      simp
  have hP1 : initCov q c.cov = Matrix.diagonal (fun j => if j.val = 0 then (1 : ℝ) else 1e-9) := by
    ext i j
    unfold initCov
    rw [hP0, Matrix.of_apply]
    by_cases hij : i = j
    · subst hij
      rw [Matrix.diagonal_apply_eq]
      by_cases hi : i.val = 0
      · have : i = 0 := Fin.ext hi
        subst this
        rw [(huq 0).2 rfl, hR0]
        simp
      · rw [Bool.eq_false_iff.2 (fun h => hi ((huq i).1 h)), if_neg hi]
        simp
    · rw [Matrix.diagonal_apply_ne _ hij]
      have : (q.upd i && q.upd j) = false := by
        rw [Bool.eq_false_iff]
        intro h'
        rw [Bool.and_eq_true, huq, huq] at h'
        exact hij (Fin.ext (h'.1.trans h'.2.symm))
      rw [this]
      simp [hij]
  have hidx : r.indices = [6] := by
    unfold Payload.indices
    have : (fun i : Fin 15 => r.upd i && !(r.z i).isNan && !(r.z i).isInf) = fun i => decide (i = 6) := by
      funext i
      by_cases hi : i = 6
      · subst hi
        rw [(hur 6).2 rfl, hz6]
        simp [Dbl.isNan, Dbl.isInf]
      · rw [Bool.eq_false_iff.2 (fun h => hi (Fin.ext ((hur i).1 h)))]
        simp [hi]
    rw [this]
    decide
  have hcert : r.Certain := by
    refine ⟨g5.trans ?_, ?_, ?_⟩
    · exact hthr.2
    · unfold Payload.GoodR
      have : r.R.submatrix (fun i : {i // r.upd i = true} => i.1) (fun i : {i // r.upd i = true} => i.1) = 1 := by
        ext i j
        have hi : i.1 = 6 := Fin.ext ((hur _).1 i.2)
        have hj : j.1 = 6 := Fin.ext ((hur _).1 j.2)
        have hij : i = j := Subtype.ext (hi.trans hj.symm)
        subst hij
        rw [Matrix.submatrix_apply, Matrix.one_apply_eq, hi]
        exact hR6
      rw [this]
      exact Matrix.PosSemidef.one
    · rw [hidx]
      show Matrix.det (n := Fin 1) _ ≠ 0
      rw [Matrix.det_fin_one]
      show (if (0 : Fin 1) = 0 then sanitize (r.R 6 6) else r.R 6 6) ≠ 0
      rw [if_pos rfl, hR6]
      norm_num [sanitize]
  have hpsd : (initCov q c.cov).PosSemidef := by
    rw [hP1, Matrix.posSemidef_diagonal_iff]
    intro j
    split <;> norm_num
  have hc1 := correct_one 6 hidx hcert (fun j => if j.val = 0 then 1 else 0) hpsd
  have hs1 : sanitize 1 = 1 := by norm_num [sanitize]
  rw [hR6, hz6, hs1] at hc1
  have h00 : initCov q c.cov 0 6 = 0 := by
    rw [hP1]
    simp
  have h66 : initCov q c.cov 6 6 = 1e-9 := by
    rw [hP1]
    simp
  set y := wrapStateAngles (fun k => (if k.val = 0 then (1 : ℝ) else 0) + initCov q c.cov k 6 * (initCov q c.cov 6 6 + 1)⁻¹ *
        (if (6 : Fin 15) = iRoll ∨ (6 : Fin 15) = iPitch ∨ (6 : Fin 15) = iYaw then
          normalizeAngle ((Dbl.fin 1).val - if (6 : Fin 15).val = 0 then 1 else 0)
        else (Dbl.fin 1).val - if (6 : Fin 15).val = 0 then 1 else 0)) with hy
  set P' : Mat15 := .of fun k l => initCov q c.cov k l - initCov q c.cov k 6 * (initCov q c.cov 6 6 + 1)⁻¹ * initCov q c.cov 6 l
  have hcor : (ekfCore c.par).correct r ((ekfCore c.par).initX q c.sys.cfg.initialState, (ekfCore c.par).initCov q c.sys.cfg.initialCov, ())
      = (some y, P', ()) := by
    show (match (initState q c.initial).bind (fun x => Ekf.correct r x (initCov q c.cov)) with
      | some r => (some r.1, r.2, ())
      | none => (none, initCov q c.cov, ())) = _
    rw [hx1, Option.bind_some, hc1]
  have hout := Node.first_two c.sys.cfg hsm hp hctl hdis () (0 : Fin 6 → ℝ) 0 a.topic b.topic
    (by rw [ht.1, ht.2]; decide) 1000000000 q r 2000000000 2000000000 (Sys.tfDue c.frames noTf) (by norm_num) (by norm_num)
  rw [hcor] at hout
  have hrun := Sys.two_sent (ekfView c.par) c.sys s (.odom 0 noTf junk slowMsg) 2000000000 2000000000 noTf _ _ _ _ _ _ hev
  have hsent := hrun _ _ _ hout
  have hv : y 6 = 1e-9 * (1e-9 + 1)⁻¹ := by
    rw [hy]
    show (if (6 : Fin 15).val = 0 then (1 : ℝ) else 0) + initCov q c.cov 6 6 * (initCov q c.cov 6 6 + 1)⁻¹ * _ = _
    rw [h66]
    simp [iRoll, iPitch, iYaw, Dbl.val]
  refine ⟨_, hsent, ?_, y 6, rfl, ?_, ?_⟩
  · show y 0 = 1
    rw [hy]
    show (if (0 : Fin 15).val = 0 then (1 : ℝ) else 0) + initCov q c.cov 0 6 * _ * _ = _
    rw [h00]
    simp
  · rw [hv]
    positivity
  · rw [hv]
    norm_num

end RL
