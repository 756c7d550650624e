import Verif.Props.FirstDemo
import Verif.Props.FirstOdom
import Verif.Props.ZeroVar
import Verif.Props.NavsatRun
import Verif.Props.NavsatMap
/-!
# C139: what arrives twice counts once

Messages may be delivered twice: a bridge sends them over two ways, a recording has them twice, a request is repeated because
the answer was late.  Requests and commands may be repeated, and so may everything that `navsat_transform` hears: the second
time changes nothing.  Not so for measurements.  The filter takes every copy for another measurement with its own error, so that
`n` copies of a message count as one with a covariance `n` times smaller (`C139_copies`), and a node that hears its first message
twice says that it is twice as sure (`C139_counts_twice`).
-/

namespace RL
open Matrix Real Body
open Nav (Given)

/-! ## Requests -/

/-- The events that are not measurements: commands and calls of services. -/
inductive Sys.Ev.Request : Sys.Ev → Prop
  | command (now : Int) (u : Fin 6 → ℝ) : Request (.command now u)
  | setPose (now : Int) (buf : TfBuffer) (junk : State) (msg : PoseMsg) : Request (.setPose now buf junk msg)
  | reset : Request .reset
  | toggle (on : Bool) : Request (.toggle on)
  | enable : Request .enable

section
variable {C : Core} {P : MQueue C} (V : View C) (g : SysCfg C)

/-- What is asked for does not depend on the state of the node. -/
theorem asked_congr (c c' : PrepCtx) (hb : c.buf = c'.buf) (hw : c.world = c'.world) (hs : c.base = c'.base) (hd : c.twoD = c'.twoD)
    (msg : PoseMsg) : Sys.asked V c msg = Sys.asked V c' msg := by
  have hf : ∀ p, finish c p = finish c' p := fun p => by simp only [finish, hd]
  have hsrc : ∀ source time, sourceTf c source time = sourceTf c' source time := fun _ _ => by simp only [sourceTf, hb, hs]
  have hfr : ∀ a b d i, poseFrames c a b d i = poseFrames c' a b d i := fun _ _ _ _ => by simp only [poseFrames, hw]
  unfold Sys.asked preparePose
  dsimp only
  rw [hw, hs, hb, hfr]
  unfold poseWith
  simp only [hsrc, hf, Bool.false_eq_true, if_false]

theorem asked_ctx (s s' : Sys C P) (buf : TfBuffer) (junk junk' : State) (msg : PoseMsg) :
    Sys.asked V (s.ctx V g buf junk) msg = Sys.asked V (s'.ctx V g buf junk') msg := asked_congr V _ _ rfl rfl rfl rfl msg

/-- Of two poses set one after the other only the second counts. -/
theorem C139_last_pose (s : Sys C P) (now now' : Int) (buf buf' : TfBuffer) (junk junk' : State) (msg msg' : PoseMsg) :
    (s.step V g (.setPose now buf junk msg)).1.step V g (.setPose now' buf' junk' msg') =
      s.step V g (.setPose now' buf' junk' msg') := by
  simp only [Sys.step]
  rw [asked_ctx V g _ s buf' junk' junk' msg']
  simp only [Node.setPose, Filt.setState, Filt.setCov, Filt.setLastTime]

/-- C139 for requests and commands: the second one changes nothing and nothing is sent. -/
theorem C139_requests_partial (s : Sys C P) (e : Sys.Ev) (h : e.Request) :
    (s.step V g e).1.step V g e = s.step V g e := by
  cases h with
  | command now u =>
    unfold Sys.step Node.control
    by_cases hc : g.cfg.useControl <;> simp [hc, Filt.setControl]
  | setPose now buf junk msg => exact C139_last_pose V g s now now buf buf junk junk msg msg
  | reset => simp only [Sys.step, Node.reset, Filt.reset, Filt.setSensorTimeout, Filt.setPar, Filt.setCov]
  | toggle on =>
    unfold Sys.step Node.toggle
    by_cases h : on = s.hub.node.toggledOn <;> simp [h]
  | enable => simp only [Sys.step, Node.enable]

end

/-! ## Measurements -/

/-- C139 does not hold: `n` copies of a message count as one message with a covariance `n` times smaller. -/
theorem C139_copies (p : FilterPar) (f : Filt (ekfCore p)) (hi : f.initialized = true)
    (hQ : Matrix.PosSemidef (n := Fin 15) (R := ℝ) f.par) (hd : p.dynamic = true → NoCross f.par) (hc : CovOk f.x f.cov)
    (m : Payload) (hna : m.NoAngles) (hm : m.Certain) (v : State) (hz : ∀ i, m.z i = .fin (v i)) (n : ℕ) (hn : 0 < n)
    (hfloor : ∀ i, m.upd i = true → 1e-9 * (n : ℝ) ≤ m.R i i) (M : Meas (ekfCore p)) (hM : M.z = m) :
    (List.replicate n M).foldl Filt.processMeasurement f =
      f.processMeasurement { M with z := ({ m with R := (n : ℝ)⁻¹ • m.R } : Payload) } := by
  have hne : (n : ℝ) ≠ 0 := by positivity
  refine C95_filter_readings_partial p f hi hQ hd hc m hna (List.replicate n m) (fun h => ?_) ⟨?_, ?_, ?_, ?_⟩ ?_ ?_ _
    (by rw [List.map_replicate, hM]; rfl) _ ?_ ?_
  · have := congrArg List.length h
    rw [List.length_replicate] at this
    exact hn.ne' this
  · intro r hr; rw [List.eq_of_mem_replicate hr]
  · intro r hr; rw [List.eq_of_mem_replicate hr]
  · intro r hr; rw [List.eq_of_mem_replicate hr]
  · intro r hr i _; rw [List.eq_of_mem_replicate hr, hz]; rfl
  · intro r hr; rw [List.eq_of_mem_replicate hr]; exact hm
  · rw [List.length_replicate]; exact hfloor
  · unfold meanReading
    have : m.z = fun i => .fin ((List.map (fun r : Payload => (r.z i).val) (List.replicate n m)).sum / (List.replicate n m).length) := by
      funext i
      rw [List.map_replicate, List.sum_replicate, List.length_replicate, nsmul_eq_mul, mul_div_cancel_left₀ _ hne, hz]
      rfl
    rw [← this, List.length_replicate]
  · intro m hm'; rw [List.eq_of_mem_replicate hm']

/-- A measurement taken by a filter that has just taken it as its first. -/
theorem correct_again {m : Payload} (ht : m.thresh = .unlimited) (hfin : ∀ i, m.upd i = true → (m.z i).isFin = true)
    (hna : m.NoAngles) (hfl : ∀ i, m.upd i = true → 1e-9 ≤ m.R i i)
    (hpd : (m.R.submatrix m.indices.get m.indices.get).PosDef) (x0 : State) (P0 : Mat15) :
    ∃ P', Ekf.correct m (fun i => if m.upd i then (m.z i).val else x0 i) (initCov m P0) =
        some (wrapStateAngles (fun i => if m.upd i then (m.z i).val else x0 i), P') ∧
      ∀ i j, m.upd i = true → m.upd j = true → P' i j = m.R i j / 2 := by
  set e := m.indices.get with he
  set P := initCov m P0 with hP
  set x : State := fun i => if m.upd i then (m.z i).val else x0 i with hx
  have hu : ∀ k, m.upd (e k) = true := by
    intro k
    have : e k ∈ m.indices := List.get_mem _ _
    unfold Payload.indices at this
    have := (List.mem_filter.1 this).2
    simp only [Bool.and_eq_true] at this
    exact this.1.1
  have hget : ∀ i, m.upd i = true → ∃ k, e k = i := by
    intro i hi
    have : i ∈ m.indices := by
      rw [indices_all hfin]
      exact List.mem_filter.2 ⟨List.mem_finRange _, hi⟩
    obtain ⟨k, hk⟩ := List.get_of_mem this
    exact ⟨k, hk⟩
  have hinj : Function.Injective e := indices_injective m
  set B := m.R.submatrix e e with hB
  have hsub : subR e m.R = B := by
    ext i j
    simp only [subR, Matrix.of_apply, hB, Matrix.submatrix_apply]
    split
    · rename_i h
      subst h
      exact sanitize_above (hfl _ (hu i))
    · rfl
  have hPe : ∀ i j, P (e i) (e j) = B i j := by
    intro i j
    simp only [hP, initCov, Matrix.of_apply, hu, Bool.and_self, if_true, hB, Matrix.submatrix_apply]
  have hPH : ∀ (k : Fin 15) j, (P * (subH e)ᵀ) k j = P k (e j) := by
    intro k j
    rw [Matrix.mul_apply]
    simp [subH, Matrix.transpose_apply]
  have hS : innovCov e m.R P = (2 : ℝ) • B := by
    unfold innovCov
    ext i j
    rw [Matrix.add_apply, Matrix.mul_apply, hsub]
    simp only [hPH]
    simp [subH, hPe]
    ring
  have hdet : B.det ≠ 0 := hpd.det_pos.ne'
  have hSinv : (innovCov e m.R P)⁻¹ = (2 : ℝ)⁻¹ • B⁻¹ := by
    rw [hS]
    refine Matrix.inv_eq_left_inv ?_
    rw [Matrix.smul_mul, Matrix.mul_smul, smul_smul, Matrix.nonsing_inv_mul _ (isUnit_iff_ne_zero.2 hdet)]
    norm_num
  have hK : ∀ i k, gain e m.R P (e i) k = if i = k then 1 / 2 else 0 := by
    intro i k
    unfold gain
    rw [hSinv, Matrix.mul_apply]
    simp only [hPH, hPe]
    rw [← Matrix.mul_apply, Matrix.mul_smul, Matrix.mul_nonsing_inv _ (isUnit_iff_ne_zero.2 hdet), Matrix.smul_apply, Matrix.one_apply]
    split <;> norm_num
  have hA : ∀ i l, (1 - gain e m.R P * subH e : Mat15) (e i) l = if l = e i then 1 / 2 else 0 := by
    intro i l
    rw [Matrix.sub_apply, Matrix.mul_apply]
    simp only [hK]
    rw [Finset.sum_eq_single i (fun k _ hk => by rw [if_neg (Ne.symm hk), zero_mul]) (fun h => absurd (Finset.mem_univ _) h), if_pos rfl]
    simp only [subH, Matrix.of_apply, Matrix.one_apply, eq_comm (a := e i)]
    split <;> norm_num
  have hinn : innovation e (fun i => (m.z i).val) x = 0 := by
    funext i
    unfold innovation
    have h1 : x (e i) = (m.z (e i)).val := by simp only [hx, hu, if_true]
    rw [if_neg (fun h => by
      have := hna (e i) h
      rw [hu] at this
      exact absurd this (by simp)), h1, sub_self]
    rfl
  refine ⟨joseph e m.R (gain e m.R P) P, ?_, ?_⟩
  · unfold Ekf.correct correctAt
    rw [← he, if_neg, ht, if_pos (by exact trivial), hinn, Matrix.mulVec_zero, add_zero]
    rw [hS, Matrix.det_smul]
    exact mul_ne_zero (pow_ne_zero _ (by norm_num)) hdet
  · intro i j hi hj
    obtain ⟨i, rfl⟩ := hget i hi
    obtain ⟨j, rfl⟩ := hget j hj
    unfold joseph
    rw [Matrix.add_apply, Matrix.mul_apply, Matrix.mul_apply, hsub]
    have h1 : ∀ l, ((1 - gain e m.R P * subH e) * P : Mat15) (e i) l = P (e i) l / 2 := by
      intro l
      rw [Matrix.mul_apply]
      simp only [hA]
      rw [Finset.sum_eq_single (e i) (fun k _ hk => by rw [if_neg hk, zero_mul]) (fun h => absurd (Finset.mem_univ _) h), if_pos rfl]
      ring
    have h2 : ∀ l, (gain e m.R P * B) (e i) l = B i l / 2 := by
      intro l
      rw [Matrix.mul_apply]
      simp only [hK]
      rw [Finset.sum_eq_single i (fun k _ hk => by rw [if_neg (Ne.symm hk), zero_mul]) (fun h => absurd (Finset.mem_univ _) h), if_pos rfl]
      ring
    simp only [h1, h2, Matrix.transpose_apply, hA, hK]
    rw [Finset.sum_eq_single (e j) (fun k _ hk => by rw [if_neg hk, mul_zero]) (fun h => absurd (Finset.mem_univ _) h), if_pos rfl,
      Finset.sum_eq_single j (fun k _ hk => by rw [if_neg (Ne.symm hk), mul_zero]) (fun h => absurd (Finset.mem_univ _) h), if_pos rfl, hPe]
    show B i j / 2 * (1 / 2) + B i j / 2 * (1 / 2) = B i j / 2
    ring

/-- A measurement that is enqueued twice by a node that has not heard anything, and the cycle after it. -/
theorem Node.first_repeated {C : Core} (cfg : Cfg C) (hs : cfg.smooth = false) (hp : cfg.predictToCurrent = false)
    (hc : cfg.useControl = false) (he : cfg.disabledAtStartup = false) (ext0 : C.Ext) (fctl0 : C.Ctl) (t0 : Int) (topic : String)
    (stamp : Int) (z : C.Z) (now now2 : Int) (tfOk : Bool) (h0 : 0 < stamp) (hn : stamp ≤ now) :
    let r := C.correct z (C.initX z cfg.initialState, C.initCov z cfg.initialCov, ext0)
    Out.odom stamp r.1 r.2.1 ∈ ((Node.start cfg (PQueue.sortedList _ _) ext0 fctl0 t0).run cfg
      [.sensor topic stamp (some z), .sensor topic stamp (some z), .tick now now2 tfOk]).2 := by
  have h1 : ¬ stamp ≤ 0 := by omega
  have h2 : ¬ now < stamp := by omega
  simp [Node.run, Node.step, Node.start, Node.sensor, Node.enqueue, Node.periodic, Node.advance, Node.integrate, Node.drain,
    Node.publish, PQueue.sortedList, PQueue.insertSorted, PQueue.size, Filt.processMeasurement, Filt.correct, hs, hp, hc, he, h1, h2]

/-- What is sent in the cycle after two messages. -/
theorem Sys.both_sent {C : Core} {P : MQueue C} (V : View C) (g : SysCfg C) (s : Sys C P) (e e' : Sys.Ev) (now now2 : Int) (buf : TfBuffer)
    (ta tb : String) (ua ub : Int) (za zb : Option C.Z) (he : s.events V g e = [.sensor ta ua za])
    (he' : (s.step V g e).1.events V g e' = [.sensor tb ub zb]) (t : Int) (x : C.X) (cov : C.Cov)
    (h : Out.odom t x cov ∈ (s.hub.node.run g.cfg [.sensor ta ua za, .sensor tb ub zb, .tick now now2 (Sys.tfDue g.frames buf)]).2) :
    Sent.odom t ((V.state x).bind fun y => odomMessage g.frames true y (V.cov cov) t) ∈ (s.run V g [e, e', .tick now now2 buf]).2 := by
  have a := (s.step_eq V g e).1
  have a' := ((s.step V g e).1.step_eq V g e').1
  rw [he] at a
  rw [he', a] at a'
  replace a' : ((s.step V g e).1.step V g e').1.hub.node =
      (s.hub.node.run g.cfg ([.sensor ta ua za] ++ [.sensor tb ub zb])).1 := by rw [Node.run_append]; exact a'
  rw [show ([.sensor ta ua za, .sensor tb ub zb, .tick now now2 (Sys.tfDue g.frames buf)] : List (Node.Event C)) =
      ([.sensor ta ua za] ++ [.sensor tb ub zb]) ++ [.tick now now2 (Sys.tfDue g.frames buf)] from rfl, Node.run_append, ← a'] at h
  show _ ∈ _ ++ (_ ++ (_ ++ []))
  rw [List.append_nil, (((s.step V g e).1.step V g e').1.step_eq V g (.tick now now2 buf)).2]
  exact List.mem_append_right _ (List.mem_append_right _ (List.mem_map.2 ⟨.odom t x cov, h, rfl⟩))

/-- C139, refuted for a whole node: a node that hears its first message twice before its first cycle sends the velocities of
the message with half of its covariance.  (Heard once, it sends the covariance of the message: `C119_first_twist`.) -/
theorem C139_counts_twice {o : Given} {c : NodeConf} (h : loadNode o = some c) (hd : ¬ o.On "two_d_mode")
    (hp : ¬ o.On "predict_to_current_time") (hdis : ¬ o.On "disabled_at_startup") (hsm : ¬ o.On "smooth_lagged_data")
    (hctl : ¬ o.On "use_control") (ctl0 : Fin 6 → ℝ) (t0 : Int) (d : Differ) {i : ℕ} {set : SensorSet}
    (hs : c.inputs.twists[i]? = some set) (hl : set.par.config.length = 15)
    (hsel : ∀ j < 15, Selects set.par.config j ↔ 6 ≤ j ∧ j < 12) (hthr : set.par.twistThresh = .unlimited)
    (buf : TfBuffer) (hb : SaneBuf buf) (junk : State) (msg : TwistMsg) (hf : msg.frame = c.frames.base)
    (hlin : ∀ k, (msg.lin k).isFin = true) (hang : ∀ k, (msg.ang k).isFin = true) (hcov : (msgCov msg.cov).PosDef)
    (hfl : ∀ k, 1e-9 ≤ msgCov msg.cov k k) (h0 : 0 < msg.stamp) (now now2 : Int) (hn : msg.stamp ≤ now) (buf2 : TfBuffer) :
    ∃ m, Sent.odom msg.stamp (some m) ∈ ((Sys.start c.sys (demoQ c.par) () ctl0 t0 d).run (ekfView c.par) c.sys
        [.twist i buf junk msg, .twist i buf junk msg, .tick now now2 buf2]).2 ∧
      m.lin = msg.lin ∧ m.ang = msg.ang ∧ ∀ k, m.twistCov k = msg.cov k / 2 := by
  have doc := C102_settings_partial h
  have h2 : c.sw.twoD = false := by
    rw [Bool.eq_false_iff, Ne, doc.sw.twoD]
    exact hd
  have hp' : c.sw.predictToCurrent = false := by
    rw [Bool.eq_false_iff, Ne, doc.sw.predictToCurrent]
    exact hp
  have hdis' : c.sw.disabled = false := by
    rw [Bool.eq_false_iff, Ne, doc.sw.disabled]
    exact hdis
  have hsm' : c.sw.smooth = false := by
    rw [Bool.eq_false_iff, Ne, doc.sw.smooth]
    exact hsm
  have hctl' : c.control.useControl = false := by
    rw [Bool.eq_false_iff]
    intro h'
    exact hctl (doc.control h')
  obtain ⟨a, hcd, ha⟩ : ∃ a, c.inputs.twistCds[i]? = some a ∧ twistData set.par = some a := by
    obtain ⟨s', a, h1, h2, -⟩ := doc.inputs.twists.1 i (List.getElem?_eq_some_iff.1 hs).1
    obtain ⟨s'', h3, h4⟩ := (loadNode_made h).twist i a h2
    rw [hs] at h3
    injection h3 with h3
    exact ⟨a, h2, h3 ▸ h4⟩
  obtain ⟨h1, ht, htt, hsum⟩ := twistData_full ha hl
  set s := Sys.start c.sys (demoQ c.par) () ctl0 t0 d with hs0
  obtain ⟨q, e, e1, e2, e3, e4, e5⟩ := prepareTwist_base (s.ctx (ekfView c.par) c.sys buf junk) hb h2 msg a.blank hf hlin hang
  have hpos : a.sum > 0 := hsum.2 ⟨6, (h1 6).2 ⟨by simp, (hsel 6 (by omega)).2 (by omega)⟩⟩
  have hev : ∀ s' : Sys (ekfCore c.par) (demoQ c.par), s'.ctx (ekfView c.par) c.sys buf junk = s.ctx (ekfView c.par) c.sys buf junk →
      s'.events (ekfView c.par) c.sys (.twist i buf junk msg) = [.sensor a.topic msg.stamp (some q)] := by
    intro s' hs'
    simp only [Sys.events]
    rw [show c.sys.inputs.twistCds[i]? = some a from hcd]
    dsimp only
    rw [if_pos hpos, hs']
    have e' : prepareTwist (s.ctx (ekfView c.par) c.sys buf junk) msg c.sys.frames.base a.blank = some q := e
    rw [e']
    rfl
  have hctx : (s.step (ekfView c.par) c.sys (.twist i buf junk msg)).1.ctx (ekfView c.par) c.sys buf junk =
      s.ctx (ekfView c.par) c.sys buf junk := by
    have hnode : (s.step (ekfView c.par) c.sys (.twist i buf junk msg)).1.hub.node.filt = s.hub.node.filt := by
      rw [(s.step_eq (ekfView c.par) c.sys (.twist i buf junk msg)).1, hev s rfl]
      exact Node.sensor_filt _ _ _ _
    have hdiff : (s.step (ekfView c.par) c.sys (.twist i buf junk msg)).1.diff = s.diff := by
      simp only [Sys.step]
      rw [show c.sys.inputs.twistCds[i]? = some a from hcd]
      dsimp only
      rw [if_pos hpos]
    unfold Sys.ctx
    rw [hnode, hdiff]
  have hupd : ∀ j : Fin 15, q.upd j = true ↔ 6 ≤ j.val ∧ j.val < 12 := by
    intro j
    rw [e3]
    exact (h1 j).trans ⟨fun h => (hsel _ j.isLt).1 h.2, fun h => ⟨h.1, (hsel _ j.isLt).2 h⟩⟩
  have hz : ∀ j : Fin 6, q.z ⟨j.val + 6, by omega⟩ = if h : j.val < 3 then msg.lin ⟨j.val, h⟩ else msg.ang ⟨j.val - 3, by omega⟩ := by
    intro j
    fin_cases j
    · exact e1 0
    · exact e1 1
    · exact e1 2
    · exact e2 0
    · exact e2 1
    · exact e2 2
  have hfin : ∀ j : Fin 15, q.upd j = true → (q.z j).isFin = true := by
    intro j hj
    obtain ⟨h6, h12⟩ := (hupd j).1 hj
    have := hz ⟨j.val - 6, by omega⟩
    rw [show (⟨(⟨j.val - 6, by omega⟩ : Fin 6).val + 6, by simp; omega⟩ : Fin 15) = j from Fin.ext (by simp; omega)] at this
    rw [this]
    split
    · exact hlin _
    · exact hang _
  have hR : ∀ i j : Fin 15, (hi : q.upd i = true) → (hj : q.upd j = true) →
      q.R i j = msgCov msg.cov ⟨i.val - 6, by have := (hupd i).1 hi; omega⟩ ⟨j.val - 6, by have := (hupd j).1 hj; omega⟩ := by
    intro i j hi hj
    have hi' := (hupd i).1 hi
    have hj' := (hupd j).1 hj
    have := e4 ⟨i.val - 6, by omega⟩ ⟨j.val - 6, by omega⟩
    rw [show (⟨6 + (⟨i.val - 6, by omega⟩ : Fin 6).val, by simp; omega⟩ : Fin 15) = i from Fin.ext (by simp; omega),
      show (⟨6 + (⟨j.val - 6, by omega⟩ : Fin 6).val, by simp; omega⟩ : Fin 15) = j from Fin.ext (by simp; omega)] at this
    exact this
  have hui : ∀ k, q.upd (q.indices.get k) = true := by
    intro k
    have : q.indices.get k ∈ q.indices := List.get_mem _ _
    unfold Payload.indices at this
    have := (List.mem_filter.1 this).2
    simp only [Bool.and_eq_true] at this
    exact this.1.1
  have hpd : (q.R.submatrix q.indices.get q.indices.get).PosDef := by
    have hsub : q.R.submatrix q.indices.get q.indices.get = (msgCov msg.cov).submatrix
        (fun k => (⟨(q.indices.get k).val - 6, by have := (hupd _).1 (hui k); omega⟩ : Fin 6))
        (fun k => (⟨(q.indices.get k).val - 6, by have := (hupd _).1 (hui k); omega⟩ : Fin 6)) := by
      ext k l
      exact hR _ _ (hui k) (hui l)
    rw [hsub]
    refine hcov.submatrix fun k l hkl => ?_
    have hk := (hupd _).1 (hui k)
    have hl := (hupd _).1 (hui l)
    have := congrArg Fin.val hkl
    simp only at this
    exact indices_injective q (Fin.ext (by omega))
  obtain ⟨P', hc1, hc2⟩ := correct_again (m := q) (e5.trans (by rw [← hthr]; exact htt)) hfin (fun j hj => by
      rw [Bool.eq_false_iff, Ne, hupd]
      rcases hj with rfl | rfl | rfl <;> simp [iRoll, iPitch, iYaw])
    (fun j hj => by rw [hR j j hj hj]; exact hfl _) hpd c.initial c.cov
  have hx : initState q c.initial = some (fun j => if q.upd j then (q.z j).val else c.initial j) := by
    unfold initState
    rw [if_pos hfin]
  have hcor : (ekfCore c.par).correct q ((ekfCore c.par).initX q c.sys.cfg.initialState, (ekfCore c.par).initCov q c.sys.cfg.initialCov, ())
      = (some (wrapStateAngles (fun j => if q.upd j then (q.z j).val else c.initial j)), P', ()) := by
    show (match (initState q c.initial).bind (fun x => Ekf.correct q x (initCov q c.cov)) with
      | some r => (some r.1, r.2, ())
      | none => (none, initCov q c.cov, ())) = _
    rw [hx, Option.bind_some, hc1]
  have hout := Node.first_repeated c.sys.cfg hsm' hp' hctl' hdis' () ctl0 t0 a.topic msg.stamp q now now2
    (Sys.tfDue c.frames buf2) h0 hn
  rw [hcor] at hout
  have hsent := Sys.both_sent (ekfView c.par) c.sys s (.twist i buf junk msg) (.twist i buf junk msg) now now2 buf2 _ _ _ _ _ _
    (hev s rfl) (hev _ hctx) _ _ _ hout
  have back : ∀ v : Dbl, v.isFin = true → Dbl.fin v.val = v := by
    intro v hv
    cases v with
    | fin x => rfl
    | _ => cases hv
  have hyes : ∀ j : Fin 15, 6 ≤ j.val ∧ j.val < 12 → q.upd j = true := fun j hj => (hupd j).2 hj
  have hw : ∀ j : Fin 15, 6 ≤ j.val ∧ j.val < 12 →
      wrapStateAngles (fun j => if q.upd j then (q.z j).val else c.initial j) j = (q.z j).val := by
    intro j hj
    unfold wrapStateAngles
    rw [if_neg (by
      rintro (h | h | h) <;> · rw [h] at hj; simp [iRoll, iPitch, iYaw] at hj)]
    exact if_pos (hyes j hj)
  refine ⟨_, hsent, ?_, ?_, ?_⟩
  · funext k
    fin_cases k
    · exact (congrArg Dbl.fin ((hw 6 (by simp)).trans (congrArg Dbl.val (e1 0)))).trans (back _ (hlin 0))
    · exact (congrArg Dbl.fin ((hw 7 (by simp)).trans (congrArg Dbl.val (e1 1)))).trans (back _ (hlin 1))
    · exact (congrArg Dbl.fin ((hw 8 (by simp)).trans (congrArg Dbl.val (e1 2)))).trans (back _ (hlin 2))
  · funext k
    fin_cases k
    · exact (congrArg Dbl.fin ((hw 9 (by simp)).trans (congrArg Dbl.val (e2 0)))).trans (back _ (hang 0))
    · exact (congrArg Dbl.fin ((hw 10 (by simp)).trans (congrArg Dbl.val (e2 1)))).trans (back _ (hang 1))
    · exact (congrArg Dbl.fin ((hw 11 (by simp)).trans (congrArg Dbl.val (e2 2)))).trans (back _ (hang 2))
  · intro k
    rw [← cov36 (m := q.R) (off := 6) (by omega) e4 k]
    exact hc2 _ _ (hyes ⟨k.val / 6 + 6, by omega⟩ (by simp; omega)) (hyes ⟨k.val % 6 + 6, by omega⟩ (by simp; omega))

/-! ## navsat_transform -/

namespace Nav

/-- What the node is told: messages and the requests that change something. -/
inductive Ev.Told : Ev → Prop
  | fix (m : FixMsg) : Told (.fix m)
  | imu (buf : TfBuffer) (m : HeadingMsg) : Told (.imu buf m)
  | odom (buf : TfBuffer) (m : OdoMsg) : Told (.odom buf m)
  | datum (d : GeoPose) : Told (.datum d)
  | setZone (z : Option (Fin 61 × Bool)) : Told (.setZone z)

theorem forward_zone {g : Geo} {lat lon : ℝ} {z : Int} {u : Utm} (h : g.forward lat lon z = some u) : g.forward lat lon u.zone = some u := by
  unfold Geo.forward at h ⊢
  dsimp only at h ⊢
  generalize hw : (if z = -1 then g.standard lat lon else z) = w at h
  split at h
  · cases h
  · rename_i hn
    injection h with h
    subst h
    dsimp only
    have e : (if w = -1 then g.standard lat lon else w) = w := by
      split
      · rename_i h
        subst hw
        split at h
        · rw [if_pos ‹_›]
        · exact absurd h ‹_›
      · rfl
    rw [e, if_neg hn]

theorem setTransformGps_twice (g : Geo) (p : Par) (s : St) (lat lon alt : ℝ) :
    (s.setTransformGps g p lat lon alt).setTransformGps g p lat lon alt = s.setTransformGps g p lat lon alt := by
  unfold St.setTransformGps
  cases hl : p.useLocal
  · simp only [Bool.false_eq_true, if_false]
    cases hf : g.forward lat lon (if s.forceUtm = true then s.zone else -1) with
    | none => simp only [hf]
    | some u =>
      cases hu : s.forceUtm
      · simp only [hu] at hf
        simp only [Bool.false_eq_true, if_false] at hf ⊢
        simp only [hf]
      · simp only [if_true]
        simp only [forward_zone hf]
  · simp only [if_true]

theorem setTransformGps_keeps (g : Geo) (p : Par) (s : St) (lat lon alt : ℝ) :
    (s.setTransformGps g p lat lon alt).good = s.good ∧ (s.setTransformGps g p lat lon alt).manual = s.manual ∧
    (s.setTransformGps g p lat lon alt).gpsFrame = s.gpsFrame := by
  unfold St.setTransformGps
  split
  · exact ⟨rfl, rfl, rfl⟩
  · split <;> exact ⟨rfl, rfl, rfl⟩

theorem imu_twice (buf : TfBuffer) (s : St) (m : HeadingMsg) : (s.imu buf m).imu buf m = s.imu buf m := by
  cases h : s.hasOdom
  · simp [St.imu, h]
  · cases hl : lookupTransformSafe buf s.base m.frame m.stamp <;> simp [St.imu, h, hl]

theorem imu_keeps (buf : TfBuffer) (s : St) (m : HeadingMsg) : (s.imu buf m).imuSub = s.imuSub ∧ (s.imu buf m).good = s.good ∧
    (s.imu buf m).manual = s.manual ∧ (s.imu buf m).hasOdom = s.hasOdom ∧ (s.imu buf m).base = s.base ∧ (s.imu buf m).start = s.start ∧
    (s.imu buf m).world = s.world := by
  unfold St.imu
  split
  · split <;> exact ⟨rfl, rfl, rfl, rfl, rfl, rfl, rfl⟩
  · exact ⟨rfl, rfl, rfl, rfl, rfl, rfl, rfl⟩

theorem odom_twice (buf : TfBuffer) (p : Par) (s : St) (m : OdoMsg) : (s.odom buf p m).odom buf p m = s.odom buf p m := by
  unfold St.odom St.setTransformOdometry St.imu
  cases hg : s.good <;> cases hy : p.odomYaw <;> cases hm : s.manual <;> simp [hg, hm]
  cases hl : lookupTransformSafe buf m.child m.child m.stamp <;> simp [hl, hg, hm]

/-- What `gpsCallback` writes down last, navsat_transform.cpp:797-803. -/
noncomputable def St.mark (s : St) (v : V3) (c : M6) (t : Int) : St :=
  { s with lastCart := v, lastCartCov := c, gpsTime := t, gpsUpdated := true }

theorem setTransformGps_mark (g : Geo) (p : Par) (s : St) (lat lon alt : ℝ) (v : V3) (c : M6) (t : Int) :
    (s.mark v c t).setTransformGps g p lat lon alt = (s.setTransformGps g p lat lon alt).mark v c t := by
  show (if p.useLocal then _ else _) = St.mark (if p.useLocal then _ else _) v c t
  cases p.useLocal
  · show (match g.forward lat lon (if s.forceUtm then s.zone else -1) with | none => _ | some u => _)
      = St.mark (match g.forward lat lon (if s.forceUtm then s.zone else -1) with | none => _ | some u => _) v c t
    cases g.forward lat lon (if s.forceUtm then s.zone else -1) <;> rfl
  · rfl

/-- C139 for `navsat_transform`: whatever it is told a second time changes nothing. -/
theorem C139_navsat_partial (g : Geo) (p : Par) (broadcast asParent : Bool) (s : St) (e : Ev) (he : e.Told) (s' : St)
    (h : (step g p broadcast asParent s e).st = some s') : step g p broadcast asParent s' e = { outs := [], st := some s' } := by
  cases he with
  | fix m =>
    simp only [step] at h ⊢
    rw [show s'.fix g p m = some s' from ?_]
    obtain ⟨frame, stamp, valid, pos, cov⟩ := m
    have idle : some { s with gpsFrame := frame } = some s' → some { s' with gpsFrame := frame } = some s' := by
      intro h
      injection h with h
      subst h
      rfl
    cases valid with
    | false => exact idle h
    | true =>
    cases pos with
    | none => exact idle h
    | some q =>
      obtain ⟨lat, lon, alt⟩ := q
      have hfix : ∀ s : St, s.fix g p ⟨frame, stamp, true, some (lat, lon, alt), cov⟩ = (g.forward lat lon (-1)).map fun u =>
          St.mark (if !s.good && !s.manual then St.setTransformGps g p { s with gpsFrame := frame } lat lon alt
            else { s with gpsFrame := frame }) ![u.x, u.y, alt]
            (.of fun i j => if h : i.val < 3 ∧ j.val < 3 then cov ⟨3 * i.val + j.val, by omega⟩ else 0) stamp := fun _ => rfl
      rw [hfix] at h ⊢
      generalize g.forward lat lon (-1) = ou at h ⊢
      cases ou with
      | none => cases h
      | some u =>
        rw [Option.map_some] at h ⊢
        injection h with h
        generalize (![u.x, u.y, alt] : V3) = v at h ⊢
        generalize (Matrix.of fun i j : Fin 6 => if h : i.val < 3 ∧ j.val < 3 then cov ⟨3 * i.val + j.val, by omega⟩ else 0 : M6) = c at h ⊢
        refine congrArg some ?_
        cases hb : (!s.good && !s.manual)
        · rw [hb] at h
          have hb' : (!s'.good && !s'.manual) = false := by rw [← h]; exact hb
          rw [hb', ← h]
          rfl
        · rw [hb, if_pos rfl] at h
          obtain ⟨k1, k2, k3⟩ := setTransformGps_keeps g p { s with gpsFrame := frame } lat lon alt
          have hb' : (!s'.good && !s'.manual) = true := by
            rw [← h]
            show (!(St.setTransformGps g p { s with gpsFrame := frame } lat lon alt).good &&
              !(St.setTransformGps g p { s with gpsFrame := frame } lat lon alt).manual) = true
            rw [k1, k2]
            exact hb
          rw [hb', if_pos rfl]
          have hf : ({ s' with gpsFrame := frame } : St) = s' := by
            have hg : s'.gpsFrame = frame := by rw [← h]; exact k3
            rw [← hg]
          rw [hf, ← h, setTransformGps_mark, setTransformGps_twice]
          rfl
  | imu buf m =>
    simp only [step] at h ⊢
    injection h with h
    subst h
    cases hs : s.imuSub
    · simp [hs]
    · simp [hs, (imu_keeps buf s m).1, imu_twice]
  | odom buf m =>
    simp only [step] at h ⊢
    injection h with h
    subst h
    rw [odom_twice]
  | datum d =>
    simp only [step] at h ⊢
    injection h with h
    subst h
    rfl
  | setZone z =>
    cases z with
    | none => cases h
    | some z =>
      simp only [step] at h ⊢
      injection h with h
      subst h
      rfl

/-- C139 does not hold for what `navsat_transform` passes on: a fix that arrives again after a tick of the timer is converted
and sent again, with the same stamp and the same covariance, to a filter that will count it twice. -/
theorem C139_sent_again (g : Geo) (p : Par) (hp : p.publishGps = false) (broadcast asParent : Bool) (s : St) (hg : s.good = true)
    (ho : s.odomUpdated = true) (m : FixMsg) (hv : m.fix = true) (lat lon alt : ℝ) (hm : m.pos = some (lat, lon, alt)) (u : Utm)
    (hu : g.forward lat lon (-1) = some u) (buf : TfBuffer) :
    ∃ pos cov, (run g p broadcast asParent s [.fix m, .timer buf, .timer buf]).outs = [.gpsOdom pos cov m.stamp s.world] ∧
      (run g p broadcast asParent s [.fix m, .timer buf, .fix m, .timer buf]).outs =
        [.gpsOdom pos cov m.stamp s.world, .gpsOdom pos cov m.stamp s.world] := by
  obtain ⟨frame, stamp, valid, pos, cov⟩ := m
  subst hv hm
  have hfix : ∀ s : St, s.good = true → s.fix g p ⟨frame, stamp, true, some (lat, lon, alt), cov⟩ =
      some (St.mark { s with gpsFrame := frame } ![u.x, u.y, alt]
        (.of fun i j => if h : i.val < 3 ∧ j.val < 3 then cov ⟨3 * i.val + j.val, by omega⟩ else 0) stamp) := by
    intro s hg
    simp only [St.fix, hu, Option.map_some, hg, Bool.not_true, Bool.false_and, Bool.false_eq_true, if_false, St.mark]
  obtain ⟨t, ht⟩ : ∃ t, t = St.mark { s with gpsFrame := frame } ![u.x, u.y, alt]
        (.of fun i j => if h : i.val < 3 ∧ j.val < 3 then cov ⟨3 * i.val + j.val, by omega⟩ else 0) stamp := ⟨_, rfl⟩
  have tg : t.good = true := by rw [ht]; exact hg
  have td : t.odomUpdated = true := by rw [ht]; exact ho
  have tu : t.gpsUpdated = true := by rw [ht]; rfl
  have tt : t.gpsTime = stamp := by rw [ht]; rfl
  have tw : t.world = s.world := by rw [ht]; rfl
  obtain ⟨pos, c, h⟩ : ∃ pos c, t.prepareGpsOdometry buf p =
      ({ t with lastCartCov := c, gpsUpdated := false }, [.gpsOdom pos c stamp s.world]) := by
    unfold St.prepareGpsOdometry
    rw [if_pos (by rw [tg, tu, td]; rfl), tt, tw]
    exact ⟨_, _, rfl⟩
  have h1 : t.timer g buf p broadcast asParent =
      { outs := [.gpsOdom pos c stamp s.world], st := some { t with lastCartCov := c, gpsUpdated := false } } := by
    unfold St.timer
    rw [if_pos tg, h, hp]
    rfl
  have h2 : ({ t with lastCartCov := c, gpsUpdated := false } : St).timer g buf p broadcast asParent =
      { outs := [], st := some { t with lastCartCov := c, gpsUpdated := false } } := by
    unfold St.timer St.prepareGpsOdometry
    simp only [tg, hp, Bool.and_false, Bool.false_and, Bool.false_eq_true, if_false, if_true]
  have h3 : ({ t with lastCartCov := c, gpsUpdated := false } : St).fix g p ⟨frame, stamp, true, some (lat, lon, alt), cov⟩ = some t := by
    rw [hfix { t with lastCartCov := c, gpsUpdated := false } tg, ht]
    rfl
  refine ⟨pos, c, ?_, ?_⟩
  · simp only [run, step, hfix s hg, ← ht, h1, h2, List.nil_append, List.append_nil]
  · simp only [run, step, hfix s hg, ← ht, h1, h3, List.nil_append, List.append_nil, List.singleton_append]

example : ∃ s, (run plain (demoPar false false false) false false demoInit (demoEvents 48 3 100)).st = some s ∧
    ∃ pos cov, (run plain (demoPar false false false) false false s [.fix (demoFix 4 48 3 100), .timer demoBuf,
      .fix (demoFix 4 48 3 100), .timer demoBuf]).outs = [.gpsOdom pos cov 4 s.world, .gpsOdom pos cov 4 s.world] := by
  have hf := plain_forward 48 3 (by norm_num) (by norm_num) (by norm_num) (by norm_num)
  obtain ⟨s, hs, hg, ho, -⟩ := demo_run plain (demoPar false false false) rfl rfl rfl false false 48 3 100 _ hf rfl
  obtain ⟨pos, cov, -, h⟩ := C139_sent_again plain (demoPar false false false) rfl false false s hg ho (demoFix 4 48 3 100) rfl 48 3 100 rfl _ hf
    demoBuf
  exact ⟨s, hs, pos, cov, h⟩

example : (Ev.fix (demoFix 4 48 3 100)).Told ∧
    (step plain (demoPar false false false) false false demoInit (.fix (demoFix 4 48 3 100))).st.isSome := by
  refine ⟨.fix _, ?_⟩
  have hf := plain_forward 48 3 (by norm_num) (by norm_num) (by norm_num) (by norm_num)
  simp [step, St.fix, demoFix, hf]

end Nav

/-! ## Examples -/

example (msg : PoseMsg) (buf : TfBuffer) : (Sys.Ev.setPose 5 buf 0 msg).Request := .setPose ..

/-- Three copies of a reading of two variables. -/
example : pairDemo.NoAngles ∧ (∀ i, pairDemo.z i = .fin ((fun _ => 1 : State) i)) ∧
    ∀ i, pairDemo.upd i = true → 1e-9 * ((3 : ℕ) : ℝ) ≤ pairDemo.R i i := by
  refine ⟨?_, fun _ => rfl, fun i _ => ?_⟩
  · rintro i (rfl | rfl | rfl) <;> rfl
  · show _ ≤ (1 : Mat15) i i
    rw [Matrix.one_apply_eq]
    norm_num

/-- A robot that drives ahead and turns. -/
noncomputable def surelyMsg : TwistMsg := { towMsg with cov := copyOut6 1 }

example : ∃ c, loadNode towedParams = some c ∧ ∃ m, Sent.odom 1000000000 (some m) ∈
    ((Sys.start c.sys (demoQ c.par) () (0 : Fin 6 → ℝ) 0 ⟨0, 0, 0, 0⟩).run (ekfView c.par) c.sys
      [.twist 0 noTf 0 surelyMsg, .twist 0 noTf 0 surelyMsg, .tick 2000000000 2000000000 noTf]).2 ∧
      m.lin = ![.fin 1, .fin 0, .fin 0] ∧ m.twistCov 0 = 1 / 2 := by
  obtain ⟨c, h⟩ := towed_starts
  obtain ⟨-, hb⟩ := towed_frames h
  have hc : msgCov surelyMsg.cov = 1 := by
    rw [← copyCov6_eq]
    exact copyCov6_copyOut6 1
  obtain ⟨m, h1, h2, -, h3⟩ := C139_counts_twice h (towed_off _ (by simp [towedParams])) (towed_off _ (by simp [towedParams]))
    (towed_off _ (by simp [towedParams])) (towed_off _ (by simp [towedParams])) (towed_off _ (by simp [towedParams])) 0 0 ⟨0, 0, 0, 0⟩
    (towed_inputs h).2 rfl (fun j hj => by interval_cases j <;> simp [Selects, keel]) rfl noTf noTf_sane 0 surelyMsg hb.symm
    (fun k => by fin_cases k <;> rfl) (fun k => by fin_cases k <;> rfl) (by rw [hc]; exact PosDef.one)
    (fun k => by rw [hc, Matrix.one_apply_eq]; norm_num) (by norm_num [surelyMsg, towMsg]) 2000000000 2000000000
    (by norm_num [surelyMsg, towMsg]) noTf
  refine ⟨c, h, m, h1, h2, (h3 0).trans ?_⟩
  show (1 : M6) 0 0 / 2 = 1 / 2
  rw [Matrix.one_apply_eq]

end RL
