import Verif.Props.Output
import Verif.Props.Services
import Verif.Props.NodeControl
import Verif.Proofs.System
/-! # C126: the messages of a cycle belong together; C28 for the messages -/

namespace RL
open Matrix Nav

variable {C : Core} {P : MQueue C}

/-- The transform can be broadcast: the estimate is about the odometry frame, or about the map frame and it is known where
the base is in the odometry frame. -/
def Frames.Linked (fr : Frames) (buf : TfBuffer) : Prop :=
  fr.world = fr.odom ∨ (fr.world = fr.map ∧ ∃ T, buf fr.base fr.odom 0 = some T)

/-- The pose in an odometry message. -/
noncomputable def OdomMsg.tf (m : OdomMsg) : Tf := { rot := m.ori.mat, org := m.pos }

/-- A transform that says what the odometry message says. -/
structure SaysSame (fr : Frames) (buf : TfBuffer) (off : Int) (om : OdomMsg) (b : TfMsg) : Prop where
  stamp : b.stamp = om.stamp + off
  same : fr.world = fr.odom → b.frame = om.frame ∧ b.child = om.child ∧ b.tf = om.tf
  composed : fr.world ≠ fr.odom → b.frame = om.frame ∧ b.child = fr.odom ∧
    ∀ ob : Tf, IsRot ob.rot → KnowsOdom buf fr 0 ob → b.tf.mul ob = om.tf

section
variable (V : View C) (g : SysCfg C)

theorem tfDue_iff (fr : Frames) (buf : TfBuffer) : Sys.tfDue fr buf = true ↔ fr.Linked buf := by
  unfold Sys.tfDue Frames.Linked
  simp [Option.isSome_iff_exists]

theorem broadcast_fits (fr : Frames) (buf : TfBuffer) (off : Int) (x : State) (M : Mat15) (t : Int) {m : OdomMsg}
    (hm : odomMessage fr true x M t = some m) (hl : fr.Linked buf) :
    ∃ b, broadcast fr buf off m = some b ∧ SaysSame fr buf off m b := by
  obtain ⟨m', e, hst, hfr, hch, -, hp, -⟩ := (C41_odometry fr true x M t).2 rfl
  rw [e] at hm
  obtain rfl := Option.some.inj hm
  by_cases hw : fr.world = fr.odom
  · obtain ⟨b, h1, h2, h3, h4, h5⟩ := C42_odom_to_base fr buf off true x M t m' e hw
    exact ⟨b, h1, by rw [h4, hst], fun _ => ⟨by rw [h2, hfr, hw], by rw [h3, hch], h5.trans hp.symm⟩, fun h => absurd hw h⟩
  · rcases hl with h | ⟨hwm, T, hT⟩
    · exact absurd h hw
    · have hb : ∃ b, broadcast fr buf off m' = some b ∧ b.stamp = m'.stamp + off ∧ b.frame = fr.map ∧ b.child = fr.odom := by
        refine ⟨_, by
          unfold broadcast
          rw [if_neg (by rw [hfr]; exact hw), if_pos (by rw [hfr, hwm]), hT, Option.map_some], rfl, rfl, rfl⟩
      obtain ⟨b, h1, h2, h3, h4⟩ := hb
      refine ⟨b, h1, h2, fun h => absurd h hw, fun _ => ⟨by rw [h3, hfr, hwm], h4, fun ob hrot hob => ?_⟩⟩
      obtain ⟨b', g1, -, -, -, g5, -⟩ := C42_map_to_base fr buf off true x M t m' e hwm (by rw [← hwm]; exact hw) ob hrot hob
      rw [h1] at g1
      obtain rfl := Option.some.inj g1
      exact g5.trans hp.symm

open Classical in
/-- **C126**: a cycle sends nothing, or one odometry message, together with one transform exactly if transforms are to be
published and there is one, and with one acceleration exactly if accelerations are to be published.  All have the stamp of
the estimate (the transform plus the configured offset), the frames of the configuration, and the transform is the pose of
the odometry message: itself if the world frame is the odometry frame, or in composition with the pose of the base in the
odometry frame.  If one of the three is not of finite numbers, then none is. -/
theorem C126_cycle (s : Sys C P) (now now2 : Int) (buf : TfBuffer) :
    (s.cycle V g now now2 buf).2 = [] ∨ ∃ t mo mt ma,
      (s.cycle V g now now2 buf).2 = (if g.cfg.publishTf = true ∧ g.frames.Linked buf then [.tf t mt] else []) ++ [.odom t mo] ++
        (if g.cfg.publishAccel = true then [.accel t ma] else []) ∧
      (mo = none → mt = none ∧ ma = none) ∧
      ∀ om, mo = some om → om.stamp = t ∧ om.frame = g.frames.world ∧ om.child = g.frames.baseOut ∧
        (g.frames.Linked buf → ∃ b, mt = some b ∧ SaysSame g.frames buf g.tfOffset om b) ∧
        ∃ a, ma = some a ∧ a.stamp = t ∧ a.frame = g.frames.baseOut := by
  unfold Sys.cycle
  by_cases he : s.hub.node.enabled = true
  swap
  · rw [if_neg he]
    exact Or.inl rfl
  rw [if_pos he]
  dsimp only
  obtain ⟨a, ha⟩ : ∃ a, a = s.hub.node.advance g.cfg now now2 := ⟨_, rfl⟩
  have hp : (s.hub.node.periodic g.cfg now now2 (Sys.tfDue g.frames buf)).2 = (a.publish g.cfg (Sys.tfDue g.frames buf)).2 := by
    unfold Node.periodic
    rw [if_neg (by simpa using he), ha]
  rw [hp, ← ha]
  generalize s.differ V now a = d
  unfold Node.publish
  by_cases hi : a.filt.initialized = true
  swap
  · rw [if_neg hi]
    exact Or.inl rfl
  rw [if_pos hi]
  dsimp only
  by_cases hc : (!g.cfg.permitCorrected && decide (a.lastPub ≥ a.filt.lastTime)) = true
  · left
    simp [hc]
  · right
    have hc' : (!g.cfg.permitCorrected && decide (a.lastPub ≥ a.filt.lastTime)) = false := by simpa using hc
    rw [hc']
    refine ⟨a.filt.lastTime, (V.state a.filt.x).bind fun y => odomMessage g.frames true y (V.cov a.filt.cov) a.filt.lastTime,
      (V.state a.filt.x).bind fun y => (odomMessage g.frames true y (V.cov a.filt.cov) a.filt.lastTime).bind fun m =>
        broadcast g.frames buf g.tfOffset m,
      (V.state a.filt.x).bind fun y => accelMessage g.frames true y (V.cov a.filt.cov) a.filt.lastTime d, ?_, ?_, ?_⟩
    · have e1 : (g.cfg.publishTf && !false && Sys.tfDue g.frames buf) = true ↔ g.cfg.publishTf = true ∧ g.frames.Linked buf := by
        rw [← tfDue_iff]
        simp
      have e2 : (!false && g.cfg.publishAccel) = g.cfg.publishAccel := by simp
      simp only [List.map_append, e2]
      by_cases h1 : g.cfg.publishTf = true ∧ g.frames.Linked buf
      · rw [if_pos h1, if_pos (e1.2 h1)]
        by_cases h2 : g.cfg.publishAccel = true
        · rw [if_pos h2, if_pos h2]
          rfl
        · rw [if_neg h2, if_neg h2]
          rfl
      · rw [if_neg h1, if_neg fun h => h1 (e1.1 h)]
        by_cases h2 : g.cfg.publishAccel = true
        · rw [if_pos h2, if_pos h2]
          rfl
        · rw [if_neg h2, if_neg h2]
          rfl
    · intro hm
      cases hx : V.state a.filt.x with
      | none => exact ⟨rfl, rfl⟩
      | some y =>
        rw [hx] at hm
        obtain ⟨m, em, -⟩ := (C41_odometry g.frames true y (V.cov a.filt.cov) a.filt.lastTime).2 rfl
        rw [Option.bind_some, em] at hm
        cases hm
    · intro om hom
      cases hx : V.state a.filt.x with
      | none => rw [hx] at hom; cases hom
      | some y =>
        rw [hx, Option.bind_some] at hom
        obtain ⟨m, em, h1, h2, h3, -⟩ := (C41_odometry g.frames true y (V.cov a.filt.cov) a.filt.lastTime).2 rfl
        have e : m = om := by
          rw [em] at hom
          exact Option.some.inj hom
        subst e
        refine ⟨h1, h2, h3, fun hl => ?_, ?_⟩
        · obtain ⟨b, hb, hf⟩ := broadcast_fits g.frames buf g.tfOffset y _ _ em hl
          exact ⟨b, by rw [Option.bind_some, em, Option.bind_some, hb], hf⟩
        · refine ⟨_, by rw [Option.bind_some, accelMessage, if_pos rfl], rfl, rfl⟩

/-- How many messages of each kind. -/
def Sent.isOdom : Sent → Bool
  | .odom _ _ => true
  | _ => false
def Sent.isTf : Sent → Bool
  | .tf _ _ => true
  | _ => false
def Sent.isAccel : Sent → Bool
  | .accel _ _ => true
  | _ => false

theorem step_silent (s : Sys C P) (e : Sys.Ev) (h : ∀ now now2 buf, e ≠ .tick now now2 buf) : (s.step V g e).2 = [] := by
  cases e with
  | tick now now2 buf => exact absurd rfl (h now now2 buf)
  | odom i buf junk msg =>
    unfold Sys.step
    dsimp only
    split
    · split <;> rfl
    · rfl
  | pose i buf junk msg =>
    unfold Sys.step
    dsimp only
    split
    · split <;> rfl
    · rfl
  | twist i buf junk msg =>
    unfold Sys.step
    dsimp only
    split
    · split <;> rfl
    · rfl
  | imu i buf junk msg =>
    unfold Sys.step
    dsimp only
    split
    · split <;> rfl
    · rfl
  | _ => rfl

/-- C126 for whole runs: as many accelerations as odometry messages, or none; as many transforms as odometry messages if
the world frame is the odometry frame, never more, and none if they are not to be published or the world frame is neither
the odometry nor the map frame. -/
theorem C126_counts (s : Sys C P) (es : List Sys.Ev) :
    (g.cfg.publishAccel = true → (s.run V g es).2.countP Sent.isAccel = (s.run V g es).2.countP Sent.isOdom) ∧
    (g.cfg.publishAccel = false → (s.run V g es).2.countP Sent.isAccel = 0) ∧
    (g.cfg.publishTf = true → g.frames.world = g.frames.odom →
      (s.run V g es).2.countP Sent.isTf = (s.run V g es).2.countP Sent.isOdom) ∧
    (s.run V g es).2.countP Sent.isTf ≤ (s.run V g es).2.countP Sent.isOdom ∧
    (g.cfg.publishTf = false ∨ g.frames.world ≠ g.frames.odom ∧ g.frames.world ≠ g.frames.map →
      (s.run V g es).2.countP Sent.isTf = 0) := by
  induction es generalizing s with
  | nil => exact ⟨fun _ => rfl, fun _ => rfl, fun _ _ => rfl, le_rfl, fun _ => rfl⟩
  | cons e es ih =>
    obtain ⟨i1, i2, i3, i4, i5⟩ := ih (s.step V g e).1
    have hr : (s.run V g (e :: es)).2 = (s.step V g e).2 ++ ((s.step V g e).1.run V g es).2 := rfl
    have hs : (g.cfg.publishAccel = true → (s.step V g e).2.countP Sent.isAccel = (s.step V g e).2.countP Sent.isOdom) ∧
        (g.cfg.publishAccel = false → (s.step V g e).2.countP Sent.isAccel = 0) ∧
        (g.cfg.publishTf = true → g.frames.world = g.frames.odom →
          (s.step V g e).2.countP Sent.isTf = (s.step V g e).2.countP Sent.isOdom) ∧
        (s.step V g e).2.countP Sent.isTf ≤ (s.step V g e).2.countP Sent.isOdom ∧
        (g.cfg.publishTf = false ∨ g.frames.world ≠ g.frames.odom ∧ g.frames.world ≠ g.frames.map →
          (s.step V g e).2.countP Sent.isTf = 0) := by
      by_cases ht : ∃ now now2 buf, e = .tick now now2 buf
      · obtain ⟨now, now2, buf, rfl⟩ := ht
        show _ ∧ _ ∧ _ ∧ _ ∧ _
        have hst : (s.step V g (.tick now now2 buf)).2 = (s.cycle V g now now2 buf).2 := rfl
        rw [hst]
        rcases C126_cycle V g s now now2 buf with h | ⟨t, mo, mt, ma, h, -, -⟩
        · rw [h]
          exact ⟨fun _ => rfl, fun _ => rfl, fun _ _ => rfl, le_rfl, fun _ => rfl⟩
        · rw [h]
          by_cases h1 : g.cfg.publishTf = true ∧ g.frames.Linked buf
          · have n1 : ¬ (g.cfg.publishTf = false ∨ g.frames.world ≠ g.frames.odom ∧ g.frames.world ≠ g.frames.map) := by
              rintro (h | ⟨h3, h4⟩)
              · exact absurd (h1.1.symm.trans h) (by decide)
              · rcases h1.2 with h5 | h5
                · exact h3 h5
                · exact h4 h5.1
            rw [if_pos h1]
            by_cases h2 : g.cfg.publishAccel = true
            · rw [if_pos h2]
              exact ⟨fun _ => rfl, fun h => absurd (h2.symm.trans h) (by decide), fun _ _ => rfl, le_rfl, fun h => absurd h n1⟩
            · rw [if_neg h2]
              exact ⟨fun h => absurd h h2, fun _ => rfl, fun _ _ => rfl, le_rfl, fun h => absurd h n1⟩
          · rw [if_neg h1]
            by_cases h2 : g.cfg.publishAccel = true
            · rw [if_pos h2]
              exact ⟨fun _ => rfl, fun h => absurd (h2.symm.trans h) (by decide), fun h h' => absurd ⟨h, Or.inl h'⟩ h1, Nat.zero_le _, fun _ => rfl⟩
            · rw [if_neg h2]
              exact ⟨fun h => absurd h h2, fun _ => rfl, fun h h' => absurd ⟨h, Or.inl h'⟩ h1, Nat.zero_le _, fun _ => rfl⟩
      · rw [step_silent V g s e fun a b c h => ht ⟨a, b, c, h⟩]
        exact ⟨fun _ => rfl, fun _ => rfl, fun _ _ => rfl, le_rfl, fun _ => rfl⟩
    obtain ⟨j1, j2, j3, j4, j5⟩ := hs
    rw [hr]
    simp only [List.countP_append]
    exact ⟨fun h => by rw [i1 h, j1 h], fun h => by rw [i2 h, j2 h], fun h h' => by rw [i3 h h', j3 h h'], by omega,
      fun h => by rw [i5 h, j5 h]⟩

/-! ## Switched off -/

/-- What may happen while processing stays switched off: messages, commands, cycles. -/
def Sys.Ev.passive : Sys.Ev → Bool
  | .toggle _ => false
  | .setPose _ _ _ _ => false
  | .reset => false
  | _ => true

/-- A message about the estimate `x` with covariance `M` and the angular acceleration `d`, at whatever time. -/
def Sent.About (fr : Frames) (off : Int) (x : Option State) (M : Mat15) (d : Differ) : Sent → Prop
  | .odom t m => m = x.bind fun y => odomMessage fr true y M t
  | .tf t m => ∃ buf, m = x.bind fun y => (odomMessage fr true y M t).bind fun o => broadcast fr buf off o
  | .accel t m => m = x.bind fun y => accelMessage fr true y M t d

theorem events_passive (s : Sys C P) {e : Sys.Ev} (he : e.passive = true) : ∀ v ∈ s.events V g e, v.passive = true := by
  intro v hv
  cases e with
  | odom i buf junk msg =>
    unfold Sys.events at hv
    dsimp only at hv
    split at hv
    · split at hv
      · unfold Hub.odomEvents at hv
        rcases List.mem_append.1 hv with h | h
        · split at h
          · rw [List.mem_singleton.1 h]; rfl
          · cases h
        · split at h
          · rw [List.mem_singleton.1 h]; rfl
          · cases h
      · cases hv
    · cases hv
  | pose i buf junk msg =>
    unfold Sys.events at hv
    dsimp only at hv
    split at hv
    · split at hv
      · rw [List.mem_singleton.1 hv]; rfl
      · cases hv
    · cases hv
  | twist i buf junk msg =>
    unfold Sys.events at hv
    dsimp only at hv
    split at hv
    · split at hv
      · rw [List.mem_singleton.1 hv]; rfl
      · cases hv
    · cases hv
  | imu i buf junk msg =>
    unfold Sys.events at hv
    dsimp only at hv
    split at hv
    · split at hv
      · unfold Hub.imuEvents at hv
        rcases List.mem_append.1 hv with h | h
        · split at h
          · rw [List.mem_singleton.1 h]; rfl
          · cases h
        · rcases List.mem_append.1 h with h | h
          · split at h
            · rw [List.mem_singleton.1 h]; rfl
            · cases h
          · split at h
            · rw [List.mem_singleton.1 h]; rfl
            · cases h
      · cases hv
    · cases hv
  | command now u => rw [List.mem_singleton.1 hv]; rfl
  | enable => rw [List.mem_singleton.1 hv]; rfl
  | tick now now2 buf => rw [List.mem_singleton.1 hv]; rfl
  | setPose now buf junk msg => cases he
  | reset => cases he
  | toggle on => cases he

theorem differ_off (s : Sys C P) (now : Int) (a : Node C P) (hoff : s.hub.node.toggledOn = false) : s.differ V now a = s.diff := by
  unfold Sys.differ
  rw [if_neg (by rw [hoff]; decide)]

theorem diff_off (s : Sys C P) (e : Sys.Ev) (hoff : s.hub.node.toggledOn = false) : (s.step V g e).1.diff = s.diff := by
  cases e with
  | odom i buf junk msg =>
    unfold Sys.step
    dsimp only
    split
    · split <;> rfl
    · rfl
  | pose i buf junk msg =>
    unfold Sys.step
    dsimp only
    split
    · split <;> rfl
    · rfl
  | twist i buf junk msg =>
    unfold Sys.step
    dsimp only
    split
    · split <;> rfl
    · rfl
  | imu i buf junk msg =>
    unfold Sys.step
    dsimp only
    split
    · split <;> rfl
    · rfl
  | tick now now2 buf =>
    show (s.cycle V g now now2 buf).1.diff = s.diff
    unfold Sys.cycle
    split
    · exact differ_off V s now _ hoff
    · rfl
  | _ => rfl

theorem about_off (s : Sys C P) (e : Sys.Ev) (hoff : s.hub.node.toggledOn = false) : ∀ m ∈ (s.step V g e).2,
    m.About g.frames g.tfOffset (V.state s.hub.node.filt.x) (V.cov s.hub.node.filt.cov) s.diff := by
  intro m hm
  by_cases ht : ∃ now now2 buf, e = .tick now now2 buf
  · obtain ⟨now, now2, buf, rfl⟩ := ht
    have hadv : (s.hub.node.advance g.cfg now now2).filt.x = s.hub.node.filt.x ∧
        (s.hub.node.advance g.cfg now now2).filt.cov = s.hub.node.filt.cov := by
      unfold Node.advance
      simp only [hoff]
      cases s.hub.node.filt.initialized <;> exact ⟨rfl, rfl⟩
    have hm : m ∈ (s.cycle V g now now2 buf).2 := hm
    unfold Sys.cycle at hm
    split at hm
    swap
    · cases hm
    dsimp only at hm
    rw [differ_off V s now _ hoff] at hm
    obtain ⟨o, ho, rfl⟩ := List.mem_map.1 hm
    cases o with
    | odom t x cov =>
      have : x = s.hub.node.filt.x ∧ cov = s.hub.node.filt.cov := by
        unfold Node.periodic at ho
        split at ho
        · cases ho
        unfold Node.publish at ho
        dsimp only at ho
        split at ho
        · simp only [List.mem_append] at ho
          rcases ho with (ho | ho) | ho
          · split at ho
            · cases List.mem_singleton.1 ho
            · cases ho
          · split at ho
            · have := List.mem_singleton.1 ho
              injection this with h1 h2 h3
              exact ⟨h2.trans hadv.1, h3.trans hadv.2⟩
            · cases ho
          · split at ho
            · cases List.mem_singleton.1 ho
            · cases ho
        · cases ho
      show _ = _
      rw [this.1, this.2]
    | tf t =>
      refine ⟨buf, ?_⟩
      show _ = _
      rw [hadv.1, hadv.2]
    | accel t =>
      show _ = _
      rw [hadv.1, hadv.2]
  · rw [step_silent V g s e fun a b c h => ht ⟨a, b, c, h⟩] at hm
    cases hm

/-- C28 for the messages: while processing is switched off, all that is sent is about the estimate and the angular
acceleration there were when it was switched off, whatever arrives. -/
theorem C28_same_messages (es : List Sys.Ev) (hp : ∀ e ∈ es, e.passive = true) (s : Sys C P) (hoff : s.hub.node.toggledOn = false) :
    (∀ m ∈ (s.run V g es).2, m.About g.frames g.tfOffset (V.state s.hub.node.filt.x) (V.cov s.hub.node.filt.cov) s.diff) ∧
    (s.run V g es).1.diff = s.diff := by
  induction es generalizing s with
  | nil => exact ⟨fun m hm => (by cases hm), rfl⟩
  | cons e es ih =>
    have hpe := hp e List.mem_cons_self
    obtain ⟨e1, -⟩ := s.step_eq V g e
    have hpas := events_passive V g s hpe
    obtain ⟨a1, a2, -, a4⟩ := C28_frozen_while_off g.cfg (s.events V g e) hpas s.hub.node hoff
    rw [← e1] at a1 a2 a4
    have hdiff := diff_off V g s e hoff
    obtain ⟨i1, i2⟩ := ih (fun e' he' => hp e' (List.mem_cons_of_mem _ he')) (s.step V g e).1 a4
    rw [a1, a2, hdiff] at i1
    rw [hdiff] at i2
    refine ⟨fun m hm => ?_, i2⟩
    rcases List.mem_append.1 (show m ∈ (s.step V g e).2 ++ ((s.step V g e).1.run V g es).2 from hm) with hm | hm
    · exact about_off V g s e hoff m hm
    · exact i1 m hm

/-- A node with an estimate, switched off, goes on sending. -/
example (s : Sys C P) (now now2 : Int) (buf : TfBuffer) (he : s.hub.node.enabled = true) (hoff : s.hub.node.toggledOn = false)
    (hi : s.hub.node.filt.initialized = true) (hl : s.hub.node.lastPub < now2) : (s.cycle V g now now2 buf).2 ≠ [] := by
  unfold Sys.cycle
  rw [if_pos he]
  dsimp only
  have hadv : s.hub.node.advance g.cfg now now2 =
      { s.hub.node with queue := P.empty, filt := s.hub.node.filt.setLastTime now2 } := by
    unfold Node.advance
    rw [if_neg (by rw [hoff]; decide), if_pos hi]
  have hp : (s.hub.node.periodic g.cfg now now2 (Sys.tfDue g.frames buf)).2 =
      ((s.hub.node.advance g.cfg now now2).publish g.cfg (Sys.tfDue g.frames buf)).2 := by
    unfold Node.periodic
    rw [if_neg (by simpa using he)]
  rw [hp, hadv]
  unfold Node.publish
  have hl' : ¬ now2 ≤ s.hub.node.lastPub := by omega
  simp [hi, Filt.setLastTime, hl']

end

theorem counts_parameters {o : Given} {c : NodeConf} (h : loadNode o = some c) {C : Core} {Q : MQueue C} (V : View C) (g : SysCfg C)
    (k1 : g.cfg.publishTf = c.cfg.publishTf) (k2 : g.cfg.publishAccel = c.cfg.publishAccel) (k3 : g.frames = c.frames) (s : Sys C Q)
    (es : List Sys.Ev) :
    (o.On "publish_acceleration" → (s.run V g es).2.countP Sent.isAccel = (s.run V g es).2.countP Sent.isOdom) ∧
    (¬ o.On "publish_acceleration" → (s.run V g es).2.countP Sent.isAccel = 0) ∧
    (o "publish_tf" = none → o "world_frame" = none → (s.run V g es).2.countP Sent.isTf = (s.run V g es).2.countP Sent.isOdom) ∧
    (o "publish_tf" = some (.bool false) → (s.run V g es).2.countP Sent.isTf = 0) := by
  have d := C102_settings_partial h
  obtain ⟨-, -, -, hf, ha, -⟩ := C102_flow h
  obtain ⟨c1, c2, c3, -, c5⟩ := C126_counts V g s es
  refine ⟨fun hon => c1 (by rw [k2, ha]; exact hon), fun hon => c2 ?_, fun h1 h2 => c3 (by rw [k1, hf]; exact Or.inl h1) ?_,
    fun h1 => c5 (Or.inl ?_)⟩
  · rw [k2, ← Bool.not_eq_true, ha]
    exact hon
  · rw [k3]
    rcases d.frames.world with h3 | h3
    · rw [h2] at h3
      cases h3
    · exact h3.2
  · rw [k1, ← Bool.not_eq_true, hf]
    rintro (h2 | h2)
    · rw [h1] at h2
      cases h2
    · have h2 : o "publish_tf" = some (.bool true) := h2
      rw [h1] at h2
      simp at h2

/-- C126 from the parameters: accelerations are sent exactly if `publish_acceleration` is set, one with each odometry
message; where `publish_tf` and `world_frame` are left alone, one transform is sent with each odometry message, and none if
`publish_tf` is set to false. -/
theorem C126_parameters {o : Given} {c : NodeConf} (h : loadNode o = some c) {Q : MQueue (ekfCore c.par)} (s : Sys (ekfCore c.par) Q)
    (es : List Sys.Ev) {sent : List Sent} (hs : sent = (s.run (ekfView c.par) c.sys es).2) :
    (o.On "publish_acceleration" → sent.countP Sent.isAccel = sent.countP Sent.isOdom) ∧
    (¬ o.On "publish_acceleration" → sent.countP Sent.isAccel = 0) ∧
    (o "publish_tf" = none → o "world_frame" = none → sent.countP Sent.isTf = sent.countP Sent.isOdom) ∧
    (o "publish_tf" = some (.bool false) → sent.countP Sent.isTf = 0) := by
  rw [hs]
  exact counts_parameters h _ _ rfl rfl rfl s es

/-- C126 from the parameters, for the unscented filter. -/
theorem C126_parameters_ukf {o : Given} {c : NodeConf} (h : loadNode o = some c) (llt : Llt) (k : UkfConst)
    {Q : MQueue (ukfCore c.par llt k)} (s : Sys (ukfCore c.par llt k) Q) (es : List Sys.Ev) {sent : List Sent}
    (hs : sent = (s.run (ukfView c.par llt k) (c.ukfSys llt k) es).2) :
    (o.On "publish_acceleration" → sent.countP Sent.isAccel = sent.countP Sent.isOdom) ∧
    (¬ o.On "publish_acceleration" → sent.countP Sent.isAccel = 0) ∧
    (o "publish_tf" = none → o "world_frame" = none → sent.countP Sent.isTf = sent.countP Sent.isOdom) ∧
    (o "publish_tf" = some (.bool false) → sent.countP Sent.isTf = 0) := by
  rw [hs]
  exact counts_parameters h _ _ rfl rfl rfl s es

end RL
