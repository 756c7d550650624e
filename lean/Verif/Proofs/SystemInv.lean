import Verif.Proofs.System
import Verif.Proofs.NodeInv
/-! # Invariants of the estimate, along runs of the whole node -/

namespace RL
variable {C : Core} {P : MQueue C} {cfg : Cfg C} {I I0 : C.X → C.Cov → Prop} {Kz : C.Z → Prop} {Kc : C.Ctl → Prop}

/-- The message is not taken: older than the pose last set or than the last message of its topic. -/
def Node.Drops (n : Node C P) (topic : String) (stamp : Int) : Prop := n.stale stamp ∨ stamp < (n.lastMsg topic).getD stamp

theorem Node.sensor_drops {n : Node C P} {topic : String} {stamp : Int} (h : n.Drops topic stamp) (z : Option C.Z) :
    n.sensor topic stamp z = n := by
  rcases h with h | h
  · exact n.sensor_stale _ _ _ h
  · unfold Node.sensor
    split
    · rfl
    · dsimp only
      rw [if_neg (by omega)]

/-- The assumptions about an event; nothing about messages that are not taken. -/
def Node.Takes (I I0 : C.X → C.Cov → Prop) (Kz : C.Z → Prop) (Kc : C.Ctl → Prop) (n : Node C P) : Node.Event C → Prop
  | .sensor topic stamp z => n.Drops topic stamp ∨ ∀ q, z = some q → Kz q
  | e => n.Ok I I0 Kz Kc e

theorem NInv.takes (h : EstInv cfg I I0 Kz Kc) {n : Node C P} (hn : NInv cfg I I0 Kz Kc n) {k : Int}
    (hh : HInv cfg k n) (e : Node.Event C) (hc : Clocked k [e]) (he : n.Takes I I0 Kz Kc e) :
    NInv cfg I I0 Kz Kc (n.step cfg e).1 ∧ ∀ s x cov, Out.odom s x cov ∈ (n.step cfg e).2 → I x cov := by
  cases e with
  | sensor topic stamp z =>
    rcases he with he | he
    · have e : n.step cfg (.sensor topic stamp z) = (n, []) := congrArg (fun a => (a, [])) (Node.sensor_drops he z)
      rw [e]
      exact ⟨hn, fun _ _ _ h => absurd h List.not_mem_nil⟩
    · refine hn.step h hh _ hc ?_
      cases z with
      | none => trivial
      | some q => exact he q rfl
  | _ => exact hn.step h hh _ hc he

theorem NInv.takesAll (h : EstInv cfg I I0 Kz Kc) (es : List (Node.Event C)) : ∀ {n : Node C P} {k : Int},
    NInv cfg I I0 Kz Kc n → HInv cfg k n → 0 ≤ k → Clocked k es → Along cfg (Node.Takes I I0 Kz Kc) n es →
    NInv cfg I I0 Kz Kc (n.run cfg es).1 ∧ HInv cfg (clockAfter k es) (n.run cfg es).1 ∧
      ∀ s x cov, Out.odom s x cov ∈ (n.run cfg es).2 → I x cov := by
  induction es with
  | nil => intro n k hn hh _ _ _; exact ⟨hn, hh, by intro s x cov hm; simp [Node.run] at hm⟩
  | cons e es ih =>
    intro n k hn hh hk hc he
    obtain ⟨h1, h2, h3⟩ := hc.cons
    obtain ⟨s1, s2⟩ := hn.takes h hh e h1 he.1
    have hs := hh.step hk e h1
    obtain ⟨r1, r2, r3⟩ := ih s1 hs (by omega) h2 he.2
    refine ⟨r1, ?_, fun s x cov hm => ?_⟩
    · have e' : clockAfter k (e :: es) = clockAfter (clockAfter k [e]) es := by cases e <;> rfl
      rw [e']
      exact r2
    · rcases List.mem_append.1 hm with hm | hm
      · exact s2 s x cov hm
      · exact r3 s x cov hm

/-- The clock does not run backwards. -/
def Ticks : Int → List Sys.Ev → Prop
  | _, [] => True
  | k, .tick now now2 _ :: es => k ≤ now ∧ now ≤ now2 ∧ Ticks now2 es
  | k, .setPose now _ _ _ :: es => k ≤ now ∧ Ticks now es
  | k, _ :: es => Ticks k es

theorem sensors_silent (as : List (Node.Event C)) (h : ∀ a ∈ as, ∃ topic stamp z, a = .sensor topic stamp z) : ∀ n : Node C P,
    (n.run cfg as).2 = [] := by
  induction as with
  | nil => intro n; rfl
  | cons a as ih =>
    intro n
    obtain ⟨topic, stamp, z, rfl⟩ := h a List.mem_cons_self
    exact ih (fun b hb => h b (List.mem_cons_of_mem _ hb)) _

theorem clocked_sensors (as : List (Node.Event C)) (h : ∀ a ∈ as, ∃ topic stamp z, a = .sensor topic stamp z) (k : Int) :
    Clocked k as ∧ clockAfter k as = k := by
  induction as with
  | nil => exact ⟨trivial, rfl⟩
  | cons a as ih =>
    obtain ⟨topic, stamp, z, rfl⟩ := h a List.mem_cons_self
    exact ih fun b hb => h b (List.mem_cons_of_mem _ hb)

/-- Whatever a cycle sends is about the estimate that the odometry message is made of. -/
theorem periodic_outs {C : Core} {P : MQueue C} (cfg : Cfg C) (n : Node C P) (now now2 : Int) (tfOk : Bool) (t : Int)
    (h : Out.tf t ∈ (n.periodic cfg now now2 tfOk).2 ∨ Out.accel t ∈ (n.periodic cfg now now2 tfOk).2) :
    Out.odom t (n.advance cfg now now2).filt.x (n.advance cfg now now2).filt.cov ∈ (n.periodic cfg now now2 tfOk).2 := by
  unfold Node.periodic at h ⊢
  cases he : n.enabled with
  | false => simp [he] at h
  | true =>
    simp only [he, Bool.not_true, Bool.false_eq_true, if_false] at h ⊢
    unfold Node.publish at h ⊢
    cases hi : (n.advance cfg now now2).filt.initialized with
    | false => simp [hi] at h
    | true =>
      simp only [hi, if_true] at h ⊢
      cases hc : (!cfg.permitCorrected && decide ((n.advance cfg now now2).lastPub ≥ (n.advance cfg now now2).filt.lastTime)) with
      | true => simp [hc] at h
      | false =>
        simp only [hc, Bool.not_false, if_true, Bool.and_true, Bool.true_and, List.mem_append, List.mem_singleton] at h ⊢
        have e : t = (n.advance cfg now now2).filt.lastTime := by
          rcases h with ((h | h) | h) | ((h | h) | h)
          · split at h
            · rw [List.mem_singleton] at h
              injection h
            · cases h
          · cases h
          · split at h
            · rw [List.mem_singleton] at h
              cases h
            · cases h
          · split at h
            · rw [List.mem_singleton] at h
              cases h
            · cases h
          · cases h
          · split at h
            · rw [List.mem_singleton] at h
              injection h
            · cases h
        rw [e]
        exact Or.inl (Or.inr rfl)

/-! ## What the callbacks do -/

theorem along_sensors (as : List (Node.Event C)) : ∀ n : Node C P,
    (∀ a ∈ as, ∃ topic stamp z, a = .sensor topic stamp z ∧ ∀ q, z = some q → Kz q) → Along cfg (Node.Takes I I0 Kz Kc) n as := by
  induction as with
  | nil => intro n _; trivial
  | cons a as ih =>
    intro n h
    obtain ⟨topic, stamp, z, rfl, hz⟩ := h a List.mem_cons_self
    exact ⟨Or.inr hz, ih _ fun b hb => h b (List.mem_cons_of_mem _ hb)⟩

theorem map_forall {mk : Payload → C.Z} {z : Option Payload} (h : ∀ q, z = some q → Kz (mk q)) : ∀ q, z.map mk = some q → Kz q := by
  intro q hq
  obtain ⟨p, hp, rfl⟩ := Option.map_eq_some_iff.1 hq
  exact h p hp

/-- The pose of a message is not taken, or what is made of it is fine. -/
def Hub.PoseFine (Kz : C.Z → Prop) (mk : Payload → C.Z) (c : PrepCtx) (h : Hub C P) (msg : PoseMsg) (cd : CallbackData) (target source : String)
    (imu : Bool) : Prop :=
  (h.node.lastMsg cd.topic).getD msg.stamp ≤ msg.stamp → ∀ q, h.posePrep c msg cd target source imu = some q → Kz (mk q)

theorem Hub.PoseFine.takes {mk : Payload → C.Z} {c : PrepCtx} {h : Hub C P} {msg : PoseMsg} {cd : CallbackData} {target source : String}
    {imu : Bool} (hf : h.PoseFine Kz mk c msg cd target source imu) :
    h.node.Takes I I0 Kz Kc (.sensor cd.topic msg.stamp ((h.posePrep c msg cd target source imu).map mk)) := by
  by_cases hl : (h.node.lastMsg cd.topic).getD msg.stamp ≤ msg.stamp
  · exact Or.inr (map_forall (hf hl))
  · exact Or.inl (Or.inr (by omega))

theorem Hub.along_odom {mk : Payload → C.Z} {c : PrepCtx} {h : Hub C P} {msg : OdomMsg} {a b : CallbackData}
    (h1 : a.sum > 0 → h.PoseFine Kz mk c msg.asPose a c.world (if a.useChild then msg.child else c.base) false)
    (h2 : b.sum > 0 → ∀ q, prepareTwist c msg.asTwist c.base b.blank = some q → Kz (mk q)) :
    Along cfg (Node.Takes I I0 Kz Kc) h.node (h.odomEvents mk c msg a b) := by
  have key : ∀ n : Node C P, Along cfg (Node.Takes I I0 Kz Kc) n
      (if b.sum > 0 then [.sensor b.topic msg.stamp ((prepareTwist c msg.asTwist c.base b.blank).map mk)] else []) := by
    intro n
    split
    · rename_i hb
      exact ⟨Or.inr (map_forall (h2 hb)), trivial⟩
    · trivial
  unfold Hub.odomEvents
  by_cases ha : a.sum > 0
  · rw [if_pos ha]
    exact ⟨(h1 ha).takes, key _⟩
  · rw [if_neg ha]
    exact key _

theorem Hub.along_imu {mk : Payload → C.Z} {c : PrepCtx} {h : Hub C P} {msg : ImuMsg} {a b d : CallbackData} {grav : Bool}
    (h1 : a.sum > 0 → ¬ |msg.oriCov 0 + 1| < 1e-9 → h.PoseFine Kz mk c msg.asPose a c.base c.base true)
    (h2 : b.sum > 0 → ¬ |msg.velCov 0 + 1| < 1e-9 → ∀ q, prepareTwist c msg.asTwist c.base b.blank = some q → Kz (mk q))
    (h3 : d.sum > 0 → ¬ |msg.accCov 0 + 1| < 1e-9 → ∀ q, prepareAcceleration c grav msg c.base d.relative d.blank = some q → Kz (mk q)) :
    Along cfg (Node.Takes I I0 Kz Kc) h.node (h.imuEvents mk c msg a b d grav) := by
  classical
  have key : ∀ n : Node C P, Along cfg (Node.Takes I I0 Kz Kc) n
      ((if b.sum > 0 ∧ ¬ |msg.velCov 0 + 1| < 1e-9 then
        [.sensor b.topic msg.stamp ((prepareTwist c msg.asTwist c.base b.blank).map mk)] else []) ++
      (if d.sum > 0 ∧ ¬ |msg.accCov 0 + 1| < 1e-9 then
        [.sensor d.topic msg.stamp ((prepareAcceleration c grav msg c.base d.relative d.blank).map mk)] else [])) := by
    intro n
    refine along_sensors _ n fun x hx => ?_
    rcases List.mem_append.1 hx with hx | hx <;> split at hx
    · rename_i hb
      exact ⟨_, _, _, List.mem_singleton.1 hx, map_forall (h2 hb.1 hb.2)⟩
    · cases hx
    · rename_i hb
      exact ⟨_, _, _, List.mem_singleton.1 hx, map_forall (h3 hb.1 hb.2)⟩
    · cases hx
  unfold Hub.imuEvents
  by_cases ha : a.sum > 0 ∧ ¬ |msg.oriCov 0 + 1| < 1e-9
  · rw [if_pos ha]
    exact ⟨(h1 ha.1 ha.2).takes, key _⟩
  · rw [if_neg ha]
    exact key _

variable {M : PoseMem → Prop}

theorem Hub.mem_pose {mk : Payload → C.Z} {c : PrepCtx} {h : Hub C P} {msg : PoseMsg} {cd : CallbackData} {target source : String}
    {imu : Bool} (h0 : M h.mem)
    (h1 : M (preparePose c h.mem ((h.node.lastMsg cd.topic).getD msg.stamp) msg cd.topic target source cd.differential cd.relative imu
      cd.blank).1) : M (h.poseCallback mk c msg cd target source imu).mem := by
  unfold Hub.poseCallback
  split
  · exact h0
  · dsimp only
    split
    · exact h1
    · exact h0

theorem Hub.mem_odom {mk : Payload → C.Z} {c : PrepCtx} {h : Hub C P} {msg : OdomMsg} {a b : CallbackData} (h0 : M h.mem)
    (h1 : a.sum > 0 → M (preparePose c h.mem ((h.node.lastMsg a.topic).getD msg.stamp) msg.asPose a.topic c.world
      (if a.useChild then msg.child else c.base) a.differential a.relative false a.blank).1) :
    M (h.odomCallback mk c msg a b).mem := by
  have key : ∀ hb : Hub C P, M hb.mem → M (if b.sum > 0 then
      hb.twistCallback mk c { frame := msg.child, stamp := msg.stamp, lin := msg.lin, ang := msg.ang, cov := msg.twistCov } b c.base
      else hb).mem := by
    intro hb hm
    split
    · exact hm
    · exact hm
  unfold Hub.odomCallback
  split
  · exact h0
  · refine key _ ?_
    split
    · rename_i ha
      exact Hub.mem_pose (msg := msg.asPose) h0 (h1 ha)
    · exact h0

theorem Hub.mem_imu {mk : Payload → C.Z} {c : PrepCtx} {h : Hub C P} {msg : ImuMsg} {a b d : CallbackData} {grav : Bool} (h0 : M h.mem)
    (h1 : a.sum > 0 → ¬ |msg.oriCov 0 + 1| < 1e-9 → M (preparePose c h.mem ((h.node.lastMsg a.topic).getD msg.stamp) msg.asPose a.topic
      c.base c.base a.differential a.relative true a.blank).1) :
    M (h.imuCallback mk c msg a b d grav).mem := by
  unfold Hub.imuCallback
  split
  · exact h0
  · dsimp only
    have k1 : M (if a.sum > 0 ∧ ¬ |msg.oriCov 0 + 1| < 1e-9 then
        h.poseCallback mk c { frame := msg.frame, stamp := msg.stamp, pos := 0, ori := msg.ori, cov := angularCov msg.oriCov }
          a c.base c.base true
        else h).mem := by
      split
      · rename_i ha
        exact Hub.mem_pose (msg := msg.asPose) h0 (h1 ha.1 ha.2)
      · exact h0
    split <;> split <;> exact k1

namespace Sys
variable (V : View C) (g : SysCfg C)

theorem events_sensors (s : Sys C P) (e : Ev) (h : match e with | .odom .. => True | .pose .. => True | .twist .. => True | .imu .. => True | _ => False) :
    ∀ a ∈ s.events V g e, ∃ topic stamp z, a = .sensor topic stamp z := by
  intro a ha
  cases e with
  | odom i buf junk msg =>
    simp only [events] at ha
    cases hcd : g.inputs.odomCds[i]? with
    | none => simp [hcd] at ha
    | some d =>
      obtain ⟨x, y⟩ := d
      simp only [hcd] at ha
      split at ha
      · unfold Hub.odomEvents at ha
        rcases List.mem_append.1 ha with ha | ha <;> split at ha
        · exact ⟨_, _, _, List.mem_singleton.1 ha⟩
        · cases ha
        · exact ⟨_, _, _, List.mem_singleton.1 ha⟩
        · cases ha
      · cases ha
  | pose i buf junk msg =>
    simp only [events] at ha
    cases hcd : g.inputs.poseCds[i]? with
    | none => simp [hcd] at ha
    | some d =>
      simp only [hcd] at ha
      split at ha
      · exact ⟨_, _, _, List.mem_singleton.1 ha⟩
      · cases ha
  | twist i buf junk msg =>
    simp only [events] at ha
    cases hcd : g.inputs.twistCds[i]? with
    | none => simp [hcd] at ha
    | some d =>
      simp only [hcd] at ha
      split at ha
      · exact ⟨_, _, _, List.mem_singleton.1 ha⟩
      · cases ha
  | imu i buf junk msg =>
    simp only [events] at ha
    cases hcd : g.inputs.imuCds[i]? with
    | none => simp [hcd] at ha
    | some d =>
      obtain ⟨x, y, z⟩ := d
      cases hs : g.inputs.imus[i]? with
      | none => simp [hcd, hs] at ha
      | some set =>
        simp only [hcd, hs] at ha
        split at ha
        · unfold Hub.imuEvents at ha
          rcases List.mem_append.1 ha with ha | ha
          · split at ha
            · exact ⟨_, _, _, List.mem_singleton.1 ha⟩
            · cases ha
          · rcases List.mem_append.1 ha with ha | ha <;> split at ha
            · exact ⟨_, _, _, List.mem_singleton.1 ha⟩
            · cases ha
            · exact ⟨_, _, _, List.mem_singleton.1 ha⟩
            · cases ha
        · cases ha
  | _ => exact h.elim

/-- The clock of the whole node is that of its control flow. -/
theorem ticks_next (s : Sys C P) {k : Int} (hk : 0 ≤ k) {e : Ev} {es : List Ev} (h : Ticks k (e :: es)) :
    Clocked k (s.events V g e) ∧ 0 ≤ clockAfter k (s.events V g e) ∧ Ticks (clockAfter k (s.events V g e)) es := by
  cases e with
  | odom i buf junk msg =>
    obtain ⟨h1, h2⟩ := clocked_sensors _ (s.events_sensors V g (.odom i buf junk msg) trivial) k
    exact ⟨h1, by rw [h2]; exact hk, by rw [h2]; exact h⟩
  | pose i buf junk msg =>
    obtain ⟨h1, h2⟩ := clocked_sensors _ (s.events_sensors V g (.pose i buf junk msg) trivial) k
    exact ⟨h1, by rw [h2]; exact hk, by rw [h2]; exact h⟩
  | twist i buf junk msg =>
    obtain ⟨h1, h2⟩ := clocked_sensors _ (s.events_sensors V g (.twist i buf junk msg) trivial) k
    exact ⟨h1, by rw [h2]; exact hk, by rw [h2]; exact h⟩
  | imu i buf junk msg =>
    obtain ⟨h1, h2⟩ := clocked_sensors _ (s.events_sensors V g (.imu i buf junk msg) trivial) k
    exact ⟨h1, by rw [h2]; exact hk, by rw [h2]; exact h⟩
  | tick now now2 buf =>
    obtain ⟨h1, h2, h3⟩ := h
    exact ⟨⟨h1, h2, trivial⟩, by show 0 ≤ now2; omega, h3⟩
  | setPose now buf junk msg =>
    obtain ⟨h1, h2⟩ := h
    exact ⟨⟨h1, trivial⟩, by show 0 ≤ now; omega, h2⟩
  | command now u => exact ⟨trivial, hk, h⟩
  | reset => exact ⟨trivial, hk, h⟩
  | toggle on => exact ⟨trivial, hk, h⟩
  | enable => exact ⟨trivial, hk, h⟩

/-- A message made from an estimate with the property `I` and an angular acceleration with the property `D`. -/
inductive Made (I : C.X → C.Cov → Prop) (D : Differ → Prop) : Sent → Prop
  | odom (t : Int) (x : C.X) (cov : C.Cov) (h : I x cov) :
    Made I D (.odom t ((V.state x).bind fun y => odomMessage g.frames true y (V.cov cov) t))
  | tf (t : Int) (x : C.X) (cov : C.Cov) (buf : TfBuffer) (h : I x cov) :
    Made I D (.tf t ((V.state x).bind fun y =>
      (odomMessage g.frames true y (V.cov cov) t).bind fun m => broadcast g.frames buf g.tfOffset m))
  | accel (t : Int) (x : C.X) (cov : C.Cov) (d : Differ) (h : I x cov) (hd : D d) :
    Made I D (.accel t ((V.state x).bind fun y => accelMessage g.frames true y (V.cov cov) t d))

variable {V g}

theorem differ_keeps (hE : EstInv g.cfg I I0 Kz Kc) {D : Differ → Prop}
    (hD : ∀ d now x cov y, I x cov → V.state x = some y → D d → D (d.step true now y (V.cov cov))) {s : Sys C P}
    (hn : NInv g.cfg I I0 Kz Kc s.hub.node) {now : Int} (hh : HInv g.cfg now s.hub.node) (now2 : Int) (hd : D s.diff) :
    D (s.differ V now (s.hub.node.advance g.cfg now now2)) := by
  have ha := hn.advance hE (now2 := now2) hh
  unfold differ
  split
  · split
    · rename_i y hy
      cases hi : (s.hub.node.advance g.cfg now now2).filt.initialized with
      | true => exact hD _ _ _ _ _ (ha.filt.on hi) hy hd
      | false =>
        unfold Differ.step
        simpa using hd
    · exact hd
  · exact hd

/-- Invariants along a run. -/
theorem run_inv (hE : EstInv g.cfg I I0 Kz Kc) {M : PoseMem → Prop} {D : Differ → Prop} {A : Sys C P → Ev → Prop}
    (hA : ∀ s e, NInv g.cfg I I0 Kz Kc s.hub.node → M s.hub.mem → A s e →
      Along g.cfg (Node.Takes I I0 Kz Kc) s.hub.node (s.events V g e) ∧ M (s.step V g e).1.hub.mem)
    (hD : ∀ d now x cov y, I x cov → V.state x = some y → D d → D (d.step true now y (V.cov cov))) (es : List Ev) :
    ∀ (k : Int) (s : Sys C P), 0 ≤ k → NInv g.cfg I I0 Kz Kc s.hub.node → HInv g.cfg k s.hub.node → M s.hub.mem → D s.diff →
      Ticks k es → s.Holds V g A es → ∀ m ∈ (s.run V g es).2, Made V g I D m := by
  induction es with
  | nil =>
    intro k s _ _ _ _ _ _ _ m hm
    cases hm
  | cons e es ih =>
    intro k s hk hn hh hM hd ht ha m hm
    obtain ⟨a1, a2⟩ := hA s e hn hM ha.1
    obtain ⟨t1, t2, t3⟩ := s.ticks_next V g hk ht
    obtain ⟨r1, r2, r3⟩ := NInv.takesAll hE _ hn hh hk t1 a1
    obtain ⟨e1, e2⟩ := s.step_eq V g e
    have hd' : D (s.step V g e).1.diff := by
      cases e with
      | tick now now2 buf =>
        show D (s.cycle V g now now2 buf).1.diff
        unfold cycle
        split
        · exact differ_keeps hE hD hn (hh.mono ht.1) now2 hd
        · exact hd
      | odom i buf junk msg =>
        simp only [step]
        split
        · split <;> exact hd
        · exact hd
      | pose i buf junk msg =>
        simp only [step]
        split
        · split <;> exact hd
        · exact hd
      | twist i buf junk msg =>
        simp only [step]
        split
        · split <;> exact hd
        · exact hd
      | imu i buf junk msg =>
        simp only [step]
        split
        · split <;> exact hd
        · exact hd
      | _ => exact hd
    rcases List.mem_append.1 (show m ∈ (s.step V g e).2 ++ ((s.step V g e).1.run V g es).2 from hm) with hm | hm
    · rw [e2] at hm
      obtain ⟨o, ho, rfl⟩ := List.mem_map.1 hm
      cases e with
      | tick now now2 buf =>
        have hrun : (s.hub.node.run g.cfg (s.events V g (.tick now now2 buf))).2 =
            (s.hub.node.periodic g.cfg now now2 (tfDue g.frames buf)).2 := by
          show (s.hub.node.periodic g.cfg now now2 (tfDue g.frames buf)).2 ++ [] = _
          rw [List.append_nil]
        rw [hrun] at ho r3
        unfold shown
        cases o with
        | odom t x cov => exact Made.odom t x cov (r3 t x cov ho)
        | tf t => exact Made.tf t _ _ buf (r3 _ _ _ (periodic_outs _ _ _ _ _ _ (Or.inl ho)))
        | accel t =>
          exact Made.accel t _ _ _ (r3 _ _ _ (periodic_outs _ _ _ _ _ _ (Or.inr ho))) (differ_keeps hE hD hn (hh.mono ht.1) now2 hd)
      | odom i buf junk msg =>
        exact absurd ho (by rw [sensors_silent _ (s.events_sensors V g (.odom i buf junk msg) trivial)]; exact List.not_mem_nil)
      | pose i buf junk msg =>
        exact absurd ho (by rw [sensors_silent _ (s.events_sensors V g (.pose i buf junk msg) trivial)]; exact List.not_mem_nil)
      | twist i buf junk msg =>
        exact absurd ho (by rw [sensors_silent _ (s.events_sensors V g (.twist i buf junk msg) trivial)]; exact List.not_mem_nil)
      | imu i buf junk msg =>
        exact absurd ho (by rw [sensors_silent _ (s.events_sensors V g (.imu i buf junk msg) trivial)]; exact List.not_mem_nil)
      | _ => exact absurd ho List.not_mem_nil
    · exact ih _ _ t2 (by rw [e1]; exact r1) (by rw [e1]; exact r2) a2 hd' t3 ha.2 m hm

end Sys
end RL
