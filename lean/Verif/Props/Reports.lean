import Verif.Model.Reports
import Verif.Spec.Audit
/-! # C103: messages that are thrown away are reported -/

namespace RL

section
variable {C : Core} {P : MQueue C}

/-- A part of a message on topic `k` is thrown away because a newer one has come before. -/
def Overtaken (n : Node C P) (k : String) (stamp : Int) : Prop := ∃ last, n.lastMsg k = some last ∧ stamp < last

open Classical in
/-- The topics under which the parts of a message are handled that are selected and there. -/
noncomputable def Reporter.Ev.parts : Reporter.Ev C → List String
  | .odom _ _ _ p t => (if p.sum > 0 then [p.topic] else []) ++ (if t.sum > 0 then [t.topic] else [])
  | .imu _ _ msg p t a _ =>
    (if p.sum > 0 ∧ ¬ |msg.oriCov 0 + 1| < 1e-9 then [p.topic] else []) ++
    (if t.sum > 0 ∧ ¬ |msg.velCov 0 + 1| < 1e-9 then [t.topic] else []) ++
    (if a.sum > 0 ∧ ¬ |msg.accCov 0 + 1| < 1e-9 then [a.topic] else [])
  | .pose _ _ cd _ _ => [cd.topic]
  | .twist _ _ cd _ => [cd.topic]
  | _ => []

/-- The stamp of a message and the topic it comes in on. -/
def Reporter.Ev.arrival : Reporter.Ev C → Option (String × Int)
  | .odom _ topic msg _ _ => some (topic, msg.stamp)
  | .imu _ topic msg _ _ _ _ => some (topic, msg.stamp)
  | .pose _ msg cd _ _ => some (cd.topic, msg.stamp)
  | .twist _ msg cd _ => some (cd.topic, msg.stamp)
  | _ => none

/-- Topic `k` loses a message, or a part of one, because of its stamp: it is not newer than the last `set_pose`, or it is
older than the message before it. -/
def ThrownAway (n : Node C P) (e : Reporter.Ev C) (k : String) : Prop :=
  ∃ topic stamp, e.arrival = some (topic, stamp) ∧
    ((stamp ≤ n.lastSetPose ∧ k = topic) ∨ (n.lastSetPose < stamp ∧ k ∈ e.parts ∧ Overtaken n k stamp))

theorem stampKey_inj {a b : String} (h : stampKey a = stampKey b) : a = b := by
  unfold stampKey at h
  simpa using h

variable (txt : String → StampNote → String)

/-- A warning about stamps of topic `k` is filed. -/
def Files (l : List DiagEv) (k : String) : Prop := ∃ m, DiagEv.add 1 (k ++ "_timestamp") m false ∈ l

theorem files_nil (k : String) : ¬ Files [] k := by
  rintro ⟨m, h⟩
  cases h

theorem files_append (a b : List DiagEv) (k : String) : Files (a ++ b) k ↔ Files a k ∨ Files b k := by
  unfold Files
  simp only [List.mem_append, exists_or]

theorem files_one (topic k : String) (note : StampNote) : Files [stampWarning txt topic note] k ↔ k = topic := by
  unfold Files stampWarning
  simp only [List.mem_singleton, DiagEv.add.injEq, true_and, and_true]
  constructor
  · rintro ⟨m, h, -⟩
    exact stampKey_inj h
  · rintro rfl
    exact ⟨_, rfl, rfl⟩

theorem files_ite (c : Prop) [Decidable c] (a : List DiagEv) (k : String) : Files (if c then a else []) k ↔ c ∧ Files a k := by
  split
  · rename_i h; simp [h]
  · rename_i h
    simp only [h, false_and, iff_false]
    exact files_nil k

theorem overtaken_iff (n : Node C P) (topic : String) (stamp : Int) :
    Overtaken n topic stamp ↔ ¬ (n.lastMsg topic).getD stamp ≤ stamp := by
  unfold Overtaken
  cases n.lastMsg topic with
  | none => simp
  | some t => simp

theorem files_stamp (n : Node C P) (topic k : String) (stamp : Int) :
    Files (n.stampReports txt topic stamp) k ↔ k = topic ∧ (stamp ≤ n.lastSetPose ∨ Overtaken n k stamp) := by
  unfold Node.stampReports
  by_cases h : n.stale stamp
  · rw [if_pos h, files_one]
    have : stamp ≤ n.lastSetPose := h
    simp [this]
  · rw [if_neg h]
    have h' : ¬ stamp ≤ n.lastSetPose := h
    simp only [h', false_or]
    by_cases h2 : (n.lastMsg topic).getD stamp ≤ stamp
    · rw [if_pos h2]
      refine iff_of_false (files_nil k) ?_
      rintro ⟨rfl, h3⟩
      exact (overtaken_iff n k stamp).1 h3 h2
    · rw [if_neg h2, files_one]
      constructor
      · rintro rfl
        exact ⟨rfl, (overtaken_iff n k stamp).2 h2⟩
      · exact fun h => h.1

theorem files_accel (n : Node C P) (topic k : String) (stamp : Int) (h : ¬ stamp ≤ n.lastSetPose) :
    Files (n.accelReports txt topic stamp) k ↔ k = topic ∧ Overtaken n k stamp := by
  have := files_stamp txt n topic k stamp
  unfold Node.stampReports at this
  unfold Node.accelReports
  have h' : ¬ n.stale stamp := h
  rw [if_neg h'] at this ⊢
  rw [this]
  simp [h]

/-- A message leaves what counts for the next part of it as it is. -/
def SameFor (stamp : Int) (n n' : Node C P) : Prop :=
  n'.lastSetPose = n.lastSetPose ∧ ∀ k, Overtaken n' k stamp ↔ Overtaken n k stamp

theorem SameFor.rfl' (stamp : Int) (n : Node C P) : SameFor stamp n n := ⟨rfl, fun _ => Iff.rfl⟩

theorem sensor_same_for (n : Node C P) (topic : String) (stamp : Int) (z : Option C.Z) : SameFor stamp n (n.sensor topic stamp z) := by
  unfold Node.sensor
  by_cases h : n.lastSetPose ≥ stamp
  · rw [if_pos h]; exact SameFor.rfl' _ _
  · rw [if_neg h]
    dsimp only
    by_cases h2 : (n.lastMsg topic).getD stamp ≤ stamp
    · rw [if_pos h2]
      have e : ∀ n1 : Node C P, n1.lastSetPose = n.lastSetPose → n1.lastMsg = n.lastMsg →
          SameFor stamp n { n1 with lastMsg := fun t => if t = topic then some stamp else n1.lastMsg t } := by
        intro n1 e1 e2
        refine ⟨e1, fun k => ?_⟩
        unfold Overtaken
        dsimp only
        rw [e2]
        by_cases hk : k = topic
        · subst hk
          rw [if_pos rfl]
          refine iff_of_false ?_ ?_
          · rintro ⟨t, ht, hlt⟩
            cases ht
            exact lt_irrefl _ hlt
          · exact fun h3 => (overtaken_iff n k stamp).1 h3 h2
        · rw [if_neg hk]
      cases z with
      | none => exact e n rfl rfl
      | some z => exact e (n.enqueue topic z stamp) rfl rfl
    · rw [if_neg h2]; exact SameFor.rfl' _ _

theorem pose_same (mk : Payload → C.Z) (c : PrepCtx) (h : Hub C P) (msg : PoseMsg) (cd : CallbackData)
    (target source : String) (imu : Bool) : SameFor msg.stamp h.node (h.poseCallback mk c msg cd target source imu).node := by
  unfold Hub.poseCallback
  split
  · exact SameFor.rfl' _ _
  · dsimp only
    split
    · exact sensor_same_for _ _ _ _
    · exact SameFor.rfl' _ _

theorem twist_same (mk : Payload → C.Z) (c : PrepCtx) (h : Hub C P) (msg : TwistMsg) (cd : CallbackData) (target : String) :
    SameFor msg.stamp h.node (h.twistCallback mk c msg cd target).node := sensor_same_for _ _ _ _

theorem SameFor.trans {stamp : Int} {a b c : Node C P} (h1 : SameFor stamp a b) (h2 : SameFor stamp b c) : SameFor stamp a c :=
  ⟨h2.1.trans h1.1, fun k => (h2.2 k).trans (h1.2 k)⟩

theorem SameFor.ite {stamp : Int} {n : Node C P} (c : Prop) [Decidable c] {h h' : Hub C P} (h0 : SameFor stamp n h.node)
    (h1 : SameFor stamp n h'.node) : SameFor stamp n (if c then h' else h).node := by
  split
  · exact h1
  · exact h0

/-- C103, partial: exactly the messages and parts of messages that are thrown away because of their stamp are reported.
Missing: messages thrown away because they cannot be transformed (`C103_untransformable_unreported`). -/
theorem C103_reported_partial (mk : Payload → C.Z) (r : Reporter C P) (e : Reporter.Ev C) (he : e.arrival ≠ none) (k : String) :
    Files (r.filed txt mk e) k ↔ ThrownAway r.hub.node e k := by
  cases e with
  | odom c topic msg p t =>
    show Files (r.hub.odomReports txt mk c topic msg p t) k ↔ _
    unfold Hub.odomReports
    by_cases hs : r.hub.node.stale msg.stamp
    · rw [if_pos hs, files_one]
      have hs : msg.stamp ≤ r.hub.node.lastSetPose := hs
      constructor
      · rintro rfl
        exact ⟨_, _, rfl, Or.inl ⟨hs, rfl⟩⟩
      · rintro ⟨_, _, ⟨⟩, ⟨-, h⟩ | ⟨h, -⟩⟩
        · exact h
        · omega
    · rw [if_neg hs]
      have hs : ¬ msg.stamp ≤ r.hub.node.lastSetPose := hs
      dsimp only
      have s1 := SameFor.ite (p.sum > 0) (SameFor.rfl' msg.stamp r.hub.node)
        (pose_same mk c r.hub { frame := msg.frame, stamp := msg.stamp, pos := msg.pos, ori := msg.ori, cov := msg.poseCov }
          p c.world (if p.useChild then msg.child else c.base) false)
      rw [files_append, files_ite, files_ite, files_stamp, files_stamp, s1.1, s1.2 k]
      simp only [hs, false_or]
      constructor
      · intro h
        refine ⟨_, _, rfl, Or.inr ⟨not_le.1 hs, ?_, ?_⟩⟩
        · show k ∈ _ ++ _
          rcases h with ⟨h1, h2, -⟩ | ⟨h1, h2, -⟩
          · rw [if_pos h1, h2]; simp
          · rw [if_pos h1, h2]; simp
        · rcases h with ⟨-, -, h⟩ | ⟨-, -, h⟩ <;> exact h
      · rintro ⟨_, _, ⟨⟩, ⟨h, -⟩ | ⟨-, h1, h2⟩⟩
        · exact absurd h hs
        · have h1 : k ∈ _ ++ _ := h1
          rcases List.mem_append.1 h1 with h1 | h1
          · split at h1
            · rename_i hp; exact Or.inl ⟨hp, List.mem_singleton.1 h1, h2⟩
            · cases h1
          · split at h1
            · rename_i hp; exact Or.inr ⟨hp, List.mem_singleton.1 h1, h2⟩
            · cases h1
  | imu c topic msg p t a g =>
    classical
    show Files (r.hub.imuReports txt mk c topic msg p t a) k ↔ _
    unfold Hub.imuReports
    by_cases hs : r.hub.node.stale msg.stamp
    · rw [if_pos hs, files_one]
      have hs : msg.stamp ≤ r.hub.node.lastSetPose := hs
      constructor
      · rintro rfl
        exact ⟨_, _, rfl, Or.inl ⟨hs, rfl⟩⟩
      · rintro ⟨_, _, ⟨⟩, ⟨-, h⟩ | ⟨h, -⟩⟩
        · exact h
        · omega
    · rw [if_neg hs]
      have hs : ¬ msg.stamp ≤ r.hub.node.lastSetPose := hs
      dsimp only
      have s1 := SameFor.ite (p.sum > 0 ∧ ¬ |msg.oriCov 0 + 1| < 1e-9) (SameFor.rfl' msg.stamp r.hub.node)
        (pose_same mk c r.hub { frame := msg.frame, stamp := msg.stamp, pos := 0, ori := msg.ori, cov := angularCov msg.oriCov }
          p c.base c.base true)
      revert s1
      generalize (if p.sum > 0 ∧ ¬ |msg.oriCov 0 + 1| < 1e-9 then r.hub.poseCallback mk c
        { frame := msg.frame, stamp := msg.stamp, pos := 0, ori := msg.ori, cov := angularCov msg.oriCov } p c.base c.base true
        else r.hub) = h1
      intro s1
      have s2 := SameFor.ite (t.sum > 0 ∧ ¬ |msg.velCov 0 + 1| < 1e-9) s1
        (s1.trans (twist_same mk c h1 { frame := msg.frame, stamp := msg.stamp, lin := fun _ => .fin 0, ang := msg.vel, cov := angularCov msg.velCov }
          t c.base))
      revert s2
      generalize (if t.sum > 0 ∧ ¬ |msg.velCov 0 + 1| < 1e-9 then h1.twistCallback mk c
        { frame := msg.frame, stamp := msg.stamp, lin := fun _ => .fin 0, ang := msg.vel, cov := angularCov msg.velCov } t c.base
        else h1) = h2
      intro s2
      rw [files_append, files_append, files_ite, files_ite, files_ite, files_stamp, files_stamp, s1.1, s1.2 k,
        files_accel txt h2.node _ _ _ (by rw [s2.1]; exact hs), s2.2 k]
      simp only [hs, false_or]
      constructor
      · intro h
        refine ⟨_, _, rfl, Or.inr ⟨not_le.1 hs, ?_, ?_⟩⟩
        · show k ∈ _ ++ _ ++ _
          rcases h with (⟨h1, h2, -⟩ | ⟨h1, h2, -⟩) | ⟨h1, h2, -⟩
          · rw [if_pos h1, h2]; simp
          · rw [if_pos h1, h2]; simp
          · rw [if_pos h1, h2]; simp
        · rcases h with (⟨-, -, h⟩ | ⟨-, -, h⟩) | ⟨-, -, h⟩ <;> exact h
      · rintro ⟨_, _, ⟨⟩, ⟨h, -⟩ | ⟨-, h1, h2⟩⟩
        · exact absurd h hs
        · have h1 : k ∈ _ ++ _ ++ _ := h1
          rcases List.mem_append.1 h1 with h1 | h1
          · rcases List.mem_append.1 h1 with h1 | h1
            · split at h1
              · rename_i hp; exact Or.inl (Or.inl ⟨hp, List.mem_singleton.1 h1, h2⟩)
              · cases h1
            · split at h1
              · rename_i hp; exact Or.inl (Or.inr ⟨hp, List.mem_singleton.1 h1, h2⟩)
              · cases h1
          · split at h1
            · rename_i hp; exact Or.inr ⟨hp, List.mem_singleton.1 h1, h2⟩
            · cases h1
  | pose c msg cd target source =>
    show Files (r.hub.node.stampReports txt cd.topic msg.stamp) k ↔ _
    rw [files_stamp]
    constructor
    · rintro ⟨rfl, h⟩
      refine ⟨_, _, rfl, ?_⟩
      by_cases hs : msg.stamp ≤ r.hub.node.lastSetPose
      · exact Or.inl ⟨hs, rfl⟩
      · exact Or.inr ⟨not_le.1 hs, List.mem_singleton.2 rfl, h.resolve_left hs⟩
    · rintro ⟨_, _, ⟨⟩, ⟨h1, rfl⟩ | ⟨-, h1, h2⟩⟩
      · exact ⟨rfl, Or.inl h1⟩
      · exact ⟨List.mem_singleton.1 h1, Or.inr h2⟩
  | twist c msg cd target =>
    show Files (r.hub.node.stampReports txt cd.topic msg.stamp) k ↔ _
    rw [files_stamp]
    constructor
    · rintro ⟨rfl, h⟩
      refine ⟨_, _, rfl, ?_⟩
      by_cases hs : msg.stamp ≤ r.hub.node.lastSetPose
      · exact Or.inl ⟨hs, rfl⟩
      · exact Or.inr ⟨not_le.1 hs, List.mem_singleton.2 rfl, h.resolve_left hs⟩
    · rintro ⟨_, _, ⟨⟩, ⟨h1, rfl⟩ | ⟨-, h1, h2⟩⟩
      · exact ⟨rfl, Or.inl h1⟩
      · exact ⟨List.mem_singleton.1 h1, Or.inr h2⟩
  | note l k t s => exact absurd rfl he
  | reset => exact absurd rfl he
  | setPose s n x => exact absurd rfl he
  | control u t => exact absurd rfl he
  | toggle on => exact absurd rfl he
  | enable => exact absurd rfl he
  | tick now now2 ok => exact absurd rfl he
  | timer => exact absurd rfl he

/-! ## What becomes of such a message -/

/-- The measurements of topic `k` that wait to be fused. -/
def waiting (n : Node C P) (k : String) : Multiset (Meas C) := open Classical in (P.elems n.queue).filter fun m => m.topic = k

theorem sensor_waiting (n : Node C P) (topic k : String) (stamp : Int) (z : Option C.Z)
    (h : topic = k → Overtaken n k stamp) : waiting (n.sensor topic stamp z) k = waiting n k := by
  unfold Node.sensor
  split
  · rfl
  · dsimp only
    split
    · rename_i h2
      have hk : topic ≠ k := fun e => by
        subst e
        exact (overtaken_iff n topic stamp).1 (h rfl) h2
      cases z with
      | none => rfl
      | some z =>
        show Multiset.filter _ (P.elems (P.push n.queue _)) = Multiset.filter _ _
        rw [P.elems_push]
        exact Multiset.filter_cons_of_neg _ hk
    · rfl

theorem pose_waiting (mk : Payload → C.Z) (c : PrepCtx) (h : Hub C P) (msg : PoseMsg) (cd : CallbackData)
    (target source : String) (imu : Bool) (k : String) (ho : Overtaken h.node k msg.stamp) :
    waiting (h.poseCallback mk c msg cd target source imu).node k = waiting h.node k := by
  unfold Hub.poseCallback
  split
  · rfl
  · dsimp only
    split
    · exact sensor_waiting _ _ _ _ _ fun _ => ho
    · rfl

theorem twist_waiting (mk : Payload → C.Z) (c : PrepCtx) (h : Hub C P) (msg : TwistMsg) (cd : CallbackData) (target : String)
    (k : String) (ho : Overtaken h.node k msg.stamp) :
    waiting (h.twistCallback mk c msg cd target).node k = waiting h.node k := sensor_waiting _ _ _ _ _ fun _ => ho

theorem accel_waiting (mk : Payload → C.Z) (c : PrepCtx) (h : Hub C P) (msg : ImuMsg) (cd : CallbackData) (target : String)
    (g : Bool) (k : String) (ho : Overtaken h.node k msg.stamp) :
    waiting (h.accelCallback mk c msg cd target g).node k = waiting h.node k := sensor_waiting _ _ _ _ _ fun _ => ho

theorem waiting_ite {n : Node C P} {k : String} (c : Prop) [Decidable c] {h h' : Hub C P} (h0 : waiting h.node k = waiting n k)
    (h1 : waiting h'.node k = waiting n k) : waiting (if c then h' else h).node k = waiting n k := by
  split
  · exact h1
  · exact h0

/-- C103: what is reported has really been thrown away.  A message not newer than the last `set_pose` changes nothing at
all, and of a message that has been overtaken on topic `k` nothing waits to be fused. -/
theorem C103_nothing_kept (mk : Payload → C.Z) (cfg : Cfg C) (r : Reporter C P) (e : Reporter.Ev C) {topic : String} {stamp : Int}
    (he : e.arrival = some (topic, stamp)) :
    (stamp ≤ r.hub.node.lastSetPose → r.moved mk cfg e = r.hub) ∧
    ∀ k, Overtaken r.hub.node k stamp → waiting (r.moved mk cfg e).node k = waiting r.hub.node k := by
  cases e with
  | odom c topic msg p t =>
    cases he
    constructor
    · intro h
      exact if_pos h
    · intro k ho
      show waiting (r.hub.odomCallback mk c msg p t).node k = _
      unfold Hub.odomCallback
      split
      · rfl
      · dsimp only
        have s1 := SameFor.ite (p.sum > 0) (SameFor.rfl' msg.stamp r.hub.node)
          (pose_same mk c r.hub { frame := msg.frame, stamp := msg.stamp, pos := msg.pos, ori := msg.ori, cov := msg.poseCov }
            p c.world (if p.useChild then msg.child else c.base) false)
        have w1 := waiting_ite (n := r.hub.node) (p.sum > 0) rfl
          (pose_waiting mk c r.hub { frame := msg.frame, stamp := msg.stamp, pos := msg.pos, ori := msg.ori, cov := msg.poseCov }
            p c.world (if p.useChild then msg.child else c.base) false k ho)
        exact waiting_ite _ w1 ((sensor_waiting _ t.topic k msg.stamp _ fun _ => (s1.2 k).2 ho).trans w1)
  | imu c topic msg p t a g =>
    cases he
    constructor
    · intro h
      exact if_pos h
    · intro k ho
      classical
      show waiting (r.hub.imuCallback mk c msg p t a g).node k = _
      unfold Hub.imuCallback
      split
      · rfl
      · dsimp only
        have s1 := SameFor.ite (p.sum > 0 ∧ ¬ |msg.oriCov 0 + 1| < 1e-9) (SameFor.rfl' msg.stamp r.hub.node)
          (pose_same mk c r.hub { frame := msg.frame, stamp := msg.stamp, pos := 0, ori := msg.ori, cov := angularCov msg.oriCov }
            p c.base c.base true)
        have w1 := waiting_ite (n := r.hub.node) (p.sum > 0 ∧ ¬ |msg.oriCov 0 + 1| < 1e-9) rfl
          (pose_waiting mk c r.hub { frame := msg.frame, stamp := msg.stamp, pos := 0, ori := msg.ori, cov := angularCov msg.oriCov }
            p c.base c.base true k ho)
        have s2 := SameFor.ite (t.sum > 0 ∧ ¬ |msg.velCov 0 + 1| < 1e-9) s1
          (s1.trans (twist_same mk c _ { frame := msg.frame, stamp := msg.stamp, lin := fun _ => .fin 0, ang := msg.vel, cov := angularCov msg.velCov }
            t c.base))
        have w2 := waiting_ite (t.sum > 0 ∧ ¬ |msg.velCov 0 + 1| < 1e-9) w1
          ((twist_waiting mk c _ { frame := msg.frame, stamp := msg.stamp, lin := fun _ => .fin 0, ang := msg.vel, cov := angularCov msg.velCov }
            t c.base k ((s1.2 k).2 ho)).trans w1)
        exact waiting_ite _ w2 ((accel_waiting mk c _ msg a c.base g k ((s2.2 k).2 ho)).trans w2)
  | pose c msg cd target source =>
    cases he
    exact ⟨fun h => if_pos h, fun k ho => pose_waiting mk c r.hub msg cd target source false k ho⟩
  | twist c msg cd target =>
    cases he
    refine ⟨fun h => ?_, fun k ho => sensor_waiting _ _ _ _ _ fun _ => ho⟩
    show Hub.mk (Node.sensor _ _ _ _) _ = _
    unfold Node.sensor
    rw [if_pos h]
  | note l k t s => cases he
  | reset => cases he
  | setPose s n x => cases he
  | control u t => cases he
  | toggle on => cases he
  | enable => cases he
  | tick now now2 ok => cases he
  | timer => cases he

/-! ## When it is told -/

theorem diag_keeps (l : List DiagEv) (hl : ∀ e ∈ l, e ≠ .report) (d : Diag) (key : String) (h1 : 1 ≤ d.dynLevel)
    (h2 : ∃ m, d.dyn key = some m) : 1 ≤ (d.run l).dynLevel ∧ ∃ m, (d.run l).dyn key = some m := by
  induction l generalizing d with
  | nil => exact ⟨h1, h2⟩
  | cons e l ih =>
    have := fun d h1 h2 => ih (fun e he => hl e (List.mem_cons_of_mem _ he)) d h1 h2
    refine this (d.step e) ?_ ?_
    · cases e with
      | add lev k m s =>
        cases s with
        | true => exact h1
        | false => exact h1.trans (le_max_left _ _)
      | report => exact absurd rfl (hl _ List.mem_cons_self)
    · cases e with
      | add lev k m s =>
        cases s with
        | true => exact h2
        | false =>
          show ∃ m', (if key = k then some m else d.dyn key) = some m'
          split
          · exact ⟨m, rfl⟩
          · exact h2
      | report => exact absurd rfl (hl _ List.mem_cons_self)

theorem diag_files (l : List DiagEv) (hl : ∀ e ∈ l, e ≠ .report) (d : Diag) (k : String) (h : Files l k) :
    1 ≤ (d.run l).dynLevel ∧ ∃ m, (d.run l).dyn (k ++ "_timestamp") = some m := by
  obtain ⟨m, hm⟩ := h
  obtain ⟨a, b, rfl⟩ := List.append_of_mem hm
  have : d.run (a ++ DiagEv.add 1 (k ++ "_timestamp") m false :: b) = ((d.run a).step (.add 1 (k ++ "_timestamp") m false)).run b := by
    unfold Diag.run
    rw [List.foldl_append, List.foldl_cons]
  rw [this]
  refine diag_keeps b (fun e he => hl e (by simp [he])) _ _ (le_max_right _ _) ⟨m, ?_⟩
  show (if k ++ "_timestamp" = k ++ "_timestamp" then some m else _) = _
  rw [if_pos rfl]

theorem stamp_all (q : DiagEv → Prop) (hq : ∀ topic note, q (stampWarning txt topic note)) (n : Node C P) (topic : String)
    (stamp : Int) : ∀ e ∈ n.stampReports txt topic stamp, q e := by
  unfold Node.stampReports
  intro e he
  split at he
  · rw [List.mem_singleton] at he
    exact he ▸ hq _ _
  · split at he
    · cases he
    · rw [List.mem_singleton] at he
      exact he ▸ hq _ _

theorem accel_all (q : DiagEv → Prop) (hq : ∀ topic note, q (stampWarning txt topic note)) (n : Node C P) (topic : String)
    (stamp : Int) : ∀ e ∈ n.accelReports txt topic stamp, q e := by
  unfold Node.accelReports
  intro e he
  split at he
  · cases he
  · split at he
    · cases he
    · rw [List.mem_singleton] at he
      exact he ▸ hq _ _

theorem filed_all (q : DiagEv → Prop) (hq : ∀ topic note, q (stampWarning txt topic note)) (mk : Payload → C.Z) (r : Reporter C P)
    (e : Reporter.Ev C) (hn : ∀ l k t s, e = .note l k t s → q (.add l k t s)) : ∀ d ∈ r.filed txt mk e, q d := by
  classical
  intro d hd
  have one : ∀ topic note, d ∈ [stampWarning txt topic note] → q d := by
    intro topic note h
    rw [List.mem_singleton] at h
    exact h ▸ hq _ _
  have ite' : ∀ (c : Prop) [Decidable c] (l : List DiagEv), (∀ e ∈ l, q e) → d ∈ (if c then l else []) → q d := by
    intro c _ l hl h
    split at h
    · exact hl d h
    · cases h
  cases e with
  | odom c topic msg p t =>
    have hd : d ∈ r.hub.odomReports txt mk c topic msg p t := hd
    unfold Hub.odomReports at hd
    split at hd
    · exact one _ _ hd
    · dsimp only at hd
      rcases List.mem_append.1 hd with h | h
      · exact ite' _ _ (stamp_all txt q hq _ _ _) h
      · exact ite' _ _ (stamp_all txt q hq _ _ _) h
  | imu c topic msg p t a g =>
    have hd : d ∈ r.hub.imuReports txt mk c topic msg p t a := hd
    unfold Hub.imuReports at hd
    split at hd
    · exact one _ _ hd
    · dsimp only at hd
      rcases List.mem_append.1 hd with h | h
      · rcases List.mem_append.1 h with h | h
        · exact ite' _ _ (stamp_all txt q hq _ _ _) h
        · exact ite' _ _ (stamp_all txt q hq _ _ _) h
      · exact ite' _ _ (accel_all txt q hq _ _ _) h
  | pose c msg cd target source => exact stamp_all txt q hq _ _ _ d hd
  | twist c msg cd target => exact stamp_all txt q hq _ _ _ d hd
  | note l k t s =>
    have hd : d ∈ [DiagEv.add l k t s] := hd
    rw [List.mem_singleton] at hd
    exact hd ▸ hn l k t s rfl
  | reset => cases hd
  | setPose s n x => cases hd
  | control u t => cases hd
  | toggle on => cases hd
  | enable => cases hd
  | tick now now2 ok => cases hd
  | timer => cases hd

theorem filed_no_report (mk : Payload → C.Z) (r : Reporter C P) (e : Reporter.Ev C) : ∀ d ∈ r.filed txt mk e, d ≠ .report :=
  filed_all txt _ (fun _ _ h => by cases h) mk r e fun _ _ _ _ _ h => by cases h

theorem diag_untouched (l : List DiagEv) (d : Diag) (key : String)
    (hl : ∀ e ∈ l, e ≠ .report ∧ ∀ lev m, e ≠ .add lev key m false) : (d.run l).dyn key = d.dyn key := by
  induction l generalizing d with
  | nil => rfl
  | cons e l ih =>
    obtain ⟨h1, h2⟩ := hl e List.mem_cons_self
    refine (ih (d.step e) fun e he => hl e (List.mem_cons_of_mem _ he)).trans ?_
    cases e with
    | add lev k m s =>
      cases s with
      | true => rfl
      | false =>
        show (if key = k then some m else d.dyn key) = _
        rw [if_neg]
        rintro rfl
        exact h2 lev m rfl
    | report => exact absurd rfl h1

/-- A report that warns of stamps on topic `k`. -/
def DiagReport.Warns (rep : DiagReport) (k : String) : Prop := 1 ≤ rep.level ∧ ∃ m, rep.dyn (k ++ "_timestamp") = some m

theorem run_cons (mk : Payload → C.Z) (cfg : Cfg C) (g : ReportCfg) (r : Reporter C P) (e : Reporter.Ev C) (es) :
    r.run txt mk cfg g (e :: es) = (((r.step txt mk cfg g e).1.run txt mk cfg g es).1,
      (r.step txt mk cfg g e).2.toList ++ ((r.step txt mk cfg g e).1.run txt mk cfg g es).2) := rfl

theorem pending_told (mk : Payload → C.Z) (cfg : Cfg C) (g : ReportCfg) (k : String) (es : List (Reporter.Ev C)) (r : Reporter C P)
    (h1 : 1 ≤ r.diag.dynLevel) (h2 : ∃ m, r.diag.dyn (k ++ "_timestamp") = some m) (t : Int) (hr : r.lastDiag = 0 ∨ r.lastDiag = t)
    (now now2 : Int) (ok : Bool) (hp : g.print = true) (hn : (r.run txt mk cfg g es).1.hub.node.enabled = true)
    (hnow : g.period ≤ now) (hnow' : t + g.period ≤ now) :
    ∃ rep ∈ (r.run txt mk cfg g (es ++ [.tick now now2 ok])).2, rep.Warns k := by
  induction es generalizing r with
  | nil =>
    have hdue : r.due g (.tick now now2 ok) = true := by
      show (r.hub.node.enabled && g.print && (decide (now - r.lastDiag ≥ g.period) || decide (now - r.lastDiag < 0))) = true
      have : now - r.lastDiag ≥ g.period := by omega
      have hn : r.hub.node.enabled = true := hn
      rw [hn, hp, decide_eq_true this]
      rfl
    refine ⟨(r.diag.run (r.filed txt mk (.tick now now2 ok))).aggregate.2, ?_, ?_, h2⟩
    · rw [List.nil_append, run_cons]
      refine List.mem_append_left _ ?_
      unfold Reporter.step
      rw [if_pos hdue]
      exact List.mem_singleton.2 rfl
    · exact h1.trans (le_max_right _ _)
  | cons e es ih =>
    rw [List.cons_append, run_cons]
    rw [run_cons] at hn
    obtain ⟨a1, a2⟩ := diag_keeps _ (filed_no_report txt mk r e) r.diag (k ++ "_timestamp") h1 h2
    by_cases hd : r.due g e = true
    · refine ⟨(r.diag.run (r.filed txt mk e)).aggregate.2, List.mem_append_left _ ?_, ?_, a2⟩
      · unfold Reporter.step
        rw [if_pos hd]
        exact List.mem_singleton.2 rfl
      · exact a1.trans (le_max_right _ _)
    · have e1 : (r.step txt mk cfg g e).1 = { hub := r.moved mk cfg e, diag := r.diag.run (r.filed txt mk e),
                                              lastDiag := match e with | .reset => 0 | _ => r.lastDiag } := by
        unfold Reporter.step
        rw [if_neg hd]
        cases e <;> rfl
      obtain ⟨rep, hr1, hr2⟩ := ih (r.step txt mk cfg g e).1 (by rw [e1]; exact a1) (by rw [e1]; exact a2)
        (by rw [e1]; cases e <;> first | exact hr | exact Or.inl rfl) hn
      exact ⟨rep, List.mem_append_right _ hr1, hr2⟩

/-- C103, partial: with `print_diagnostics` set, a message or part of one that is thrown away because of its stamp is told
about in a report with level at least WARN, at the latest by the first cycle of the enabled node that is a period after the
last report.  Missing: `C103_untransformable_unreported`. -/
theorem C103_told_partial (mk : Payload → C.Z) (cfg : Cfg C) (g : ReportCfg) (hp : g.print = true) (r : Reporter C P)
    (e : Reporter.Ev C) (k : String) (h : ThrownAway r.hub.node e k) (es : List (Reporter.Ev C)) (now now2 : Int) (ok : Bool)
    (hn : (r.run txt mk cfg g (e :: es)).1.hub.node.enabled = true) (hnow : g.period ≤ now) (hnow' : r.lastDiag + g.period ≤ now) :
    ∃ rep ∈ (r.run txt mk cfg g (e :: es ++ [.tick now now2 ok])).2, rep.Warns k := by
  have he : e.arrival ≠ none := by
    obtain ⟨_, _, h, -⟩ := h
    rw [h]
    exact Option.some_ne_none _
  have hf := (C103_reported_partial txt mk r e he k).2 h
  obtain ⟨a1, a2⟩ := diag_files _ (filed_no_report txt mk r e) r.diag k hf
  have hd : ¬ r.due g e = true := by
    cases e <;> first | (exact absurd rfl he) | (intro h; cases h)
  have hr : (e : Reporter.Ev C) ≠ .reset := fun h => he (h ▸ rfl)
  have e1 : (r.step txt mk cfg g e).1 = { hub := r.moved mk cfg e, diag := r.diag.run (r.filed txt mk e), lastDiag := r.lastDiag } := by
    unfold Reporter.step
    rw [if_neg hd]
    cases e <;> first | rfl | exact absurd rfl hr
  rw [List.cons_append, run_cons]
  rw [run_cons] at hn
  obtain ⟨rep, hr1, hr2⟩ := pending_told txt mk cfg g k es (r.step txt mk cfg g e).1 (by rw [e1]; exact a1) (by rw [e1]; exact a2)
    r.lastDiag (by rw [e1]; exact Or.inr rfl) now now2 ok hp hn hnow hnow'
  exact ⟨rep, List.mem_append_right _ hr1, hr2⟩

/-! ## What is not told -/

/-- The buffer knows no way between two different frames. -/
def NoWay (buf : TfBuffer) (a b : String) : Prop := a ≠ b ∧ ∀ t, buf a b t = none

theorem noWay_lookup {buf : TfBuffer} {a b : String} (h : NoWay buf a b) (t : Int) : lookupTransformSafe buf a b t = none := by
  unfold lookupTransformSafe
  rw [h.2, h.2, if_neg h.1]

theorem sensor_none_queue (n : Node C P) (topic : String) (stamp : Int) : (n.sensor topic stamp none).queue = n.queue := by
  unfold Node.sensor
  split
  · rfl
  · dsimp only
    split <;> rfl

/-- C103 refuted: a message that comes in time, but whose frame is not connected to the frame it is to be brought to, is
thrown away, and no diagnostic is filed (nor anything logged: the warnings are commented out,
ros_filter_utilities.cpp:151-170). -/
theorem C103_untransformable_unreported (mk : Payload → C.Z) (cfg : Cfg C) (g : ReportCfg) (r : Reporter C P) :
    (∀ c msg cd target, r.hub.node.lastSetPose < msg.stamp → ¬ Overtaken r.hub.node cd.topic msg.stamp →
      NoWay c.buf target (if msg.frame = "" then target else msg.frame) →
      (r.step txt mk cfg g (.twist c msg cd target)).1.hub.node.queue = r.hub.node.queue ∧
      (r.step txt mk cfg g (.twist c msg cd target)).1.diag = r.diag) ∧
    ∀ c msg cd target source, r.hub.node.lastSetPose < msg.stamp → ¬ Overtaken r.hub.node cd.topic msg.stamp →
      target ≠ "" → cd.differential = false → NoWay c.buf target msg.frame →
      (r.step txt mk cfg g (.pose c msg cd target source)).1.hub.node.queue = r.hub.node.queue ∧
      (r.step txt mk cfg g (.pose c msg cd target source)).1.diag = r.diag := by
  have quiet : ∀ topic stamp, r.hub.node.lastSetPose < stamp → ¬ Overtaken r.hub.node topic stamp →
      r.hub.node.stampReports txt topic stamp = [] := by
    intro topic stamp h1 h2
    unfold Node.stampReports
    rw [if_neg (show ¬ r.hub.node.stale stamp from not_le.2 h1), if_pos]
    by_contra h3
    exact h2 ((overtaken_iff _ _ _).2 h3)
  constructor
  · intro c msg cd target h1 h2 h3
    constructor
    · show (r.hub.node.sensor cd.topic msg.stamp ((prepareTwist c msg target cd.blank).map mk)).queue = _
      unfold prepareTwist
      rw [noWay_lookup h3]
      exact sensor_none_queue _ _ _
    · show r.diag.run (r.hub.node.stampReports txt cd.topic msg.stamp) = _
      rw [quiet _ _ h1 h2]
      rfl
  · intro c msg cd target source h1 h2 h3 h4 h5
    constructor
    · show (r.hub.poseCallback mk c msg cd target source false).node.queue = _
      unfold Hub.poseCallback
      split
      · rfl
      · dsimp only
        split
        · have : (preparePose c r.hub.mem ((r.hub.node.lastMsg cd.topic).getD msg.stamp) msg cd.topic target source
              cd.differential cd.relative false cd.blank).2 = none := by
            have hf : poseFrames c msg.frame target cd.differential false = (target, msg.frame) := by
              unfold poseFrames
              rw [if_neg h3, h4]
              rfl
            unfold preparePose
            rw [hf]
            dsimp only
            rw [noWay_lookup h5]
          dsimp only
          rw [this]
          exact sensor_none_queue _ _ _
        · rfl
    · show r.diag.run (r.hub.node.stampReports txt cd.topic msg.stamp) = _
      rw [quiet _ _ h1 h2]
      rfl

/-- C103: the warning about a message that has been overtaken does not say which message it was: only the part of its time
below a second is in the text, so whole seconds make no difference. -/
theorem C103_seconds_not_told (n : Node C P) (topic : String) (stamp s : Int) (h1 : n.lastSetPose < stamp)
    (h1' : n.lastSetPose < stamp + s * 1000000000) (h2 : Overtaken n topic stamp) (h2' : Overtaken n topic (stamp + s * 1000000000)) :
    n.stampReports txt topic (stamp + s * 1000000000) = n.stampReports txt topic stamp ∧
    n.accelReports txt topic (stamp + s * 1000000000) = n.accelReports txt topic stamp := by
  have e : nanosec (stamp + s * 1000000000) = nanosec stamp := Int.add_mul_emod_self_right _ _ _
  have a1 : ¬ n.stale stamp := not_le.2 h1
  have a2 : ¬ n.stale (stamp + s * 1000000000) := not_le.2 h1'
  have b1 := (overtaken_iff _ _ _).1 h2
  have b2 := (overtaken_iff _ _ _).1 h2'
  unfold Node.stampReports Node.accelReports
  rw [if_neg a1, if_neg a2, if_neg a1, if_neg a2, if_neg b1, if_neg b2, e]
  exact ⟨rfl, rfl⟩

/-- C103: with `print_diagnostics` off nothing is ever told. -/
theorem C103_off (mk : Payload → C.Z) (cfg : Cfg C) (g : ReportCfg) (hp : g.print = false) (r : Reporter C P)
    (es : List (Reporter.Ev C)) : (r.run txt mk cfg g es).2 = [] := by
  induction es generalizing r with
  | nil => rfl
  | cons e es ih =>
    rw [run_cons, ih]
    have hd : ¬ r.due g e = true := by
      cases e with
      | tick now now2 ok =>
        show ¬ (r.hub.node.enabled && g.print && _) = true
        rw [hp, Bool.and_false, Bool.false_and]
        exact Bool.false_ne_true
      | timer => show ¬ g.print = true; rw [hp]; exact Bool.false_ne_true
      | _ => exact Bool.false_ne_true
    unfold Reporter.step
    rw [if_neg hd]
    rfl

/-- C103: there are no false alarms: a report has no entry about stamps on topic `k` unless a message has been thrown away
on it, or another diagnostic been filed under that key, since the last report.  (The stretch `es` begins after a report.) -/
theorem C103_no_false_alarm (mk : Payload → C.Z) (cfg : Cfg C) (g : ReportCfg) (k : String) (es : List (Reporter.Ev C))
    (r : Reporter C P) (h0 : r.diag.dyn (k ++ "_timestamp") = none)
    (hq : ∀ pre e post, es = pre ++ e :: post → ¬ ThrownAway (r.run txt mk cfg g pre).1.hub.node e k ∧
      ∀ l m, e ≠ .note l (k ++ "_timestamp") m false) :
    ∀ rep ∈ (r.run txt mk cfg g es).2, rep.dyn (k ++ "_timestamp") = none := by
  induction es generalizing r with
  | nil => intro rep h; cases h
  | cons e es ih =>
    obtain ⟨q1, q2⟩ := hq [] e es rfl
    have q1 : ¬ ThrownAway r.hub.node e k := q1
    have hun : (r.diag.run (r.filed txt mk e)).dyn (k ++ "_timestamp") = none := by
      rw [diag_untouched _ _ _ ?_, h0]
      intro d hd
      refine ⟨filed_no_report txt mk r e d hd, ?_⟩
      rintro lev m rfl
      by_cases he : e.arrival = none
      · revert hd
        cases e with
        | note l k' t s =>
          intro hd
          have hd : DiagEv.add lev (k ++ "_timestamp") m false ∈ [DiagEv.add l k' t s] := hd
          rw [List.mem_singleton] at hd
          cases hd
          exact q2 _ _ rfl
        | odom => cases he
        | imu => cases he
        | pose => cases he
        | twist => cases he
        | _ => intro hd; cases hd
      · have hl : lev = 1 := by
          have := filed_all txt (fun d => ∀ l k m s, d = .add l k m s → l = 1) (fun _ _ _ _ _ _ h => by cases h; rfl) mk r e
            (fun l k t s h => absurd (h ▸ rfl) he) _ hd
          exact this _ _ _ _ rfl
        subst hl
        exact q1 ((C103_reported_partial txt mk r e he k).1 ⟨m, hd⟩)
    have hdiag : (r.step txt mk cfg g e).1.diag.dyn (k ++ "_timestamp") = none := by
      unfold Reporter.step
      split
      · rfl
      · exact hun
    rw [run_cons]
    intro rep hrep
    rcases List.mem_append.1 hrep with h | h
    · revert h
      unfold Reporter.step
      split
      · intro h
        have h : rep ∈ [(r.diag.run (r.filed txt mk e)).aggregate.2] := h
        rw [List.mem_singleton] at h
        subst h
        exact hun
      · intro h; cases h
    · refine ih (r.step txt mk cfg g e).1 hdiag ?_ rep h
      intro pre e' post hes
      exact hq (e :: pre) e' post (by rw [hes]; rfl)

end

/-! ## Examples -/

/-- A fresh node with its diagnostics. -/
def reporterDemo : Reporter Audit AuditQ :=
  { hub := { node := auditNode (auditCfg false 0 1000000000), mem := { init := fun _ => none, prev := fun _ => none } }
    diag := Diag.init, lastDiag := 0 }

/-- Nothing known about transforms, standing still. -/
def blindDemo : PrepCtx :=
  { buf := fun _ _ _ => none, world := "odom", base := "base_link", twoD := false, state := 0, angAcc := 0, gravity := 0 }

def wheelDemo : CallbackData :=
  { topic := "wheel", upd := fun i => i = 6, sum := 1, differential := false, relative := false, useChild := false, thresh := .unlimited }

def wheelMsg (frame : String) (stamp : Int) : TwistMsg :=
  { frame := frame, stamp := stamp, lin := fun _ => .fin 1, ang := fun _ => .fin 0, cov := fun _ => 1 }

/-- After a message stamped three seconds. -/
noncomputable def reporterDemo1 : Reporter Audit AuditQ :=
  (reporterDemo.step (fun _ _ => "") (fun _ => (0 : Int)) (auditCfg false 0 1000000000) ⟨true, 1000000000⟩
    (.twist blindDemo (wheelMsg "base_link" 3000000000) wheelDemo "base_link")).1

theorem reporterDemo1_late : ThrownAway reporterDemo1.hub.node
    (.twist blindDemo (wheelMsg "base_link" 400000000) wheelDemo "base_link") "wheel" :=
  ⟨"wheel", 400000000, rfl, Or.inr ⟨by decide, List.mem_singleton.2 rfl, 3000000000, rfl, by norm_num⟩⟩

/-- A message stamped three seconds, then one stamped 0.4 s: the second is told about in the report of the next cycle. -/
example : ∃ rep ∈ (reporterDemo1.run (fun _ _ => "") (fun _ => (0 : Int)) (auditCfg false 0 1000000000) ⟨true, 1000000000⟩
    ([.twist blindDemo (wheelMsg "base_link" 400000000) wheelDemo "base_link"] ++ [.tick 3000000000 3000000000 true])).2,
    rep.Warns "wheel" :=
  C103_told_partial _ _ _ _ rfl _ _ _ reporterDemo1_late [] _ _ _ rfl (by decide) (by decide)

/-- A message in a frame the buffer does not know. -/
example : reporterDemo.hub.node.lastSetPose < (wheelMsg "wheel_link" 1000000000).stamp ∧
    ¬ Overtaken reporterDemo.hub.node wheelDemo.topic 1000000000 ∧
    NoWay blindDemo.buf "base_link" "wheel_link" :=
  ⟨by decide, (by rintro ⟨t, h, -⟩; cases h), by decide, fun _ => rfl⟩

/-- Messages stamped 0.4 s and 1.4 s are not told apart. -/
example : reporterDemo1.hub.node.lastSetPose < 400000000 ∧ reporterDemo1.hub.node.lastSetPose < 400000000 + 1 * 1000000000 ∧
    Overtaken reporterDemo1.hub.node "wheel" 400000000 ∧ Overtaken reporterDemo1.hub.node "wheel" (400000000 + 1 * 1000000000) :=
  ⟨by decide, by decide, ⟨3000000000, rfl, by norm_num⟩, 3000000000, rfl, by norm_num⟩

end RL
