import Verif.Model.Throws
import Verif.Proofs.NodeTimes
import Verif.Props.FirstDemo
/-!
# C136: what ends the node, and where the stamps of its messages come from

`rclcpp::Time` does not take a stamp with negative seconds, and nothing catches its exception.
-/

namespace RL
variable {C : Core} {P : MQueue C}

/-- What the clock showed during an event. -/
def Sys.Ev.clock : Sys.Ev → List Int
  | .setPose now _ _ _ => [now]
  | .tick now now2 _ => [now, now2]
  | _ => []

/-- A message of a sensor. -/
def Sys.Ev.FromSensor : Sys.Ev → Prop
  | .odom .. => True
  | .pose .. => True
  | .twist .. => True
  | .imu .. => True
  | _ => False

/-- The stamp of a message that is sent. -/
def Sent.stamp : Sent → Int
  | .odom t _ => t
  | .tf t _ => t
  | .accel t _ => t

variable (V : View C) (g : SysCfg C) {T : Int → Prop}

theorem Sys.shown_stamp (s : Sys C P) (e : Sys.Ev) (o : Out C) : (s.shown V g e o).stamp = o.stamp := by
  cases e <;> cases o <;> rfl

/-- What an event does to the control flow brings no other times. -/
theorem Sys.events_in (s : Sys C P) (e : Sys.Ev) (hs : e.FromSensor → ∀ t, e.converted g = some t → T t)
    (hc : ∀ t ∈ e.clock, T t) : ∀ n ∈ s.events V g e, n.In T := by
  cases e with
  | odom i buf junk msg =>
    have hs := hs trivial
    simp only [Sys.events, Sys.Ev.converted] at hs ⊢
    cases he : g.inputs.odomCds[i]? with
    | none => simp
    | some ab =>
      obtain ⟨a, b⟩ := ab
      rw [he] at hs
      dsimp only at hs ⊢
      by_cases hab : a.sum + b.sum > 0
      · rw [if_pos hab] at hs
        rw [if_pos hab]
        have ht := hs _ rfl
        intro n hn
        unfold Hub.odomEvents at hn
        rcases List.mem_append.1 hn with hn | hn
        · split at hn
          · rw [List.mem_singleton.1 hn]; exact ht
          · simp at hn
        · split at hn
          · rw [List.mem_singleton.1 hn]; exact ht
          · simp at hn
      · rw [if_neg hab]; simp
  | pose i buf junk msg =>
    have hs := hs trivial
    simp only [Sys.events, Sys.Ev.converted] at hs ⊢
    cases he : g.inputs.poseCds[i]? with
    | none => simp
    | some a =>
      rw [he] at hs
      dsimp only at hs ⊢
      by_cases ha : a.sum > 0
      · rw [if_pos ha] at hs
        rw [if_pos ha]
        intro n hn
        rw [List.mem_singleton.1 hn]
        exact hs _ rfl
      · rw [if_neg ha]; simp
  | twist i buf junk msg =>
    have hs := hs trivial
    simp only [Sys.events, Sys.Ev.converted] at hs ⊢
    cases he : g.inputs.twistCds[i]? with
    | none => simp
    | some a =>
      rw [he] at hs
      dsimp only at hs ⊢
      by_cases ha : a.sum > 0
      · rw [if_pos ha] at hs
        rw [if_pos ha]
        intro n hn
        rw [List.mem_singleton.1 hn]
        exact hs _ rfl
      · rw [if_neg ha]; simp
  | imu i buf junk msg =>
    have hs := hs trivial
    simp only [Sys.events, Sys.Ev.converted] at hs ⊢
    cases he : g.inputs.imuCds[i]? with
    | none => simp
    | some abd =>
      obtain ⟨a, b, d⟩ := abd
      rw [he] at hs
      cases hi : g.inputs.imus[i]? with
      | none => simp
      | some set =>
        rw [hi] at hs
        dsimp only at hs ⊢
        by_cases hab : a.sum + b.sum + d.sum > 0
        · rw [if_pos hab] at hs
          rw [if_pos hab]
          have ht := hs _ rfl
          intro n hn
          unfold Hub.imuEvents at hn
          rcases List.mem_append.1 hn with hn | hn
          · split at hn
            · rw [List.mem_singleton.1 hn]; exact ht
            · simp at hn
          · rcases List.mem_append.1 hn with hn | hn
            · split at hn
              · rw [List.mem_singleton.1 hn]; exact ht
              · simp at hn
            · split at hn
              · rw [List.mem_singleton.1 hn]; exact ht
              · simp at hn
        · rw [if_neg hab]; simp
  | command now u =>
    intro n hn
    rw [List.mem_singleton.1 hn]
    trivial
  | setPose now buf junk msg =>
    intro n hn
    rw [List.mem_singleton.1 hn]
    exact hc now (by simp [Sys.Ev.clock])
  | reset =>
    intro n hn
    rw [List.mem_singleton.1 hn]
    trivial
  | toggle on =>
    intro n hn
    rw [List.mem_singleton.1 hn]
    trivial
  | enable =>
    intro n hn
    rw [List.mem_singleton.1 hn]
    trivial
  | tick now now2 buf =>
    intro n hn
    rw [List.mem_singleton.1 hn]
    exact ⟨hc now (by simp [Sys.Ev.clock]), hc now2 (by simp [Sys.Ev.clock])⟩

theorem Sys.times_step {s : Sys C P} (h : TInv T s.hub.node) (e : Sys.Ev)
    (hs : e.FromSensor → ∀ t, e.converted g = some t → T t) (hc : ∀ t ∈ e.clock, T t) :
    TInv T (s.step V g e).1.hub.node ∧ ∀ m ∈ (s.step V g e).2, T m.stamp := by
  obtain ⟨h1, h2⟩ := h.run (cfg := g.cfg) (s.events V g e) (s.events_in V g e hs hc)
  obtain ⟨e1, e2⟩ := s.step_eq V g e
  refine ⟨by rw [e1]; exact h1, fun m hm => ?_⟩
  rw [e2] at hm
  obtain ⟨o, ho, rfl⟩ := List.mem_map.1 hm
  rw [Sys.shown_stamp]
  exact h2 o ho

theorem Sys.times_run (es : List Sys.Ev) : ∀ {s : Sys C P}, TInv T s.hub.node →
    (∀ e ∈ es, e.FromSensor → ∀ t, e.converted g = some t → T t) → (∀ e ∈ es, ∀ t ∈ e.clock, T t) →
    TInv T (s.run V g es).1.hub.node ∧ ∀ m ∈ (s.run V g es).2, T m.stamp := by
  induction es with
  | nil => intro s h _ _; exact ⟨h, by intro m hm; simp [Sys.run] at hm⟩
  | cons e es ih =>
    intro s h hs hc
    obtain ⟨h1, h2⟩ := Sys.times_step V g h e (hs e List.mem_cons_self) (hc e List.mem_cons_self)
    obtain ⟨h3, h4⟩ := ih h1 (fun e' h' => hs e' (List.mem_cons_of_mem _ h')) (fun e' h' => hc e' (List.mem_cons_of_mem _ h'))
    refine ⟨h3, fun m hm => ?_⟩
    rcases List.mem_append.1 hm with hm | hm
    · exact h2 m hm
    · exact h4 m hm

/-- A message with this stamp comes in on a topic the node has subscribed to: of an input that uses something of it, a command
if there is a control term, or one of `set_pose`. -/
inductive Sys.Ev.Heard : Sys.Ev → Int → Prop
  | odom {i a b} (buf junk m) (h : g.inputs.odomCds[i]? = some (a, b)) (hs : 0 < a.sum ∨ 0 < b.sum) : Heard (.odom i buf junk m) m.stamp
  | pose {i a} (buf junk m) (h : g.inputs.poseCds[i]? = some a) (hs : 0 < a.sum) : Heard (.pose i buf junk m) m.stamp
  | twist {i b} (buf junk m) (h : g.inputs.twistCds[i]? = some b) (hs : 0 < b.sum) : Heard (.twist i buf junk m) m.stamp
  | imu {i a b d s} (buf junk m) (h : g.inputs.imuCds[i]? = some (a, b, d)) (hi : g.inputs.imus[i]? = some s)
      (hs : 0 < a.sum ∨ 0 < b.sum ∨ 0 < d.sum) : Heard (.imu i buf junk m) m.stamp
  | command (stamp u) (h : g.cfg.useControl = true) : Heard (.command stamp u) stamp
  | setPose (now buf junk m) : Heard (.setPose now buf junk m) m.stamp

theorem heard_iff (e : Sys.Ev) (t : Int) : e.Heard g t ↔ e.converted g = some t := by
  constructor
  · intro h
    cases h with
    | odom buf junk m h hs => simp only [Sys.Ev.converted, h]; rw [if_pos (by omega)]
    | pose buf junk m h hs => simp only [Sys.Ev.converted, h]; rw [if_pos (by omega)]
    | twist buf junk m h hs => simp only [Sys.Ev.converted, h]; rw [if_pos (by omega)]
    | imu buf junk m h hi hs => simp only [Sys.Ev.converted, h, hi]; rw [if_pos (by omega)]
    | command stamp u h => simp only [Sys.Ev.converted, h, if_true]
    | setPose now buf junk m => rfl
  · intro h
    cases e with
    | odom i buf junk m =>
      simp only [Sys.Ev.converted] at h
      split at h
      · rename_i a b hi
        split_ifs at h with hs
        cases h
        exact .odom buf junk m hi (by omega)
      · cases h
    | pose i buf junk m =>
      simp only [Sys.Ev.converted] at h
      split at h
      · rename_i a hi
        split_ifs at h with hs
        cases h
        exact .pose buf junk m hi hs
      · cases h
    | twist i buf junk m =>
      simp only [Sys.Ev.converted] at h
      split at h
      · rename_i a hi
        split_ifs at h with hs
        cases h
        exact .twist buf junk m hi hs
      · cases h
    | imu i buf junk m =>
      simp only [Sys.Ev.converted] at h
      split at h
      · rename_i a b d s hi hk
        split_ifs at h with hs
        cases h
        exact .imu buf junk m hi hk (by omega)
      · cases h
    | command stamp u =>
      simp only [Sys.Ev.converted] at h
      split_ifs at h with hs
      cases h
      exact .command _ u hs
    | setPose now buf junk m =>
      cases h
      exact .setPose now buf junk m
    | reset => cases h
    | toggle on => cases h
    | enable => cases h
    | tick now now2 buf => cases h

/-- C136: the stamp of a message the node sends is the stamp of a message of a sensor it listens to, or something its clock
showed; it is never invented. -/
theorem C136_stamps (ext0 : C.Ext) (fctl0 : C.Ctl) (now : Int) (d : Differ) (es : List Sys.Ev) :
    ∀ m ∈ ((Sys.start g P ext0 fctl0 now d).run V g es).2,
      ∃ e ∈ es, (e.FromSensor ∧ e.Heard g m.stamp) ∨ m.stamp ∈ e.clock := by
  exact (Sys.times_run V g (T := fun t => ∃ e ∈ es, (e.FromSensor ∧ e.Heard g t) ∨ t ∈ e.clock) es
    (s := Sys.start g P ext0 fctl0 now d) (TInv.start _ _ _ _ _)
    (fun e he hs t ht => ⟨e, he, Or.inl ⟨hs, (heard_iff g e t).2 ht⟩⟩) (fun e he t ht => ⟨e, he, Or.inr ht⟩)).2

/-- A message for a callback with a stamp before the epoch. -/
def Sys.Ev.Early (e : Sys.Ev) : Prop := ∃ t, e.Heard g t ∧ t < 0

theorem ends_early (e : Sys.Ev) : Sys.ends (e.converted g) = true ↔ e.Early g := by
  unfold Sys.Ev.Early
  simp only [heard_iff]
  cases e.converted g with
  | none => simp [Sys.ends]
  | some t => simp [Sys.ends]

theorem cycle_safe {s : Sys C P} (h : TInv (0 ≤ ·) s.hub.node) (e : Sys.Ev) (hc : ∀ t ∈ e.clock, 0 ≤ t) :
    Sys.ends (s.cycleStamp g e) = false := by
  cases e with
  | tick now now2 buf =>
    have ha := h.advance (cfg := g.cfg) (hc now (by simp [Sys.Ev.clock])) (hc now2 (by simp [Sys.Ev.clock]))
    simp only [Sys.cycleStamp]
    split
    · split
      · rename_i hi
        have := ha.clock hi
        simp only [Sys.ends, decide_eq_false_iff_not]
        omega
      · rfl
    · rfl
  | _ => rfl

theorem exactly_from (es : List Sys.Ev) : ∀ {s : Sys C P}, TInv (0 ≤ ·) s.hub.node → (∀ e ∈ es, ∀ t ∈ e.clock, 0 ≤ t) →
    (s.runX V g es = none ↔ ∃ e ∈ es, e.Early g) ∧ ((∀ e ∈ es, ¬ e.Early g) → s.runX V g es = some (s.run V g es)) := by
  induction es with
  | nil => intro s _ _; exact ⟨by simp [Sys.runX], fun _ => rfl⟩
  | cons e es ih =>
    intro s h hc
    have hcy := cycle_safe g h e (hc e List.mem_cons_self)
    by_cases he : e.Early g
    · have hn : s.runX V g (e :: es) = none := by
        simp only [Sys.runX, Sys.stepX, (ends_early g e).2 he, Bool.true_or, if_true]
      exact ⟨⟨fun _ => ⟨e, List.mem_cons_self, he⟩, fun _ => hn⟩, fun hh => absurd he (hh e List.mem_cons_self)⟩
    · have hf : Sys.ends (e.converted g) = false := by
        cases hb : Sys.ends (e.converted g) with
        | false => rfl
        | true => exact absurd ((ends_early g e).1 hb) he
      have hx : s.stepX V g e = some (s.step V g e) := by
        simp only [Sys.stepX, hf, hcy, Bool.or_self, Bool.false_eq_true, if_false]
      have h1 := (Sys.times_step V g h e (fun _ t ht => by
        by_contra hlt
        exact he ⟨t, (heard_iff g e t).2 ht, by omega⟩) (hc e List.mem_cons_self)).1
      obtain ⟨i1, i2⟩ := ih h1 (fun e' h' => hc e' (List.mem_cons_of_mem _ h'))
      have hr : s.runX V g (e :: es) = match (s.step V g e).1.runX V g es with
          | none => none
          | some r' => some (r'.1, (s.step V g e).2 ++ r'.2) := by
        cases hh : (s.step V g e).1.runX V g es <;> simp only [Sys.runX, hx, hh]
      constructor
      · rw [hr]
        constructor
        · intro hn
          have : (s.step V g e).1.runX V g es = none := by
            cases hh : (s.step V g e).1.runX V g es with
            | none => rfl
            | some r => rw [hh] at hn; cases hn
          obtain ⟨e', h', h''⟩ := i1.1 this
          exact ⟨e', List.mem_cons_of_mem _ h', h''⟩
        · rintro ⟨e', h', h''⟩
          rcases List.mem_cons.1 h' with rfl | h'
          · exact absurd h'' he
          · rw [i1.2 ⟨e', h', h''⟩]
      · intro hh
        rw [hr, i2 (fun e' h' => hh e' (List.mem_cons_of_mem _ h'))]
        rfl

/-- C136: while the clock shows no time before the epoch, a node ends exactly when a message with a stamp before the epoch
arrives on a topic it has subscribed to. -/
theorem C136_exactly (ext0 : C.Ext) (fctl0 : C.Ctl) (now : Int) (d : Differ) (es : List Sys.Ev)
    (hc : ∀ e ∈ es, ∀ t ∈ e.clock, 0 ≤ t) :
    (Sys.start g P ext0 fctl0 now d).runX V g es = none ↔ ∃ e ∈ es, e.Early g :=
  (exactly_from V g es (s := Sys.start g P ext0 fctl0 now d) (TInv.start _ _ _ _ _) hc).1

/-- C136, what is left of the claim: without such messages the node runs on, as if there were no exception. -/
theorem C136_runs_on_partial (ext0 : C.Ext) (fctl0 : C.Ctl) (now : Int) (d : Differ) (es : List Sys.Ev)
    (hc : ∀ e ∈ es, ∀ t ∈ e.clock, 0 ≤ t) (he : ∀ e ∈ es, ¬ e.Early g) :
    (Sys.start g P ext0 fctl0 now d).runX V g es = some ((Sys.start g P ext0 fctl0 now d).run V g es) :=
  (exactly_from V g es (s := Sys.start g P ext0 fctl0 now d) (TInv.start _ _ _ _ _) hc).2 he

/-- C136 does not hold: whatever its settings and its state, one `set_pose` with a stamp before the epoch ends a node. -/
theorem C136_set_pose_ends (s : Sys C P) (now : Int) (buf : TfBuffer) (junk : State) (msg : PoseMsg) (h : msg.stamp < 0)
    (es : List Sys.Ev) : s.runX V g (.setPose now buf junk msg :: es) = none := by
  have : (Sys.Ev.setPose now buf junk msg).Early g := ⟨msg.stamp, .setPose _ _ _ _, h⟩
  simp only [Sys.runX, Sys.stepX, (ends_early g _).2 this, Bool.true_or, if_true]

/-- So does one message of a sensor, even if it is older than the last `set_pose` and would be dropped. -/
theorem C136_pose_ends (s : Sys C P) (i : ℕ) (buf : TfBuffer) (junk : State) (msg : PoseMsg) (h : msg.stamp < 0)
    {a : CallbackData} (ha : g.inputs.poseCds[i]? = some a) (hs : a.sum > 0) (es : List Sys.Ev) :
    s.runX V g (.pose i buf junk msg :: es) = none := by
  have : (Sys.Ev.pose i buf junk msg).Early g := ⟨msg.stamp, .pose _ _ _ ha hs, h⟩
  simp only [Sys.runX, Sys.stepX, (ends_early g _).2 this, Bool.true_or, if_true]

/-- A pose with a stamp one second before the epoch. -/
noncomputable def earlyPose : PoseMsg := { quayPose with stamp := -1000000000 }

theorem towed_listens {c : NodeConf} (h : loadNode towedParams = some c) :
    ∃ a, c.sys.inputs.poseCds[0]? = some a ∧ a.sum > 0 := by
  have h1 := (towed_inputs h).1
  obtain ⟨s', a, -, h2, -⟩ := (C102_settings_partial h).inputs.poses.1 0 (List.getElem?_eq_some_iff.1 h1).1
  obtain ⟨s'', h3, h4⟩ := (loadNode_made h).pose 0 a h2
  rw [h1] at h3
  injection h3 with h3
  subst h3
  refine ⟨a, h2, ?_⟩
  have : (poseData beacon.par).map CallbackData.sum = some 6 := by decide
  rw [h4] at this
  simp only [Option.map_some, Option.some.injEq] at this
  omega

/-- A node that runs on, one that ends, and one that sends something. -/
example : ∃ c, loadNode towedParams = some c ∧
    (∃ r, (Sys.start c.sys (demoQ c.par) () (0 : Fin 6 → ℝ) 0 ⟨0, 0, 0, 0⟩).runX (ekfView c.par) c.sys
      [.pose 0 noTf 0 quayPose, .tick 2000000000 2000000000 noTf] = some r ∧ r.2 ≠ []) ∧
    (Sys.start c.sys (demoQ c.par) () (0 : Fin 6 → ℝ) 0 ⟨0, 0, 0, 0⟩).runX (ekfView c.par) c.sys
      [.pose 0 noTf 0 quayPose, .pose 0 noTf 0 earlyPose, .tick 2000000000 2000000000 noTf] = none := by
  obtain ⟨c, h⟩ := towed_starts
  obtain ⟨hw, -⟩ := towed_frames h
  obtain ⟨a, ha, hs⟩ := towed_listens h
  refine ⟨c, h, ⟨_, C136_runs_on_partial (ekfView c.par) c.sys () (0 : Fin 6 → ℝ) 0 ⟨0, 0, 0, 0⟩ _ ?_ ?_, ?_⟩, ?_⟩
  · intro e he t ht
    simp only [List.mem_cons, List.not_mem_nil, or_false] at he
    rcases he with rfl | rfl
    · simp [Sys.Ev.clock] at ht
    · simp only [Sys.Ev.clock, List.mem_cons, List.not_mem_nil, or_false, or_self] at ht
      omega
  · intro e he
    simp only [List.mem_cons, List.not_mem_nil, or_false] at he
    rintro ⟨t, ht, hlt⟩
    rw [heard_iff] at ht
    rcases he with rfl | rfl
    · simp [Sys.Ev.converted, ha, hs, quayPose] at ht
      omega
    · simp [Sys.Ev.converted] at ht
  · obtain ⟨m, h1, -, -⟩ := C119_first_pose h (towed_off _ (by simp [towedParams])) (towed_off _ (by simp [towedParams]))
      (towed_off _ (by simp [towedParams])) (by rw [hw]; decide) (demoQ c.par) 0 0 ⟨0, 0, 0, 0⟩ (towed_inputs h).1 rfl
      (fun j hj => by interval_cases j <;> simp [Selects, beacon]) rfl rfl noTf noTf_sane 0 quayPose hw.symm quay_unit quay_level
      (by norm_num [quayPose]) 2000000000 2000000000 (by norm_num [quayPose]) noTf
    exact List.ne_nil_of_mem h1
  · refine (C136_exactly (ekfView c.par) c.sys () (0 : Fin 6 → ℝ) 0 ⟨0, 0, 0, 0⟩ _ ?_).2
      ⟨.pose 0 noTf 0 earlyPose, by simp, -1000000000, .pose _ _ _ ha hs, by norm_num⟩
    intro e he t ht
    simp only [List.mem_cons, List.not_mem_nil, or_false] at he
    rcases he with rfl | rfl | rfl
    · simp [Sys.Ev.clock] at ht
    · simp [Sys.Ev.clock] at ht
    · simp only [Sys.Ev.clock, List.mem_cons, List.not_mem_nil, or_false, or_self] at ht
      omega

end RL
