import Verif.Proofs.Ranged
import Verif.Props.Ends
/-!
# C143: no computation with times overflows

`rclcpp::Time` raises an exception when a sum or difference of times does not fit into 64 bits.
-/

namespace RL
variable {C : Core} {P : MQueue C} (V : View C) (g : SysCfg C)

theorem Sys.ranged_events (s : Sys C P) (e : Sys.Ev) (hs : ∀ t, e.Heard g t → Int64Time t) (hc : ∀ t ∈ e.clock, Int64Time t) :
    ∀ n ∈ s.events V g e, n.Ranged g.cfg := by
  intro n hn
  have h := Sys.events_in (T := Int64Time) V g s e (fun _ t ht => hs t ((heard_iff g e t).2 ht)) hc n hn
  cases n with
  | sensor topic stamp z => exact h
  | setPose stamp now r => exact h
  | tick now now2 b => exact h
  | reset => trivial
  | toggle on => trivial
  | enable => trivial
  | control c t =>
    intro hu
    cases e with
    | command stamp u =>
      have := List.mem_singleton.1 hn
      injection this with h1 h2
      rw [h2]
      exact hs _ (.command _ u hu)
    | odom i buf junk msg =>
      exfalso
      simp only [Sys.events] at hn
      split at hn
      · split at hn
        · unfold Hub.odomEvents at hn
          rcases List.mem_append.1 hn with hn | hn <;> split at hn <;> simp at hn
        · simp at hn
      · simp at hn
    | pose i buf junk msg =>
      exfalso
      simp only [Sys.events] at hn
      split at hn
      · split at hn <;> simp at hn
      · simp at hn
    | twist i buf junk msg =>
      exfalso
      simp only [Sys.events] at hn
      split at hn
      · split at hn <;> simp at hn
      · simp at hn
    | imu i buf junk msg =>
      exfalso
      simp only [Sys.events] at hn
      split at hn
      · split at hn
        · unfold Hub.imuEvents at hn
          rcases List.mem_append.1 hn with hn | hn
          · split at hn <;> simp at hn
          · rcases List.mem_append.1 hn with hn | hn <;> split at hn <;> simp at hn
        · simp at hn
      · simp at hn
    | _ => simp [Sys.events] at hn

theorem Ranged.run {cfg : Cfg C} (hh : Int64Time cfg.historyLength) (es : List (Node.Event C)) : ∀ {n : Node C P}, Ranged n →
    (∀ e ∈ es, e.Ranged cfg) → Ranged (n.run cfg es).1 := by
  induction es with
  | nil => intro n hn _; exact hn
  | cons e es ih =>
    intro n hn he
    exact ih (hn.step e (he e List.mem_cons_self) hh) (fun e' h' => he e' (List.mem_cons_of_mem _ h'))

theorem Sys.ranged_step {s : Sys C P} (h : Ranged s.hub.node) (hh : Int64Time g.cfg.historyLength) (e : Sys.Ev)
    (hs : ∀ t, e.Heard g t → Int64Time t) (hc : ∀ t ∈ e.clock, Int64Time t) : Ranged (s.step V g e).1.hub.node := by
  rw [(s.step_eq V g e).1]
  exact h.run hh _ (s.ranged_events V g e hs hc)

/-- The stamp of the estimate of a cycle cannot be moved by the offset. -/
def TooFar (s : Sys C P) (e : Sys.Ev) : Prop :=
  ∃ t, s.cycleStamp g e = some t ∧ ¬ (-9223372036854775808 ≤ t + g.tfOffset ∧ t + g.tfOffset ≤ 9223372036854775807)

theorem overflows_iff {s : Sys C P} (h : Ranged s.hub.node) (hh : Int64Time g.cfg.historyLength) (e : Sys.Ev)
    (hc : ∀ t ∈ e.clock, Int64Time t) : s.overflows g e = true ↔ TooFar g s e := by
  cases e with
  | tick now now2 buf =>
    have hp := (h.periodic (cfg := g.cfg) (hc now (by simp [Sys.Ev.clock])) (hc now2 (by simp [Sys.Ev.clock]))
      (Sys.tfDue g.frames buf) g.tfOffset hh).2
    simp only [Sys.overflows, hp, TooFar, Sys.cycleStamp]
    cases he : s.hub.node.enabled with
    | false => simp
    | true =>
      cases hi : (s.hub.node.advance g.cfg now now2).filt.initialized with
      | false => simp
      | true =>
        simp only [Bool.true_and, if_true, Option.some.injEq, exists_eq_left', fits]
        by_cases hf : -9223372036854775808 ≤ (s.hub.node.advance g.cfg now now2).filt.lastTime + g.tfOffset ∧
          (s.hub.node.advance g.cfg now now2).filt.lastTime + g.tfOffset ≤ 9223372036854775807
        · simp [hf]
        · simp [hf]
  | _ => simp [Sys.overflows, TooFar, Sys.cycleStamp]

/-- C143: while clock and stamps are times from the epoch on in 64 bits, and the history is not of negative length, the only
computation with times that can overflow is that of the stamp of the transform: the node ends exactly when, in some cycle, the
stamp of its estimate and the transform offset have a sum of more than 64 bits. -/
theorem C143_exactly (hh : Int64Time g.cfg.historyLength) (es : List Sys.Ev) : ∀ {s : Sys C P}, Ranged s.hub.node →
    (∀ e ∈ es, ∀ t, e.Heard g t → Int64Time t) → (∀ e ∈ es, ∀ t ∈ e.clock, Int64Time t) →
    (s.runO V g es = none ↔ ∃ pre e post, es = pre ++ e :: post ∧ TooFar g (s.run V g pre).1 e) ∧
      (s.runO V g es ≠ none → s.runO V g es = some (s.run V g es)) := by
  induction es with
  | nil =>
    intro s _ _ _
    exact ⟨⟨fun h => by simp [Sys.runO] at h, fun ⟨pre, e, post, h, _⟩ => by simp at h⟩, fun _ => rfl⟩
  | cons e es ih =>
    intro s hr hs hc
    have ho := overflows_iff g hr hh e (hc e List.mem_cons_self)
    have hr' := Sys.ranged_step V g hr hh e (hs e List.mem_cons_self) (hc e List.mem_cons_self)
    obtain ⟨i1, i2⟩ := ih hr' (fun e' h' => hs e' (List.mem_cons_of_mem _ h')) (fun e' h' => hc e' (List.mem_cons_of_mem _ h'))
    by_cases ht : TooFar g s e
    · have hn : s.runO V g (e :: es) = none := by simp only [Sys.runO, Sys.stepO, ho.2 ht, if_true]
      exact ⟨⟨fun _ => ⟨[], e, es, rfl, ht⟩, fun _ => hn⟩, fun h => absurd hn h⟩
    · have hf : s.overflows g e = false := by
        cases hb : s.overflows g e with
        | false => rfl
        | true => exact absurd (ho.1 hb) ht
      have hcv : Sys.ends (e.converted g) = false := by
        cases hv : e.converted g with
        | none => rfl
        | some t =>
          have := (hs e List.mem_cons_self t ((heard_iff g e t).2 hv)).1
          simp only [Sys.ends, decide_eq_false_iff_not]
          omega
      have hcy : Sys.ends (s.cycleStamp g e) = false := by
        cases e with
        | tick now now2 buf =>
          have ha := (hr.advance (cfg := g.cfg) (hc _ List.mem_cons_self now (by simp [Sys.Ev.clock]))
            (hc _ List.mem_cons_self now2 (by simp [Sys.Ev.clock]))).2.last.1
          simp only [Sys.cycleStamp]
          split
          · split
            · simp only [Sys.ends, decide_eq_false_iff_not]
              omega
            · rfl
          · rfl
        | _ => rfl
      have hx : s.stepO V g e = some (s.step V g e) := by
        simp only [Sys.stepO, Sys.stepX, hf, hcv, hcy, Bool.or_self, Bool.false_eq_true, if_false]
      have hrun : s.runO V g (e :: es) = match (s.step V g e).1.runO V g es with
          | none => none
          | some r' => some (r'.1, (s.step V g e).2 ++ r'.2) := by
        cases hh : (s.step V g e).1.runO V g es <;> simp only [Sys.runO, hx, hh]
      rw [hrun]
      constructor
      · constructor
        · intro hn
          have : (s.step V g e).1.runO V g es = none := by
            cases hh : (s.step V g e).1.runO V g es with
            | none => rfl
            | some r => rw [hh] at hn; cases hn
          obtain ⟨pre, e', post, h1, h2⟩ := i1.1 this
          exact ⟨e :: pre, e', post, by rw [h1]; rfl, h2⟩
        · rintro ⟨pre, e', post, h1, h2⟩
          cases pre with
          | nil =>
            obtain ⟨rfl, -⟩ := List.cons.inj h1
            exact absurd h2 ht
          | cons a pre =>
            obtain ⟨rfl, h3⟩ := List.cons.inj h1
            rw [i1.2 ⟨pre, e', post, h3, h2⟩]
      · intro hn
        have : (s.step V g e).1.runO V g es ≠ none := by
          intro hh
          rw [hh] at hn
          exact hn rfl
        rw [i2 this]
        rfl

/-- The last time a message can carry (`int32` seconds, `uint32` nanoseconds). -/
def lastStamp : Int := 2147483647 * 1000000000 + 4294967295

/-- C143, for any filter: nothing overflows while clock and stamps are times messages can carry, if the offset of the transform
is less than 224 years. -/
theorem never_overflows (hh : Int64Time g.cfg.historyLength) (ho : -9223372036854775808 ≤ g.tfOffset)
    (ho' : g.tfOffset ≤ 7000000000 * 1000000000) (ext0 : C.Ext) (fctl0 : C.Ctl) {now : Int} (hnow : 0 ≤ now ∧ now ≤ lastStamp)
    (d : Differ) (es : List Sys.Ev) (hs : ∀ e ∈ es, ∀ t, e.Heard g t → 0 ≤ t ∧ t ≤ lastStamp)
    (hc : ∀ e ∈ es, ∀ t ∈ e.clock, 0 ≤ t ∧ t ≤ lastStamp) :
    (Sys.start g P ext0 fctl0 now d).runO V g es = some ((Sys.start g P ext0 fctl0 now d).run V g es) := by
  have hw : ∀ {t : Int}, 0 ≤ t ∧ t ≤ lastStamp → Int64Time t := fun {t} h => by
    unfold lastStamp at h
    unfold Int64Time
    omega
  obtain ⟨h1, h2⟩ := C143_exactly V g hh es (s := Sys.start g P ext0 fctl0 now d) (Ranged.start _ _ _ _ (hw hnow))
    (fun e he t ht => hw (hs e he t ht)) (fun e he t ht => hw (hc e he t ht))
  refine h2 fun hn => ?_
  obtain ⟨pre, e, post, rfl, t, h3, h4⟩ := h1.1 hn
  have h5 := (Sys.times_run V g (T := fun t => 0 ≤ t ∧ t ≤ lastStamp) pre (s := Sys.start g P ext0 fctl0 now d)
    (TInv.start _ _ _ _ _) (fun e he _ t ht => hs e (by simp [he]) t ((heard_iff g e t).2 ht))
    (fun e he t ht => hc e (by simp [he]) t ht)).1
  cases e with
  | tick now now2 buf =>
    have hcl := hc (.tick now now2 buf) (by simp)
    have h6 := h5.advance (cfg := g.cfg) (hcl now (by simp [Sys.Ev.clock])) (hcl now2 (by simp [Sys.Ev.clock]))
    simp only [Sys.cycleStamp] at h3
    split at h3
    · split at h3
      · rename_i hi
        injection h3 with h3
        have := h6.clock hi
        unfold lastStamp at this
        apply h4
        omega
      · cases h3
    · cases h3
  | _ => simp [Sys.cycleStamp] at h3

theorem toInt64_range {v : ℝ} {n : Int} (h : toInt64 v = some n) : -9223372036854775808 ≤ n ∧ n ≤ 9223372036854775807 := by
  unfold toInt64 at h
  dsimp only at h
  split at h <;> split at h
  · rename_i h1; injection h with h; subst h; exact h1
  · cases h
  · rename_i h1; injection h with h; subst h; exact h1
  · cases h

/-- The durations of a node that starts fit into 64 bits, and its history is not of negative length. -/
theorem times_fit {o : Nav.Given} {c : NodeConf} (h : loadNode o = some c) :
    Int64Time c.times.settings.historyLength ∧ -9223372036854775808 ≤ c.times.tfOffset ∧
      ∃ v, o.Num "transform_time_offset" 0 v := by
  unfold loadNode at h
  obtain ⟨sw, -, h⟩ := Option.bind_eq_some_iff.1 h
  obtain ⟨gr, -, h⟩ := Option.bind_eq_some_iff.1 h
  obtain ⟨fr, -, h⟩ := Option.bind_eq_some_iff.1 h
  obtain ⟨ti, ht, h⟩ := Option.bind_eq_some_iff.1 h
  obtain ⟨ct, -, h⟩ := Option.bind_eq_some_iff.1 h
  obtain ⟨ini, -, h⟩ := Option.bind_eq_some_iff.1 h
  obtain ⟨inp, -, h⟩ := Option.bind_eq_some_iff.1 h
  obtain ⟨co, -, h⟩ := Option.bind_eq_some_iff.1 h
  obtain ⟨q, -, h⟩ := Option.bind_eq_some_iff.1 h
  obtain ⟨p, -, h⟩ := Option.bind_eq_some_iff.1 h
  injection h with h
  subst h
  unfold readTimes at ht
  obtain ⟨x1, h1, h⟩ := Option.bind_eq_some_iff.1 ht
  obtain ⟨x2, h2, h⟩ := Option.bind_eq_some_iff.1 h
  obtain ⟨x3, h3, h⟩ := Option.bind_eq_some_iff.1 h
  obtain ⟨x4, h4, h⟩ := Option.bind_eq_some_iff.1 h
  obtain ⟨fr, h5, h⟩ := Option.bind_eq_some_iff.1 h
  obtain ⟨se, h6, h⟩ := Option.bind_eq_some_iff.1 h
  obtain ⟨hi, h7, h⟩ := Option.bind_eq_some_iff.1 h
  obtain ⟨co, h8, h⟩ := Option.bind_eq_some_iff.1 h
  obtain ⟨pe, h9, h⟩ := Option.bind_eq_some_iff.1 h
  obtain ⟨st, h10, h⟩ := Option.bind_eq_some_iff.1 h
  unfold loadTimes at h10
  obtain ⟨a, ha, h10⟩ := Option.bind_eq_some_iff.1 h10
  obtain ⟨b, hb, h10⟩ := Option.bind_eq_some_iff.1 h10
  obtain ⟨c, hc, h10⟩ := Option.bind_eq_some_iff.1 h10
  injection h10 with h10
  subst h10
  injection h with h
  subst h
  refine ⟨⟨?_, (toInt64_range hb).2⟩, (toInt64_range h2).1, x1, Nav.double_num h1⟩
  have h11 := (toInt64_le hb (by positivity)).2
  have h12 : (0 : ℝ) ≤ |hi.getD 0| * 1000000000 := by positivity
  have h13 : (0 : ℝ) < (b : ℝ) + 1 := lt_of_le_of_lt h12 h11
  have h14 : (0 : Int) < b + 1 := by exact_mod_cast h13
  show (0 : Int) ≤ b
  omega

theorem offset_le {o : Nav.Given} {c : NodeConf} (h : loadNode o = some c)
    (ho : ∀ v, o.Num "transform_time_offset" 0 v → v < 6999999999) : c.times.tfOffset ≤ 7000000000 * 1000000000 := by
  obtain ⟨-, -, v, hv⟩ := times_fit h
  have h1 := (abs_lt.1 ((C102_settings_partial h).times.offset v hv)).1
  have h2 := ho v hv
  have h3 : (c.times.tfOffset : ℝ) ≤ ((7000000000 * 1000000000 : Int) : ℝ) := by
    push_cast
    linarith
  exact_mod_cast h3

/-- C143: whatever its parameters, if the transform offset is less than 220 years no computation with times overflows in the
node of the extended filter, for all stamps a message can carry (from the epoch on) and while the clock shows such times. -/
theorem C143_never {o : Nav.Given} {c : NodeConf} (h : loadNode o = some c)
    (ho : ∀ v, o.Num "transform_time_offset" 0 v → v < 6999999999) (Q : MQueue (ekfCore c.par)) {now : Int}
    (hnow : 0 ≤ now ∧ now ≤ lastStamp) (d : Differ) (es : List Sys.Ev)
    (hs : ∀ e ∈ es, ∀ t, e.Heard c.sys t → 0 ≤ t ∧ t ≤ lastStamp) (hc : ∀ e ∈ es, ∀ t ∈ e.clock, 0 ≤ t ∧ t ≤ lastStamp) :
    (Sys.start c.sys Q () (0 : Fin 6 → ℝ) now d).runO (ekfView c.par) c.sys es =
      some ((Sys.start c.sys Q () (0 : Fin 6 → ℝ) now d).run (ekfView c.par) c.sys es) :=
  never_overflows (ekfView c.par) c.sys (times_fit h).1 (times_fit h).2.1 (offset_le h ho) _ _ hnow d es hs hc

/-- C143 for the node of the unscented filter. -/
theorem C143_ukf_never {o : Nav.Given} {c : NodeConf} (h : loadNode o = some c)
    (ho : ∀ v, o.Num "transform_time_offset" 0 v → v < 6999999999) (llt : Llt) (k : UkfConst)
    (Q : MQueue (ukfCore c.par llt k)) (ext0 : (ukfCore c.par llt k).Ext) {now : Int}
    (hnow : 0 ≤ now ∧ now ≤ lastStamp) (d : Differ) (es : List Sys.Ev)
    (hs : ∀ e ∈ es, ∀ t, e.Heard (c.ukfSys llt k) t → 0 ≤ t ∧ t ≤ lastStamp)
    (hc : ∀ e ∈ es, ∀ t ∈ e.clock, 0 ≤ t ∧ t ≤ lastStamp) :
    (Sys.start (c.ukfSys llt k) Q ext0 (0 : Fin 6 → ℝ) now d).runO (ukfView c.par llt k) (c.ukfSys llt k) es =
      some ((Sys.start (c.ukfSys llt k) Q ext0 (0 : Fin 6 → ℝ) now d).run (ukfView c.par llt k) (c.ukfSys llt k) es) :=
  never_overflows (ukfView c.par llt k) (c.ukfSys llt k) (times_fit h).1 (times_fit h).2.1 (offset_le h ho) _ _ hnow d es hs hc

theorem sent_cycleStamp (s : Sys C P) (e : Sys.Ev) : ∀ m ∈ (s.step V g e).2, s.cycleStamp g e = some m.stamp := by
  intro m hm
  cases e with
  | tick now now2 buf =>
    simp only [Sys.step, Sys.cycle] at hm
    by_cases he : s.hub.node.enabled = true
    · simp only [he, if_true] at hm
      obtain ⟨o, ho, rfl⟩ := List.mem_map.1 hm
      have e : (s.hub.node.periodic g.cfg now now2 (Sys.tfDue g.frames buf)).2 =
          ((s.hub.node.advance g.cfg now now2).publish g.cfg (Sys.tfDue g.frames buf)).2 := by
        simp [Node.periodic, he]
      rw [e] at ho
      obtain ⟨h1, h2⟩ := Node.publish_stamps g.cfg _ _ o ho
      simp only [Sys.cycleStamp, he, h1, if_true]
      rw [← h2]
      cases o <;> rfl
    · simp [he] at hm
  | odom i buf junk msg =>
    simp only [Sys.step] at hm
    split at hm
    · split at hm <;> simp at hm
    · simp at hm
  | pose i buf junk msg =>
    simp only [Sys.step] at hm
    split at hm
    · split at hm <;> simp at hm
    · simp at hm
  | twist i buf junk msg =>
    simp only [Sys.step] at hm
    split at hm
    · split at hm <;> simp at hm
    · simp at hm
  | imu i buf junk msg =>
    simp only [Sys.step] at hm
    split at hm
    · split at hm <;> simp at hm
    · simp at hm
  | _ => simp [Sys.step] at hm

/-- C143, why the offset matters: a node that would send something with a stamp that the offset moves beyond 64 bits ends
instead. -/
theorem C143_ends (hh : Int64Time g.cfg.historyLength) (ext0 : C.Ext) (fctl0 : C.Ctl) {now : Int} (hnow : Int64Time now)
    (d : Differ) (es : List Sys.Ev) (hs : ∀ e ∈ es, ∀ t, e.Heard g t → Int64Time t) (hc : ∀ e ∈ es, ∀ t ∈ e.clock, Int64Time t)
    {m : Sent} (hm : m ∈ ((Sys.start g P ext0 fctl0 now d).run V g es).2) (hf : m.stamp + g.tfOffset > 9223372036854775807) :
    (Sys.start g P ext0 fctl0 now d).runO V g es = none := by
  refine (C143_exactly V g hh es (s := Sys.start g P ext0 fctl0 now d) (Ranged.start _ _ _ _ hnow) hs hc).1.2 ?_
  clear hs hc
  generalize Sys.start g P ext0 fctl0 now d = s at hm
  induction es generalizing s with
  | nil => simp [Sys.run] at hm
  | cons e es ih =>
    rcases List.mem_append.1 hm with hm | hm
    · exact ⟨[], e, es, rfl, m.stamp, sent_cycleStamp V g s e m hm, by omega⟩
    · obtain ⟨pre, e', post, h1, h2⟩ := ih (s.step V g e).1 hm
      exact ⟨e :: pre, e', post, by rw [h1]; rfl, h2⟩

/-- A node that never ends this way, whatever it hears, whose transform offset is not set. -/
example : ∃ c, loadNode towedParams = some c ∧ ∀ v, towedParams.Num "transform_time_offset" 0 v → v < 6999999999 := by
  obtain ⟨c, h⟩ := towed_starts
  refine ⟨c, h, fun v hv => ?_⟩
  rcases hv with hv | ⟨-, hv⟩
  · simp [towedParams] at hv
  · rw [hv]; norm_num

/-- The transform offset plays no part in the odometry. -/
theorem odom_other_offset (k : Int) (es : List Sys.Ev) {t : Int} {x : Option OdomMsg} : ∀ s : Sys C P,
    Sent.odom t x ∈ (s.run V g es).2 → Sent.odom t x ∈ (s.run V { g with tfOffset := k } es).2 := by
  induction es with
  | nil => intro s h; exact h
  | cons e es ih =>
    intro s h
    have e1 : (s.step V { g with tfOffset := k } e).1 = (s.step V g e).1 := by
      cases e with
      | tick now now2 buf =>
        simp only [Sys.step, Sys.cycle]
        split <;> rfl
      | _ => rfl
    rcases List.mem_append.1 h with h | h
    · refine List.mem_append.2 (Or.inl ?_)
      cases e with
      | tick now now2 buf =>
        simp only [Sys.step, Sys.cycle] at h ⊢
        split at h
        · rename_i he
          rw [if_pos he]
          obtain ⟨o, ho, ho'⟩ := List.mem_map.1 h
          refine List.mem_map.2 ⟨o, ho, ?_⟩
          rw [← ho']
          cases o with
          | odom => rfl
          | tf => cases ho'
          | accel => cases ho'
        · simp at h
      | odom => exact h
      | pose => exact h
      | twist => exact h
      | imu => exact h
      | command => exact h
      | setPose => exact h
      | reset => exact h
      | toggle => exact h
      | enable => exact h
    · refine List.mem_append.2 (Or.inr ?_)
      show _ ∈ (Sys.run V _ (s.step V { g with tfOffset := k } e).1 es).2
      rw [e1]
      exact ih _ h

/-- The same node with a transform offset of 292 years ends after its first pose. -/
example : ∃ c, loadNode towedParams = some c ∧
    (Sys.start { c.sys with tfOffset := 9223372036000000000 } (demoQ c.par) () (0 : Fin 6 → ℝ) 0 ⟨0, 0, 0, 0⟩).runO
      (ekfView c.par) { c.sys with tfOffset := 9223372036000000000 }
      [.pose 0 noTf 0 quayPose, .tick 2000000000 2000000000 noTf] = none := by
  obtain ⟨c, h⟩ := towed_starts
  obtain ⟨hw, -⟩ := towed_frames h
  obtain ⟨a, ha, hs⟩ := towed_listens h
  refine ⟨c, h, ?_⟩
  obtain ⟨m, h1, -, -⟩ := C119_first_pose h (towed_off _ (by simp [towedParams])) (towed_off _ (by simp [towedParams]))
    (towed_off _ (by simp [towedParams])) (by rw [hw]; decide) (demoQ c.par) 0 0 ⟨0, 0, 0, 0⟩ (towed_inputs h).1 rfl
    (fun j hj => by interval_cases j <;> simp [Selects, beacon]) rfl rfl noTf noTf_sane 0 quayPose hw.symm quay_unit quay_level
    (by norm_num [quayPose]) 2000000000 2000000000 (by norm_num [quayPose]) noTf
  refine C143_ends (ekfView c.par) { c.sys with tfOffset := 9223372036000000000 } (times_fit h).1 () (0 : Fin 6 → ℝ)
    ⟨by decide, by decide⟩ ⟨0, 0, 0, 0⟩ _ ?_ ?_ (m := .odom quayPose.stamp (some m)) ?_ ?_
  · intro e he t ht
    rw [heard_iff] at ht
    simp only [List.mem_cons, List.not_mem_nil, or_false] at he
    rcases he with rfl | rfl
    · simp only [Sys.Ev.converted] at ht
      split at ht
      · split_ifs at ht
        injection ht with ht
        rw [← ht]
        exact ⟨by norm_num [quayPose], by norm_num [quayPose]⟩
      · cases ht
    · simp [Sys.Ev.converted] at ht
  · intro e he t ht
    simp only [List.mem_cons, List.not_mem_nil, or_false] at he
    rcases he with rfl | rfl
    · simp [Sys.Ev.clock] at ht
    · simp only [Sys.Ev.clock, List.mem_cons, List.not_mem_nil, or_false, or_self] at ht
      rw [ht]
      exact ⟨by decide, by decide⟩
  · exact odom_other_offset (ekfView c.par) c.sys 9223372036000000000 _ _ h1
  · norm_num [Sent.stamp, quayPose]

end RL
