import Verif.Props.NavsatHeading
/-!
# Properties C52 and C75: what is sent when, and what ends the node
-/

namespace RL.Nav
open Matrix Real

/-! ## C52: nothing before its time -/

/-- Messages and answers that need the transform. -/
def Out.Positive : Out → Prop
  | .ll none => False
  | .map none => False
  | _ => True

/-- A datum has been given, by parameter or by service. -/
def Datum (w : Bool) (es : List Ev) : Prop := w = true ∨ ∃ d, .datum d ∈ es

/-- Odometry and either a datum or a fix and a heading have been received. -/
def Enough (p : Par) (w : Bool) (es : List Ev) : Prop :=
  (∃ b m, .odom b m ∈ es) ∧ (Datum w es ∨ ((∃ m, .fix m ∈ es ∧ Usable m) ∧ (p.odomYaw = true ∨ ∃ b m, .imu b m ∈ es)))

/-- What the flags of the node say about the past. -/
structure Seen (p : Par) (w : Bool) (es : List Ev) (s : St) : Prop where
  odom : s.hasOdom = true → ∃ b m, .odom b m ∈ es
  manual : s.manual = true → Datum w es
  gps : s.hasGps = true → Datum w es ∨ ∃ m, .fix m ∈ es ∧ Usable m
  imu : s.hasImu = true → Datum w es ∨ p.odomYaw = true ∨ ∃ b m, .imu b m ∈ es
  good : s.good = true → Enough p w es

theorem Datum.mono {w : Bool} {es es' : List Ev} (h : es ⊆ es') (hd : Datum w es) : Datum w es' :=
  hd.imp id fun ⟨d, hd⟩ => ⟨d, h hd⟩

theorem Enough.mono {p : Par} {w : Bool} {es es' : List Ev} (h : es ⊆ es') (he : Enough p w es) : Enough p w es' :=
  ⟨he.1.imp fun _ ⟨m, hm⟩ => ⟨m, h hm⟩, he.2.imp (Datum.mono h) fun ⟨⟨m, hm, hu⟩, hi⟩ =>
    ⟨⟨m, h hm, hu⟩, hi.imp id fun ⟨b, m, hm⟩ => ⟨b, m, h hm⟩⟩⟩

theorem Seen.mono {p : Par} {w : Bool} {es es' : List Ev} {s : St} (h : es ⊆ es') (hs : Seen p w es s) : Seen p w es' s where
  odom ho := (hs.odom ho).imp fun _ ⟨m, hm⟩ => ⟨m, h hm⟩
  manual hm := (hs.manual hm).mono h
  gps hg := (hs.gps hg).imp (Datum.mono h) fun ⟨m, hm, hu⟩ => ⟨m, h hm, hu⟩
  imu hi := (hs.imu hi).imp (Datum.mono h) fun hi => hi.imp id fun ⟨b, m, hm⟩ => ⟨b, m, h hm⟩
  good hg := (hs.good hg).mono h

theorem Seen.congr {p : Par} {w : Bool} {es : List Ev} {a b : St} (h : Seen p w es b) (h1 : a.hasOdom = b.hasOdom) (h2 : a.manual = b.manual)
    (h3 : a.hasGps = b.hasGps) (h4 : a.hasImu = b.hasImu) (h5 : a.good = b.good) : Seen p w es a where
  odom := by rw [h1]; exact h.odom
  manual := by rw [h2]; exact h.manual
  gps := by rw [h3]; exact h.gps
  imu := by rw [h4]; exact h.imu
  good := by rw [h5]; exact h.good

theorem setTransformOdometry_hasImu (buf : TfBuffer) (p : Par) (s : St) (m : OdoMsg) (h : p.odomYaw = false) :
    (s.setTransformOdometry buf p m).hasImu = s.hasImu := by
  simp [St.setTransformOdometry, h]

theorem computeTransform_seen (g : Geo) (buf : TfBuffer) (p : Par) (w : Bool) (es : List Ev) (s : St) (h : Seen p w es s) :
    Seen p w es (s.computeTransform g buf p) := by
  have h1 : Seen p w es (if !s.good && s.hasOdom && s.manual then s.setManualDatum g buf p else s) := by
    split
    · rename_i hc
      simp only [Bool.and_eq_true] at hc
      have hs := setManualDatum_same g buf p s
      have hd := h.manual hc.2
      exact { odom := fun _ => h.odom hc.1.2, manual := fun _ => hd, gps := fun _ => Or.inl hd, imu := fun _ => Or.inl hd,
              good := fun hg => h.good (hs.good.symm.trans hg) }
    · exact h
  obtain ⟨s1, hs1, ⟨-, e⟩ | ⟨hc, -, -, -, e⟩⟩ := computeTransform_cases g buf p s
  · rw [← hs1] at h1
    rw [e]
    exact h1
  · rw [← hs1] at h1
    rw [e]
    simp only [Bool.and_eq_true] at hc
    refine { odom := h1.odom, manual := h1.manual, gps := h1.gps, imu := h1.imu, good := fun _ => ⟨h1.odom hc.1.1.2, ?_⟩ }
    rcases h1.gps hc.1.2 with hd | hf
    · exact Or.inl hd
    · rcases h1.imu hc.2 with hd | hi
      · exact Or.inl hd
      · exact Or.inr ⟨hf, hi⟩

theorem step_seen (g : Geo) (p : Par) (bc ap : Bool) (w : Bool) (es : List Ev) (s : St) (e : Ev) (s' : St)
    (h : (step g p bc ap s e).st = some s') (hk : Seen p w es s) : Seen p w (es ++ [e]) s' := by
  have hk := hk.mono (List.subset_append_left es [e])
  have hmem : e ∈ es ++ [e] := by simp
  cases e with
  | fix m =>
    simp only [step, St.fix] at h
    split at h
    · rename_i lat lon alt hf hp
      have hu : Usable m := ⟨hf, by rw [hp]; rfl⟩
      simp only [Option.map_eq_some_iff] at h
      obtain ⟨u, -, rfl⟩ := h
      split
      · have hs := setTransformGps_same g p { s with gpsFrame := m.frame } lat lon alt
        exact { odom := fun ho => hk.odom (hs.hasOdom.symm.trans ho), manual := fun hm => hk.manual (hs.manual.symm.trans hm),
                gps := fun _ => Or.inr ⟨m, hmem, hu⟩, imu := fun hi => hk.imu (hs.hasImu.symm.trans hi),
                good := fun hg => hk.good (hs.good.symm.trans hg) }
      · exact hk.congr rfl rfl rfl rfl rfl
    · simp only [Option.some.injEq] at h
      rw [← h]
      exact hk.congr rfl rfl rfl rfl rfl
  | imu buf m =>
    simp only [step, Option.some.injEq] at h
    rw [← h]
    split
    · have hs := imu_same buf s m
      exact { odom := fun ho => hk.odom (hs.hasOdom.symm.trans ho), manual := fun hm => hk.manual (hs.manual.symm.trans hm),
              gps := fun hg => hk.gps (hs.hasGps.symm.trans hg), imu := fun _ => Or.inr (Or.inr ⟨buf, m, hmem⟩),
              good := fun hg => hk.good (hs.good.symm.trans hg) }
    · exact hk
  | odom buf m =>
    simp only [step, St.odom, Option.some.injEq] at h
    rw [← h]
    by_cases hg : s.good = true
    · rw [if_pos hg]
      exact hk.congr rfl rfl rfl rfl rfl
    · rw [if_neg hg]
      have hs := (setTransformOdometry_same buf p { s with world := m.frame, base := m.child } m).1
      refine { odom := fun _ => ⟨buf, m, hmem⟩, manual := fun hm => hk.manual (hs.manual.symm.trans hm),
               gps := fun hg => hk.gps (hs.hasGps.symm.trans hg), imu := fun hi => ?_, good := fun hg => hk.good (hs.good.symm.trans hg) }
      by_cases hy : p.odomYaw = true
      · exact Or.inr (Or.inl hy)
      · exact hk.imu ((setTransformOdometry_hasImu buf p { s with world := m.frame, base := m.child } m (by simpa using hy)).symm.trans hi)
  | timer buf =>
    rcases timer_cases g buf p bc ap s s' h with ⟨-, c1, c2, gu, ou, rfl⟩ | ⟨-, i, rfl⟩
    · exact hk.congr rfl rfl rfl rfl rfl
    · exact (computeTransform_seen g buf p w _ s hk).congr rfl rfl rfl rfl rfl
  | datum d =>
    simp only [step, Option.some.injEq] at h
    rw [← h]
    exact { odom := hk.odom, manual := fun _ => Or.inr ⟨d, hmem⟩, gps := hk.gps, imu := hk.imu, good := fun hg => (Bool.noConfusion hg) }
  | toLL v =>
    simp only [step, Option.map_eq_some_iff] at h
    obtain ⟨-, -, rfl⟩ := h
    exact hk
  | fromLL lat lon alt =>
    simp only [step, Option.map_eq_some_iff] at h
    obtain ⟨-, -, rfl⟩ := h
    exact hk
  | setZone z =>
    cases z with
    | none => cases h
    | some z =>
      simp only [step, Option.some.injEq] at h
      rw [← h]
      exact { odom := hk.odom, manual := fun hm => (Bool.noConfusion hm), gps := fun hm => (Bool.noConfusion hm), imu := hk.imu,
              good := fun hm => (Bool.noConfusion hm) }

/-- An event sends something only when the transform is known, before or after it. -/
theorem step_outs (g : Geo) (p : Par) (bc ap : Bool) (w : Bool) (es : List Ev) (s : St) (e : Ev) (hk : Seen p w es s) (o : Out)
    (ho : o ∈ (step g p bc ap s e).outs) (hp : o.Positive) : Enough p w es := by
  cases e with
  | fix m => simp [step] at ho
  | imu buf m => simp [step] at ho
  | odom buf m => simp [step] at ho
  | timer buf =>
    by_cases hg : s.good = true
    · exact hk.good hg
    · simp only [step, St.timer, hg, Bool.false_eq_true, if_false] at ho
      have hc := computeTransform_seen g buf p w es s hk
      generalize s.computeTransform g buf p = c at ho hc
      by_cases hg2 : c.good = true
      · exact hc.good hg2
      · have e : c.good = false := by simpa using hg2
        simp [e] at ho
  | datum d => simp [step] at ho
  | toLL v =>
    simp only [step, Option.mem_toList, St.toLL] at ho
    split at ho
    · rename_i hg
      exact hk.good hg
    · simp only [Option.mem_def, Option.some.injEq] at ho
      rw [← ho] at hp
      exact hp.elim
  | fromLL lat lon alt =>
    simp only [step, Option.mem_toList, St.fromLL, Option.map_eq_some_iff] at ho
    obtain ⟨v, -, ho⟩ := ho
    split at ho
    · rename_i hg
      exact hk.good hg
    · rw [← ho] at hp
      exact hp.elim
  | setZone z => cases z <;> simp [step] at ho

/-- **C52**: whatever is published, broadcast or answered positively, odometry and either a datum or a usable fix and a heading
have come before. -/
theorem C52_nothing_before (g : Geo) (p : Par) (bc ap : Bool) {w : Bool} {s : St} (hi : s.Initial p w) (es : List Ev) (o : Out)
    (ho : o ∈ (run g p bc ap s es).outs) (hp : o.Positive) : Enough p w es := by
  have key : ∀ (es es0 : List Ev) (s : St), Seen p w es0 s → o ∈ (run g p bc ap s es).outs → Enough p w (es0 ++ es) := by
    intro es
    induction es with
    | nil => intro es0 s _ h; simp [run] at h
    | cons e es ih =>
      intro es0 s hk h
      simp only [run] at h
      cases hs : (step g p bc ap s e).st with
      | none =>
        rw [hs] at h
        exact (step_outs g p bc ap w es0 s e hk o h hp).mono (List.subset_append_left _ _)
      | some s1 =>
        rw [hs] at h
        simp only [List.mem_append] at h
        rcases h with h | h
        · exact (step_outs g p bc ap w es0 s e hk o h hp).mono (List.subset_append_left _ _)
        · have := ih (es0 ++ [e]) s1 (step_seen g p bc ap w es0 s e s1 hs hk) h
          rwa [List.append_assoc] at this
  refine key es [] s ⟨?_, ?_, ?_, ?_, ?_⟩ ho
  · rw [hi.hasOdom]; simp
  · rw [hi.manual]; exact Or.inl
  · rw [hi.hasGps]; simp
  · rw [hi.hasImu]; simp
  · rw [hi.good]; simp

theorem run_outs (g : Geo) (p : Par) (bc ap : Bool) (s : St) (a b : List Ev) (s1 : St) (h : (run g p bc ap s a).st = some s1) :
    (run g p bc ap s (a ++ b)).outs = (run g p bc ap s a).outs ++ (run g p bc ap s1 b).outs := by
  induction a generalizing s with
  | nil =>
    simp only [run, Option.some.injEq] at h
    rw [h]
    rfl
  | cons e a ih =>
    simp only [List.cons_append, run] at h ⊢
    cases hs : (step g p bc ap s e).st with
    | none => rw [hs] at h; cases h
    | some s2 =>
      rw [hs] at h
      simp only
      rw [ih s2 h, List.append_assoc]

/-! ## C52: one message per fix -/

/-- The stamp of a message on odometry/gps. -/
def Out.gpsStamp : Out → Option Int
  | .gpsOdom _ _ t _ => some t
  | _ => none

/-- The stamp of a message on gps/filtered. -/
def Out.filteredStamp : Out → Option Int
  | .filtered _ _ _ _ t _ => some t
  | _ => none

open Classical in
/-- The stamp of a usable fix. -/
noncomputable def Ev.fixStamp : Ev → Option Int
  | .fix m => if Usable m then some m.stamp else none
  | _ => none

def Ev.odomStamp : Ev → Option Int
  | .odom _ m => some m.stamp
  | _ => none

theorem timer_stamps (g : Geo) (buf : TfBuffer) (p : Par) (bc ap : Bool) (s : St) :
    (((s.timer g buf p bc ap).outs.filterMap Out.gpsStamp = [] ∧
        ∀ s', (s.timer g buf p bc ap).st = some s' → s'.gpsUpdated = s.gpsUpdated ∧ s'.gpsTime = s.gpsTime) ∨
      (s.gpsUpdated = true ∧ (s.timer g buf p bc ap).outs.filterMap Out.gpsStamp = [s.gpsTime] ∧
        ∀ s', (s.timer g buf p bc ap).st = some s' → s'.gpsUpdated = false)) ∧
    (((s.timer g buf p bc ap).outs.filterMap Out.filteredStamp = [] ∧
        ∀ s', (s.timer g buf p bc ap).st = some s' → s'.odomUpdated = s.odomUpdated ∧ s'.odomTime = s.odomTime) ∨
      (s.odomUpdated = true ∧ (s.timer g buf p bc ap).outs.filterMap Out.filteredStamp = [s.odomTime] ∧
        ∀ s', (s.timer g buf p bc ap).st = some s' → s'.odomUpdated = false)) := by
  unfold St.timer
  by_cases hg : s.good = true
  · rw [if_pos hg]
    have key1 : ∀ q, q = s.prepareGpsOdometry buf p →
        q.1.odomUpdated = s.odomUpdated ∧ q.1.odomTime = s.odomTime ∧ q.1.gpsTime = s.gpsTime ∧ q.2.filterMap Out.filteredStamp = [] ∧
        (q.2.filterMap Out.gpsStamp = [] ∧ q.1.gpsUpdated = s.gpsUpdated ∨
          s.gpsUpdated = true ∧ q.2.filterMap Out.gpsStamp = [s.gpsTime] ∧ q.1.gpsUpdated = false) := by
      rintro q rfl
      unfold St.prepareGpsOdometry
      split
      · rename_i hc
        simp only [Bool.and_eq_true] at hc
        exact ⟨rfl, rfl, rfl, rfl, Or.inr ⟨hc.1.2, rfl, rfl⟩⟩
      · exact ⟨rfl, rfl, rfl, rfl, Or.inl ⟨rfl, rfl⟩⟩
    obtain ⟨a1, a2, a3, a4, a5⟩ := key1 _ rfl
    generalize s.prepareGpsOdometry buf p = q at a1 a2 a3 a4 a5
    obtain ⟨s1, o1⟩ := q
    simp only at a1 a2 a3 a4 a5 ⊢
    split
    · have key2 : s1.prepareFilteredGps g = none ∨ ∃ r, s1.prepareFilteredGps g = some r ∧
          r.1.gpsUpdated = s1.gpsUpdated ∧ r.1.gpsTime = s1.gpsTime ∧ r.2.filterMap Out.gpsStamp = [] ∧
          (r.2.filterMap Out.filteredStamp = [] ∧ r.1.odomUpdated = s1.odomUpdated ∧ r.1.odomTime = s1.odomTime ∨
            s1.odomUpdated = true ∧ r.2.filterMap Out.filteredStamp = [s1.odomTime] ∧ r.1.odomUpdated = false) := by
        unfold St.prepareFilteredGps
        split
        · rename_i hc
          simp only [Bool.and_eq_true] at hc
          cases hm : s1.mapToLL g s1.lastOdom.org with
          | none => exact Or.inl rfl
          | some ll => exact Or.inr ⟨_, rfl, rfl, rfl, rfl, Or.inr ⟨hc.2, rfl, rfl⟩⟩
        · exact Or.inr ⟨_, rfl, rfl, rfl, rfl, Or.inl ⟨rfl, rfl, rfl⟩⟩
      rcases key2 with h | ⟨r, h, b1, b2, b3, b4⟩
      · rw [h]
        simp only
        refine ⟨?_, Or.inl ⟨a4, fun s' h => by cases h⟩⟩
        rcases a5 with ⟨c1, -⟩ | ⟨c1, c2, -⟩
        · exact Or.inl ⟨c1, fun s' h => by cases h⟩
        · exact Or.inr ⟨c1, c2, fun s' h => by cases h⟩
      · rw [h]
        simp only [List.filterMap_append, a4, b3, List.append_nil, List.nil_append, Option.some.injEq, forall_eq']
        rw [b1, b2, a3]
        rw [a1, a2] at b4
        constructor
        · rcases a5 with ⟨c1, c2⟩ | c
          · exact Or.inl ⟨c1, c2, rfl⟩
          · exact Or.inr c
        · exact b4
    · simp only [Option.some.injEq, forall_eq']
      refine ⟨?_, Or.inl ⟨a4, a1, a2⟩⟩
      rcases a5 with ⟨c1, c2⟩ | c
      · exact Or.inl ⟨c1, c2, a3⟩
      · exact Or.inr c
  · rw [if_neg hg]
    have hcomp : (s.computeTransform g buf p).gpsUpdated = s.gpsUpdated ∧ (s.computeTransform g buf p).gpsTime = s.gpsTime ∧
        (s.computeTransform g buf p).odomUpdated = s.odomUpdated ∧ (s.computeTransform g buf p).odomTime = s.odomTime := by
      have hs := setManualDatum_same g buf p s
      obtain ⟨s1, hs1, ⟨-, e⟩ | ⟨-, -, -, -, e⟩⟩ := computeTransform_cases g buf p s <;> rw [e, hs1] <;> split
      · exact ⟨hs.gpsUpdated, hs.gpsTime, hs.odomUpdated, hs.odomTime⟩
      · exact ⟨rfl, rfl, rfl, rfl⟩
      · exact ⟨hs.gpsUpdated, hs.gpsTime, hs.odomUpdated, hs.odomTime⟩
      · exact ⟨rfl, rfl, rfl, rfl⟩
    generalize s.computeTransform g buf p = c at hcomp
    simp only [Option.some.injEq, forall_eq']
    obtain ⟨c1, c2, c3, c4⟩ := hcomp
    refine ⟨Or.inl ⟨?_, ?_, ?_⟩, Or.inl ⟨?_, ?_, ?_⟩⟩
    · split <;> split <;> rfl
    · split <;> exact c1
    · split <;> exact c2
    · split <;> split <;> rfl
    · split <;> exact c3
    · split <;> exact c4

/-- The stamp of a fix that has not been published, and of an odometry message. -/
def St.pendingFix (s : St) : List Int := if s.gpsUpdated then [s.gpsTime] else []

def St.pendingOdom (s : St) : List Int := if s.odomUpdated then [s.odomTime] else []

theorem step_stamps (g : Geo) (p : Par) (bc ap : Bool) (s : St) (e : Ev) :
    ((step g p bc ap s e).outs.filterMap Out.gpsStamp ++ ((step g p bc ap s e).st.map St.pendingFix).getD []).Sublist
      (s.pendingFix ++ e.fixStamp.toList) ∧
    ((step g p bc ap s e).outs.filterMap Out.filteredStamp ++ ((step g p bc ap s e).st.map St.pendingOdom).getD []).Sublist
      (s.pendingOdom ++ e.odomStamp.toList) := by
  cases e with
  | fix m =>
    simp only [step, St.fix, List.filterMap_nil, List.nil_append]
    split
    · rename_i lat lon alt hf hp
      have hu : Usable m := ⟨hf, by rw [hp]; rfl⟩
      cases hfw : g.forward lat lon (-1) with
      | none => simp
      | some u =>
        simp only [Option.map_some, Option.getD_some, Ev.fixStamp, hu, if_true, Option.toList_some]
        refine ⟨by simp [St.pendingFix], ?_⟩
        have hs := setTransformGps_same g p { s with gpsFrame := m.frame } lat lon alt
        simp only [St.pendingOdom, Ev.odomStamp, Option.toList_none, List.append_nil]
        split
        · rw [hs.odomUpdated, hs.odomTime]
        · exact List.Sublist.refl _
    · simp [St.pendingFix, St.pendingOdom]
  | imu buf m =>
    have hs := imu_same buf s m
    simp only [step, List.filterMap_nil, List.nil_append, Option.map_some, Option.getD_some, St.pendingFix, St.pendingOdom]
    split
    · rw [hs.gpsUpdated, hs.gpsTime, hs.odomUpdated, hs.odomTime]
      simp
    · simp
  | odom buf m =>
    have hs := (setTransformOdometry_same buf p { s with world := m.frame, base := m.child } m).1
    simp only [step, St.odom, List.filterMap_nil, List.nil_append, Option.map_some, Option.getD_some, St.pendingFix, St.pendingOdom,
      Ev.odomStamp, Option.toList_some, if_true]
    refine ⟨?_, by simp⟩
    split
    · simp
    · rw [hs.gpsUpdated, hs.gpsTime]
      simp
  | timer buf =>
    obtain ⟨h1, h2⟩ := timer_stamps g buf p bc ap s
    simp only [step, Ev.fixStamp, Ev.odomStamp, Option.toList_none, List.append_nil]
    generalize s.timer g buf p bc ap = r at h1 h2
    obtain ⟨outs, st⟩ := r
    cases st with
    | none =>
      constructor
      · rcases h1 with ⟨c1, -⟩ | ⟨c0, c1, -⟩
        · simp [c1]
        · simp [c1, St.pendingFix, c0]
      · rcases h2 with ⟨c1, -⟩ | ⟨c0, c1, -⟩
        · simp [c1]
        · simp [c1, St.pendingOdom, c0]
    | some s' =>
      constructor
      · rcases h1 with ⟨c1, c2⟩ | ⟨c0, c1, c2⟩
        · obtain ⟨d1, d2⟩ := c2 s' rfl
          simp [c1, St.pendingFix, d1, d2]
        · have d1 := c2 s' rfl
          simp [c1, St.pendingFix, c0, d1]
      · rcases h2 with ⟨c1, c2⟩ | ⟨c0, c1, c2⟩
        · obtain ⟨d1, d2⟩ := c2 s' rfl
          simp [c1, St.pendingOdom, d1, d2]
        · have d1 := c2 s' rfl
          simp [c1, St.pendingOdom, c0, d1]
  | datum d => simp [step, St.setDatum, St.pendingFix, St.pendingOdom]
  | toLL v =>
    have h1 : ∀ o, s.toLL g v = some o → o.gpsStamp = none ∧ o.filteredStamp = none := by
      intro o h
      unfold St.toLL at h
      split at h
      · rw [Option.map_eq_some_iff] at h
        obtain ⟨a, -, rfl⟩ := h
        exact ⟨rfl, rfl⟩
      · simp only [Option.some.injEq] at h
        rw [← h]
        exact ⟨rfl, rfl⟩
    simp only [step]
    cases h : s.toLL g v with
    | none => simp
    | some o => simp [(h1 o h).1, (h1 o h).2]
  | fromLL lat lon alt =>
    have h1 : ∀ o, s.fromLL g p lat lon alt = some o → o.gpsStamp = none ∧ o.filteredStamp = none := by
      intro o h
      unfold St.fromLL at h
      simp only [Option.map_eq_some_iff] at h
      obtain ⟨a, -, rfl⟩ := h
      split <;> exact ⟨rfl, rfl⟩
    simp only [step]
    cases h : s.fromLL g p lat lon alt with
    | none => simp
    | some o => simp [(h1 o h).1, (h1 o h).2]
  | setZone z => cases z <;> simp [step, St.setZone, St.pendingFix, St.pendingOdom]

theorem run_stamps (g : Geo) (p : Par) (bc ap : Bool) (es : List Ev) (s : St) :
    ((run g p bc ap s es).outs.filterMap Out.gpsStamp).Sublist (s.pendingFix ++ es.filterMap Ev.fixStamp) ∧
    ((run g p bc ap s es).outs.filterMap Out.filteredStamp).Sublist (s.pendingOdom ++ es.filterMap Ev.odomStamp) := by
  induction es generalizing s with
  | nil => simp [run]
  | cons e es ih =>
    obtain ⟨h1, h2⟩ := step_stamps g p bc ap s e
    have e1 : (e :: es).filterMap Ev.fixStamp = e.fixStamp.toList ++ es.filterMap Ev.fixStamp := by
      rw [List.filterMap_cons]
      cases e.fixStamp <;> rfl
    have e2 : (e :: es).filterMap Ev.odomStamp = e.odomStamp.toList ++ es.filterMap Ev.odomStamp := by
      rw [List.filterMap_cons]
      cases e.odomStamp <;> rfl
    rw [e1, e2]
    simp only [run]
    cases hs : (step g p bc ap s e).st with
    | none =>
      rw [hs] at h1 h2
      simp only [Option.map_none, Option.getD_none, List.append_nil] at h1 h2
      rw [← List.append_assoc, ← List.append_assoc]
      exact ⟨h1.trans (List.sublist_append_left _ _), h2.trans (List.sublist_append_left _ _)⟩
    | some s1 =>
      rw [hs] at h1 h2
      simp only [Option.map_some, Option.getD_some] at h1 h2
      obtain ⟨k1, k2⟩ := ih s1
      simp only [List.filterMap_append]
      rw [← List.append_assoc, ← List.append_assoc]
      constructor
      · refine List.Sublist.trans ?_ (h1.append (List.Sublist.refl _))
        rw [List.append_assoc]
        exact (List.Sublist.refl _).append k1
      · refine List.Sublist.trans ?_ (h2.append (List.Sublist.refl _))
        rw [List.append_assoc]
        exact (List.Sublist.refl _).append k2

/-- **C52**: the stamps of the messages on odometry/gps are those of usable fixes, in their order, each at most once; and
those on gps/filtered are those of odometry messages. -/
theorem C52_once_per_fix (g : Geo) (p : Par) (bc ap : Bool) {w : Bool} {s : St} (hi : s.Initial p w) (es : List Ev) :
    ((run g p bc ap s es).outs.filterMap Out.gpsStamp).Sublist (es.filterMap Ev.fixStamp) ∧
    ((run g p bc ap s es).outs.filterMap Out.filteredStamp).Sublist (es.filterMap Ev.odomStamp) := by
  have := run_stamps g p bc ap es s
  simpa [St.pendingFix, St.pendingOdom, hi.gpsUpdated, hi.odomUpdated] using this

/-! ## C75: what ends the node -/

/-- When an event ends the node. -/
def Ends (g : Geo) (p : Par) (s : St) : Ev → Prop
  | .fix m => m.fix = true ∧ ∃ lat lon alt, m.pos = some (lat, lon, alt) ∧ g.forward lat lon (-1) = none
  | .timer _ => s.good = true ∧ p.publishGps = true ∧ s.odomUpdated = true ∧
      ¬Legal s.zone s.north (s.cwInv.apply s.lastOdom.org 0) (s.cwInv.apply s.lastOdom.org 1)
  | .toLL v => s.good = true ∧ ¬Legal s.zone s.north (s.cwInv.apply v 0) (s.cwInv.apply v 1)
  | .fromLL lat lon _ => p.useLocal = false ∧ g.forward lat lon s.zone = none
  | .setZone none => True
  | _ => False

theorem mapToLL_none (g : Geo) (s : St) (v : V3) :
    s.mapToLL g v = none ↔ ¬Legal s.zone s.north (s.cwInv.apply v 0) (s.cwInv.apply v 1) := by
  unfold St.mapToLL Geo.reverse
  simp

theorem step_ends (g : Geo) (p : Par) (bc ap : Bool) (s : St) (e : Ev) : (step g p bc ap s e).st = none ↔ Ends g p s e := by
  cases e with
  | fix m =>
    simp only [step, St.fix, Ends]
    split
    · rename_i lat lon alt hf hp
      rw [Option.map_eq_none_iff, hf, hp]
      constructor
      · exact fun h => ⟨rfl, lat, lon, alt, rfl, h⟩
      · rintro ⟨-, lat, lon, alt, h, h2⟩
        simp only [Option.some.injEq, Prod.mk.injEq] at h
        rw [h.1, h.2.1]
        exact h2
    · rename_i h
      simp only [reduceCtorEq, false_iff]
      rintro ⟨hf, lat, lon, alt, hp, -⟩
      exact h lat lon alt hf hp
  | imu buf m => simp [step, Ends]
  | odom buf m => simp [step, Ends]
  | timer buf =>
    simp only [step, St.timer, Ends]
    by_cases hg : s.good = true
    · simp only [hg, if_true, true_and]
      obtain ⟨c, hc⟩ := prepareGpsOdometry_st buf p s
      generalize s.prepareGpsOdometry buf p = q at hc
      obtain ⟨s1, o1⟩ := q
      simp only at hc ⊢
      have h1 : s1.good = true := by rw [hc]; exact hg
      have h2 : s1.odomUpdated = s.odomUpdated := by rw [hc]
      have h3 : s1.mapToLL g s1.lastOdom.org = s.mapToLL g s.lastOdom.org := by rw [hc]; rfl
      by_cases hp : p.publishGps = true
      · simp only [hp, if_true, true_and]
        unfold St.prepareFilteredGps
        rw [h1, h2, h3, Bool.true_and]
        by_cases ho : s.odomUpdated = true
        · rw [if_pos ho]
          simp only [ho, true_and]
          rw [← mapToLL_none g s s.lastOdom.org]
          cases s.mapToLL g s.lastOdom.org <;> simp
        · rw [if_neg ho]
          simp [ho]
      · simp [hp]
    · simp [hg]
  | datum d => simp [step, Ends]
  | toLL v =>
    simp only [step, Option.map_eq_none_iff, Ends, St.toLL]
    by_cases hg : s.good = true
    · simp only [hg, if_true, true_and, Option.map_eq_none_iff]
      exact mapToLL_none g s v
    · simp [hg]
  | fromLL lat lon alt =>
    simp only [step, Option.map_eq_none_iff, Ends, St.fromLL]
    by_cases hl : p.useLocal = true
    · simp [hl]
    · simp [hl]
  | setZone z => cases z <;> simp [step, Ends]

/-- **C75**: exactly which event in which state ends the node. -/
theorem C75_exactly (g : Geo) (p : Par) (bc ap : Bool) (s : St) (es : List Ev) :
    (run g p bc ap s es).st = none ↔
      ∃ es1 e es2 s1, es = es1 ++ e :: es2 ∧ (run g p bc ap s es1).st = some s1 ∧ Ends g p s1 e := by
  constructor
  · intro h
    induction es generalizing s with
    | nil => cases h
    | cons e es ih =>
      simp only [run] at h
      cases hs : (step g p bc ap s e).st with
      | none => exact ⟨[], e, es, s, rfl, rfl, (step_ends g p bc ap s e).1 hs⟩
      | some s1 =>
        rw [hs] at h
        obtain ⟨es1, e', es2, s2, h1, h2, h3⟩ := ih s1 h
        refine ⟨e :: es1, e', es2, s2, by rw [h1]; rfl, ?_, h3⟩
        simp only [run, hs]
        exact h2
  · rintro ⟨es1, e, es2, s1, rfl, h1, h2⟩
    rw [run_join _ _ _ _ _ _ _ _ h1]
    simp only [run]
    rw [(step_ends g p bc ap s1 e).2 h2]

/-- **C75** as far as it goes: without the filtered fix, with fixes on the earth and without the services that convert
positions or set the zone wrongly, nothing ends the node. -/
theorem C75_safe_partial {g : Geo} (hg : g.Lawful) (p : Par) (hp : p.publishGps = false) (bc ap : Bool) (s : St) (es : List Ev)
    (hf : ∀ m, .fix m ∈ es → ∀ lat lon alt, m.pos = some (lat, lon, alt) → |lat| ≤ 90 ∧ |lon| ≤ 180)
    (h1 : ∀ v, .toLL v ∉ es) (h2 : ∀ lat lon alt, .fromLL lat lon alt ∈ es → p.useLocal = true) (h3 : .setZone none ∉ es) :
    (run g p bc ap s es).st.isSome := by
  rw [Option.isSome_iff_ne_none, ne_eq, C75_exactly]
  rintro ⟨es1, e, es2, s1, rfl, -, he⟩
  have hm : e ∈ es1 ++ e :: es2 := by simp
  cases e with
  | fix m =>
    obtain ⟨-, lat, lon, alt, hpos, hn⟩ := he
    obtain ⟨h90, h180⟩ := hf m hm lat lon alt hpos
    have := hg.standard_ok lat lon h90 h180
    rw [hn] at this
    cases this
  | imu buf m => exact he
  | odom buf m => exact he
  | timer buf => rw [he.2.1] at hp; cases hp
  | datum d => exact he
  | toLL v => exact h1 v hm
  | fromLL lat lon alt => have := h2 lat lon alt hm; rw [he.1] at this; cases this
  | setZone z =>
    cases z with
    | none => exact h3 hm
    | some z => exact he

/-- **C75**, refuted: a fix off the earth ends the node in any state. -/
theorem C75_bad_fix (g : Geo) (p : Par) (bc ap : Bool) (s : St) (lat lon alt : ℝ) (h : 90 < |lat|) :
    (run g p bc ap s [.fix (demoFix 0 lat lon alt)]).st = none := by
  rw [C75_exactly]
  refine ⟨[], _, [], s, rfl, rfl, rfl, lat, lon, alt, rfl, ?_⟩
  unfold Geo.forward
  simp only
  rw [if_pos (Or.inl h)]

/-- **C75**, refuted: converting a place outside the polar regions before the first fix ends a new node. -/
theorem C75_early_request (g : Geo) (p : Par) (hl : p.useLocal = false) (bc ap : Bool) {w : Bool} {s : St} (hi : s.Initial p w) (lat lon alt : ℝ)
    (h : |lat| < 70) : (run g p bc ap s [.fromLL lat lon alt]).st = none := by
  rw [C75_exactly]
  refine ⟨[], _, [], s, rfl, rfl, hl, ?_⟩
  rw [hi.zone]
  cases hf : g.forward lat lon 0 with
  | none => rfl
  | some u =>
    obtain ⟨h1, -, -, -, -, -, -, h2⟩ := forward_some hf
    rw [if_neg (by norm_num)] at h1
    linarith [h2 h1]

/-- **C75**, refuted: in local mode, with the filtered fix published as is the default, the node ends as soon as the
transform is known and odometry has arrived, wherever the robot is in the map within a thousand kilometres. -/
theorem C75_local_filtered (g : Geo) (p : Par) (hl : p.useLocal = true) (hp : p.publishGps = true) (bc ap : Bool) {w : Bool} {s0 : St}
    (hi : s0.Initial p w) (es : List Ev) (he : ∀ e ∈ es, ∀ z, e ≠ .setZone z) {s : St} (hr : (run g p bc ap s0 es).st = some s)
    (hg : s.good = true) (ho : s.odomUpdated = true) (hnear : |s.cwInv.apply s.lastOdom.org 0| < 1000000) (buf : TfBuffer) :
    (run g p bc ap s0 (es ++ [.timer buf])).st = none := by
  rw [C75_exactly]
  refine ⟨es, _, [], s, rfl, hr, hg, hp, ho, ?_⟩
  obtain ⟨hz, hn⟩ := run_polar g p hl bc ap hi es he s hr
  rw [hz, hn]
  unfold Legal
  simp only [if_true]
  rintro ⟨⟨h1, -⟩, -⟩
  rw [abs_lt] at hnear
  linarith [hnear.2]

/-- C52, C75: the small run gets as far as the transform and sends what is due at the next tick of the timer; in local mode it
ends there. -/
example : ∃ s, (run plain (demoPar false true true) false false demoInit (demoEvents 0 3 100)).st = some s ∧ s.good = true ∧
    s.odomUpdated = true ∧ |s.cwInv.apply s.lastOdom.org 0| < 1000000 := by
  have hf := plain_forward 0 3 (by norm_num) (by norm_num) (by norm_num) (by norm_num)
  have h := demo_run plain (demoPar false true true) rfl rfl rfl false false 0 3 100 _ hf rfl
  obtain ⟨s, hs, hg, ho, -, -, -, -, -, hcw, -, hlo, -, -, hl⟩ := h
  refine ⟨s, hs, hg, ho, ?_⟩
  obtain ⟨-, hinv⟩ := run_known _ _ _ _ (demoInit_initial false true true) _ _ hs hg
  obtain ⟨hc, -, -, -⟩ := hl rfl
  rw [hinv, hcw, hlo, hc]
  simp [Tf.apply, Tf.inv, plain]

/-- C52: and in the other mode both messages are sent. -/
example : ∃ o ∈ (run plain (demoPar false true false) false false demoInit (demoEvents 48 3 100 ++ [.timer demoBuf])).outs,
    o.gpsStamp = some 3 := by
  have hf := plain_forward 48 3 (by norm_num) (by norm_num) (by norm_num) (by norm_num)
  obtain ⟨s, hs, hg, ho, hu, ht, -⟩ := demo_run plain (demoPar false true false) rfl rfl rfl false false 48 3 100 _ hf rfl
  rw [run_outs _ _ _ _ _ _ _ _ hs]
  simp only [run, step, St.timer, hg, if_true, St.prepareGpsOdometry, hu, ho, Bool.and_self, ht, demoPar, poseLookupTime]
  cases St.prepareFilteredGps plain _ with
  | none => exact ⟨_, List.mem_append_right _ (List.mem_singleton_self _), rfl⟩
  | some r => exact ⟨_, List.mem_append_right _ (List.mem_append_left _ (List.mem_append_left _ (List.mem_singleton_self _))), rfl⟩

end RL.Nav
