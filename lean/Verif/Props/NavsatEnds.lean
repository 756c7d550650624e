import Verif.Model.NavsatThrows
import Verif.Props.NavsatRun
/-!
# C75 with the exception for stamps before the epoch
-/

namespace RL.Nav

/-- What kinds of messages with a stamp before the epoch end the node: any odometry message; a fix with a position; a message
of the IMU while the node listens to it and knows some odometry. -/
inductive Early (s : St) : Ev → Prop
  | odom (buf : TfBuffer) (m : OdoMsg) (h : m.stamp < 0) : Early s (.odom buf m)
  | fix (m : FixMsg) (hf : m.fix = true) (hp : m.pos ≠ none) (h : m.stamp < 0) : Early s (.fix m)
  | imu (buf : TfBuffer) (m : HeadingMsg) (hs : s.imuSub = true) (ho : s.hasOdom = true) (h : m.stamp < 0) : Early s (.imu buf m)

theorem early_iff (s : St) (e : Ev) : Early s e ↔ ∃ t, e.converted s = some t ∧ t < 0 := by
  constructor
  · rintro (⟨buf, m, h⟩ | ⟨m, hf, hp, h⟩ | ⟨buf, m, hs, ho, h⟩)
    · exact ⟨_, rfl, h⟩
    · refine ⟨m.stamp, ?_, h⟩
      simp [Ev.converted, hf, Option.isSome_iff_ne_none, hp]
    · exact ⟨m.stamp, by simp [Ev.converted, hs, ho], h⟩
  · rintro ⟨t, h1, h2⟩
    cases e with
    | odom buf m =>
      simp only [Ev.converted, Option.some.injEq] at h1
      exact .odom buf m (h1 ▸ h2)
    | fix m =>
      simp only [Ev.converted] at h1
      split_ifs at h1 with hc
      simp only [Bool.and_eq_true] at hc
      injection h1 with h1
      exact .fix m hc.1 (Option.isSome_iff_ne_none.1 hc.2) (h1 ▸ h2)
    | imu buf m =>
      simp only [Ev.converted] at h1
      split_ifs at h1 with hc
      simp only [Bool.and_eq_true] at hc
      injection h1 with h1
      exact .imu buf m hc.1 hc.2 (h1 ▸ h2)
    | timer buf => cases h1
    | datum d => cases h1
    | toLL v => cases h1
    | fromLL lat lon alt => cases h1
    | setZone z => cases h1

theorem stepX_early (g : Geo) (p : Par) (bc ap : Bool) {s : St} {e : Ev} (h : Early s e) :
    stepX g p bc ap s e = { outs := [], st := none } := by
  obtain ⟨t, h1, h2⟩ := (early_iff s e).1 h
  simp only [stepX, h1, if_pos h2]

theorem stepX_late (g : Geo) (p : Par) (bc ap : Bool) {s : St} {e : Ev} (h : ¬Early s e) :
    stepX g p bc ap s e = step g p bc ap s e := by
  unfold stepX
  cases hc : e.converted s with
  | none => rfl
  | some t =>
    have : ¬ t < 0 := fun ht => h ((early_iff s e).2 ⟨t, hc, ht⟩)
    simp only [if_neg this]

theorem stepX_ends (g : Geo) (p : Par) (bc ap : Bool) (s : St) (e : Ev) :
    (stepX g p bc ap s e).st = none ↔ Ends g p s e ∨ Early s e := by
  by_cases h : Early s e
  · simp [stepX_early g p bc ap h, h]
  · rw [stepX_late g p bc ap h, step_ends]
    simp [h]

theorem runX_join (g : Geo) (p : Par) (bc ap : Bool) (s s1 : St) (es1 es2 : List Ev) (h : (runX g p bc ap s es1).st = some s1) :
    (runX g p bc ap s (es1 ++ es2)).st = (runX g p bc ap s1 es2).st := by
  induction es1 generalizing s with
  | nil =>
    simp only [runX, Option.some.injEq] at h
    rw [h, List.nil_append]
  | cons e es ih =>
    simp only [runX] at h
    simp only [runX, List.cons_append]
    cases hs : (stepX g p bc ap s e).st with
    | none => rw [hs] at h; cases h
    | some s2 =>
      rw [hs] at h
      exact ih s2 h

/-- **C75**, with the exception for stamps: exactly which event in which state ends the node. -/
theorem C75_stamps_exactly (g : Geo) (p : Par) (bc ap : Bool) (s : St) (es : List Ev) :
    (runX g p bc ap s es).st = none ↔
      ∃ es1 e es2 s1, es = es1 ++ e :: es2 ∧ (runX g p bc ap s es1).st = some s1 ∧ (Ends g p s1 e ∨ Early s1 e) := by
  constructor
  · intro h
    induction es generalizing s with
    | nil => cases h
    | cons e es ih =>
      simp only [runX] at h
      cases hs : (stepX g p bc ap s e).st with
      | none => exact ⟨[], e, es, s, rfl, rfl, (stepX_ends g p bc ap s e).1 hs⟩
      | some s1 =>
        rw [hs] at h
        obtain ⟨es1, e', es2, s2, h1, h2, h3⟩ := ih s1 h
        refine ⟨e :: es1, e', es2, s2, by rw [h1]; rfl, ?_, h3⟩
        simp only [runX, hs]
        exact h2
  · rintro ⟨es1, e, es2, s1, rfl, h1, h2⟩
    rw [runX_join _ _ _ _ _ _ _ _ h1]
    simp only [runX]
    rw [(stepX_ends g p bc ap s1 e).2 h2]

/-- The stamp of a message. -/
def Ev.stamp : Ev → Option Int
  | .fix m => some m.stamp
  | .imu _ m => some m.stamp
  | .odom _ m => some m.stamp
  | _ => none

/-- **C75**, what is left of it: with stamps at or after the epoch the node runs as if there were no such exception, with the
same messages sent; so all that is shown of runs without it holds. -/
theorem C75_late_stamps_partial (g : Geo) (p : Par) (bc ap : Bool) (s : St) (es : List Ev)
    (h : ∀ e ∈ es, ∀ t, e.stamp = some t → 0 ≤ t) : runX g p bc ap s es = run g p bc ap s es := by
  induction es generalizing s with
  | nil => rfl
  | cons e es ih =>
    have hl : ¬Early s e := by
      rintro (⟨buf, m, h'⟩ | ⟨m, hf, hp, h'⟩ | ⟨buf, m, hs, ho, h'⟩)
      all_goals
        have := h _ (List.mem_cons_self ..) _ rfl
        omega
    simp only [runX, run, stepX_late g p bc ap hl]
    cases (step g p bc ap s e).st with
    | none => rfl
    | some s1 =>
      simp only
      rw [ih s1 fun e he => h e (List.mem_cons_of_mem _ he)]

/-- **C75**, refuted: whatever its state, one odometry message with a stamp before the epoch ends the node. -/
theorem C75_early_odometry (g : Geo) (p : Par) (bc ap : Bool) (s : St) (buf : TfBuffer) (m : OdoMsg) (h : m.stamp < 0) (es : List Ev) :
    runX g p bc ap s (.odom buf m :: es) = { outs := [], st := none } := by
  simp only [runX, stepX_early g p bc ap (.odom buf m h)]

/-- The IMU is different: before the first odometry message, and once the node no longer listens, its stamp is not read. -/
theorem C75_unread_heading (g : Geo) (p : Par) (bc ap : Bool) (s : St) (h : s.imuSub = false ∨ s.hasOdom = false) (buf : TfBuffer)
    (m : HeadingMsg) : runX g p bc ap s [.imu buf m] = { outs := [], st := some s } := by
  have hl : ¬Early s (.imu buf m) := by
    rintro ⟨⟩
    simp_all
  simp only [runX, stepX_late g p bc ap hl, step]
  rcases h with h | h
  · simp [h]
  · simp [St.imu, h]

/-- C75: an odometry message a second before the epoch, and a new node that ignores the IMU's stamp. -/
example : ∃ m : OdoMsg, m.stamp < 0 := ⟨{ frame := "map", child := "base_link", stamp := -1000000000, pos := 0, ori := ⟨0, 0, 0, 1⟩, cov := 0 }, by norm_num⟩

example : demoInit.hasOdom = false := (demoInit_initial false true true).hasOdom

/-- The small run has stamps at the epoch: it is a run with the exception too. -/
example (g : Geo) : runX g (demoPar false true true) false false demoInit (demoEvents 0 3 100) =
    run g (demoPar false true true) false false demoInit (demoEvents 0 3 100) := by
  apply C75_late_stamps_partial
  intro e he t ht
  simp only [demoEvents] at he
  fin_cases he <;> simp_all [Ev.stamp]
  all_goals first | omega | (subst ht; decide)

end RL.Nav
