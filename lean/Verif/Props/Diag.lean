import Verif.Model.Diag
import Verif.Props.Params
/-!
# Diagnostics (C58) and start-up diagnosis (C61)
-/

namespace RL

/-! ## C58 -/

/-- The diagnoses that are to be reported after some history: every static one, and the dynamic ones since the last
report. -/
def Pending (es : List DiagEv) (level : ℕ) (key msg : String) (isStatic : Bool) : Prop :=
  ∃ a b, es = a ++ DiagEv.add level key msg isStatic :: b ∧ (isStatic = false → DiagEv.report ∉ b)

/-- The newest pending one of a kind and key. -/
def Newest (es : List DiagEv) (key msg : String) (isStatic : Bool) : Prop :=
  ∃ a level b, es = a ++ DiagEv.add level key msg isStatic :: b ∧ (isStatic = false → DiagEv.report ∉ b) ∧
    ∀ l m, DiagEv.add l key m isStatic ∉ b

theorem pending_snoc_add (es : List DiagEv) (l : ℕ) (k m : String) (s : Bool) (level : ℕ) (key msg : String) (st : Bool) :
    Pending (es ++ [.add l k m s]) level key msg st ↔
      Pending es level key msg st ∨ (level = l ∧ key = k ∧ msg = m ∧ st = s) := by
  constructor
  · rintro ⟨a, b, h, hb⟩
    rcases List.eq_nil_or_concat b with rfl | ⟨b', x, rfl⟩
    · right
      have := List.append_inj' h (by simp)
      obtain ⟨-, h2⟩ := this
      cases h2
      exact ⟨rfl, rfl, rfl, rfl⟩
    · left
      rw [List.concat_eq_append] at h hb
      have h' : es ++ [DiagEv.add l k m s] = (a ++ DiagEv.add level key msg st :: b') ++ [x] := by simpa using h
      have := List.append_inj' h' (by simp)
      exact ⟨a, b', this.1, fun hs hm => hb hs (List.mem_append_left _ hm)⟩
  · rintro (⟨a, b, rfl, hb⟩ | ⟨rfl, rfl, rfl, rfl⟩)
    · exact ⟨a, b ++ [.add l k m s], by simp, fun hs => by simpa using hb hs⟩
    · exact ⟨es, [], rfl, fun _ => by simp⟩

theorem pending_snoc_report (es : List DiagEv) (level : ℕ) (key msg : String) (st : Bool) :
    Pending (es ++ [.report]) level key msg st ↔ Pending es level key msg st ∧ st = true := by
  constructor
  · rintro ⟨a, b, h, hb⟩
    rcases List.eq_nil_or_concat b with rfl | ⟨b', x, rfl⟩
    · have := (List.append_inj' h (by simp)).2
      cases this
    · rw [List.concat_eq_append] at h hb
      have h' : es ++ [DiagEv.report] = (a ++ DiagEv.add level key msg st :: b') ++ [x] := by simpa using h
      have := List.append_inj' h' (by simp)
      obtain ⟨h1, h2⟩ := this
      cases h2
      refine ⟨⟨a, b', h1, fun hs hm => hb hs (List.mem_append_left _ hm)⟩, ?_⟩
      cases st with
      | true => rfl
      | false => exact absurd (hb rfl) (by simp)
  · rintro ⟨⟨a, b, rfl, hb⟩, rfl⟩
    exact ⟨a, b ++ [.report], by simp, fun h => by cases h⟩

theorem run_snoc (d : Diag) (es : List DiagEv) (e : DiagEv) : d.run (es ++ [e]) = (d.run es).step e := by
  simp [Diag.run]

/-- The levels kept are the greatest of the pending ones, or none. -/
theorem levels_inv (es : List DiagEv) :
    (∀ l, (Diag.init.run es).staticLevel ≤ l ↔ ∀ l' k m, Pending es l' k m true → l' ≤ l) ∧
    (∀ l, (Diag.init.run es).dynLevel ≤ l ↔ ∀ l' k m, Pending es l' k m false → l' ≤ l) := by
  induction es using List.reverseRecOn with
  | nil =>
    constructor <;> intro l <;> simp [Diag.run, Diag.init, Pending]
  | append_singleton es e ih =>
    rw [run_snoc]
    cases e with
    | add l0 k0 m0 s0 =>
      cases s0
      · constructor <;> intro l <;>
          simp only [Diag.step, Diag.add, Bool.false_eq_true, if_false, pending_snoc_add, max_le_iff, ih.1, ih.2]
        · constructor
          · rintro h l' k m (hp | ⟨-, -, -, h'⟩)
            · exact h l' k m hp
            · cases h'
          · intro h l' k m hp
            exact h l' k m (Or.inl hp)
        · constructor
          · rintro ⟨h, h2⟩ l' k m (hp | ⟨rfl, -, -, -⟩)
            · exact h l' k m hp
            · exact h2
          · intro h
            exact ⟨fun l' k m hp => h l' k m (Or.inl hp), h l0 k0 m0 (Or.inr (by simp))⟩
      · constructor <;> intro l <;>
          simp only [Diag.step, Diag.add, if_true, pending_snoc_add, max_le_iff, ih.1, ih.2]
        · constructor
          · rintro ⟨h, h2⟩ l' k m (hp | ⟨rfl, -, -, -⟩)
            · exact h l' k m hp
            · exact h2
          · intro h
            exact ⟨fun l' k m hp => h l' k m (Or.inl hp), h l0 k0 m0 (Or.inr (by simp))⟩
        · constructor
          · rintro h l' k m (hp | ⟨-, -, -, h'⟩)
            · exact h l' k m hp
            · cases h'
          · intro h l' k m hp
            exact h l' k m (Or.inl hp)
    | report =>
      constructor <;> intro l <;>
        simp only [Diag.step, Diag.aggregate, pending_snoc_report, ih.1, and_true, Bool.false_eq_true, and_false,
          false_imp_iff, implies_true, Nat.zero_le]

/-- C58: the reported level is an upper bound of all pending levels, and one of them unless it is OK. -/
theorem C58_worst_level (es : List DiagEv) :
    (∀ l k m s, Pending es l k m s → l ≤ (Diag.init.run es).aggregate.2.level) ∧
    ((Diag.init.run es).aggregate.2.level ≠ 0 → ∃ k m s, Pending es (Diag.init.run es).aggregate.2.level k m s) := by
  obtain ⟨h1, h2⟩ := levels_inv es
  have key : ∀ l, (Diag.init.run es).aggregate.2.level ≤ l ↔ ∀ l' k m s, Pending es l' k m s → l' ≤ l := by
    intro l
    simp only [Diag.aggregate, max_le_iff, h1, h2]
    constructor
    · rintro ⟨a, b⟩ l' k m s hp
      cases s
      · exact b l' k m hp
      · exact a l' k m hp
    · intro h
      exact ⟨fun l' k m => h l' k m true, fun l' k m => h l' k m false⟩
  refine ⟨(key _).mp le_rfl, ?_⟩
  intro hne
  by_contra hno
  push Not at hno
  have := (key ((Diag.init.run es).aggregate.2.level - 1)).mpr (by
    intro l' k m s hp
    have h3 := (key _).mp le_rfl l' k m s hp
    have h4 : l' ≠ (Diag.init.run es).aggregate.2.level := by
      rintro rfl
      exact hno k m s hp
    omega)
  omega

theorem newest_snoc_add (es : List DiagEv) (l : ℕ) (k m : String) (s : Bool) (key msg : String) (st : Bool) :
    Newest (es ++ [.add l k m s]) key msg st ↔
      if key = k ∧ st = s then msg = m else Newest es key msg st := by
  constructor
  · rintro ⟨a, level, b, h, hb, hn⟩
    rcases List.eq_nil_or_concat b with rfl | ⟨b', x, rfl⟩
    · obtain ⟨-, h2⟩ := List.append_inj' h (by simp)
      cases h2
      simp
    · rw [List.concat_eq_append] at h hb hn
      have h' : es ++ [DiagEv.add l k m s] = (a ++ DiagEv.add level key msg st :: b') ++ [x] := by simpa using h
      obtain ⟨h1, h2⟩ := List.append_inj' h' (by simp)
      cases h2
      rw [if_neg]
      · exact ⟨a, level, b', h1, fun hs hm => hb hs (List.mem_append_left _ hm),
          fun l m hm => hn l m (List.mem_append_left _ hm)⟩
      · rintro ⟨rfl, rfl⟩
        exact hn l m (by simp)
  · split
    · rename_i h
      obtain ⟨rfl, rfl⟩ := h
      rintro rfl
      exact ⟨es, l, [], rfl, fun _ => by simp, fun _ _ => by simp⟩
    · rename_i h
      rintro ⟨a, level, b, rfl, hb, hn⟩
      refine ⟨a, level, b ++ [.add l k m s], by simp, fun hs => by simpa using hb hs, ?_⟩
      intro l' m' hm
      rcases List.mem_append.mp hm with hm | hm
      · exact hn l' m' hm
      · simp only [List.mem_singleton, DiagEv.add.injEq] at hm
        exact h ⟨hm.2.1, hm.2.2.2⟩

theorem newest_snoc_report (es : List DiagEv) (key msg : String) (st : Bool) :
    Newest (es ++ [.report]) key msg st ↔ Newest es key msg st ∧ st = true := by
  constructor
  · rintro ⟨a, level, b, h, hb, hn⟩
    rcases List.eq_nil_or_concat b with rfl | ⟨b', x, rfl⟩
    · obtain ⟨-, h2⟩ := List.append_inj' h (by simp)
      cases h2
    · rw [List.concat_eq_append] at h hb hn
      have h' : es ++ [DiagEv.report] = (a ++ DiagEv.add level key msg st :: b') ++ [x] := by simpa using h
      obtain ⟨h1, h2⟩ := List.append_inj' h' (by simp)
      cases h2
      refine ⟨⟨a, level, b', h1, fun hs hm => hb hs (List.mem_append_left _ hm),
        fun l m hm => hn l m (List.mem_append_left _ hm)⟩, ?_⟩
      cases st with
      | true => rfl
      | false => exact absurd (hb rfl) (by simp)
  · rintro ⟨⟨a, level, b, h, hb, hn⟩, hs⟩
    subst h hs
    exact ⟨a, level, b ++ [.report], by simp, fun h => by simp at h, fun l m hm => hn l m (by simpa using hm)⟩

/-- C58: a report contains, under every key, the newest static message there ever was and the newest dynamic message since
the last report, and nothing else. -/
theorem C58_messages (es : List DiagEv) (key msg : String) :
    ((Diag.init.run es).aggregate.2.static key = some msg ↔ Newest es key msg true) ∧
    ((Diag.init.run es).aggregate.2.dyn key = some msg ↔ Newest es key msg false) := by
  simp only [Diag.aggregate]
  induction es using List.reverseRecOn with
  | nil => simp [Diag.run, Diag.init, Newest]
  | append_singleton es e ih =>
    rw [run_snoc]
    cases e with
    | add l0 k0 m0 s0 =>
      cases s0 <;>
        simp only [Diag.step, Diag.add, Bool.false_eq_true, if_false, if_true, newest_snoc_add, and_false, and_true,
          Bool.true_eq_false, ih.1, ih.2, true_and]
      · split
        · simp [eq_comm]
        · exact ih.2
      · split
        · simp [eq_comm]
        · exact ih.1
    | report =>
      simp only [Diag.step, Diag.aggregate, newest_snoc_report, ih.1, and_true, Bool.false_eq_true, and_false, true_and]
      simp

/-- C58: once reported, a dynamic message is not reported again. -/
theorem C58_once (es : List DiagEv) (key : String) :
    ((Diag.init.run es).aggregate.1.aggregate.2.dyn key = none) ∧
    (Diag.init.run es).aggregate.1.aggregate.2.static key = (Diag.init.run es).aggregate.2.static key := ⟨rfl, rfl⟩

example : Pending [.add 2 "a" "x" true, .add 1 "b" "y" false, .report, .add 1 "c" "z" false] 2 "a" "x" true ∧
    (Diag.init.run [.add 2 "a" "x" true, .add 1 "b" "y" false, .report, .add 1 "c" "z" false]).aggregate.2.level = 2 :=
  ⟨⟨[], _, rfl, fun h => by cases h⟩, rfl⟩

/-! ## C61 -/

/-- The input gives a velocity (0 to 5: x, y, z, roll, pitch, yaw). -/
def Input.velocity (i : Fin 6) : Input → Prop
  | .odom v d => Selects v (6 + i.val) ∨ (d = true ∧ Selects v i.val)
  | .pose v d => d = true ∧ Selects v i.val
  | .twist v => Selects v (6 + i.val)
  | .imu v d => 3 ≤ i.val ∧ (Selects v (6 + i.val) ∨ (d = true ∧ Selects v i.val))

/-- The input gives a position or orientation. -/
def Input.absolute (i : Fin 6) : Input → Prop
  | .odom v d => d = false ∧ Selects v i.val
  | .pose v d => d = false ∧ Selects v i.val
  | .twist _ => False
  | .imu v d => 3 ≤ i.val ∧ d = false ∧ Selects v i.val

def Input.cfg : Input → List Bool
  | .odom v _ => v
  | .pose v _ => v
  | .twist v => v
  | .imu v _ => v

instance (v : List Bool) (i : ℕ) : Decidable (Selects v i) := inferInstanceAs (Decidable (_ = _))
instance (i : Fin 6) (inp : Input) : Decidable (inp.absolute i) := by
  cases inp <;> simp only [Input.absolute] <;> infer_instance

theorem sumTrue_pos {v : List Bool} {i : ℕ} (h : v.getD i false = true) : 0 < sumTrue v := by
  unfold sumTrue
  rw [List.count_pos_iff]
  by_cases hi : i < v.length
  · rw [List.getD_eq_getElem _ _ hi] at h
    rw [← h]
    exact List.getElem_mem _
  · rw [List.getD_eq_default _ _ (by omega)] at h
    cases h

theorem sumTrue_zero {v : List Bool} (h : ¬ sumTrue v > 0) (i : ℕ) : v.getD i false = false := by
  cases hv : v.getD i false with
  | false => rfl
  | true => exact absurd (sumTrue_pos hv) h

theorem add_spec (c : Counts) (inp : Input) (hl : inp.cfg.length = 15) (i : Fin 6) :
    ∃ c', c.add inp = some c' ∧ c'.absPose i = c.absPose i + (if inp.absolute i then 1 else 0) ∧
      ((∀ v d, inp = .odom v d → i = 1 → (Selects v 6 ↔ Selects v 7)) → (c'.twist i = 0 ↔ c.twist i = 0 ∧ ¬ inp.velocity i)) := by
  cases inp with
  | odom v d =>
    simp only [Input.cfg] at hl
    obtain ⟨p, e1, l1, g1⟩ := fillFalse_some (off := 6) (n := 6) (v := v) (by omega)
    obtain ⟨t, e2, l2, g2⟩ := fillFalse_some (off := 0) (n := 6) (v := v) (by omega)
    have hp : p.getD i.val false = v.getD i.val false := by rw [g1, if_neg (by omega)]
    have ht : ∀ k, 6 ≤ k → t.getD k false = v.getD k false := by intro k hk; rw [g2, if_neg (by omega)]
    refine ⟨_, by simp only [Counts.add, odomVecs, e1, e2]; rfl, ?_, ?_⟩
    · by_cases h1 : sumTrue p > 0 <;> by_cases h2 : sumTrue t > 0 <;> cases d <;>
        simp only [h1, h2, if_true, if_false, Bool.false_eq_true, addFlags, Input.absolute, Selects, Nat.zero_add, hp, b2n,
          true_and, Bool.true_eq_false, false_and]
      all_goals first
        | rfl
        | (have := sumTrue_zero h1 i.val; rw [hp] at this; simp only [this]; simp)
    · intro hxy
      have hx : v.getD (if i.val = 1 then 6 else 6 + i.val) false = v.getD (6 + i.val) false := by
        split
        · rename_i h
          have hi : i = 1 := Fin.ext h
          have := hxy v d rfl hi
          rw [hi]
          simp only [Selects] at this
          cases h6 : v.getD 6 false <;> cases h7 : v.getD 7 false <;> simp_all
        · rfl
      have hx2 : t.getD (if i.val = 1 then 6 else 6 + i.val) false = v.getD (6 + i.val) false := by
        rw [ht _ (by split <;> omega), hx]
      have z1 : ¬ sumTrue p > 0 → v.getD i.val false = false := fun h => by rw [← hp]; exact sumTrue_zero h _
      have z2 : ¬ sumTrue t > 0 → v.getD (6 + i.val) false = false := fun h => by rw [← ht _ (by omega)]; exact sumTrue_zero h _
      by_cases h1 : sumTrue p > 0 <;> by_cases h2 : sumTrue t > 0 <;> cases d <;>
        simp only [h1, h2, if_true, if_false, Bool.false_eq_true, addFlags, addOdomTwist, Input.velocity, Selects, Nat.zero_add,
          hp, hx2, b2n, true_and, false_and, or_false, Nat.add_eq_zero_iff]
      all_goals first
        | (have a1 := z1 h1; have a2 := z2 h2; simp only [a1, a2]; simp)
        | (have a1 := z1 h1; simp only [a1]; simp)
        | (have a2 := z2 h2; simp only [a2]; simp)
        | skip
      all_goals (cases v.getD i.val false <;> cases v.getD (6 + i.val) false <;> simp)
  | pose v d =>
    simp only [Input.cfg] at hl
    obtain ⟨p0, e1, l1, g1⟩ := fillFalse_some (off := 6) (n := 6) (v := v) (by omega)
    obtain ⟨p, e3, l3, g3⟩ := fillFalse_some (off := 12) (n := 3) (v := p0) (by omega)
    have hp : p.getD i.val false = v.getD i.val false := by rw [g3, if_neg (by omega), g1, if_neg (by omega)]
    have z1 : ¬ sumTrue p > 0 → v.getD i.val false = false := fun h => by rw [← hp]; exact sumTrue_zero h _
    refine ⟨_, by simp only [Counts.add, poseVec, e1]; simp only [Option.bind_eq_bind, Option.bind_some, e3]; rfl, ?_, fun _ => ?_⟩
    · by_cases h1 : sumTrue p > 0 <;> cases d <;>
        simp only [h1, if_true, if_false, Bool.false_eq_true, addFlags, Input.absolute, Selects, Nat.zero_add, hp, b2n,
          true_and, Bool.true_eq_false, false_and]
      all_goals first
        | rfl
        | (simp only [z1 h1]; simp)
    · by_cases h1 : sumTrue p > 0 <;> cases d <;>
        simp only [h1, if_true, if_false, Bool.false_eq_true, addFlags, Input.velocity, Selects, Nat.zero_add, hp, b2n,
          true_and, false_and, Nat.add_eq_zero_iff, not_false_eq_true, and_true]
      · cases v.getD i.val false <;> simp
      · simp only [z1 h1]; simp
  | twist v =>
    simp only [Input.cfg] at hl
    obtain ⟨t, e2, l2, g2⟩ := fillFalse_some (off := 0) (n := 6) (v := v) (by omega)
    have ht : t.getD (6 + i.val) false = v.getD (6 + i.val) false := by rw [g2, if_neg (by omega)]
    have z2 : ¬ sumTrue t > 0 → v.getD (6 + i.val) false = false := fun h => by rw [← ht]; exact sumTrue_zero h _
    refine ⟨_, by simp only [Counts.add, twistVec, e2]; rfl, ?_, fun _ => ?_⟩
    · by_cases h2 : sumTrue t > 0 <;> simp [h2, Input.absolute]
    · by_cases h2 : sumTrue t > 0 <;>
        simp only [h2, if_true, if_false, addFlags, Input.velocity, Selects, ht, b2n, Nat.add_eq_zero_iff]
      · cases v.getD (6 + i.val) false <;> simp
      · simp only [z2 h2]; simp
  | imu v d =>
    simp only [Input.cfg] at hl
    obtain ⟨a, e4, l4, g4⟩ := fillFalse_some (off := 0) (n := 3) (v := v) (by omega)
    obtain ⟨b, e5, l5, g5⟩ := fillFalse_some (off := 6) (n := 6) (v := a) (by omega)
    obtain ⟨p, e6, l6, g6⟩ := fillFalse_some (off := 12) (n := 3) (v := b) (by omega)
    obtain ⟨t1, e2, l2, g2⟩ := fillFalse_some (off := 0) (n := 6) (v := v) (by omega)
    obtain ⟨t2, e7, l7, g7⟩ := fillFalse_some (off := 6) (n := 3) (v := t1) (by omega)
    obtain ⟨t, e8, l8, g8⟩ := fillFalse_some (off := 12) (n := 3) (v := t2) (by omega)
    have hp : 3 ≤ i.val → p.getD i.val false = v.getD i.val false := by
      intro h
      rw [g6, if_neg (by omega), g5, if_neg (by omega), g4, if_neg (by omega)]
    have ht : 3 ≤ i.val → t.getD (6 + i.val) false = v.getD (6 + i.val) false := by
      intro h
      rw [g8, if_neg (by omega), g7, if_neg (by omega), g2, if_neg (by omega)]
    refine ⟨_, by
      simp only [Counts.add, imuPoseVec, imuTwistVec, e4, e2]
      simp only [Option.bind_eq_bind, Option.bind_some, e5, e6, e7, e8]
      rfl, ?_, fun _ => ?_⟩
    · by_cases h3 : 3 ≤ i.val
      · have z1 : ¬ sumTrue p > 0 → v.getD i.val false = false := fun h => by rw [← hp h3]; exact sumTrue_zero h _
        by_cases h1 : sumTrue p > 0 <;> by_cases h2 : sumTrue t > 0 <;> cases d <;>
          simp only [h1, h2, if_true, if_false, Bool.false_eq_true, addAngular, Input.absolute, Selects, Nat.zero_add, hp h3, b2n,
            true_and, Bool.true_eq_false, false_and, h3]
        all_goals first
          | rfl
          | (simp only [z1 h1]; simp)
      · by_cases h1 : sumTrue p > 0 <;> by_cases h2 : sumTrue t > 0 <;> cases d <;>
          simp [h1, h2, addAngular, Input.absolute, h3]
    · by_cases h3 : 3 ≤ i.val
      · have z1 : ¬ sumTrue p > 0 → v.getD i.val false = false := fun h => by rw [← hp h3]; exact sumTrue_zero h _
        have z2 : ¬ sumTrue t > 0 → v.getD (6 + i.val) false = false := fun h => by rw [← ht h3]; exact sumTrue_zero h _
        by_cases h1 : sumTrue p > 0 <;> by_cases h2 : sumTrue t > 0 <;> cases d <;>
          simp only [h1, h2, if_true, if_false, Bool.false_eq_true, addAngular, Input.velocity, Selects, Nat.zero_add,
            hp h3, ht h3, b2n, true_and, false_and, or_false, Nat.add_eq_zero_iff, h3]
        all_goals first
          | (have a1 := z1 h1; have a2 := z2 h2; simp only [a1, a2]; simp)
          | (have a1 := z1 h1; simp only [a1]; simp)
          | (have a2 := z2 h2; simp only [a2]; simp)
          | skip
        all_goals (cases v.getD i.val false <;> cases v.getD (6 + i.val) false <;> simp)
      · by_cases h1 : sumTrue p > 0 <;> by_cases h2 : sumTrue t > 0 <;> cases d <;>
          simp [h1, h2, addAngular, Input.velocity, h3]

theorem counts_spec (inputs : List Input) (hl : ∀ inp ∈ inputs, inp.cfg.length = 15) (i : Fin 6)
    (hxy : ∀ v d, Input.odom v d ∈ inputs → i = 1 → (Selects v 6 ↔ Selects v 7)) :
    ∀ c, ∃ c', inputs.foldlM Counts.add c = some c' ∧
      c'.absPose i = c.absPose i + inputs.countP (fun inp => decide (inp.absolute i)) ∧
      (c'.twist i = 0 ↔ c.twist i = 0 ∧ ∀ inp ∈ inputs, ¬ inp.velocity i) := by
  induction inputs with
  | nil => intro c; exact ⟨c, rfl, by simp, by simp⟩
  | cons inp inputs ih =>
    intro c
    obtain ⟨c1, e1, a1, t1⟩ := add_spec c inp (hl inp List.mem_cons_self) i
    obtain ⟨c', e, a, t⟩ := ih (fun x hx => hl x (List.mem_cons_of_mem _ hx))
      (fun v d h => hxy v d (List.mem_cons_of_mem _ h)) c1
    refine ⟨c', by simp [List.foldlM_cons, e1, e], ?_, ?_⟩
    · rw [a, a1, List.countP_cons]
      simp only [decide_eq_true_eq]
      omega
    · rw [t, t1 (fun v d h => hxy v d (h ▸ List.mem_cons_self))]
      simp [and_assoc]

/-- C61: the diagnosis for a variable is right: "not measured" is reported exactly when no input gives the variable or its
velocity (in the plane only for x, y and yaw), "many absolute inputs" exactly when at least two give it.  For y this needs
that odometry inputs use both or none of the velocities along x and y. -/
theorem C61_diagnosis_partial (twoD : Bool) (inputs : List Input) (hl : ∀ inp ∈ inputs, inp.cfg.length = 15) (i : Fin 6)
    (hxy : ∀ v d, Input.odom v d ∈ inputs → i = 1 → (Selects v 6 ↔ Selects v 7)) :
    ∃ r, startupDiag twoD inputs i = some r ∧
      (r = .notMeasured ↔ (∀ inp ∈ inputs, ¬ inp.absolute i ∧ ¬ inp.velocity i) ∧ (twoD = true → i = 0 ∨ i = 1 ∨ i = 5)) ∧
      (r = .manyAbsolute ↔ 2 ≤ inputs.countP (fun inp => decide (inp.absolute i))) := by
  obtain ⟨c, e, a, t⟩ := counts_spec inputs hl i hxy { absPose := fun _ => 0, twist := fun _ => 0 }
  refine ⟨varDiag twoD c i, by simp [startupDiag, e], ?_, ?_⟩
  · simp only [Nat.zero_add] at a
    simp only [true_and] at t
    have h0 : c.absPose i = 0 ↔ ∀ inp ∈ inputs, ¬ inp.absolute i := by
      rw [a, List.countP_eq_zero]
      simp
    unfold varDiag
    by_cases h1 : c.absPose i > 1
    · have : ¬ ∀ inp ∈ inputs, ¬ inp.absolute i := by rw [← h0]; omega
      simp only [h1, if_true, reduceCtorEq, false_iff]
      exact fun h => this fun inp hi => (h.1 inp hi).1
    · simp only [h1, if_false]
      by_cases h2 : c.absPose i = 0
      · simp only [h2, if_true]
        rw [h0] at h2
        split
        · rename_i h3
          simp only [true_iff]
          refine ⟨fun inp hi => ⟨h2 inp hi, t.mp h3.1 inp hi⟩, ?_⟩
          intro ht
          rcases h3.2 with h | h | h | h
          · exact Or.inl h
          · exact Or.inr (Or.inl h)
          · exact Or.inr (Or.inr h)
          · rw [ht] at h; cases h
        · rename_i h3
          simp only [reduceCtorEq, false_iff]
          rintro ⟨h4, h5⟩
          apply h3
          refine ⟨t.mpr fun inp hi => (h4 inp hi).2, ?_⟩
          cases twoD with
          | false => simp
          | true =>
            rcases h5 rfl with h | h | h
            · exact Or.inl h
            · exact Or.inr (Or.inl h)
            · exact Or.inr (Or.inr (Or.inl h))
      · simp only [h2, if_false, reduceCtorEq, false_iff]
        rw [h0] at h2
        exact fun h => h2 fun inp hi => (h.1 inp hi).1
  · unfold varDiag
    simp only [Nat.zero_add] at a
    rw [← a]
    by_cases h1 : c.absPose i > 1
    · simp only [h1, if_true, true_iff]; omega
    · simp only [h1, if_false]
      have : ¬ 2 ≤ c.absPose i := by omega
      simp only [this, iff_false]
      split
      · split <;> simp
      · simp

/-- Flags at some places. -/
def flagsAt (l : List ℕ) : List Bool := (List.range 15).map fun i => decide (i ∈ l)

/-- C61 fails for y: an odometry input that gives only the forward velocity (and position x, heading) passes the
diagnosis for y, though nothing measures y or its velocity. -/
theorem C61_missing_y_not_reported :
    startupDiag true [.odom (flagsAt [6, 11]) false] 1 = some .fine ∧
    ∀ inp ∈ [Input.odom (flagsAt [6, 11]) false], ¬ inp.absolute 1 ∧ ¬ inp.velocity 1 := by
  refine ⟨by decide, ?_⟩
  simp only [List.mem_singleton, forall_eq, Input.absolute, Input.velocity]
  decide

/-- C61 fails for y the other way: an odometry input that gives only the sideways velocity is reported as not giving it. -/
theorem C61_measured_y_reported :
    startupDiag true [.odom (flagsAt [7, 11]) false] 1 = some .notMeasured ∧
    (Input.odom (flagsAt [7, 11]) false).velocity 1 := by
  refine ⟨by decide, ?_⟩
  simp only [Input.velocity]
  decide

example : ∀ inp ∈ [Input.odom (flagsAt [6, 7, 11]) false, .imu (flagsAt [5, 11]) false], inp.cfg.length = 15 := by decide
example : ∀ v d, Input.odom v d ∈ [Input.odom (flagsAt [6, 7, 11]) false, .imu (flagsAt [5, 11]) false] → (1 : Fin 6) = 1 →
    (Selects v 6 ↔ Selects v 7) := by
  intro v d h _
  simp only [List.mem_cons, Input.odom.injEq, reduceCtorEq, List.not_mem_nil, or_false] at h
  rw [h.1]
  decide

end RL
