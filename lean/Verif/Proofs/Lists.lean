import Mathlib.Data.List.DropRight
/-! # List lemmas: prefixes and suffixes of time-sorted lists -/

namespace RL
variable {α : Type} (f : α → Int)

/-- Newest first. -/
def Desc (l : List α) : Prop := l.Pairwise (fun a b => f b ≤ f a)

variable {f}

theorem Desc.le_head {a : α} {l : List α} (h : Desc f (a :: l)) : ∀ b ∈ a :: l, f b ≤ f a := by
  intro b hb
  rcases List.mem_cons.1 hb with rfl | hb
  · exact Int.le_refl _
  · exact (List.pairwise_cons.1 h).1 b hb

theorem Desc.tail {a : α} {l : List α} (h : Desc f (a :: l)) : Desc f l := (List.pairwise_cons.1 h).2

theorem Desc.takeWhile {l : List α} (h : Desc f l) (p : α → Bool) : Desc f (l.takeWhile p) :=
  List.Pairwise.sublist (List.takeWhile_sublist p) h

theorem Desc.dropWhile {l : List α} (h : Desc f l) (p : α → Bool) : Desc f (l.dropWhile p) :=
  List.Pairwise.sublist (List.dropWhile_sublist p) h

/-- In a sorted list everything after `dropWhile (> t)` is at or before `t`. -/
theorem Desc.dropWhile_le {l : List α} (h : Desc f l) (t : Int) :
    ∀ a ∈ l.dropWhile (fun a => decide (f a > t)), f a ≤ t := by
  induction l with
  | nil => simp
  | cons b l ih =>
    intro a ha
    rw [List.dropWhile_cons] at ha
    split at ha
    · exact ih h.tail a ha
    · rename_i hb
      have := h.le_head a ha
      simp at hb
      omega

theorem takeWhile_gt (l : List α) (t : Int) : ∀ a ∈ l.takeWhile (fun a => decide (f a > t)), t < f a := by
  intro a ha
  have := List.mem_takeWhile_imp ha
  simpa using this

theorem takeWhile_ge (l : List α) (c : Int) : ∀ a ∈ l.takeWhile (fun a => decide (c ≤ f a)), c ≤ f a := by
  intro a ha
  have := List.mem_takeWhile_imp ha
  simpa using this

/-- `pop_front` while expired, on a sorted deque, keeps exactly the prefix of non-expired entries. -/
theorem Desc.rdropWhile_eq {l : List α} (h : Desc f l) (k : Int) :
    l.rdropWhile (fun a => decide (f a < k)) = l.takeWhile (fun a => decide (k ≤ f a)) := by
  induction l using List.reverseRecOn with
  | nil => simp
  | append_singleton l a ih =>
    have hl : Desc f l := List.Pairwise.sublist (List.sublist_append_left l [a]) h
    have hla : ∀ b ∈ l, f a ≤ f b := by
      intro b hb
      exact (List.pairwise_append.1 h).2.2 b hb a (by simp)
    by_cases hk : f a < k
    · rw [List.rdropWhile_concat_pos _ _ _ (by simpa using hk), ih hl]
      rw [List.takeWhile_append]
      split
      · have : ¬ k ≤ f a := by omega
        rename_i hlen
        have heq : l.takeWhile (fun a => decide (k ≤ f a)) = l :=
          (List.takeWhile_prefix _).eq_of_length hlen
        simp [this, heq]
      · rfl
    · rw [List.rdropWhile_concat_neg _ _ _ (by simpa using hk)]
      symm
      rw [List.takeWhile_eq_self_iff]
      intro b hb
      rcases List.mem_append.1 hb with hb | hb
      · have := hla b hb; simp; omega
      · simp at hb; subst hb; simp; omega

theorem takeWhile_ge_ge (l : List α) (c k : Int) :
    (l.takeWhile (fun a => decide (c ≤ f a))).takeWhile (fun a => decide (k ≤ f a)) =
      l.takeWhile (fun a => decide (max c k ≤ f a)) := by
  induction l with
  | nil => rfl
  | cons a l ih =>
    by_cases h1 : c ≤ f a <;> by_cases h2 : k ≤ f a
    · have : max c k ≤ f a := by omega
      simp [h1, h2, ih, this]
    · have : ¬ max c k ≤ f a := by omega
      simp [h1, h2]; omega
    · have : ¬ max c k ≤ f a := by omega
      simp [h1]; omega
    · have : ¬ max c k ≤ f a := by omega
      simp [h1]; omega

/-- Rewinding a truncated history: if nothing newer than `t` has been cut, rewinding commutes with truncation. -/
theorem rewind_truncated {l : List α} (h : Desc f l) {c t : Int} (hct : c ≤ t) :
    (l.takeWhile (fun a => decide (c ≤ f a))).dropWhile (fun a => decide (f a > t)) =
        (l.dropWhile (fun a => decide (f a > t))).takeWhile (fun a => decide (c ≤ f a)) ∧
      (l.takeWhile (fun a => decide (c ≤ f a))).takeWhile (fun a => decide (f a > t)) =
        l.takeWhile (fun a => decide (f a > t)) := by
  induction l with
  | nil => simp
  | cons a l ih =>
    obtain ⟨ih1, ih2⟩ := ih h.tail
    by_cases h1 : t < f a
    · have : c ≤ f a := by omega
      simp [h1, this, ih1, ih2]
    · by_cases h2 : c ≤ f a
      · simp [h1, h2]
      · simp [h1, h2]

end RL
