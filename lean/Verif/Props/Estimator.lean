import Verif.Model.Estimator
import Mathlib.Data.List.Basic
import Mathlib.Data.List.Induction
import Mathlib.Tactic.Linarith
/-! # C44–C46: the state buffer of the estimator -/

namespace RL
open Est
variable {α : Type}

/-- Stamps in order, equal ones allowed. -/
def Ordered (l : List (Item α)) : Prop := l.Pairwise (fun a b => a.time ≤ b.time)
/-- Stamps in strict order. -/
def StrictlyOrdered (l : List (Item α)) : Prop := l.Pairwise (fun a b => a.time < b.time)

/-- The states set by a sequence of operations. -/
def setStates (ops : List (Op α)) : List (Item α) := ops.filterMap fun | .set a => some a | _ => none

/-- The capacity last asked for. -/
def capacityAfter (cap : ℕ) (ops : List (Op α)) : ℕ :=
  ((ops.filterMap fun | .capacity n => some n | _ => none).getLast?).getD cap

/-- Put an item in front of the first one that is later. -/
noncomputable def place (a : Item α) : List (Item α) → List (Item α)
  | [] => [a]
  | b :: l => open Classical in if a.time < b.time then a :: b :: l else b :: place a l

theorem mem_place {a x : Item α} {l : List (Item α)} : x ∈ place a l ↔ x = a ∨ x ∈ l := by
  induction l with
  | nil => simp [place]
  | cons b l ih =>
    unfold place
    split
    · simp
    · simp only [List.mem_cons, ih]; tauto

theorem place_length (a : Item α) (l : List (Item α)) : (place a l).length = l.length + 1 := by
  induction l with
  | nil => rfl
  | cons b l ih =>
    unfold place
    split
    · simp
    · simp [ih]

theorem place_ordered {a : Item α} {l : List (Item α)} (h : Ordered l) : Ordered (place a l) := by
  induction l with
  | nil => simp [place, Ordered]
  | cons b l ih =>
    unfold Ordered at *
    have hb := List.pairwise_cons.1 h
    unfold place
    split
    · rename_i hlt
      refine List.pairwise_cons.2 ⟨fun x hx => ?_, h⟩
      rcases List.mem_cons.1 hx with rfl | hx
      · exact hlt.le
      · exact hlt.le.trans (hb.1 x hx)
    · rename_i hlt
      refine List.pairwise_cons.2 ⟨fun x hx => ?_, ih hb.2⟩
      rcases mem_place.1 hx with rfl | hx
      · exact not_lt.1 hlt
      · exact hb.1 x hx

theorem place_strict {a : Item α} {l : List (Item α)} (h : StrictlyOrdered l) (hne : ∀ b ∈ l, b.time ≠ a.time) :
    StrictlyOrdered (place a l) := by
  induction l with
  | nil => simp [place, StrictlyOrdered]
  | cons b l ih =>
    unfold StrictlyOrdered at *
    have hb := List.pairwise_cons.1 h
    unfold place
    split
    · rename_i hlt
      refine List.pairwise_cons.2 ⟨fun x hx => ?_, h⟩
      rcases List.mem_cons.1 hx with rfl | hx
      · exact hlt
      · exact hlt.trans (hb.1 x hx)
    · rename_i hlt
      refine List.pairwise_cons.2 ⟨fun x hx => ?_, ih hb.2 (fun c hc => hne c (List.mem_cons_of_mem _ hc))⟩
      rcases mem_place.1 hx with rfl | hx
      · exact lt_of_le_of_ne (not_lt.1 hlt) (hne b List.mem_cons_self)
      · exact hb.1 x hx

theorem place_last {a : Item α} {l : List (Item α)} (h : ∀ b ∈ l, b.time ≤ a.time) : place a l = l ++ [a] := by
  induction l with
  | nil => rfl
  | cons b l ih =>
    unfold place
    rw [if_neg (not_lt.2 (h b List.mem_cons_self)), ih (fun c hc => h c (List.mem_cons_of_mem _ hc))]
    rfl

open Classical in
theorem findIdx_place {a : Item α} {l : List (Item α)} {i : ℕ}
    (h : l.findIdx? (fun it => decide (a.time < it.time)) = some i) :
    l.take i ++ a :: l.drop i = place a l := by
  induction l generalizing i with
  | nil => simp at h
  | cons b l ih =>
    rw [List.findIdx?_cons] at h
    unfold place
    by_cases hb : a.time < b.time
    · simp only [hb, decide_true, if_true, Option.some.injEq] at h
      subst h
      simp [hb]
    · simp only [hb, decide_false, Bool.false_eq_true, if_false, Option.map_eq_some_iff] at h
      obtain ⟨j, hj, rfl⟩ := h
      rw [if_neg hb, ← ih hj]
      rfl

open Classical in
/-- `setState` on an ordered buffer, in terms of sorted insertion: the newest `cap` states of the buffer with the new one
in its place; except that a stamp equal to the newest stored one is ignored. -/
theorem setState_eq (b : Buf α) (a : Item α) (ho : Ordered b.items) (hc : b.items.length ≤ b.cap) :
    (b.setState a) = if ∃ l, b.items.getLast? = some l ∧ l.time = a.time then b
      else { b with items := (place a b.items).drop (b.items.length + 1 - b.cap) } := by
  have push : (∀ x ∈ b.items, x.time ≤ a.time) →
      b.pushBack a = { b with items := (place a b.items).drop (b.items.length + 1 - b.cap) } := by
    intro hle
    rw [place_last hle]
    unfold Buf.pushBack
    split
    · rename_i h0
      have : b.items = [] := List.length_eq_zero_iff.1 (by omega)
      obtain ⟨items, cap⟩ := b
      simp only at this h0
      subst this h0
      rfl
    · split
      · rename_i h1
        rw [show b.items.length + 1 - b.cap = 0 by omega, List.drop_zero]
      · rename_i h1
        rw [show b.items.length + 1 - b.cap = 1 by omega, List.drop_one]
  unfold Buf.setState
  cases hl : b.items.getLast? with
  | none =>
    have he : b.items = [] := List.getLast?_eq_none_iff.1 hl
    rw [if_neg (by simp)]
    exact push (by rw [he]; simp)
  | some l =>
    have hlast : ∀ x ∈ b.items, x.time ≤ l.time := by
      intro x hx
      obtain ⟨ys, hys⟩ : ∃ ys, b.items = ys ++ [l] := List.getLast?_eq_some_iff.1 hl
      rw [hys] at hx ho
      rcases List.mem_append.1 hx with h | h
      · exact (List.pairwise_append.1 ho).2.2 x h l (by simp)
      · rw [List.mem_singleton.1 h]
    have hmem : l ∈ b.items := List.mem_of_getLast? hl
    dsimp only
    by_cases h1 : a.time > l.time
    · rw [if_pos h1, if_neg]
      · exact push (fun x hx => (hlast x hx).trans h1.le)
      · rintro ⟨l', hl', he⟩
        cases hl'
        linarith
    · rw [if_neg h1]
      cases hf : b.items.findIdx? (fun it => decide (a.time < it.time)) with
      | none =>
        have := List.findIdx?_eq_none_iff.1 hf l hmem
        simp only [decide_eq_false_iff_not, not_lt] at this
        rw [if_pos ⟨l, rfl, le_antisymm this (not_lt.1 h1)⟩]
      | some i =>
        have hne : ¬ ∃ l', some l = some l' ∧ l'.time = a.time := by
          rintro ⟨l', hl', he⟩
          cases hl'
          obtain ⟨hi, hlt, -⟩ := List.findIdx?_eq_some_iff_getElem.1 hf
          have := hlast _ (List.getElem_mem hi)
          simp only [decide_eq_true_eq] at hlt
          linarith
        rw [if_neg hne]
        unfold Buf.insertAt
        dsimp only
        rw [findIdx_place hf]
        split
        · rw [show b.items.length + 1 - b.cap = 0 by omega, List.drop_zero]
        · rename_i h2
          have hlen : b.items.length = b.cap := by omega
          rw [show b.items.length + 1 - b.cap = 1 by omega]
          split
          · rename_i h0
            subst h0
            have := findIdx_place hf
            simp only [List.take_zero, List.nil_append, List.drop_zero] at this
            rw [← this]
            rfl
          · rw [List.drop_one]

/-- What holds of every buffer. -/
structure Buf.Good (b : Buf α) (set : List (Item α)) : Prop where
  ordered : Ordered b.items
  bounded : b.items.length ≤ b.cap
  from_set : ∀ x ∈ b.items, x ∈ set

theorem Ordered.sublist {l l' : List (Item α)} (h : Ordered l) (hs : l'.Sublist l) : Ordered l' := List.Pairwise.sublist hs h

theorem Buf.Good.setState {b : Buf α} {s : List (Item α)} (h : Buf.Good b s) (a : Item α) :
    Buf.Good (b.setState a) (s ++ [a]) := by
  classical
  rw [setState_eq b a h.ordered h.bounded]
  split
  · exact ⟨h.ordered, h.bounded, fun x hx => List.mem_append_left _ (h.from_set x hx)⟩
  · refine ⟨(place_ordered h.ordered).sublist (List.drop_sublist _ _), ?_, fun x hx => ?_⟩
    · simp only [List.length_drop, place_length]
      omega
    · rcases mem_place.1 ((List.drop_sublist _ _).subset hx) with rfl | h'
      · simp
      · exact List.mem_append_left _ (h.from_set x h')

theorem setState_cap (b : Buf α) (a : Item α) : (b.setState a).cap = b.cap := by
  unfold Buf.setState
  split
  · unfold Buf.pushBack
    split
    · rfl
    · split <;> rfl
  · split
    · unfold Buf.pushBack
      split
      · rfl
      · split <;> rfl
    · split
      · unfold Buf.insertAt
        dsimp only
        split
        · rfl
        · split <;> rfl
      · rfl

/-- The capacity of the buffer is the one last asked for; neither setting states nor clearing changes it. -/
theorem run_cap (cap : ℕ) (ops : List (Op α)) : (Buf.run cap ops).cap = capacityAfter cap ops := by
  unfold Buf.run
  induction ops using List.reverseRecOn with
  | nil => rfl
  | append_singleton ops o ih =>
    rw [List.foldl_append]
    cases o with
    | set a =>
      show (Buf.setState _ a).cap = _
      rw [setState_cap, ih]
      simp [capacityAfter]
    | capacity n => simp [capacityAfter, Buf.apply, Buf.setCapacity]
    | clear =>
      show (Buf.clear _).cap = _
      rw [Buf.clear, ih]
      simp [capacityAfter]

/-- C44, partial: whatever is done to an estimator, its buffer is in time order, within the capacity last asked for, and
made of states that were set.  Missing: strictly increasing order, which is false when a stamp is set twice
(`C44_duplicate_stamps`); see `C44_strict_order` for distinct stamps. -/
theorem C44_buffer_partial (cap : ℕ) (ops : List (Op α)) :
    Ordered (Buf.run cap ops).items ∧ (Buf.run cap ops).items.length ≤ capacityAfter cap ops ∧
      ∀ x ∈ (Buf.run cap ops).items, x ∈ setStates ops := by
  have key : ∀ (ops : List (Op α)) (b : Buf α) (s : List (Item α)), Buf.Good b s →
      Buf.Good (ops.foldl Buf.apply b) (s ++ setStates ops) := by
    intro ops
    induction ops with
    | nil => intro b s h; simpa [setStates] using h
    | cons o ops ih =>
      intro b s h
      cases o with
      | set a =>
        have := ih (b.setState a) (s ++ [a]) (h.setState a)
        simpa [setStates, Buf.apply] using this
      | capacity n =>
        have h' : Buf.Good (b.setCapacity n) s :=
          ⟨h.ordered.sublist (List.take_sublist _ _), by simp [Buf.setCapacity], fun x hx =>
            h.from_set x ((List.take_sublist _ _).subset hx)⟩
        exact ih _ s h'
      | clear =>
        have h' : Buf.Good b.clear s := ⟨List.Pairwise.nil, by simp [Buf.clear], fun x hx => by simp [Buf.clear] at hx⟩
        exact ih _ s h'
  have := key ops { items := [], cap := cap } [] ⟨List.Pairwise.nil, by simp, fun x hx => by simp at hx⟩
  refine ⟨this.ordered, ?_, by simpa [Buf.run] using this.from_set⟩
  rw [← run_cap]
  exact this.bounded

/-- C44: with distinct stamps the order is strict. -/
theorem C44_strict_order (cap : ℕ) (ops : List (Op α)) (hd : (setStates ops).Pairwise (fun a b => a.time ≠ b.time)) :
    StrictlyOrdered (Buf.run cap ops).items := by
  classical
  have key : ∀ (ops : List (Op α)) (b : Buf α) (s : List (Item α)), Buf.Good b s → StrictlyOrdered b.items →
      (s ++ setStates ops).Pairwise (fun a b => a.time ≠ b.time) →
      StrictlyOrdered (ops.foldl Buf.apply b).items := by
    intro ops
    induction ops with
    | nil => intro b s _ h _; exact h
    | cons o ops ih =>
      intro b s hg h hd
      cases o with
      | set a =>
        have hd' : ((s ++ [a]) ++ setStates ops).Pairwise (fun a b => a.time ≠ b.time) := by
          simpa [setStates] using hd
        refine ih (b.setState a) (s ++ [a]) (hg.setState a) ?_ hd'
        rw [setState_eq b a hg.ordered hg.bounded]
        split
        · exact h
        · refine List.Pairwise.sublist (List.drop_sublist _ _) (place_strict h (fun x hx => ?_))
          have h1 := (List.pairwise_append.1 (List.pairwise_append.1 hd').1).2.2
          exact h1 x (hg.from_set x hx) a (by simp)
      | capacity n =>
        exact ih (b.setCapacity n) s ⟨hg.ordered.sublist (List.take_sublist _ _), by simp [Buf.setCapacity], fun x hx =>
            hg.from_set x ((List.take_sublist _ _).subset hx)⟩ (List.Pairwise.sublist (List.take_sublist _ _) h) hd
      | clear =>
        exact ih b.clear s ⟨List.Pairwise.nil, by simp [Buf.clear], fun x hx => by simp [Buf.clear] at hx⟩
          List.Pairwise.nil hd
  exact key ops { items := [], cap := cap } [] ⟨List.Pairwise.nil, by simp, fun x hx => by simp at hx⟩
    List.Pairwise.nil (by simpa using hd)

/-- C44, strict order is false in general: a state set again at a stamp that is stored but not the newest is stored
twice. -/
theorem C44_duplicate_stamps (a b c : α) :
    (Buf.run 10 [.set ⟨1, a⟩, .set ⟨2, b⟩, .set ⟨1, c⟩]).items = [⟨1, a⟩, ⟨1, c⟩, ⟨2, b⟩] := by
  have e1 : (Buf.run 10 [.set ⟨1, a⟩, .set ⟨2, b⟩] : Buf α) = { items := [⟨1, a⟩, ⟨2, b⟩], cap := 10 } := by
    simp [Buf.run, Buf.apply, Buf.setState, Buf.pushBack]
  have e2 : (Buf.run 10 [.set ⟨1, a⟩, .set ⟨2, b⟩, .set ⟨1, c⟩] : Buf α) =
      (Buf.run 10 [.set ⟨1, a⟩, .set ⟨2, b⟩] : Buf α).setState ⟨1, c⟩ := rfl
  rw [e2, e1]
  simp [Buf.setState, Buf.insertAt, List.findIdx?_cons]

example : (setStates [.set ⟨1, 10⟩, .capacity 3, .set ⟨3, 11⟩, .set ⟨2, 12⟩] : List (Item ℕ)).Pairwise
    (fun a b => a.time ≠ b.time) := by
  simp [setStates]

/-! ## C45 -/

theorem scan_cons_gt {t : ℝ} {a : Item α} (l : List (Item α)) (next : Option (Item α)) (h : t < a.time) :
    scan t (a :: l) next = scan t l (some a) := by
  rw [scan, if_neg (by linarith), if_neg (by linarith)]

theorem scan_before {t : ℝ} (l r : List (Item α)) (next : Option (Item α)) (h : ∀ x ∈ l, t < x.time) :
    scan t (l ++ r) next = scan t r (l.getLast?.or next) := by
  induction l generalizing next with
  | nil => simp
  | cons a l ih =>
    have ha := h a List.mem_cons_self
    show scan t (a :: (l ++ r)) next = _
    rw [scan_cons_gt _ _ ha, ih _ (fun x hx => h x (List.mem_cons_of_mem _ hx))]
    cases l with
    | nil => simp
    | cons b l =>
      rw [List.getLast?_cons_cons]
      cases hb : (b :: l).getLast? with
      | none => simp at hb
      | some v => rfl

/-- C45: an empty buffer says so. -/
theorem C45_empty (b : Buf α) (ext : α → ℝ → α) (t : ℝ) : b.getState ext t = .empty ↔ b.items = [] := by
  unfold Buf.getState
  constructor
  · intro h
    split at h
    · rename_i h0; exact List.length_eq_zero_iff.1 h0
    · split at h <;> cases h
  · intro h
    rw [if_pos (by rw [h]; rfl)]

/-- C45: a query at a stored time returns the stored state (the one nearest the end of the buffer if there are
several). -/
theorem C45_exact (b : Buf α) (ext : α → ℝ → α) (t : ℝ) (l r : List (Item α)) (a : Item α) (hb : b.items = l ++ a :: r)
    (ha : a.time = t) (hr : ∀ x ∈ r, t < x.time) : b.getState ext t = .exact a := by
  unfold Buf.getState
  have hrev : b.items.reverse = r.reverse ++ a :: l.reverse := by rw [hb]; simp
  rw [if_neg (by rw [hb]; simp), hrev, scan_before _ _ _ (by simpa using hr)]
  unfold scan
  rw [if_pos ha]

/-- C45: a query between stored times is answered from the stored state just before it. -/
theorem C45_between (b : Buf α) (ext : α → ℝ → α) (t : ℝ) (l r : List (Item α)) (a c : Item α)
    (hb : b.items = l ++ a :: c :: r) (ha : a.time < t) (hc : t < c.time) (hr : ∀ x ∈ r, t < x.time) :
    b.getState ext t = .interpolation ⟨t, ext a.val (t - a.time)⟩ := by
  unfold Buf.getState
  have hrev : b.items.reverse = (c :: r).reverse ++ a :: l.reverse := by rw [hb]; simp
  rw [if_neg (by rw [hb]; simp), hrev, scan_before _ _ _ (by
    intro x hx
    rcases List.mem_cons.1 (List.mem_reverse.1 hx) with rfl | h
    · exact hc
    · exact hr x h)]
  rw [List.getLast?_reverse]
  unfold scan
  rw [if_neg ha.ne, if_pos ha.le]
  rfl

/-- C45: a query after all stored times is answered from the newest state. -/
theorem C45_after (b : Buf α) (ext : α → ℝ → α) (t : ℝ) (l : List (Item α)) (a : Item α) (hb : b.items = l ++ [a])
    (ha : a.time < t) : b.getState ext t = .future ⟨t, ext a.val (t - a.time)⟩ := by
  unfold Buf.getState
  have hrev : b.items.reverse = a :: l.reverse := by rw [hb]; simp
  rw [if_neg (by rw [hb]; simp), hrev]
  unfold scan
  rw [if_neg ha.ne, if_pos ha.le]
  rfl

/-- C45: a query before all stored times is answered from the oldest state, backwards in time. -/
theorem C45_before (b : Buf α) (ext : α → ℝ → α) (t : ℝ) (r : List (Item α)) (a : Item α) (hb : b.items = a :: r)
    (ha : ∀ x ∈ b.items, t < x.time) : b.getState ext t = .past ⟨t, ext a.val (t - a.time)⟩ := by
  unfold Buf.getState
  rw [if_neg (by rw [hb]; simp)]
  have := scan_before b.items.reverse [] none (t := t) (by simpa using ha)
  rw [List.append_nil] at this
  rw [this, List.getLast?_reverse, hb]
  rfl

/-- C45: the cases above are all there are for an ordered buffer; in particular the result "failed" does not exist. -/
theorem C45_total (b : Buf α) (t : ℝ) (ho : Ordered b.items) :
    b.items = [] ∨ (∃ l a r, b.items = l ++ a :: r ∧ a.time = t ∧ ∀ x ∈ r, t < x.time) ∨
    (∃ l a c r, b.items = l ++ a :: c :: r ∧ a.time < t ∧ t < c.time ∧ ∀ x ∈ r, t < x.time) ∨
    (∃ l a, b.items = l ++ [a] ∧ a.time < t) ∨ (∃ a r, b.items = a :: r ∧ ∀ x ∈ b.items, t < x.time) := by
  obtain ⟨items, cap⟩ := b
  simp only at ho ⊢
  have key : ∀ l : List (Item α), Ordered l.reverse → ∀ r : List (Item α), (∀ x ∈ r, t < x.time) →
      (l.reverse ++ r = [] ∨ (∃ l' a r', l.reverse ++ r = l' ++ a :: r' ∧ a.time = t ∧ ∀ x ∈ r', t < x.time) ∨
      (∃ l' a c r', l.reverse ++ r = l' ++ a :: c :: r' ∧ a.time < t ∧ t < c.time ∧ ∀ x ∈ r', t < x.time) ∨
      (∃ l' a, l.reverse ++ r = l' ++ [a] ∧ a.time < t) ∨
      (∃ a r', l.reverse ++ r = a :: r' ∧ ∀ x ∈ l.reverse ++ r, t < x.time)) := by
    intro l
    induction l with
    | nil =>
      intro _ r hr
      cases r with
      | nil => exact Or.inl rfl
      | cons a r => exact Or.inr (Or.inr (Or.inr (Or.inr ⟨a, r, rfl, hr⟩)))
    | cons a l ih =>
      intro ho r hr
      rcases lt_trichotomy a.time t with h | h | h
      · cases r with
        | nil => exact Or.inr (Or.inr (Or.inr (Or.inl ⟨l.reverse, a, by simp, h⟩)))
        | cons c r =>
          exact Or.inr (Or.inr (Or.inl ⟨l.reverse, a, c, r, by simp, h, hr c List.mem_cons_self, fun x hx =>
            hr x (List.mem_cons_of_mem _ hx)⟩))
      · exact Or.inr (Or.inl ⟨l.reverse, a, r, by simp, h, hr⟩)
      · have e : (a :: l).reverse ++ r = l.reverse ++ (a :: r) := by simp
        rw [e]
        refine ih ?_ (a :: r) (fun x hx => ?_)
        · rw [List.reverse_cons] at ho
          exact (List.pairwise_append.1 ho).1
        · rcases List.mem_cons.1 hx with rfl | hx
          · exact h
          · exact hr x hx
  have := key items.reverse (by simpa using ho) [] (by simp)
  simpa using this

/-- C45: never "failed". -/
theorem C45_never_failed (b : Buf α) (ext : α → ℝ → α) (t : ℝ) (ho : Ordered b.items) : b.getState ext t ≠ .failed := by
  rcases C45_total b t ho with h | ⟨l, a, r, h, h1, h2⟩ | ⟨l, a, c, r, h, h1, h2, h3⟩ | ⟨l, a, h, h1⟩ | ⟨a, r, h, h1⟩
  · rw [(C45_empty b ext t).2 h]; intro h; cases h
  · rw [C45_exact b ext t l r a h h1 h2]; intro h; cases h
  · rw [C45_between b ext t l r a c h h1 h2 h3]; intro h; cases h
  · rw [C45_after b ext t l a h h1]; intro h; cases h
  · rw [C45_before b ext t r a h h1]; intro h; cases h

example (ext : ℕ → ℝ → ℕ) : ({ items := [⟨1, 10⟩, ⟨2, 11⟩, ⟨4, 12⟩], cap := 3 } : Buf ℕ).getState ext 3 =
    .interpolation ⟨3, ext 11 (3 - 2)⟩ :=
  C45_between _ ext 3 [⟨1, 10⟩] [] ⟨2, 11⟩ ⟨4, 12⟩ rfl (by norm_num) (by norm_num) (by simp)

/-! ## C46 -/

/-- C46, partial: setting a state whose stamp is not stored keeps the newest `cap` of the stored states and the new one.
Missing: shrinking (`C46_shrinking_drops_newest`). -/
theorem C46_keeps_newest_partial (b : Buf α) (a : Item α) (ho : StrictlyOrdered b.items) (hc : b.items.length ≤ b.cap)
    (ha : ∀ x ∈ b.items, x.time ≠ a.time) :
    ∃ s : List (Item α), s.Perm (a :: b.items) ∧ StrictlyOrdered s ∧
      (b.setState a).items = s.drop (s.length - b.cap) := by
  classical
  refine ⟨place a b.items, ?_, place_strict ho ha, ?_⟩
  · have : ∀ l : List (Item α), (place a l).Perm (a :: l) := by
      intro l
      induction l with
      | nil => exact List.Perm.refl _
      | cons c l ih =>
        unfold place
        split
        · exact List.Perm.refl _
        · exact (ih.cons c).trans (List.Perm.swap a c l)
    exact this _
  · rw [setState_eq b a (List.Pairwise.imp (fun h => le_of_lt h) ho) hc, if_neg, place_length]
    rintro ⟨l, hl, he⟩
    exact ha l (List.mem_of_getLast? hl) he

theorem fed_in_order (cap : ℕ) (l : List (Item α)) (h : StrictlyOrdered l) :
    (Buf.run cap (l.map .set)).items = l.drop (l.length - cap) := by
  classical
  have key : ∀ (done todo : List (Item α)), StrictlyOrdered (done ++ todo) →
      ((todo.map .set).foldl Buf.apply { items := done.drop (done.length - cap), cap := cap } : Buf α).items =
        (done ++ todo).drop ((done ++ todo).length - cap) := by
    intro done todo
    induction todo generalizing done with
    | nil => intro _; simp
    | cons a todo ih =>
      intro h
      have h' : StrictlyOrdered ((done ++ [a]) ++ todo) := by simpa using h
      have hlt : ∀ x ∈ done, x.time < a.time := fun x hx => (List.pairwise_append.1 h).2.2 x hx a (by simp)
      have hd : StrictlyOrdered done := (List.pairwise_append.1 h).1
      have step : ({ items := done.drop (done.length - cap), cap := cap } : Buf α).setState a =
          { items := (done ++ [a]).drop ((done ++ [a]).length - cap), cap := cap } := by
        rw [setState_eq _ a ((List.Pairwise.imp (fun h => le_of_lt h) hd : Ordered done).sublist (List.drop_sublist _ _))
          (by simp only [List.length_drop]; omega), if_neg]
        · have hp : place a (done.drop (done.length - cap)) = done.drop (done.length - cap) ++ [a] :=
            place_last fun x hx => (hlt x ((List.drop_sublist _ _).subset hx)).le
          simp only [hp, Buf.mk.injEq, and_true]
          rw [← List.drop_append_of_le_length (by omega : done.length - cap ≤ done.length), List.drop_drop]
          congr 1
          simp only [List.length_drop, List.length_append, List.length_cons, List.length_nil]
          omega
        · rintro ⟨l, hl, he⟩
          have := hlt l ((List.drop_sublist _ _).subset (List.mem_of_getLast? hl))
          linarith
      have := ih (done ++ [a]) h'
      rw [List.map_cons, List.foldl_cons]
      show (List.foldl _ (Buf.setState _ a) _).items = _
      rw [step]
      simpa using this
  have := key [] l (by simpa using h)
  simpa [Buf.run] using this

/-- C46, partial: whatever has been done to an estimator before it was cleared, fed in time order it then holds the newest
states, as many as the capacity last asked for allows. -/
theorem C46_in_order_partial (cap : ℕ) (ops : List (Op α)) (l : List (Item α)) (h : StrictlyOrdered l) :
    (Buf.run cap (ops ++ .clear :: l.map .set)).items = l.drop (l.length - capacityAfter cap ops) := by
  rw [← run_cap, ← fed_in_order _ l h]
  unfold Buf.run
  rw [List.foldl_append, List.foldl_cons]
  rfl

/-- C46, partial: the same for a new estimator. -/
theorem C46_fresh_partial (cap : ℕ) (l : List (Item α)) (h : StrictlyOrdered l) :
    (Buf.run cap (l.map .set)).items = l.drop (l.length - cap) := fed_in_order cap l h

/-- Two of three states are left in an estimator that was made for ten, used, made smaller and cleared. -/
example (a b c : ℕ) : (Buf.run 10 ([.set ⟨5, c⟩, .capacity 2] ++ .clear :: [⟨1, a⟩, ⟨2, b⟩, ⟨3, c⟩].map .set)).items =
    [⟨2, b⟩, ⟨3, c⟩] := by
  rw [C46_in_order_partial]
  · simp [capacityAfter]
  · simp [StrictlyOrdered]
    norm_num

/-- C46, refuted for shrinking: whenever a buffer fed in order is shrunk below what it holds, its newest state is lost,
whatever the new capacity. -/
theorem C46_shrinking_drops_newest (cap n : ℕ) (l : List (Item α)) (a : Item α) (h : StrictlyOrdered (l ++ [a]))
    (hc : l.length + 1 ≤ cap) (hn : n ≤ l.length) :
    a ∉ (Buf.run cap ((l ++ [a]).map .set ++ [.capacity n])).items ∧
      (Buf.run cap ((l ++ [a]).map .set ++ [.capacity n])).items = l.take n := by
  have h0 := fed_in_order cap (l ++ [a]) h
  have e : (Buf.run cap ((l ++ [a]).map .set ++ [.capacity n])).items =
      (Buf.run cap ((l ++ [a]).map .set)).items.take n := by
    unfold Buf.run
    rw [List.foldl_append]
    rfl
  rw [e, h0, show (l ++ [a]).length - cap = 0 by simp; omega, List.drop_zero, List.take_append_of_le_length hn]
  refine ⟨fun hm => ?_, rfl⟩
  have := (List.pairwise_append.1 h).2.2 a ((List.take_sublist _ _).subset hm) a (by simp)
  linarith

example : StrictlyOrdered ([⟨1, 10⟩, ⟨2, 11⟩] ++ [⟨3, 12⟩] : List (Item ℕ)) ∧ 2 ≤ ([⟨1, 10⟩, ⟨2, 11⟩] : List (Item ℕ)).length := by
  constructor
  · simp [StrictlyOrdered]
    norm_num
  · simp

end RL
