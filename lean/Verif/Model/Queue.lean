import Mathlib.Data.Multiset.Basic
import Mathlib.Data.Multiset.ZeroCons
import Verif.Model.FilterBase
/-!
# `std::priority_queue` by contract

`measurement_queue_` is a `std::priority_queue<MeasurementPtr, vector, Measurement>` whose comparison is
`a.time_ > b.time_` (measurement.hpp:91-101): `top()` is an element with the smallest stamp.  Which element among
equal stamps is not specified by the standard, so the queue is a parameter: any type `Q` with these laws.
-/

namespace RL

/-- The contract of `std::priority_queue` for elements with a stamp. -/
structure PQueue (M : Type) (time : M → Int) where
  Q : Type
  empty : Q
  push : Q → M → Q
  top : Q → Option M
  pop : Q → Q
  /-- the content, as a multiset (observer used by the laws only; `size()` is its cardinality) -/
  elems : Q → Multiset M
  elems_empty : elems empty = 0
  elems_push : ∀ q m, elems (push q m) = m ::ₘ elems q
  top_none : ∀ q, top q = none ↔ elems q = 0
  top_min : ∀ q m, top q = some m → ∀ m' ∈ elems q, time m ≤ time m'
  elems_pop : ∀ q m, top q = some m → m ::ₘ elems (pop q) = elems q

namespace PQueue
variable {M : Type} {time : M → Int}

/-- `size()`. -/
def size (P : PQueue M time) (q : P.Q) : Nat := Multiset.card (P.elems q)

/-- Insertion into a list kept sorted by stamp. -/
def insertSorted (time : M → Int) (m : M) : List M → List M
  | [] => [m]
  | a :: l => if time m < time a then m :: a :: l else a :: insertSorted time m l

theorem insertSorted_coe (time : M → Int) (m : M) (l : List M) :
    ((insertSorted time m l : List M) : Multiset M) = m ::ₘ (l : Multiset M) := by
  induction l with
  | nil => rfl
  | cons a l ih =>
    unfold insertSorted
    split
    · rfl
    · rw [← Multiset.cons_coe, ih, ← Multiset.cons_coe, Multiset.cons_swap]

theorem insertSorted_pairwise (time : M → Int) (m : M) (l : List M)
    (h : l.Pairwise (fun a b => time a ≤ time b)) :
    (insertSorted time m l).Pairwise (fun a b => time a ≤ time b) := by
  induction l with
  | nil => simp [insertSorted]
  | cons a l ih =>
    rw [List.pairwise_cons] at h
    unfold insertSorted
    split
    · rename_i hlt
      refine List.pairwise_cons.2 ⟨?_, List.pairwise_cons.2 h⟩
      intro b hb
      rcases List.mem_cons.1 hb with rfl | hb
      · omega
      · have := h.1 b hb; omega
    · rename_i hlt
      refine List.pairwise_cons.2 ⟨?_, ih h.2⟩
      intro b hb
      have hb' : b ∈ ((insertSorted time m l : List M) : Multiset M) := hb
      rw [insertSorted_coe] at hb'
      rcases Multiset.mem_cons.1 hb' with rfl | hb'
      · omega
      · exact h.1 b hb'

/-- One implementation of the contract (a sorted list), showing that the contract can be met. -/
def sortedList (M : Type) (time : M → Int) : PQueue M time where
  Q := { l : List M // l.Pairwise (fun a b => time a ≤ time b) }
  empty := ⟨[], List.Pairwise.nil⟩
  push q m := ⟨insertSorted time m q.1, insertSorted_pairwise time m q.1 q.2⟩
  top q := q.1.head?
  pop q := ⟨q.1.tail, q.2.tail⟩
  elems q := (q.1 : Multiset M)
  elems_empty := rfl
  elems_push q m := insertSorted_coe time m q.1
  top_none := by
    rintro ⟨l, hl⟩
    simp
  top_min := by
    rintro ⟨l, hl⟩ m h m' hm'
    cases l with
    | nil => simp at h
    | cons a l =>
      simp only [List.head?_cons, Option.some.injEq] at h
      subst h
      rw [List.pairwise_cons] at hl
      rcases List.mem_cons.1 (show m' ∈ a :: l from hm') with rfl | h
      · exact Int.le_refl _
      · exact hl.1 _ h
  elems_pop := by
    rintro ⟨l, hl⟩ m h
    cases l with
    | nil => simp at h
    | cons a l =>
      simp only [List.head?_cons, Option.some.injEq] at h
      subst h
      rfl

end PQueue
end RL
