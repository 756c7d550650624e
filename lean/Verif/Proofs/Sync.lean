import Verif.Model.Sync
/-! # Lemmas about the synchroniser -/

namespace RL.Sync
variable {A B : Type}

/-- The stamps are in order. -/
def Sorted (m : Tuples A B) : Prop := m.Pairwise fun x y => x.1 < y.1

/-- What is kept for a stamp. -/
def old (m : Tuples A B) (t : Int) : Option A × Option B := (m.lookup t).getD (none, none)

theorem lookup_none_of_lt (m : Tuples A B) (t : Int) (h : ∀ e ∈ m, t < e.1) : m.lookup t = none := by
  rw [List.lookup_eq_none_iff]
  intro p hp
  have := h p hp
  simp; omega

theorem mem_put (f : Option A × Option B → Option A × Option B) (t : Int) :
    ∀ (m : Tuples A B), Sorted m → ∀ x, x ∈ put f t m ↔ (x ∈ m ∧ x.1 ≠ t) ∨ x = (t, f (old m t)) := by
  intro m
  induction m with
  | nil => intro _ x; simp [put, old]
  | cons e r ih =>
    intro hs x
    obtain ⟨h1, h2⟩ := List.pairwise_cons.1 hs
    unfold put
    by_cases c1 : t < e.1
    · rw [if_pos c1]
      have : old (e :: r) t = (none, none) := by
        unfold old
        rw [lookup_none_of_lt]
        · rfl
        · intro y hy
          rcases List.mem_cons.1 hy with rfl | hy
          · exact c1
          · have := h1 y hy; omega
      rw [this]
      constructor
      · intro hx
        rcases List.mem_cons.1 hx with rfl | hx
        · exact .inr rfl
        · refine .inl ⟨hx, ?_⟩
          rcases List.mem_cons.1 hx with rfl | hx
          · omega
          · have := h1 x hx; omega
      · rintro (⟨hx, _⟩ | rfl)
        · exact List.mem_cons_of_mem _ hx
        · exact List.mem_cons_self
    rw [if_neg c1]
    by_cases c2 : t = e.1
    · rw [if_pos c2]
      have : old (e :: r) t = e.2 := by
        unfold old
        obtain ⟨e1, e2⟩ := e
        simp only at c2
        subst c2
        simp [List.lookup]
      rw [this]
      constructor
      · intro hx
        rcases List.mem_cons.1 hx with rfl | hx
        · exact .inr rfl
        · refine .inl ⟨List.mem_cons_of_mem _ hx, ?_⟩
          have := h1 x hx; omega
      · rintro (⟨hx, hn⟩ | rfl)
        · rcases List.mem_cons.1 hx with rfl | hx
          · exact absurd c2.symm hn
          · exact List.mem_cons_of_mem _ hx
        · exact List.mem_cons_self
    rw [if_neg c2]
    have : old (e :: r) t = old r t := by
      unfold old
      obtain ⟨e1, e2⟩ := e
      have : (t == e1) = false := by simpa using c2
      simp [List.lookup, this]
    rw [List.mem_cons, ih h2, this, List.mem_cons]
    constructor
    · rintro (rfl | ⟨hx, hn⟩ | rfl)
      · exact .inl ⟨.inl rfl, fun h => c2 h.symm⟩
      · exact .inl ⟨.inr hx, hn⟩
      · exact .inr rfl
    · rintro (⟨rfl | hx, hn⟩ | rfl)
      · exact .inl rfl
      · exact .inr (.inl ⟨hx, hn⟩)
      · exact .inr (.inr rfl)

theorem sorted_put (f : Option A × Option B → Option A × Option B) (t : Int) :
    ∀ (m : Tuples A B), Sorted m → Sorted (put f t m) := by
  intro m
  induction m with
  | nil => intro _; exact List.pairwise_singleton _ _
  | cons e r ih =>
    intro hs
    obtain ⟨h1, h2⟩ := List.pairwise_cons.1 hs
    unfold put
    by_cases c1 : t < e.1
    · rw [if_pos c1]
      refine List.pairwise_cons.2 ⟨?_, hs⟩
      intro y hy
      rcases List.mem_cons.1 hy with rfl | hy
      · exact c1
      · have := h1 y hy; simp only; omega
    rw [if_neg c1]
    by_cases c2 : t = e.1
    · rw [if_pos c2]
      refine List.pairwise_cons.2 ⟨fun y hy => ?_, h2⟩
      have := h1 y hy; simp only; omega
    rw [if_neg c2]
    refine List.pairwise_cons.2 ⟨fun y hy => ?_, ih h2⟩
    rcases (mem_put f t r h2 y).1 hy with ⟨hy, _⟩ | rfl
    · exact h1 y hy
    · simp only; omega

theorem sorted_unique {m : Tuples A B} (hs : Sorted m) {x y : Int × Option A × Option B} (hx : x ∈ m) (hy : y ∈ m)
    (h : x.1 = y.1) : x = y := by
  induction m with
  | nil => cases hx
  | cons e r ih =>
    obtain ⟨h1, h2⟩ := List.pairwise_cons.1 hs
    rcases List.mem_cons.1 hx with ex | hx' <;> rcases List.mem_cons.1 hy with ey | hy'
    · rw [ex, ey]
    · have := h1 y hy'; rw [← ex] at this; omega
    · have := h1 x hx'; rw [← ey] at this; omega
    · exact ih h2 hx' hy'

theorem lookup_of_mem {m : Tuples A B} (hs : Sorted m) {t : Int} {v : Option A × Option B} (h : (t, v) ∈ m) :
    m.lookup t = some v := by
  induction m with
  | nil => cases h
  | cons e r ih =>
    obtain ⟨h1, h2⟩ := List.pairwise_cons.1 hs
    rcases List.mem_cons.1 h with he | h'
    · rw [← he]; simp [List.lookup]
    · have := h1 _ h'
      obtain ⟨e1, e2⟩ := e
      have c : (t == e1) = false := by simp at this ⊢; omega
      simp [List.lookup, c, ih h2 h']

theorem mem_of_lookup {m : Tuples A B} {t : Int} {v : Option A × Option B} (h : m.lookup t = some v) : (t, v) ∈ m := by
  induction m with
  | nil => simp at h
  | cons e r ih =>
    obtain ⟨e1, e2⟩ := e
    by_cases c : t = e1
    · subst c
      simp [List.lookup] at h
      rw [h]; exact List.mem_cons_self
    · have c' : (t == e1) = false := by simpa using c
      simp only [List.lookup, c'] at h
      exact List.mem_cons_of_mem _ (ih h)

theorem lookup_put (f : Option A × Option B → Option A × Option B) (t : Int) (m : Tuples A B) (hs : Sorted m) :
    (put f t m).lookup t = some (f (old m t)) :=
  lookup_of_mem (sorted_put f t m hs) ((mem_put f t m hs _).2 (.inr rfl))

/-- The entries after a stamp. -/
theorem mem_after {m : Tuples A B} (hs : Sorted m) (t : Int) (x : Int × Option A × Option B) :
    x ∈ (m.filter fun e => decide (e.1 ≠ t)).dropWhile (fun e => decide (e.1 ≤ t)) ↔ x ∈ m ∧ t < x.1 := by
  induction m with
  | nil => simp
  | cons e r ih =>
    obtain ⟨h1, h2⟩ := List.pairwise_cons.1 hs
    by_cases c1 : e.1 ≤ t
    · have step : ((e :: r).filter fun e => decide (e.1 ≠ t)).dropWhile (fun e => decide (e.1 ≤ t)) =
          (r.filter fun e => decide (e.1 ≠ t)).dropWhile (fun e => decide (e.1 ≤ t)) := by
        by_cases c2 : e.1 = t
        · simp [c2]
        · simp [c2, c1]
      rw [step, ih h2, List.mem_cons]
      constructor
      · rintro ⟨h, h'⟩; exact ⟨.inr h, h'⟩
      · rintro ⟨rfl | h, h'⟩
        · omega
        · exact ⟨h, h'⟩
    · have c2 : ¬ e.1 = t := by omega
      have all : ∀ y ∈ e :: r, t < y.1 := by
        intro y hy
        rcases List.mem_cons.1 hy with rfl | hy
        · omega
        · have := h1 y hy; omega
      have hf : (e :: r).filter (fun e => decide (e.1 ≠ t)) = e :: r := by
        rw [List.filter_eq_self]
        intro y hy
        have := all y hy
        simp; omega
      rw [hf, List.dropWhile_cons_of_neg (by simpa using c1)]
      exact ⟨fun h => ⟨h, all x h⟩, fun h => h.1⟩

theorem sorted_after {m : Tuples A B} (hs : Sorted m) (t : Int) :
    Sorted ((m.filter fun e => decide (e.1 ≠ t)).dropWhile fun e => decide (e.1 ≤ t)) :=
  List.Pairwise.sublist ((List.dropWhile_sublist _).trans List.filter_sublist) hs

/-- Dropping the oldest does not touch an entry with few entries from it on. -/
theorem mem_trim {m : Tuples A B} (hs : Sorted m) (size : ℕ) {x : Int × Option A × Option B} (hx : x ∈ m)
    (hn : (m.filter fun e => decide (x.1 ≤ e.1)).length ≤ size) : x ∈ m.drop (m.length - size) := by
  obtain ⟨pre, post, rfl⟩ := List.append_of_mem hx
  have hp : (pre ++ x :: post).filter (fun e => decide (x.1 ≤ e.1)) = x :: post := by
    obtain ⟨_, h2, h3⟩ := List.pairwise_append.1 hs
    rw [List.filter_append, List.filter_eq_nil_iff.2, List.nil_append, List.filter_eq_self]
    · intro y hy
      rcases List.mem_cons.1 hy with rfl | hy
      · simp
      · have := (List.pairwise_cons.1 h2).1 y hy; simp; omega
    · intro y hy
      have := h3 y hy x List.mem_cons_self
      simp; omega
  rw [hp] at hn
  rw [List.drop_append_of_le_length (by simp at hn ⊢; omega)]
  simp

theorem mem_of_trim {m : Tuples A B} {n : ℕ} {x : Int × Option A × Option B} (h : x ∈ m.drop n) : x ∈ m :=
  List.mem_of_mem_drop h

/-- The other topic first. -/
def swap (m : Tuples A B) : Tuples B A := m.map fun e => (e.1, e.2.2, e.2.1)

theorem mem_swap {m : Tuples A B} {t : Int} {a : Option A} {b : Option B} : (t, b, a) ∈ swap m ↔ (t, a, b) ∈ m := by
  unfold swap
  rw [List.mem_map]
  constructor
  · rintro ⟨⟨t', a', b'⟩, h, e⟩
    simp only [Prod.mk.injEq] at e
    obtain ⟨rfl, rfl, rfl⟩ := e
    exact h
  · intro h
    exact ⟨_, h, rfl⟩

theorem swap_swap (m : Tuples A B) : swap (swap m) = m := by
  unfold swap
  rw [List.map_map]
  exact List.map_id _

theorem put_swap (f : Option A × Option B → Option A × Option B) (t : Int) (m : Tuples A B) :
    put (fun v => (f v.swap).swap) t (swap m) = swap (put f t m) := by
  induction m with
  | nil => rfl
  | cons e r ih =>
    unfold swap at ih ⊢
    rw [List.map_cons]
    unfold put
    by_cases c1 : t < e.1
    · simp only [c1, if_true]; rfl
    · by_cases c2 : t = e.1
      · simp only [c1, if_false, c2, if_true]; simp; rfl
      · simp only [c1, if_false, c2, ih]; rfl

theorem lookup_swap (m : Tuples A B) (t : Int) : (swap m).lookup t = (m.lookup t).map Prod.swap := by
  induction m with
  | nil => rfl
  | cons e r ih =>
    obtain ⟨e1, e2⟩ := e
    unfold swap at ih ⊢
    rw [List.map_cons]
    by_cases c : (t == e1) = true
    · simp [List.lookup, c]; rfl
    · simp only [Bool.not_eq_true] at c
      simp [List.lookup, c, ih]

theorem check_swap (size : ℕ) (t : Int) (m : Tuples A B) :
    check size t (swap m) = (swap (check size t m).1, (check size t m).2.map Prod.swap) := by
  have hd : ∀ (n : ℕ) (l : Tuples A B), (swap l).drop (n) = swap (l.drop n) := by
    intro n l; unfold swap; rw [List.map_drop]
  have hl : ∀ (l : Tuples A B), (swap l).length = l.length := fun l => List.length_map _
  have hf : (swap m).filter (fun e => decide (e.1 ≠ t)) = swap (m.filter fun e => decide (e.1 ≠ t)) := by
    unfold swap; rw [List.filter_map]; rfl
  have hw : ∀ l : Tuples A B, (swap l).dropWhile (fun e => decide (e.1 ≤ t)) = swap (l.dropWhile fun e => decide (e.1 ≤ t)) := by
    intro l; unfold swap; rw [List.dropWhile_map]; rfl
  unfold check
  rw [lookup_swap]
  rcases h : m.lookup t with _ | ⟨_ | a, _ | b⟩ 
  · simp only [Option.map_none, hd, hl]; rfl
  · simp only [Option.map_some, Prod.swap, hd, hl]; rfl
  · simp only [Option.map_some, Prod.swap, hd, hl]; rfl
  · simp only [Option.map_some, Prod.swap, hd, hl]; rfl
  · simp only [Option.map_some, Prod.swap, hd, hl, hf, hw]; rfl

theorem addSnd_swap (size : ℕ) (t : Int) (b : B) (m : Tuples A B) :
    addFst size t b (swap m) = (swap (addSnd size t b m).1, (addSnd size t b m).2.map Prod.swap) := by
  unfold addFst addSnd
  rw [← check_swap, ← put_swap]
  rfl

/-- The messages of one topic that are newer than all of the other. -/
def ahead (sa : A → Int) (sb : B → Int) (os : List A) (as : List B) : List A :=
  os.filter fun o => decide (∀ a ∈ as, sb a < sa o)

/-- The synchroniser after messages `os` and `as`, with the pairs `out` passed on. -/
structure Inv (size : ℕ) (sa : A → Int) (sb : B → Int) (os : List A) (as : List B) (m : Tuples A B) (out : List (A × B)) :
    Prop where
  sorted : Sorted m
  short : m.length ≤ size
  half : ∀ e ∈ m, (∃ o ∈ os, e = (sa o, some o, none)) ∨ ∃ a ∈ as, e = (sb a, none, some a)
  fst : ∀ o ∈ os, (∀ a ∈ as, sb a < sa o) → (sa o, some o, none) ∈ m
  snd : ∀ a ∈ as, (∀ o ∈ os, sa o < sb a) → (sb a, none, some a) ∈ m
  pairs : ∀ o a, (o, a) ∈ out ↔ o ∈ os ∧ a ∈ as ∧ sa o = sb a
  order : out.Pairwise fun p q => sa p.1 < sa q.1

theorem Inv.swap {size : ℕ} {sa : A → Int} {sb : B → Int} {os : List A} {as : List B} {m : Tuples A B} {out : List (A × B)}
    (h : Inv size sa sb os as m out) : Inv size sb sa as os (Sync.swap m) (out.map Prod.swap) := by
  refine ⟨?_, ?_, ?_, ?_, ?_, ?_, ?_⟩
  · unfold Sorted Sync.swap
    rw [List.pairwise_map]
    exact h.sorted
  · unfold Sync.swap; rw [List.length_map]; exact h.short
  · rintro ⟨t, b, a⟩ he
    rcases h.half _ (mem_swap.1 he) with ⟨o, ho, e⟩ | ⟨o, ho, e⟩
    · simp only [Prod.mk.injEq] at e
      obtain ⟨rfl, rfl, rfl⟩ := e
      exact .inr ⟨o, ho, rfl⟩
    · simp only [Prod.mk.injEq] at e
      obtain ⟨rfl, rfl, rfl⟩ := e
      exact .inl ⟨o, ho, rfl⟩
  · intro a ha hh
    exact mem_swap.2 (h.snd a ha hh)
  · intro o ho hh
    exact mem_swap.2 (h.fst o ho hh)
  · intro a o
    rw [List.mem_map]
    constructor
    · rintro ⟨⟨o', a'⟩, hp, e⟩
      simp only [Prod.swap, Prod.mk.injEq] at e
      obtain ⟨rfl, rfl⟩ := e
      obtain ⟨h1, h2, h3⟩ := (h.pairs _ _).1 hp
      exact ⟨h2, h1, h3.symm⟩
    · rintro ⟨h1, h2, h3⟩
      exact ⟨(o, a), (h.pairs _ _).2 ⟨h2, h1, h3.symm⟩, rfl⟩
  · rw [List.pairwise_map]
    refine List.Pairwise.imp_of_mem ?_ h.order
    rintro ⟨o, a⟩ ⟨o', a'⟩ hp hq hlt
    have e1 := ((h.pairs _ _).1 hp).2.2
    have e2 := ((h.pairs _ _).1 hq).2.2
    simp only [Prod.swap] at hlt ⊢
    omega

theorem Inv.step {size : ℕ} {sa : A → Int} {sb : B → Int} {os : List A} {as : List B} {m : Tuples A B} {out : List (A × B)}
    (h : Inv size sa sb os as m out) (o : A) (hnew : ∀ o' ∈ os, sa o' < sa o) (has : as.Pairwise fun a b => sb a < sb b)
    (hlag : (ahead sa sb (os ++ [o]) as).length ≤ size) :
    Inv size sa sb (os ++ [o]) as (addFst size (sa o) o m).1 (out ++ (addFst size (sa o) o m).2) := by
  have hinj : ∀ a ∈ as, ∀ b ∈ as, sb a = sb b → a = b := by
    intro a ha b hb hab
    obtain ⟨i, hi, rfl⟩ := List.getElem_of_mem ha
    obtain ⟨j, hj, rfl⟩ := List.getElem_of_mem hb
    rw [List.pairwise_iff_getElem] at has
    rcases Nat.lt_trichotomy i j with c | c | c
    · have := has i j hi hj c; omega
    · subst c; rfl
    · have := has j i hj hi c; omega
  obtain ⟨m', hm'⟩ : ∃ m', m' = put (fun v => (some o, v.2)) (sa o) m := ⟨_, rfl⟩
  have hs' : Sorted m' := by rw [hm']; exact sorted_put _ _ _ h.sorted
  have hmem : ∀ x, x ∈ m' ↔ (x ∈ m ∧ x.1 ≠ sa o) ∨ x = (sa o, some o, (old m (sa o)).2) := by
    intro x; rw [hm']; exact mem_put _ _ _ h.sorted x
  have hlook : m'.lookup (sa o) = some (some o, (old m (sa o)).2) := by rw [hm']; exact lookup_put _ _ _ h.sorted
  have hadd : addFst size (sa o) o m = check size (sa o) m' := by rw [hm']; rfl
  rw [hadd]
  have mo : ∀ {y}, y ∈ os ++ [o] → y ∈ os ∨ y = o := by
    intro y hy
    rcases List.mem_append.1 hy with hy | hy
    · exact .inl hy
    · exact .inr (List.mem_singleton.1 hy)
  have om : o ∈ os ++ [o] := by simp
  have sub : ∀ {y}, y ∈ os → y ∈ os ++ [o] := fun hy => List.mem_append_left _ hy
  by_cases hx : ∃ a ∈ as, sb a = sa o
  · obtain ⟨a, ha, hab⟩ := hx
    have he : (sb a, none, some a) ∈ m := h.snd a ha fun o' ho' => by have := hnew o' ho'; omega
    have hold : old m (sa o) = (none, some a) := by
      unfold old
      rw [← hab, lookup_of_mem h.sorted he]; rfl
    rw [hold] at hlook hmem
    obtain ⟨r, hr⟩ : ∃ r, r = (m'.filter fun e => decide (e.1 ≠ sa o)).dropWhile fun e => decide (e.1 ≤ sa o) := ⟨_, rfl⟩
    have hrm : ∀ x, x ∈ r ↔ x ∈ m ∧ sa o < x.1 := by
      intro x
      rw [hr, mem_after hs', hmem]
      constructor
      · rintro ⟨⟨h1, _⟩ | rfl, h2⟩
        · exact ⟨h1, h2⟩
        · simp at h2
      · rintro ⟨h1, h2⟩
        exact ⟨.inl ⟨h1, by omega⟩, h2⟩
    have hrs : Sorted r := by rw [hr]; exact sorted_after hs' _
    have hrl : r.length ≤ size := by
      refine Nat.le_trans ?_ h.short
      refine (List.subperm_of_subset ?_ ?_).length_le
      · exact List.Pairwise.imp (fun hlt => fun e => by rw [e] at hlt; omega) hrs
      · intro x hx; exact ((hrm x).1 hx).1
    have hck : check size (sa o) m' = (r, [(o, a)]) := by
      unfold check
      rw [hlook]
      simp only [← hr]
      rw [Nat.sub_eq_zero_of_le hrl, List.drop_zero]
    rw [hck]
    refine ⟨hrs, hrl, ?_, ?_, ?_, ?_, ?_⟩
    · intro e he'
      rcases h.half e ((hrm e).1 he').1 with ⟨o', ho', e'⟩ | hh
      · exact .inl ⟨o', sub ho', e'⟩
      · exact .inr hh
    · intro o' ho' hh
      have := hh a ha
      rcases mo ho' with h1 | rfl
      · have := hnew o' h1; omega
      · omega
    · intro a' ha' hh
      refine (hrm _).2 ⟨h.snd a' ha' fun o' ho' => hh o' (sub ho'), hh o om⟩
    · intro o1 a1
      rw [List.mem_append, h.pairs, List.mem_singleton, Prod.mk.injEq]
      constructor
      · rintro (⟨h1, h2, h3⟩ | ⟨rfl, rfl⟩)
        · exact ⟨sub h1, h2, h3⟩
        · exact ⟨om, ha, hab.symm⟩
      · rintro ⟨h1, h2, h3⟩
        rcases mo h1 with h1 | rfl
        · exact .inl ⟨h1, h2, h3⟩
        · exact .inr ⟨rfl, hinj a1 h2 a ha (by omega)⟩
    · refine List.pairwise_append.2 ⟨h.order, List.pairwise_singleton _ _, ?_⟩
      rintro ⟨o1, a1⟩ hp q hq
      rw [List.mem_singleton] at hq
      subst hq
      exact hnew o1 ((h.pairs _ _).1 hp).1
  · have hno : ∀ a ∈ as, sb a ≠ sa o := fun a ha e => hx ⟨a, ha, e⟩
    have hfresh : ∀ x ∈ m, x.1 ≠ sa o := by
      intro x hxm
      rcases h.half x hxm with ⟨o', ho', rfl⟩ | ⟨a, ha, rfl⟩
      · have := hnew o' ho'; simp only; omega
      · exact hno a ha
    have hold : old m (sa o) = (none, none) := by
      unfold old
      rcases hl : m.lookup (sa o) with _ | v
      · rfl
      · exact absurd rfl (hfresh _ (mem_of_lookup hl))
    rw [hold] at hlook hmem
    have hmem' : ∀ x, x ∈ m' ↔ x ∈ m ∨ x = (sa o, some o, none) := by
      intro x
      rw [hmem]
      constructor
      · rintro (⟨h1, _⟩ | h1)
        · exact .inl h1
        · exact .inr h1
      · rintro (h1 | h1)
        · exact .inl ⟨h1, hfresh x h1⟩
        · exact .inr h1
    have hck : check size (sa o) m' = (m'.drop (m'.length - size), []) := by
      unfold check
      rw [hlook]
    rw [hck, List.append_nil]
    have hhalf : ∀ e ∈ m', (∃ o' ∈ os ++ [o], e = (sa o', some o', none)) ∨ ∃ a ∈ as, e = (sb a, none, some a) := by
      intro e he
      rcases (hmem' e).1 he with he | rfl
      · rcases h.half e he with ⟨o', ho', e'⟩ | hh
        · exact .inl ⟨o', sub ho', e'⟩
        · exact .inr hh
      · exact .inl ⟨o, om, rfl⟩
    refine ⟨List.Pairwise.sublist (List.drop_sublist _ _) hs', by rw [List.length_drop]; omega, ?_, ?_, ?_, ?_, h.order⟩
    · intro e he
      exact hhalf e (mem_of_trim he)
    · intro o' ho' hh
      refine mem_trim hs' size ((hmem' _).2 ?_) ?_
      · rcases mo ho' with h1 | rfl
        · exact .inl (h.fst o' h1 hh)
        · exact .inr rfl
      · refine Nat.le_trans ?_ hlag
        have : ((m'.filter fun e => decide (sa o' ≤ e.1)).map Prod.fst).Subperm ((ahead sa sb (os ++ [o]) as).map sa) := by
          apply List.subperm_of_subset
          · have : ((m'.filter fun e => decide (sa o' ≤ e.1)).map Prod.fst).Pairwise (· < ·) := by
              rw [List.pairwise_map]
              exact List.Pairwise.sublist List.filter_sublist hs'
            exact List.Pairwise.imp (fun hlt => by omega) this
          · intro t ht
            obtain ⟨e, he, rfl⟩ := List.mem_map.1 ht
            obtain ⟨he1, he2⟩ := List.mem_filter.1 he
            have he2 : sa o' ≤ e.1 := by simpa using he2
            rcases hhalf e he1 with ⟨o2, ho2, rfl⟩ | ⟨a, ha, rfl⟩
            · refine List.mem_map.2 ⟨o2, List.mem_filter.2 ⟨ho2, ?_⟩, rfl⟩
              simp only [decide_eq_true_eq]
              intro a ha
              have := hh a ha
              simp only at he2
              omega
            · have := hh a ha
              simp only at he2
              omega
        have := this.length_le
        rw [List.length_map, List.length_map] at this
        exact this
    · intro a ha hh
      have hb : sa o < sb a := hh o om
      have hin : (sb a, none, some a) ∈ m := h.snd a ha fun o' ho' => hh o' (sub ho')
      refine mem_trim hs' size ((hmem' _).2 (.inl hin)) ?_
      refine Nat.le_trans ?_ h.short
      refine (List.subperm_of_subset ?_ ?_).length_le
      · exact List.Pairwise.imp (fun hlt => fun e => by rw [e] at hlt; omega)
          (List.Pairwise.sublist List.filter_sublist hs')
      · intro x hx
        obtain ⟨h1, h2⟩ := List.mem_filter.1 hx
        rcases (hmem' x).1 h1 with h1 | rfl
        · exact h1
        · simp at h2; omega
    · intro o1 a1
      rw [h.pairs]
      constructor
      · rintro ⟨h1, h2, h3⟩
        exact ⟨sub h1, h2, h3⟩
      · rintro ⟨h1, h2, h3⟩
        rcases mo h1 with h1 | rfl
        · exact ⟨h1, h2, h3⟩
        · exact absurd h3.symm (hno a1 h2)

end RL.Sync
