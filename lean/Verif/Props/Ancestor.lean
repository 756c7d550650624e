import Verif.Proofs.Listener
/-!
# C49: the search for ancestors of frames
-/

namespace RL
open Listen Relation

/-- The parent relation of a list of frames. -/
def IsParent (tree : Listen.Frames) (child parent : String) : Prop := (child, parent) ∈ tree

/-- `b` is reached from `a` by following parents. -/
def Reaches (tree : Listen.Frames) (a b : String) : Prop := ReflTransGen (IsParent tree) a b

/-- A tree (or forest) of frames: every frame has one parent at most, parents have names, there is no cycle. -/
structure IsTree (tree : Listen.Frames) : Prop where
  unique : (tree.map Prod.fst).Nodup
  named : ∀ c p, (c, p) ∈ tree → p ≠ ""
  acyclic : ∀ a, ¬TransGen (IsParent tree) a a

theorem lookup_of_mem {tree : Listen.Frames} (hu : (tree.map Prod.fst).Nodup) {c p : String} (h : (c, p) ∈ tree) :
    tree.lookup c = some p := by
  induction tree with
  | nil => simp at h
  | cons e tree ih =>
    obtain ⟨c', p'⟩ := e
    rw [List.map_cons, List.nodup_cons] at hu
    rcases List.mem_cons.1 h with h' | h'
    · cases h'; simp [List.lookup]
    · have hne : c ≠ c' := by
        rintro rfl
        exact hu.1 (List.mem_map.2 ⟨(c, p), h', rfl⟩)
      rw [List.lookup, show (c == c') = false by simpa using hne]
      exact ih hu.2 h'

theorem mem_of_lookup {tree : Listen.Frames} {c p : String} (h : tree.lookup c = some p) : (c, p) ∈ tree := by
  induction tree with
  | nil => simp [List.lookup] at h
  | cons e tree ih =>
    obtain ⟨c', p'⟩ := e
    rw [List.lookup] at h
    by_cases hc : c = c'
    · subst hc
      simp at h
      rw [h]
      exact List.mem_cons_self
    · rw [show (c == c') = false by simpa using hc] at h
      exact List.mem_cons_of_mem _ (ih h)

/-- The code's parent is the parent, or empty for a frame without. -/
theorem parent_cases (tree : Listen.Frames) (hu : (tree.map Prod.fst).Nodup) (hn : ∀ c p, (c, p) ∈ tree → p ≠ "") (s : String) :
    (tree.parent s = "" ∧ ∀ p, ¬IsParent tree s p) ∨
      (tree.parent s ≠ "" ∧ IsParent tree s (tree.parent s) ∧ ∀ p, IsParent tree s p → p = tree.parent s) := by
  unfold Listen.Frames.parent
  cases hl : tree.lookup s with
  | none =>
    left
    refine ⟨rfl, fun p hp => ?_⟩
    rw [lookup_of_mem hu hp] at hl
    cases hl
  | some p =>
    right
    have hm := mem_of_lookup hl
    refine ⟨hn _ _ hm, hm, fun q hq => ?_⟩
    have := lookup_of_mem hu hq
    rw [hl] at this
    cases this
    rfl

theorem reaches_step {tree : Listen.Frames} {s t p : String} (hne : s ≠ t) (hp : IsParent tree s p)
    (hq : ∀ q, IsParent tree s q → q = p) : Reaches tree s t ↔ Reaches tree p t := by
  constructor
  · intro h
    rcases ReflTransGen.cases_head h with h | ⟨c, h1, h2⟩
    · exact absurd h hne
    · rwa [hq c h1] at h2
  · exact fun h => ReflTransGen.head hp h

/-- C49: in every finite tree of frames the search ends (with no more nested calls than there are frames with a parent,
plus one) and says that a frame is an ancestor exactly when it is reached by following parents. -/
theorem C49_search {tree : Listen.Frames} (h : IsTree tree) {depth : ℕ} (hd : tree.length < depth) (s t : String) :
    ∃ b, findRec tree depth s t = some b ∧ (b = true ↔ Reaches tree s t) := by
  have key : ∀ (depth : ℕ) (s : String) (v : List String), v.Nodup → (∀ x ∈ v, x ∈ tree.map Prod.fst) →
      (∀ x ∈ v, TransGen (IsParent tree) x s) → tree.length < v.length + depth →
      ∃ b, findRec tree depth s t = some b ∧ (b = true ↔ Reaches tree s t) := by
    intro depth
    induction depth with
    | zero =>
      intro s v hv hk _ hl
      have := (hv.subperm hk).length_le
      rw [List.length_map] at this
      omega
    | succ depth ih =>
      intro s v hv hk ht hl
      unfold findRec
      by_cases hst : s = t
      · rw [if_pos hst]
        exact ⟨true, rfl, by simp [hst, Reaches, ReflTransGen.refl]⟩
      rw [if_neg hst]
      rcases parent_cases tree h.unique h.named s with ⟨he, hp⟩ | ⟨he, hp, hq⟩
      · rw [if_pos he]
        refine ⟨false, rfl, ?_⟩
        simp only [Bool.false_eq_true, false_iff]
        intro hr
        rcases ReflTransGen.cases_head hr with h' | ⟨c, h1, -⟩
        · exact hst h'
        · exact hp c h1
      · rw [if_neg he]
        have hs : s ∉ v := fun hmem => h.acyclic s (ht s hmem)
        obtain ⟨b, hb, hb'⟩ := ih (tree.parent s) (s :: v) (List.nodup_cons.2 ⟨hs, hv⟩) (by
          intro x hx
          rcases List.mem_cons.1 hx with rfl | hx
          · exact List.mem_map.2 ⟨_, hp, rfl⟩
          · exact hk x hx) (by
          intro x hx
          rcases List.mem_cons.1 hx with rfl | hx
          · exact TransGen.single hp
          · exact (ht x hx).tail hp) (by rw [List.length_cons]; omega)
        exact ⟨b, hb, hb'.trans (reaches_step hst hp hq).symm⟩
  exact key depth s [] List.nodup_nil (by simp) (by simp) (by simpa using hd)

/-- C49: on a cycle of frames the recursion never ends for a frame that is not found, however deep. -/
theorem C49_cycle_never_ends {tree : Listen.Frames} (hu : (tree.map Prod.fst).Nodup) (hn : ∀ c p, (c, p) ∈ tree → p ≠ "")
    (s t : String) (hc : TransGen (IsParent tree) s s) (ht : ¬Reaches tree s t) (depth : ℕ) : findRec tree depth s t = none := by
  induction depth generalizing s with
  | zero => rfl
  | succ depth ih =>
    unfold findRec
    have hst : s ≠ t := by
      rintro rfl
      exact ht ReflTransGen.refl
    rw [if_neg hst]
    obtain ⟨c, h1, h2⟩ := TransGen.head'_iff.1 hc
    rcases parent_cases tree hu hn s with ⟨-, hp⟩ | ⟨he, hp, hq⟩
    · exact absurd h1 (hp c)
    · rw [if_neg he]
      rw [hq c h1] at h2
      exact ih _ (TransGen.tail' h2 hp) fun h => ht (ReflTransGen.head hp h)

/-- A question to `findAncestor`: the tree at that time, the frame and the supposed ancestor. -/
structure Ask where
  tree : Listen.Frames
  source : String
  target : String

/-- The answers to a series of questions. -/
def answers (depth : ℕ) : Cache → List Ask → List (Option Bool)
  | _, [] => []
  | c, q :: qs =>
    match findAncestor depth q.tree c q.source q.target with
    | some (b, c') => some b :: answers depth c' qs
    | none => none :: answers depth c qs

/-- What the cache holds is true in a tree. -/
structure CacheOk (tree : Listen.Frames) (c : Cache) : Prop where
  anc : ∀ s t, (s, t) ∈ c.anc → Reaches tree s t
  desc : ∀ s t, (s, t) ∈ c.desc → Reaches tree t s
  self : ∀ s, (s, s) ∈ c.desc → (s, s) ∈ c.anc

theorem CacheOk.empty (tree : Listen.Frames) : CacheOk tree { anc := [], desc := [] } :=
  ⟨fun _ _ h => by simp at h, fun _ _ h => by simp at h, fun _ h => by simp at h⟩

theorem Reaches.mono {t1 t2 : Listen.Frames} (h : ∀ e ∈ t1, e ∈ t2) {a b : String} (hr : Reaches t1 a b) : Reaches t2 a b :=
  ReflTransGen.mono (fun _ _ hp => h _ hp) _ _ hr

theorem CacheOk.mono {t1 t2 : Listen.Frames} {c : Cache} (h : ∀ e ∈ t1, e ∈ t2) (hc : CacheOk t1 c) : CacheOk t2 c :=
  ⟨fun s t hm => (hc.anc s t hm).mono h, fun s t hm => (hc.desc s t hm).mono h, hc.self⟩

theorem antisymm {tree : Listen.Frames} (h : IsTree tree) {a b : String} (h1 : Reaches tree a b) (h2 : Reaches tree b a) : a = b := by
  rcases reflTransGen_iff_eq_or_transGen.1 h1 with e | e
  · exact e.symm
  · exact absurd (TransGen.trans_left e h2) (h.acyclic a)

/-- One question: the answer is right and the cache stays right. -/
theorem findAncestor_ok {tree : Listen.Frames} (h : IsTree tree) {depth : ℕ} (hd : tree.length < depth) {c : Cache}
    (hc : CacheOk tree c) (s t : String) :
    ∃ b c', findAncestor depth tree c s t = some (b, c') ∧ (b = true ↔ Reaches tree s t) ∧ CacheOk tree c' := by
  unfold findAncestor
  by_cases ha : (s, t) ∈ c.anc
  · rw [if_pos ha]
    exact ⟨true, c, rfl, by simpa using hc.anc s t ha, hc⟩
  rw [if_neg ha]
  by_cases hdm : (s, t) ∈ c.desc
  · rw [if_pos hdm]
    refine ⟨false, c, rfl, ?_, hc⟩
    simp only [Bool.false_eq_true, false_iff]
    intro hr
    have := antisymm h hr (hc.desc s t hdm)
    subst this
    exact ha (hc.self s hdm)
  rw [if_neg hdm]
  obtain ⟨b1, e1, h1⟩ := C49_search h hd s t
  obtain ⟨b2, e2, h2⟩ := C49_search h hd t s
  rw [e1, e2]
  refine ⟨b1, _, rfl, h1, ?_, ?_, ?_⟩
  · intro s' t' hm
    cases b1 with
    | false => exact hc.anc s' t' hm
    | true =>
      rcases List.mem_append.1 hm with hm | hm
      · exact hc.anc s' t' hm
      · simp only [List.mem_singleton, Prod.mk.injEq] at hm
        rw [hm.1, hm.2]
        exact h1.1 rfl
  · intro s' t' hm
    cases b2 with
    | false => exact hc.desc s' t' hm
    | true =>
      rcases List.mem_append.1 hm with hm | hm
      · exact hc.desc s' t' hm
      · simp only [List.mem_singleton, Prod.mk.injEq] at hm
        rw [hm.1, hm.2]
        exact h2.1 rfl
  · intro s' hm
    have old : (s', s') ∈ c.anc → (s', s') ∈ (if b1 = true then c.anc ++ [(s, t)] else c.anc) := by
      intro hx
      split
      · exact List.mem_append_left _ hx
      · exact hx
    cases b2 with
    | false => exact old (hc.self s' hm)
    | true =>
      rcases List.mem_append.1 hm with hm | hm
      · exact old (hc.self s' hm)
      · simp only [List.mem_singleton, Prod.mk.injEq] at hm
        have hst : s = t := hm.1.symm.trans hm.2
        have : b1 = true := h1.2 (by rw [hst]; exact ReflTransGen.refl)
        rw [this, hm.1, ← hst]
        simp

/-- C49, partial: a series of questions gets right answers as long as frames are only added to the tree.  Missing: trees in
which a frame gets another parent (`C49_reparented`). -/
theorem C49_answers_partial (depth : ℕ) (qs : List Ask) (ht : ∀ q ∈ qs, IsTree q.tree ∧ q.tree.length < depth)
    (hg : qs.Pairwise fun a b => ∀ e ∈ a.tree, e ∈ b.tree) :
    List.Forall₂ (fun q ans => ∃ b, ans = some b ∧ (b = true ↔ Reaches q.tree q.source q.target)) qs
      (answers depth { anc := [], desc := [] } qs) := by
  have key : ∀ (qs : List Ask) (c : Cache), (∀ q ∈ qs, IsTree q.tree ∧ q.tree.length < depth) →
      qs.Pairwise (fun a b => ∀ e ∈ a.tree, e ∈ b.tree) → (∀ q ∈ qs, CacheOk q.tree c) →
      List.Forall₂ (fun q ans => ∃ b, ans = some b ∧ (b = true ↔ Reaches q.tree q.source q.target)) qs (answers depth c qs) := by
    intro qs
    induction qs with
    | nil => intro c _ _ _; exact List.Forall₂.nil
    | cons q qs ih =>
      intro c ht hg hc
      have hq := ht q List.mem_cons_self
      obtain ⟨b, c', e, hb, hc'⟩ := findAncestor_ok hq.1 hq.2 (hc q List.mem_cons_self) q.source q.target
      rw [answers, e]
      refine List.Forall₂.cons ⟨b, rfl, hb⟩ (ih c' (fun x hx => ht x (List.mem_cons_of_mem _ hx)) (List.pairwise_cons.1 hg).2 ?_)
      intro x hx
      exact hc'.mono ((List.pairwise_cons.1 hg).1 x hx)
  exact key qs _ ht hg fun q _ => CacheOk.empty q.tree

/-- Whoever asks for a frame and its ancestor once will be told so for ever. -/
theorem C49_remembered (depth : ℕ) (c : Cache) (tree tree' : Listen.Frames) (s t : String) (c' : Cache)
    (h : findAncestor depth tree c s t = some (true, c')) : findAncestor depth tree' c' s t = some (true, c') := by
  have hm : (s, t) ∈ c'.anc := by
    unfold findAncestor at h
    split at h
    · rename_i hm
      simp only [Option.some.injEq, Prod.mk.injEq, true_and] at h
      rwa [← h]
    · split at h
      · simp at h
      · split at h
        · rename_i a b e1 e2
          simp only [Option.some.injEq, Prod.mk.injEq] at h
          rw [← h.2, h.1]
          simp
        · cases h
  rw [findAncestor, if_pos hm]

def treeDemo : Listen.Frames := [("camera", "base"), ("base", "odom"), ("odom", "map")]

theorem treeDemo_tree : IsTree treeDemo := by
  refine ⟨by decide, ?_, ?_⟩
  · intro c p h
    simp only [treeDemo, List.mem_cons, Prod.mk.injEq, List.not_mem_nil, or_false] at h
    rcases h with ⟨-, rfl⟩ | ⟨-, rfl⟩ | ⟨-, rfl⟩ <;> decide
  · -- every step goes up in this ranking
    let rank : String → ℕ := fun s => if s = "camera" then 0 else if s = "base" then 1 else if s = "odom" then 2 else 3
    have step : ∀ a b, IsParent treeDemo a b → rank a < rank b := by
      intro a b h
      simp only [IsParent, treeDemo, List.mem_cons, Prod.mk.injEq, List.not_mem_nil, or_false] at h
      rcases h with ⟨rfl, rfl⟩ | ⟨rfl, rfl⟩ | ⟨rfl, rfl⟩ <;> decide
    have up : ∀ a b, TransGen (IsParent treeDemo) a b → rank a < rank b := by
      intro a b h
      induction h with
      | single h => exact step _ _ h
      | tail _ h ih => exact ih.trans (step _ _ h)
    intro a h
    exact lt_irrefl _ (up a a h)

/-- C49, refuted for trees that change: the camera is taken off the robot and put on the map; the listener still says
that the base is its ancestor. -/
theorem C49_reparented :
    answers 10 { anc := [], desc := [] }
      [⟨treeDemo, "camera", "base"⟩, ⟨[("camera", "map"), ("base", "odom"), ("odom", "map")], "camera", "base"⟩] =
      [some true, some true] ∧
    ¬Reaches [("camera", "map"), ("base", "odom"), ("odom", "map")] "camera" "base" := by
  refine ⟨by decide, fun h => ?_⟩
  rcases ReflTransGen.cases_head h with h | ⟨c, h1, h2⟩
  · exact absurd h (by decide)
  · simp [IsParent] at h1
    subst h1
    rcases ReflTransGen.cases_head h2 with h | ⟨c, h1, -⟩
    · exact absurd h (by decide)
    · simp [IsParent] at h1

example : Reaches treeDemo "camera" "map" :=
  ReflTransGen.head (b := "base") (by simp [IsParent, treeDemo])
    (ReflTransGen.head (b := "odom") (by simp [IsParent, treeDemo]) (ReflTransGen.single (by simp [IsParent, treeDemo])))

example : ∃ b, findRec treeDemo 4 "camera" "map" = some b ∧ (b = true ↔ Reaches treeDemo "camera" "map") :=
  C49_search treeDemo_tree (by decide) _ _

example : TransGen (IsParent [("a", "b"), ("b", "a")]) "a" "a" ∧ ¬Reaches [("a", "b"), ("b", "a")] "a" "c" := by
  refine ⟨TransGen.head (b := "b") (by simp [IsParent]) (TransGen.single (by simp [IsParent])), fun h => ?_⟩
  have key : ∀ x, Reaches [("a", "b"), ("b", "a")] "a" x → x = "a" ∨ x = "b" := by
    intro x h
    induction h with
    | refl => exact Or.inl rfl
    | tail _ h _ =>
      simp [IsParent] at h
      rcases h with ⟨-, h⟩ | ⟨-, h⟩
      · exact Or.inr h
      · exact Or.inl h
  rcases key _ h with h | h <;> exact absurd h (by decide)

/-- A tree that grows. -/
example : ([⟨[("camera", "base")], "camera", "base"⟩, ⟨treeDemo, "map", "camera"⟩, ⟨treeDemo, "camera", "map"⟩] : List Ask).Pairwise
    fun a b => ∀ e ∈ a.tree, e ∈ b.tree := by
  simp [treeDemo]

end RL
