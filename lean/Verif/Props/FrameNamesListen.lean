import Verif.Model.Listener
import Verif.Props.FrameNames
/-! # C145 for the listener -/

namespace RL.Listen

def Listener.renamed (r : Renaming) (l : Listener) : Listener := { l with base := r.nm l.base, world := r.nm l.world }

def pair (r : Renaming) (x : String × String) : String × String := (r.nm x.1, r.nm x.2)

/-- The tree of frames, under the new names. -/
def Frames.renamed (r : Renaming) (t : Frames) : Frames := t.map (pair r)

def Cache.renamed (r : Renaming) (c : Cache) : Cache := { anc := c.anc.map (pair r), desc := c.desc.map (pair r) }

variable (r : Renaming)

theorem pair_inj (x y : String × String) (h : pair r x = pair r y) : x = y := by
  have h1 := congrArg Prod.fst h
  have h2 := congrArg Prod.snd h
  exact Prod.ext (r.inj _ _ h1) (r.inj _ _ h2)

theorem pair_mem (x : String × String) (l : List (String × String)) : pair r x ∈ l.map (pair r) ↔ x ∈ l := by
  constructor
  · intro h
    obtain ⟨y, hy, e⟩ := List.mem_map.1 h
    exact pair_inj r y x e ▸ hy
  · exact fun h => List.mem_map.2 ⟨x, h, rfl⟩

theorem parent_renamed (t : Frames) (f : String) : Frames.parent (Frames.renamed r t) (r.nm f) = r.nm (Frames.parent t f) := by
  unfold Frames.parent Frames.renamed
  induction t with
  | nil => exact r.empty.symm
  | cons x t ih =>
    obtain ⟨a, b⟩ := x
    simp only [List.map_cons, pair, List.lookup_cons]
    by_cases h : f = a
    · subst h
      simp
    · have h1 : (f == a) = false := by simpa using h
      have h2 : (r.nm f == r.nm a) = false := by simpa [r.eq_iff] using h
      rw [h1, h2]
      exact ih

theorem findRec_renamed (t : Frames) (n : ℕ) (a b : String) :
    findRec (Frames.renamed r t) n (r.nm a) (r.nm b) = findRec t n a b := by
  induction n generalizing a with
  | zero => rfl
  | succ n ih =>
    unfold findRec
    simp only [parent_renamed, r.eq_iff, r.empty_iff, ih]

theorem findAncestor_renamed (n : ℕ) (t : Frames) (c : Cache) (a b : String) :
    findAncestor n (Frames.renamed r t) (c.renamed r) (r.nm a) (r.nm b) =
      (findAncestor n t c a b).map fun x => (x.1, x.2.renamed r) := by
  unfold findAncestor
  have h1 : ((r.nm a, r.nm b) ∈ (c.renamed r).anc) = ((a, b) ∈ c.anc) := propext (pair_mem r (a, b) c.anc)
  have h2 : ((r.nm a, r.nm b) ∈ (c.renamed r).desc) = ((a, b) ∈ c.desc) := propext (pair_mem r (a, b) c.desc)
  simp only [h1, h2, findRec_renamed]
  by_cases k1 : (a, b) ∈ c.anc
  · rw [if_pos k1, if_pos k1]; rfl
  · rw [if_neg k1, if_neg k1]
    by_cases k2 : (a, b) ∈ c.desc
    · rw [if_pos k2, if_pos k2]; rfl
    · rw [if_neg k2, if_neg k2]
      cases findRec t n a b with
      | none => rfl
      | some x =>
        cases findRec t n b a with
        | none => rfl
        | some y =>
          simp only [Option.map_some]
          refine congrArg (fun z => some (x, z)) ?_
          cases x <;> cases y <;> simp [Cache.renamed, pair]

theorem callback_renamed (l : Listener) (o : OdomMsg) (a : AccelMsg) :
    (l.renamed r).callback (o.renamed r) (a.renamed r) = (l.callback o a).renamed r := by
  unfold Listener.callback Listener.renamed
  simp only [r.empty_iff]
  by_cases h1 : l.base = "" <;> by_cases h2 : l.world = "" <;>
    simp only [h1, h2, if_true, if_false] <;> rfl

theorem getState_renamed (l : Listener) (ext : Full → ℝ → Full) {b b' : TfBuffer} (hb : TfBuffer.Renamed r b b') (t : Frames)
    (n : ℕ) (c : Cache) (time : ℝ) (frame world : String) :
    (l.renamed r).getState ext b' (Frames.renamed r t) n (c.renamed r) time (r.nm frame) (r.nm world) =
      ((l.getState ext b t n c time frame world).1, (l.getState ext b t n c time frame world).2.renamed r) := by
  unfold Listener.getState
  have e1 : ((l.renamed r).base = "") = (l.base = "") := propext (r.empty_iff _)
  have e2 : ((l.renamed r).world = "") = (l.world = "") := propext (r.empty_iff _)
  simp only [e1, e2]
  by_cases h0 : l.base = "" ∨ l.world = ""
  · rw [if_pos h0, if_pos h0]
  · rw [if_neg h0, if_neg h0]
    have hw : (if r.nm world = "" then (l.renamed r).world else r.nm world) = r.nm (if world = "" then l.world else world) := by
      simp only [r.empty_iff]
      by_cases h : world = ""
      · rw [if_pos h, if_pos h]; rfl
      · rw [if_neg h, if_neg h]
    rw [hw]
    generalize (if world = "" then l.world else world) = wf
    have e3 : (r.nm frame = (l.renamed r).base) = (frame = l.base) := propext (r.eq_iff _ _)
    have e4 : (r.nm wf = (l.renamed r).world) = (wf = l.world) := propext (r.eq_iff _ _)
    have e5 : ∀ ns, b' (l.renamed r).base (r.nm frame) ns = b l.base frame ns := fun ns => hb _ _ _
    have e6 : ∀ ns, b' (r.nm wf) (l.renamed r).world ns = b wf l.world ns := fun ns => hb _ _ _
    have e7 : ∀ c x, findAncestor n (Frames.renamed r t) (Cache.renamed r c) (r.nm x) (l.renamed r).base =
        (findAncestor n t c x l.base).map fun x => (x.1, x.2.renamed r) := fun c x => findAncestor_renamed r n t c x l.base
    simp only [e3, e4, e5, e6, e7]
    by_cases h1 : frame = l.base ∧ wf = l.world
    · rw [if_pos h1, if_pos h1]; rfl
    · rw [if_neg h1, if_neg h1]
      by_cases h2 : wf = l.world
      · rw [if_pos h2, if_pos h2]
        cases lookupNs time with
        | none => rfl
        | some ns =>
          dsimp only
          cases b l.base frame ns with
          | none => rfl
          | some mount =>
            dsimp only
            cases findAncestor n t c frame l.base with
            | none => rfl
            | some x =>
              obtain ⟨f, c1⟩ := x
              cases f <;> rfl
      · rw [if_neg h2, if_neg h2]
        cases lookupNs time with
        | none => rfl
        | some ns =>
          dsimp only
          cases b wf l.world ns with
          | none => rfl
          | some w =>
            dsimp only
            cases findAncestor n t c wf l.base with
            | none => rfl
            | some x =>
              obtain ⟨f, c1⟩ := x
              cases f with
              | true => rfl
              | false =>
                simp only [Option.map_some, e7]
                cases b l.base frame ns with
                | none => rfl
                | some mount =>
                  dsimp only
                  cases findAncestor n t c1 frame l.base with
                  | none => rfl
                  | some y =>
                    obtain ⟨f, c2⟩ := y
                    cases f <;> rfl

/-- What may happen to a listener: a pair of messages or a query. -/
inductive Act where
  | hear (o : OdomMsg) (a : AccelMsg)
  | ask (buf : TfBuffer) (tree : Frames) (time : ℝ) (frame world : String)

/-- The answers of a listener, in order. -/
noncomputable def heardAnswers (ext : Full → ℝ → Full) (depth : ℕ) : Listener → Cache → List Act → List Answer
  | _, _, [] => []
  | l, c, .hear o a :: as => heardAnswers ext depth (l.callback o a) c as
  | l, c, .ask b t time f w :: as =>
    let x := l.getState ext b t depth c time f w
    x.1 :: heardAnswers ext depth l x.2 as

inductive Act.Renamed : Act → Act → Prop
  | hear (o a) : Renamed (.hear o a) (.hear (o.renamed r) (a.renamed r))
  | ask (b b' t time f w) : TfBuffer.Renamed r b b' → Renamed (.ask b t time f w) (.ask b' (Frames.renamed r t) time (r.nm f) (r.nm w))

/-- **C145** for the listener: with the frames renamed in the messages, the transforms, the tree and the queries, all answers
are the same, from the start and whatever was heard and asked before. -/
theorem C145_listener (ext : Full → ℝ → Full) (depth size : ℕ) {as as' : List Act} (h : List.Forall₂ (Act.Renamed r) as as') :
    heardAnswers ext depth (Listener.new size) { anc := [], desc := [] } as' =
      heardAnswers ext depth (Listener.new size) { anc := [], desc := [] } as := by
  have key : ∀ (l : Listener) (c : Cache), heardAnswers ext depth (l.renamed r) (c.renamed r) as' = heardAnswers ext depth l c as := by
    induction h with
    | nil => exact fun _ _ => rfl
    | cons he _ ih =>
      intro l c
      cases he with
      | hear o a =>
        simp only [heardAnswers]
        rw [callback_renamed, ih]
      | ask b b' t time f w hb =>
        simp only [heardAnswers]
        rw [getState_renamed r l ext hb, ih]
  have h0 := key (Listener.new size) { anc := [], desc := [] }
  rwa [show (Listener.new size).renamed r = Listener.new size from congrArg₂ (fun a b => Listener.mk a b _) r.empty r.empty] at h0

/-- A query about a camera on the second robot is answered as on the first. -/
example (ext : Full → ℝ → Full) (o : OdomMsg) (a : AccelMsg) (b b' : TfBuffer) (t : Frames)
    (hb : TfBuffer.Renamed (robotNames "robot1") b b') :
    heardAnswers ext 10 (Listener.new 5) { anc := [], desc := [] }
        [.hear (o.renamed (robotNames "robot1")) (a.renamed (robotNames "robot1")),
         .ask b' (Frames.renamed (robotNames "robot1") t) 1 "robot1/camera" ""] =
      heardAnswers ext 10 (Listener.new 5) { anc := [], desc := [] } [.hear o a, .ask b t 1 "camera" ""] :=
  C145_listener (robotNames "robot1") ext 10 5
    (.cons (.hear o a) (.cons (by
      have := Act.Renamed.ask (r := robotNames "robot1") b b' t 1 "camera" "" hb
      rwa [show (robotNames "robot1").nm "camera" = "robot1/camera" by decide,
        show (robotNames "robot1").nm "" = "" from rfl] at this) .nil))

end RL.Listen
