import Verif.Proofs.SmoothingRun
import Verif.Spec.Audit
/-! # C25: stale messages are dropped -/

namespace RL
variable {C : Core} {P : MQueue C}

open Classical in
/-- Topic and stamp of a message whose arrival changes what is waiting to be fused. -/
noncomputable def acceptedNow (n : Node C P) : Node.Event C → List (String × Int)
  | .sensor topic stamp z => if P.elems (n.sensor topic stamp z).queue ≠ P.elems n.queue then [(topic, stamp)] else []
  | _ => []

/-- The same over a run, in order of arrival. -/
noncomputable def accepted (cfg : Cfg C) : Node C P → List (Node.Event C) → List (String × Int)
  | _, [] => []
  | n, e :: es => acceptedNow n e ++ accepted cfg (n.step cfg e).1 es

/-- Is the event a reset / a `set_pose`? -/
def Node.Event.isReset : Node.Event C → Bool
  | .reset => true
  | _ => false
def Node.Event.isSetPose : Node.Event C → Bool
  | .setPose _ _ _ => true
  | _ => false

/-- What acceptance implies. -/
theorem accepts_imp (n : Node C P) (topic : String) (stamp : Int) (z : Option C.Z)
    (h : P.elems (n.sensor topic stamp z).queue ≠ P.elems n.queue) :
    n.lastSetPose < stamp ∧ (∀ l, n.lastMsg topic = some l → l ≤ stamp) ∧
      (n.sensor topic stamp z).lastMsg topic = some stamp := by
  unfold Node.sensor at h ⊢
  split at h
  · exact absurd rfl h
  · rename_i h1
    dsimp only at h ⊢
    split at h
    · rename_i h2
      refine ⟨by omega, ?_, ?_⟩
      · intro l hl
        rw [hl] at h2
        exact h2
      · rw [if_neg h1, if_pos h2]
        simp
    · exact absurd rfl h

/-- Stamps remembered per topic never decrease, except by a reset. -/
theorem step_lastMsg (cfg : Cfg C) (n : Node C P) (e : Node.Event C) (he : e.isReset = false) (t : String) (l : Int)
    (h : n.lastMsg t = some l) : ∃ l', (n.step cfg e).1.lastMsg t = some l' ∧ l ≤ l' := by
  cases e with
  | sensor topic stamp z =>
    show ∃ l', (n.sensor topic stamp z).lastMsg t = some l' ∧ l ≤ l'
    unfold Node.sensor
    split
    · exact ⟨l, h, Int.le_refl _⟩
    · dsimp only
      split
      · rename_i h2
        by_cases ht : t = topic
        · subst ht
          rw [h] at h2
          exact ⟨stamp, by simp, h2⟩
        · cases z with
          | none => exact ⟨l, by simp [ht, h], Int.le_refl _⟩
          | some z => exact ⟨l, by simp [ht, h, Node.enqueue], Int.le_refl _⟩
      · exact ⟨l, h, Int.le_refl _⟩
  | control c t' =>
    refine ⟨l, ?_, Int.le_refl _⟩
    show (n.control cfg c t').lastMsg t = _
    unfold Node.control
    split <;> exact h
  | setPose _ _ _ => exact ⟨l, h, Int.le_refl _⟩
  | reset => cases he
  | toggle on =>
    refine ⟨l, ?_, Int.le_refl _⟩
    show (n.toggle on).1.lastMsg t = _
    unfold Node.toggle
    split <;> exact h
  | enable => exact ⟨l, h, Int.le_refl _⟩
  | tick a b c =>
    refine ⟨l, ?_, Int.le_refl _⟩
    show (n.periodic cfg a b c).1.lastMsg t = _
    rw [(Node.periodic_inputs cfg n a b c).lastMsg]; exact h

theorem accepted_ge (cfg : Cfg C) (es : List (Node.Event C)) : ∀ (n : Node C P), (∀ e ∈ es, e.isReset = false) →
    ∀ a ∈ accepted cfg n es, ∀ l, n.lastMsg a.1 = some l → l ≤ a.2 := by
  induction es with
  | nil => intro n _ a ha; simp [accepted] at ha
  | cons e es ih =>
    intro n hr a ha l hl
    rw [accepted] at ha
    rcases List.mem_append.1 ha with ha | ha
    · cases e with
      | sensor topic stamp z =>
        simp only [acceptedNow] at ha
        split at ha
        · rename_i hacc
          simp only [List.mem_singleton] at ha
          subst ha
          exact (accepts_imp n topic stamp z hacc).2.1 l hl
        · simp at ha
      | _ => simp [acceptedNow] at ha
    · obtain ⟨l', hl', hle⟩ := step_lastMsg cfg n e (hr e (by simp)) a.1 l hl
      exact Int.le_trans hle (ih _ (fun e he => hr e (List.mem_cons_of_mem _ he)) a ha l' hl')

/-- C25.  In any run without a reset (from any state, through cycles, `set_pose`, toggling, control messages), the
stamps accepted from one topic never decrease. -/
theorem C25_accepted_stamps_never_decrease (cfg : Cfg C) (es : List (Node.Event C)) (hr : ∀ e ∈ es, e.isReset = false)
    (n : Node C P) : (accepted cfg n es).Pairwise (fun a b => a.1 = b.1 → a.2 ≤ b.2) := by
  induction es generalizing n with
  | nil => simp [accepted]
  | cons e es ih =>
    have hr' : ∀ e ∈ es, e.isReset = false := fun e he => hr e (List.mem_cons_of_mem _ he)
    rw [accepted, List.pairwise_append]
    refine ⟨?_, ih hr' _, ?_⟩
    · cases e with
      | sensor topic stamp z => simp only [acceptedNow]; split <;> simp
      | _ => simp [acceptedNow]
    · intro a ha b hb hab
      cases e with
      | sensor topic stamp z =>
        simp only [acceptedNow] at ha
        split at ha
        · rename_i hacc
          simp only [List.mem_singleton] at ha
          subst ha
          refine accepted_ge cfg es _ hr' b hb stamp ?_
          rw [← hab]
          exact (accepts_imp n topic stamp z hacc).2.2
        · simp at ha
      | _ => simp [acceptedNow] at ha

/-- C25.  After a `set_pose`, and until the next `set_pose` or reset, only messages stamped after it are accepted. -/
theorem C25_nothing_at_or_before_set_pose (cfg : Cfg C) (n : Node C P) (stamp now : Int) (r : Option (C.X × C.Cov))
    (es : List (Node.Event C)) (hr : ∀ e ∈ es, e.isReset = false) (hs : ∀ e ∈ es, e.isSetPose = false) :
    ∀ a ∈ accepted cfg (n.setPose stamp now r) es, stamp < a.2 := by
  have key : ∀ (es : List (Node.Event C)), (∀ e ∈ es, e.isReset = false) → (∀ e ∈ es, e.isSetPose = false) →
      ∀ n : Node C P, ∀ a ∈ accepted cfg n es, n.lastSetPose < a.2 := by
    intro es
    induction es with
    | nil => intro _ _ n a ha; simp [accepted] at ha
    | cons e es ih =>
      intro hr hs n a ha
      rw [accepted] at ha
      rcases List.mem_append.1 ha with ha | ha
      · cases e with
        | sensor topic stamp z =>
          simp only [acceptedNow] at ha
          split at ha
          · rename_i hacc
            simp only [List.mem_singleton] at ha
            subst ha
            exact (accepts_imp n topic stamp z hacc).1
          · simp at ha
        | _ => simp [acceptedNow] at ha
      · have h := ih (fun e he => hr e (List.mem_cons_of_mem _ he)) (fun e he => hs e (List.mem_cons_of_mem _ he)) _ a ha
        have hk : (n.step cfg e).1.lastSetPose = n.lastSetPose := by
          cases e with
          | sensor topic stamp z => exact (n.sensor_spec topic stamp z []).2.2.2.1
          | control c t =>
            show (n.control cfg c t).lastSetPose = _
            unfold Node.control
            split <;> rfl
          | setPose a b c => exact absurd (hs _ List.mem_cons_self) (by simp [Node.Event.isSetPose])
          | reset => exact absurd (hr _ List.mem_cons_self) (by simp [Node.Event.isReset])
          | toggle on =>
            show (n.toggle on).1.lastSetPose = _
            unfold Node.toggle
            split <;> rfl
          | enable => rfl
          | tick a b c => exact (Node.periodic_inputs cfg n a b c).lastSetPose
        rw [hk] at h
        exact h
  exact key es hr hs (n.setPose stamp now r)

/-- C25, the other direction: a transformable message newer than the last `set_pose` and not older than the previous
message of its topic is accepted, unchanged, and its stamp is remembered. -/
theorem C25_fresh_messages_are_kept (n : Node C P) (topic : String) (stamp : Int) (z : C.Z)
    (h1 : n.lastSetPose < stamp) (h2 : ∀ l, n.lastMsg topic = some l → l ≤ stamp) :
    P.elems (n.sensor topic stamp (some z)).queue =
      ⟨stamp, topic, z, n.ctl, n.ctlTime⟩ ::ₘ P.elems n.queue ∧
    (n.sensor topic stamp (some z)).lastMsg topic = some stamp := by
  have hn : ¬ n.lastSetPose ≥ stamp := by omega
  have hl : (n.lastMsg topic).getD stamp ≤ stamp := by
    cases h : n.lastMsg topic with
    | none => exact Int.le_refl _
    | some l => exact h2 l h
  constructor
  · simp only [Node.sensor, hn, hl, if_true, if_false, Node.enqueue, P.elems_push]
  · simp [Node.sensor, hn, hl]

/-- Stamps 10, 20, 15 from one topic and 12 from another: 15 is refused. After `set_pose` at 30, 30 is refused. -/
example :
    let cfg := auditCfg false 0 1000
    let es : List (Node.Event Audit) := [.sensor "a" 10 (some (1 : Int)), .sensor "a" 20 (some (2 : Int)),
      .sensor "a" 15 (some (3 : Int)), .sensor "b" 12 (some (4 : Int))]
    (∀ e ∈ es, e.isReset = false) ∧
    AuditQ.size ((auditNode cfg).run cfg es).1.queue = 3 ∧
    AuditQ.size ((auditNode cfg).run cfg (es ++ [.setPose 30 40 none, .sensor "b" 30 (some (5 : Int))])).1.queue = 0 ∧
    AuditQ.size ((auditNode cfg).run cfg (es ++ [.setPose 30 40 none, .sensor "b" 31 (some (5 : Int))])).1.queue = 1 := by
  refine ⟨?_, rfl, rfl, rfl⟩
  simp [Node.Event.isReset]

end RL
