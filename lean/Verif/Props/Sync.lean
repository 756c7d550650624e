import Verif.Proofs.Sync
import Verif.Props.Listener
import Verif.Props.Publication
/-!
# C112: the listener hears the estimates the node publishes
-/

namespace RL
open Sync Listen

/-! ## Any arrivals -/

/-- The messages of the first topic among arrivals, in their order. -/
def odomsIn (es : List Arrival) : List OdomMsg := es.filterMap fun | .odom o => some o | _ => none

/-- The messages of the second topic. -/
def accelsIn (es : List Arrival) : List AccelMsg := es.filterMap fun | .accel a => some a | _ => none

theorem odomsIn_append (a b : List Arrival) : odomsIn (a ++ b) = odomsIn a ++ odomsIn b := List.filterMap_append
theorem accelsIn_append (a b : List Arrival) : accelsIn (a ++ b) = accelsIn a ++ accelsIn b := List.filterMap_append

theorem arriveAll_snoc (es : List Arrival) (e : Arrival) (m : Tuples OdomMsg AccelMsg) :
    arriveAll m (es ++ [e]) =
      ((arrive (arriveAll m es).1 e).1, (arriveAll m es).2 ++ (arrive (arriveAll m es).1 e).2) := by
  induction es generalizing m with
  | nil => simp [arriveAll]
  | cons x es ih => simp [arriveAll, ih, List.append_assoc]

/-- What is kept has arrived, under its own stamp. -/
def Kept (es : List Arrival) (m : Tuples OdomMsg AccelMsg) : Prop :=
  Sorted m ∧ ∀ e ∈ m, (∀ o, e.2.1 = some o → o ∈ odomsIn es ∧ o.stamp = e.1) ∧
    (∀ a, e.2.2 = some a → a ∈ accelsIn es ∧ a.stamp = e.1)

theorem kept_put {es : List Arrival} {m : Tuples OdomMsg AccelMsg} (h : Kept es m) (e : Arrival)
    (f : Option OdomMsg × Option AccelMsg → Option OdomMsg × Option AccelMsg) (t : Int)
    (hf1 : ∀ v o, (f v).1 = some o → v.1 = some o ∨ (o ∈ odomsIn (es ++ [e]) ∧ o.stamp = t))
    (hf2 : ∀ v a, (f v).2 = some a → v.2 = some a ∨ (a ∈ accelsIn (es ++ [e]) ∧ a.stamp = t)) :
    Kept (es ++ [e]) (Sync.put f t m) := by
  refine ⟨sorted_put _ _ _ h.1, ?_⟩
  intro x hx
  have up : ∀ y ∈ m, (∀ o, y.2.1 = some o → o ∈ odomsIn (es ++ [e]) ∧ o.stamp = y.1) ∧
      (∀ a, y.2.2 = some a → a ∈ accelsIn (es ++ [e]) ∧ a.stamp = y.1) := by
    intro y hy
    obtain ⟨h1, h2⟩ := h.2 y hy
    rw [odomsIn_append, accelsIn_append]
    exact ⟨fun o ho => ⟨List.mem_append_left _ (h1 o ho).1, (h1 o ho).2⟩,
      fun a ha => ⟨List.mem_append_left _ (h2 a ha).1, (h2 a ha).2⟩⟩
  rcases (mem_put f t m h.1 x).1 hx with ⟨hx, _⟩ | rfl
  · exact up x hx
  · have hold : (∀ o, (old m t).1 = some o → o ∈ odomsIn (es ++ [e]) ∧ o.stamp = t) ∧
        (∀ a, (old m t).2 = some a → a ∈ accelsIn (es ++ [e]) ∧ a.stamp = t) := by
      unfold old
      rcases hl : m.lookup t with _ | v
      · simp
      · exact up _ (Sync.mem_of_lookup hl)
    refine ⟨fun o ho => ?_, fun a ha => ?_⟩
    · rcases hf1 _ o ho with h | h
      · exact hold.1 o h
      · exact h
    · rcases hf2 _ a ha with h | h
      · exact hold.2 a h
      · exact h

theorem kept_check {es : List Arrival} {m : Tuples OdomMsg AccelMsg} (h : Kept es m) (size : ℕ) (t : Int) :
    Kept es (Sync.check size t m).1 ∧
      ∀ p ∈ (Sync.check size t m).2, p.1 ∈ odomsIn es ∧ p.2 ∈ accelsIn es ∧ p.1.stamp = p.2.stamp := by
  have sub : ∀ m' : Tuples OdomMsg AccelMsg, m'.Sublist m → Kept es m' := fun m' hm =>
    ⟨List.Pairwise.sublist hm h.1, fun e he => h.2 e (hm.subset he)⟩
  unfold Sync.check
  rcases hl : m.lookup t with _ | ⟨_ | o, _ | a⟩
  · exact ⟨sub _ (List.drop_sublist _ _), by simp⟩
  · exact ⟨sub _ (List.drop_sublist _ _), by simp⟩
  · exact ⟨sub _ (List.drop_sublist _ _), by simp⟩
  · exact ⟨sub _ (List.drop_sublist _ _), by simp⟩
  · refine ⟨sub _ ((List.drop_sublist _ _).trans ((List.dropWhile_sublist _).trans List.filter_sublist)), ?_⟩
    intro p hp
    simp only [List.mem_singleton] at hp
    subst hp
    obtain ⟨h1, h2⟩ := h.2 _ (Sync.mem_of_lookup hl)
    obtain ⟨a1, a2⟩ := h1 o rfl
    obtain ⟨b1, b2⟩ := h2 a rfl
    exact ⟨a1, b1, a2.trans b2.symm⟩

/-- C112: whatever arrives, in whatever order: the listener combines an odometry message with an acceleration of exactly
its stamp, both of which have arrived. -/
theorem C112_same_stamp (es : List Arrival) (p : OdomMsg × AccelMsg) (hp : p ∈ calls es) :
    p.1 ∈ odomsIn es ∧ p.2 ∈ accelsIn es ∧ p.1.stamp = p.2.stamp := by
  suffices key : Kept es (arriveAll [] es).1 ∧
      ∀ p ∈ (arriveAll [] es).2, p.1 ∈ odomsIn es ∧ p.2 ∈ accelsIn es ∧ p.1.stamp = p.2.stamp from key.2 p hp
  clear hp p
  induction es using List.reverseRecOn with
  | nil => exact ⟨⟨List.Pairwise.nil, by simp [arriveAll]⟩, by simp [arriveAll]⟩
  | append_singleton es e ih =>
    obtain ⟨k, hk⟩ := ih
    rw [arriveAll_snoc]
    have step : Kept (es ++ [e]) (arrive (arriveAll [] es).1 e).1 ∧
        ∀ p ∈ (arrive (arriveAll [] es).1 e).2, p.1 ∈ odomsIn (es ++ [e]) ∧ p.2 ∈ accelsIn (es ++ [e]) ∧ p.1.stamp = p.2.stamp := by
      cases e with
      | odom o =>
        refine kept_check (kept_put k _ _ _ ?_ ?_) _ _
        · intro v o' ho'
          simp only [Option.some.injEq] at ho'
          subst ho'
          exact .inr ⟨by rw [odomsIn_append]; simp [odomsIn], rfl⟩
        · intro v a ha; exact .inl ha
      | accel a =>
        refine kept_check (kept_put k _ _ _ ?_ ?_) _ _
        · intro v o ho; exact .inl ho
        · intro v a' ha'
          simp only [Option.some.injEq] at ha'
          subst ha'
          exact .inr ⟨by rw [accelsIn_append]; simp [accelsIn], rfl⟩
    refine ⟨step.1, fun p hp => ?_⟩
    rcases List.mem_append.1 hp with hp | hp
    · obtain ⟨h1, h2, h3⟩ := hk p hp
      rw [odomsIn_append, accelsIn_append]
      exact ⟨List.mem_append_left _ h1, List.mem_append_left _ h2, h3⟩
    · exact step.2 p hp

/-! ## Topics in order -/

/-- Neither topic runs more than ten messages ahead of the other, at any time. -/
def Abreast (es : List Arrival) : Prop :=
  ∀ p q, es = p ++ q →
    ((odomsIn p).filter fun o => decide (∀ a ∈ accelsIn p, a.stamp < o.stamp)).length ≤ 10 ∧
    ((accelsIn p).filter fun a => decide (∀ o ∈ odomsIn p, o.stamp < a.stamp)).length ≤ 10

theorem calls_inv (es : List Arrival) (ho : (odomsIn es).Pairwise fun a b => a.stamp < b.stamp)
    (ha : (accelsIn es).Pairwise fun a b => a.stamp < b.stamp) (hl : Abreast es) :
    Inv queueSize OdomMsg.stamp AccelMsg.stamp (odomsIn es) (accelsIn es) (arriveAll [] es).1 (arriveAll [] es).2 := by
  induction es using List.reverseRecOn with
  | nil =>
    refine ⟨List.Pairwise.nil, by simp [arriveAll], ?_, ?_, ?_, ?_, List.Pairwise.nil⟩ <;>
      simp [arriveAll, odomsIn, accelsIn]
  | append_singleton es e ih =>
    have ih := ih
      (by rw [odomsIn_append] at ho; exact (List.pairwise_append.1 ho).1)
      (by rw [accelsIn_append] at ha; exact (List.pairwise_append.1 ha).1)
      (fun p q h => hl p (q ++ [e]) (by rw [h, List.append_assoc]))
    have hl' := hl (es ++ [e]) [] (by simp)
    rw [arriveAll_snoc]
    cases e with
    | odom o =>
      have e1 : odomsIn (es ++ [.odom o]) = odomsIn es ++ [o] := by rw [odomsIn_append]; rfl
      have e2 : accelsIn (es ++ [.odom o]) = accelsIn es := by rw [accelsIn_append]; simp [accelsIn]
      rw [e1] at ho hl' ⊢
      rw [e2] at ha hl' ⊢
      exact ih.step o (fun o' ho' => (List.pairwise_append.1 ho).2.2 o' ho' o (by simp)) ha hl'.1
    | accel a =>
      have e1 : odomsIn (es ++ [.accel a]) = odomsIn es := by rw [odomsIn_append]; simp [odomsIn]
      have e2 : accelsIn (es ++ [.accel a]) = accelsIn es ++ [a] := by rw [accelsIn_append]; rfl
      rw [e1] at ho hl' ⊢
      rw [e2] at ha hl' ⊢
      have s := (ih.swap).step a (fun a' ha' => (List.pairwise_append.1 ha).2.2 a' ha' a (by simp)) ho hl'.2
      rw [addSnd_swap] at s
      have s' := s.swap
      rw [swap_swap, List.map_append, List.map_map, List.map_map] at s'
      have hid : ∀ l : List (OdomMsg × AccelMsg), l.map (Prod.swap ∘ Prod.swap) = l := by
        intro l
        rw [show (Prod.swap ∘ Prod.swap : OdomMsg × AccelMsg → _) = id from funext fun p => by simp]
        exact List.map_id _
      rw [hid, hid] at s'
      exact s'

/-- C112, partial: on topics that keep the order of the stamps, some messages of which may be lost, and neither of which
runs more than ten messages ahead: the listener is called with exactly the odometry messages whose acceleration of the
same stamp arrives too, each once, in order.  Missing: repeated stamps (`C112_mixed`) and longer delays (`C112_late`). -/
theorem C112_exactly_partial (es : List Arrival) (ho : (odomsIn es).Pairwise fun a b => a.stamp < b.stamp)
    (ha : (accelsIn es).Pairwise fun a b => a.stamp < b.stamp) (hl : Abreast es) :
    (∀ o a, (o, a) ∈ calls es ↔ o ∈ odomsIn es ∧ a ∈ accelsIn es ∧ o.stamp = a.stamp) ∧
    (calls es).Pairwise fun p q => p.1.stamp < q.1.stamp :=
  ⟨(calls_inv es ho ha hl).pairs, (calls_inv es ho ha hl).order⟩

/-- Two strictly ordered lists with the same members are the same. -/
theorem ordered_ext {α : Type} (s : α → Int) : ∀ (l k : List α), (l.Pairwise fun a b => s a < s b) →
    (k.Pairwise fun a b => s a < s b) → (∀ x, x ∈ l ↔ x ∈ k) → l = k := by
  intro l
  induction l with
  | nil =>
    intro k _ _ h
    cases k with
    | nil => rfl
    | cons y k => have := (h y).2 List.mem_cons_self; simp at this
  | cons x l ih =>
    intro k hl hk h
    cases k with
    | nil => have := (h x).1 List.mem_cons_self; simp at this
    | cons y k =>
      obtain ⟨l1, l2⟩ := List.pairwise_cons.1 hl
      obtain ⟨k1, k2⟩ := List.pairwise_cons.1 hk
      have hxy : x = y := by
        rcases List.mem_cons.1 ((h x).1 List.mem_cons_self) with e | e
        · exact e
        rcases List.mem_cons.1 ((h y).2 List.mem_cons_self) with e' | e'
        · exact e'.symm
        · have := k1 x e; have := l1 y e'; omega
      subst hxy
      congr 1
      refine ih k l2 k2 fun z => ?_
      constructor
      · intro hz
        rcases List.mem_cons.1 ((h z).1 (List.mem_cons_of_mem _ hz)) with e | e
        · have := l1 z hz; rw [e] at this; omega
        · exact e
      · intro hz
        rcases List.mem_cons.1 ((h z).2 (List.mem_cons_of_mem _ hz)) with e | e
        · have := k1 z hz; rw [e] at this; omega
        · exact e

/-- C112, partial: when nothing is lost the listener is called with the estimates as they were published. -/
theorem C112_all_partial (ps : List MsgPair) (hst : ∀ p ∈ ps, p.1.stamp = p.2.stamp)
    (hord : ps.Pairwise fun p q => p.1.stamp < q.1.stamp) (es : List Arrival)
    (ho : odomsIn es = ps.map Prod.fst) (ha : accelsIn es = ps.map Prod.snd) (hl : Abreast es) (size : ℕ) :
    calls es = ps ∧ listener size es = heard size ps := by
  have hord' : ps.Pairwise fun p q => p.2.stamp < q.2.stamp := by
    refine List.Pairwise.imp_of_mem ?_ hord
    intro p q hp hq h
    have := hst p hp; have := hst q hq
    omega
  have h := C112_exactly_partial es (by rw [ho, List.pairwise_map]; exact hord)
    (by rw [ha, List.pairwise_map]; exact hord') hl
  have hc : calls es = ps := by
    refine ordered_ext (fun p : MsgPair => p.1.stamp) _ _ h.2 hord ?_
    rintro ⟨o, a⟩
    rw [h.1, ho, ha]
    constructor
    · rintro ⟨h1, h2, h3⟩
      obtain ⟨p, hp, rfl⟩ := List.mem_map.1 h1
      obtain ⟨q, hq, rfl⟩ := List.mem_map.1 h2
      have hpq : p.1.stamp = q.1.stamp := h3.trans (hst q hq).symm
      obtain ⟨i, hi, rfl⟩ := List.getElem_of_mem hp
      obtain ⟨j, hj, rfl⟩ := List.getElem_of_mem hq
      rw [List.pairwise_iff_getElem] at hord
      rcases Nat.lt_trichotomy i j with c | c | c
      · have := hord i j hi hj c; omega
      · subst c; exact hp
      · have := hord j i hj hi c; omega
    · intro hp
      exact ⟨List.mem_map.2 ⟨_, hp, rfl⟩, List.mem_map.2 ⟨_, hp, rfl⟩, hst _ hp⟩
  exact ⟨hc, by unfold listener; rw [hc]; rfl⟩

/-- The two messages of each estimate arrive next to each other. -/
def together (ps : List MsgPair) : List Arrival := ps.flatMap fun p => [.odom p.1, .accel p.2]

/-- C112: estimates whose two messages arrive next to each other are all heard, even when stamps repeat or go back. -/
theorem C112_together (ps : List MsgPair) (hst : ∀ p ∈ ps, p.1.stamp = p.2.stamp) : calls (together ps) = ps := by
  unfold calls
  induction ps with
  | nil => rfl
  | cons p ps ih =>
    have hp := hst p List.mem_cons_self
    have e1 : arrive [] (.odom p.1) = ([(p.1.stamp, some p.1, none)], []) := by
      simp [arrive, addFst, Sync.put, Sync.check, List.lookup, queueSize]
    have e2 : arrive [(p.1.stamp, some p.1, none)] (.accel p.2) = ([], [p]) := by
      simp [arrive, addSnd, Sync.put, Sync.check, List.lookup, hp]
    have e3 : together (p :: ps) = .odom p.1 :: .accel p.2 :: together ps := rfl
    rw [e3]
    simp only [arriveAll, e1, e2]
    rw [ih fun q hq => hst q (List.mem_cons_of_mem _ hq)]
    rfl

/-! ## What the node sends -/

variable {C : Core} {P : MQueue C}

/-- The stamps of the accelerations among what was sent. -/
def accelStamps (o : List (Out C)) : List Int := o.filterMap (fun | .accel s => some s | _ => none)

theorem run_both (cfg : Cfg C) (h : ∀ (n : Node C P) tfOk, accelStamps (n.publish cfg tfOk).2 =
      if cfg.publishAccel then odomStamps (n.publish cfg tfOk).2 else []) (es : List (Node.Event C)) (n : Node C P) :
    accelStamps (n.run cfg es).2 = if cfg.publishAccel then odomStamps (n.run cfg es).2 else [] := by
  induction es generalizing n with
  | nil => simp [Node.run, accelStamps, odomStamps]
  | cons e es ih =>
    have hs : accelStamps (n.step cfg e).2 = if cfg.publishAccel then odomStamps (n.step cfg e).2 else [] := by
      cases e with
      | tick now now2 tfOk =>
        show accelStamps (n.periodic cfg now now2 tfOk).2 = if _ then odomStamps (n.periodic cfg now now2 tfOk).2 else _
        unfold Node.periodic
        by_cases he : (!n.enabled) = true
        · rw [if_pos he]; simp [accelStamps, odomStamps]
        · rw [if_neg he]; exact h _ _
      | _ => simp [Node.step, accelStamps, odomStamps]
    show accelStamps ((n.step cfg e).2 ++ ((n.step cfg e).1.run cfg es).2) =
      if _ then odomStamps ((n.step cfg e).2 ++ ((n.step cfg e).1.run cfg es).2) else _
    have ha : ∀ a b : List (Out C), accelStamps (a ++ b) = accelStamps a ++ accelStamps b := fun _ _ => List.filterMap_append
    rw [ha, odomStamps_append, hs, ih]
    split <;> simp

/-- C112: a node that publishes accelerations sends one with every odometry message, under the same stamp, and no others;
a node that does not never sends one. -/
theorem C112_stamps (cfg : Cfg C) (es : List (Node.Event C)) (n : Node C P) :
    accelStamps (n.run cfg es).2 = if cfg.publishAccel then odomStamps (n.run cfg es).2 else [] := by
  refine run_both cfg ?_ es n
  intro n tfOk
  unfold Node.publish
  by_cases hi : n.filt.initialized = true
  · simp only [hi, if_true]
    cases (!cfg.permitCorrected && decide (n.lastPub ≥ n.filt.lastTime)) <;> cases cfg.publishAccel <;>
      cases cfg.publishTf <;> cases tfOk <;> simp [accelStamps, odomStamps]
  · simp [hi, accelStamps, odomStamps]

/-- C112, partial: a node without smoothing and resets, under a clock that does not go back, that publishes accelerations:
a listener whose two topics bring what the node sent, each in order and neither more than ten messages ahead, is called
with every estimate, once, in order, with its own acceleration. -/
theorem C112_node_partial (cfg : Cfg C) (hs : cfg.smooth = false) (hp : cfg.permitCorrected = false)
    (hacc : cfg.publishAccel = true) (ext0 : C.Ext) (fctl0 : C.Ctl) (k : Int) (evs : List (Node.Event C))
    (hclk : Clocked k evs) (hr : ∀ e ∈ evs, e.isReset = false)
    (os : List OdomMsg) (as : List AccelMsg)
    (hos : os.map (·.stamp) = odomStamps ((Node.start cfg P ext0 fctl0 k).run cfg evs).2)
    (has : as.map (·.stamp) = accelStamps ((Node.start cfg P ext0 fctl0 k).run cfg evs).2)
    (es : List Arrival) (ho : odomsIn es = os) (ha : accelsIn es = as) (hl : Abreast es) :
    calls es = os.zip as ∧ (os.zip as).map Prod.fst = os ∧ (os.zip as).map Prod.snd = as := by
  have hst := C112_stamps cfg evs (Node.start cfg P ext0 fctl0 k)
  rw [if_pos hacc] at hst
  rw [hst] at has
  have hinc := C30_stamps_increase_partial (P := P) cfg hs hp ext0 fctl0 k evs hclk hr
  rw [← hos] at hinc has
  have hlen : as.length = os.length := by
    have := congrArg List.length has
    simpa using this
  have z1 : (os.zip as).map Prod.fst = os := List.map_fst_zip (by omega)
  have z2 : (os.zip as).map Prod.snd = as := List.map_snd_zip (by omega)
  refine ⟨?_, z1, z2⟩
  refine (C112_all_partial (os.zip as) ?_ ?_ es (ho.trans z1.symm) (ha.trans z2.symm) hl 0).1
  · intro p hp
    obtain ⟨i, hi, rfl⟩ := List.getElem_of_mem hp
    rw [List.getElem_zip]
    have hi' : i < os.length := by simp at hi; omega
    have := congrArg (fun l => l[i]?) has
    simp only [List.getElem?_map] at this
    rw [List.getElem?_eq_getElem (by omega), List.getElem?_eq_getElem hi'] at this
    simp only [Option.map_some, Option.some.injEq] at this
    exact this.symm
  · have : ((os.zip as).map Prod.fst).Pairwise fun a b => a.stamp < b.stamp := by
      rw [z1]
      exact List.pairwise_map.1 hinc
    rwa [List.pairwise_map] at this

/-! ## Where it fails -/

/-- C112: without accelerations on the second topic the listener is never called, and every query fails, whatever the
node publishes.  `publish_acceleration` is off unless it is set. -/
theorem C112_deaf (es : List Arrival) (hno : accelsIn es = []) (size : ℕ) (ext : Full → ℝ → Full) (tf : TfBuffer)
    (tree : Listen.Frames) (depth : ℕ) (c : Cache) (time : ℝ) (frame world : String) :
    calls es = [] ∧ (listener size es).getState ext tf tree depth c time frame world = (.no, c) := by
  have h : calls es = [] := by
    rw [List.eq_nil_iff_forall_not_mem]
    intro p hp
    have := (C112_same_stamp es p hp).2.1
    rw [hno] at this
    cases this
  refine ⟨h, ?_⟩
  unfold listener
  rw [h]
  simp [Listener.getState, Listener.new]

/-- C112, refuted: a node that may publish the same stamp again (`permit_corrected_publication`) sends the estimate at 10
twice; the second odometry message overtakes the first acceleration, and the listener combines the position of the second
estimate with the acceleration of the first. -/
theorem C112_mixed : ∃ (first second : MsgPair),
    first.1.stamp = 10 ∧ first.2.stamp = 10 ∧ second.1.stamp = 10 ∧ second.2.stamp = 10 ∧
    (second.1.pos 0 ≠ first.1.pos 0) ∧ (second.2.lin 0 ≠ first.2.lin 0) ∧
    calls [.odom first.1, .odom second.1, .accel first.2, .accel second.2] = [(second.1, first.2)] := by
  refine ⟨((msgAt 10 1).1, { (msgAt 10 1).2 with lin := ![1, 0, 0] }),
    ((msgAt 10 2).1, { (msgAt 10 2).2 with lin := ![2, 0, 0] }), rfl, rfl, rfl, rfl, ?_, ?_, ?_⟩
  · simp [msgAt]
  · simp
  · simp [calls, arriveAll, arrive, addFst, addSnd, Sync.put, Sync.check, List.lookup, queueSize, msgAt]

/-- C112, refuted: when the accelerations are eleven estimates late the listener misses the first. -/
theorem C112_late :
    let ps : List MsgPair := (List.range 11).map fun (i : ℕ) => msgAt i 0
    (ps.Pairwise fun p q => p.1.stamp < q.1.stamp) ∧ (∀ p ∈ ps, p.1.stamp = p.2.stamp) ∧
    calls (ps.map (fun p => .odom p.1) ++ ps.map (fun p => .accel p.2)) = ps.drop 1 := by
  refine ⟨?_, ?_, ?_⟩
  · simp [List.range, List.range.loop, msgAt]
  · simp [List.range, List.range.loop, msgAt]
  · simp [List.range, List.range.loop, calls, arriveAll, arrive, addFst, addSnd, Sync.put, Sync.check, List.lookup, queueSize, msgAt]

/-- C112, refuted: a filter node and a listener do not meet, in whatever namespaces they run, unless the names are
remapped. -/
theorem C112_names (ns ns' : String) : ∀ a ∈ nodeTopics, ∀ b ∈ listenerTopics, resolve ns a ≠ resolve ns' b := by
  have key : ∀ (a b : List Char) (l : List Char), l.length ≤ a.length → l.length ≤ b.length →
      a.drop (a.length - l.length) ≠ b.drop (b.length - l.length) → ∀ x y : List Char, x ++ a ≠ y ++ b := by
    intro a b l ha hb hne x y h
    apply hne
    have d : ∀ u w : List Char, l.length ≤ w.length → (u ++ w).drop ((u ++ w).length - l.length) = w.drop (w.length - l.length) := by
      intro u w hw
      have e : (u ++ w).length - l.length = u.length + (w.length - l.length) := by simp; omega
      rw [e, List.drop_append, List.drop_eq_nil_of_le (by omega)]
      simp
    rw [← d x a ha, ← d y b hb, h]
  intro a ha b hb h
  have h' := congrArg String.toList h
  unfold resolve at h'
  simp only [String.toList_append, List.append_assoc] at h'
  simp only [nodeTopics, List.mem_cons, List.not_mem_nil, or_false] at ha
  simp only [listenerTopics, List.mem_cons, List.not_mem_nil, or_false] at hb
  rcases ha with rfl | rfl <;> rcases hb with rfl | rfl <;>
    exact key _ _ "xxx/filtered".toList (by decide) (by decide) (by decide) _ _ h'

/-- Three estimates; the second acceleration is lost, the first is late. -/
example :
    let es : List Arrival := [.odom (msgAt 10 1).1, .odom (msgAt 20 2).1, .accel (msgAt 10 1).2, .odom (msgAt 30 3).1,
      .accel (msgAt 30 3).2]
    ((odomsIn es).Pairwise fun a b => a.stamp < b.stamp) ∧ ((accelsIn es).Pairwise fun a b => a.stamp < b.stamp) ∧
    Abreast es ∧ calls es = [msgAt 10 1, msgAt 30 3] := by
  refine ⟨by simp [odomsIn, msgAt], by simp [accelsIn, msgAt], ?_, ?_⟩
  · intro p q h
    have h3 : (odomsIn p).length ≤ 3 := by
      have := congrArg (fun l => (odomsIn l).length) h
      simp only [odomsIn_append, List.length_append] at this
      simp [odomsIn] at this ⊢
      omega
    have h2 : (accelsIn p).length ≤ 2 := by
      have := congrArg (fun l => (accelsIn l).length) h
      simp only [accelsIn_append, List.length_append] at this
      simp [accelsIn] at this ⊢
      omega
    exact ⟨(List.length_filter_le _ _).trans (by omega), (List.length_filter_le _ _).trans (by omega)⟩
  · simp [calls, arriveAll, arrive, addFst, addSnd, Sync.put, Sync.check, List.lookup, queueSize, msgAt]

/-- A node that sends three estimates, and a listener that gets the accelerations one estimate late. -/
example :
    let cfg := auditCfg false 0 100
    let evs : List (Node.Event Audit) := [.sensor "a" 10 (some (1 : Int)), .tick 11 11 true, .tick 1000 1000 true,
      .sensor "a" 20 (some (2 : Int)), .tick 1001 1001 true, .sensor "a" 1030 (some (3 : Int)), .tick 1032 1032 true]
    let es : List Arrival := [.odom (msgAt 10 1).1, .odom (msgAt 1000 2).1, .accel (msgAt 10 1).2, .odom (msgAt 1030 3).1,
      .accel (msgAt 1000 2).2, .accel (msgAt 1030 3).2]
    cfg.smooth = false ∧ cfg.permitCorrected = false ∧ cfg.publishAccel = true ∧
    (odomsIn es).map (·.stamp) = odomStamps ((auditNode cfg).run cfg evs).2 ∧
    (accelsIn es).map (·.stamp) = accelStamps ((auditNode cfg).run cfg evs).2 ∧
    calls es = [msgAt 10 1, msgAt 1000 2, msgAt 1030 3] := by
  refine ⟨rfl, rfl, rfl, rfl, rfl, ?_⟩
  simp [calls, arriveAll, arrive, addFst, addSnd, Sync.put, Sync.check, List.lookup, queueSize, msgAt]

end RL
