import Verif.Proofs.Pair
import Verif.Proofs.NodeInv
import Verif.Proofs.Turn
import Verif.Props.Unmeasured
import Verif.Props.Origin
/-! # C146: how well the velocities are known depends on what is measured and when, not on the values -/

namespace RL
open Matrix

/-- Two covariances that agree on the velocities and accelerations (filter_common.hpp:44-61: the variables from number 6
on). -/
def SameMotion (P P' : Mat15) : Prop := ∀ i j : Fin 15, 6 ≤ i.val → 6 ≤ j.val → P' i j = P i j

/-- Two measurements of the same velocities or accelerations by the same sensor: the values may differ. -/
structure Payload.SameKind (m m' : Payload) : Prop where
  upd : m'.upd = m.upd
  motion : ∀ i, m.upd i = true → 6 ≤ i.val
  fin : ∀ i, m.upd i = true → (m'.z i).isFin = (m.z i).isFin
  R : ∀ i j, m.upd i = true → m.upd j = true → m'.R i j = m.R i j
  open1 : m.thresh = .unlimited
  open2 : m'.thresh = .unlimited

/-- The same things happen to both nodes at the same times, with different values. -/
inductive Node.Event.SameKind {p p' : FilterPar} : Node.Event (ekfCore p) → Node.Event (ekfCore p') → Prop
  | sensor (topic : String) (stamp : Int) {z z' : Option Payload} (h : Option.Rel Payload.SameKind z z') :
      SameKind (.sensor topic stamp z) (.sensor topic stamp z')
  | control (u u' : Fin 6 → ℝ) (t : Int) : SameKind (.control u t) (.control u' t)
  | setPose (stamp now : Int) {r r' : Option (Option State × Mat15)} (h : Option.Rel (fun a b => SameMotion a.2 b.2) r r') :
      SameKind (.setPose stamp now r) (.setPose stamp now r')
  | reset : SameKind .reset .reset
  | toggle (on : Bool) : SameKind (.toggle on) (.toggle on)
  | enable : SameKind .enable .enable
  | tick (now now2 : Int) (tfOk : Bool) : SameKind (.tick now now2 tfOk) (.tick now now2 tfOk)

/-- The same messages at the same times; as long as both estimates are finite, their covariances agree on velocities and
accelerations. -/
inductive Out.SameKind {p p' : FilterPar} : Out (ekfCore p) → Out (ekfCore p') → Prop
  | odom (t : Int) {x x' : Option State} {P P' : Mat15} (h : x ≠ none → x' ≠ none → SameMotion P P') :
      SameKind (.odom t x P) (.odom t x' P')
  | tf (t : Int) : SameKind (.tf t) (.tf t)
  | accel (t : Int) : SameKind (.accel t) (.accel t)

theorem transferJ_motion (x x' : State) (dt : ℝ) : ∀ i j : Fin 15, 6 ≤ i.val → transferJ x' dt i j = transferJ x dt i j := by
  intro i j h
  show (jEntry (trig x') dt x' i j).getD ((fEntry (trig x') dt i j).getD ((1 : Mat15) i j)) =
    (jEntry (trig x) dt x i j).getD ((fEntry (trig x) dt i j).getD ((1 : Mat15) i j))
  revert h
  fin_cases i <;> first
    | exact fun h => absurd h (by decide)
    | (fin_cases j <;> exact fun _ => rfl)

theorem transferJ_motion_pose (x : State) (dt : ℝ) (i j : Fin 15) (hi : 6 ≤ i.val) (hj : j.val < 6) :
    transferJ x dt i j = 0 :=
  transferJ_apart x dt i j (decide_eq_true ⟨hj, fun e => by rw [e] at hi; omega, Or.inl hi⟩)

theorem SameMotion.quad {A A' P P' : Mat15} (hA : ∀ i j : Fin 15, 6 ≤ i.val → A' i j = A i j)
    (h0 : ∀ i j : Fin 15, 6 ≤ i.val → j.val < 6 → A i j = 0) (hP : SameMotion P P') :
    SameMotion (A * P * Aᵀ) (A' * P' * A'ᵀ) := by
  intro i j hi hj
  simp only [Matrix.mul_apply, Matrix.transpose_apply, Finset.sum_mul]
  refine Finset.sum_congr rfl fun b _ => Finset.sum_congr rfl fun a _ => ?_
  rw [hA i a hi, hA j b hj]
  by_cases ha : a.val < 6
  · rw [h0 i a hi ha]
    ring
  · by_cases hb : b.val < 6
    · rw [h0 j b hj hb]
      ring
    · rw [hP a b (by omega) (by omega)]

theorem SameMotion.add {P P' Q Q' : Mat15} (h : SameMotion P P') (k : SameMotion Q Q') : SameMotion (P + Q) (P' + Q') := by
  intro i j hi hj
  rw [Matrix.add_apply, Matrix.add_apply, h i j hi hj, k i j hi hj]

theorem SameMotion.noise {p p' : FilterPar} {Q Q' : Mat15} (h : SameMotion Q Q') (x x' : State) :
    SameMotion (noiseQ p Q x) (noiseQ p' Q' x') := by
  have key : ∀ (p : FilterPar) (Q : Mat15) (x : State) (i j : Fin 15), 6 ≤ i.val → noiseQ p Q x i j = Q i j := by
    intro p Q x i j hi
    unfold noiseQ
    split
    · show (if i.val < 6 ∧ j.val < 6 then _ else Q i j) = Q i j
      rw [if_neg fun hh => by omega]
    · rfl
  intro i j hi hj
  rw [key p' Q' x' i j hi, key p Q x i j hi]
  exact h i j hi hj

theorem SameMotion.predict {p p' : FilterPar} {Q Q' P P' : Mat15} (hQ : SameMotion Q Q') (hP : SameMotion P P')
    {u u' : Fin 6 → ℝ} {t ref : Int} {dt : ℝ} {x x' : State} {r r' : State × Mat15}
    (h : Ekf.predict p Q u t ref dt x P = some r) (h' : Ekf.predict p' Q' u' t ref dt x' P' = some r') :
    SameMotion r.2 r'.2 := by
  unfold Ekf.predict at h h'
  dsimp only at h h'
  split at h
  · cases h
  split at h'
  · cases h'
  injection h with h
  injection h' with h'
  rw [← h, ← h']
  refine (hP.quad (transferJ_motion x x' dt) (transferJ_motion_pose x dt)).add ?_
  intro i j hi hj
  rw [Matrix.smul_apply, Matrix.smul_apply, hQ.noise x x' i j hi hj]

theorem innovCov_motion {n : ℕ} {e : Fin n → Fin 15} (he : ∀ a, 6 ≤ (e a).val) {R R' P P' : Mat15}
    (hR : ∀ a b, R' (e a) (e b) = R (e a) (e b)) (hP : SameMotion P P') : innovCov e R' P' = innovCov e R P := by
  ext a b
  unfold innovCov
  rw [Matrix.add_apply, Matrix.add_apply, subH_mul_apply, subH_mul_apply, mul_subHT_apply, mul_subHT_apply,
    hP _ _ (he a) (he b)]
  simp only [subR, Matrix.of_apply, hR a b]

theorem gain_motion {n : ℕ} {e : Fin n → Fin 15} (he : ∀ a, 6 ≤ (e a).val) {R R' P P' : Mat15}
    (hR : ∀ a b, R' (e a) (e b) = R (e a) (e b)) (hP : SameMotion P P') (i : Fin 15) (hi : 6 ≤ i.val) (a : Fin n) :
    gain e R' P' i a = gain e R P i a := by
  unfold gain
  rw [innovCov_motion he hR hP, Matrix.mul_apply, Matrix.mul_apply]
  refine Finset.sum_congr rfl fun b _ => ?_
  rw [mul_subHT_apply, mul_subHT_apply, hP _ _ hi (he b)]

theorem mul_subH_motion {n : ℕ} {e : Fin n → Fin 15} {K K' : Matrix (Fin 15) (Fin n) ℝ} (i j : Fin 15)
    (hK : ∀ a, K' i a = K i a) : (K' * subH e) i j = (K * subH e) i j := by
  rw [Matrix.mul_apply, Matrix.mul_apply]
  exact Finset.sum_congr rfl fun a _ => by rw [hK a]

theorem SameMotion.joseph {n : ℕ} {e : Fin n → Fin 15} (he : ∀ a, 6 ≤ (e a).val) {R R' P P' : Mat15}
    (hR : ∀ a b, R' (e a) (e b) = R (e a) (e b)) (hP : SameMotion P P') {K K' : Matrix (Fin 15) (Fin n) ℝ}
    (hK : ∀ (i : Fin 15) a, 6 ≤ i.val → K' i a = K i a) : SameMotion (RL.joseph e R K P) (RL.joseph e R' K' P') := by
  refine SameMotion.add (hP.quad ?_ ?_) ?_
  · intro i j hi
    rw [Matrix.sub_apply, Matrix.sub_apply, mul_subH_motion i j fun a => hK i a hi]
  · intro i j hi hj
    rw [Matrix.sub_apply, Matrix.one_apply_ne (fun hh => by rw [hh] at hi; omega), zero_sub, neg_eq_zero, Matrix.mul_apply]
    refine Finset.sum_eq_zero fun a _ => ?_
    have : j ≠ e a := fun hh => by
      have := he a
      rw [← hh] at this
      omega
    simp only [subH, Matrix.of_apply, if_neg this, mul_zero]
  · intro i j hi hj
    simp only [Matrix.mul_apply, Matrix.transpose_apply, Finset.sum_mul]
    refine Finset.sum_congr rfl fun b _ => Finset.sum_congr rfl fun a _ => ?_
    rw [hK i a hi, hK j b hj]
    simp only [subR, Matrix.of_apply, hR a b]

theorem Payload.SameKind.indices {m m' : Payload} (h : m.SameKind m') : m'.indices = m.indices := by
  unfold Payload.indices
  refine List.filter_congr fun i _ => ?_
  rw [h.upd]
  cases hu : m.upd i with
  | false => rfl
  | true =>
    have hf := h.fin i hu
    revert hf
    cases m.z i <;> cases m'.z i <;> simp [Dbl.isFin, Dbl.isNan, Dbl.isInf]

theorem Payload.selected {m : Payload} (a : Fin m.indices.length) : m.upd (m.indices.get a) = true := by
  have h : m.indices.get a ∈ m.indices := List.get_mem m.indices a
  have h := (List.mem_filter.1 h).2
  simp only [Bool.and_eq_true] at h
  exact h.1.1

theorem SameMotion.correct {m m' : Payload} (hm : m.SameKind m') {P P' : Mat15} (hP : SameMotion P P') {x x' : State}
    {r r' : State × Mat15} (h : Ekf.correct m x P = some r) (h' : Ekf.correct m' x' P' = some r') : SameMotion r.2 r'.2 := by
  have he : ∀ a, 6 ≤ (m.indices.get a).val := fun a => hm.motion _ (Payload.selected a)
  have hR : ∀ a b, m'.R (m.indices.get a) (m.indices.get b) = m.R (m.indices.get a) (m.indices.get b) := fun a b =>
    hm.R _ _ (Payload.selected a) (Payload.selected b)
  unfold Ekf.correct correctAt at h h'
  rw [hm.indices, hm.open2] at h'
  rw [hm.open1] at h
  split at h
  · cases h
  split at h'
  · cases h'
  rw [if_pos (show checkMahalanobis _ _ .unlimited from trivial)] at h h'
  injection h with h
  injection h' with h'
  rw [← h, ← h']
  exact SameMotion.joseph he hR hP fun i a hi => gain_motion he hR hP i hi a

theorem SameMotion.init {m m' : Payload} (hm : m.SameKind m') {P P' : Mat15} (hP : SameMotion P P') :
    SameMotion (initCov m P) (initCov m' P') := by
  intro i j hi hj
  simp only [initCov, Matrix.of_apply, hm.upd]
  split
  · rename_i h
    simp only [Bool.and_eq_true] at h
    exact hm.R i j h.1 h.2
  · exact hP i j hi hj

/-- What relates the two estimates. -/
def SameSure {p p' : FilterPar} (x : (pairCore (ekfCore p) (ekfCore p')).X) (P : (pairCore (ekfCore p) (ekfCore p')).Cov) :
    Prop :=
  (x : Option State × Option State).1 ≠ none → (x : Option State × Option State).2 ≠ none →
    SameMotion (P : Mat15 × Mat15).1 (P : Mat15 × Mat15).2

theorem sameSure_inv {p p' : FilterPar} {g : Cfg (ekfCore p)} {g' : Cfg (ekfCore p')}
    (hQ : SameMotion g.processNoise g'.processNoise) (hK : SameMotion g.keptNoise g'.keptNoise)
    (hP : SameMotion g.initialCov g'.initialCov) (hC : SameMotion g.keptCov g'.keptCov) :
    EstInv (g.pair g') SameSure SameSure (fun z => Payload.SameKind (z : Payload × Payload).1 (z : Payload × Payload).2)
      (fun _ => True) where
  predict := by
    rintro par hpar ⟨u, u'⟩ t ref delta ⟨x, x'⟩ ⟨P, P'⟩ ⟨e, e'⟩ - - hI
    obtain ⟨Q, Q'⟩ := par
    have hQ : SameMotion Q Q' := by
      rcases hpar with h | h
      · cases h
        exact hQ
      · cases h
        exact hK
    have hI : x ≠ none → x' ≠ none → SameMotion P P' := hI
    show ((ekfCore p).predict Q u t ref delta (x, P, ())).1 ≠ none →
      ((ekfCore p').predict Q' u' t ref delta (x', P', ())).1 ≠ none →
      SameMotion ((ekfCore p).predict Q u t ref delta (x, P, ())).2.1 ((ekfCore p').predict Q' u' t ref delta (x', P', ())).2.1
    cases x with
    | none => exact fun h _ => absurd rfl h
    | some x =>
    cases x' with
    | none => exact fun _ h => absurd rfl h
    | some x' =>
      have e1 : (ekfCore p).predict Q u t ref delta (some x, P, ()) = match Ekf.predict p Q u t ref (toSec delta) x P with
        | some r => (some r.1, r.2, ())
        | none => (none, P, ()) := rfl
      have e2 : (ekfCore p').predict Q' u' t ref delta (some x', P', ()) =
          match Ekf.predict p' Q' u' t ref (toSec delta) x' P' with
        | some r => (some r.1, r.2, ())
        | none => (none, P', ()) := rfl
      rw [e1, e2]
      cases h1 : Ekf.predict p Q u t ref (toSec delta) x P with
      | none => exact fun h _ => absurd rfl h
      | some r =>
      cases h2 : Ekf.predict p' Q' u' t ref (toSec delta) x' P' with
      | none => exact fun _ h => absurd rfl h
      | some r' => exact fun _ _ => SameMotion.predict hQ (hI (Option.some_ne_none x) (Option.some_ne_none x')) h1 h2
  correct := by
    rintro ⟨z, z'⟩ ⟨x, x'⟩ ⟨P, P'⟩ ⟨e, e'⟩ hz hI
    have hI : x ≠ none → x' ≠ none → SameMotion P P' := hI
    show ((ekfCore p).correct z (x, P, ())).1 ≠ none → ((ekfCore p').correct z' (x', P', ())).1 ≠ none →
      SameMotion ((ekfCore p).correct z (x, P, ())).2.1 ((ekfCore p').correct z' (x', P', ())).2.1
    cases x with
    | none => exact fun h _ => absurd rfl h
    | some x =>
    cases x' with
    | none => exact fun _ h => absurd rfl h
    | some x' =>
      have e1 : (ekfCore p).correct z (some x, P, ()) = match Ekf.correct z x P with
        | some r => (some r.1, r.2, ())
        | none => (none, P, ()) := rfl
      have e2 : (ekfCore p').correct z' (some x', P', ()) = match Ekf.correct z' x' P' with
        | some r => (some r.1, r.2, ())
        | none => (none, P', ()) := rfl
      rw [e1, e2]
      cases h1 : Ekf.correct z x P with
      | none => exact fun h _ => absurd rfl h
      | some r =>
      cases h2 : Ekf.correct z' x' P' with
      | none => exact fun _ h => absurd rfl h
      | some r' => exact fun _ _ => SameMotion.correct hz (hI (Option.some_ne_none x) (Option.some_ne_none x')) h1 h2
  init := by
    rintro ⟨z, z'⟩ ⟨x, x'⟩ ⟨P, P'⟩ hz hI h h'
    have hI : x ≠ none → x' ≠ none → SameMotion P P' := hI
    refine SameMotion.init hz (hI ?_ ?_)
    · rintro rfl
      exact h rfl
    · rintro rfl
      exact h' rfl
  start := fun _ _ => hP
  reset := fun _ _ => hC
  ctl0 := trivial

/-- C146: two nodes with the same switches get messages at the same times from sensors of the same kind and quality, which
measure velocities and accelerations, and reject nothing.  Whatever the sensors say, whatever is commanded, wherever the
nodes start, whatever their control and noise parameters for the pose: they send messages at the same times, with equal
covariances of velocities and accelerations for as long as both estimates are finite. -/
theorem C146_any_queue (p p' : FilterPar) {Q : MQueue (pairCore (ekfCore p) (ekfCore p'))} {Q1 : MQueue (ekfCore p)}
    {Q2 : MQueue (ekfCore p')} (κ1 : QueueSim (fstSim _ _) Q Q1) (κ2 : QueueSim (sndSim _ _) Q Q2)
    (g : Cfg (ekfCore p)) (g' : Cfg (ekfCore p')) (hs : g.SameSwitches g')
    (hQ : SameMotion g.processNoise g'.processNoise) (hK : SameMotion g.keptNoise g'.keptNoise)
    (hP : SameMotion g.initialCov g'.initialCov) (hC : SameMotion g.keptCov g'.keptCov) (u u' : Fin 6 → ℝ) (now : Int)
    (h0 : 0 ≤ now) {es : List (Node.Event (ekfCore p))} {es' : List (Node.Event (ekfCore p'))}
    (he : List.Forall₂ Node.Event.SameKind es es') (hclk : Clocked now es) :
    List.Forall₂ Out.SameKind (Node.run g (Node.start g Q1 () u now) es).2
      (Node.run g' (Node.start g' Q2 () u' now) es').2 := by
  obtain ⟨ps, rfl, rfl, hz, hc⟩ : ∃ ps : List (Node.Event (pairCore (ekfCore p) (ekfCore p'))),
      ps.map Node.Event.fst = es ∧ ps.map Node.Event.snd = es' ∧
      (∀ (n : Node (pairCore (ekfCore p) (ekfCore p')) Q), Along (g.pair g') (Node.Ok SameSure SameSure
        (fun z => Payload.SameKind (z : Payload × Payload).1 (z : Payload × Payload).2) (fun _ => True)) n ps) ∧
      ∀ k, Clocked k es → Clocked k ps := by
    clear hclk
    induction he with
    | nil => exact ⟨[], rfl, rfl, fun _ => trivial, fun _ _ => trivial⟩
    | cons h _ ih =>
      obtain ⟨ps, h1, h2, h3, h4⟩ := ih
      rw [← h1, ← h2]
      rw [← h1] at h4
      cases h with
      | sensor topic stamp h =>
        cases h with
        | none => exact ⟨.sensor topic stamp none :: ps, rfl, rfl, fun n => ⟨trivial, h3 _⟩, fun k hk => h4 k hk⟩
        | some h =>
          rename_i z z'
          exact ⟨.sensor topic stamp (some (z, z')) :: ps, rfl, rfl, fun n => ⟨h, h3 _⟩, fun k hk => h4 k hk⟩
      | control v v' t => exact ⟨.control (v, v') t :: ps, rfl, rfl, fun n => ⟨trivial, h3 _⟩, fun k hk => h4 k hk⟩
      | setPose stamp now h =>
        cases h with
        | none =>
          have h0 : SameMotion ((1e-6 : ℝ) • (1 : Mat15)) ((1e-6 : ℝ) • (1 : Mat15)) := fun _ _ _ _ => rfl
          exact ⟨.setPose stamp now none :: ps, rfl, rfl, fun n => ⟨⟨fun _ _ => h0, fun _ _ _ => h0⟩, h3 _⟩,
            fun k hk => ⟨hk.1, h4 _ hk.2⟩⟩
        | some h =>
          rename_i a b
          exact ⟨.setPose stamp now (some ((a.1, b.1), (a.2, b.2))) :: ps, rfl, rfl,
            fun n => ⟨⟨fun _ _ => h, fun _ _ _ => h⟩, h3 _⟩, fun k hk => ⟨hk.1, h4 _ hk.2⟩⟩
      | reset => exact ⟨.reset :: ps, rfl, rfl, fun n => ⟨trivial, h3 _⟩, fun k hk => h4 k hk⟩
      | toggle on => exact ⟨.toggle on :: ps, rfl, rfl, fun n => ⟨trivial, h3 _⟩, fun k hk => h4 k hk⟩
      | enable => exact ⟨.enable :: ps, rfl, rfl, fun n => ⟨trivial, h3 _⟩, fun k hk => h4 k hk⟩
      | tick now now2 tfOk =>
        exact ⟨.tick now now2 tfOk :: ps, rfl, rfl, fun n => ⟨trivial, h3 _⟩, fun k hk => ⟨hk.1, hk.2.1, h4 _ hk.2.2⟩⟩
  have hE := sameSure_inv hQ hK hP hC
  have hN := (NInv.run hE ps (NInv.start hE Q ((), ()) (fctl0 := (u, u')) trivial now)
    (HInv.start (g.pair g') Q ((), ()) (u, u') now) h0 (hc now hclk) (hz _)).2
  have e1 := run_fst κ1 g g' () () u u' now ps
  have e2 := run_snd κ2 g g' hs () () u u' now ps
  rw [e1, e2, List.forall₂_map_left_iff, List.forall₂_map_right_iff, List.forall₂_same]
  intro o ho
  cases o with
  | odom t x P => exact .odom t (hN t x P ho)
  | tf t => exact .tf t
  | accel t => exact .accel t

/-- C146 for the queue that keeps measurements of one instant in the order of arrival. -/
theorem C146_same_certainty (p p' : FilterPar) (g : Cfg (ekfCore p)) (g' : Cfg (ekfCore p')) (hs : g.SameSwitches g')
    (hQ : SameMotion g.processNoise g'.processNoise) (hK : SameMotion g.keptNoise g'.keptNoise)
    (hP : SameMotion g.initialCov g'.initialCov) (hC : SameMotion g.keptCov g'.keptCov) (u u' : Fin 6 → ℝ) (now : Int)
    (h0 : 0 ≤ now) {es : List (Node.Event (ekfCore p))} {es' : List (Node.Event (ekfCore p'))}
    (he : List.Forall₂ Node.Event.SameKind es es') (hclk : Clocked now es) :
    List.Forall₂ Out.SameKind (Node.run g (Node.start g (PQueue.sortedList _ _) () u now) es).2
      (Node.run g' (Node.start g' (PQueue.sortedList _ _) () u' now) es').2 :=
  C146_any_queue p p' (QueueSim.sorted _) (QueueSim.sorted _) g g' hs hQ hK hP hC u u' now h0 he hclk

/-- C146 does not hold for sensors with a rejection threshold: a value that is rejected leaves the uncertainty as it was,
and another one from the same sensor halves it. -/
theorem C146_gated : ∃ r r' : State × Mat15, Ekf.correct (oneVar iVx 0 (.sigmas 2)) 0 1 = some r ∧
    Ekf.correct (oneVar iVx 3 (.sigmas 2)) 0 1 = some r' ∧ r.2 iVx iVx = 1 / 2 ∧ r'.2 iVx iVx = 1 := by
  have hang : ¬ angular iVx := by unfold angular; decide
  have mah : ∀ v : ℝ,
      mahalanobisSq (oneVar iVx v (.sigmas 2)).indices.get (fun _ => v) 1 0 1 = v ^ 2 / 2 ∧
      ((1 : Mat15).submatrix (oneVar iVx v (.sigmas 2)).indices.get (oneVar iVx v (.sigmas 2)).indices.get +
        subR (oneVar iVx v (.sigmas 2)).indices.get 1).det ≠ 0 := by
    intro v
    have h' := mahalanobis_one (m := oneVar iVx v (.sigmas 2)) iVx (oneVar_indices _ _ _) hang 0 1
    simp only [oneVar, Matrix.one_apply_eq, sanitize_one, Dbl.val, Pi.zero_apply] at h'
    have h' := h' (by norm_num)
    refine ⟨h'.1.trans (by norm_num), h'.2⟩
  have h1 := correct_one iVx (oneVar_indices iVx 0 .unlimited) (oneVar_certain iVx 0) 0 (P := 1) PosSemidef.one
  obtain ⟨r, hr, hv⟩ : ∃ r, Ekf.correct (oneVar iVx 0 .unlimited) 0 1 = some r ∧ r.2 iVx iVx = 1 / 2 := by
    refine ⟨_, h1, ?_⟩
    simp only [oneVar, sanitize_one, Matrix.one_apply_eq, Matrix.of_apply]
    norm_num
  refine ⟨r, (0, 1), ?_, ?_, hv, Matrix.one_apply_eq _⟩
  · rw [← hr]
    refine (C06_gate _ _ _ _ _ _ (mah 0).2).1 ?_
    show mahalanobisSq (oneVar iVx 0 (.sigmas 2)).indices.get (fun _ => 0) 1 0 1 < _
    rw [(mah 0).1]
    norm_num
  · refine (C06_gate _ _ _ _ _ _ (mah 3).2).2 ?_
    show _ ≤ mahalanobisSq (oneVar iVx 3 (.sigmas 2)).indices.get (fun _ => 3) 1 0 1
    rw [(mah 3).1]
    norm_num

/-- One second without noise, and then a position: two robots that differ in their heading. -/
theorem C146_pose : ∃ (x x' : State) (r r' s s' : State × Mat15), (∀ i, i ≠ iYaw → x' i = x i) ∧
    Ekf.predict plainPar 0 0 0 0 1 x 1 = some r ∧ Ekf.predict plainPar 0 0 0 0 1 x' 1 = some r' ∧
    Ekf.correct (oneVar iX 0 .unlimited) r.1 r.2 = some s ∧ Ekf.correct (oneVar iX 0 .unlimited) r'.1 r'.2 = some s' ∧
    r.2 iVx iVx = r'.2 iVx iVx ∧ s.2 iVx iVx < s'.2 iVx iVx := by
  have hp : ∀ y : ℝ, ∃ r : State × Mat15, Ekf.predict plainPar 0 0 0 0 1 (Pi.single iYaw y) 1 = some r ∧
      r.2 = transferJ (Pi.single iYaw y) 1 * (transferJ (Pi.single iYaw y) 1)ᵀ := by
    intro y
    have e : Real.cos ((Pi.single iYaw y : State) iPitch) = 1 := by
      rw [Pi.single_eq_of_ne (by decide), Real.cos_zero]
    unfold Ekf.predict
    dsimp only
    rw [if_neg (by rw [e]; norm_num)]
    refine ⟨_, rfl, ?_⟩
    dsimp only
    have : noiseQ plainPar 0 (Pi.single iYaw y) = 0 := rfl
    rw [this, smul_zero, add_zero, Matrix.mul_one]
  have hv : ∀ (x : State) (j : Fin 15), transferJ x 1 iVx j = (if j = iVx then 1 else 0) + (if j = iAx then 1 else 0) := by
    intro x j
    show (jEntry (trig x) 1 x iVx j).getD ((fEntry (trig x) 1 iVx j).getD ((1 : Mat15) iVx j)) = _
    fin_cases j <;> simp [jEntry, fEntry, iVx, iAx, Matrix.one_apply]
  have hx : ∀ y : ℝ, (transferJ (Pi.single iYaw y) 1 * (transferJ (Pi.single iYaw y) 1)ᵀ) iX iVx = 3 / 2 * Real.cos y := by
    intro y
    have e1 : (Pi.single iYaw y : State) iYaw = y := Pi.single_eq_same _ _
    have e2 : (Pi.single iYaw y : State) iPitch = 0 := Pi.single_eq_of_ne (by decide) _
    have h6 : transferJ (Pi.single iYaw y) 1 iX iVx = Real.cos y := by
      show Real.cos ((Pi.single iYaw y : State) iYaw) * Real.cos ((Pi.single iYaw y : State) iPitch) * 1 = _
      rw [e1, e2, Real.cos_zero]
      ring
    have h12 : transferJ (Pi.single iYaw y) 1 iX iAx = 1 / 2 * Real.cos y := by
      show 0.5 * (Real.cos ((Pi.single iYaw y : State) iYaw) * Real.cos ((Pi.single iYaw y : State) iPitch) * 1) * 1 = _
      rw [e1, e2, Real.cos_zero]
      ring
    rw [Matrix.mul_apply]
    simp only [Matrix.transpose_apply, hv, mul_add, Finset.sum_add_distrib, mul_ite, mul_one, mul_zero, Finset.sum_ite_eq',
      Finset.mem_univ, if_true, h6, h12]
    ring
  obtain ⟨r, h1, h2⟩ := hp 0
  obtain ⟨r', h1', h2'⟩ := hp (Real.pi / 2)
  have psd : ∀ A : Mat15, (A * Aᵀ).PosSemidef := fun A => by
    have := Matrix.posSemidef_self_mul_conjTranspose A
    rwa [Matrix.conjTranspose_eq_transpose_of_trivial] at this
  have sym : ∀ A : Mat15, (A * Aᵀ) iVx iX = (A * Aᵀ) iX iVx := fun A => by
    rw [Matrix.mul_apply, Matrix.mul_apply]
    exact Finset.sum_congr rfl fun _ _ => mul_comm _ _
  have c := correct_one iX (oneVar_indices iX 0 .unlimited) (oneVar_certain iX 0) r.1 (P := r.2) (h2 ▸ psd _)
  have c' := correct_one iX (oneVar_indices iX 0 .unlimited) (oneVar_certain iX 0) r'.1 (P := r'.2) (h2' ▸ psd _)
  have same : r.2 iVx iVx = r'.2 iVx iVx :=
    SameMotion.predict (Q := 0) (Q' := 0) (P := 1) (P' := 1) (fun _ _ _ _ => rfl) (fun _ _ _ _ => rfl) h1' h1 iVx iVx
      (by decide) (by decide)
  refine ⟨Pi.single iYaw 0, Pi.single iYaw (Real.pi / 2), r, r', _, _, ?_, h1, h1', c, c', same, ?_⟩
  · intro i hi
    rw [Pi.single_eq_of_ne hi, Pi.single_eq_of_ne hi]
  · have k : r.2 iX iVx = 3 / 2 := by rw [h2, hx, Real.cos_zero, mul_one]
    have k2 : r.2 iVx iX = 3 / 2 := by rw [← k, h2, sym]
    have k' : r'.2 iX iVx = 0 := by rw [h2', hx, Real.cos_pi_div_two, mul_zero]
    have hpos : 0 < (r.2 iX iX + sanitize ((oneVar iX 0 .unlimited).R iX iX))⁻¹ := by
      have h3 : 0 ≤ r.2 iX iX := by
        have := (h2 ▸ psd _ : r.2.PosSemidef).diag_nonneg (i := iX)
        exact this
      have h4 : sanitize ((oneVar iX 0 .unlimited).R iX iX) = 1 := by
        show sanitize ((1 : Mat15) iX iX) = 1
        rw [Matrix.one_apply_eq, sanitize_one]
      rw [h4]
      positivity
    simp only [Matrix.of_apply]
    rw [k, k2, k', same, mul_zero]
    linarith

/-- Two robots with wheel encoders: one stands still and the other one drives, and the second gets commands. -/
example : List.Forall₂ Out.SameKind
    (Node.run (demoCfg plainPar) (Node.start (demoCfg plainPar) (PQueue.sortedList _ _) () (0 : Fin 6 → ℝ) 0)
      [.sensor "wheels" 1 (some (oneVar iVx 0 .unlimited)), .tick 2 2 true, .control (fun _ => 0) 2,
        .sensor "wheels" 3 (some (oneVar iVx 0 .unlimited)), .tick 4 4 true]).2
    (Node.run (demoCfg plainPar) (Node.start (demoCfg plainPar) (PQueue.sortedList _ _) () (0 : Fin 6 → ℝ) 0)
      [.sensor "wheels" 1 (some (oneVar iVx 2 .unlimited)), .tick 2 2 true, .control (fun _ => 1) 2,
        .sensor "wheels" 3 (some (oneVar iVx 3 .unlimited)), .tick 4 4 true]).2 := by
  have same : ∀ P, SameMotion P P := fun _ _ _ _ _ => rfl
  have hm : ∀ v w, (oneVar iVx v .unlimited).SameKind (oneVar iVx w .unlimited) := by
    intro v w
    refine ⟨rfl, fun i hi => ?_, fun _ _ => rfl, fun _ _ _ _ => rfl, rfl, rfl⟩
    obtain rfl : i = iVx := of_decide_eq_true hi
    decide
  exact C146_same_certainty plainPar plainPar _ _ ⟨rfl, rfl, rfl, rfl, rfl, rfl, rfl, rfl, rfl⟩ (same _) (same _) (same _) (same _)
    0 0 0 le_rfl (.cons (.sensor _ _ (.some (hm _ _))) (.cons (.tick _ _ _) (.cons (.control _ _ _)
      (.cons (.sensor _ _ (.some (hm _ _))) (.cons (.tick _ _ _) .nil))))) (by simp [Clocked])

end RL
