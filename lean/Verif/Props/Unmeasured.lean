import Verif.Proofs.NodeSim
import Verif.Props.EkfCov
import Verif.Props.Origin
import Verif.Props.Commute
/-! # C124: uncertainty about what is never measured changes no estimate -/

namespace RL
open Matrix

/-- Pose variables whose uncertainty stays among themselves: with the heading also x and y, and with roll or pitch the
whole pose. -/
structure Drifting (S : Fin 15 → Prop) : Prop where
  pose : ∀ i, S i → i.val < 6
  head : S iYaw → S iX ∧ S iY
  tilt : S iRoll ∨ S iPitch → ∀ i : Fin 15, i.val < 6 → S i

/-- A matrix that is zero outside the rows and columns of `S`. -/
def Within (S : Fin 15 → Prop) (D : Mat15) : Prop := ∀ i j, ¬ (S i ∧ S j) → D i j = 0

/-- A measurement that does not select any variable of `S`. -/
def Payload.Silent (S : Fin 15 → Prop) (m : Payload) : Prop := ∀ i, S i → m.upd i = false

variable {S : Fin 15 → Prop}

theorem Within.add {D E : Mat15} (hD : Within S D) (hE : Within S E) : Within S (D + E) := by
  intro i j h
  rw [Matrix.add_apply, hD i j h, hE i j h, add_zero]

theorem Within.smul {D : Mat15} (hD : Within S D) (a : ℝ) : Within S (a • D) := by
  intro i j h
  rw [Matrix.smul_apply, hD i j h, smul_zero]

theorem Within.zero : Within S 0 := fun _ _ _ => rfl

/-- Pairs of variables for which an error in the second is not carried to the first. -/
def apart (i j : Fin 15) : Bool :=
  decide (j.val < 6 ∧ i ≠ j ∧ (6 ≤ i.val ∨ j.val < 3 ∨ j = iYaw ∧ i ≠ iX ∧ i ≠ iY))

theorem transferJ_apart (x : State) (dt : ℝ) : ∀ i j : Fin 15, apart i j = true → transferJ x dt i j = 0 := by
  intro i j h
  show (jEntry (trig x) dt x i j).getD ((fEntry (trig x) dt i j).getD ((1 : Mat15) i j)) = 0
  have hij : i ≠ j := fun e => by
    have := (of_decide_eq_true h).2.1
    exact this e
  have e1 : (1 : Mat15) i j = 0 := Matrix.one_apply_ne hij
  rw [e1]
  revert h
  clear hij e1
  fin_cases j <;> first
    | exact fun h => absurd (of_decide_eq_true h).1 (by decide)
    | (fin_cases i <;> first | exact fun h => absurd h (by decide) | exact fun _ => rfl)

/-- The Jacobian does not carry an error in `S` to other variables. -/
theorem transferJ_drifting (h : Drifting S) (x : State) (dt : ℝ) {i j : Fin 15} (hj : S j) (hi : ¬ S i) :
    transferJ x dt i j = 0 := by
  apply transferJ_apart
  have hj6 := h.pose j hj
  refine decide_eq_true ⟨hj6, fun e => hi (e ▸ hj), ?_⟩
  by_contra hc
  simp only [not_or, not_and, not_not, not_le, not_lt] at hc
  obtain ⟨h1, h2, h3⟩ := hc
  rcases (show j = iRoll ∨ j = iPitch ∨ j = iYaw by simp only [Fin.ext_iff]; simp; omega) with rfl | rfl | rfl
  · exact hi (h.tilt (Or.inl hj) i h1)
  · exact hi (h.tilt (Or.inr hj) i h1)
  · by_cases h0 : i = iX
    · exact hi (h0 ▸ (h.head hj).1)
    · exact hi (h3 rfl h0 ▸ (h.head hj).2)

theorem Within.congruence (h : Drifting S) {D : Mat15} (hD : Within S D) (x : State) (dt : ℝ) :
    Within S (transferJ x dt * D * (transferJ x dt)ᵀ) := by
  intro i j hij
  simp only [Matrix.mul_apply, Matrix.transpose_apply, Finset.sum_mul]
  refine Finset.sum_eq_zero fun b _ => Finset.sum_eq_zero fun a _ => ?_
  by_cases hab : S a ∧ S b
  · by_cases hi : S i
    · have hj : ¬ S j := fun hj => hij ⟨hi, hj⟩
      rw [transferJ_drifting h x dt hab.2 hj, mul_zero]
    · rw [transferJ_drifting h x dt hab.1 hi, zero_mul, zero_mul]
  · rw [hD a b hab, mul_zero, zero_mul]

/-- The process noise in use, with more noise among the variables of `S`. -/
theorem noiseQ_within (h : Drifting S) (p : FilterPar) {E : Mat15} (hE : Within S E) (Q : Mat15) (x : State) :
    ∃ a : ℝ, noiseQ p (Q + E) x = noiseQ p Q x + a • E := by
  unfold noiseQ
  split
  · refine ⟨Real.sqrt (∑ c : Fin 6, x (velIdx c) ^ 2) * Real.sqrt (∑ c : Fin 6, x (velIdx c) ^ 2), ?_⟩
    ext i j
    simp only [writeDyn, Matrix.of_apply, Matrix.add_apply, Matrix.smul_apply, smul_eq_mul]
    split
    · ring
    · rename_i hij
      rw [hE i j fun hs => hij ⟨h.pose i hs.1, h.pose j hs.2⟩]
      ring
  · exact ⟨1, by rw [one_smul]⟩

theorem mul_subH_within {D : Mat15} (hD : Within S D) {n : ℕ} (e : Fin n → Fin 15) (he : ∀ a, ¬ S (e a)) :
    D * (subH e)ᵀ = 0 ∧ subH e * D = 0 := by
  constructor
  · ext i a
    rw [Matrix.mul_apply]
    refine Finset.sum_eq_zero fun j _ => ?_
    simp only [subH, Matrix.transpose_apply, Matrix.of_apply]
    split
    · rename_i hj
      rw [hj, hD _ _ fun hs => he a hs.2, zero_mul]
    · rw [mul_zero]
  · ext a i
    rw [Matrix.mul_apply]
    refine Finset.sum_eq_zero fun j _ => ?_
    simp only [subH, Matrix.of_apply]
    split
    · rename_i hj
      rw [hj, hD _ _ fun hs => he a hs.1, mul_zero]
    · rw [zero_mul]

theorem innovCov_within {D : Mat15} (hD : Within S D) {n : ℕ} (e : Fin n → Fin 15) (he : ∀ a, ¬ S (e a)) (R P : Mat15) :
    innovCov e R (P + D) = innovCov e R P := by
  unfold innovCov
  rw [Matrix.add_mul, (mul_subH_within hD e he).1, add_zero]

theorem gain_within {D : Mat15} (hD : Within S D) {n : ℕ} (e : Fin n → Fin 15) (he : ∀ a, ¬ S (e a)) (R P : Mat15) :
    gain e R (P + D) = gain e R P := by
  unfold gain
  rw [innovCov_within hD e he, Matrix.add_mul, (mul_subH_within hD e he).1, add_zero]

theorem joseph_within {D : Mat15} (hD : Within S D) {n : ℕ} (e : Fin n → Fin 15) (he : ∀ a, ¬ S (e a)) (R P : Mat15)
    (K : Matrix (Fin 15) (Fin n) ℝ) : joseph e R K (P + D) = joseph e R K P + D := by
  have h1 : (1 - K * subH e) * D = D := by
    rw [Matrix.sub_mul, Matrix.one_mul, Matrix.mul_assoc, (mul_subH_within hD e he).2, Matrix.mul_zero, sub_zero]
  have h2 : D * (1 - K * subH e)ᵀ = D := by
    rw [Matrix.transpose_sub, Matrix.transpose_one, Matrix.transpose_mul, Matrix.mul_sub, Matrix.mul_one, ← Matrix.mul_assoc,
      (mul_subH_within hD e he).1, Matrix.zero_mul, sub_zero]
  unfold joseph
  rw [mul_add, add_mul, h1, h2]
  abel

/-- One correction by a measurement that says nothing about `S`. -/
theorem correct_within {D : Mat15} (hD : Within S D) {m : Payload} (hm : m.Silent S) (x : State) (P : Mat15) :
    Ekf.correct m x (P + D) = (Ekf.correct m x P).map fun r => (r.1, r.2 + D) := by
  have he : ∀ a, ¬ S (m.indices.get a) := by
    intro a hs
    have hu : m.upd (m.indices.get a) = true := by
      have := List.get_mem m.indices a
      unfold Payload.indices at this
      have := (List.mem_filter.1 this).2
      simp only [Bool.and_eq_true] at this
      exact this.1.1
    rw [hm _ hs] at hu
    cases hu
  unfold Ekf.correct correctAt
  rw [innovCov_within hD _ he, gain_within hD _ he, joseph_within hD _ he]
  split
  · rfl
  · split <;> rfl

/-- One prediction. -/
theorem predict_within (h : Drifting S) (p : FilterPar) {D E : Mat15} (hE : Within S E) (Q : Mat15) (u : Fin 6 → ℝ)
    (t ref : Int) (dt : ℝ) (x : State) (P : Mat15) : ∃ a : ℝ,
    Ekf.predict p (Q + E) u t ref dt x (P + D) = (Ekf.predict p Q u t ref dt x P).map fun r =>
      (r.1, r.2 + (transferJ x dt * D * (transferJ x dt)ᵀ + a • E)) := by
  obtain ⟨a, ha⟩ := noiseQ_within h p hE Q x
  refine ⟨dt * a, ?_⟩
  unfold Ekf.predict
  dsimp only
  rw [ha]
  split
  · rfl
  · simp only [Option.map_some]
    congr 2
    rw [mul_add, add_mul, smul_add, smul_smul]
    abel

theorem initCov_within {D : Mat15} (hD : Within S D) {m : Payload} (hm : m.Silent S) (P : Mat15) :
    initCov m (P + D) = initCov m P + D := by
  ext i j
  simp only [initCov, Matrix.of_apply, Matrix.add_apply]
  split
  · rename_i hij
    rw [hD i j fun hs => by rw [hm i hs.1] at hij; simp at hij, add_zero]
  · rfl

/-- Two filters with the same estimate and covariances that differ only within `S`.  The difference satisfies `K` and
that of the process noise satisfies `N`. -/
noncomputable def withinSim (p : FilterPar) (h : Drifting S) (K N : Mat15 → Prop)
    (hK : ∀ x dt D, Within S D → K D → K (transferJ x dt * D * (transferJ x dt)ᵀ))
    (hN : ∀ D E (a : ℝ), K D → N E → K (D + a • E)) : CoreSim (ekfCore p) (ekfCore p) 0 where
  low := 0
  X x x' := x' = x
  Cov P P' := ∃ D : Mat15, Within S D ∧ K D ∧ P' = (show Mat15 from P) + D
  Ext _ _ := True
  Par q q' := ∃ E : Mat15, Within S E ∧ N E ∧ q' = (show Mat15 from q) + E
  Z z z' := z' = z ∧ Payload.Silent S z
  Ctl u t u' t' := u' = u ∧ t' = t
  predict := by
    rintro q _ _ _ u t _ x P _ e e' ref delta - ⟨E, hE, hnE, rfl⟩ ⟨rfl, rfl⟩ rfl ⟨D, hD, hkD, rfl⟩ -
    cases x with
    | none => exact ⟨rfl, ⟨D, hD, hkD, rfl⟩, trivial⟩
    | some x =>
      obtain ⟨a, ha⟩ := predict_within h p (D := D) hE q u t ref (toSec delta) x P
      have e1 : (ekfCore p).predict q u t ref delta (some x, P, e) = match Ekf.predict p q u t ref (toSec delta) x P with
        | some r => (some r.1, r.2, ())
        | none => (none, P, ()) := rfl
      have e2 : (ekfCore p).predict ((show Mat15 from q) + E : Mat15) u t (ref + 0) delta (some x, ((show Mat15 from P) + D : Mat15), e') =
          match Ekf.predict p ((show Mat15 from q) + E) u t (ref + 0) (toSec delta) x ((show Mat15 from P) + D) with
        | some r => (some r.1, r.2, ())
        | none => (none, (show Mat15 from P) + D, ()) := rfl
      rw [e1]
      erw [e2]
      rw [Int.add_zero]
      erw [ha]
      cases Ekf.predict p q u t ref (toSec delta) x P with
      | none => exact ⟨rfl, ⟨D, hD, hkD, rfl⟩, trivial⟩
      | some r => exact ⟨rfl, ⟨_, (hD.congruence h x _).add (hE.smul a), hN _ _ a (hK x _ D hD hkD) hnE, rfl⟩, trivial⟩
  correct := by
    rintro _ z _ x P _ e e' ⟨rfl, hz⟩ rfl ⟨D, hD, hkD, rfl⟩ -
    cases x with
    | none => exact ⟨rfl, ⟨D, hD, hkD, rfl⟩, trivial⟩
    | some x =>
      have ha := correct_within hD hz x P
      have e1 : (ekfCore p).correct z (some x, P, e) = match Ekf.correct z x P with
        | some r => (some r.1, r.2, ())
        | none => (none, P, ()) := rfl
      have e2 : (ekfCore p).correct z (some x, ((show Mat15 from P) + D : Mat15), e') =
          match Ekf.correct z x ((show Mat15 from P) + D) with
        | some r => (some r.1, r.2, ())
        | none => (none, (show Mat15 from P) + D, ()) := rfl
      rw [e1]
      erw [e2, ha]
      cases Ekf.correct z x P with
      | none => exact ⟨rfl, ⟨D, hD, hkD, rfl⟩, trivial⟩
      | some r => exact ⟨rfl, ⟨D, hD, hkD, rfl⟩, trivial⟩
  initX := by
    rintro z _ x _ ⟨rfl, hz⟩ rfl
    rfl
  initCov := by
    rintro z _ P _ ⟨rfl, hz⟩ ⟨D, hD, hkD, rfl⟩
    exact ⟨D, hD, hkD, initCov_within hD hz P⟩

/-- No measurement selects a variable of `S`. -/
def Node.Event.Silent {p : FilterPar} (S : Fin 15 → Prop) : Node.Event (ekfCore p) → Prop
  | .sensor _ _ z => ∀ m : Payload, z = some m → m.Silent S
  | _ => True

/-- Messages with the same stamps and estimates, and with covariances whose difference satisfies `K`. -/
inductive Out.Within {p : FilterPar} (K : Mat15 → Prop) : Out (ekfCore p) → Out (ekfCore p) → Prop
  | odom (t : Int) (x : Option State) {P P' : Mat15} (h : K (P' - P)) : Out.Within K (.odom t x P) (.odom t x P')
  | tf (t : Int) : Out.Within K (.tf t) (.tf t)
  | accel (t : Int) : Out.Within K (.accel t) (.accel t)

/-- The same configuration with something added to the initial covariance, to the one after a reset, and to the process
noise before and after a reset. -/
def Cfg.plus {p : FilterPar} (cfg : Cfg (ekfCore p)) (A A' E E' : Mat15) : Cfg (ekfCore p) :=
  { cfg with
    initialCov := (show Mat15 from cfg.initialCov) + A
    keptCov := (show Mat15 from cfg.keptCov) + A'
    processNoise := (show Mat15 from cfg.processNoise) + E
    keptNoise := (show Mat15 from cfg.keptNoise) + E' }

theorem run_within (p : FilterPar) (h : Drifting S) {K N : Mat15 → Prop}
    (hK : ∀ x dt D, Within S D → K D → K (transferJ x dt * D * (transferJ x dt)ᵀ))
    (hN : ∀ D E (a : ℝ), K D → N E → K (D + a • E)) (P P' : MQueue (ekfCore p))
    (κ : QueueSim (withinSim p h K N hK hN) P P') (cfg : Cfg (ekfCore p)) {A A' E E' : Mat15}
    (hA : Within S A) (hA' : Within S A') (hE : Within S E) (hE' : Within S E') (kA : K A) (kA' : K A') (nE : N E) (nE' : N E')
    (u : Fin 6 → ℝ) (now : Int) (es : List (Node.Event (ekfCore p)))
    (hes : ∀ e ∈ es, e.Silent S) (hset : K 0 ∨ ∀ s n r, Node.Event.setPose s n r ∉ es) :
    List.Forall₂ (Out.Within fun D => Within S D ∧ K D) (Node.run cfg (Node.start cfg P () u now) es).2
      (Node.run (cfg.plus A A' E E') (Node.start (cfg.plus A A' E E') P' () u now) es).2 := by
  have hg : CfgSim (withinSim p h K N hK hN) cfg (cfg.plus A A' E E') :=
    ⟨rfl, rfl, rfl, rfl, rfl, rfl, rfl, rfl, ⟨_, hE, nE, rfl⟩, ⟨_, hA, kA, rfl⟩, ⟨_, hE', nE', rfl⟩,
      ⟨_, hA', kA', rfl⟩⟩
  have he : List.Forall₂ (EventSim (withinSim p h K N hK hN)) es es := by
    rw [List.forall₂_same]
    intro e he
    have hk := hes e he
    have pos : ∀ t, Pos 0 0 t := fun t => Or.inl rfl
    cases e with
    | sensor topic stamp z =>
      have := EventSim.sensor (σ := withinSim p h K N hK hN) topic (stamp := stamp) (z := z) (z' := z)
        (pos _) (by cases z with
          | none => exact .none
          | some z => exact .some ⟨rfl, hk z rfl⟩)
      rwa [Int.add_zero] at this
    | control v t => exact .control ⟨rfl, rfl⟩
    | setPose stamp now r =>
      have hk0 : K 0 := hset.resolve_right fun hn => hn _ _ _ he
      have hP : ∀ P : Mat15, ∃ D : Mat15, Within S D ∧ K D ∧ P = P + D := fun P => ⟨0, .zero, hk0, (add_zero P).symm⟩
      have := EventSim.setPose (σ := withinSim p h K N hK hN) (stamp := stamp) (now := now) (r := r) (r' := r) (pos _) (pos _)
        (by cases r with
          | none => exact .none
          | some r => exact .some ⟨rfl, hP _⟩)
        (fun h => ⟨rfl, hP _⟩)
      rwa [Int.add_zero, Int.add_zero] at this
    | reset => exact .reset rfl fun h => ⟨h.1, rfl⟩
    | toggle on => exact .toggle on
    | enable => exact .enable
    | tick now now2 tfOk =>
      have := EventSim.tick (σ := withinSim p h K N hK hN) tfOk (pos now) (pos now2)
      rwa [Int.add_zero, Int.add_zero] at this
  have hst : NodeSim κ (Node.start cfg P () u now) (Node.start (cfg.plus A A' E E') P' () u now) := by
    have := NodeSim.start (κ := κ) (g := cfg) (g' := cfg.plus A A' E E') hg rfl rfl ⟨rfl, rfl⟩ (e := ()) (e' := ()) trivial
      (u := u) (u' := u) ⟨rfl, rfl⟩ now
    rwa [Int.add_zero] at this
  refine List.Forall₂.imp ?_ (NodeSim.run hg he hst).2
  intro o o' h
  cases h with
  | odom hx hP =>
    rw [Int.add_zero]
    cases hx
    obtain ⟨D, hD, hk, rfl⟩ := hP
    refine .odom _ _ ?_
    rw [add_sub_cancel_left]
    exact ⟨hD, hk⟩
  | tf t => rw [Int.add_zero]; exact .tf t
  | accel t => rw [Int.add_zero]; exact .accel t

/-- C124: two nodes whose configured covariances and process noise differ only in pose variables that are never measured
send the same messages at the same times with the same estimates; also the covariances are equal except for those
variables.  Whatever happens, for all queue implementations that break ties in the same way. -/
theorem C124_any_queue (p : FilterPar) (h : Drifting S) (P P' : MQueue (ekfCore p))
    (κ : QueueSim (withinSim p h (fun _ => True) (fun _ => True) (fun _ _ _ _ _ => trivial) (fun _ _ _ _ _ => trivial)) P P')
    (cfg : Cfg (ekfCore p)) {A A' E E' : Mat15} (hA : Within S A) (hA' : Within S A') (hE : Within S E) (hE' : Within S E')
    (u : Fin 6 → ℝ) (now : Int) (es : List (Node.Event (ekfCore p))) (hes : ∀ e ∈ es, e.Silent S) :
    List.Forall₂ (Out.Within (Within S)) (Node.run cfg (Node.start cfg P () u now) es).2
      (Node.run (cfg.plus A A' E E') (Node.start (cfg.plus A A' E E') P' () u now) es).2 := by
  refine List.Forall₂.imp ?_ (run_within p h _ _ P P' κ cfg hA hA' hE hE' trivial trivial trivial trivial u now es hes
    (Or.inl trivial))
  intro o o' ho
  cases ho with
  | odom t x hd => exact .odom t x hd.1
  | tf t => exact .tf t
  | accel t => exact .accel t

/-- C124 for the queue that keeps its elements sorted. -/
theorem C124_estimate (p : FilterPar) (h : Drifting S) (cfg : Cfg (ekfCore p)) {A A' E E' : Mat15} (hA : Within S A)
    (hA' : Within S A') (hE : Within S E) (hE' : Within S E')
    (u : Fin 6 → ℝ) (now : Int) (es : List (Node.Event (ekfCore p))) (hes : ∀ e ∈ es, e.Silent S) :
    List.Forall₂ (Out.Within (Within S)) (Node.run cfg (Node.start cfg (PQueue.sortedList _ _) () u now) es).2
      (Node.run (cfg.plus A A' E E') (Node.start (cfg.plus A A' E E') (PQueue.sortedList _ _) () u now) es).2 :=
  C124_any_queue p h _ _ (QueueSim.sorted _) cfg hA hA' hE hE' u now es hes

/-- C124, the covariances: with more initial uncertainty about what is never measured, every published covariance is at
least as large. -/
theorem C124_larger (p : FilterPar) (h : Drifting S) (cfg : Cfg (ekfCore p)) {A A' : Mat15} (hA : Within S A)
    (hA' : Within S A') (kA : A.PosSemidef) (kA' : A'.PosSemidef)
    (u : Fin 6 → ℝ) (now : Int) (es : List (Node.Event (ekfCore p))) (hes : ∀ e ∈ es, e.Silent S) :
    List.Forall₂ (Out.Within fun D => Within S D ∧ D.PosSemidef)
      (Node.run cfg (Node.start cfg (PQueue.sortedList _ _) () u now) es).2
      (Node.run (cfg.plus A A' 0 0) (Node.start (cfg.plus A A' 0 0) (PQueue.sortedList _ _) () u now) es).2 :=
  run_within p h (K := Matrix.PosSemidef) (N := fun E => E = 0) (fun x dt D _ hD => psd_congr hD _)
    (fun D E a hD hE => by rw [hE, smul_zero, add_zero]; exact hD) _ _ (QueueSim.sorted _) cfg hA hA' .zero .zero kA kA' rfl rfl
    u now es hes (Or.inl PosSemidef.zero)

/-- A variable whose own error is not changed by predictions. -/
theorem transferJ_self (x : State) (dt : ℝ) (i : Fin 15) (hi : i = iX ∨ i = iY ∨ i = iZ ∨ i = iYaw) : transferJ x dt i i = 1 := by
  show (jEntry (trig x) dt x i i).getD ((fEntry (trig x) dt i i).getD ((1 : Mat15) i i)) = 1
  rw [Matrix.one_apply_eq]
  rcases hi with rfl | rfl | rfl | rfl <;> rfl

theorem positions_drift (hS : ∀ i, S i → i.val < 3) : Drifting S where
  pose i h := by have := hS i h; omega
  head h := by have := hS _ h; simp at this
  tilt h := by rcases h with h | h <;> (have := hS _ h; simp at this)

/-- An uncertainty of the position is not changed by predictions. -/
theorem position_kept (hS : ∀ i, S i → i.val < 3) {D : Mat15} (hD : Within S D) (x : State) (dt : ℝ) :
    transferJ x dt * D * (transferJ x dt)ᵀ = D := by
  have col : ∀ (i j : Fin 15), S j → transferJ x dt i j = if i = j then 1 else 0 := by
    intro i j hj
    have hj3 := hS j hj
    split
    · rename_i e
      subst e
      refine transferJ_self x dt i ?_
      simp only [Fin.ext_iff]
      simp
      omega
    · rename_i e
      exact transferJ_apart x dt i j (decide_eq_true ⟨by omega, e, Or.inr (Or.inl hj3)⟩)
  have e1 : transferJ x dt * D = D := by
    ext i j
    rw [Matrix.mul_apply, Finset.sum_eq_single i]
    · by_cases hi : S i
      · rw [col i i hi, if_pos rfl, one_mul]
      · rw [hD i j fun h => hi h.1, mul_zero]
    · intro b _ hb
      by_cases h : S b
      · rw [col i b h, if_neg hb.symm, zero_mul]
      · rw [hD b j fun hs => h hs.1, mul_zero]
    · exact fun h => absurd (Finset.mem_univ i) h
  rw [e1]
  ext i j
  rw [Matrix.mul_apply, Finset.sum_eq_single j]
  · rw [Matrix.transpose_apply]
    by_cases hj : S j
    · rw [col j j hj, if_pos rfl, mul_one]
    · rw [hD i j fun h => hj h.2, zero_mul]
  · intro b _ hb
    rw [Matrix.transpose_apply]
    by_cases h : S b
    · rw [col j b h, if_neg hb.symm, mul_zero]
    · rw [hD i b fun hs => h hs.2, zero_mul]
  · exact fun h => absurd (Finset.mem_univ j) h

/-- C124, position: an initial uncertainty about a position that is never measured is in every published covariance,
exactly as it was configured, when no pose is set by hand. -/
theorem C124_position (p : FilterPar) (hS : ∀ i, S i → i.val < 3) (cfg : Cfg (ekfCore p)) {A : Mat15} (hA : Within S A)
    (u : Fin 6 → ℝ) (now : Int) (es : List (Node.Event (ekfCore p))) (hes : ∀ e ∈ es, e.Silent S)
    (hset : ∀ s n r, Node.Event.setPose s n r ∉ es) :
    List.Forall₂ (Out.Within fun D => D = A)
      (Node.run cfg (Node.start cfg (PQueue.sortedList _ _) () u now) es).2
      (Node.run (cfg.plus A A 0 0) (Node.start (cfg.plus A A 0 0) (PQueue.sortedList _ _) () u now) es).2 := by
  refine List.Forall₂.imp ?_ (run_within p (positions_drift hS) (K := fun D => D = A) (N := fun E => E = 0)
    (fun x dt D hw hD => (position_kept hS hw x dt).trans hD)
    (fun D E a hD hE => by rw [hE, smul_zero, add_zero]; exact hD) _ _ (QueueSim.sorted _) cfg hA hA .zero .zero rfl rfl rfl rfl
    u now es hes (Or.inr hset))
  intro o o' ho
  cases ho with
  | odom t x hd => exact .odom t x hd.2
  | tf t => exact .tf t
  | accel t => exact .accel t

/-! ## The uncertainty grows -/

/-- A variable and those whose measurements tell something about it: for the heading also x and y. -/
def Involved (i : Fin 15) : Fin 15 → Prop := fun j => j = i ∨ i = iYaw ∧ (j = iX ∨ j = iY)

theorem involved_drifts {i : Fin 15} (hi : i = iX ∨ i = iY ∨ i = iZ ∨ i = iYaw) : Drifting (Involved i) where
  pose j hj := by
    rcases hj with rfl | ⟨-, rfl | rfl⟩
    · rcases hi with rfl | rfl | rfl | rfl <;> decide
    · decide
    · decide
  head h := by
    rcases h with rfl | ⟨rfl, -⟩ <;> exact ⟨Or.inr ⟨rfl, Or.inl rfl⟩, Or.inr ⟨rfl, Or.inr rfl⟩⟩
  tilt h := by
    exfalso
    rcases h with (rfl | ⟨-, h | h⟩) | (rfl | ⟨-, h | h⟩)
    · revert hi; decide
    · revert h; decide
    · revert h; decide
    · revert hi; decide
    · revert h; decide
    · revert h; decide

theorem transferJ_involved (x : State) (dt : ℝ) {i : Fin 15} (hi : i = iX ∨ i = iY ∨ i = iZ ∨ i = iYaw) {j : Fin 15}
    (hj : Involved i j) : transferJ x dt i j = if j = i then 1 else 0 := by
  split
  · rename_i e
    rw [e]
    exact transferJ_self x dt i hi
  · rename_i e
    rcases hj with hj | ⟨rfl, rfl | rfl⟩
    · exact absurd hj e
    · exact transferJ_apart x dt _ _ (by decide)
    · exact transferJ_apart x dt _ _ (by decide)

/-- Part of the covariance that stems from the noise of `i` and has reached the value `v`. -/
def Unlearnt (i : Fin 15) (v : ℝ) (x : Option State) (P : Mat15) : Prop :=
  x ≠ none → ∃ D : Mat15, Within (Involved i) D ∧ D.PosSemidef ∧ (P - D).PosSemidef ∧ v ≤ D i i

/-- One variance. -/
def spike (i : Fin 15) : Mat15 := Matrix.diagonal (Pi.single i 1)

theorem spike_psd (i : Fin 15) : (spike i).PosSemidef := by
  refine PosSemidef.diagonal fun j => ?_
  by_cases h : j = i
  · subst h; simp
  · simp [Pi.single_eq_of_ne h]

theorem spike_within (i : Fin 15) : Within (Involved i) (spike i) := by
  intro a b h
  unfold spike
  by_cases hab : a = b
  · subst hab
    have ha : a ≠ i := fun e => h ⟨Or.inl e, Or.inl e⟩
    rw [Matrix.diagonal_apply_eq, Pi.single_eq_of_ne ha]
  · rw [Matrix.diagonal_apply_ne _ hab]

variable {p : FilterPar}

theorem unlearnt_predict (hp : p.dynamic = false) {i : Fin 15} (hi : i = iX ∨ i = iY ∨ i = iZ ∨ i = iYaw) {q v : ℝ} (hq : 0 ≤ q)
    {Q : Mat15} (hQ : (Q - q • spike i).PosSemidef) (ctl : Fin 6 → ℝ) (ct ref delta : Int) (hd : 0 ≤ delta)
    {x : Option State} {P : Mat15} {u : Unit} (h : Unlearnt i v x P) :
    Unlearnt i (v + q * toSec delta) ((ekfCore p).predict Q ctl ct ref delta (x, P, u)).1
      ((ekfCore p).predict Q ctl ct ref delta (x, P, u)).2.1 := by
  cases x with
  | none => intro h'; exact absurd rfl h'
  | some x =>
    obtain ⟨D, h1, h2, h3, h4⟩ := h (by simp)
    have e1 : (ekfCore p).predict Q ctl ct ref delta (some x, P, u) = match Ekf.predict p Q ctl ct ref (toSec delta) x P with
        | some r => (some r.1, r.2, ())
        | none => (none, P, ()) := rfl
    rw [e1]
    have hdt := toSec_nonneg hd
    cases hr : Ekf.predict p Q ctl ct ref (toSec delta) x P with
    | none => intro h'; exact absurd rfl h'
    | some r =>
      intro _
      show ∃ D : Mat15, Within (Involved i) D ∧ D.PosSemidef ∧ (r.2 - D).PosSemidef ∧ v + q * toSec delta ≤ D i i
      unfold Ekf.predict at hr
      dsimp only at hr
      split at hr
      · cases hr
      have hr2 := congrArg Prod.snd (Option.some.inj hr)
      dsimp only at hr2
      have hn : noiseQ p Q x = Q := by simp [noiseQ, hp]
      rw [hn] at hr2
      rw [← hr2]
      refine ⟨transferJ x (toSec delta) * D * (transferJ x (toSec delta))ᵀ + toSec delta • q • spike i,
        (h1.congruence (involved_drifts hi) _ _).add (((spike_within i).smul _).smul _),
        (psd_congr h2 _).add (((spike_psd i).smul hq).smul hdt), ?_, ?_⟩
      · have e : transferJ x (toSec delta) * P * (transferJ x (toSec delta))ᵀ + toSec delta • Q -
            (transferJ x (toSec delta) * D * (transferJ x (toSec delta))ᵀ + toSec delta • q • spike i) =
            transferJ x (toSec delta) * (P - D) * (transferJ x (toSec delta))ᵀ + toSec delta • (Q - q • spike i) := by
          rw [mul_sub, sub_mul, smul_sub]
          abel
        rw [e]
        exact (psd_congr h3 _).add (hQ.smul hdt)
      · have row : ∀ b, (transferJ x (toSec delta) * D) i b = D i b := by
          intro b
          rw [Matrix.mul_apply, Finset.sum_eq_single i]
          · rw [transferJ_self x _ i hi, one_mul]
          · intro j _ hj
            by_cases hin : Involved i j
            · rw [transferJ_involved x _ hi hin, if_neg hj, zero_mul]
            · rw [h1 j b fun hs => hin hs.1, mul_zero]
          · exact fun h => absurd (Finset.mem_univ i) h
        have ent : (transferJ x (toSec delta) * D * (transferJ x (toSec delta))ᵀ) i i = D i i := by
          rw [Matrix.mul_apply, Finset.sum_eq_single i]
          · rw [row, Matrix.transpose_apply, transferJ_self x _ i hi, mul_one]
          · intro j _ hj
            rw [row, Matrix.transpose_apply]
            by_cases hin : Involved i j
            · rw [transferJ_involved x _ hi hin, if_neg hj, mul_zero]
            · rw [h1 i j fun hs => hin hs.2, zero_mul]
          · exact fun h => absurd (Finset.mem_univ i) h
        rw [Matrix.add_apply, ent, Matrix.smul_apply, Matrix.smul_apply]
        simp only [spike, Matrix.diagonal_apply_eq, Pi.single_eq_same, smul_eq_mul, mul_one]
        linarith [mul_comm (toSec delta) q]

theorem unlearnt_correct {i : Fin 15} {v : ℝ} {m : Payload} (hm : m.GoodR) (hs : m.Silent (Involved i))
    {x : Option State} {P : Mat15} {u : Unit} (h : Unlearnt i v x P) :
    Unlearnt i v ((ekfCore p).correct m (x, P, u)).1 ((ekfCore p).correct m (x, P, u)).2.1 := by
  cases x with
  | none => intro h'; exact absurd rfl h'
  | some x =>
    obtain ⟨D, h1, h2, h3, h4⟩ := h (by simp)
    have e1 : (ekfCore p).correct m (some x, P, u) = match Ekf.correct m x P with
        | some r => (some r.1, r.2, ())
        | none => (none, P, ()) := rfl
    have e2 : Ekf.correct m x P = (Ekf.correct m x (P - D)).map fun r => (r.1, r.2 + D) := by
      rw [← correct_within h1 hs, sub_add_cancel]
    rw [e1, e2]
    cases hr : Ekf.correct m x (P - D) with
    | none => intro h'; exact absurd rfl h'
    | some r =>
      intro _
      refine ⟨D, h1, h2, ?_, h4⟩
      show (r.2 + D - D).PosSemidef
      rw [add_sub_cancel_right]
      exact correctAt_psd hm.sub h3 (x' := r.1) hr

/-- C124, growth: as long as nothing that is measured tells anything about a position or heading, its variance is at least
the process noise of that variable times the time that has passed. -/
theorem C124_grows (hp : p.dynamic = false) {i : Fin 15} (hi : i = iX ∨ i = iY ∨ i = iZ ∨ i = iYaw) {q : ℝ} (hq : 0 ≤ q)
    (f : Filt (ekfCore p)) (hf : f.initialized = true) {Q : Mat15} (hpar : f.par = Q) (hQ : (Q - q • spike i).PosSemidef)
    (h0 : CovOk f.x f.cov) (ms : List (Meas (ekfCore p)))
    (hms : ∀ m ∈ ms, Payload.GoodR m.z ∧ Payload.Silent (Involved i) m.z)
    (hx : (ms.foldl Filt.processMeasurement f).x ≠ none) :
    q * toSec ((ms.foldl Filt.processMeasurement f).lastTime - f.lastTime) ≤
      ((ms.foldl Filt.processMeasurement f).cov : Mat15) i i ∧
    ∀ m ∈ ms, m.time ≤ (ms.foldl Filt.processMeasurement f).lastTime := by
  have key : ∀ (ms : List (Meas (ekfCore p))) (g : Filt (ekfCore p)), g.initialized = true → g.par = Q →
      (∀ m ∈ ms, Payload.GoodR m.z ∧ Payload.Silent (Involved i) m.z) →
      Unlearnt i (q * toSec (g.lastTime - f.lastTime)) g.x g.cov →
      Unlearnt i (q * toSec ((ms.foldl Filt.processMeasurement g).lastTime - f.lastTime)) (ms.foldl Filt.processMeasurement g).x
        (ms.foldl Filt.processMeasurement g).cov ∧ g.lastTime ≤ (ms.foldl Filt.processMeasurement g).lastTime ∧
      ∀ m ∈ ms, m.time ≤ (ms.foldl Filt.processMeasurement g).lastTime := by
    intro ms
    induction ms with
    | nil => exact fun g _ _ _ h => ⟨h, le_rfl, fun m hm => by cases hm⟩
    | cons m ms ih =>
      intro g hg hpar hms h
      obtain ⟨hgood, hsil⟩ := hms m List.mem_cons_self
      have step : (g.processMeasurement m).par = g.par ∧ g.lastTime ≤ (g.processMeasurement m).lastTime ∧
          m.time ≤ (g.processMeasurement m).lastTime ∧
          Unlearnt i (q * toSec ((g.processMeasurement m).lastTime - f.lastTime)) (g.processMeasurement m).x
            (g.processMeasurement m).cov := by
        unfold Filt.processMeasurement
        simp only [hg, if_true]
        by_cases hpos : m.time - g.lastTime > 0
        · have hge : m.time - g.lastTime ≥ 0 := by omega
          rw [if_pos hpos, if_pos hge]
          refine ⟨rfl, ?_, le_rfl, ?_⟩
          · show g.lastTime ≤ m.time
            omega
          · have hstep := unlearnt_predict (p := p) hp hi hq (Q := g.par) (by rw [hpar]; exact hQ) g.ctl g.ctlTime m.time
              (m.time - g.lastTime) (by omega) (u := g.ext) h
            have e : q * toSec (m.time - f.lastTime) = q * toSec (g.lastTime - f.lastTime) + q * toSec (m.time - g.lastTime) := by
              rw [← mul_add]
              unfold toSec
              push_cast
              ring
            have := unlearnt_correct (p := p) (u := ()) hgood hsil hstep
            rw [← e] at this
            exact this
        · rw [if_neg hpos]
          have hc := unlearnt_correct (p := p) (u := g.ext) hgood hsil h
          by_cases hge : m.time - g.lastTime ≥ 0
          · rw [if_pos hge]
            have e : m.time = g.lastTime := by omega
            refine ⟨rfl, ?_, le_rfl, ?_⟩
            · show g.lastTime ≤ m.time
              omega
            · show Unlearnt i (q * toSec (m.time - f.lastTime)) _ _
              rw [e]
              exact hc
          · rw [if_neg hge]
            refine ⟨rfl, le_rfl, ?_, hc⟩
            show m.time ≤ g.lastTime
            omega
      obtain ⟨s1, s2, s3, s4⟩ := step
      obtain ⟨r1, r2, r3⟩ := ih _ (Filt.processMeasurement_initialized g m) (s1.trans hpar)
        (fun m' hm' => hms m' (List.mem_cons_of_mem _ hm')) s4
      refine ⟨r1, s2.trans r2, ?_⟩
      intro m' hm'
      rcases List.mem_cons.1 hm' with rfl | hm'
      · exact s3.trans r2
      · exact r3 m' hm'
  obtain ⟨k1, -, k3⟩ := key ms f hf hpar hms (by
    intro hx
    refine ⟨0, .zero, PosSemidef.zero, ?_, ?_⟩
    · have e : (show Mat15 from f.cov) - 0 = f.cov := sub_zero _
      erw [e]
      exact h0 hx
    · simp [toSec])
  refine ⟨?_, k3⟩
  obtain ⟨D, -, -, h3, h4⟩ := k1 hx
  have := h3.diag_nonneg (i := i)
  erw [Matrix.sub_apply] at this
  linarith

/-- C124 needs that the variables are not measured: a measured position moves the estimate by half the way if its variance
is as large as that of the measurement, and by three quarters of the way if it is three times as large. -/
theorem C124_measured : ∃ (m : Payload) (r r' : State × Mat15), m.Certain ∧ Within (Involved iX) ((2 : ℝ) • spike iX) ∧
    Ekf.correct m 0 1 = some r ∧ Ekf.correct m 0 (1 + (2 : ℝ) • spike iX) = some r' ∧ r.1 iX = 1 / 2 ∧ r'.1 iX = 3 / 4 := by
  have h2 : (1 + (2 : ℝ) • spike iX).PosSemidef := PosSemidef.one.add ((spike_psd iX).smul (by norm_num))
  refine ⟨oneVar iX 1 .unlimited, _, _, oneVar_certain _ _, (spike_within iX).smul 2,
    correct_one iX (oneVar_indices _ _ _) (oneVar_certain _ _) 0 PosSemidef.one,
    correct_one iX (oneVar_indices _ _ _) (oneVar_certain _ _) 0 h2, ?_, ?_⟩
  · have hni : ¬ (iX = iRoll ∨ iX = iPitch ∨ iX = iYaw) := by decide
    have hs : sanitize 1 = 1 := by unfold sanitize; norm_num
    simp only [wrapStateAngles, if_neg hni, oneVar, Matrix.one_apply_eq, hs, Pi.zero_apply, Dbl.val]
    norm_num
  · have hni : ¬ (iX = iRoll ∨ iX = iPitch ∨ iX = iYaw) := by decide
    have hs : sanitize 1 = 1 := by unfold sanitize; norm_num
    simp only [wrapStateAngles, if_neg hni, oneVar, Matrix.one_apply_eq, hs, Pi.zero_apply, Dbl.val, Matrix.add_apply,
      Matrix.smul_apply, spike, Matrix.diagonal_apply_eq, Pi.single_eq_same, smul_eq_mul]
    norm_num

/-- The pose of a robot in the plane, the position, and the whole pose. -/
example : Drifting (fun i => i = iX ∨ i = iY ∨ i = iYaw) ∧ Drifting (fun i => i.val < 3) ∧ Drifting (fun i => i.val < 6) := by
  refine ⟨⟨?_, ?_, ?_⟩, positions_drift fun _ h => h, ⟨fun _ h => h, ?_, ?_⟩⟩
  · rintro i (rfl | rfl | rfl) <;> decide
  · exact fun _ => ⟨Or.inl rfl, Or.inr (Or.inl rfl)⟩
  · intro h
    exact absurd h (by decide)
  · exact fun _ => ⟨by decide, by decide⟩
  · exact fun _ _ h => h

/-- Wheel odometry in `two_d_mode`, a command, a pose set by hand, a reset and a cycle. -/
example : ∀ e ∈ ([.sensor "wheels" 1 (some (demoZ (fun i => decide (i ≠ iX ∧ i ≠ iY ∧ i ≠ iYaw)) (fun _ => .fin 0))),
    .control (0 : Fin 6 → ℝ) 1, .setPose 2 2 none, .reset, .tick 3 3 true] : List (Node.Event (ekfCore demoPar))),
    e.Silent (fun i => i = iX ∨ i = iY ∨ i = iYaw) := by
  intro e he
  simp only [List.mem_cons, List.not_mem_nil, or_false] at he
  rcases he with rfl | rfl | rfl | rfl | rfl
  · intro m hm
    injection hm with hm
    subst hm
    rintro i (rfl | rfl | rfl) <;> rfl
  · trivial
  · trivial
  · trivial
  · trivial

/-- The pose block of the initial covariance, of 1 m² and 1 rad². -/
example : Within (fun i => i.val < 6) (diagonal fun i => if i.val < 6 then 1 else 0) ∧
    (diagonal fun i : Fin 15 => if i.val < 6 then (1 : ℝ) else 0).PosSemidef := by
  constructor
  · intro i j h
    by_cases hij : i = j
    · subst hij
      rw [Matrix.diagonal_apply_eq, if_neg fun hi => h ⟨hi, hi⟩]
    · exact Matrix.diagonal_apply_ne _ hij
  · refine PosSemidef.diagonal fun i => ?_
    dsimp only
    split
    · exact zero_le_one
    · exact le_rfl

/-- The default process noise of the heading is 0.06. -/
theorem default_heading : (defaultQ - (0.06 : ℝ) • spike iYaw).PosSemidef := by
  have e : defaultQ - (0.06 : ℝ) • spike iYaw = diagonal fun i =>
      ![0.05, 0.05, 0.06, 0.03, 0.03, 0.06, 0.025, 0.025, 0.04, 0.01, 0.01, 0.02, 0.01, 0.01, 0.015] i -
        0.06 * (Pi.single iYaw 1 : Fin 15 → ℝ) i := by
    ext i j
    unfold defaultQ spike
    by_cases h : i = j
    · subst h
      simp
    · simp [h]
  rw [e]
  refine PosSemidef.diagonal fun i => ?_
  by_cases h : i = iYaw
  · subst h
    simp
    exact le_rfl
  · rw [Pi.single_eq_of_ne h]
    fin_cases i <;> simp <;> norm_num

/-- A forward velocity measured after one second. -/
example : ∃ f : Filt (ekfCore plainPar), f.initialized = true ∧ f.par = defaultQ ∧ CovOk f.x f.cov ∧
    (∀ m ∈ [(⟨1000000000, "wheels", oneVar iVx 1 .unlimited, (0 : Fin 6 → ℝ), 0⟩ : Meas (ekfCore plainPar))],
      Payload.GoodR m.z ∧ Payload.Silent (Involved iYaw) m.z) ∧
    ([(⟨1000000000, "wheels", oneVar iVx 1 .unlimited, (0 : Fin 6 → ℝ), 0⟩ : Meas (ekfCore plainPar))].foldl
      Filt.processMeasurement f).x ≠ none := by
  refine ⟨⟨true, some 0, (1 : Mat15), (), some 0, defaultQ, (0 : Fin 6 → ℝ), 0, 0, 0⟩, rfl, rfl, fun _ => PosSemidef.one, ?_, ?_⟩
  · intro m hm
    obtain rfl := List.mem_singleton.1 hm
    refine ⟨(oneVar_certain iVx 1).good, ?_⟩
    rintro i (rfl | ⟨-, rfl | rfl⟩) <;> rfl
  · obtain ⟨r, hr⟩ : ∃ r, Ekf.predict plainPar defaultQ 0 0 1000000000 (toSec 1000000000) 0 1 = some r := by
      unfold Ekf.predict
      dsimp only
      rw [if_neg (by simp)]
      exact ⟨_, rfl⟩
    have hP : r.2.PosSemidef := predict_psd (p := plainPar) defaultQ_psd (fun h => by cases h) (toSec_nonneg (by norm_num))
      PosSemidef.one (x' := r.1) hr
    have hc := correct_one iVx (oneVar_indices iVx 1 .unlimited) (oneVar_certain iVx 1) r.1 hP
    rw [List.foldl_cons, List.foldl_nil]
    unfold Filt.processMeasurement
    simp only [if_true]
    rw [if_pos (by norm_num), if_pos (by norm_num)]
    simp [Filt.predict, Filt.correct, ekfCore, hr, hc]

end RL
