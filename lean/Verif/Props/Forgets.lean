import Verif.Props.KnowingBetter
import Verif.Props.Superpose
/-! # C150: a wrong initial velocity is forgotten as fast as the filter says -/

namespace RL
open Matrix

variable {p : FilterPar} {κ : ℝ}

/-- In every combination of velocities and accelerations, the two states differ by at most √κ standard deviations. -/
def WithinSd (κ : ℝ) (x x' : State) (P : Mat15) : Prop :=
  ∀ v : State, (∀ i : Fin 15, i.val < 6 → v i = 0) → (v ⬝ᵥ (x' - x)) ^ 2 ≤ κ * (v ⬝ᵥ P.mulVec v)

/-- A measurement of velocities and accelerations, with a covariance and without rejection threshold. -/
structure Payload.OpenMotion (m : Payload) : Prop where
  motion : ∀ i, m.upd i = true → 6 ≤ i.val
  good : m.GoodR
  «open» : m.thresh = .unlimited

/-- What may happen to the two nodes: such measurements, and poses set with uncorrelated velocities. -/
def Node.Event.OpenMotion : Node.Event (ekfCore p) → Prop
  | .sensor _ _ (some m) => Payload.OpenMotion m
  | .setPose _ _ (some r) => MotionDiag (r : Option State × Mat15).2
  | _ => True

/-- The same messages at the same times; as long as both estimates are finite, they differ by at most √κ of the standard
deviations that both of them send. -/
inductive Out.Close (κ : ℝ) : Out (ekfCore p) → Out (ekfCore p) → Prop
  | odom (t : Int) {x x' : Option State} {P P' : Mat15}
      (h : ∀ y y', x = some y → x' = some y' → WithinSd κ y y' P ∧ WithinSd κ y y' P') : Close κ (.odom t x P) (.odom t x' P')
  | tf (t : Int) : Close κ (.tf t) (.tf t)
  | accel (t : Int) : Close κ (.accel t) (.accel t)

theorem form_quad {n : ℕ} (A : Matrix (Fin 15) (Fin n) ℝ) (P : Matrix (Fin n) (Fin n) ℝ) (v : State) :
    v ⬝ᵥ (A * P * Aᵀ).mulVec v = (v ᵥ* A) ⬝ᵥ P.mulVec (v ᵥ* A) := by
  rw [← mulVec_mulVec, ← mulVec_mulVec, dotProduct_mulVec, mulVec_transpose]

theorem transferJ_eq_F (x : State) (dt : ℝ) : ∀ i j : Fin 15, 6 ≤ i.val → transferJ x dt i j = transferF x dt i j := by
  intro i j h
  show (jEntry (trig x) dt x i j).getD ((fEntry (trig x) dt i j).getD ((1 : Mat15) i j)) =
    (fEntry (trig x) dt i j).getD ((1 : Mat15) i j)
  revert h
  fin_cases i <;> first
    | exact fun h => absurd h (by decide)
    | (fin_cases j <;> exact fun _ => rfl)

/-- A step that acts on the difference as the filter says it does. -/
theorem WithinSd.step {x x' y y' : State} {P N : Mat15} {A : Mat15} (h : WithinSd κ x x' P)
    (hκ : 0 ≤ κ) (h0 : ∀ i j : Fin 15, 6 ≤ i.val → j.val < 6 → A i j = 0)
    (hd : ∀ i : Fin 15, 6 ≤ i.val → y' i - y i = A.mulVec (x' - x) i)
    (hN : ∀ v : State, (∀ i : Fin 15, i.val < 6 → v i = 0) → 0 ≤ v ⬝ᵥ N.mulVec v) :
    WithinSd κ y y' (A * P * Aᵀ + N) := by
  intro v hv
  have e : v ⬝ᵥ (y' - y) = (v ᵥ* A) ⬝ᵥ (x' - x) := by
    rw [← dotProduct_mulVec]
    refine Finset.sum_congr rfl fun i _ => ?_
    by_cases hi : i.val < 6
    · rw [hv i hi, zero_mul, zero_mul]
    · rw [← hd i (by omega)]
      rfl
  have hw : ∀ j : Fin 15, j.val < 6 → (v ᵥ* A) j = 0 := by
    intro j hj
    show ∑ i, v i * A i j = 0
    refine Finset.sum_eq_zero fun i _ => ?_
    by_cases hi : i.val < 6
    · rw [hv i hi, zero_mul]
    · rw [h0 i j (by omega) hj, mul_zero]
  rw [e, Matrix.add_mulVec, dotProduct_add, form_quad, mul_add]
  exact (h _ hw).trans (le_add_of_nonneg_right (mul_nonneg hκ (hN v hv)))

theorem WithinSd.congr {x x' : State} {P P' : Mat15} (h : WithinSd κ x x' P) (hP : SameMotion P P') : WithinSd κ x x' P' := by
  intro v hv
  rw [form_motion hP hv]
  exact h v hv

theorem WithinSd.predict (hκ : 0 ≤ κ) (hp : ∀ c, p.ctlUpd c = false) {Q P P' : Mat15} (hQ : MotionCov Q)
    {u u' : Fin 6 → ℝ} {t ref : Int} {dt : ℝ} (hdt : 0 ≤ dt)
    {x x' : State} (hx : WithinSd κ x x' P) {r r' : State × Mat15}
    (h : Ekf.predict p Q u t ref dt x P = some r) (h' : Ekf.predict p Q u' t ref dt x' P' = some r') :
    WithinSd κ r.1 r'.1 r.2 := by
  have key : ∀ {Q P : Mat15} {u : Fin 6 → ℝ} {y : State} {s : State × Mat15}, Ekf.predict p Q u t ref dt y P = some s →
      ∀ i : Fin 15, 6 ≤ i.val → s.1 i = ∑ j, transferJ x dt i j * y j := by
    intro Q P u y s hs i hi
    unfold Ekf.predict at hs
    dsimp only at hs
    split at hs
    · cases hs
    injection hs with hs
    rw [← hs]
    show wrapStateAngles _ i = _
    rw [wrap_motion _ i hi, applyControl_none p hp]
    show ∑ j, transferF y dt i j * y j = _
    refine Finset.sum_congr rfl fun j _ => ?_
    rw [transferF_motion x y dt i j hi, transferJ_eq_F x dt i j hi]
  have hP : r.2 = transferJ x dt * P * (transferJ x dt)ᵀ + dt • noiseQ p Q x := by
    unfold Ekf.predict at h
    dsimp only at h
    split at h
    · cases h
    injection h with h
    rw [← h]
  rw [hP]
  refine hx.step hκ (transferJ_motion_pose x dt) (fun i hi => ?_) fun v hv => ?_
  · rw [key h i hi, key h' i hi, ← Finset.sum_sub_distrib]
    show _ = ∑ j, transferJ x dt i j * (x' j - x j)
    refine Finset.sum_congr rfl fun j _ => ?_
    ring
  · have hn : SameMotion Q (noiseQ p Q x) := SameMotion.noise (p := plainPar) (p' := p) (fun _ _ _ _ => rfl) 0 x
    rw [Matrix.smul_mulVec, dotProduct_smul, smul_eq_mul, form_motion hn hv]
    exact mul_nonneg hdt (hQ.nonneg v hv)

theorem WithinSd.correct (hκ : 0 ≤ κ) {m : Payload} (hm : m.OpenMotion) {P P' : Mat15} (hP : SameMotion P P')
    {x x' : State} (hx : WithinSd κ x x' P) {r r' : State × Mat15}
    (h : Ekf.correct m x P = some r) (h' : Ekf.correct m x' P' = some r') : WithinSd κ r.1 r'.1 r.2 := by
  have he : ∀ c, 6 ≤ (m.indices.get c).val := fun c => hm.motion _ (Payload.selected c)
  have key : ∀ {P' : Mat15} {y : State} {s : State × Mat15}, SameMotion P P' → Ekf.correct m y P' = some s →
      (∀ i : Fin 15, 6 ≤ i.val →
        s.1 i = y i + ∑ c, gain m.indices.get m.R P i c * ((m.z (m.indices.get c)).val - y (m.indices.get c))) ∧
      s.2 = joseph m.indices.get m.R (gain m.indices.get m.R P') P' := by
    intro P' y s hP' hs
    unfold Ekf.correct correctAt at hs
    rw [hm.open] at hs
    split at hs
    · cases hs
    rw [if_pos (show checkMahalanobis _ _ .unlimited from trivial)] at hs
    injection hs with hs
    rw [← hs]
    refine ⟨fun i hi => ?_, rfl⟩
    show wrapStateAngles _ i = _
    rw [wrap_motion _ i hi]
    show y i + ∑ c, gain m.indices.get m.R P' i c * innovation m.indices.get (fun i => (m.z i).val) y c = _
    congr 1
    refine Finset.sum_congr rfl fun c _ => ?_
    rw [innovation_motion he, gain_motion he (fun _ _ => rfl) hP' i hi c]
  have k := key (fun _ _ _ _ => rfl) h
  have k' := key hP h'
  rw [k.2]
  unfold joseph
  refine hx.step hκ (fun i j hi hj => ?_) (fun i hi => ?_) fun v _ => ?_
  · rw [Matrix.sub_apply, Matrix.one_apply_ne fun hh => by rw [hh] at hi; omega, Matrix.mul_apply, zero_sub, neg_eq_zero]
    refine Finset.sum_eq_zero fun c _ => ?_
    show _ * (if j = m.indices.get c then (1 : ℝ) else 0) = 0
    rw [if_neg, mul_zero]
    intro hh
    have := he c
    rw [← hh] at this
    omega
  · rw [k.1 i hi, k'.1 i hi, Matrix.sub_mulVec, Matrix.one_mulVec, ← mulVec_mulVec]
    show _ = (x' i - x i) - ∑ c, gain m.indices.get m.R P i c * (∑ j, (if j = m.indices.get c then (1 : ℝ) else 0) * (x' j - x j))
    have e : ∀ a b s s' t : ℝ, s' - s = - t → a + s' - (b + s) = a - b - t := by
      intros
      linarith
    apply e
    rw [← Finset.sum_sub_distrib, ← Finset.sum_neg_distrib]
    refine Finset.sum_congr rfl fun c _ => ?_
    simp only [ite_mul, one_mul, zero_mul, Finset.sum_ite_eq', Finset.mem_univ, if_true]
    ring
  · rw [form_quad]
    have := (subR_psd hm.good.sub).dotProduct_mulVec_nonneg (v ᵥ* gain m.indices.get m.R P)
    rwa [star_trivial] at this

theorem initCov_form {m : Payload} (hm : m.OpenMotion) {P : Mat15} (hP : MotionDiag P) {v : State}
    (hv : ∀ i : Fin 15, i.val < 6 → v i = 0) :
    (fun i => if m.upd i then 0 else v i) ⬝ᵥ P.mulVec (fun i => if m.upd i then 0 else v i) ≤ v ⬝ᵥ (initCov m P).mulVec v := by
  have e : v ⬝ᵥ (initCov m P).mulVec v =
      v ⬝ᵥ (Matrix.of fun i j => if m.upd i && m.upd j then m.R i j else 0).mulVec v +
      (fun i => if m.upd i then 0 else v i) ⬝ᵥ P.mulVec (fun i => if m.upd i then 0 else v i) := by
    simp only [dotProduct, mulVec, ← Finset.sum_add_distrib, Finset.mul_sum]
    refine Finset.sum_congr rfl fun i _ => ?_
    refine Finset.sum_congr rfl fun j _ => ?_
    simp only [initCov, of_apply]
    by_cases hi : i.val < 6
    · by_cases h1 : m.upd i = true <;> simp [hv i hi, h1]
    by_cases hj : j.val < 6
    · by_cases h1 : m.upd j = true <;> simp [hv j hj, h1]
    by_cases hij : i = j
    · subst hij
      by_cases h1 : m.upd i = true <;> simp [h1]
    · have := hP.off i j (by omega) (by omega) hij
      by_cases h1 : m.upd i = true <;> by_cases h2 : m.upd j = true <;> simp [h1, h2, this]
  rw [e]
  have := (psd_mask m.upd m.R hm.good).dotProduct_mulVec_nonneg v
  rw [star_trivial] at this
  linarith

theorem WithinSd.init (hκ : 0 ≤ κ) {m : Payload} (hm : m.OpenMotion) {P : Mat15} (hP : MotionDiag P) {x x' : State}
    (hx : WithinSd κ x x' P) {y y' : State} (h : initState m x = some y) (h' : initState m x' = some y') :
    WithinSd κ y y' (initCov m P) := by
  unfold initState at h h'
  by_cases hf : ∀ i : Fin 15, m.upd i = true → (m.z i).isFin = true
  swap
  · rw [if_neg hf] at h
    cases h
  rw [if_pos hf] at h h'
  injection h with h
  injection h' with h'
  intro v hv
  have e : v ⬝ᵥ (y' - y) = (fun i => if m.upd i then 0 else v i) ⬝ᵥ (x' - x) := by
    refine Finset.sum_congr rfl fun i _ => ?_
    rw [← h, ← h']
    simp only [Pi.sub_apply]
    cases m.upd i <;> simp
  rw [e]
  refine (hx _ fun i hi => ?_).trans (mul_le_mul_of_nonneg_left (initCov_form hm hP hv) hκ)
  rw [hv i hi, ite_self]

/-- What relates the two estimates. -/
def CloseSure (κ : ℝ) (x : (pairCore (ekfCore p) (ekfCore p)).X) (P : (pairCore (ekfCore p) (ekfCore p)).Cov) : Prop :=
  ∀ y y', (x : Option State × Option State).1 = some y → (x : Option State × Option State).2 = some y' →
    WithinSd κ y y' (P : Mat15 × Mat15).1 ∧ SameMotion (P : Mat15 × Mat15).1 (P : Mat15 × Mat15).2

/-- And before the first measurement. -/
def CloseStart (κ : ℝ) (x : (pairCore (ekfCore p) (ekfCore p)).X) (P : (pairCore (ekfCore p) (ekfCore p)).Cov) : Prop :=
  CloseSure κ x P ∧ MotionDiag (P : Mat15 × Mat15).1

theorem WithinSd.same (hκ : 0 ≤ κ) (x : State) {P : Mat15} (hP : MotionDiag P) : WithinSd κ x x P := by
  intro v _
  rename_i hv
  rw [sub_self, dotProduct_zero, ← form_motion (motionOf_same P) hv]
  have := hP.cov.dotProduct_mulVec_nonneg v
  rw [star_trivial] at this
  rw [zero_pow two_ne_zero]
  exact mul_nonneg hκ this

theorem CloseStart.same (hκ : 0 ≤ κ) (x : Option State) {P : Mat15} (hP : MotionDiag P) : CloseStart (p := p) κ (x, x) (P, P) := by
  refine ⟨fun y y' h h' => ?_, hP⟩
  cases h
  cases h'
  exact ⟨.same hκ y hP, fun _ _ _ _ => rfl⟩

theorem closeSure_inv (hκ : 0 ≤ κ) (hp : ∀ c, p.ctlUpd c = false) {g : Cfg (ekfCore p)} (hQ : MotionCov g.processNoise)
    (hQ' : MotionCov g.keptNoise) (hP : MotionDiag g.initialCov) (hP' : MotionDiag g.keptCov) {x x' : Option State}
    (hx : ∀ y y', x = some y → x' = some y' → WithinSd κ y y' g.initialCov) :
    EstInv ((g.from x).pair (g.from x')) (CloseSure κ) (CloseStart κ)
      (fun z => (z : Payload × Payload).2 = (z : Payload × Payload).1 ∧ Payload.OpenMotion (z : Payload × Payload).1)
      (fun _ => True) where
  predict := by
    rintro ⟨Q, Q'⟩ hpar ⟨u, u'⟩ t ref delta ⟨x, x'⟩ ⟨P, P'⟩ ⟨⟨⟩, ⟨⟩⟩ hdelta - hI y y' h h'
    have hQ : MotionCov Q ∧ Q' = Q := by
      rcases hpar with hh | hh
      · cases hh
        exact ⟨hQ, rfl⟩
      · cases hh
        exact ⟨hQ', rfl⟩
    obtain ⟨hQ, rfl⟩ := hQ
    obtain ⟨x0, rfl, e⟩ := ekf_predict_some h
    obtain ⟨y0, rfl, e'⟩ := ekf_predict_some h'
    obtain ⟨a1, a2⟩ := hI x0 y0 rfl rfl
    exact ⟨WithinSd.predict hκ hp hQ (toSec_nonneg hdelta) a1 e e', SameMotion.predict (fun _ _ _ _ => rfl) a2 e e'⟩
  correct := by
    rintro ⟨z, z'⟩ ⟨x, x'⟩ ⟨P, P'⟩ ⟨⟨⟩, ⟨⟩⟩ ⟨hzz, hz⟩ hI y y' h h'
    change z' = z at hzz
    subst hzz
    obtain ⟨x0, rfl, e⟩ := ekf_correct_some h
    obtain ⟨y0, rfl, e'⟩ := ekf_correct_some h'
    obtain ⟨a1, a2⟩ := hI x0 y0 rfl rfl
    exact ⟨WithinSd.correct hκ hz a2 a1 e e',
      SameMotion.correct ⟨rfl, hz.motion, fun _ _ => rfl, fun _ _ _ _ => rfl, hz.open, hz.open⟩ a2 e e'⟩
  init := by
    rintro ⟨z, z'⟩ ⟨x, x'⟩ ⟨P, P'⟩ ⟨hzz, hz⟩ ⟨hI, hd⟩ y y' h h'
    change z' = z at hzz
    subst hzz
    obtain ⟨x0, rfl, e⟩ : ∃ x0, x = some x0 ∧ initState z' x0 = some y := by
      cases x with
      | none => cases h
      | some x0 => exact ⟨x0, rfl, h⟩
    obtain ⟨y0, rfl, e'⟩ : ∃ x0, x' = some x0 ∧ initState z' x0 = some y' := by
      cases x' with
      | none => cases h'
      | some x0 => exact ⟨x0, rfl, h'⟩
    obtain ⟨a1, a2⟩ := hI x0 y0 rfl rfl
    exact ⟨WithinSd.init hκ hz hd a1 e e', SameMotion.init ⟨rfl, hz.motion, fun _ _ => rfl, fun _ _ _ _ => rfl, hz.open, hz.open⟩ a2⟩
  start := ⟨fun y y' h h' => ⟨hx y y' h h', fun _ _ _ _ => rfl⟩, hP⟩
  reset := CloseStart.same hκ (some 0) hP'
  ctl0 := trivial

/-- C150: two nodes with the same configuration, without control, start with different velocities and accelerations, and
then get the same messages, which measure velocities and accelerations and reject nothing.  Whenever the initial states
differ by at most √κ of the configured standard deviations, in every combination of velocities and accelerations, so do
all estimates they send, by the standard deviations sent with them, as long as they are finite.  Whatever the poses. -/
theorem C150_any_queue (hκ : 0 ≤ κ) (hp : ∀ c, p.ctlUpd c = false)
    {Q : MQueue (pairCore (ekfCore p) (ekfCore p))} {Q1 Q2 : MQueue (ekfCore p)}
    (κ1 : QueueSim (fstSim _ _) Q Q1) (κ2 : QueueSim (sndSim _ _) Q Q2)
    (g : Cfg (ekfCore p)) (hQ : MotionCov g.processNoise) (hQ' : MotionCov g.keptNoise) (hP : MotionDiag g.initialCov)
    (hP' : MotionDiag g.keptCov) {x x' : Option State} (hx : ∀ y y', x = some y → x' = some y' → WithinSd κ y y' g.initialCov)
    (u : Fin 6 → ℝ) (now : Int) (h0 : 0 ≤ now) (es : List (Node.Event (ekfCore p))) (he : ∀ e ∈ es, Node.Event.OpenMotion e)
    (hclk : Clocked now es) :
    List.Forall₂ (Out.Close κ) (Node.run (g.from x) (Node.start (g.from x) Q1 () u now) es).2
      (Node.run (g.from x') (Node.start (g.from x') Q2 () u now) es).2 := by
  obtain ⟨ps, e1, e2, hz, hc⟩ : ∃ ps : List (Node.Event (pairCore (ekfCore p) (ekfCore p))),
      ps.map Node.Event.fst = es ∧ ps.map Node.Event.snd = es ∧
      (∀ (n : Node (pairCore (ekfCore p) (ekfCore p)) Q), Along ((g.from x).pair (g.from x')) (Node.Ok (CloseSure κ) (CloseStart κ)
        (fun z => (z : Payload × Payload).2 = (z : Payload × Payload).1 ∧ Payload.OpenMotion (z : Payload × Payload).1)
        (fun _ => True)) n ps) ∧
      ∀ k, Clocked k es → Clocked k ps := by
    clear hclk
    induction es with
    | nil => exact ⟨[], rfl, rfl, fun _ => trivial, fun _ _ => trivial⟩
    | cons e es ih =>
      obtain ⟨ps, h1, h2, h3, h4⟩ := ih fun e' h' => he e' (List.mem_cons_of_mem _ h')
      have h := he e List.mem_cons_self
      cases e with
      | sensor topic stamp z =>
        cases z with
        | none => exact ⟨.sensor topic stamp none :: ps, congrArg _ h1, congrArg _ h2, fun n => ⟨trivial, h3 _⟩, fun k hk => h4 k hk⟩
        | some z =>
          exact ⟨.sensor topic stamp (some (z, z)) :: ps, congrArg _ h1, congrArg _ h2, fun n => ⟨⟨rfl, h⟩, h3 _⟩, fun k hk => h4 k hk⟩
      | control v t =>
        exact ⟨.control (v, v) t :: ps, congrArg _ h1, congrArg _ h2, fun n => ⟨trivial, h3 _⟩, fun k hk => h4 k hk⟩
      | setPose stamp now r =>
        cases r with
        | none =>
          have h0 : MotionDiag ((1e-6 : ℝ) • (1 : Mat15)) := motionDiag_smul (by norm_num)
          have hs := CloseStart.same (p := p) hκ (some 0) h0
          exact ⟨.setPose stamp now none :: ps, congrArg _ h1, congrArg _ h2, fun n => ⟨⟨hs.1, fun _ => hs⟩, h3 _⟩,
            fun k hk => ⟨hk.1, h4 _ hk.2⟩⟩
        | some r =>
          have hs := CloseStart.same (p := p) hκ (r : Option State × Mat15).1 h
          exact ⟨.setPose stamp now (some ((r.1, r.1), (r.2, r.2))) :: ps, congrArg _ h1, congrArg _ h2,
            fun n => ⟨⟨hs.1, fun _ => hs⟩, h3 _⟩, fun k hk => ⟨hk.1, h4 _ hk.2⟩⟩
      | reset => exact ⟨.reset :: ps, congrArg _ h1, congrArg _ h2, fun n => ⟨trivial, h3 _⟩, fun k hk => h4 k hk⟩
      | toggle on => exact ⟨.toggle on :: ps, congrArg _ h1, congrArg _ h2, fun n => ⟨trivial, h3 _⟩, fun k hk => h4 k hk⟩
      | enable => exact ⟨.enable :: ps, congrArg _ h1, congrArg _ h2, fun n => ⟨trivial, h3 _⟩, fun k hk => h4 k hk⟩
      | tick now now2 tfOk =>
        exact ⟨.tick now now2 tfOk :: ps, congrArg _ h1, congrArg _ h2, fun n => ⟨trivial, h3 _⟩, fun k hk => ⟨hk.1, hk.2.1, h4 _ hk.2.2⟩⟩
  have hE := closeSure_inv hκ hp hQ hQ' hP hP' hx
  have hN := (NInv.run hE ps (NInv.start hE Q ((), ()) (fctl0 := (u, u)) trivial now)
    (HInv.start ((g.from x).pair (g.from x')) Q ((), ()) (u, u) now) h0 (hc now hclk) (hz _)).2
  have r1 := run_fst κ1 (g.from x) (g.from x') () () u u now ps
  have r2 := run_snd κ2 (g.from x) (g.from x') ⟨rfl, rfl, rfl, rfl, rfl, rfl, rfl, rfl, rfl⟩ () () u u now ps
  rw [e1] at r1
  rw [e2] at r2
  rw [r1, r2, List.forall₂_map_left_iff, List.forall₂_map_right_iff, List.forall₂_same]
  intro o ho
  cases o with
  | odom t x P =>
    refine .odom t fun y y' h h' => ?_
    have := hN t x P ho y y' h h'
    exact ⟨this.1, this.1.congr this.2⟩
  | tf t => exact .tf t
  | accel t => exact .accel t

/-- How many of the configured standard deviations lie between two initial states, squared and summed over the velocities
and accelerations. -/
noncomputable def distanceSq (P : Mat15) (x x' : State) : ℝ := ∑ i : Fin 15, if i.val < 6 then 0 else (x' i - x i) ^ 2 / P i i

theorem withinSd_distance {P : Mat15} (hP : MotionDiag P) (hpos : ∀ i : Fin 15, 6 ≤ i.val → 0 < P i i) (x x' : State) :
    WithinSd (distanceSq P x x') x x' P := by
  intro v hv
  have e1 : v ⬝ᵥ (x' - x) = ∑ i : Fin 15, (if i.val < 6 then 0 else (x' i - x i) / √(P i i)) * (if i.val < 6 then 0 else v i * √(P i i)) := by
    refine Finset.sum_congr rfl fun i _ => ?_
    by_cases hi : i.val < 6
    · rw [hv i hi, if_pos hi, zero_mul, zero_mul]
    · have := Real.sqrt_pos.2 (hpos i (by omega))
      rw [if_neg hi, if_neg hi, Pi.sub_apply]
      field_simp
  have e2 : v ⬝ᵥ P.mulVec v = ∑ i : Fin 15, (if i.val < 6 then 0 else v i * √(P i i)) ^ 2 := by
    refine Finset.sum_congr rfl fun i _ => ?_
    by_cases hi : i.val < 6
    · rw [hv i hi, if_pos hi]
      ring
    · have e : P.mulVec v i = P i i * v i := by
        show ∑ j, P i j * v j = P i i * v i
        refine Finset.sum_eq_single i (fun j _ hj => ?_) fun hh => absurd (Finset.mem_univ _) hh
        by_cases hj6 : j.val < 6
        · rw [hv j hj6, mul_zero]
        · rw [hP.off i j (by omega) (by omega) hj.symm, zero_mul]
      rw [if_neg hi, e, mul_pow, Real.sq_sqrt (hpos i (by omega)).le]
      ring
  have e3 : distanceSq P x x' = ∑ i : Fin 15, (if i.val < 6 then 0 else (x' i - x i) / √(P i i)) ^ 2 := by
    refine Finset.sum_congr rfl fun i _ => ?_
    by_cases hi : i.val < 6
    · rw [if_pos hi, if_pos hi]
      ring
    · rw [if_neg hi, if_neg hi, div_pow, Real.sq_sqrt (hpos i (by omega)).le]
  rw [e1, e2, e3]
  exact Finset.sum_mul_sq_le_sq_mul_sq _ _ _

theorem WithinSd.entry {x x' : State} {P : Mat15} (h : WithinSd κ x x' P) (i : Fin 15) (hi : 6 ≤ i.val) :
    (x' i - x i) ^ 2 ≤ κ * P i i := by
  have := h (Pi.single i 1) fun j hj => Pi.single_eq_of_ne (fun hh => by rw [hh] at hj; omega) _
  simpa using this

/-- C150: however wrong the initial velocities and accelerations are, the difference this makes to any of those sent is at
most a fixed number of the standard deviations sent, and so vanishes as soon as the filter claims to know them. -/
theorem C150_forgets (hp : ∀ c, p.ctlUpd c = false)
    (g : Cfg (ekfCore p)) (hQ : MotionCov g.processNoise) (hQ' : MotionCov g.keptNoise) (hP : MotionDiag g.initialCov)
    (hpos : ∀ i : Fin 15, 6 ≤ i.val → 0 < (g.initialCov : Mat15) i i) (hP' : MotionDiag g.keptCov) (x x' : State)
    (u : Fin 6 → ℝ) (now : Int) (h0 : 0 ≤ now) (es : List (Node.Event (ekfCore p))) (he : ∀ e ∈ es, Node.Event.OpenMotion e)
    (hclk : Clocked now es) {k : ℕ} {t t' : Int} {y y' : State} {P P' : Mat15}
    (ho : (Node.run (g.from (some x)) (Node.start (g.from (some x)) (PQueue.sortedList _ _) () u now) es).2[k]? =
      some (.odom t (some y) P))
    (ho' : (Node.run (g.from (some x')) (Node.start (g.from (some x')) (PQueue.sortedList _ _) () u now) es).2[k]? =
      some (.odom t' (some y') P')) (i : Fin 15) (hi : 6 ≤ i.val) :
    t' = t ∧ (y' i - y i) ^ 2 ≤ distanceSq g.initialCov x x' * P i i := by
  have hκ : 0 ≤ distanceSq g.initialCov x x' := by
    refine Finset.sum_nonneg fun i _ => ?_
    split
    · exact le_rfl
    · exact div_nonneg (sq_nonneg _) (hpos i (by omega)).le
  have hh := C150_any_queue (p := p) hκ hp (QueueSim.sorted _) (QueueSim.sorted _) g hQ hQ' hP hP' (x := some x) (x' := some x')
    (fun y y' e e' => by cases e; cases e'; exact withinSd_distance hP hpos x x') u now h0 es he hclk
  rw [List.forall₂_iff_get] at hh
  obtain ⟨hl, hh⟩ := hh
  obtain ⟨hk, e⟩ := List.getElem?_eq_some_iff.1 ho
  obtain ⟨hk', e'⟩ := List.getElem?_eq_some_iff.1 ho'
  have := hh k hk hk'
  rw [List.get_eq_getElem, List.get_eq_getElem] at this
  simp only [e, e'] at this
  cases this with
  | odom t h => exact ⟨rfl, (h y y' rfl rfl).1.entry i hi⟩

/-- C150: a threshold breaks this.  A robot that believes it stands uses the reading that it stands; one that believes it
moves rejects it, and is no longer within the standard deviations of the other. -/
theorem C150_gated : ∃ (x x' : State) (r r' : State × Mat15), WithinSd 9 x x' 1 ∧
    Ekf.correct (oneVar iVx 0 (.sigmas 2)) x 1 = some r ∧ Ekf.correct (oneVar iVx 0 (.sigmas 2)) x' 1 = some r' ∧
    ¬ WithinSd 9 r.1 r'.1 r.2 := by
  have hang : ¬ angular iVx := by unfold angular; decide
  have mah : ∀ x : State,
      mahalanobisSq (oneVar iVx 0 (.sigmas 2)).indices.get (fun _ => 0) 1 x 1 = (x iVx) ^ 2 / 2 ∧
      ((1 : Mat15).submatrix (oneVar iVx 0 (.sigmas 2)).indices.get (oneVar iVx 0 (.sigmas 2)).indices.get +
        subR (oneVar iVx 0 (.sigmas 2)).indices.get 1).det ≠ 0 := by
    intro x
    have h' := mahalanobis_one (m := oneVar iVx 0 (.sigmas 2)) iVx (oneVar_indices _ _ _) hang x 1
    simp only [oneVar, Matrix.one_apply_eq, sanitize_one, Dbl.val] at h'
    have h' := h' (by norm_num)
    refine ⟨h'.1.trans (by ring), h'.2⟩
  have h1 := correct_one iVx (oneVar_indices iVx 0 .unlimited) (oneVar_certain iVx 0) 0 (P := 1) PosSemidef.one
  obtain ⟨r, hr, hv, hc⟩ : ∃ r, Ekf.correct (oneVar iVx 0 .unlimited) 0 1 = some r ∧ r.1 iVx = 0 ∧ r.2 iVx iVx = 1 / 2 := by
    refine ⟨_, h1, ?_, ?_⟩
    · dsimp only
      rw [wrap_motion _ iVx (by decide), if_neg (show ¬ (iVx = iRoll ∨ iVx = iPitch ∨ iVx = iYaw) by decide)]
      simp only [oneVar, sanitize_one, Matrix.one_apply_eq, Dbl.val, Pi.zero_apply]
      norm_num
    · simp only [oneVar, sanitize_one, Matrix.one_apply_eq, Matrix.of_apply]
      norm_num
  refine ⟨0, Pi.single iVx 3, r, (Pi.single iVx 3, 1), ?_, ?_, ?_, ?_⟩
  · intro v _
    rw [sub_zero, dotProduct_single, Matrix.one_mulVec]
    have : v iVx * v iVx ≤ v ⬝ᵥ v := Finset.single_le_sum (f := fun i => v i * v i) (fun i _ => mul_self_nonneg _) (Finset.mem_univ iVx)
    nlinarith
  · rw [← hr]
    refine (C06_gate _ _ _ _ _ _ (mah 0).2).1 ?_
    show mahalanobisSq (oneVar iVx 0 (.sigmas 2)).indices.get (fun _ => 0) 1 0 1 < _
    rw [(mah 0).1, Pi.zero_apply]
    norm_num
  · refine (C06_gate _ _ _ _ _ _ (mah 0).2).2 ?_
    show _ ≤ mahalanobisSq (oneVar iVx 0 (.sigmas 2)).indices.get (fun _ => 0) 1 (Pi.single iVx 3) 1
    rw [(mah _).1, Pi.single_eq_same]
    norm_num
  · intro h
    have := h.entry iVx (by decide)
    dsimp only at this
    rw [hv, hc, Pi.single_eq_same] at this
    norm_num at this

theorem oneVar_openMotion (i : Fin 15) (v : ℝ) (hi : 6 ≤ i.val) : (oneVar i v .unlimited).OpenMotion where
  motion := fun k hk => by
    obtain rfl : k = i := of_decide_eq_true hk
    exact hi
  good := (oneVar_certain i v).good
  «open» := rfl

/-- A robot that is believed to stand and one that is believed to turn, with wheel encoders that tell of the forward
velocity and later of the turn rate. -/
example (x x' : State) : List.Forall₂ (Out.Close (distanceSq ((1e-9 : ℝ) • (1 : Mat15)) x x'))
    (Node.run ((demoCfg plainPar).from (some x)) (Node.start ((demoCfg plainPar).from (some x)) (PQueue.sortedList _ _) () (0 : Fin 6 → ℝ) 0)
      [.sensor "wheels" 1 (some (oneVar iVx 2 .unlimited)), .tick 2 2 true, .sensor "wheels" 4 (some (oneVar iVyaw 3 .unlimited)),
        .tick 5 5 true, .setPose 6 6 none, .tick 7 7 true]).2
    (Node.run ((demoCfg plainPar).from (some x')) (Node.start ((demoCfg plainPar).from (some x')) (PQueue.sortedList _ _) () (0 : Fin 6 → ℝ) 0)
      [.sensor "wheels" 1 (some (oneVar iVx 2 .unlimited)), .tick 2 2 true, .sensor "wheels" 4 (some (oneVar iVyaw 3 .unlimited)),
        .tick 5 5 true, .setPose 6 6 none, .tick 7 7 true]).2 := by
  have hq : MotionCov defaultQ := ⟨fun i j _ _ => by simpa using (defaultQ_psd.1.apply i j).symm, fun v _ => psd_form defaultQ_psd v⟩
  have hd : MotionDiag ((1e-9 : ℝ) • (1 : Mat15)) := motionDiag_smul (by norm_num)
  have hpos : ∀ i : Fin 15, 6 ≤ i.val → 0 < ((1e-9 : ℝ) • (1 : Mat15)) i i := fun i _ => by
    rw [Matrix.smul_apply, Matrix.one_apply_eq, smul_eq_mul]
    norm_num
  refine C150_any_queue (p := plainPar) (Finset.sum_nonneg fun i _ => ?_) (fun _ => rfl) (QueueSim.sorted _) (QueueSim.sorted _)
    (demoCfg plainPar) hq hq hd hd (x := some x) (x' := some x')
    (fun y y' e e' => by cases e; cases e'; exact withinSd_distance hd hpos x x') 0 0 le_rfl _ (fun e he => ?_) (by simp [Clocked])
  · split
    · exact le_rfl
    · exact div_nonneg (sq_nonneg _) (hpos i (by omega)).le
  · simp only [List.mem_cons, List.not_mem_nil, or_false] at he
    rcases he with rfl | rfl | rfl | rfl | rfl | rfl
    · exact oneVar_openMotion _ _ (by decide)
    · trivial
    · exact oneVar_openMotion _ _ (by decide)
    · trivial
    · trivial
    · trivial

end RL
