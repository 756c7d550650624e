import Verif.Props.Knowing
import Verif.Props.Surer
/-! # C147: a node that is given better data never knows the velocities less well -/

namespace RL
open Matrix

/-- Every combination of velocities and accelerations has at most the variance it has in `P'`. -/
def SurerMotion (P P' : Mat15) : Prop :=
  ∀ v : State, (∀ i : Fin 15, i.val < 6 → v i = 0) → v ⬝ᵥ P.mulVec v ≤ v ⬝ᵥ P'.mulVec v

/-- A covariance of the velocities and accelerations: symmetric, and no combination has a negative variance. -/
structure MotionCov (P : Mat15) : Prop where
  symm : ∀ i j : Fin 15, 6 ≤ i.val → 6 ≤ j.val → P i j = P j i
  nonneg : ∀ v : State, (∀ i : Fin 15, i.val < 6 → v i = 0) → 0 ≤ v ⬝ᵥ P.mulVec v

/-- Velocities and accelerations that are uncorrelated among themselves, as far as is known. -/
structure MotionDiag (P : Mat15) : Prop where
  nonneg : ∀ i : Fin 15, 6 ≤ i.val → 0 ≤ P i i
  off : ∀ i j : Fin 15, 6 ≤ i.val → 6 ≤ j.val → i ≠ j → P i j = 0

/-- Two measurements of velocities or accelerations, without rejection threshold.  The values may differ; the first one is
at least as good as the second. -/
structure Payload.BetterMotion (m m' : Payload) : Prop where
  better : m.Better m'
  upd : m'.upd = m.upd
  motion : ∀ i, m.upd i = true → 6 ≤ i.val
  open1 : m.thresh = .unlimited
  open2 : m'.thresh = .unlimited

/-- The same things happen to both nodes at the same times; what the first one is told is at least as good. -/
inductive Node.Event.Better {p p' : FilterPar} : Node.Event (ekfCore p) → Node.Event (ekfCore p') → Prop
  | sensor (topic : String) (stamp : Int) {z z' : Option Payload} (h : Option.Rel Payload.BetterMotion z z') :
      Better (.sensor topic stamp z) (.sensor topic stamp z')
  | control (u u' : Fin 6 → ℝ) (t : Int) : Better (.control u t) (.control u' t)
  | setPose (stamp now : Int) {r r' : Option (Option State × Mat15)}
      (h : Option.Rel (fun a b => MotionDiag a.2 ∧ MotionDiag b.2 ∧ SurerMotion a.2 b.2) r r') :
      Better (.setPose stamp now r) (.setPose stamp now r')
  | reset : Better .reset .reset
  | toggle (on : Bool) : Better (.toggle on) (.toggle on)
  | enable : Better .enable .enable
  | tick (now now2 : Int) (tfOk : Bool) : Better (.tick now now2 tfOk) (.tick now now2 tfOk)

/-- The same messages at the same times; as long as both estimates are finite, the first one knows the velocities and
accelerations at least as well. -/
inductive Out.Better {p p' : FilterPar} : Out (ekfCore p) → Out (ekfCore p') → Prop
  | odom (t : Int) {x x' : Option State} {P P' : Mat15} (h : x ≠ none → x' ≠ none → SurerMotion P P') :
      Better (.odom t x P) (.odom t x' P')
  | tf (t : Int) : Better (.tf t) (.tf t)
  | accel (t : Int) : Better (.accel t) (.accel t)

/-- What is left of a covariance when the pose is known exactly. -/
def motionOf (P : Mat15) : Mat15 := .of fun i j => if 6 ≤ i.val ∧ 6 ≤ j.val then P i j else 0

theorem motionOf_same (P : Mat15) : SameMotion P (motionOf P) := by
  intro i j hi hj
  show (if 6 ≤ i.val ∧ 6 ≤ j.val then P i j else 0) = P i j
  rw [if_pos ⟨hi, hj⟩]

theorem SameMotion.symm {P P' : Mat15} (h : SameMotion P P') : SameMotion P' P := fun i j hi hj => (h i j hi hj).symm

theorem SameMotion.motionOf {P P' : Mat15} (h : SameMotion P P') : motionOf P' = motionOf P := by
  ext i j
  show (if 6 ≤ i.val ∧ 6 ≤ j.val then P' i j else 0) = (if 6 ≤ i.val ∧ 6 ≤ j.val then P i j else 0)
  split
  · rename_i hh
    exact h i j hh.1 hh.2
  · rfl

/-- The variance of a combination of velocities and accelerations is one of the block. -/
theorem form_motion {P P' : Mat15} (h : SameMotion P P') {v : State} (hv : ∀ i : Fin 15, i.val < 6 → v i = 0) :
    v ⬝ᵥ P'.mulVec v = v ⬝ᵥ P.mulVec v := by
  simp only [dotProduct, mulVec, Finset.mul_sum]
  refine Finset.sum_congr rfl fun i _ => Finset.sum_congr rfl fun j _ => ?_
  by_cases hi : i.val < 6
  · rw [hv i hi, zero_mul, zero_mul]
  · by_cases hj : j.val < 6
    · simp only [hv j hj, mul_zero]
    · rw [h i j (by omega) (by omega)]

/-- The part of a combination that is about velocities and accelerations. -/
theorem form_motionOf (P : Mat15) (v : State) : v ⬝ᵥ (motionOf P).mulVec v =
    (fun i : Fin 15 => if i.val < 6 then 0 else v i) ⬝ᵥ P.mulVec (fun i : Fin 15 => if i.val < 6 then 0 else v i) := by
  simp only [dotProduct, mulVec, Finset.mul_sum, motionOf, Matrix.of_apply]
  refine Finset.sum_congr rfl fun i _ => Finset.sum_congr rfl fun j _ => ?_
  by_cases hi : i.val < 6
  · rw [if_neg (by omega), if_pos hi]
    ring
  · by_cases hj : j.val < 6
    · rw [if_neg (by omega), if_pos hj]
      ring
    · rw [if_pos (by omega), if_neg hi, if_neg hj]

theorem SurerMotion.iff {P P' : Mat15} : SurerMotion P P' ↔ Surer (motionOf P) (motionOf P') := by
  constructor
  · intro h v
    rw [form_motionOf, form_motionOf]
    exact h _ fun i hi => if_pos hi
  · intro h v hv
    have := h v
    rwa [form_motion (motionOf_same P) hv, form_motion (motionOf_same P') hv] at this

theorem Surer.motion {P P' : Mat15} (h : Surer P P') : SurerMotion P P' := fun v _ => h v

theorem SurerMotion.congr {P P' R R' : Mat15} (h : SurerMotion P P') (a : SameMotion P R) (b : SameMotion P' R') :
    SurerMotion R R' := by
  intro v hv
  rw [form_motion a hv, form_motion b hv]
  exact h v hv

theorem MotionCov.psd {P : Mat15} (h : MotionCov P) : (motionOf P).PosSemidef := by
  refine PosSemidef.of_dotProduct_mulVec_nonneg ?_ fun v => ?_
  · ext i j
    simp only [motionOf, Matrix.conjTranspose_apply, Matrix.of_apply, star_trivial]
    by_cases hij : 6 ≤ i.val ∧ 6 ≤ j.val
    · rw [if_pos hij, if_pos ⟨hij.2, hij.1⟩]
      exact h.symm j i hij.2 hij.1
    · rw [if_neg hij, if_neg fun hh => hij ⟨hh.2, hh.1⟩]
  · rw [star_trivial, form_motionOf]
    exact h.nonneg _ fun i hi => if_pos hi

theorem motionOf_psd {P : Mat15} (h : P.PosSemidef) : (motionOf P).PosSemidef := by
  have : motionOf P = (diagonal fun i : Fin 15 => if 6 ≤ i.val then (1 : ℝ) else 0) * P *
      (diagonal fun i : Fin 15 => if 6 ≤ i.val then (1 : ℝ) else 0)ᵀ := by
    ext i j
    rw [diagonal_transpose, mul_diagonal, diagonal_mul]
    show (if 6 ≤ i.val ∧ 6 ≤ j.val then P i j else 0) = _
    by_cases hi : 6 ≤ i.val <;> by_cases hj : 6 ≤ j.val <;> simp [hi, hj]
  rw [this]
  exact psd_congr h _

theorem MotionDiag.uncorrelated {P : Mat15} (h : MotionDiag P) : Uncorrelated (motionOf P) := by
  constructor
  · intro i
    show 0 ≤ (if 6 ≤ i.val ∧ 6 ≤ i.val then P i i else 0)
    split
    · rename_i hi
      exact h.nonneg i hi.1
    · exact le_rfl
  · intro i j hij
    show (if 6 ≤ i.val ∧ 6 ≤ j.val then P i j else 0) = 0
    split
    · rename_i hh
      exact h.off i j hh.1 hh.2 hij
    · rfl

/-- A prediction seen from the velocities and accelerations: that of a level robot at rest, with the pose known exactly. -/
theorem predict_motionOf {p : FilterPar} {Q P : Mat15} {u : Fin 6 → ℝ} {t ref : Int} {dt : ℝ} {x : State} {r : State × Mat15}
    (h : Ekf.predict p Q u t ref dt x P = some r) : ∃ s : State × Mat15,
    Ekf.predict plainPar (motionOf Q) 0 0 0 dt 0 (motionOf P) = some s ∧ SameMotion r.2 s.2 := by
  have hc : Real.cos ((0 : State) iPitch) ≠ 0 := by simp
  obtain ⟨s, hs⟩ : ∃ s, Ekf.predict plainPar (motionOf Q) 0 t ref dt 0 (motionOf P) = some s :=
    ⟨_, if_neg hc⟩
  have hs' : Ekf.predict plainPar (motionOf Q) 0 0 0 dt 0 (motionOf P) = some s := hs
  exact ⟨s, hs', SameMotion.predict (motionOf_same Q) (motionOf_same P) h hs⟩

/-- A correction by velocities and accelerations, seen from them. -/
theorem correct_motionOf {m : Payload} (hm : ∀ i, m.upd i = true → 6 ≤ i.val) (ho : m.thresh = .unlimited) {P : Mat15}
    {x : State} {r : State × Mat15} (h : Ekf.correct m x P = some r) : ∃ s : State × Mat15,
    Ekf.correct m 0 (motionOf P) = some s ∧ SameMotion r.2 s.2 := by
  have hk : m.SameKind m := ⟨rfl, hm, fun _ _ => rfl, fun _ _ _ _ => rfl, ho, ho⟩
  have hd : (innovCov m.indices.get m.R P).det ≠ 0 := by
    intro hd
    unfold Ekf.correct correctAt at h
    rw [if_pos hd] at h
    cases h
  obtain ⟨s, hs⟩ : ∃ s, Ekf.correct m 0 (motionOf P) = some s := by
    unfold Ekf.correct correctAt
    rw [ho, innovCov_motion (fun a => hm _ (Payload.selected a)) (fun _ _ => rfl) (motionOf_same P), if_neg hd,
      if_pos (show checkMahalanobis _ _ .unlimited from trivial)]
    exact ⟨_, rfl⟩
  exact ⟨s, hs, SameMotion.correct hk (motionOf_same P) h hs⟩

theorem SurerMotion.predict {p p' : FilterPar} {Q Q' P P' : Mat15} (hQp : (motionOf Q).PosSemidef) (hQ : SurerMotion Q Q')
    (hPp : (motionOf P).PosSemidef) (hP : SurerMotion P P') {u u' : Fin 6 → ℝ} {t t' ref ref' : Int} {dt : ℝ} (hdt : 0 ≤ dt)
    {x x' : State} {r r' : State × Mat15}
    (h : Ekf.predict p Q u t ref dt x P = some r) (h' : Ekf.predict p' Q' u' t' ref' dt x' P' = some r') :
    (motionOf r.2).PosSemidef ∧ SurerMotion r.2 r'.2 := by
  obtain ⟨s, hs, e⟩ := predict_motionOf h
  obtain ⟨s', hs', e'⟩ := predict_motionOf h'
  have hd : plainPar.dynamic = true → NoCross (motionOf Q) := fun hh => by cases hh
  have hd' : plainPar.dynamic = true → NoCross (motionOf Q') := fun hh => by cases hh
  have hp : s.2.PosSemidef := predict_psd hQp hd hdt hPp (x' := s.1) hs
  refine ⟨e.motionOf ▸ motionOf_psd hp, ?_⟩
  · have := C116_prediction (p := plainPar) (SurerMotion.iff.1 hQ) hd hd' hdt (x1 := s.1) (x1' := s'.1) (P1 := s.2) (P1' := s'.2)
      (SurerMotion.iff.1 hP) hs hs'
    exact this.motion.congr e.symm e'.symm

theorem SurerMotion.correct {m m' : Payload} (hm : m.BetterMotion m') {P P' : Mat15} (hPp : (motionOf P).PosSemidef)
    (hP : SurerMotion P P') {x x' : State} {r r' : State × Mat15} (h : Ekf.correct m x P = some r)
    (h' : Ekf.correct m' x' P' = some r') : (motionOf r.2).PosSemidef ∧ SurerMotion r.2 r'.2 := by
  obtain ⟨s, hs, e⟩ := correct_motionOf hm.motion hm.open1 h
  obtain ⟨s', hs', e'⟩ := correct_motionOf (hm.upd ▸ hm.motion) hm.open2 h'
  have hp : s.2.PosSemidef := correctAt_psd hm.better.good.sub hPp (x' := s.1) hs
  refine ⟨e.motionOf ▸ motionOf_psd hp, ?_⟩
  have hacc : checkMahalanobis (innovation m.indices.get (fun i => (m.z i).val) 0) (innovCov m.indices.get m.R (motionOf P))⁻¹
      m.thresh := by
    rw [hm.open1]
    trivial
  have := C116_correction hm.better (x1 := s.1) (x1' := s'.1) (P1 := s.2) (P1' := s'.2) hPp (SurerMotion.iff.1 hP) hacc hs hs'
  exact this.motion.congr e.symm e'.symm

theorem SurerMotion.init {m m' : Payload} (hm : m.BetterMotion m') {P P' : Mat15} (hd : MotionDiag P) (hd' : MotionDiag P')
    (hP : SurerMotion P P') : (motionOf (initCov m P)).PosSemidef ∧ SurerMotion (initCov m P) (initCov m' P') := by
  have hk : m.SameKind m := ⟨rfl, hm.motion, fun _ _ => rfl, fun _ _ _ _ => rfl, hm.open1, hm.open1⟩
  have hk' : m'.SameKind m' := ⟨rfl, hm.upd ▸ hm.motion, fun _ _ => rfl, fun _ _ _ _ => rfl, hm.open2, hm.open2⟩
  have e := SameMotion.init hk (motionOf_same P)
  have e' := SameMotion.init hk' (motionOf_same P')
  constructor
  · rw [← e.motionOf]
    exact motionOf_psd (initCov_psd hm.better.good hd.uncorrelated.1 hd.uncorrelated.2)
  · exact (C116_first hm.better hm.upd.symm hd.uncorrelated hd'.uncorrelated (SurerMotion.iff.1 hP)).motion.congr e.symm e'.symm

/-- What relates the two estimates. -/
def BetterSure {p p' : FilterPar} (x : (pairCore (ekfCore p) (ekfCore p')).X) (P : (pairCore (ekfCore p) (ekfCore p')).Cov) :
    Prop :=
  (x : Option State × Option State).1 ≠ none → (x : Option State × Option State).2 ≠ none →
    (motionOf (P : Mat15 × Mat15).1).PosSemidef ∧ SurerMotion (P : Mat15 × Mat15).1 (P : Mat15 × Mat15).2

/-- And before the first measurement. -/
def BetterStart {p p' : FilterPar} (_ : (pairCore (ekfCore p) (ekfCore p')).X) (P : (pairCore (ekfCore p) (ekfCore p')).Cov) :
    Prop :=
  MotionDiag (P : Mat15 × Mat15).1 ∧ MotionDiag (P : Mat15 × Mat15).2 ∧ SurerMotion (P : Mat15 × Mat15).1 (P : Mat15 × Mat15).2

/-- The covariances and the process noise of the first configuration are at least as small, as far as velocities and
accelerations are concerned. -/
structure Cfg.Better {p p' : FilterPar} (g : Cfg (ekfCore p)) (g' : Cfg (ekfCore p')) : Prop where
  switches : g.SameSwitches g'
  noise : MotionCov g.processNoise ∧ SurerMotion g.processNoise g'.processNoise
  keptNoise : MotionCov g.keptNoise ∧ SurerMotion g.keptNoise g'.keptNoise
  cov : MotionDiag g.initialCov ∧ MotionDiag g'.initialCov ∧ SurerMotion g.initialCov g'.initialCov
  keptCov : MotionDiag g.keptCov ∧ MotionDiag g'.keptCov ∧ SurerMotion g.keptCov g'.keptCov

theorem betterSure_inv {p p' : FilterPar} {g : Cfg (ekfCore p)} {g' : Cfg (ekfCore p')} (hg : g.Better g') :
    EstInv (g.pair g') BetterSure BetterStart
      (fun z => Payload.BetterMotion (z : Payload × Payload).1 (z : Payload × Payload).2) (fun _ => True) where
  predict := by
    rintro par hpar ⟨u, u'⟩ t ref delta ⟨x, x'⟩ ⟨P, P'⟩ ⟨e, e'⟩ hdelta - hI
    obtain ⟨Q, Q'⟩ := par
    have hQ : MotionCov Q ∧ SurerMotion Q Q' := by
      rcases hpar with h | h
      · cases h
        exact hg.noise
      · cases h
        exact hg.keptNoise
    have hI : x ≠ none → x' ≠ none → (motionOf P).PosSemidef ∧ SurerMotion P P' := hI
    show ((ekfCore p).predict Q u t ref delta (x, P, ())).1 ≠ none →
      ((ekfCore p').predict Q' u' t ref delta (x', P', ())).1 ≠ none →
      (motionOf ((ekfCore p).predict Q u t ref delta (x, P, ())).2.1).PosSemidef ∧
      SurerMotion ((ekfCore p).predict Q u t ref delta (x, P, ())).2.1 ((ekfCore p').predict Q' u' t ref delta (x', P', ())).2.1
    cases x with
    | none => exact fun h _ => absurd rfl h
    | some x =>
    cases x' with
    | none => exact fun _ h => absurd rfl h
    | some x' =>
      have e1 : (ekfCore p).predict Q u t ref delta (some x, P, ()) = match Ekf.predict p Q u t ref (toSec delta) x P with
        | some r => (some r.1, r.2, ())
        | none => (none, P, ()) := rfl
      have e2 : (ekfCore p').predict Q' u' t ref delta (some x', P', ()) =
          match Ekf.predict p' Q' u' t ref (toSec delta) x' P' with
        | some r => (some r.1, r.2, ())
        | none => (none, P', ()) := rfl
      rw [e1, e2]
      cases h1 : Ekf.predict p Q u t ref (toSec delta) x P with
      | none => exact fun h _ => absurd rfl h
      | some r =>
      cases h2 : Ekf.predict p' Q' u' t ref (toSec delta) x' P' with
      | none => exact fun _ h => absurd rfl h
      | some r' =>
        obtain ⟨a, b⟩ := hI (Option.some_ne_none x) (Option.some_ne_none x')
        exact fun _ _ => SurerMotion.predict hQ.1.psd hQ.2 a b (toSec_nonneg hdelta) h1 h2
  correct := by
    rintro ⟨z, z'⟩ ⟨x, x'⟩ ⟨P, P'⟩ ⟨e, e'⟩ hz hI
    have hI : x ≠ none → x' ≠ none → (motionOf P).PosSemidef ∧ SurerMotion P P' := hI
    show ((ekfCore p).correct z (x, P, ())).1 ≠ none → ((ekfCore p').correct z' (x', P', ())).1 ≠ none →
      (motionOf ((ekfCore p).correct z (x, P, ())).2.1).PosSemidef ∧
      SurerMotion ((ekfCore p).correct z (x, P, ())).2.1 ((ekfCore p').correct z' (x', P', ())).2.1
    cases x with
    | none => exact fun h _ => absurd rfl h
    | some x =>
    cases x' with
    | none => exact fun _ h => absurd rfl h
    | some x' =>
      have e1 : (ekfCore p).correct z (some x, P, ()) = match Ekf.correct z x P with
        | some r => (some r.1, r.2, ())
        | none => (none, P, ()) := rfl
      have e2 : (ekfCore p').correct z' (some x', P', ()) = match Ekf.correct z' x' P' with
        | some r => (some r.1, r.2, ())
        | none => (none, P', ()) := rfl
      rw [e1, e2]
      cases h1 : Ekf.correct z x P with
      | none => exact fun h _ => absurd rfl h
      | some r =>
      cases h2 : Ekf.correct z' x' P' with
      | none => exact fun _ h => absurd rfl h
      | some r' =>
        obtain ⟨a, b⟩ := hI (Option.some_ne_none x) (Option.some_ne_none x')
        exact fun _ _ => SurerMotion.correct hz a b h1 h2
  init := fun _ _ _ hz hI _ _ => SurerMotion.init hz hI.1 hI.2.1 hI.2.2
  start := hg.cov
  reset := hg.keptCov
  ctl0 := trivial

theorem MotionDiag.cov {P : Mat15} (h : MotionDiag P) : (motionOf P).PosSemidef := h.uncorrelated.psd

theorem motionDiag_smul {c : ℝ} (hc : 0 ≤ c) : MotionDiag (c • (1 : Mat15)) :=
  ⟨fun i _ => (uncorrelated_smul hc).1 i, fun i j _ _ h => (uncorrelated_smul hc).2 i j h⟩

/-- C147: two nodes with the same switches get messages at the same times from sensors that measure velocities and
accelerations and reject nothing.  The sensors of the first are at least as good, and it starts with at most the
uncertainty and reckons with at most the process noise of the second.  Whatever the sensors say, whatever is commanded,
wherever the nodes start, whatever their control and pose parameters: of no combination of velocities and accelerations
does the first ever send a larger variance. -/
theorem C147_any_queue (p p' : FilterPar) {Q : MQueue (pairCore (ekfCore p) (ekfCore p'))} {Q1 : MQueue (ekfCore p)}
    {Q2 : MQueue (ekfCore p')} (κ1 : QueueSim (fstSim _ _) Q Q1) (κ2 : QueueSim (sndSim _ _) Q Q2)
    (g : Cfg (ekfCore p)) (g' : Cfg (ekfCore p')) (hg : g.Better g') (u u' : Fin 6 → ℝ) (now : Int)
    (h0 : 0 ≤ now) {es : List (Node.Event (ekfCore p))} {es' : List (Node.Event (ekfCore p'))}
    (he : List.Forall₂ Node.Event.Better es es') (hclk : Clocked now es) :
    List.Forall₂ Out.Better (Node.run g (Node.start g Q1 () u now) es).2
      (Node.run g' (Node.start g' Q2 () u' now) es').2 := by
  obtain ⟨ps, rfl, rfl, hz, hc⟩ : ∃ ps : List (Node.Event (pairCore (ekfCore p) (ekfCore p'))),
      ps.map Node.Event.fst = es ∧ ps.map Node.Event.snd = es' ∧
      (∀ (n : Node (pairCore (ekfCore p) (ekfCore p')) Q), Along (g.pair g') (Node.Ok BetterSure BetterStart
        (fun z => Payload.BetterMotion (z : Payload × Payload).1 (z : Payload × Payload).2) (fun _ => True)) n ps) ∧
      ∀ k, Clocked k es → Clocked k ps := by
    clear hclk
    induction he with
    | nil => exact ⟨[], rfl, rfl, fun _ => trivial, fun _ _ => trivial⟩
    | cons h _ ih =>
      obtain ⟨ps, h1, h2, h3, h4⟩ := ih
      rw [← h1, ← h2]
      rw [← h1] at h4
      cases h with
      | sensor topic stamp h =>
        cases h with
        | none => exact ⟨.sensor topic stamp none :: ps, rfl, rfl, fun n => ⟨trivial, h3 _⟩, fun k hk => h4 k hk⟩
        | some h =>
          rename_i z z'
          exact ⟨.sensor topic stamp (some (z, z')) :: ps, rfl, rfl, fun n => ⟨h, h3 _⟩, fun k hk => h4 k hk⟩
      | control v v' t => exact ⟨.control (v, v') t :: ps, rfl, rfl, fun n => ⟨trivial, h3 _⟩, fun k hk => h4 k hk⟩
      | setPose stamp now h =>
        cases h with
        | none =>
          have h0 : MotionDiag ((1e-6 : ℝ) • (1 : Mat15)) := motionDiag_smul (by norm_num)
          exact ⟨.setPose stamp now none :: ps, rfl, rfl,
            fun n => ⟨⟨fun _ _ => ⟨h0.cov, fun _ _ => le_rfl⟩, fun _ => ⟨h0, h0, fun _ _ => le_rfl⟩⟩, h3 _⟩,
            fun k hk => ⟨hk.1, h4 _ hk.2⟩⟩
        | some h =>
          rename_i a b
          exact ⟨.setPose stamp now (some ((a.1, b.1), (a.2, b.2))) :: ps, rfl, rfl,
            fun n => ⟨⟨fun _ _ => ⟨h.1.cov, h.2.2⟩, fun _ => h⟩, h3 _⟩, fun k hk => ⟨hk.1, h4 _ hk.2⟩⟩
      | reset => exact ⟨.reset :: ps, rfl, rfl, fun n => ⟨trivial, h3 _⟩, fun k hk => h4 k hk⟩
      | toggle on => exact ⟨.toggle on :: ps, rfl, rfl, fun n => ⟨trivial, h3 _⟩, fun k hk => h4 k hk⟩
      | enable => exact ⟨.enable :: ps, rfl, rfl, fun n => ⟨trivial, h3 _⟩, fun k hk => h4 k hk⟩
      | tick now now2 tfOk =>
        exact ⟨.tick now now2 tfOk :: ps, rfl, rfl, fun n => ⟨trivial, h3 _⟩, fun k hk => ⟨hk.1, hk.2.1, h4 _ hk.2.2⟩⟩
  have hE := betterSure_inv hg
  have hN := (NInv.run hE ps (NInv.start hE Q ((), ()) (fctl0 := (u, u')) trivial now)
    (HInv.start (g.pair g') Q ((), ()) (u, u') now) h0 (hc now hclk) (hz _)).2
  have e1 := run_fst κ1 g g' () () u u' now ps
  have e2 := run_snd κ2 g g' hg.switches () () u u' now ps
  rw [e1, e2, List.forall₂_map_left_iff, List.forall₂_map_right_iff, List.forall₂_same]
  intro o ho
  cases o with
  | odom t x P => exact .odom t fun a b => (hN t x P ho a b).2
  | tf t => exact .tf t
  | accel t => exact .accel t

/-- C147 for the queue that keeps measurements of one instant in the order of arrival. -/
theorem C147_surer (p p' : FilterPar) (g : Cfg (ekfCore p)) (g' : Cfg (ekfCore p')) (hg : g.Better g') (u u' : Fin 6 → ℝ)
    (now : Int) (h0 : 0 ≤ now) {es : List (Node.Event (ekfCore p))} {es' : List (Node.Event (ekfCore p'))}
    (he : List.Forall₂ Node.Event.Better es es') (hclk : Clocked now es) :
    List.Forall₂ Out.Better (Node.run g (Node.start g (PQueue.sortedList _ _) () u now) es).2
      (Node.run g' (Node.start g' (PQueue.sortedList _ _) () u' now) es').2 :=
  C147_any_queue p p' (QueueSim.sorted _) (QueueSim.sorted _) g g' hg u u' now h0 he hclk

/-- The reading of a sensor with twice the variance. -/
def poorVar (i : Fin 15) (v : ℝ) : Payload := { oneVar i v .unlimited with R := (2 : ℝ) • 1 }

theorem oneVar_better (i : Fin 15) (v w : ℝ) (hi : 6 ≤ i.val) : (oneVar i v .unlimited).BetterMotion (poorVar i w) where
  better := by
    refine ⟨PosSemidef.one.submatrix _, (uncorrelated_smul (by norm_num : (0 : ℝ) ≤ 2)).psd.submatrix _,
      fun _ h _ => ⟨h, rfl⟩, fun k _ => ?_, fun a _ => ?_⟩
    · simp only [oneVar, poorVar, Matrix.one_apply_eq, Matrix.smul_apply, smul_eq_mul]
      norm_num
    · simp only [oneVar, poorVar, Matrix.one_mulVec, Matrix.smul_mulVec, dotProduct_smul, smul_eq_mul]
      have : 0 ≤ a ⬝ᵥ a := by
        have := dotProduct_star_self_nonneg a
        rwa [star_trivial] at this
      linarith
  upd := rfl
  motion := by
    intro k hk
    obtain rfl : k = i := of_decide_eq_true hk
    exact hi
  open1 := rfl
  open2 := rfl

/-- Two robots with wheel encoders of different quality; the one with the better encoder drives, the other one stands. -/
example : List.Forall₂ Out.Better
    (Node.run (demoCfg plainPar) (Node.start (demoCfg plainPar) (PQueue.sortedList _ _) () (0 : Fin 6 → ℝ) 0)
      [.sensor "wheels" 1 (some (oneVar iVx 2 .unlimited)), .tick 2 2 true, .setPose 3 3 none,
        .sensor "wheels" 4 (some (oneVar iVx 3 .unlimited)), .tick 5 5 true]).2
    (Node.run (demoCfg plainPar) (Node.start (demoCfg plainPar) (PQueue.sortedList _ _) () (0 : Fin 6 → ℝ) 0)
      [.sensor "wheels" 1 (some (poorVar iVx 0)), .tick 2 2 true, .setPose 3 3 none,
        .sensor "wheels" 4 (some (poorVar iVx 0)), .tick 5 5 true]).2 := by
  have hq : MotionCov defaultQ := ⟨fun i j _ _ => by simpa using (defaultQ_psd.1.apply i j).symm, fun v _ => psd_form defaultQ_psd v⟩
  have hd : MotionDiag ((1e-9 : ℝ) • (1 : Mat15)) := motionDiag_smul (by norm_num)
  have same : ∀ P, SurerMotion P P := fun _ _ _ => le_rfl
  have hm := fun v w => oneVar_better iVx v w (by decide)
  exact C147_surer plainPar plainPar _ _
    ⟨⟨rfl, rfl, rfl, rfl, rfl, rfl, rfl, rfl, rfl⟩, ⟨hq, same _⟩, ⟨hq, same _⟩, ⟨hd, hd, same _⟩, ⟨hd, hd, same _⟩⟩
    0 0 0 le_rfl (.cons (.sensor _ _ (.some (hm _ _))) (.cons (.tick _ _ _) (.cons (.setPose _ _ .none)
      (.cons (.sensor _ _ (.some (hm _ _))) (.cons (.tick _ _ _) .nil))))) (by simp [Clocked])

end RL
