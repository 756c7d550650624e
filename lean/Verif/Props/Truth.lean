import Verif.Proofs.Truth
import Verif.Props.Parts
import Verif.Props.Origin
import Verif.Props.EkfMotion
import Verif.Spec.EkfDemo
import Mathlib.Analysis.Calculus.Deriv.Prod
/-! # C97: data that agree with a motion are reproduced -/

namespace RL
open Matrix Real Body

/-- A value of a variable, up to full turns if it is an angle. -/
def SameVal (i : Fin 15) (a b : ℝ) : Prop := (angular i → ∃ k : ℤ, a = b + k * (2 * π)) ∧ (¬ angular i → a = b)

/-- The motion `f` is one the motion model integrates without error: from any time to any other, one step gives it. -/
def Follows (f : Int → Kin) : Prop := ∀ t d, UpToTurns (f (t + d)).vec (move (f t) (toSec d)).vec

/-- Nothing moves. -/
def Rests (f : Int → Kin) : Prop := ∀ s t, UpToTurns (f s).vec (f t).vec

/-- Every finite value that the measurement selects is that of the motion. -/
def Reads (k : Kin) (m : Payload) : Prop := ∀ i v, m.upd i = true → m.z i = .fin v → SameVal i v (k.vec i)

/-- What happens to the node agrees with the motion `f`:

* a measurement reads the motion at its stamp; as long as the filter has no estimate, what the measurement leaves out is
  in its initial state;
* a pose is set to the motion at the time it is set;
* at a cycle the robot rests, or the node is switched on and every pending measurement is not older than the estimate or,
  with smoothing, than some state in the history. -/
def Agrees {p : FilterPar} {Q : MQueue (ekfCore p)} (f : Int → Kin) (cfg : Cfg (ekfCore p)) (n : Node (ekfCore p) Q) :
    Node.Event (ekfCore p) → Prop
  | .sensor _ stamp z => ∀ m : Payload, z = some m → Reads (f stamp) m ∧ (n.filt.initialized = false →
      ∀ x0 : State, n.filt.x = some x0 → ∀ i, m.upd i = false → SameVal i (x0 i) ((f stamp).vec i))
  | .setPose _ now r => n.filt.initialized = true →
      ∃ (x : State) (cov : Mat15), r = some (some x, cov) ∧ UpToTurns x (f now).vec
  | .tick _ _ _ => Rests f ∨ n.toggledOn = true ∧ (n.filt.initialized = true → ∀ m ∈ Q.elems n.queue,
      n.filt.lastTime ≤ m.time ∨ cfg.smooth = true ∧ ∃ s ∈ n.stateHist, s.lastTime < m.time)
  | _ => True

theorem UpToTurns.trans {x y z : State} (h : UpToTurns x y) (g : UpToTurns y z) : UpToTurns x z := by
  intro i
  refine ⟨fun hi => ?_, fun hi => ((h i).2 hi).trans ((g i).2 hi)⟩
  obtain ⟨a, ha⟩ := (h i).1 hi
  obtain ⟨b, hb⟩ := (g i).1 hi
  exact ⟨a + b, by rw [ha, hb]; push_cast; ring⟩

theorem UpToTurns.symm {x y : State} (h : UpToTurns x y) : UpToTurns y x := by
  intro i
  refine ⟨fun hi => ?_, fun hi => ((h i).2 hi).symm⟩
  obtain ⟨a, ha⟩ := (h i).1 hi
  exact ⟨-a, by rw [ha]; push_cast; ring⟩

theorem wrap_upToTurns (x : State) : UpToTurns (wrapStateAngles x) x := fun i => wrap_turns x i

theorem kin_vec (k : Kin) : kin k.vec = k := by
  obtain ⟨p, e, v, w, a⟩ := k
  simp only [kin, Kin.mk.injEq]
  refine ⟨?_, ?_, ?_, ?_, ?_⟩ <;> (funext i; fin_cases i <;> rfl)

/-- Equal but for the orientation. -/
theorem vec_turns {j k : Kin} (hp : j.pos = k.pos) (hv : j.vel = k.vel) (hw : j.rate = k.rate) (ha : j.acc = k.acc)
    (he : ∀ i, ∃ n : ℤ, j.eul i = k.eul i + n * (2 * π)) : UpToTurns j.vec k.vec := by
  obtain ⟨p, e, v, w, a⟩ := j
  obtain ⟨p', e', v', w', a'⟩ := k
  dsimp only at hp hv hw ha he
  subst hp hv hw ha
  intro i
  refine ⟨fun hi => ?_, fun hi => ?_⟩
  · rcases hi with rfl | rfl | rfl
    · exact he 0
    · exact he 1
    · exact he 2
  · fin_cases i
    case «3» => exact absurd (Or.inl rfl) hi
    case «4» => exact absurd (Or.inr (Or.inl rfl)) hi
    case «5» => exact absurd (Or.inr (Or.inr rfl)) hi
    all_goals rfl

/-- A step of the motion model from states that differ by full turns gives states that differ by full turns. -/
theorem move_turns {x : State} {k : Kin} (h : UpToTurns x k.vec) (d : ℝ) : UpToTurns (move (kin x) d).vec (move k d).vec := by
  obtain ⟨a, ha⟩ := (h 3).1 (Or.inl rfl)
  obtain ⟨b, hb⟩ := (h 4).1 (Or.inr (Or.inl rfl))
  obtain ⟨c, hc⟩ := (h 5).1 (Or.inr (Or.inr rfl))
  have na : ∀ i : Fin 15, i.val ≠ 3 → i.val ≠ 4 → i.val ≠ 5 → x i = k.vec i := by
    intro i h3 h4 h5
    refine (h i).2 fun hi => ?_
    rcases hi with rfl | rfl | rfl
    · exact h3 rfl
    · exact h4 rfl
    · exact h5 rfl
  have ea : x 3 = k.eul 0 + a * (2 * π) := ha
  have eb : x 4 = k.eul 1 + b * (2 * π) := hb
  have ec : x 5 = k.eul 2 + c * (2 * π) := hc
  have ep : (kin x).pos = k.pos := by
    funext i
    fin_cases i
    · exact na 0 (by decide) (by decide) (by decide)
    · exact na 1 (by decide) (by decide) (by decide)
    · exact na 2 (by decide) (by decide) (by decide)
  have ev : (kin x).vel = k.vel := by
    funext i
    fin_cases i
    · exact na 6 (by decide) (by decide) (by decide)
    · exact na 7 (by decide) (by decide) (by decide)
    · exact na 8 (by decide) (by decide) (by decide)
  have ew : (kin x).rate = k.rate := by
    funext i
    fin_cases i
    · exact na 9 (by decide) (by decide) (by decide)
    · exact na 10 (by decide) (by decide) (by decide)
    · exact na 11 (by decide) (by decide) (by decide)
  have eA : (kin x).acc = k.acc := by
    funext i
    fin_cases i
    · exact na 12 (by decide) (by decide) (by decide)
    · exact na 13 (by decide) (by decide) (by decide)
    · exact na 14 (by decide) (by decide) (by decide)
  have e0 : (kin x).eul 0 = k.eul 0 + a * (2 * π) := ea
  have e1 : (kin x).eul 1 = k.eul 1 + b * (2 * π) := eb
  have e2 : (kin x).eul 2 = k.eul 2 + c * (2 * π) := ec
  have er : rot (kin x).eul = rot k.eul := by
    unfold rot rotX rotY rotZ
    simp only [e0, e1, e2, Real.sin_add_int_mul_two_pi, Real.cos_add_int_mul_two_pi]
  have ee : eulerRates (kin x).eul (kin x).rate = eulerRates k.eul k.rate := by
    unfold eulerRates
    simp only [e0, e1, ew, Real.tan_eq_sin_div_cos, Real.sin_add_int_mul_two_pi, Real.cos_add_int_mul_two_pi]
  have mp : (move (kin x) d).pos = (move k d).pos := by
    unfold move
    rw [ep, er, ev, eA]
  have mv : (move (kin x) d).vel = (move k d).vel := by
    unfold move
    rw [ev, eA]
  have mw : (move (kin x) d).rate = (move k d).rate := ew
  have mA : (move (kin x) d).acc = (move k d).acc := eA
  have me : ∀ i, (move (kin x) d).eul i - (kin x).eul i = (move k d).eul i - k.eul i := by
    intro i
    unfold move
    rw [ee]
    simp
  have m0 := me 0
  have m1 := me 1
  have m2 := me 2
  rw [e0] at m0
  rw [e1] at m1
  rw [e2] at m2
  refine vec_turns mp mv mw mA fun i => ?_
  fin_cases i
  · exact ⟨a, show (move (kin x) d).eul 0 = (move k d).eul 0 + _ by linarith⟩
  · exact ⟨b, show (move (kin x) d).eul 1 = (move k d).eul 1 + _ by linarith⟩
  · exact ⟨c, show (move (kin x) d).eul 2 = (move k d).eul 2 + _ by linarith⟩

/-- A correction by a measurement that agrees changes nothing but full turns. -/
theorem correct_agreeing {m : Payload} {k : Kin} (hm : Reads k m) {x : State} (h : UpToTurns x k.vec) (P : Mat15) (y : State)
    (P' : Mat15) (hy : Ekf.correct m x P = some (y, P')) : UpToTurns y k.vec := by
  have h0 : innovation m.indices.get (fun i => (m.z i).val) x = 0 := by
    funext j
    have hmem : m.indices.get j ∈ m.indices := List.get_mem _ _
    obtain ⟨v, hv⟩ := finite_of_mem m _ hmem
    have hs := hm _ v (mem_upd hmem) hv
    unfold innovation
    simp only [Pi.zero_apply]
    generalize m.indices.get j = i at *
    rw [hv]
    show (if i = iRoll ∨ i = iPitch ∨ i = iYaw then normalizeAngle (v - x i) else v - x i) = 0
    by_cases hi : i = iRoll ∨ i = iPitch ∨ i = iYaw
    · rw [if_pos hi]
      obtain ⟨a, ha⟩ := hs.1 hi
      obtain ⟨b, hb⟩ := (h i).1 hi
      rw [ha, hb, show k.vec i + a * (2 * π) - (k.vec i + b * (2 * π)) = 0 + ((a - b : ℤ) : ℝ) * (2 * π) by push_cast; ring,
        normalizeAngle_add_two_pi, normalizeAngle_zero]
    · rw [if_neg hi, hs.2 hi, (h i).2 hi, sub_self]
  unfold Ekf.correct correctAt at hy
  rw [h0, mulVec_zero, add_zero] at hy
  split at hy
  · cases hy
  · split at hy
    · injection hy with hy
      injection hy with hy _
      rw [← hy]
      exact (wrap_upToTurns x).trans h
    · injection hy with hy
      injection hy with hy _
      rw [← hy]
      exact h

/-- The motion as the EKF sees it. -/
noncomputable def ekfTruth (p : FilterPar) (hc : ∀ c, p.ctlUpd c = false) (f : Int → Kin) (hf : Follows f) :
    Truth (ekfCore p) where
  ok t x := ∀ y : State, x = some y → UpToTurns y (f t).vec
  z t m := Reads (f t) m
  predict := by
    intro q u ut ref δ t x P e h y hy
    cases x with
    | none => cases hy
    | some x =>
      have hx := h x rfl
      have e : ((ekfCore p).predict q u ut ref δ (some x, P, e)).1 = (Ekf.predict p q u ut ref (toSec δ) x P).map Prod.fst := by
        show (match Ekf.predict p q u ut ref (toSec δ) x P with
          | some r => (some r.1, r.2, ())
          | none => (none, P, ()) : Option State × Mat15 × Unit).1 = _
        cases Ekf.predict p q u ut ref (toSec δ) x P <;> rfl
      rw [e] at hy
      unfold Ekf.predict at hy
      dsimp only at hy
      split at hy
      · cases hy
      · injection hy with hy
        have e1 : wrapStateAngles ((transferF x (toSec δ)).mulVec (applyControl p (prepareControl p u ut ref x) (toSec δ) x)) =
            wrapStateAngles (move (kin x) (toSec δ)).vec := by
          rw [← C03_rigid_body]
          exact congrArg (fun y => wrapStateAngles ((transferF x (toSec δ)).mulVec y))
            (applyControl_none p hc u ut ref (toSec δ) x)
        have e2 : y = wrapStateAngles (move (kin x) (toSec δ)).vec := hy.symm.trans e1
        rw [e2]
        exact (wrap_upToTurns _).trans ((move_turns hx _).trans (hf t δ).symm)
  correct := by
    intro m x P e t h hz y hy
    cases x with
    | none => cases hy
    | some x =>
      have hx := h x rfl
      have e : ((ekfCore p).correct m (some x, P, e)).1 = (Ekf.correct m x P).map Prod.fst := by
        show (match Ekf.correct m x P with
          | some r => (some r.1, r.2, ())
          | none => (none, P, ()) : Option State × Mat15 × Unit).1 = _
        cases Ekf.correct m x P <;> rfl
      rw [e] at hy
      cases hr : Ekf.correct m x P with
      | none => rw [hr] at hy; cases hy
      | some r =>
        rw [hr] at hy
        injection hy with hy
        exact correct_agreeing hz hx P y r.2 (by rw [hr, ← hy])

theorem fair_of_agrees {p : FilterPar} (hc : ∀ c, p.ctlUpd c = false) {f : Int → Kin} (hf : Follows f)
    {Q : MQueue (ekfCore p)} {cfg : Cfg (ekfCore p)} (n : Node (ekfCore p) Q) (e : Node.Event (ekfCore p))
    (h : Agrees f cfg n e) : (ekfTruth p hc f hf).Fair cfg n e := by
  cases e with
  | sensor topic stamp z =>
    intro m hm
    obtain ⟨h1, h2⟩ := h m hm
    refine ⟨h1, fun hi y hy => ?_⟩
    have hy : Option.bind n.filt.x (initState m) = some y := hy
    cases hx : (n.filt.x : Option State) with
    | none => rw [hx] at hy; cases hy
    | some x0 =>
      rw [hx] at hy
      have hy : initState m x0 = some y := hy
      unfold initState at hy
      split at hy
      · rename_i hfin
        injection hy with hy
        intro i
        rw [← hy]
        show SameVal i _ _
        dsimp only
        cases hu : m.upd i with
        | true =>
          rw [if_pos rfl]
          have := hfin i hu
          cases hz : m.z i with
          | fin v => exact h1 i v hu hz
          | nan => rw [hz] at this; cases this
          | inf s => rw [hz] at this; cases this
        | false =>
          rw [if_neg (by simp)]
          exact h2 hi x0 hx i hu
      · cases hy
  | control u t => trivial
  | setPose stamp now r =>
    intro hi
    obtain ⟨x, cov, h1, h2⟩ := h hi
    refine ⟨some x, cov, h1, fun y hy => ?_⟩
    injection hy with hy
    rw [← hy]
    exact h2
  | reset => trivial
  | toggle on => trivial
  | enable => trivial
  | tick now now2 tfOk =>
    rcases h with h | h
    · refine Or.inl ⟨fun s t x hx y hy => (hx y hy).trans (h t s), fun s t m hm i v hu hv => ?_⟩
      have h1 := hm i v hu hv
      have h2 := h t s i
      refine ⟨fun hi => ?_, fun hi => (h1.2 hi).trans (h2.2 hi)⟩
      obtain ⟨a, ha⟩ := h1.1 hi
      obtain ⟨b, hb⟩ := h2.1 hi
      exact ⟨a + b, by rw [ha, hb]; push_cast; ring⟩
    · exact Or.inr h

theorem Along.imp {C : Core} {P : MQueue C} {cfg : Cfg C} {A B : Node C P → Node.Event C → Prop} (h : ∀ n e, A n e → B n e) :
    ∀ (es : List (Node.Event C)) (n : Node C P), Along cfg A n es → Along cfg B n es
  | [], _, _ => trivial
  | _ :: es, _, ha => ⟨h _ _ ha.1, Along.imp h es _ ha.2⟩

/-- C97: whatever the covariances, thresholds, settings and the order of arrival, every finite estimate that a node without
control sends is the motion at its stamp, if everything it is told agrees with the motion and the motion model integrates
the motion exactly. -/
theorem C97_reproduced_partial (p : FilterPar) (hc : ∀ c, p.ctlUpd c = false) (Q : MQueue (ekfCore p)) (cfg : Cfg (ekfCore p))
    (f : Int → Kin) (hf : Follows f) (ctl0 : Fin 6 → ℝ) (now : Int) (es : List (Node.Event (ekfCore p)))
    (ha : Along cfg (Agrees f cfg) (Node.start cfg Q () ctl0 now) es) (t : Int) (x : State) (cov : Mat15)
    (ho : Out.odom t (some x) cov ∈ ((Node.start cfg Q () ctl0 now).run cfg es).2) : UpToTurns x (f t).vec :=
  Truth.run (T := ekfTruth p hc f hf) es _ (Truth.start cfg Q () ctl0 now)
    (Along.imp (fun n e => fair_of_agrees hc hf n e) es _ ha) t (some x) cov ho x rfl

/-! ## Motions that are integrated exactly -/

theorem toSec_add (s d : Int) : toSec (s + d) = toSec s + toSec d := by
  unfold toSec
  push_cast
  ring

/-- Constant orientation and constant acceleration in the body, standing still included. -/
theorem C97_straight (k : Kin) (hr : k.rate = 0) : Follows fun t => move k (toSec t) := by
  intro t d
  have hz : ∀ e : Vec3, eulerRates e 0 = 0 := by
    intro e
    funext i
    fin_cases i <;> simp [eulerRates]
  have e : move k (toSec (t + d)) = move (move k (toSec t)) (toSec d) := by
    unfold move
    simp only [hr, hz, smul_zero, add_zero, toSec_add]
    congr 1
    · rw [add_assoc, ← mulVec_add]
      congr 2
      module
    · module
  show UpToTurns (move k (toSec (t + d))).vec _
  rw [e]
  exact UpToTurns.refl _

/-- Turning on the spot about the vertical at a constant rate `w`, however the robot is tilted. -/
theorem C97_spin (k : Kin) (hv : k.vel = 0) (ha : k.acc = 0) (w : ℝ) (hp : cos (k.eul 1) ≠ 0)
    (hw : k.rate = w • ![-sin (k.eul 1), cos (k.eul 1) * sin (k.eul 0), cos (k.eul 1) * cos (k.eul 0)]) :
    Follows fun t => move k (toSec t) := by
  have he : ∀ a : Vec3, a 0 = k.eul 0 → a 1 = k.eul 1 → eulerRates a k.rate = ![0, 0, w] := by
    intro a h0 h1
    have s0 := sin_sq_add_cos_sq (k.eul 0)
    unfold eulerRates
    rw [h0, h1, hw, Real.tan_eq_sin_div_cos]
    funext i
    fin_cases i
    · simp
      field_simp
      linear_combination (w * sin (k.eul 1)) * s0
    · simp
      ring
    · simp
      field_simp
      linear_combination w * s0
  have h0 := he k.eul rfl rfl
  intro t d
  have e : move k (toSec (t + d)) = move (move k (toSec t)) (toSec d) := by
    have h1 := he (k.eul + toSec t • eulerRates k.eul k.rate) (by rw [h0]; simp) (by rw [h0]; simp)
    unfold move
    simp only [h1]
    simp only [h0, hv, ha, smul_zero, add_zero, mulVec_zero, toSec_add]
    congr 1
    module
  show UpToTurns (move k (toSec (t + d))).vec _
  rw [e]
  exact UpToTurns.refl _

/-! ## Where it fails -/

/-- One metre per second straight ahead. -/
noncomputable def ahead : Kin := { pos := 0, eul := 0, vel := ![1, 0, 0], rate := 0, acc := 0 }

/-- A measurement of everything. -/
noncomputable def fullRead (k : Kin) : Payload := demoZ (fun _ => true) fun i => .fin (k.vec i)

theorem fullRead_reads (k : Kin) : Reads k (fullRead k) := by
  intro i v _ hv
  have hv : Dbl.fin (k.vec i) = Dbl.fin v := hv
  injection hv with hv
  rw [hv]
  exact ⟨fun _ => ⟨0, by simp⟩, fun _ => rfl⟩

theorem initState_full (k : Kin) (x : State) : initState (fullRead k) x = some k.vec := by
  unfold initState
  rw [if_pos (show ∀ i, (fullRead k).upd i = true → ((fullRead k).z i).isFin = true from fun i _ => rfl)]
  rfl

theorem ahead_pos (t : ℝ) : (move ahead t).vec 0 = t := by
  show (move ahead t).pos 0 = t
  simp [move, ahead, rot, rotX, rotY, rotZ]

noncomputable def lateCfg : Cfg (ekfCore plainPar) := { demoCfg plainPar with smooth := false, permitCorrected := true }

/-- Everything is measured at two seconds; then the x of one second arrives, and smoothing is off. -/
noncomputable def lateRun : List (Node.Event (ekfCore plainPar)) :=
  [.sensor "a" 2000000000 (some (fullRead (move ahead (toSec 2000000000)))), .tick 2000000000 2000000000 false,
   .sensor "b" 1000000000 (some (oneVar 0 1 .unlimited)), .tick 2000000000 2000000000 false]

/-- C97, refuted: a robot drives at one metre per second and every measurement is exact; one that is late makes the node
report one and a half metres at two seconds. -/
theorem C97_late :
    Reads (move ahead (toSec 2000000000)) (fullRead (move ahead (toSec 2000000000))) ∧
    Reads (move ahead (toSec 1000000000)) (oneVar 0 1 .unlimited) ∧
    ∃ x cov, Out.odom 2000000000 (some x) cov ∈
        ((Node.start lateCfg (demoQ plainPar) () (0 : Fin 6 → ℝ) 0).run lateCfg lateRun).2 ∧
      x 0 = 3 / 2 ∧ (move ahead (toSec 2000000000)).vec 0 = 2 := by
  have h2 : toSec 2000000000 = 2 := by norm_num [toSec]
  have h1 : toSec 1000000000 = 1 := by norm_num [toSec]
  refine ⟨fullRead_reads _, ?_, ?_⟩
  · intro i v hu hv
    have hi : i = 0 := by simpa [oneVar] using hu
    subst hi
    have hv : Dbl.fin 1 = Dbl.fin v := hv
    injection hv with hv
    rw [← hv, ahead_pos, h1]
    exact ⟨fun _ => ⟨0, by simp⟩, fun _ => rfl⟩
  · have hcov : initCov (fullRead (move ahead (toSec 2000000000))) ((1e-9 : ℝ) • (1 : Mat15)) = 1 := by
      ext i j
      simp [initCov, fullRead, demoZ]
    obtain ⟨y, P', hc, hy⟩ : ∃ y P', Ekf.correct (oneVar 0 1 .unlimited) (move ahead (toSec 2000000000)).vec 1 = some (y, P') ∧
        y 0 = 3 / 2 := by
      refine ⟨_, _, correct_one 0 (oneVar_indices 0 1 .unlimited) (oneVar_certain 0 1) _ PosSemidef.one, ?_⟩
      rw [(wrap_turns _ 0).2 (by unfold angular; decide), ahead_pos, h2, if_neg (by decide)]
      norm_num [oneVar, sanitize, Dbl.val]
    refine ⟨y, P', ?_, hy, by rw [ahead_pos, h2]⟩
    simp [lateRun, Node.run, Node.step, Node.start, Node.sensor, Node.enqueue, lateCfg, demoCfg, demoQ, PQueue.sortedList,
      PQueue.insertSorted, Node.periodic, Node.advance, Node.integrate, Node.drain, PQueue.size, Filt.processMeasurement,
      Node.publish, Filt.correct, ekfCore, initState_full, hcov, hc]
    exact List.mem_cons_of_mem _ (List.mem_cons_of_mem _ List.mem_cons_self)

/-- A unit circle at unit speed; the position starts at zero. -/
noncomputable def circle (s : ℝ) : Kin :=
  { pos := ![sin s, 1 - cos s, 0], eul := ![0, 0, s], vel := ![1, 0, 0], rate := ![0, 0, 1], acc := 0 }

noncomputable def nowCfg : Cfg (ekfCore plainPar) := { demoCfg plainPar with predictToCurrent := true }

/-- C97, refuted: also without any measurement that is late or wrong, a motion that is not one of those above is not
reproduced.  The robot drives round a circle, is measured exactly at the start, and is reported straight ahead one second
later. -/
theorem C97_circle :
    (∀ s, HasDerivAt (fun s => (circle s).pos) ((rot (circle s).eul).mulVec (circle s).vel) s ∧
      HasDerivAt (fun s => (circle s).eul) (eulerRates (circle s).eul (circle s).rate) s) ∧
    ∃ x cov, Out.odom 2000000000 (some x) cov ∈ ((Node.start nowCfg (demoQ plainPar) () (0 : Fin 6 → ℝ) 0).run nowCfg
        [.sensor "a" 1000000000 (some (fullRead (circle 0))), .tick 2000000000 2000000000 false]).2 ∧
      x 0 = 1 ∧ x 1 = 0 ∧ (circle 1).vec 1 > 2 / 5 := by
  refine ⟨fun s => ⟨?_, ?_⟩, ?_⟩
  · refine hasDerivAt_pi.2 fun i => ?_
    fin_cases i
    · have e : (rot (circle s).eul).mulVec (circle s).vel 0 = cos s := by
        simp [circle, rot, rotX, rotY, rotZ]
      show HasDerivAt (fun s => sin s) ((rot (circle s).eul).mulVec (circle s).vel 0) s
      rw [e]
      exact hasDerivAt_sin s
    · have e : (rot (circle s).eul).mulVec (circle s).vel 1 = sin s := by
        simp [circle, rot, rotX, rotY, rotZ]
      show HasDerivAt (fun s => 1 - cos s) ((rot (circle s).eul).mulVec (circle s).vel 1) s
      rw [e]
      simpa using (hasDerivAt_cos s).const_sub 1
    · have e : (rot (circle s).eul).mulVec (circle s).vel 2 = 0 := by
        simp [circle, rot, rotX, rotY, rotZ]
      show HasDerivAt (fun _ => (0 : ℝ)) ((rot (circle s).eul).mulVec (circle s).vel 2) s
      rw [e]
      exact hasDerivAt_const s 0
  · have e : eulerRates (circle s).eul (circle s).rate = ![0, 0, 1] := by
      simp [circle, eulerRates]
    rw [e]
    refine hasDerivAt_pi.2 fun i => ?_
    fin_cases i
    · exact hasDerivAt_const s 0
    · exact hasDerivAt_const s 0
    · exact hasDerivAt_id s
  · have h1 : toSec 1000000000 = 1 := by norm_num [toSec]
    have hcov : initCov (fullRead (circle 0)) ((1e-9 : ℝ) • (1 : Mat15)) = 1 := by
      ext i j
      simp [initCov, fullRead, demoZ]
    obtain ⟨y, P', hc, h0, hy⟩ : ∃ y P', Ekf.predict plainPar defaultQ 0 0 2000000000 (toSec 1000000000) (circle 0).vec 1 =
        some (y, P') ∧ y 0 = 1 ∧ y 1 = 0 := by
      have hp : cos ((circle 0).vec iPitch) ≠ 0 := by
        show cos 0 ≠ 0
        simp
      refine ⟨_, _, if_neg hp, ?_, ?_⟩
      · rw [(wrap_turns _ 0).2 (by unfold angular; decide), applyControl_none plainPar (fun _ => rfl), C03_rigid_body, kin_vec,
          h1]
        show (move (circle 0) 1).pos 0 = 1
        simp [move, circle, rot, rotX, rotY, rotZ, vecHead, vecTail]
      · rw [(wrap_turns _ 1).2 (by unfold angular; decide), applyControl_none plainPar (fun _ => rfl), C03_rigid_body, kin_vec,
          h1]
        show (move (circle 0) 1).pos 1 = 0
        simp [move, circle, rot, rotX, rotY, rotZ, vecHead, vecTail]
    refine ⟨y, P', ?_, h0, hy, ?_⟩
    · simp [Node.run, Node.step, Node.start, Node.sensor, Node.enqueue, nowCfg, demoCfg, demoQ, PQueue.sortedList,
        PQueue.insertSorted, Node.periodic, Node.advance, Node.integrate, Node.drain, PQueue.size, Filt.processMeasurement,
        Node.publish, Node.predictTo, Filt.predict, Filt.setLastTime, ekfCore, initState_full, hcov, hc]
      exact List.mem_cons_self
    · show 1 - cos 1 > 2 / 5
      have := Real.cos_one_le
      linarith

noncomputable def agreeCfg : Cfg (ekfCore plainPar) := { demoCfg plainPar with historyLength := 10000000000 }

/-- The hypotheses of `C97_reproduced_partial` are met by a run with smoothing in which a measurement is late. -/
example (a b c : Payload) (ha : a = fullRead (move ahead (toSec 1000000000)))
    (hb : b = fullRead (move ahead (toSec 3000000000))) (hc : c = fullRead (move ahead (toSec 2000000000))) :
    Along agreeCfg (Agrees (fun t => move ahead (toSec t)) agreeCfg) (Node.start agreeCfg (demoQ plainPar) () (0 : Fin 6 → ℝ) 0)
      [.sensor "a" 1000000000 (some a), .tick 1000000000 1000000000 false,
       .sensor "a" 3000000000 (some b), .tick 3000000000 3000000000 false,
       .sensor "b" 2000000000 (some c), .tick 3000000000 3000000000 false] := by
  have hs : ∀ (n : Node (ekfCore plainPar) (demoQ plainPar)) topic t,
      Agrees (fun t => move ahead (toSec t)) agreeCfg n (.sensor topic t (some (fullRead (move ahead (toSec t))))) := by
    intro n topic t m hm
    injection hm with hm
    subst hm
    exact ⟨fullRead_reads _, fun _ x0 _ i hi => by cases hi⟩
  have ht : ∀ (n : Node (ekfCore plainPar) (demoQ plainPar)) now now2 tfOk, n.toggledOn = true →
      (n.filt.initialized = true → ∀ m ∈ (demoQ plainPar).elems n.queue,
      n.filt.lastTime ≤ m.time ∨ agreeCfg.smooth = true ∧ ∃ s ∈ n.stateHist, s.lastTime < m.time) →
      Agrees (fun t => move ahead (toSec t)) agreeCfg n (.tick now now2 tfOk) := fun _ _ _ _ h1 h2 => Or.inr ⟨h1, h2⟩
  refine ⟨ha ▸ hs _ _ _, ht _ _ _ _ ?_ ?_, hb ▸ hs _ _ _, ht _ _ _ _ ?_ ?_, hc ▸ hs _ _ _, ht _ _ _ _ ?_ ?_, trivial⟩
  all_goals simp [Node.step, Node.start, Node.sensor, Node.enqueue, agreeCfg, demoCfg, demoQ, PQueue.sortedList,
        PQueue.insertSorted, Node.periodic, Node.advance, Node.integrate, Node.drain, PQueue.size, Filt.processMeasurement,
        Node.publish, Node.clearExpired, Filt.snap, Filt.correct, Filt.predict, List.rdropWhile]

end RL
