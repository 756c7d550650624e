import Verif.Props.UkfCorrect
/-!
# The unscented filter: what it remembers (C18), the control input (C19)
-/

namespace RL
open Matrix Real

/-! ## C19 -/

/-- C19, refuted: the prediction of the UKF is the same for every command. -/
theorem C19_control_ignored (p : FilterPar) (llt : Llt) (k : UkfConst) (Q : Mat15) (ctl ctl' : Fin 6 → ℝ) (ct ct' ref : Int)
    (dt : ℝ) (x : State) (P : Mat15) :
    Ukf.predict p llt k Q ctl ct ref dt x P = Ukf.predict p llt k Q ctl' ct' ref dt x P := rfl

/-- A configuration in which everything is controlled. -/
noncomputable def allControlled : FilterPar where
  useControl := true
  ctlTimeout := 1000000000
  ctlUpd := fun _ => true
  accLim := fun _ => 1
  accGain := fun _ => 1
  decLim := fun _ => 1
  decGain := fun _ => 1
  dynamic := false

/-- C19: whereas the EKF follows it: a robot at rest told to drive at 1 m/s accelerates. -/
theorem C19_ekf_follows (Q P : Mat15) (t : Int) (dt : ℝ) :
    (∃ x' P', Ekf.predict allControlled Q (fun _ => 0) t t dt 0 P = some (x', P') ∧ x' iAx = 0) ∧
    ∃ x' P', Ekf.predict allControlled Q (fun c => if c = 0 then 1 else 0) t t dt 0 P = some (x', P') ∧ x' iAx = 1 := by
  have hcos : ¬ cos ((0 : State) iPitch) = 0 := by simp
  have key : ∀ ctl : Fin 6 → ℝ, ∃ x' P', Ekf.predict allControlled Q ctl t t dt 0 P = some (x', P') ∧
      x' iAx = prepareControl allControlled ctl t t 0 0 := by
    intro ctl
    refine ⟨_, _, if_neg hcos, ?_⟩
    have h12 : ¬ (iAx = iRoll ∨ iAx = iPitch ∨ iAx = iYaw) := by decide
    unfold wrapStateAngles
    rw [if_neg h12]
    show ∑ j, transferF 0 dt 12 j * _ = _
    rw [transferF_row12, sum15]
    simp [applyControl, allControlled]
  constructor
  · obtain ⟨x', P', h1, h2⟩ := key (fun _ => 0)
    refine ⟨x', P', h1, h2.trans ?_⟩
    simp [prepareControl, allControlled, computeControlAcceleration]
  · obtain ⟨x', P', h1, h2⟩ := key (fun c => if c = 0 then 1 else 0)
    refine ⟨x', P', h1, h2.trans ?_⟩
    simp [prepareControl, allControlled, computeControlAcceleration]

/-! ## C18 -/

/-- With all sigma points in one place nothing is learnt from any measurement. -/
theorem correct_degenerate {n : ℕ} (e : Fin n → Fin 15) {k : UkfConst} (hw : ∑ s, k.w s = 1) (x : State) :
    measCovar e k (fun _ => 0) = 0 ∧ crossCovar e k (fun _ => 0) x = 0 ∧ predictedMeas e k (fun _ => 0) = 0 := by
  have hz : predictedMeas e k (fun _ => 0) = 0 := by
    funext i
    unfold predictedMeas
    split
    · unfold angleMean atan2
      have : (⟨∑ s, k.w s * cos ((fun _ : Sig => (0 : State) (e i)) s), ∑ s, k.w s * sin ((fun _ : Sig => (0 : State) (e i)) s)⟩ : ℂ) = 1 := by
        apply Complex.ext <;> simp [hw]
      rw [this, Complex.arg_one]
      rfl
    · simp
  have hd : measDiff e (0 : Fin n → ℝ) (0 : State) = 0 := by
    funext i
    unfold measDiff
    split <;> simp
  refine ⟨?_, ?_, hz⟩
  · unfold measCovar
    dsimp only
    rw [hz, hd]
    simp
  · unfold crossCovar
    dsimp only
    rw [hz, hd]
    refine Finset.sum_eq_zero fun s _ => ?_
    ext a b
    simp [vecMulVec_apply]

theorem ukfCore_correct_some {p : FilterPar} {llt : Llt} {k : UkfConst} {m : Payload} {x : State} {P : Mat15} {mem : UkfMem}
    {r : State × Mat15 × UkfMem} (h : Ukf.correct llt k m x P mem = some r) :
    (ukfCore p llt k).correct m (some x, P, mem) = (some r.1, r.2.1, r.2.2) := by
  show (match (some x).bind (fun x => Ukf.correct llt k m x P mem) with
    | some r => (some r.1, r.2.1, r.2.2)
    | none => (none, P, mem)) = _
  rw [Option.bind_some, h]

theorem ukfCore_predict_some {p : FilterPar} {llt : Llt} {k : UkfConst} {Q : Mat15} {ctl : Fin 6 → ℝ} {ct ref d : Int}
    {x : State} {P : Mat15} {mem : UkfMem} {r : State × Mat15 × UkfMem}
    (h : Ukf.predict p llt k Q ctl ct ref (toSec d) x P = some r) :
    (ukfCore p llt k).predict Q ctl ct ref d (some x, P, mem) = (some r.1, r.2.1, r.2.2) := by
  show (match (some x).bind (fun x => Ukf.predict p llt k Q ctl ct ref (toSec d) x P) with
    | some r => (some r.1, r.2.1, r.2.2)
    | none => (none, P, mem)) = _
  rw [Option.bind_some, h]

theorem ukfCore_correct_none {p : FilterPar} {llt : Llt} {k : UkfConst} {m : Payload} {x : State} {P : Mat15} {mem : UkfMem}
    (h : Ukf.correct llt k m x P mem = none) : (ukfCore p llt k).correct m (some x, P, mem) = (none, P, mem) := by
  show (match (some x).bind (fun x => Ukf.correct llt k m x P mem) with
    | some r => (some r.1, r.2.1, r.2.2)
    | none => (none, P, mem)) = _
  rw [Option.bind_some, h]

theorem ukfCore_predict_none {p : FilterPar} {llt : Llt} {k : UkfConst} {Q : Mat15} {ctl : Fin 6 → ℝ} {ct ref d : Int}
    {x : State} {P : Mat15} {mem : UkfMem} (h : Ukf.predict p llt k Q ctl ct ref (toSec d) x P = none) :
    (ukfCore p llt k).predict Q ctl ct ref d (some x, P, mem) = (none, P, mem) := by
  show (match (some x).bind (fun x => Ukf.predict p llt k Q ctl ct ref (toSec d) x P) with
    | some r => (some r.1, r.2.1, r.2.2)
    | none => (none, P, mem)) = _
  rw [Option.bind_some, h]

theorem process_same_stamp {C : Core} (g : Filt C) (m : Meas C) (hi : g.initialized = true) (ht : m.time = g.lastTime) :
    g.processMeasurement m = { g.correct m.z with lastTime := m.time } := by
  rw [Filt.processMeasurement, if_pos hi]
  dsimp only
  rw [ht, sub_self, if_pos (by decide), if_neg (by decide)]

/-- A measurement that would be accepted. -/
def Payload.Usable (m : Payload) : Prop := (subR m.indices.get m.R).det ≠ 0 ∧ m.thresh = .unlimited

/-- C18, refuted: of the first two measurements a UKF receives with the same stamp, the second has no effect, whatever it
says. -/
theorem C18_second_measurement_ignored (p : FilterPar) (llt : Llt) {alpha kappa beta : ℝ} {k : UkfConst}
    (hk : setConstants alpha kappa beta = some k) (f : Filt (ukfCore p llt k)) (hi : f.initialized = false)
    (hm : f.ext = UkfMem.init) (m1 m2 : Meas (ukfCore p llt k)) (ht : m2.time = m1.time)
    (x1 : State) (h1 : (f.processMeasurement m1).x = some x1) (z2 : Payload) (hz : m2.z = z2) (hu : z2.Usable) :
    ((f.processMeasurement m1).processMeasurement m2).x = some (wrapStateAngles x1) ∧
      ((f.processMeasurement m1).processMeasurement m2).cov = (f.processMeasurement m1).cov := by
  subst hz
  set g := f.processMeasurement m1 with hg
  have g1 : g.initialized = true := by rw [hg]; unfold Filt.processMeasurement; rw [hi]; rfl
  have g2 : g.lastTime = m1.time := by rw [hg]; unfold Filt.processMeasurement; rw [hi]; rfl
  have g3 : g.ext = UkfMem.init := by rw [hg, ← hm]; unfold Filt.processMeasurement; rw [hi]; rfl
  have e : ∀ (P : Mat15), Ukf.correct llt k m2.z x1 P UkfMem.init =
      some (wrapStateAngles x1, P, { pts := fun _ => 0, uncorrected := false }) := by
    intro P
    obtain ⟨a1, a2, a3⟩ := correct_degenerate (Payload.indices m2.z).get (C16_weights_sum_to_one hk) x1
    unfold Ukf.correct
    dsimp only
    have hr : UkfMem.init.refresh llt k x1 P = fun _ => 0 := rfl
    rw [hr]
    unfold ukfCorrectAt
    dsimp only
    have hS : measCovar (Payload.indices m2.z).get k (fun _ => 0) + subR (Payload.indices m2.z).get (Payload.R m2.z) =
        subR (Payload.indices m2.z).get (Payload.R m2.z) := by rw [a1, zero_add]
    rw [hS, a1, a2, a3, if_neg hu.1, hu.2, if_pos (show checkMahalanobis _ _ Thresh.unlimited from trivial)]
    simp [UkfMem.init]
  have hcorr : (g.correct m2.z).x = some (wrapStateAngles x1) ∧ (g.correct m2.z).cov = g.cov := by
    unfold Filt.correct
    dsimp only
    rw [h1, g3]
    have hb : (ukfCore p llt k).correct m2.z (some x1, g.cov, UkfMem.init) =
        (some (wrapStateAngles x1), g.cov, { pts := fun _ => 0, uncorrected := false }) :=
      ukfCore_correct_some (e g.cov)
    rw [hb]
    exact ⟨rfl, rfl⟩
  have hp := process_same_stamp g m2 g1 (ht.trans g2.symm)
  rw [hp]
  exact hcorr

example : ∃ z : Payload, z.Usable ∧ z.upd iX = true := by
  refine ⟨⟨fun i => decide (i = 0), fun _ => .fin 7, 1, .unlimited⟩, ⟨?_, rfl⟩, rfl⟩
  have := C08_independent_errors_usable (Payload.indices ⟨fun i => decide (i = 0), fun _ => .fin 7, 1, .unlimited⟩).get 1 0
    PosSemidef.zero (fun i j hij => one_apply_ne (fun h => hij (by
      have hn : (Payload.indices ⟨fun i => decide (i = 0), fun _ => .fin 7, 1, .unlimited⟩).Nodup :=
        (List.nodup_finRange 15).filter _
      exact List.nodup_iff_injective_get.1 hn h)))
  simpa using this

/-- C18, partial: what the sigma points in memory are worth.  Unless a correction or nothing at all has happened since, they
are those of the prediction that produced the current estimate. -/
def FreshMem (p : FilterPar) (llt : Llt) (k : UkfConst) (f : Filt (ukfCore p llt k)) : Prop :=
  ∀ x : State, f.x = some x → UkfMem.uncorrected f.ext = true →
    ∃ Q ctl ct ref dt x0 P0, Ukf.predict p llt k Q ctl ct ref dt x0 P0 = some (x, f.cov, f.ext)

theorem freshMem_predict {p : FilterPar} {llt : Llt} {k : UkfConst} (f : Filt (ukfCore p llt k)) (h : FreshMem p llt k f)
    (ref d : Int) : FreshMem p llt k (f.predict ref d) := by
  intro x hx hu
  unfold Filt.predict at hx hu ⊢
  dsimp only at hx hu ⊢
  cases hfx : f.x with
  | none =>
    rw [hfx] at hx
    cases hx
  | some x0 =>
    cases hp : Ukf.predict p llt k f.par f.ctl f.ctlTime ref (toSec d) x0 f.cov with
    | none =>
      have := ukfCore_predict_none (mem := f.ext) hp
      rw [hfx, this] at hx
      cases hx
    | some r =>
      have e := ukfCore_predict_some (mem := f.ext) hp
      rw [hfx, e] at hx hu
      rw [e]
      cases hx
      exact ⟨_, _, _, _, _, _, _, hp⟩

theorem ukfCorrectAt_rejected {n : ℕ} {e : Fin n → Fin 15} {k : UkfConst} {pts : Sig → State} {z : Fin 15 → ℝ} {R : Mat15}
    {thr : Thresh} {x x' : State} {P P' : Mat15} (h : ukfCorrectAt e k pts z R thr x P = some (x', P', false)) :
    x' = x ∧ P' = P := by
  unfold ukfCorrectAt at h
  dsimp only at h
  split at h
  · cases h
  · split at h
    · simp at h
    · simp only [Option.some.injEq, Prod.mk.injEq, and_true] at h
      exact ⟨h.1.symm, h.2.symm⟩

theorem refresh_uncorrected {llt : Llt} {k : UkfConst} {mem : UkfMem} {x : State} {P : Mat15} (h : mem.uncorrected = true) :
    ({ pts := mem.refresh llt k x P, uncorrected := mem.uncorrected && !false } : UkfMem) = mem := by
  unfold UkfMem.refresh
  obtain ⟨pts, unc⟩ := mem
  simp only at h
  subst h
  rfl

theorem freshMem_correct {p : FilterPar} {llt : Llt} {k : UkfConst} (f : Filt (ukfCore p llt k)) (h : FreshMem p llt k f)
    (z : Payload) : FreshMem p llt k (f.correct z) := by
  intro x hx hu
  unfold Filt.correct at hx hu ⊢
  dsimp only at hx hu ⊢
  cases hfx : f.x with
  | none => rw [hfx] at hx; cases hx
  | some x0 =>
    cases hp : Ukf.correct llt k z x0 f.cov f.ext with
    | none =>
      have := ukfCore_correct_none (p := p) hp
      rw [hfx, this] at hx
      cases hx
    | some r =>
      have e := ukfCore_correct_some (p := p) hp
      rw [hfx, e] at hx hu
      rw [e]
      dsimp only at hx hu ⊢
      cases hx
      -- the flag is still set, so the measurement was rejected and nothing changed
      unfold Ukf.correct at hp
      dsimp only at hp
      rw [Option.map_eq_some_iff] at hp
      obtain ⟨⟨xa, Pa, b⟩, h1, rfl⟩ := hp
      dsimp only at hu ⊢
      have hu1 : UkfMem.uncorrected f.ext = true := by
        cases hq : UkfMem.uncorrected f.ext with
        | true => rfl
        | false => rw [hq] at hu; cases hu
      have hb : b = false := by
        cases b with
        | false => rfl
        | true => rw [hu1] at hu; cases hu
      subst hb
      obtain ⟨Q, ctl, ct, ref, dt, xp, Pp, hpr⟩ := h x0 hfx hu1
      refine ⟨Q, ctl, ct, ref, dt, xp, Pp, ?_⟩
      obtain ⟨rfl, hPa⟩ := ukfCorrectAt_rejected h1
      rw [hpr, hPa]
      exact congrArg (fun m : UkfMem => some (xa, f.cov, m)) (refresh_uncorrected hu1).symm

/-- C18, partial: from an initialised filter with good memory, after any sequence of measurements the memory is good: each
correction works on sigma points drawn from the current estimate, or on those of the prediction just made.  Missing
because false: the memory is not good after construction (`C18_second_measurement_ignored`), reset or `set_pose`
(`C18_stale_after_reset`). -/
theorem C18_memory_partial (p : FilterPar) (llt : Llt) (k : UkfConst) (f : Filt (ukfCore p llt k)) (hi : f.initialized = true)
    (h : FreshMem p llt k f) (ms : List (Meas (ukfCore p llt k))) :
    FreshMem p llt k (ms.foldl Filt.processMeasurement f) := by
  induction ms generalizing f with
  | nil => exact h
  | cons m ms ih =>
    refine ih _ (Filt.processMeasurement_initialized f m) ?_
    rw [Filt.processMeasurement, if_pos hi]
    dsimp only
    have h1 : FreshMem p llt k (if m.time - f.lastTime > 0 then
        { (f.predict m.time (m.time - f.lastTime)) with predicted := (f.predict m.time (m.time - f.lastTime)).x } else f) := by
      split
      · exact freshMem_predict f h _ _
      · exact h
    have h2 := freshMem_correct _ h1 m.z
    split
    · exact h2
    · exact h2

/-- A filter that has just been predicted, or just been corrected, has good memory. -/
example (p : FilterPar) (llt : Llt) (k : UkfConst) (f : Filt (ukfCore p llt k))
    (hf : f.ext = ({ pts := fun _ => 0, uncorrected := false } : UkfMem)) : FreshMem p llt k f := by
  intro x _ hu
  rw [hf] at hu
  cases hu

/-! ### Stale sigma points -/

theorem project_x (dt : ℝ) (x : State) :
    projectPoint dt x 0 = x 0 + cos (x 5) * cos (x 4) * dt * x 6 +
      (cos (x 5) * sin (x 4) * sin (x 3) - sin (x 5) * cos (x 3)) * dt * x 7 +
      (cos (x 5) * sin (x 4) * cos (x 3) + sin (x 5) * sin (x 3)) * dt * x 8 +
      0.5 * (cos (x 5) * cos (x 4) * dt) * dt * x 12 +
      0.5 * ((cos (x 5) * sin (x 4) * sin (x 3) - sin (x 5) * cos (x 3)) * dt) * dt * x 13 +
      0.5 * ((cos (x 5) * sin (x 4) * cos (x 3) + sin (x 5) * sin (x 3)) * dt) * dt * x 14 := by
  show ∑ j, transferF x dt 0 j * x j = _
  rw [transferF_row0, sum15]
  simp [trig]

/-- How much of an error in each variable of a robot at rest is an error in x one second later. -/
noncomputable def leak : Fin 15 → ℝ := ![1, 0, 0, 0, 0, 0, 1, 0, 0, 0, 0, 0, 1 / 2, 0, 0]

theorem project_x_single (a v : ℝ) (i : Fin 15) : projectPoint 1 (Pi.single 0 a + Pi.single i v) 0 = a + leak i * v := by
  rw [project_x]
  fin_cases i <;> simp [leak, Pi.single_apply]
  norm_num

/-- A message that says `x = 0`, with variance 1. -/
noncomputable def xIsZero : Payload := ⟨fun i => decide (i = 0), fun _ => .fin 0, 1, .unlimited⟩

theorem xIsZero_indices : xIsZero.indices = [0] := by
  unfold Payload.indices xIsZero
  decide

/-- A correction by that message, on any sigma points. -/
theorem correct_xIsZero (llt : Llt) (k : UkfConst) (x : State) (P : Mat15) (pts : Sig → State) (a b c : ℝ)
    (ha : ∑ s, k.w s * pts s 0 = a) (hb : ∑ s, k.c s * ((pts s 0 - a) * (pts s 0 - a)) = b) (hb0 : 0 ≤ b)
    (hc : ∑ s, k.c s * ((pts s 0 - x 0) * (pts s 0 - a)) = c) :
    ∃ x' P' mem', Ukf.correct llt k xIsZero x P { pts := pts, uncorrected := true } = some (x', P', mem') ∧
      x' iX = x 0 + c / (b + 1) * (0 - a) := by
  unfold Ukf.correct
  dsimp only
  rw [xIsZero_indices]
  have hr : UkfMem.refresh llt k { pts := pts, uncorrected := true } x P = pts := rfl
  rw [hr]
  have hget : ([0] : List (Fin 15)).get = fun _ => 0 := by
    funext i
    have hi : i.val = 0 := Nat.lt_one_iff.1 i.isLt
    rw [List.get_eq_getElem]
    simp [hi]
  rw [hget]
  have hna : ¬ angularIdx 0 := by decide
  have e1 : predictedMeas (fun _ : Fin 1 => (0 : Fin 15)) k pts = fun _ => a := by
    funext i
    unfold predictedMeas
    rw [if_neg hna, ha]
  have e2 : ∀ s, measDiff (fun _ : Fin 1 => (0 : Fin 15)) (fun _ => a) (pts s) = fun _ => pts s 0 - a := by
    intro s; funext i; unfold measDiff; rw [if_neg hna]
  have e3 : ∀ d : State, stateDiff (fun _ : Fin 1 => (0 : Fin 15)) d = d := by
    intro d; funext r; unfold stateDiff
    split
    · first | rfl | exact if_neg hna
    · rfl
  have e4 : measCovar (fun _ : Fin 1 => (0 : Fin 15)) k pts = fun _ _ => b := by
    unfold measCovar
    dsimp only
    rw [e1]
    simp only [e2]
    ext i j
    rw [Matrix.sum_apply, ← hb]
    rfl
  have e5 : crossCovar (fun _ : Fin 1 => (0 : Fin 15)) k pts x 0 0 = c := by
    have : crossCovar (fun _ : Fin 1 => (0 : Fin 15)) k pts x =
        ∑ s, k.c s • vecMulVec (pts s - x) (fun _ : Fin 1 => pts s 0 - a) := by
      unfold crossCovar
      dsimp only
      rw [e1]
      simp only [e2, e3]
    rw [this, Matrix.sum_apply, ← hc]
    rfl
  have e6 : subR (fun _ : Fin 1 => (0 : Fin 15)) xIsZero.R = fun _ _ => 1 := by
    ext i j
    have : i = j := Subsingleton.elim _ _
    subst this
    rw [(C14_sanitised _ _ i i).1]
    simp [xIsZero]
    norm_num
  set S : Matrix (Fin 1) (Fin 1) ℝ := measCovar (fun _ : Fin 1 => (0 : Fin 15)) k pts + subR (fun _ : Fin 1 => (0 : Fin 15)) xIsZero.R
    with hS
  have hS00 : S 0 0 = b + 1 := by rw [hS, e4, e6]; rfl
  have hdet : S.det ≠ 0 := by rw [det_fin_one, hS00]; positivity
  have hinv : S⁻¹ 0 0 = (b + 1)⁻¹ := by
    rw [Matrix.inv_def, Matrix.adjugate_fin_one, det_fin_one, hS00]
    simp
  have hu : ukfCorrectAt (fun _ : Fin 1 => (0 : Fin 15)) k pts (fun i => (xIsZero.z i).val) xIsZero.R xIsZero.thresh x P =
      some (wrapStateAngles (x + (crossCovar (fun _ : Fin 1 => (0 : Fin 15)) k pts x * S⁻¹).mulVec
        (ukfInnovation (fun _ : Fin 1 => (0 : Fin 15)) (fun i => (xIsZero.z i).val) (fun _ => a))),
        P - crossCovar (fun _ : Fin 1 => (0 : Fin 15)) k pts x * S⁻¹ * measCovar (fun _ : Fin 1 => (0 : Fin 15)) k pts *
          (crossCovar (fun _ : Fin 1 => (0 : Fin 15)) k pts x * S⁻¹)ᵀ, true) := by
    unfold ukfCorrectAt
    dsimp only
    rw [← hS, if_neg hdet, if_pos (show checkMahalanobis _ _ xIsZero.thresh from trivial), e1]
  refine ⟨_, _, _, congrArg _ hu, ?_⟩
  have hw : ∀ y : State, wrapStateAngles y 0 = y 0 := fun y => if_neg (by decide)
  dsimp only
  rw [hw, Pi.add_apply]
  congr 1
  show ∑ j : Fin 1, (crossCovar (fun _ : Fin 1 => (0 : Fin 15)) k pts x * S⁻¹) 0 j * _ = _
  rw [Fin.sum_univ_one, Matrix.mul_apply, Fin.sum_univ_one, e5, hinv]
  unfold ukfInnovation
  rw [if_neg hna, div_eq_mul_inv]
  rfl

/-- C18, refuted after a reset: a robot at rest 100 m from the origin is predicted for a second, the filter is reset, and
two messages with one stamp both say `x = 0`.  The first one is taken over; the second one, corrected with the sigma
points from before the reset, moves the estimate to `x < -2`. -/
theorem C18_stale_after_reset (p : FilterPar) (llt : Llt) {k : UkfConst} (hk : setConstants 1 0 2 = some k)
    (f : Filt (ukfCore p llt k)) (hx : f.x = some (Pi.single 0 100 : State)) (hP : f.cov = (0.01 : ℝ) • (1 : Mat15)) (ref : Int)
    (m1 m2 : Meas (ukfCore p llt k)) (ht : m2.time = m1.time) (h1 : m1.z = xIsZero) (h2 : m2.z = xIsZero) :
    let g := (f.predict ref 1000000000).reset.processMeasurement m1
    g.x = some (0 : State) ∧ ∃ x' : State, (g.processMeasurement m2).x = some x' ∧ x' iX < -2 := by
  obtain ⟨h0, h15, hw0, hw1, hc1, hc0⟩ := setConstants_spec hk
  have hl : k.lam = 0 := by linarith
  rw [hl] at hw0 hw1 hc1 hc0
  have hL : llt.L ((15 + k.lam) • (0.01 : ℝ) • (1 : Mat15)) = diagonal (fun _ => sqrt 0.15) := by
    have : (15 + k.lam) • (0.01 : ℝ) • (1 : Mat15) = diagonal (fun _ => 0.15) := by
      ext i j
      by_cases hij : i = j
      · subst hij; rw [hl]; simp; norm_num
      · simp [hij]
    rw [this, llt_diagonal _ _ (fun i => by norm_num)]
  have hs : sqrt 0.15 < 1 := by rw [sqrt_lt' one_pos]; norm_num
  have hs' := sqrt_nonneg 0.15
  have hs2 : sqrt 0.15 * sqrt 0.15 = 0.15 := mul_self_sqrt (by norm_num)
  have hpi := pi_gt_three
  set L := sqrt 0.15
  set P : Mat15 := (0.01 : ℝ) • (1 : Mat15) with hPdef
  set x0 : State := Pi.single 0 100 with hx0
  have hp1 : ∀ i, sigmaPoints llt k x0 P (.inr (.inl i)) = Pi.single 0 100 + Pi.single i L := by
    intro i
    funext r
    simp only [sigmaPoints, hL, Sum.elim_inr, Sum.elim_inl, Pi.add_apply]
    congr 1
    by_cases hr : r = i
    · subst hr; simp
    · simp [diagonal_apply_ne _ hr, Pi.single_eq_of_ne hr]
  have hp2 : ∀ i, sigmaPoints llt k x0 P (.inr (.inr i)) = Pi.single 0 100 + Pi.single i (-L) := by
    intro i
    funext r
    simp only [sigmaPoints, hL, Sum.elim_inr, Pi.add_apply, Pi.sub_apply]
    rw [sub_eq_add_neg]
    congr 1
    by_cases hr : r = i
    · subst hr; simp
    · simp [diagonal_apply_ne _ hr, Pi.single_eq_of_ne hr]
  have hp0 : sigmaPoints llt k x0 P (.inl ()) = Pi.single 0 100 + Pi.single 0 0 := by
    simp [sigmaPoints, hx0]
  have hcos : ¬ ∃ s, cos (sigmaPoints llt k x0 P s iPitch) = 0 := by
    have key : ∀ (i : Fin 15) (v : ℝ), |v| ≤ L → cos ((Pi.single 0 100 + Pi.single i v : State) iPitch) ≠ 0 := by
      intro i v hv
      have hb : |(Pi.single 0 100 + Pi.single i v : State) iPitch| ≤ L := by
        rw [Pi.add_apply, Pi.single_eq_of_ne (by decide), zero_add]
        by_cases hi : iPitch = i
        · rw [← hi]; simpa using hv
        · rw [Pi.single_eq_of_ne hi]; simpa using hs'
      have := abs_le.1 hb
      exact (cos_pos_of_mem_Ioo ⟨by linarith, by linarith⟩).ne'
    rintro ⟨s, h⟩
    rcases s with u | i | i
    · rw [show (Sum.inl u : Sig) = .inl () from rfl, hp0] at h
      exact key 0 0 (by simpa using hs') h
    · rw [hp1] at h; exact key i L (by rw [abs_of_nonneg hs']) h
    · rw [hp2] at h; exact key i (-L) (by rw [abs_neg, abs_of_nonneg hs']) h
  set pts : Sig → State := fun s => projectPoint 1 (sigmaPoints llt k x0 P s) with hpts
  have hq0 : pts (.inl ()) 0 = 100 := by
    rw [hpts]; show projectPoint 1 (sigmaPoints llt k x0 P (.inl ())) 0 = 100
    rw [hp0, project_x_single]; simp
  have hq1 : ∀ i, pts (.inr (.inl i)) 0 = 100 + leak i * L := by
    intro i; rw [hpts]; show projectPoint 1 (sigmaPoints llt k x0 P (.inr (.inl i))) 0 = _
    rw [hp1, project_x_single]
  have hq2 : ∀ i, pts (.inr (.inr i)) 0 = 100 + leak i * -L := by
    intro i; rw [hpts]; show projectPoint 1 (sigmaPoints llt k x0 P (.inr (.inr i))) 0 = _
    rw [hp2, project_x_single]
  have ha : ∑ s, k.w s * pts s 0 = 100 := by
    rw [sum_sig]
    simp only [hq0, hq1, hq2, hw0, hw1]
    rw [sum15]
    simp only [leak]
    norm_num
    ring
  have hb : ∑ s, k.c s * ((pts s 0 - 100) * (pts s 0 - 100)) = 0.0225 := by
    rw [sum_sig]
    simp only [hq0, hq1, hq2, hc1]
    rw [sum15]
    simp only [leak]
    simp
    nlinarith
  have hc : ∑ s, k.c s * ((pts s 0 - (0 : State) 0) * (pts s 0 - 100)) = 0.0225 := by
    rw [sum_sig]
    simp only [hq0, hq1, hq2, hc1]
    rw [sum15]
    simp only [leak]
    simp
    nlinarith
  intro g
  have hsec : toSec 1000000000 = 1 := by unfold toSec; norm_num
  -- the memory after the prediction
  have hext : (f.predict ref 1000000000).ext = ({ pts := pts, uncorrected := true } : UkfMem) := by
    unfold Filt.predict
    dsimp only
    rw [hx, hP]
    have := ukfCore_predict_some (p := p) (llt := llt) (k := k) (Q := f.par) (ctl := f.ctl) (ct := f.ctlTime) (ref := ref)
      (d := 1000000000) (x := x0) (P := P) (mem := f.ext) (by rw [hsec]; exact if_neg hcos)
    rw [this]
  have gi : g.initialized = true := rfl
  have gt : g.lastTime = m1.time := rfl
  have ge : g.ext = ({ pts := pts, uncorrected := true } : UkfMem) := hext
  have gx : g.x = some (0 : State) := by
    show (some (0 : State)).bind (initState m1.z) = _
    rw [h1, Option.bind_some]
    unfold initState
    rw [if_pos (show ∀ i, xIsZero.upd i = true → (xIsZero.z i).isFin = true from fun _ _ => rfl)]
    congr 1
    funext i
    simp [xIsZero]
  refine ⟨gx, ?_⟩
  obtain ⟨x', P', mem', e, hx'⟩ := correct_xIsZero llt k 0 g.cov pts 100 0.0225 0.0225 ha hb (by norm_num) hc
  refine ⟨x', ?_, by rw [hx']; norm_num⟩
  rw [process_same_stamp g m2 gi (ht.trans gt.symm)]
  show (g.correct m2.z).x = some x'
  unfold Filt.correct
  dsimp only
  rw [gx, ge, h2]
  have := ukfCore_correct_some (p := p) e
  rw [this]

end RL
