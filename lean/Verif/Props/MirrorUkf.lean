import Verif.Proofs.MirrorUkf
import Verif.Proofs.Marks
import Verif.Props.RestUkf
/-! # C108 for the unscented filter

Whole runs, whatever is measured.  Marks on the estimates say whether some roll or yaw that the filter averages or normalises
came out as exactly half a turn, or sigma points were drawn from a matrix that is not positive definite; every estimate into
which nothing of the kind has gone is mirrored. -/

namespace RL
open Matrix

/-- What a correction averages or normalises does not come out as exactly half a turn, and its sigma points are those of the
last prediction or drawn from a positive definite matrix. -/
structure Ukf.CorrectClear (llt : Llt) (k : UkfConst) (m : Payload) (x : State) (P : Mat15) (mem : UkfMem) : Prop where
  drawn : mem.uncorrected = true ∨ ((15 + k.lam) • P).PosDef
  diffs : Ukf.DiffsClear m.indices.get k (mem.refresh llt k x P) (fun i => (m.z i).val) x
  result : ∀ r, Ukf.correct llt k m x P mem = some r → r.1 iRoll ≠ Real.pi ∧ r.1 iYaw ≠ Real.pi

/-- The marks. -/
def halfTurnMarks (p : FilterPar) (llt : Llt) (k : UkfConst) : Marks (ukfCore p llt k) where
  pred delta s := ∀ x : State, s.1 = some x → Ukf.PredictClear llt k (toSec delta) x s.2.1
  corr m s := ∀ x : State, s.1 = some x → Ukf.CorrectClear llt k m x s.2.1 s.2.2

variable {p : FilterPar} {llt : Llt} {k : UkfConst}

/-- The same event, seen in the mirror. -/
noncomputable def Node.Event.mirroredU : Node.Event (ukfCore p llt k) → Node.Event (ukfCore p llt k)
  | .sensor topic stamp z => .sensor topic stamp (Option.map (Payload.rescaled 1 (-1)) z)
  | .control u t => .control (ctlRescaled 1 (-1) u) t
  | .setPose stamp now r => .setPose stamp now (Option.map (fun a => (Option.map State.mirror a.1, mirrorCov a.2)) r)
  | e => e

/-- The same message, seen in the mirror. -/
noncomputable def Out.mirroredU : Out (ukfCore p llt k) → Out (ukfCore p llt k)
  | .odom t x P => .odom t (Option.map State.mirror x) (mirrorCov P)
  | o => o

/-- The same configuration, seen in the mirror. -/
noncomputable def Cfg.mirroredU (g : Cfg (ukfCore p llt k)) : Cfg (ukfCore p llt k) :=
  { g with
    initialState := Option.map State.mirror g.initialState
    initialCov := mirrorCov g.initialCov
    processNoise := mirrorCov g.processNoise
    keptCov := mirrorCov g.keptCov
    keptNoise := mirrorCov g.keptNoise
    ctl0 := ctlRescaled 1 (-1) g.ctl0 }

/-- One correction of the unscented filter in the mirror. -/
theorem Ukf.correct_mirror (llt : Llt) (hk : k.Even) {m : Payload} {x : State} {P : Mat15} {mem : UkfMem}
    (h : Ukf.CorrectClear llt k m x P mem) :
    Ukf.correct llt k (m.rescaled 1 (-1)) x.mirror (mirrorCov P) mem.mirror =
      (Ukf.correct llt k m x P mem).map fun r => (r.1.mirror, mirrorCov r.2.1, r.2.2.mirror) := by
  have h0 : ∀ i, unitOf 1 (-1) i ≠ 0 := sgn_ne
  have hpts : mem.mirror.refresh llt k x.mirror (mirrorCov P) = mirrorPts (mem.refresh llt k x P) := by
    unfold UkfMem.refresh
    show (if mem.uncorrected = true then _ else _) = _
    by_cases hu : mem.uncorrected = true
    · rw [if_pos hu, if_pos hu]
      rfl
    · rw [if_neg hu, if_neg hu]
      exact funext fun s => sigma_mirror llt k x (h.drawn.resolve_left hu) s
  have hres := h.result
  unfold Ukf.correct at hres ⊢
  dsimp only at hres ⊢
  have hR' : (m.rescaled 1 (-1)).R = mirrorCov m.R := rfl
  have ht' : (m.rescaled 1 (-1)).thresh = m.thresh := rfl
  rw [hpts, indices_rescaled h0, hR', ht']
  rw [correctU_mirror hk h.diffs (z' := fun i => ((m.rescaled 1 (-1)).z i).val) ?_ m.R m.thresh P ?_]
  · rw [Option.map_map, Option.map_map]
    rfl
  · intro a
    exact (rescaledZ h0 m _).2.2.2 ((mem_indices m _).1 (List.get_mem m.indices a)).2
  · intro r hr _
    rw [hr] at hres
    exact hres _ rfl

/-- The first measurement, in the mirror. -/
theorem initState_mirror (m : Payload) (x : State) :
    initState (m.rescaled 1 (-1)) x.mirror = Option.map State.mirror (initState m x) := by
  have h0 : ∀ i, unitOf 1 (-1) i ≠ 0 := sgn_ne
  have hf : (∀ i, (m.rescaled 1 (-1)).upd i = true → ((m.rescaled 1 (-1)).z i).isFin = true) ↔
      ∀ i, m.upd i = true → (m.z i).isFin = true := by
    refine forall_congr' fun i => imp_congr_right fun hu => ?_
    rw [(rescaledZ h0 m i).1]
  unfold initState
  by_cases hA : ∀ i, m.upd i = true → (m.z i).isFin = true
  · rw [if_pos hA, if_pos (hf.2 hA), Option.map_some]
    congr 1
    funext i
    show (if m.upd i = true then ((m.rescaled 1 (-1)).z i).val else sgn i * x i) =
      sgn i * (if m.upd i = true then (m.z i).val else x i)
    by_cases hu : m.upd i = true
    · rw [if_pos hu, if_pos hu, (rescaledZ h0 m i).2.2.2 (hA i hu)]
    · rw [if_neg hu, if_neg hu]
  · rw [if_neg hA, if_neg fun h' => hA (hf.1 h')]
    rfl

/-- The filter in the mirror treats what it sees in the same way while the marks hold. -/
noncomputable def mirrorSimU (p : FilterPar) (llt : Llt) (hk : k.Even) :
    CoreSim ((ukfCore p llt k).withMarks (halfTurnMarks p llt k)) (ukfCore p llt k) 0 where
  low := 0
  X x x' := (x : Option State × Prop).2 → x' = Option.map State.mirror (x : Option State × Prop).1
  Cov P P' := (P : Mat15 × Prop).2 → P' = mirrorCov (P : Mat15 × Prop).1
  Ext e e' := (e : UkfMem × Prop).2 → e' = UkfMem.mirror (e : UkfMem × Prop).1
  Par q q' := q' = mirrorCov q
  Z z z' := z' = Payload.rescaled 1 (-1) z
  Ctl _ _ _ _ := True
  predict := by
    rintro q _ u t u' t' ⟨x, a⟩ x' ⟨P, b⟩ P' ⟨e, c⟩ e' ref delta hr rfl - hx hP he
    have key : (a ∧ b ∧ c) ∧ (halfTurnMarks p llt k).pred delta (x, P, e) →
        ((ukfCore p llt k).predict (mirrorCov q) u' t' (ref + 0) delta (x', P', e')).1 =
          Option.map State.mirror ((ukfCore p llt k).predict q u t ref delta (x, P, e)).1 ∧
        ((ukfCore p llt k).predict (mirrorCov q) u' t' (ref + 0) delta (x', P', e')).2.1 =
          mirrorCov ((ukfCore p llt k).predict q u t ref delta (x, P, e)).2.1 ∧
        ((ukfCore p llt k).predict (mirrorCov q) u' t' (ref + 0) delta (x', P', e')).2.2 =
          UkfMem.mirror ((ukfCore p llt k).predict q u t ref delta (x, P, e)).2.2 := by
      rintro ⟨⟨ha, hb, hc⟩, hclear⟩
      replace hx : x' = Option.map State.mirror x := hx ha
      replace hP : P' = mirrorCov P := hP hb
      replace he : e' = UkfMem.mirror e := he hc
      subst hx hP he
      cases x with
      | none => exact ⟨rfl, rfl, rfl⟩
      | some x =>
        have h := predictU_mirror p llt hk q u u' t t' ref (toSec delta) x (hclear x rfl)
        have e1 : (ukfCore p llt k).predict q u t ref delta (some x, P, e) =
            match Ukf.predict p llt k q u t ref (toSec delta) x P with
          | some r => (some r.1, r.2.1, r.2.2)
          | none => (none, P, e) := rfl
        have e2 : (ukfCore p llt k).predict (mirrorCov q) u' t' (ref + 0) delta
            (Option.map State.mirror (some x), mirrorCov P, UkfMem.mirror e) =
            match Ukf.predict p llt k (mirrorCov q) u' t' ref (toSec delta) x.mirror (mirrorCov P) with
          | some r => (some r.1, r.2.1, r.2.2)
          | none => (none, mirrorCov P, UkfMem.mirror e) := rfl
        rw [e1, e2, h]
        cases Ukf.predict p llt k q u t ref (toSec delta) x P with
        | none => exact ⟨rfl, rfl, rfl⟩
        | some r => exact ⟨rfl, rfl, rfl⟩
    exact ⟨fun h => (key h).1, fun h => (key h).2.1, fun h => (key h).2.2⟩
  correct := by
    rintro z _ ⟨x, a⟩ x' ⟨P, b⟩ P' ⟨e, c⟩ e' rfl hx hP he
    have key : (a ∧ b ∧ c) ∧ (halfTurnMarks p llt k).corr z (x, P, e) →
        ((ukfCore p llt k).correct (Payload.rescaled 1 (-1) z) (x', P', e')).1 =
          Option.map State.mirror ((ukfCore p llt k).correct z (x, P, e)).1 ∧
        ((ukfCore p llt k).correct (Payload.rescaled 1 (-1) z) (x', P', e')).2.1 =
          mirrorCov ((ukfCore p llt k).correct z (x, P, e)).2.1 ∧
        ((ukfCore p llt k).correct (Payload.rescaled 1 (-1) z) (x', P', e')).2.2 =
          UkfMem.mirror ((ukfCore p llt k).correct z (x, P, e)).2.2 := by
      rintro ⟨⟨ha, hb, hc⟩, hclear⟩
      replace hx : x' = Option.map State.mirror x := hx ha
      replace hP : P' = mirrorCov P := hP hb
      replace he : e' = UkfMem.mirror e := he hc
      subst hx hP he
      cases x with
      | none => exact ⟨rfl, rfl, rfl⟩
      | some x =>
        have h := Ukf.correct_mirror llt hk (hclear x rfl)
        have e1 : (ukfCore p llt k).correct z (some x, P, e) = match Ukf.correct llt k z x P e with
          | some r => (some r.1, r.2.1, r.2.2)
          | none => (none, P, e) := rfl
        have e2 : (ukfCore p llt k).correct (Payload.rescaled 1 (-1) z)
            (Option.map State.mirror (some x), mirrorCov P, UkfMem.mirror e) =
            match Ukf.correct llt k (Payload.rescaled 1 (-1) z) x.mirror (mirrorCov P) (UkfMem.mirror e) with
          | some r => (some r.1, r.2.1, r.2.2)
          | none => (none, mirrorCov P, UkfMem.mirror e) := rfl
        have h' : Ukf.correct llt k (Payload.rescaled 1 (-1) z) x.mirror (mirrorCov P) (UkfMem.mirror e) = _ := h
        rw [e1, e2, h']
        cases Ukf.correct llt k z x P e with
        | none => exact ⟨rfl, rfl, rfl⟩
        | some r => exact ⟨rfl, rfl, rfl⟩
    exact ⟨fun h => (key h).1, fun h => (key h).2.1, fun h => (key h).2.2⟩
  initX := by
    rintro z _ ⟨x, a⟩ x' rfl hx ha
    replace hx : x' = Option.map State.mirror x := hx ha
    subst hx
    show Option.bind _ (initState (Payload.rescaled 1 (-1) z)) = Option.map _ (Option.bind x (initState z))
    cases x with
    | none => rfl
    | some x => exact initState_mirror z x
  initCov := by
    rintro z _ ⟨P, b⟩ P' rfl hP hb
    replace hP : P' = mirrorCov P := hP hb
    subst hP
    exact initCov_rescaled z P

theorem run_mirroredU (p : FilterPar) (llt : Llt) (hk : k.Even) (P : MQueue ((ukfCore p llt k).withMarks (halfTurnMarks p llt k)))
    (P' : MQueue (ukfCore p llt k)) (κ : QueueSim (mirrorSimU p llt hk) P P') (cfg : Cfg (ukfCore p llt k)) (u : Fin 6 → ℝ)
    (now : Int) (es : List (Node.Event (ukfCore p llt k))) :
    List.Forall₂ (fun o o' => o.Marked → o' = Out.mirroredU o.noMarks)
      (Node.run (cfg.withMarks (halfTurnMarks p llt k)) (Node.start (cfg.withMarks (halfTurnMarks p llt k)) P (UkfMem.init, True) u now)
        (es.map (Node.Event.withMarks (halfTurnMarks p llt k)))).2
      (Node.run cfg.mirroredU (Node.start cfg.mirroredU P' UkfMem.init (ctlRescaled 1 (-1) u) now)
        (es.map Node.Event.mirroredU)).2 := by
  have hg : CfgSim (mirrorSimU p llt hk) (cfg.withMarks (halfTurnMarks p llt k)) cfg.mirroredU :=
    ⟨rfl, rfl, rfl, rfl, rfl, rfl, rfl, rfl, rfl, fun _ => rfl, rfl, fun _ => rfl⟩
  have z0 : State.mirror 0 = 0 := by
    funext i
    simp [State.mirror, State.rescaled]
  have zero : (some (0 : State)) = Option.map State.mirror (some (0 : State)) := by
    rw [Option.map_some, z0]
  have he : List.Forall₂ (EventSim (mirrorSimU p llt hk)) (es.map (Node.Event.withMarks (halfTurnMarks p llt k)))
      (es.map Node.Event.mirroredU) := by
    rw [List.forall₂_map_left_iff, List.forall₂_map_right_iff, List.forall₂_same]
    intro e _
    have pos : ∀ t, Pos 0 0 t := fun t => Or.inl rfl
    cases e with
    | sensor topic stamp z =>
      have := EventSim.sensor (σ := mirrorSimU p llt hk) topic (stamp := stamp) (z := z)
        (z' := Option.map (Payload.rescaled 1 (-1)) z) (pos _) (by
          cases z with
          | none => exact .none
          | some z => exact .some rfl)
      rwa [Int.add_zero] at this
    | control v t => exact .control trivial
    | setPose stamp now r =>
      have := EventSim.setPose (σ := mirrorSimU p llt hk) (stamp := stamp) (now := now)
        (r := Option.map (fun a : Option State × Mat15 => ((a.1, True), (a.2, True))) r)
        (r' := Option.map (fun a => (Option.map State.mirror a.1, mirrorCov a.2)) r) (pos _) (pos _)
        (by cases r with
          | none => exact .none
          | some r => exact .some ⟨fun _ => rfl, fun _ => rfl⟩)
        (fun _ => ⟨fun _ => zero, fun _ => (rescaled_setPoseCov (Or.inr rfl)).symm⟩)
      rwa [Int.add_zero, Int.add_zero] at this
    | reset => exact .reset (fun _ => zero) fun _ => trivial
    | toggle on => exact .toggle on
    | enable => exact .enable
    | tick now now2 tfOk =>
      have := EventSim.tick (σ := mirrorSimU p llt hk) tfOk (pos now) (pos now2)
      rwa [Int.add_zero, Int.add_zero] at this
  have hst : NodeSim κ (Node.start (cfg.withMarks (halfTurnMarks p llt k)) P (UkfMem.init, True) u now)
      (Node.start cfg.mirroredU P' UkfMem.init (ctlRescaled 1 (-1) u) now) := by
    have := NodeSim.start (κ := κ) (g := cfg.withMarks (halfTurnMarks p llt k)) (g' := cfg.mirroredU) hg (fun _ => rfl) rfl trivial
      (e := (UkfMem.init, True)) (e' := UkfMem.init) (fun _ => by
        show UkfMem.init = UkfMem.mirror UkfMem.init
        unfold UkfMem.mirror UkfMem.init mirrorPts
        simp only [z0]) (u := u) (u' := ctlRescaled 1 (-1) u) trivial now
    rwa [Int.add_zero] at this
  refine List.Forall₂.imp ?_ (NodeSim.run hg he hst).2
  intro o o' h hc
  cases h with
  | odom hx hP =>
    have h1 : _ = _ := hx hc.1
    have h2 : _ = _ := hP hc.2
    rw [Int.add_zero, h1, h2]
    rfl
  | tf t => rw [Int.add_zero]; rfl
  | accel t => rw [Int.add_zero]; rfl

/-- C108 for the unscented filter, whole runs, whatever is measured: what is sent is, as seen in the mirror, exactly what the
node in the mirror sends, for every estimate into which no roll or yaw has gone that was averaged or normalised to exactly
half a turn, and no sigma point drawn from a matrix that is not positive definite.  `os` is what the node sends, with the
marks. -/
theorem C108_ukf_partial (p : FilterPar) (llt : Llt) {alpha kappa beta : ℝ} (hk : setConstants alpha kappa beta = some k)
    (cfg : Cfg (ukfCore p llt k)) (u : Fin 6 → ℝ) (now : Int) (es : List (Node.Event (ukfCore p llt k))) :
    ∃ os : List (Out ((ukfCore p llt k).withMarks (halfTurnMarks p llt k))),
      os = (Node.run (cfg.withMarks _) (Node.start (cfg.withMarks _) (PQueue.sortedList _ _) (UkfMem.init, True) u now)
        (es.map (Node.Event.withMarks _))).2 ∧
      (Node.run cfg (Node.start cfg (PQueue.sortedList _ _) UkfMem.init u now) es).2 = os.map Out.noMarks ∧
      List.Forall₂ (fun o o' => o.Marked → o' = Out.mirroredU o.noMarks) os
        (Node.run cfg.mirroredU (Node.start cfg.mirroredU (PQueue.sortedList _ _) UkfMem.init (ctlRescaled 1 (-1) u) now)
          (es.map Node.Event.mirroredU)).2 :=
  ⟨_, rfl, run_noMarks _ _ _ (QueueSim.sorted _) cfg UkfMem.init u now es,
    run_mirroredU p llt (setConstants_even hk) _ _ (QueueSim.sorted _) cfg u now es⟩

/-! ## An example -/

/-- A reading of the heading, variance 1/100. -/
noncomputable def headingMsg (v : ℝ) : Payload := { oneVar iYaw v .unlimited with R := (1 / 100 : ℝ) • (1 : Mat15) }

/-- What the filter knows after the first reading. -/
noncomputable def turnedX (v : ℝ) : State := fun i => if i = iYaw then v else 0

/-- The variances after the first reading. -/
noncomputable def turnedVar (i : Fin 15) : ℝ := if i = iYaw then 1 / 100 else 1e-9

theorem headingMsg_init (v : ℝ) : initState (headingMsg v) 0 = some (turnedX v) := by
  unfold initState
  rw [if_pos fun (i : Fin 15) (_ : (headingMsg v).upd i = true) => show ((headingMsg v).z i).isFin = true from rfl]
  congr 1
  funext i
  show (if decide (i = iYaw) = true then v else 0) = if i = iYaw then v else 0
  by_cases h : i = iYaw <;> simp [h]

theorem headingMsg_cov (v : ℝ) : initCov (headingMsg v) ((1e-9 : ℝ) • (1 : Mat15)) = diagonal turnedVar := by
  ext i j
  show (if decide (i = iYaw) && decide (j = iYaw) then ((1 / 100 : ℝ) • (1 : Mat15)) i j else ((1e-9 : ℝ) • (1 : Mat15)) i j) = _
  by_cases hij : i = j
  · subst hij
    rw [diagonal_apply_eq, Matrix.smul_apply, Matrix.smul_apply, Matrix.one_apply_eq]
    by_cases hi : i = iYaw <;> simp [hi, turnedVar]
  · rw [diagonal_apply_ne _ hij, Matrix.smul_apply, Matrix.smul_apply, Matrix.one_apply_ne hij]
    simp

theorem turnedVar_pos (i : Fin 15) : 0 < turnedVar i := by
  unfold turnedVar
  split_ifs <;> norm_num

/-- A prediction by two nanoseconds from there keeps the marks. -/
theorem turned_clear (llt : Llt) {k : UkfConst} (hk : setConstants 1 0 2 = some k) :
    Ukf.PredictClear llt k (toSec 2) (turnedX 1) (diagonal turnedVar) := by
  have hlam : 15 + k.lam = 15 := by
    rw [(setConstants_spec hk).2.1]
    norm_num
  have hpos : 0 < 15 + k.lam := by rw [hlam]; norm_num
  have hrest : AtRest (turnedX 1) := by
    intro i hi
    have : i ≠ iYaw := by rintro rfl; exact absurd hi (by decide)
    simp [turnedX, this]
  have hL : llt.L ((15 + k.lam) • diagonal turnedVar) = diagonal (fun i => Real.sqrt (15 * turnedVar i)) := by
    rw [hlam, smul_diagonal, llt_diagonal _ _ (fun i => mul_pos (by norm_num) (turnedVar_pos i))]
  obtain ⟨s0, s1, s2⟩ := sigma_of_diagonal llt hL (turnedX 1)
  have hx3 : turnedX 1 iRoll = 0 := if_neg (by decide)
  have hx4 : turnedX 1 iPitch = 0 := if_neg (by decide)
  have hx5 : turnedX 1 iYaw = 1 := if_pos rfl
  have hdt : toSec 2 = 2e-9 := by
    unfold toSec
    norm_num
  have hrow : ∀ r, r = iRoll ∨ r = iYaw →
      ∑ i, (transferF (turnedX 1) (toSec 2) r i * Real.sqrt (15 * turnedVar i)) ^ 2 < 1 := by
    have hsq : ∀ i, Real.sqrt (15 * turnedVar i) ^ 2 = 15 * turnedVar i := fun i =>
      Real.sq_sqrt (mul_pos (by norm_num) (turnedVar_pos i)).le
    simp only [mul_pow, hsq, hdt]
    rintro r (rfl | rfl)
    · show ∑ i, transferF (turnedX 1) 2e-9 3 i ^ 2 * (15 * turnedVar i) < 1
      rw [transferF_row3, sum15]
      simp [trig, hx3, hx4, turnedVar]
      norm_num [show ¬ (3 : Fin 15) = iYaw by decide, show ¬ (9 : Fin 15) = iYaw by decide, show ¬ (11 : Fin 15) = iYaw by decide]
    · show ∑ i, transferF (turnedX 1) 2e-9 5 i ^ 2 * (15 * turnedVar i) < 1
      rw [transferF_row5, sum15]
      simp [trig, hx3, hx4, turnedVar]
      norm_num [show ¬ (3 : Fin 15) = iYaw by decide, show ¬ (9 : Fin 15) = iYaw by decide, show ¬ (11 : Fin 15) = iYaw by decide]
  refine ⟨?_, ?_⟩
  · rw [hlam, smul_diagonal]
    exact Matrix.PosDef.diagonal fun i => mul_pos (by norm_num) (turnedVar_pos i)
  intro r hr
  have ha : angularIdx r := by
    rcases hr with rfl | rfl
    · exact Or.inl rfl
    · exact Or.inr (Or.inr rfl)
  obtain ⟨D, hD⟩ : ∃ D : Fin 15 → ℝ, D = fun i => transferF (turnedX 1) (toSec 2) r i * Real.sqrt (15 * turnedVar i) := ⟨_, rfl⟩
  have hsum : ∑ i, D i ^ 2 < 1 := by rw [hD]; exact hrow r hr
  have p0 : projectPoint (toSec 2) (sigmaPoints llt k (turnedX 1) (diagonal turnedVar) (.inl ())) r = turnedX 1 r := by
    rw [s0, project_rest hrest]
    simp
  have p1 : ∀ i, projectPoint (toSec 2) (sigmaPoints llt k (turnedX 1) (diagonal turnedVar) (.inr (.inl i))) r =
      turnedX 1 r + D i := by
    intro i
    rw [s1, project_rest hrest, hD]
    rfl
  have p2 : ∀ i, projectPoint (toSec 2) (sigmaPoints llt k (turnedX 1) (diagonal turnedVar) (.inr (.inr i))) r =
      turnedX 1 r - D i := by
    intro i
    rw [s2, project_rest hrest, hD, Pi.add_apply]
    ring
  have hpi := Real.pi_gt_three
  have hxr : 0 ≤ turnedX 1 r ∧ turnedX 1 r ≤ 1 := by
    rcases hr with rfl | rfl
    · rw [hx3]; norm_num
    · rw [hx5]; norm_num
  have hmean : ukfMean k (fun s => projectPoint (toSec 2) (sigmaPoints llt k (turnedX 1) (diagonal turnedVar) s)) r = turnedX 1 r := by
    unfold ukfMean
    rw [if_pos ha, symm_mean_angle hk hpos (turnedX 1 r) D _ p0 p1 p2 (by rw [hlam]; linarith),
      normalizeAngle_of_mem (by linarith) (by linarith)]
  have hDi : ∀ i, -1 < D i ∧ D i < 1 := by
    intro i
    have : D i ^ 2 < 1 := lt_of_le_of_lt
      (Finset.single_le_sum (f := fun i => D i ^ 2) (fun i _ => sq_nonneg _) (Finset.mem_univ i)) hsum
    exact abs_lt.1 (by
      rw [← abs_one, ← sq_lt_sq]
      simpa using this)
  rw [hmean]
  refine ⟨by linarith [hxr.2], ?_⟩
  have near : ∀ d, -1 < d → d < 1 → normalizeAngle d ≠ Real.pi := by
    intro d h1 h2
    rw [normalizeAngle_of_mem (by linarith) (by linarith)]
    linarith
  rintro (⟨⟩ | i | i)
  · rw [p0, sub_self]
    exact near 0 (by norm_num) (by norm_num)
  · rw [p1, add_sub_cancel_left]
    exact near _ (hDi i).1 (hDi i).2
  · rw [p2, sub_sub_cancel_left]
    exact near _ (by linarith [(hDi i).2]) (by linarith [(hDi i).1])

/-- A node that predicts to the present. -/
noncomputable def headingCfg (llt : Llt) (k : UkfConst) : Cfg (ukfCore plainPar llt k) :=
  { smooth := true, historyLength := 1000, predictToCurrent := true, useControl := false, permitCorrected := false
    publishTf := true, publishAccel := true, sensorTimeout := 1, processNoise := defaultQ
    initialCov := (1e-9 : ℝ) • (1 : Mat15), keptNoise := defaultQ, keptCov := (1e-9 : ℝ) • (1 : Mat15)
    initialState := some 0, disabledAtStartup := false, ctl0 := (0 : Fin 6 → ℝ) }

/-- A heading is measured, and two nanoseconds later the node predicts and sends. -/
noncomputable def headingRun (llt : Llt) (k : UkfConst) : List (Node.Event (ukfCore plainPar llt k)) :=
  [.sensor "a" 1 (some (headingMsg 1)), .tick 3 3 true]

/-- What it sends, with the marks. -/
noncomputable def headingSent (llt : Llt) (k : UkfConst) : (Option State × Prop) × (Mat15 × Prop) × (UkfMem × Prop) :=
  ((ukfCore plainPar llt k).withMarks (halfTurnMarks plainPar llt k)).predict (defaultQ : Mat15) (0 : Fin 6 → ℝ) 0 3 2
    (((ukfCore plainPar llt k).withMarks (halfTurnMarks plainPar llt k)).initX (headingMsg 1) ((some 0 : Option State), True),
      ((ukfCore plainPar llt k).withMarks (halfTurnMarks plainPar llt k)).initCov (headingMsg 1) ((1e-9 : ℝ) • (1 : Mat15), True),
      (UkfMem.init, True))

theorem headingRun_sent (llt : Llt) (k : UkfConst) :
    (Node.run ((headingCfg llt k).withMarks (halfTurnMarks plainPar llt k))
      (Node.start ((headingCfg llt k).withMarks _) (PQueue.sortedList _ _) (UkfMem.init, True) (0 : Fin 6 → ℝ) 0)
      ((headingRun llt k).map (Node.Event.withMarks _))).2 =
    [.tf 3, .odom 3 (headingSent llt k).1 (headingSent llt k).2.1, .accel 3] := by
  simp [Node.run, Node.step, Node.start, Node.sensor, Node.enqueue, Node.periodic, Node.advance, Node.integrate, headingRun,
      Node.drain, Node.publish, PQueue.sortedList, PQueue.insertSorted, PQueue.size, Filt.processMeasurement, headingCfg,
      Cfg.withMarks, Node.Event.withMarks, Filt.predict, Node.predictTo, Filt.setLastTime, headingSent]

/-- What is sent in that run is covered by `C108_ukf_partial`. -/
example (llt : Llt) : ∃ k : UkfConst, setConstants 1 0 2 = some k ∧
    ∀ o ∈ (Node.run ((headingCfg llt k).withMarks (halfTurnMarks plainPar llt k))
      (Node.start ((headingCfg llt k).withMarks _) (PQueue.sortedList _ _) (UkfMem.init, True) (0 : Fin 6 → ℝ) 0)
      ((headingRun llt k).map (Node.Event.withMarks _))).2, o.Marked := by
  obtain ⟨k, hk⟩ : ∃ k : UkfConst, setConstants 1 0 2 = some k := by
    unfold setConstants
    dsimp only
    rw [if_neg (by norm_num)]
    exact ⟨_, rfl⟩
  refine ⟨k, hk, ?_⟩
  rw [headingRun_sent]
  have good : (headingSent llt k).1.2 := by
    refine ⟨⟨trivial, trivial, trivial⟩, fun x hx => ?_⟩
    have hx : initState (headingMsg 1) 0 = some x := hx
    rw [headingMsg_init] at hx
    injection hx with hx
    subst hx
    show Ukf.PredictClear llt k (toSec 2) (turnedX 1) (initCov (headingMsg 1) ((1e-9 : ℝ) • (1 : Mat15)))
    rw [headingMsg_cov]
    exact turned_clear llt hk
  intro o ho
  simp only [List.mem_cons, List.not_mem_nil, or_false] at ho
  rcases ho with rfl | rfl | rfl
  · trivial
  · exact ⟨good, good⟩
  · trivial

end RL
