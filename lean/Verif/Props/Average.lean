import Verif.Props.EkfCov
import Verif.Props.EkfMotion
import Verif.Props.Commute
import Verif.Props.Heard
import Verif.Props.Rescale
/-! # C128: readings of a rate or an acceleration are weighted by their certainty -/

namespace RL
open Matrix

/-- The rates of turn and the accelerations. -/
def Held (i : Fin 15) : Prop := 9 ≤ i.val

/-- Measurement `m` is a reading `z` of the variable `i` alone, with variance `r`. -/
structure Payload.Reads (m : Payload) (i : Fin 15) (z r : ℝ) : Prop where
  upd : ∀ k, m.upd k = decide (k = i)
  value : m.z i = .fin z
  var : m.R i i = r
  floor : 1e-9 ≤ r
  ungated : m.thresh = .unlimited

/-! ## The specification: one number with a variance -/

/-- An estimate of one number. -/
structure Gauge where
  value : ℝ
  var : ℝ

/-- Time passes. -/
def Gauge.later (g : Gauge) (q dt : ℝ) : Gauge := ⟨g.value, g.var + dt * q⟩

/-- A reading `z` with variance `r`. -/
noncomputable def Gauge.told (g : Gauge) (z r : ℝ) : Gauge :=
  ⟨(g.value * r + z * g.var) / (g.var + r), g.var * r / (g.var + r)⟩

/-- A reading: when, of what, how much, with which variance. -/
structure Reading where
  time : Int
  of : Fin 15
  z : ℝ
  r : ℝ

/-- Independent estimates, and the latest time heard of. -/
structure Bank where
  time : Int
  of : Fin 15 → Gauge

/-- A bank takes a reading. -/
noncomputable def Bank.take (q : Fin 15 → ℝ) (b : Bank) (d : Reading) : Bank :=
  ⟨max b.time d.time, fun k =>
    let g := (b.of k).later (q k) (toSec (max 0 (d.time - b.time)))
    if k = d.of then g.told d.z d.r else g⟩

/-- A bank after its first reading: that reading, and for the others the initial values. -/
noncomputable def Bank.first (x0 : State) (v0 : Fin 15 → ℝ) (d : Reading) : Bank :=
  ⟨d.time, fun k => if k = d.of then ⟨d.z, d.r⟩ else ⟨x0 k, v0 k⟩⟩

/-- Sum of the inverse variances. -/
noncomputable def weightSum : List (ℝ × ℝ) → ℝ
  | [] => 0
  | d :: ds => 1 / d.2 + weightSum ds

/-- Sum of the values by inverse variance. -/
noncomputable def valueSum : List (ℝ × ℝ) → ℝ
  | [] => 0
  | d :: ds => d.1 / d.2 + valueSum ds

/-- The readings of `i`, with their variances. -/
def readingsOf (i : Fin 15) (ds : List Reading) : List (ℝ × ℝ) :=
  (ds.filter fun d => d.of = i).map fun d => (d.z, d.r)

/-- The message of a reading. -/
def MeasReads {p : FilterPar} (m : Meas (ekfCore p)) (d : Reading) : Prop :=
  m.time = d.time ∧ Held d.of ∧ Payload.Reads m.z d.of d.z d.r

/-- No correlation among the rates and accelerations. -/
def HeldApart (Q : Mat15) : Prop := ∀ i j, Held i → Held j → i ≠ j → Q i j = 0

/-! ## The filter -/

theorem Held.not_angular {i : Fin 15} (h : Held i) : ¬ angular i := by
  rintro (rfl | rfl | rfl) <;> exact absurd h (by unfold Held; decide)

theorem Payload.Reads.indices {m : Payload} {i : Fin 15} {z r : ℝ} (h : m.Reads i z r) : m.indices = [i] := by
  have e : m.indices = (List.finRange 15).filter (fun k => decide (k = i)) := by
    unfold Payload.indices
    refine List.filter_congr fun k _ => ?_
    rw [h.upd k]
    by_cases hk : k = i
    · subst hk; simp [h.value, Dbl.isNan, Dbl.isInf]
    · simp [hk]
  rw [e]
  clear e h
  revert i
  decide

theorem Payload.Reads.good {m : Payload} {i : Fin 15} {z r : ℝ} (h : m.Reads i z r) : m.GoodR := by
  have hr : (0 : ℝ) ≤ r := le_trans (by norm_num) h.floor
  have e : m.R.submatrix (fun k : {k // m.upd k = true} => k.1) (fun k => k.1) =
      (r • vecMulVec (fun _ => 1) (star fun _ => 1) : Matrix {k // m.upd k = true} {k // m.upd k = true} ℝ) := by
    ext a b
    have ha : a.1 = i := by have := a.2; rw [h.upd] at this; exact of_decide_eq_true this
    have hb : b.1 = i := by have := b.2; rw [h.upd] at this; exact of_decide_eq_true this
    simp [ha, hb, h.var, vecMulVec]
  unfold Payload.GoodR
  rw [e]
  exact (posSemidef_vecMulVec_self_star _).smul hr

theorem Payload.Reads.certain {m : Payload} {i : Fin 15} {z r : ℝ} (h : m.Reads i z r) : m.Certain where
  ungated := h.ungated
  good := h.good
  proper := by
    have hr : (0 : ℝ) < r := lt_of_lt_of_le (by norm_num) h.floor
    rw [h.indices]
    have e : subR [i].get m.R = .of fun _ _ => r := by
      ext a b
      fin_cases a; fin_cases b
      simp [subR, h.var, sanitize_above h.floor]
    rw [e]
    show Matrix.det (n := Fin 1) _ ≠ 0
    rw [Matrix.det_fin_one]
    exact hr.ne'

/-- Rates and accelerations are predicted to stay. -/
theorem transferF_kept (x : State) (dt : ℝ) : ∀ i j : Fin 15, Held i → transferF x dt i j = (1 : Mat15) i j := by
  intro i j h
  show (fEntry (trig x) dt i j).getD ((1 : Mat15) i j) = _
  have e : fEntry (trig x) dt i j = none := by
    revert h
    unfold Held
    fin_cases i <;> first
      | exact fun h => absurd h (by decide)
      | (fin_cases j <;> exact fun _ => rfl)
  rw [e]; rfl

theorem transferJ_kept (x : State) (dt : ℝ) : ∀ i j : Fin 15, Held i → transferJ x dt i j = (1 : Mat15) i j := by
  intro i j h
  show (jEntry (trig x) dt x i j).getD (transferF x dt i j) = _
  rw [transferF_kept x dt i j h]
  have e : jEntry (trig x) dt x i j = none := by
    revert h
    unfold Held
    fin_cases i <;> first
      | exact fun h => absurd h (by decide)
      | (fin_cases j <;> exact fun _ => rfl)
  rw [e]; rfl

theorem noiseQ_kept (p : FilterPar) (Q : Mat15) (x : State) {i : Fin 15} (j : Fin 15) (h : Held i) :
    noiseQ p Q x i j = Q i j := by
  unfold Held at h
  unfold noiseQ
  split
  · simp only [writeDyn, Matrix.of_apply]
    rw [if_neg (by omega)]
  · rfl

/-- What a prediction does to them. -/
theorem predict_kept {p : FilterPar} (hc : ∀ c, p.ctlUpd c = false) {Q : Mat15} {ctl : Fin 6 → ℝ} {ct ref : Int} {dt : ℝ}
    {x x' : State} {P P' : Mat15} (h : Ekf.predict p Q ctl ct ref dt x P = some (x', P')) {i j : Fin 15} (hi : Held i)
    (hj : Held j) : x' i = x i ∧ P' i j = P i j + dt * Q i j := by
  unfold Ekf.predict at h
  dsimp only at h
  split at h
  · exact absurd h (by simp)
  · rw [applyControl_none p hc] at h
    obtain ⟨e1, e2⟩ := Prod.mk.inj (Option.some.inj h)
    constructor
    · rw [← e1, wrap_other _ hi.not_angular]
      show ∑ k, transferF x dt i k * x k = x i
      simp only [transferF_kept x dt i _ hi, Matrix.one_apply]
      simp
    · rw [← e2, Matrix.add_apply, Matrix.smul_apply, noiseQ_kept p Q x j hi, smul_eq_mul]
      congr 1
      simp only [Matrix.mul_apply, Matrix.transpose_apply, transferJ_kept x dt i _ hi, transferJ_kept x dt j _ hj,
        Matrix.one_apply]
      simp

/-- The filter and the bank agree. -/
structure Banked {p : FilterPar} (Q : Mat15) (f : Filt (ekfCore p)) (b : Bank) : Prop where
  on : f.initialized = true
  par : f.par = Q
  time : f.lastTime = b.time
  est : ∀ x, f.x = some x → Matrix.PosSemidef (n := Fin 15) (R := ℝ) f.cov ∧ HeldApart f.cov ∧
    ∀ i, Held i → x i = (b.of i).value ∧ (show Mat15 from f.cov) i i = (b.of i).var

/-- Correct by a reading. -/
theorem correct_kept {m : Payload} {k : Fin 15} {z r : ℝ} (h : m.Reads k z r) (hk : Held k) {x x' : State} {P P' : Mat15}
    (hP : P.PosSemidef) (ha : HeldApart P) (hr : Ekf.correct m x P = some (x', P')) :
    P'.PosSemidef ∧ HeldApart P' ∧ ∀ i, Held i →
      (x' i = if i = k then ((⟨x i, P i i⟩ : Gauge).told z r).value else x i) ∧
      (P' i i = if i = k then ((⟨x i, P i i⟩ : Gauge).told z r).var else P i i) := by
  have hpsd := correctAt_psd h.good.sub hP hr
  have h0 : (0 : ℝ) < r := lt_of_lt_of_le (by norm_num) h.floor
  have hv : 0 ≤ P k k := hP.diag_nonneg
  have hs : P k k + r ≠ 0 := by positivity
  rw [correct_one k h.indices h.certain x hP] at hr
  obtain ⟨e1, e2⟩ := Prod.mk.inj (Option.some.inj hr)
  have hsan : sanitize (m.R k k) = r := by rw [h.var, sanitize_above h.floor]
  rw [hsan] at e1 e2
  refine ⟨hpsd, ?_, ?_⟩
  · intro i j hi hj hij
    rw [← e2]
    show P i j - P i k * (P k k + r)⁻¹ * P k j = 0
    rw [ha i j hi hj hij]
    by_cases hik : i = k
    · subst hik; rw [ha i j hi hj hij]; ring
    · rw [ha i k hi hk hik]; ring
  · intro i hi
    have hna : ¬ (k = iRoll ∨ k = iPitch ∨ k = iYaw) := hk.not_angular
    rw [← e1, ← e2, wrap_other _ hi.not_angular]
    rw [if_neg hna, h.value]
    show (x i + P i k * (P k k + r)⁻¹ * (z - x k) = _) ∧ (P i i - P i k * (P k k + r)⁻¹ * P k i = _)
    by_cases hik : i = k
    · subst hik
      rw [if_pos rfl, if_pos rfl]
      unfold Gauge.told
      constructor
      · field_simp; ring
      · field_simp; ring
    · rw [if_neg hik, if_neg hik, ha i k hi hk hik]
      constructor <;> ring

theorem Banked.step {p : FilterPar} (hc : ∀ c, p.ctlUpd c = false) {Q : Mat15} (hQ : Q.PosSemidef)
    (hd : p.dynamic = true → NoCross Q) (ha : HeldApart Q) {f : Filt (ekfCore p)} {b : Bank} (h : Banked Q f b)
    {m : Meas (ekfCore p)} {d : Reading} (hm : MeasReads m d) :
    Banked Q (f.processMeasurement m) (b.take (fun i => Q i i) d) := by
  obtain ⟨ht, hk, hrd⟩ := hm
  -- the state before the correction
  have key : ∀ g : Filt (ekfCore p), ∀ dt : ℝ,
      (∀ x, g.x = some x → Matrix.PosSemidef (n := Fin 15) (R := ℝ) g.cov ∧ HeldApart g.cov ∧
        ∀ i, Held i → x i = (b.of i).value ∧ (show Mat15 from g.cov) i i = (b.of i).var + dt * Q i i) →
      ∀ x, (g.correct m.z).x = some x → Matrix.PosSemidef (n := Fin 15) (R := ℝ) (g.correct m.z).cov ∧
        HeldApart (g.correct m.z).cov ∧ ∀ i, Held i →
          x i = (if i = d.of then ((b.of i).later (Q i i) dt).told d.z d.r else (b.of i).later (Q i i) dt).value ∧
          (show Mat15 from (g.correct m.z).cov) i i =
            (if i = d.of then ((b.of i).later (Q i i) dt).told d.z d.r else (b.of i).later (Q i i) dt).var := by
    intro g dt hg x hx
    have e0 : (g.correct m.z) = { g with
      x := ((ekfCore p).correct m.z (g.x, g.cov, g.ext)).1, cov := ((ekfCore p).correct m.z (g.x, g.cov, g.ext)).2.1,
      ext := ((ekfCore p).correct m.z (g.x, g.cov, g.ext)).2.2 } := rfl
    cases hgx : g.x with
    | none =>
      exfalso
      rw [e0] at hx
      change ((ekfCore p).correct m.z (g.x, g.cov, g.ext)).1 = some x at hx
      rw [hgx] at hx
      simp [ekfCore] at hx
    | some y =>
      obtain ⟨g1, g2, g3⟩ := hg y hgx
      rw [e0] at hx ⊢
      change ((ekfCore p).correct m.z (g.x, g.cov, g.ext)).1 = some x at hx
      show Matrix.PosSemidef (n := Fin 15) (R := ℝ) ((ekfCore p).correct m.z (g.x, g.cov, g.ext)).2.1 ∧
        HeldApart ((ekfCore p).correct m.z (g.x, g.cov, g.ext)).2.1 ∧ ∀ i, Held i → _ ∧
          (show Mat15 from ((ekfCore p).correct m.z (g.x, g.cov, g.ext)).2.1) i i = _
      rw [hgx] at hx ⊢
      cases hr : Ekf.correct m.z y g.cov with
      | none => exfalso; simp [ekfCore, hr] at hx
      | some r =>
        have ex : r.1 = x := by
          have : some r.1 = some x := by rw [← hx]; simp [ekfCore, hr]
          exact Option.some.inj this
        have ec : ((ekfCore p).correct m.z (some y, g.cov, g.ext)).2.1 = r.2 := by simp [ekfCore, hr]
        rw [ec]
        subst ex
        obtain ⟨r1, r2, r3⟩ := correct_kept hrd hk g1 g2 (x' := r.1) (P' := r.2) hr
        refine ⟨r1, r2, fun i hi => ?_⟩
        obtain ⟨s1, s2⟩ := r3 i hi
        obtain ⟨t1, t2⟩ := g3 i hi
        have eg : (⟨y i, (show Mat15 from g.cov) i i⟩ : Gauge) = (b.of i).later (Q i i) dt := by
          unfold Gauge.later
          rw [t1, t2]
        by_cases hik : i = d.of
        · rw [if_pos hik] at s1 s2
          rw [if_pos hik, ← eg]
          exact ⟨s1, s2⟩
        · rw [if_neg hik] at s1 s2
          rw [if_neg hik, ← eg]
          exact ⟨s1, s2⟩
  have hpred : 0 < m.time - f.lastTime → ∀ x, (f.predict m.time (m.time - f.lastTime)).x = some x →
      Matrix.PosSemidef (n := Fin 15) (R := ℝ) (f.predict m.time (m.time - f.lastTime)).cov ∧
        HeldApart (f.predict m.time (m.time - f.lastTime)).cov ∧ ∀ i, Held i → x i = (b.of i).value ∧
          (show Mat15 from (f.predict m.time (m.time - f.lastTime)).cov) i i =
            (b.of i).var + toSec (m.time - f.lastTime) * Q i i := by
    intro hpos x hx
    change ((ekfCore p).predict f.par f.ctl f.ctlTime m.time (m.time - f.lastTime) (f.x, f.cov, f.ext)).1 = some x at hx
    show Matrix.PosSemidef (n := Fin 15) (R := ℝ)
        ((ekfCore p).predict f.par f.ctl f.ctlTime m.time (m.time - f.lastTime) (f.x, f.cov, f.ext)).2.1 ∧
      HeldApart ((ekfCore p).predict f.par f.ctl f.ctlTime m.time (m.time - f.lastTime) (f.x, f.cov, f.ext)).2.1 ∧
      ∀ i, Held i → _ ∧ (show Mat15 from
        ((ekfCore p).predict f.par f.ctl f.ctlTime m.time (m.time - f.lastTime) (f.x, f.cov, f.ext)).2.1) i i = _
    have hpar := h.par
    generalize hm' : m.time = t at *
    generalize t - f.lastTime = δ at *
    cases hfx : f.x with
    | none => exfalso; rw [hfx] at hx; simp [ekfCore] at hx
    | some y =>
      rw [hfx] at hx
      rw [hpar] at hx ⊢
      obtain ⟨g1, g2, g3⟩ := h.est y hfx
      cases hr : Ekf.predict p Q f.ctl f.ctlTime t (toSec δ) y f.cov with
      | none => exfalso; simp [ekfCore, hr] at hx
      | some r =>
        have ex : r.1 = x := by
          have : some r.1 = some x := by rw [← hx]; simp [ekfCore, hr]
          exact Option.some.inj this
        have ec : ((ekfCore p).predict Q f.ctl f.ctlTime t δ (some y, f.cov, f.ext)).2.1 = r.2 := by simp [ekfCore, hr]
        rw [ec]
        subst ex
        have hr' : Ekf.predict p Q f.ctl f.ctlTime t (toSec δ) y f.cov = some (r.1, r.2) := hr
        refine ⟨predict_psd hQ hd (toSec_nonneg hpos.le) g1 hr', fun i j hi hj hij => ?_, fun i hi => ?_⟩
        · rw [(predict_kept hc hr' hi hj).2, ha i j hi hj hij]
          have := g2 i j hi hj hij
          erw [this]; simp
        · obtain ⟨u1, u2⟩ := predict_kept hc hr' hi hi
          obtain ⟨w1, w2⟩ := g3 i hi
          exact ⟨u1.trans w1, u2.trans (congrArg (· + toSec δ * Q i i) w2)⟩
  have htime : m.time - f.lastTime = d.time - b.time := by rw [ht, h.time]
  unfold Filt.processMeasurement
  rw [h.on]
  simp only [if_true]
  by_cases hpos : m.time - f.lastTime > 0
  · have hge : m.time - f.lastTime ≥ 0 := hpos.le
    rw [if_pos hpos, if_pos hge]
    refine ⟨h.on, h.par, ?_, ?_⟩
    · show m.time = max b.time d.time
      rw [ht]; omega
    · have := key { f.predict m.time (m.time - f.lastTime) with predicted := (f.predict m.time (m.time - f.lastTime)).x }
        (toSec (m.time - f.lastTime)) (hpred hpos)
      intro x hx
      have e : max 0 (d.time - b.time) = m.time - f.lastTime := by omega
      show _ ∧ _ ∧ ∀ i, Held i → _ = (if i = d.of then ((b.of i).later (Q i i) (toSec (max 0 (d.time - b.time)))).told d.z d.r
        else (b.of i).later (Q i i) (toSec (max 0 (d.time - b.time)))).value ∧ _ = (if i = d.of then
          ((b.of i).later (Q i i) (toSec (max 0 (d.time - b.time)))).told d.z d.r
        else (b.of i).later (Q i i) (toSec (max 0 (d.time - b.time)))).var
      rw [e]
      exact this x hx
  · rw [if_neg hpos]
    have e : max 0 (d.time - b.time) = 0 := by omega
    have hk0 := key f 0 (by
      intro x hx
      obtain ⟨g1, g2, g3⟩ := h.est x hx
      exact ⟨g1, g2, fun i hi => ⟨(g3 i hi).1, by rw [zero_mul, add_zero]; exact (g3 i hi).2⟩⟩)
    have h0 : toSec 0 = 0 := by unfold toSec; simp
    have hest : ∀ x, (f.correct m.z).x = some x → Matrix.PosSemidef (n := Fin 15) (R := ℝ) (f.correct m.z).cov ∧
        HeldApart (f.correct m.z).cov ∧ ∀ i, Held i →
          x i = ((b.take (fun i => Q i i) d).of i).value ∧
          (show Mat15 from (f.correct m.z).cov) i i = ((b.take (fun i => Q i i) d).of i).var := by
      intro x hx
      show _ ∧ _ ∧ ∀ i, Held i → _ = (if i = d.of then ((b.of i).later (Q i i) (toSec (max 0 (d.time - b.time)))).told d.z d.r
        else (b.of i).later (Q i i) (toSec (max 0 (d.time - b.time)))).value ∧ _ = (if i = d.of then
          ((b.of i).later (Q i i) (toSec (max 0 (d.time - b.time)))).told d.z d.r
        else (b.of i).later (Q i i) (toSec (max 0 (d.time - b.time)))).var
      rw [e, h0]
      exact hk0 x hx
    split
    · refine ⟨h.on, h.par, ?_, hest⟩
      show m.time = max b.time d.time
      rw [ht]; omega
    · refine ⟨h.on, h.par, ?_, hest⟩
      show f.lastTime = max b.time d.time
      rw [h.time]; omega

/-- What is assumed of a filter that has not heard anything. -/
structure Unheard {p : FilterPar} (Q : Mat15) (f : Filt (ekfCore p)) (x0 : State) : Prop where
  off : f.initialized = false
  par : f.par = Q
  start : f.x = some x0
  cov : Uncorrelated f.cov

theorem Banked.first {p : FilterPar} {Q : Mat15} {f : Filt (ekfCore p)} {x0 : State} (h : Unheard Q f x0)
    {m : Meas (ekfCore p)} {d : Reading} (hm : MeasReads m d) :
    Banked Q (f.processMeasurement m) (Bank.first x0 (fun i => (show Mat15 from f.cov) i i) d) := by
  obtain ⟨ht, hk, hrd⟩ := hm
  unfold Filt.processMeasurement
  rw [h.off]
  refine ⟨rfl, h.par, ht, ?_⟩
  intro x hx
  change (f.x).bind (initState m.z) = some x at hx
  rw [h.start] at hx
  change initState m.z x0 = some x at hx
  unfold initState at hx
  split at hx
  · have ex := Option.some.inj hx
    refine ⟨initCov_psd hrd.good h.cov.1 h.cov.2, ?_, ?_⟩
    · intro i j hi hj hij
      show (if Payload.upd m.z i && Payload.upd m.z j then Payload.R m.z i j else (show Mat15 from f.cov) i j) = 0
      rw [hrd.upd, hrd.upd, if_neg]
      · exact h.cov.2 i j hij
      · simp only [Bool.and_eq_true, decide_eq_true_eq]
        exact fun e => hij (e.1.trans e.2.symm)
    · intro i hi
      rw [← ex]
      show (if Payload.upd m.z i then (Payload.z m.z i).val else x0 i) = (if i = d.of then (⟨d.z, d.r⟩ : Gauge) else
          ⟨x0 i, (show Mat15 from f.cov) i i⟩).value ∧
        (if Payload.upd m.z i && Payload.upd m.z i then Payload.R m.z i i else (show Mat15 from f.cov) i i) =
          (if i = d.of then (⟨d.z, d.r⟩ : Gauge) else ⟨x0 i, (show Mat15 from f.cov) i i⟩).var
      rw [hrd.upd]
      by_cases hi' : i = d.of
      · subst hi'
        simp [hrd.value, hrd.var, Dbl.val]
      · simp [hi']
  · exact absurd hx (by simp)

/-- C128: fed with readings of rates and accelerations, the filter is a set of independent estimates of one number each:
with time the variance grows by the process noise, and a reading is weighted against the estimate by the variances. -/
theorem C128_bank {p : FilterPar} (hc : ∀ c, p.ctlUpd c = false) {Q : Mat15} (hQ : Q.PosSemidef)
    (hd : p.dynamic = true → NoCross Q) (ha : HeldApart Q) {f : Filt (ekfCore p)} {x0 : State} (h : Unheard Q f x0)
    {m : Meas (ekfCore p)} {d : Reading} (hm : MeasReads m d) {ms : List (Meas (ekfCore p))} {ds : List Reading}
    (hms : List.Forall₂ MeasReads ms ds) {x : State}
    (hx : ((m :: ms).foldl Filt.processMeasurement f).x = some x) (i : Fin 15) (hi : Held i) :
    x i = ((ds.foldl (Bank.take fun i => Q i i)
      (Bank.first x0 (fun i => (show Mat15 from f.cov) i i) d)).of i).value ∧
    (show Mat15 from ((m :: ms).foldl Filt.processMeasurement f).cov) i i =
      ((ds.foldl (Bank.take fun i => Q i i) (Bank.first x0 (fun i => (show Mat15 from f.cov) i i) d)).of i).var := by
  have key : ∀ (ms : List (Meas (ekfCore p))) (ds : List Reading), List.Forall₂ MeasReads ms ds →
      ∀ (g : Filt (ekfCore p)) (b : Bank), Banked Q g b →
      Banked Q (ms.foldl Filt.processMeasurement g) (ds.foldl (Bank.take fun i => Q i i) b) := by
    intro ms ds hms
    induction hms with
    | nil => exact fun _ _ h => h
    | cons h1 _ ih => exact fun g b hg => ih _ _ (hg.step hc hQ hd ha h1)
  exact ((key ms ds hms _ _ (Banked.first h hm)).est x hx).2.2 i hi

/-! ## Without process noise: the weighted mean -/

/-- The mean of values weighted by their inverse variances. -/
noncomputable def average (ds : List (ℝ × ℝ)) : ℝ := valueSum ds / weightSum ds

theorem take_weights {q : Fin 15 → ℝ} {i : Fin 15} (hq : q i = 0) (ds : List Reading) (hr : ∀ d ∈ ds, 0 < d.r) (b : Bank)
    (hv : 0 < (b.of i).var) :
    0 < ((ds.foldl (Bank.take q) b).of i).var ∧
    1 / ((ds.foldl (Bank.take q) b).of i).var = 1 / (b.of i).var + weightSum (readingsOf i ds) ∧
    ((ds.foldl (Bank.take q) b).of i).value / ((ds.foldl (Bank.take q) b).of i).var =
      (b.of i).value / (b.of i).var + valueSum (readingsOf i ds) := by
  induction ds generalizing b with
  | nil => exact ⟨hv, by simp [readingsOf, weightSum], by simp [readingsOf, valueSum]⟩
  | cons d ds ih =>
    have hd := hr d List.mem_cons_self
    by_cases hi : d.of = i
    · have e : (b.take q d).of i = (b.of i).told d.z d.r := by
        simp [Bank.take, hi, Gauge.later, hq]
      have hv' : 0 < ((b.take q d).of i).var := by
        rw [e]; unfold Gauge.told; positivity
      obtain ⟨h1, h2, h3⟩ := ih (fun d' h => hr d' (List.mem_cons_of_mem _ h)) (b.take q d) hv'
      have er : readingsOf i (d :: ds) = (d.z, d.r) :: readingsOf i ds := by simp [readingsOf, hi]
      refine ⟨h1, ?_, ?_⟩
      · rw [List.foldl_cons, h2, er, e]
        simp only [weightSum, Gauge.told]
        field_simp
        ring
      · rw [List.foldl_cons, h3, er, e]
        simp only [valueSum, Gauge.told]
        field_simp
        ring
    · have e : (b.take q d).of i = b.of i := by
        simp [Bank.take, Ne.symm hi, Gauge.later, hq]
      have hv' : 0 < ((b.take q d).of i).var := by rw [e]; exact hv
      obtain ⟨h1, h2, h3⟩ := ih (fun d' h => hr d' (List.mem_cons_of_mem _ h)) (b.take q d) hv'
      have er : readingsOf i (d :: ds) = readingsOf i ds := by simp [readingsOf, hi]
      refine ⟨h1, ?_, ?_⟩
      · rw [List.foldl_cons, h2, er, e]
      · rw [List.foldl_cons, h3, er, e]

theorem MeasReads.pos {p : FilterPar} {m : Meas (ekfCore p)} {d : Reading} (h : MeasReads m d) : 0 < d.r :=
  lt_of_lt_of_le (by norm_num) h.2.2.floor

theorem forall2_pos {p : FilterPar} {ms : List (Meas (ekfCore p))} {ds : List Reading} (h : List.Forall₂ MeasReads ms ds) :
    ∀ d ∈ ds, 0 < d.r := by
  induction h with
  | nil => simp
  | cons h1 _ ih =>
    intro d hd
    rcases List.mem_cons.1 hd with rfl | hd
    · exact h1.pos
    · exact ih d hd

variable {p : FilterPar} {Q : Mat15} {f : Filt (ekfCore p)} {x0 : State} {m : Meas (ekfCore p)} {d : Reading}
  {ms : List (Meas (ekfCore p))} {ds : List Reading} {x : State}

/-- C128: without process noise, a rate or acceleration that the first message reads is estimated by the mean of all its
readings, weighted by their inverse variances, and its variance is the inverse of the sum of the inverse variances,
whatever else is read in between, at whatever times and in whatever order.  The initial estimate does not enter. -/
theorem C128_mean (hc : ∀ c, p.ctlUpd c = false) (hQ : Q.PosSemidef) (hd : p.dynamic = true → NoCross Q)
    (ha : HeldApart Q) (h : Unheard Q f x0) (hm : MeasReads m d) (hms : List.Forall₂ MeasReads ms ds)
    (hx : ((m :: ms).foldl Filt.processMeasurement f).x = some x) (hq : Q d.of d.of = 0) :
    x d.of = average (readingsOf d.of (d :: ds)) ∧
    (show Mat15 from ((m :: ms).foldl Filt.processMeasurement f).cov) d.of d.of =
      1 / weightSum (readingsOf d.of (d :: ds)) := by
  obtain ⟨e1, e2⟩ := C128_bank hc hQ hd ha h hm hms hx d.of hm.2.1
  have e0 : (Bank.first x0 (fun i => (show Mat15 from f.cov) i i) d).of d.of = ⟨d.z, d.r⟩ := by simp [Bank.first]
  obtain ⟨h1, h2, h3⟩ := take_weights (q := fun i => Q i i) (i := d.of) hq ds (forall2_pos hms)
    (Bank.first x0 (fun i => (show Mat15 from f.cov) i i) d) (by rw [e0]; exact hm.pos)
  rw [e0] at h2 h3
  have er : readingsOf d.of (d :: ds) = (d.z, d.r) :: readingsOf d.of ds := by simp [readingsOf]
  rw [e1, e2, er]
  unfold average
  simp only [valueSum, weightSum]
  dsimp only at h2 h3
  rw [← h2, ← h3]
  constructor <;> field_simp

/-- C128: for the other rates and accelerations the initial estimate counts as one more reading. -/
theorem C128_prior (hc : ∀ c, p.ctlUpd c = false) (hQ : Q.PosSemidef) (hd : p.dynamic = true → NoCross Q)
    (ha : HeldApart Q) (h : Unheard Q f x0) (hm : MeasReads m d) (hms : List.Forall₂ MeasReads ms ds)
    (hx : ((m :: ms).foldl Filt.processMeasurement f).x = some x) {i : Fin 15} (hi : Held i) (hid : i ≠ d.of)
    (hq : Q i i = 0) (hv : 0 < (show Mat15 from f.cov) i i) :
    x i = average ((x0 i, (show Mat15 from f.cov) i i) :: readingsOf i ds) ∧
    (show Mat15 from ((m :: ms).foldl Filt.processMeasurement f).cov) i i =
      1 / weightSum ((x0 i, (show Mat15 from f.cov) i i) :: readingsOf i ds) := by
  obtain ⟨e1, e2⟩ := C128_bank hc hQ hd ha h hm hms hx i hi
  have e0 : (Bank.first x0 (fun i => (show Mat15 from f.cov) i i) d).of i = ⟨x0 i, (show Mat15 from f.cov) i i⟩ := by
    simp [Bank.first, hid]
  obtain ⟨h1, h2, h3⟩ := take_weights (q := fun i => Q i i) (i := i) hq ds (forall2_pos hms)
    (Bank.first x0 (fun i => (show Mat15 from f.cov) i i) d) (by rw [e0]; exact hv)
  rw [e0] at h2 h3
  rw [e1, e2]
  unfold average
  simp only [valueSum, weightSum]
  dsimp only at h2 h3
  rw [← h2, ← h3]
  constructor <;> field_simp

theorem weightSum_perm {a b : List (ℝ × ℝ)} (h : a.Perm b) : weightSum a = weightSum b := by
  induction h with
  | nil => rfl
  | cons _ _ ih => simp [weightSum, ih]
  | swap => simp only [weightSum]; ring
  | trans _ _ h1 h2 => exact h1.trans h2

theorem valueSum_perm {a b : List (ℝ × ℝ)} (h : a.Perm b) : valueSum a = valueSum b := by
  induction h with
  | nil => rfl
  | cons _ _ ih => simp [valueSum, ih]
  | swap => simp only [valueSum]; ring
  | trans _ _ h1 h2 => exact h1.trans h2

/-- C128: two filters, started anyhow, that hear the same readings of a rate or acceleration without process noise, in
any order, at any times, and among any others, the first message of each being one of these, end with the same estimate
of it and the same variance. -/
theorem C128_order (hc : ∀ c, p.ctlUpd c = false) (hQ : Q.PosSemidef) (hd : p.dynamic = true → NoCross Q)
    (ha : HeldApart Q) (h : Unheard Q f x0) (hm : MeasReads m d) (hms : List.Forall₂ MeasReads ms ds)
    (hx : ((m :: ms).foldl Filt.processMeasurement f).x = some x)
    {f' : Filt (ekfCore p)} {x0' : State} {m' : Meas (ekfCore p)} {d' : Reading} {ms' : List (Meas (ekfCore p))}
    {ds' : List Reading} {x' : State} (h' : Unheard Q f' x0') (hm' : MeasReads m' d')
    (hms' : List.Forall₂ MeasReads ms' ds') (hx' : ((m' :: ms').foldl Filt.processMeasurement f').x = some x')
    {i : Fin 15} (hi : d.of = i) (hi' : d'.of = i) (hq : Q i i = 0)
    (hp : (readingsOf i (d :: ds)).Perm (readingsOf i (d' :: ds'))) :
    x i = x' i ∧ (show Mat15 from ((m :: ms).foldl Filt.processMeasurement f).cov) i i =
      (show Mat15 from ((m' :: ms').foldl Filt.processMeasurement f').cov) i i := by
  subst hi
  obtain ⟨a1, a2⟩ := C128_mean hc hQ hd ha h hm hms hx hq
  obtain ⟨b1, b2⟩ := C128_mean hc hQ hd ha h' hm' hms' hx' (by rw [hi']; exact hq)
  rw [hi'] at b1 b2
  rw [a1, a2, b1, b2]
  unfold average
  rw [weightSum_perm hp, valueSum_perm hp]
  exact ⟨rfl, rfl⟩

theorem slow_identity {a z r v n : ℝ} (hr : 0 < r) (hv : 0 < v) (hn : 0 ≤ n) :
    (a / v + n * z / r) / (1 / v + n / r) - z = (a - z) * (r / (r + n * v)) := by
  have h1 : r + n * v ≠ 0 := by positivity
  have h2 : 1 / v + n / r = (r + n * v) / (v * r) := by field_simp
  have h3 : a / v + n * z / r = (a * r + n * z * v) / (v * r) := by field_simp
  rw [h2, h3, div_div_div_cancel_right₀ (by positivity), div_sub' h1, mul_div_assoc']
  congr 1
  ring

/-- C128, partial: with the initial variance `v` and `n` readings of the same value with variance `r`, the distance to that value
is the initial one times `r / (r + n v)`: the smaller the initial variance, the slower.
Missing: variables that the first message selects, where it is false (`C128_first_message`). -/
theorem C128_slow_partial (hc : ∀ c, p.ctlUpd c = false) (hQ : Q.PosSemidef) (hd : p.dynamic = true → NoCross Q)
    (ha : HeldApart Q) (h : Unheard Q f x0) (hm : MeasReads m d) (hms : List.Forall₂ MeasReads ms ds)
    (hx : ((m :: ms).foldl Filt.processMeasurement f).x = some x) {i : Fin 15} (hi : Held i) (hid : i ≠ d.of)
    (hq : Q i i = 0) (hv : 0 < (show Mat15 from f.cov) i i) {z r : ℝ} (hr : 0 < r) {n : ℕ}
    (hn : readingsOf i ds = List.replicate n (z, r)) :
    x i - z = (x0 i - z) * (r / (r + n * (show Mat15 from f.cov) i i)) := by
  obtain ⟨e, -⟩ := C128_prior hc hQ hd ha h hm hms hx hi hid hq hv
  have hw : ∀ n : ℕ, weightSum (List.replicate n (z, r)) = n / r := by
    intro n
    induction n with
    | zero => simp [weightSum]
    | succ n ih => rw [List.replicate_succ, weightSum, ih]; push_cast; ring
  have hs : ∀ n : ℕ, valueSum (List.replicate n (z, r)) = n * z / r := by
    intro n
    induction n with
    | zero => simp [valueSum]
    | succ n ih => rw [List.replicate_succ, valueSum, ih]; push_cast; ring
  rw [e, hn]
  unfold average
  simp only [valueSum, weightSum, hw, hs]
  exact slow_identity hr hv (Nat.cast_nonneg n)

/-! ## With process noise -/

/-- Values between two bounds. -/
def Between (lo hi v : ℝ) : Prop := lo ≤ v ∧ v ≤ hi

theorem told_between {lo hi : ℝ} {g : Gauge} {z r : ℝ} (hv : 0 ≤ g.var) (hr : 0 < r) (hg : Between lo hi g.value)
    (hz : Between lo hi z) : Between lo hi (g.told z r).value := by
  have hs : 0 < g.var + r := by positivity
  unfold Gauge.told
  constructor
  · rw [le_div_iff₀ hs]
    nlinarith [mul_le_mul_of_nonneg_right hg.1 hr.le, mul_le_mul_of_nonneg_right hz.1 hv]
  · show _ / _ ≤ hi
    rw [div_le_iff₀ hs]
    nlinarith [mul_le_mul_of_nonneg_right hg.2 hr.le, mul_le_mul_of_nonneg_right hz.2 hv]

theorem later_var {g : Gauge} {q : ℝ} (hv : 0 ≤ g.var) (hq : 0 ≤ q) (t : Int) : 0 ≤ (g.later q (toSec (max 0 t))).var := by
  have := toSec_nonneg (le_max_left 0 t)
  unfold Gauge.later
  positivity

/-- C128: with any process noise, a rate or acceleration is never estimated beyond the smallest and the largest of its
readings (and its initial value, unless the first message reads it). -/
theorem C128_between (hc : ∀ c, p.ctlUpd c = false) (hQ : Q.PosSemidef) (hd : p.dynamic = true → NoCross Q)
    (ha : HeldApart Q) (h : Unheard Q f x0) (hm : MeasReads m d) (hms : List.Forall₂ MeasReads ms ds)
    (hx : ((m :: ms).foldl Filt.processMeasurement f).x = some x) {i : Fin 15} (hi : Held i) {lo up : ℝ}
    (h0 : i ≠ d.of → Between lo up (x0 i)) (hz : ∀ c ∈ d :: ds, c.of = i → Between lo up c.z) :
    Between lo up (x i) := by
  obtain ⟨e, -⟩ := C128_bank hc hQ hd ha h hm hms hx i hi
  rw [e]
  have key : ∀ (ds : List Reading) (b : Bank), (∀ c ∈ ds, 0 < c.r) → (∀ c ∈ ds, c.of = i → Between lo up c.z) →
      0 ≤ (b.of i).var → Between lo up (b.of i).value →
      Between lo up ((ds.foldl (Bank.take fun i => Q i i) b).of i).value := by
    intro ds
    induction ds with
    | nil => exact fun b _ _ _ h => h
    | cons c ds ih =>
      intro b hr hz hv hb
      have hl := later_var hv (hQ.diag_nonneg (i := i)) (c.time - b.time)
      have hcr := hr c List.mem_cons_self
      rw [List.foldl_cons]
      refine ih _ (fun c' h => hr c' (List.mem_cons_of_mem _ h)) (fun c' h => hz c' (List.mem_cons_of_mem _ h)) ?_ ?_
      · show 0 ≤ (if i = c.of then _ else _ : Gauge).var
        split
        · unfold Gauge.told; positivity
        · exact hl
      · show Between lo up (if i = c.of then _ else _ : Gauge).value
        split
        · rename_i hic
          exact told_between hl hcr hb (hz c List.mem_cons_self hic.symm)
        · exact hb
  refine key ds _ (forall2_pos hms) (fun c h => hz c (List.mem_cons_of_mem _ h)) ?_ ?_
  · show 0 ≤ (if i = d.of then (⟨d.z, d.r⟩ : Gauge) else ⟨x0 i, (show Mat15 from f.cov) i i⟩).var
    split
    · exact hm.pos.le
    · exact h.cov.1 i
  · show Between lo up (if i = d.of then (⟨d.z, d.r⟩ : Gauge) else ⟨x0 i, (show Mat15 from f.cov) i i⟩).value
    split
    · rename_i hid
      exact hz d List.mem_cons_self hid.symm
    · rename_i hid
      exact h0 hid

/-- The same schedule of readings, where `i` is always read as `z`, with variance `r` in the first and `r'` in the
second. -/
def SameButVar (i : Fin 15) (z r r' : ℝ) (c c' : Reading) : Prop :=
  c.time = c'.time ∧ c.of = c'.of ∧ (c.of = i → c.z = z ∧ c'.z = z ∧ c.r = r ∧ c'.r = r')

theorem told_error {g : Gauge} {z r : ℝ} (hv : 0 ≤ g.var) (hr : 0 < r) :
    (g.told z r).value - z = (g.value - z) / (1 + g.var / r) ∧
    (g.told z r).var / r = g.var / r / (1 + g.var / r) := by
  have hs : g.var + r ≠ 0 := by positivity
  unfold Gauge.told
  constructor
  · have : 1 + g.var / r ≠ 0 := by positivity
    field_simp
    ring
  · have : 1 + g.var / r ≠ 0 := by positivity
    field_simp
    ring

theorem frac_mono {a b : ℝ} (ha : 0 ≤ a) (h : a ≤ b) : a / (1 + a) ≤ b / (1 + b) := by
  have hb : 0 ≤ b := ha.trans h
  rw [div_le_div_iff₀ (by positivity) (by positivity)]
  nlinarith

/-- C128: the larger the process noise and the initial variance relative to the variance of the readings, the closer to a
constant reading is the estimate, at any time. -/
theorem C128_faster (hc : ∀ c, p.ctlUpd c = false) (hQ : Q.PosSemidef) (hd : p.dynamic = true → NoCross Q)
    (ha : HeldApart Q) (h : Unheard Q f x0) (hm : MeasReads m d) (hms : List.Forall₂ MeasReads ms ds)
    (hx : ((m :: ms).foldl Filt.processMeasurement f).x = some x)
    {Q' : Mat15} (hQ' : Q'.PosSemidef) (hd' : p.dynamic = true → NoCross Q') (ha' : HeldApart Q')
    {f' : Filt (ekfCore p)} {x0' : State} {m' : Meas (ekfCore p)} {d' : Reading} {ms' : List (Meas (ekfCore p))}
    {ds' : List Reading} {x' : State} (h' : Unheard Q' f' x0') (hm' : MeasReads m' d')
    (hms' : List.Forall₂ MeasReads ms' ds') (hx' : ((m' :: ms').foldl Filt.processMeasurement f').x = some x')
    {i : Fin 15} (hi : Held i) {z r r' : ℝ} (hr : 0 < r) (hr' : 0 < r') (h1 : SameButVar i z r r' d d')
    (hs : List.Forall₂ (SameButVar i z r r') ds ds') (hx0 : x0 i = x0' i)
    (hv : (show Mat15 from f.cov) i i / r ≤ (show Mat15 from f'.cov) i i / r') (hq : Q i i / r ≤ Q' i i / r') :
    |x' i - z| ≤ |x i - z| := by
  obtain ⟨e, -⟩ := C128_bank hc hQ hd ha h hm hms hx i hi
  obtain ⟨e', -⟩ := C128_bank hc hQ' hd' ha' h' hm' hms' hx' i hi
  rw [e, e']
  have key : ∀ (ds ds' : List Reading), List.Forall₂ (SameButVar i z r r') ds ds' → ∀ b b' : Bank, b.time = b'.time →
      0 ≤ (b.of i).var → 0 ≤ (b'.of i).var → (b.of i).var / r ≤ (b'.of i).var / r' →
      |(b'.of i).value - z| ≤ |(b.of i).value - z| →
      |((ds'.foldl (Bank.take fun i => Q' i i) b').of i).value - z| ≤
        |((ds.foldl (Bank.take fun i => Q i i) b).of i).value - z| := by
    intro ds ds' hs
    induction hs with
    | nil => exact fun _ _ _ _ _ _ h => h
    | @cons c c' _ _ hcc _ ih =>
      intro b b' ht hb hb' hbv hbe
      obtain ⟨c1, c2, c3⟩ := hcc
      rw [List.foldl_cons, List.foldl_cons]
      have hl := later_var hb (hQ.diag_nonneg (i := i)) (c.time - b.time)
      have hl' := later_var hb' (hQ'.diag_nonneg (i := i)) (c'.time - b'.time)
      have hll : ((b.of i).later (Q i i) (toSec (max 0 (c.time - b.time)))).var / r ≤
          ((b'.of i).later (Q' i i) (toSec (max 0 (c'.time - b'.time)))).var / r' := by
        rw [← c1, ← ht]
        have hn := toSec_nonneg (le_max_left 0 (c.time - b.time))
        unfold Gauge.later
        dsimp only
        generalize toSec (max 0 (c.time - b.time)) = t at hn
        rw [add_div, add_div, mul_div_assoc, mul_div_assoc]
        exact add_le_add hbv (mul_le_mul_of_nonneg_left hq hn)
      have hve : ((b.of i).later (Q i i) (toSec (max 0 (c.time - b.time)))).value = (b.of i).value := rfl
      have hve' : ((b'.of i).later (Q' i i) (toSec (max 0 (c'.time - b'.time)))).value = (b'.of i).value := rfl
      have et : (b.take (fun i => Q i i) c).of i = if i = c.of then
          ((b.of i).later (Q i i) (toSec (max 0 (c.time - b.time)))).told c.z c.r else
          (b.of i).later (Q i i) (toSec (max 0 (c.time - b.time))) := rfl
      have et' : (b'.take (fun i => Q' i i) c').of i = if i = c'.of then
          ((b'.of i).later (Q' i i) (toSec (max 0 (c'.time - b'.time)))).told c'.z c'.r else
          (b'.of i).later (Q' i i) (toSec (max 0 (c'.time - b'.time))) := rfl
      generalize (b.of i).later (Q i i) (toSec (max 0 (c.time - b.time))) = g at *
      generalize (b'.of i).later (Q' i i) (toSec (max 0 (c'.time - b'.time))) = g' at *
      have hmax : (b.take (fun i => Q i i) c).time = (b'.take (fun i => Q' i i) c').time := by
        show max _ _ = max _ _
        rw [ht, c1]
      by_cases hic : c.of = i
      · obtain ⟨z1, z2, z3, z4⟩ := c3 hic
        rw [if_pos hic.symm, z1, z3] at et
        rw [if_pos (c2 ▸ hic).symm, z2, z4] at et'
        obtain ⟨t1, t2⟩ := told_error (z := z) hl hr
        obtain ⟨t1', t2'⟩ := told_error (z := z) hl' hr'
        have hp : 0 ≤ g.var / r := by positivity
        have hp' : 0 ≤ g'.var / r' := by positivity
        refine ih _ _ hmax ?_ ?_ ?_ ?_
        · rw [et]; unfold Gauge.told; positivity
        · rw [et']; unfold Gauge.told; positivity
        · rw [et, et', t2, t2']
          exact frac_mono hp hll
        · rw [et, et', t1, t1', abs_div, abs_div, abs_of_pos (by positivity : 0 < 1 + g.var / r),
            abs_of_pos (by positivity : 0 < 1 + g'.var / r'), hve, hve']
          exact div_le_div₀ (abs_nonneg _) hbe (by positivity) (by linarith)
      · rw [if_neg (Ne.symm hic)] at et
        rw [if_neg (fun e => hic (c2.trans e.symm))] at et'
        refine ih _ _ hmax ?_ ?_ ?_ ?_
        · rw [et]; exact hl
        · rw [et']; exact hl'
        · rw [et, et']; exact hll
        · rw [et, et', hve, hve']; exact hbe
  obtain ⟨c1, c2, c3⟩ := h1
  by_cases hid : d.of = i
  · obtain ⟨z1, z2, z3, z4⟩ := c3 hid
    have e1 : (Bank.first x0 (fun i => (show Mat15 from f.cov) i i) d).of i = ⟨z, r⟩ := by
      simp [Bank.first, hid.symm, z1, z3]
    have e2 : (Bank.first x0' (fun i => (show Mat15 from f'.cov) i i) d').of i = ⟨z, r'⟩ := by
      simp [Bank.first, (c2 ▸ hid : d'.of = i).symm, z2, z4]
    refine key ds ds' hs _ _ c1 ?_ ?_ ?_ ?_
    · rw [e1]; exact hr.le
    · rw [e2]; exact hr'.le
    · rw [e1, e2, div_self hr.ne', div_self hr'.ne']
    · rw [e1, e2]
  · have e1 : (Bank.first x0 (fun i => (show Mat15 from f.cov) i i) d).of i = ⟨x0 i, (show Mat15 from f.cov) i i⟩ :=
      if_neg (Ne.symm hid)
    have e2 : (Bank.first x0' (fun i => (show Mat15 from f'.cov) i i) d').of i = ⟨x0' i, (show Mat15 from f'.cov) i i⟩ :=
      if_neg fun e => hid (c2.trans e.symm)
    refine key ds ds' hs _ _ c1 ?_ ?_ ?_ ?_
    · rw [e1]; exact h.cov.1 i
    · rw [e2]; exact h'.cov.1 i
    · rw [e1, e2]; exact hv
    · rw [e1, e2, hx0]

/-- Each reading is `δ` nanoseconds or more after everything before it. -/
def Spaced (δ : Int) : Int → List Reading → Prop
  | _, [] => True
  | t, c :: cs => t + δ ≤ c.time ∧ Spaced δ c.time cs

/-- C128: with process noise `q`, the distance to a constant reading of variance `r` goes down with every reading at least
by the factor `r / (r + q δ)`, if the readings are `δ` apart. -/
theorem C128_converges (hc : ∀ c, p.ctlUpd c = false) (hQ : Q.PosSemidef) (hd : p.dynamic = true → NoCross Q)
    (ha : HeldApart Q) (h : Unheard Q f x0) (hm : MeasReads m d) (hms : List.Forall₂ MeasReads ms ds)
    (hx : ((m :: ms).foldl Filt.processMeasurement f).x = some x) {i : Fin 15} (hi : Held i) {z r : ℝ}
    (hz : ∀ c ∈ ds, c.of = i ∧ c.z = z ∧ c.r = r) {δ : Int} (hδ : 0 ≤ δ) (hs : Spaced δ d.time ds) (hr : 0 < r) :
    |x i - z| ≤ (r / (r + toSec δ * Q i i)) ^ ds.length * |(if i = d.of then d.z else x0 i) - z| := by
  obtain ⟨e, -⟩ := C128_bank hc hQ hd ha h hm hms hx i hi
  rw [e]
  have hq := hQ.diag_nonneg (i := i)
  have hsec := toSec_nonneg hδ
  have hden : 0 < r + toSec δ * Q i i := by positivity
  have key : ∀ (ds : List Reading) (b : Bank), (∀ c ∈ ds, c.of = i ∧ c.z = z ∧ c.r = r) → Spaced δ b.time ds →
      0 ≤ (b.of i).var → |((ds.foldl (Bank.take fun i => Q i i) b).of i).value - z| ≤
        (r / (r + toSec δ * Q i i)) ^ ds.length * |(b.of i).value - z| := by
    intro ds
    induction ds with
    | nil => intro b _ _ _; simp
    | cons c ds ih =>
      intro b hz hs hv
      obtain ⟨c1, c2, c3⟩ := hz c List.mem_cons_self
      have hl := later_var hv hq (c.time - b.time)
      have et : (b.take (fun i => Q i i) c).of i =
          ((b.of i).later (Q i i) (toSec (max 0 (c.time - b.time)))).told z r := by
        rw [← c2, ← c3]; exact if_pos c1.symm
      have htime : (b.take (fun i => Q i i) c).time = c.time := by
        show max _ _ = _
        have := hs.1
        omega
      have hge : toSec δ * Q i i ≤ ((b.of i).later (Q i i) (toSec (max 0 (c.time - b.time)))).var := by
        unfold Gauge.later
        have h1 : toSec δ ≤ toSec (max 0 (c.time - b.time)) := by
          unfold toSec
          have : δ ≤ max 0 (c.time - b.time) := by have := hs.1; omega
          have : (δ : ℝ) ≤ ((max 0 (c.time - b.time) : Int) : ℝ) := by exact_mod_cast this
          nlinarith
        have := mul_le_mul_of_nonneg_right h1 hq
        dsimp only
        linarith
      have hve : ((b.of i).later (Q i i) (toSec (max 0 (c.time - b.time)))).value = (b.of i).value := rfl
      rw [List.foldl_cons]
      refine (ih (b.take (fun i => Q i i) c) (fun c' h => hz c' (List.mem_cons_of_mem _ h)) (htime ▸ hs.2) ?_).trans ?_
      · rw [et]; unfold Gauge.told; positivity
      · rw [et, (told_error hl hr).1, hve, List.length_cons, pow_succ, mul_assoc]
        refine mul_le_mul_of_nonneg_left ?_ (by positivity)
        generalize ((b.of i).later (Q i i) (toSec (max 0 (c.time - b.time)))).var = v at *
        rw [abs_div, abs_of_pos (by positivity : 0 < 1 + v / r), div_eq_mul_inv, mul_comm]
        refine mul_le_mul_of_nonneg_right ?_ (abs_nonneg _)
        have : 1 + v / r = (r + v) / r := by field_simp
        rw [this, inv_div]
        exact div_le_div_of_nonneg_left hr.le hden (by linarith)
  have := key ds (Bank.first x0 (fun i => (show Mat15 from f.cov) i i) d) hz hs (by
    show 0 ≤ (if i = d.of then (⟨d.z, d.r⟩ : Gauge) else ⟨x0 i, (show Mat15 from f.cov) i i⟩).var
    split
    · exact hm.pos.le
    · exact h.cov.1 i)
  have ev : ((Bank.first x0 (fun i => (show Mat15 from f.cov) i i) d).of i).value = if i = d.of then d.z else x0 i := by
    show (if i = d.of then (⟨d.z, d.r⟩ : Gauge) else ⟨x0 i, (show Mat15 from f.cov) i i⟩).value = _
    split <;> rfl
  rw [ev] at this
  exact this

/-! ## The first message -/

/-- C128, against the documentation (state_estimation_nodes.rst: with a very small initial covariance "the filter will be
very slow to trust" measurements of high variance): whatever the variable, the initial value and the initial covariance,
the first message is believed completely.  Its value and its variance replace those of every variable it selects. -/
theorem C128_first_message (f : Filt (ekfCore p)) (hf : f.initialized = false) (x0 : State) (h0 : f.x = some x0)
    (m : Meas (ekfCore p)) (hfin : ∀ i, Payload.upd m.z i = true → (Payload.z m.z i).isFin = true) :
    ∃ x, (f.processMeasurement m).x = some x ∧ ∀ i, Payload.upd m.z i = true → x i = (Payload.z m.z i).val ∧
      (show Mat15 from (f.processMeasurement m).cov) i i = Payload.R m.z i i := by
  have e : f.processMeasurement m = { f with
      x := (ekfCore p).initX m.z f.x, cov := (ekfCore p).initCov m.z f.cov, initialized := true, lastTime := m.time } := by
    unfold Filt.processMeasurement
    rw [hf]
    rfl
  rw [e]
  refine ⟨fun i => if Payload.upd m.z i then (Payload.z m.z i).val else x0 i, ?_, fun i hi => ⟨if_pos hi, ?_⟩⟩
  · show (f.x).bind (initState m.z) = _
    rw [h0]
    exact if_pos hfin
  · show (if Payload.upd m.z i && Payload.upd m.z i then Payload.R m.z i i else _) = _
    rw [hi]; rfl

/-! ## Examples -/

/-- A reading of one variable with variance `r`. -/
noncomputable def readOf (i : Fin 15) (z r : ℝ) : Payload :=
  ⟨fun k => decide (k = i), fun _ => .fin z, r • 1, .unlimited⟩

theorem readOf_reads (i : Fin 15) (z : ℝ) {r : ℝ} (hr : 1e-9 ≤ r) : (readOf i z r).Reads i z r :=
  ⟨fun _ => rfl, rfl, by simp [readOf], hr, rfl⟩

/-- A filter that starts from zero. -/
noncomputable def idleFilt (Q : Mat15) : Filt (ekfCore plainPar) :=
  { initialized := false, x := some (0 : State), cov := (1e-3 : ℝ) • (1 : Mat15), ext := (), predicted := some (0 : State),
    par := Q, ctl := fun _ : Fin 6 => (0 : ℝ), ctlTime := 0, lastTime := 0, sensorTimeout := 0 }

theorem idleFilt_unheard (Q : Mat15) : Unheard Q (idleFilt Q) 0 := ⟨rfl, rfl, rfl, uncorrelated_smul (by norm_num)⟩

/-- A message with a reading. -/
noncomputable def readMsg (t : Int) (i : Fin 15) (z r : ℝ) : Meas (ekfCore plainPar) :=
  ⟨t, "gyro", readOf i z r, fun _ : Fin 6 => (0 : ℝ), 0⟩

theorem readMsg_reads (t : Int) {i : Fin 15} (hi : Held i) (z : ℝ) {r : ℝ} (hr : 1e-9 ≤ r) :
    MeasReads (readMsg t i z r) ⟨t, i, z, r⟩ := ⟨rfl, hi, readOf_reads i z hr⟩

/-- Two readings of a rate or acceleration, a second apart, leave a filter that starts from zero finite. -/
theorem two_readings_finite {Q : Mat15} (hQ : Q.PosSemidef) {i j : Fin 15} (hi : Held i) (z z' : ℝ) {r r' : ℝ}
    (hr : 1e-9 ≤ r) (hr' : 1e-9 ≤ r') :
    ∃ x, ([readMsg 0 i z r, readMsg 1000000000 j z' r'].foldl Filt.processMeasurement (idleFilt Q)).x = some x := by
  have hreads := readOf_reads i z hr
  have hreads' := readOf_reads j z' hr'
  have hne : i ≠ iPitch := fun e => hi.not_angular (Or.inr (Or.inl e))
  let x1 : State := fun k => if (readOf i z r).upd k then ((readOf i z r).z k).val else (0 : State) k
  let P1 : Mat15 := initCov (readOf i z r) ((1e-3 : ℝ) • (1 : Mat15))
  have hu : Uncorrelated ((1e-3 : ℝ) • (1 : Mat15)) := uncorrelated_smul (by norm_num)
  have hP1 : P1.PosSemidef := initCov_psd hreads.good hu.1 hu.2
  have e1 : (idleFilt Q).processMeasurement (readMsg 0 i z r) = { idleFilt Q with
      x := some x1, cov := P1, initialized := true, lastTime := 0 } := by
    have : initState (readOf i z r) 0 = some x1 := if_pos fun _ _ => rfl
    show ({ idleFilt Q with x := initState (readOf i z r) 0, cov := P1, initialized := true, lastTime := 0 } : Filt _) = _
    rw [this]
  have hp0 : x1 iPitch = 0 := by
    show (if decide (iPitch = i) then z else (0 : ℝ)) = 0
    rw [if_neg]
    simpa using fun e => hne e.symm
  have hcos : Real.cos (x1 iPitch) ≠ 0 := by rw [hp0, Real.cos_zero]; norm_num
  cases hpr : Ekf.predict plainPar Q (fun _ => 0) 0 1000000000 (toSec 1000000000) x1 P1 with
  | none => rw [Ekf.predict, if_neg hcos] at hpr; exact absurd hpr (by simp)
  | some y =>
    have hy : y.2.PosSemidef := predict_psd hQ (by simp [plainPar, demoPar]) (toSec_nonneg (by norm_num)) hP1
      (x' := y.1) hpr
    obtain ⟨w, hco⟩ : ∃ w, Ekf.correct (readOf j z' r') y.1 y.2 = some w :=
      ⟨_, correct_one j hreads'.indices hreads'.certain y.1 hy⟩
    refine ⟨w.1, ?_⟩
    · rw [List.foldl_cons, e1, List.foldl_cons, List.foldl_nil]
      show (match ((match (Ekf.predict plainPar Q (fun _ => 0) 0 1000000000 (toSec 1000000000) x1 P1) with
        | some r => ((some r.1, r.2, ()) : Option State × Mat15 × Unit) | none => (none, P1, ())).1.bind fun x =>
          Ekf.correct (readOf j z' r') x (match (Ekf.predict plainPar Q (fun _ => 0) 0 1000000000 (toSec 1000000000) x1 P1) with
        | some r => ((some r.1, r.2, ()) : Option State × Mat15 × Unit) | none => (none, P1, ())).2.1) with
        | some r => ((some r.1, r.2, ()) : Option State × Mat15 × Unit) | none => _).1 = _
      rw [hpr]
      show (match Ekf.correct (readOf j z' r') y.1 y.2 with
        | some r => ((some r.1, r.2, ()) : Option State × Mat15 × Unit) | none => _).1 = _
      rw [hco]

/-- Yaw rates 2 and 4, with variances 1 and 3: the estimate is 5/2, of variance 3/4. -/
example : ∃ x : State, ([readMsg 0 iVyaw 2 1, readMsg 1000000000 iVyaw 4 3].foldl Filt.processMeasurement (idleFilt 0)).x =
      some x ∧ x iVyaw = 5 / 2 ∧
    (show Mat15 from ([readMsg 0 iVyaw 2 1, readMsg 1000000000 iVyaw 4 3].foldl Filt.processMeasurement (idleFilt 0)).cov)
      iVyaw iVyaw = 3 / 4 := by
  have hi : Held iVyaw := by unfold Held; decide
  obtain ⟨x, hx⟩ := two_readings_finite (Q := 0) PosSemidef.zero (i := iVyaw) (j := iVyaw) hi 2 4
    (r := 1) (r' := 3) (by norm_num) (by norm_num)
  obtain ⟨h1, h2⟩ := C128_mean (by simp [plainPar]) PosSemidef.zero (fun _ _ _ _ => rfl) (fun _ _ _ _ _ => rfl)
    (idleFilt_unheard 0) (readMsg_reads 0 hi 2 (r := 1) (by norm_num))
    (.cons (readMsg_reads 1000000000 hi 4 (r := 3) (by norm_num)) .nil) hx rfl
  refine ⟨x, hx, ?_, ?_⟩
  · rw [h1]; norm_num [readingsOf, average, valueSum, weightSum]
  · rw [h2]; norm_num [readingsOf, weightSum]

/-- After a first message about the yaw rate, a reading 1 of the forward acceleration with variance 1e-3, equal to the
initial variance, moves the estimate half way from the initial 0; with process noise, further. -/
example : ∃ x : State, ([readMsg 0 iVyaw 2 1, readMsg 1000000000 iAx 1 1e-3].foldl Filt.processMeasurement (idleFilt 0)).x =
      some x ∧ x iAx = 1 / 2 ∧
    ∃ x' : State, ([readMsg 0 iVyaw 2 1, readMsg 1000000000 iAx 1 1e-3].foldl Filt.processMeasurement (idleFilt defaultQ)).x =
      some x' ∧ |x' iAx - 1| ≤ 1 / 11 := by
  have hi : Held iVyaw := by unfold Held; decide
  have hj : Held iAx := by unfold Held; decide
  have hQ : HeldApart defaultQ := fun i j _ _ hij => Matrix.diagonal_apply_ne _ hij
  obtain ⟨x, hx⟩ := two_readings_finite (Q := 0) PosSemidef.zero (i := iVyaw) (j := iAx) hi 2 1
    (r := 1) (r' := 1e-3) (by norm_num) (by norm_num)
  obtain ⟨x', hx'⟩ := two_readings_finite defaultQ_psd (i := iVyaw) (j := iAx) hi 2 1
    (r := 1) (r' := 1e-3) (by norm_num) (by norm_num)
  refine ⟨x, hx, ?_, x', hx', ?_⟩
  · have h1 := C128_slow_partial (by simp [plainPar]) PosSemidef.zero (fun _ _ _ _ => rfl) (fun _ _ _ _ _ => rfl)
      (idleFilt_unheard 0) (readMsg_reads 0 hi 2 (r := 1) (by norm_num))
      (.cons (readMsg_reads 1000000000 hj 1 (r := 1e-3) (by norm_num)) .nil) hx hj (by decide) rfl
      (by norm_num [idleFilt]) (z := 1) (r := 1e-3) (by norm_num) (n := 1) rfl
    have h2 : (show Mat15 from (idleFilt 0).cov) iAx iAx = 1e-3 := by simp [idleFilt]
    rw [h2] at h1
    norm_num at h1
    linarith
  · have h1 := C128_converges (by simp [plainPar]) defaultQ_psd (by simp [plainPar, demoPar]) hQ
      (idleFilt_unheard defaultQ) (readMsg_reads 0 hi 2 (r := 1) (by norm_num))
      (.cons (readMsg_reads 1000000000 hj 1 (r := 1e-3) (by norm_num)) .nil) hx' hj (z := 1) (r := 1e-3)
      (by simp) (δ := 1000000000) (by norm_num) (by simp [Spaced]) (by norm_num)
    rw [if_neg (by decide)] at h1
    refine h1.trans ?_
    have h3 : defaultQ iAx iAx = 0.01 := by simp [defaultQ, iAx]
    rw [h3]
    norm_num [toSec]

end RL
