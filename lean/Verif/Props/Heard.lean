import Verif.Props.Gate
/-! # C123: a sensor that was rejected is heard again -/

namespace RL
open Matrix Real

variable {p : FilterPar}

/-- What is known of the filter. -/
structure Known (f : Filt (ekfCore p)) (x : State) (M Q : Mat15) (l : Int) : Prop where
  init : f.initialized = true
  state : f.x = some x
  cov : f.cov = M
  noise : f.par = Q
  time : f.lastTime = l

/-- The time of the last message. -/
def lastOf (l : Int) : List Int → Int
  | [] => l
  | t :: ts => lastOf t ts

theorem lastOf_append (l : Int) (ts : List Int) (t : Int) : lastOf l (ts ++ [t]) = t := by
  induction ts generalizing l with
  | nil => rfl
  | cons s ts ih => exact ih s

theorem restFold_append (x : State) (N M : Mat15) (l : Int) (ts : List Int) (t : Int) :
    restFold x N M l (ts ++ [t]) = restCov x N (restFold x N M l ts) (t - lastOf l ts) := by
  induction ts generalizing M l with
  | nil => rfl
  | cons s ts ih => exact ih _ s

theorem restCov_psd {x : State} {N M : Mat15} (hN : N.PosSemidef) (hM : M.PosSemidef) {d : Int} (hd : 0 ≤ d) :
    (restCov x N M d).PosSemidef := (psd_congr hM _).add (hN.smul (toSec_nonneg hd))

theorem restFold_psd {x : State} {N M : Mat15} (hN : N.PosSemidef) (hM : M.PosSemidef) {l : Int} {ts : List Int} (h : Passing l ts) :
    (restFold x N M l ts).PosSemidef := by
  induction ts generalizing M l with
  | nil => exact hM
  | cons t ts ih =>
    obtain ⟨h1, h2⟩ := h.tail
    exact ih (restCov_psd hN hM (by omega)) h2

/-- The filter at rest when a message comes. -/
theorem rest_ready (hc : ∀ c, p.ctlUpd c = false) {f : Filt (ekfCore p)} {x : State} {M Q : Mat15} {l : Int} (h : Known f x M Q l)
    (hr : AtRest x) (hp : cos (x 4) ≠ 0) (m : Meas (ekfCore p)) (hl : l ≤ m.time) :
    (f.ready m).x = some (if l < m.time then wrapStateAngles x else x) ∧
      (f.ready m).cov = restCov x (noiseQ p Q x) M (m.time - l) := by
  unfold Filt.ready
  rw [h.time]
  by_cases hlt : l < m.time
  · rw [if_pos hlt, if_pos hlt]
    have e : (ekfCore p).predict f.par f.ctl f.ctlTime m.time (m.time - l) (f.x, f.cov, f.ext) =
        (some (wrapStateAngles x), restCov x (noiseQ p Q x) M (m.time - l), ()) := by
      have h1 : (ekfCore p).predict f.par f.ctl f.ctlTime m.time (m.time - l) (f.x, f.cov, f.ext) =
        (ekfCore p).predict Q f.ctl f.ctlTime m.time (m.time - l) (some x, M, ()) := by
          rw [h.state, h.cov, h.noise]
          rfl
      rw [h1]
      have := rest_predict_ekf hc hr hp (toSec (m.time - l)) M Q f.ctl f.ctlTime m.time
      show (match Ekf.predict p Q f.ctl f.ctlTime m.time (toSec (m.time - l)) x M with
        | some r => (some r.1, r.2, ())
        | none => (none, M, ())) = _
      rw [this]
      rfl
    exact ⟨congrArg Prod.fst e, congrArg (fun r => r.2.1) e⟩
  · rw [if_neg hlt, if_neg hlt]
    have : m.time - l = 0 := by omega
    refine ⟨h.state, h.cov.trans ?_⟩
    rw [this]
    unfold restCov
    rw [show toSec 0 = 0 by simp [toSec], transferF_zero]
    simp
    rfl

theorem lastOf_le {l t : Int} {ts : List Int} (h : Passing l (ts ++ [t])) : lastOf l ts ≤ t := by
  induction ts generalizing l with
  | nil => exact h.le (by simp)
  | cons s ts ih => exact ih h.tail.2

theorem sanitize_floor (v : ℝ) : 1e-9 ≤ sanitize v := by
  unfold sanitize
  dsimp only
  split <;> split <;> linarith

section
variable {f : Filt (ekfCore p)} {x y : State} {M Q : Mat15} {l : Int} {i : Fin 15} {m : Meas (ekfCore p)}

theorem wrap_other (x : State) (hang : ¬ angular i) : wrapStateAngles x i = x i := if_neg hang

theorem sanitize_pos (v : ℝ) : 0 < sanitize v := by
  unfold sanitize
  dsimp only
  split <;> split <;> linarith

/-- The correction of the filter, given its estimate when the message comes. -/
theorem process_of {y' : State} {P : Mat15} (hi : f.initialized = true) (ho : f.lastTime ≤ m.time) (g1 : (f.ready m).x = some y')
    (g2 : (f.ready m).cov = P) {r : State × Mat15} (hcor : Ekf.correct m.z y' P = some r) :
    (f.processMeasurement m).x = some r.1 ∧ (f.processMeasurement m).cov = r.2 := by
  obtain ⟨e1, e2, -, -, -⟩ := process_ready hi ho
  have e : (ekfCore p).correct m.z ((f.ready m).x, (f.ready m).cov, (f.ready m).ext) = (some r.1, r.2, ()) := by
    rw [g1, g2]
    show (match Ekf.correct m.z y' P with
        | some r => (some r.1, r.2, ())
        | none => (none, P, ())) = _
    rw [hcor]
  exact ⟨e1.trans (congrArg Prod.fst e), e2.trans (congrArg (fun r => r.2.1) e)⟩

theorem rejected_same {z : Payload} {y : State} {P : Mat15} (hP : P.PosSemidef) (hi : z.indices = [i]) (hang : ¬ angular i)
    (hrej : ¬ z.Passes y P) : Ekf.correct z y P = some (y, P) := by
  have h0 : P i i + sanitize (z.R i i) ≠ 0 := by
    have h1 : 0 ≤ P i i := hP.diag_nonneg
    have := sanitize_pos (z.R i i)
    linarith
  obtain ⟨-, hdet⟩ := mahalanobis_one (m := z) i hi hang y P h0
  cases ht : z.thresh with
  | unlimited => exact absurd (fun θ hθ => by rw [ht] at hθ; cases hθ) hrej
  | sigmas θ =>
    unfold Ekf.correct
    rw [ht]
    refine (C06_gate _ _ _ θ y P hdet).2 (not_lt.1 fun hlt => hrej fun θ' hθ' => ?_)
    rw [ht] at hθ'
    obtain rfl := Thresh.sigmas.inj hθ'
    exact hlt

/-- A message that is rejected leaves the filter at rest. -/
theorem rest_rejected (hc : ∀ c, p.ctlUpd c = false) (h : Known f y M Q l) (hr : AtRest y) (hp : cos (y 4) ≠ 0)
    (hl : l ≤ m.time) (hN : (noiseQ p Q y).PosSemidef) (hM : M.PosSemidef) (hi : Payload.indices m.z = [i]) (hang : ¬ angular i)
    (hrej : ¬ Payload.Passes m.z (if l < m.time then wrapStateAngles y else y) (restCov y (noiseQ p Q y) M (m.time - l))) :
    Known (f.processMeasurement m) (if l < m.time then wrapStateAngles y else y) (restCov y (noiseQ p Q y) M (m.time - l)) Q m.time := by
  have ho : f.lastTime ≤ m.time := by rw [h.time]; exact hl
  obtain ⟨-, -, e3, e4, e5⟩ := process_ready h.init ho
  obtain ⟨g1, g2⟩ := rest_ready hc h hr hp m hl
  obtain ⟨a, b⟩ := process_of h.init ho g1 g2 (rejected_same (restCov_psd hN hM (by omega)) hi hang hrej)
  exact ⟨e4, a, b, e3.trans h.noise, e5⟩

/-- A message that is used moves the variable towards the value it states. -/
theorem rest_used (hc : ∀ c, p.ctlUpd c = false) (h : Known f y M Q l) (hr : AtRest y) (hp : cos (y 4) ≠ 0)
    (hl : l ≤ m.time) (hN : (noiseQ p Q y).PosSemidef) (hM : M.PosSemidef) (hg : Payload.GoodR m.z)
    (hi : Payload.indices m.z = [i]) (hang : ¬ angular i)
    (hpass : Payload.Passes m.z (if l < m.time then wrapStateAngles y else y) (restCov y (noiseQ p Q y) M (m.time - l))) :
    ∃ w, (f.processMeasurement m).x = some w ∧
      w i = y i + restCov y (noiseQ p Q y) M (m.time - l) i i *
        (restCov y (noiseQ p Q y) M (m.time - l) i i + sanitize ((m.z : Payload).R i i))⁻¹ * (((m.z : Payload).z i).val - y i) := by
  have ho : f.lastTime ≤ m.time := by rw [h.time]; exact hl
  obtain ⟨g1, g2⟩ := rest_ready hc h hr hp m hl
  have hyi : (if l < m.time then wrapStateAngles y else y) i = y i := by
    split
    · exact wrap_other y hang
    · rfl
  have hcert : Payload.Certain (Payload.ungated m.z) := by
    refine ⟨rfl, hg, ?_⟩
    show (subR (Payload.indices m.z).get (m.z : Payload).R).det ≠ 0
    rw [hi]
    show Matrix.det (n := Fin 1) _ ≠ 0
    rw [Matrix.det_fin_one]
    simp only [subR, Matrix.of_apply, if_true]
    exact (sanitize_pos _).ne'
  have hcor := correct_one (m := Payload.ungated m.z) i hi hcert (if l < m.time then wrapStateAngles y else y)
    (restCov_psd (x := y) hN hM (show 0 ≤ m.time - l by omega))
  rw [← passes_ungated hpass] at hcor
  obtain ⟨a, -⟩ := process_of h.init ho g1 g2 hcor
  refine ⟨_, a, ?_⟩
  dsimp only
  rw [wrap_other _ hang, if_neg (show ¬ (i = iRoll ∨ i = iPitch ∨ i = iYaw) from hang), hyi]
  rfl

/-- The same estimate, angles perhaps written differently. -/
def Rewritten (x y : State) : Prop := y = x ∨ y = wrapStateAngles x

theorem Rewritten.facts {x y : State} (h : Rewritten x y) (hr : AtRest x) (hp : cos (x 4) ≠ 0) (Q : Mat15) (hang : ¬ angular i) :
    AtRest y ∧ cos (y 4) ≠ 0 ∧ noiseQ p Q y = noiseQ p Q x ∧ (∀ N M d, restCov y N M d = restCov x N M d) ∧ y i = x i := by
  rcases h with rfl | rfl
  · exact ⟨hr, hp, rfl, fun _ _ _ => rfl, rfl⟩
  · refine ⟨wrap_rest hr, ?_, noise_wrap Q x, fun N M d => restCov_wrap x N M d, wrap_other x hang⟩
    obtain ⟨k, hk⟩ := (wrap_upToTurns x 4).1 (Or.inr (Or.inl rfl))
    rw [hk, cos_add_int_mul_two_pi]
    exact hp

theorem Rewritten.step {x y : State} (h : Rewritten x y) (b : Prop) [Decidable b] : Rewritten x (if b then wrapStateAngles y else y) := by
  split
  · rcases h with rfl | rfl
    · exact Or.inr rfl
    · exact Or.inr (wrap_wrap x)
  · exact h

/-- The first message that is used, or none is. -/
theorem rest_until (hc : ∀ c, p.ctlUpd c = false) (hr : AtRest x) (hp : cos (x 4) ≠ 0) (hN : (noiseQ p Q x).PosSemidef)
    (hang : ¬ angular i) (ms : List (Meas (ekfCore p))) (hms : ∀ m ∈ ms, Payload.indices m.z = [i])
    (f : Filt (ekfCore p)) (y : State) (hy : Rewritten x y) (M : Mat15) (hM : M.PosSemidef) (l : Int)
    (ht : Passing l (ms.map Meas.time)) (h : Known f y M Q l) :
    (∃ a m b y', ms = a ++ m :: b ∧ Rewritten x y' ∧
      Known (a.foldl Filt.processMeasurement f) y' (restFold x (noiseQ p Q x) M l (a.map Meas.time)) Q (lastOf l (a.map Meas.time)) ∧
      Payload.Passes m.z (if lastOf l (a.map Meas.time) < m.time then wrapStateAngles y' else y')
        (restFold x (noiseQ p Q x) M l (a.map Meas.time ++ [m.time]))) ∨
    (∀ a m b, ms = a ++ m :: b → ∃ y', Rewritten x y' ∧
      Known (a.foldl Filt.processMeasurement f) y' (restFold x (noiseQ p Q x) M l (a.map Meas.time)) Q (lastOf l (a.map Meas.time)) ∧
      ¬ Payload.Passes m.z (if lastOf l (a.map Meas.time) < m.time then wrapStateAngles y' else y')
        (restFold x (noiseQ p Q x) M l (a.map Meas.time ++ [m.time]))) := by
  induction ms generalizing f y M l with
  | nil => exact Or.inr fun a m b h => by simp at h
  | cons m ms ih =>
    obtain ⟨h1, h2⟩ := ht.tail
    obtain ⟨f1, f2, f3, f4, f5⟩ := hy.facts (p := p) hr hp Q hang
    by_cases hpass : Payload.Passes m.z (if l < m.time then wrapStateAngles y else y) (restCov x (noiseQ p Q x) M (m.time - l))
    · exact Or.inl ⟨[], m, ms, y, rfl, hy, h, hpass⟩
    · have hk := rest_rejected hc h f1 f2 h1 (by rw [f3]; exact hN) hM (hms m (by simp)) hang (by rw [f3, f4]; exact hpass)
      rw [f3, f4] at hk
      rcases ih (fun m' hm' => hms m' (by simp [hm'])) _ _ (hy.step _) _ (restCov_psd hN hM (by omega)) _ h2 hk with
        ⟨a, m', b, y', e, g1, g2, g3⟩ | g
      · exact Or.inl ⟨m :: a, m', b, y', by rw [e]; rfl, g1, g2, g3⟩
      · refine Or.inr fun a m' b e => ?_
        cases a with
        | nil =>
          obtain ⟨rfl, rfl⟩ := List.cons.inj e
          exact ⟨y, hy, h, hpass⟩
        | cons m0 a =>
          obtain ⟨rfl, e'⟩ := List.cons.inj e
          exact g a m' b e'

end

/-- **C123**: the filter is at rest and a sensor states one variable, each message with whatever value, variance and
threshold.  If the last message is nearer than `θ` times what the process noise alone has made of the variance since the
beginning, then not all were rejected: the first message that is used moves the variable towards the value it states, and
all before it left it as it was. -/
theorem C123_heard (hc : ∀ c, p.ctlUpd c = false) {q : Fin 15 → ℝ} (hq : ∀ i, 0 ≤ q i) {f : Filt (ekfCore p)} {x : State} {M : Mat15}
    {l : Int} (hf : Known f x M (diagonal q) l) (hM : M.PosSemidef) (hr : AtRest x) (hp : cos (x 4) ≠ 0) {i : Fin 15}
    (hang : ¬ angular i) (ms : List (Meas (ekfCore p))) (m : Meas (ekfCore p))
    (hms : ∀ m' ∈ ms ++ [m], Payload.indices m'.z = [i] ∧ Payload.GoodR m'.z) (ht : Passing l ((ms ++ [m]).map Meas.time))
    {θ : ℝ} (hθ : (m.z : Payload).thresh = .sigmas θ)
    (hnear : (((m.z : Payload).z i).val - x i) ^ 2 <
      θ * θ * (toSec (m.time - l) * noiseQ p (diagonal q) x i i + max ((m.z : Payload).R i i) 1e-9)) :
    ∃ a m' b y w g, ms ++ [m] = a ++ m' :: b ∧ (a.foldl Filt.processMeasurement f).x = some y ∧ UpToTurns y x ∧ y i = x i ∧
      ((a ++ [m']).foldl Filt.processMeasurement f).x = some w ∧ w i = x i + g * (((m'.z : Payload).z i).val - x i) ∧ 0 ≤ g ∧ g < 1 ∧
      (l < m'.time → 0 < noiseQ p (diagonal q) x i i → 0 < g) := by
  obtain ⟨r, hN, hr0, -⟩ := noise_diagonal (p := p) x hq
  have hNP : (noiseQ p (diagonal q) x).PosSemidef := by rw [hN]; exact PosSemidef.diagonal hr0
  -- what the process noise makes of the variance
  have hvar : ∀ (ts : List Int) (t : Int), Passing l (ts ++ [t]) →
      toSec (t - l) * noiseQ p (diagonal q) x i i ≤ restFold x (noiseQ p (diagonal q) x) M l (ts ++ [t]) i i := by
    intro ts t hts
    rw [hN]
    refine le_trans ?_ (fold_ge x hr0 t ts M l hts i)
    have h1 : 0 ≤ (transferF x (toSec (t - l)) * M * (transferF x (toSec (t - l)))ᵀ) i i := (psd_congr hM _).diag_nonneg
    rw [restCov, Matrix.add_apply, Matrix.smul_apply, smul_eq_mul]
    linarith
  have hsub : ∀ a (m' : Meas (ekfCore p)) b, ms ++ [m] = a ++ m' :: b → Passing l (a.map Meas.time ++ [m'.time]) := by
    intro a m' b e
    rw [e] at ht
    unfold Passing at ht ⊢
    refine ht.sublist ?_
    simp
  rcases rest_until hc hr hp hNP hang (ms ++ [m]) (fun m' h => (hms m' h).1) f x (Or.inl rfl) M hM l ht hf with
    ⟨a, m', b, y, e, hy, hk, hpass⟩ | hnone
  · obtain ⟨f1, f2, f3, f4, f5⟩ := hy.facts (p := p) hr hp (diagonal q) hang
    have hmem : m' ∈ ms ++ [m] := by rw [e]; simp
    have hpas := hsub a m' b e
    have hPa : (restFold x (noiseQ p (diagonal q) x) M l (a.map Meas.time)).PosSemidef :=
      restFold_psd hNP hM (hpas.sublist (by simp))
    have hlast : lastOf l (a.map Meas.time) ≤ m'.time := lastOf_le hpas
    have hPP : (restFold x (noiseQ p (diagonal q) x) M l (a.map Meas.time ++ [m'.time])).PosSemidef := restFold_psd hNP hM hpas
    have hv := hvar _ _ hpas
    have hpass' := hpass
    rw [restFold_append] at hpass' hPP hv
    obtain ⟨w, hw, hwi⟩ := rest_used hc hk f1 f2 hlast (by rw [f3]; exact hNP) hPa (hms m' hmem).2 (hms m' hmem).1 hang
      (by rw [f3, f4]; exact hpass')
    rw [f3, f4, f5] at hwi
    have h0 : 0 ≤ restCov x (noiseQ p (diagonal q) x) (restFold x (noiseQ p (diagonal q) x) M l (a.map Meas.time))
      (m'.time - lastOf l (a.map Meas.time)) i i := hPP.diag_nonneg
    have hs := sanitize_pos ((m'.z : Payload).R i i)
    obtain ⟨V, hV⟩ : ∃ V, V = restCov x (noiseQ p (diagonal q) x) (restFold x (noiseQ p (diagonal q) x) M l (a.map Meas.time))
      (m'.time - lastOf l (a.map Meas.time)) i i := ⟨_, rfl⟩
    rw [← hV] at hwi h0 hv
    refine ⟨a, m', b, y, w, V * (V + sanitize ((m'.z : Payload).R i i))⁻¹, e, hk.state, ?_, f5, by rw [List.foldl_append]; exact hw,
      hwi, by positivity, ?_, fun h1 h2 => ?_⟩
    · rcases hy with rfl | rfl
      · exact UpToTurns.refl _
      · exact wrap_upToTurns x
    · rw [← div_eq_mul_inv, div_lt_one (by linarith)]
      linarith
    · have := mul_pos (toSec_pos_of (show 0 < m'.time - l by omega)) h2
      have hVp : 0 < V := by linarith
      positivity
  · exfalso
    obtain ⟨y, hy, hk, hrej⟩ := hnone ms m [] rfl
    obtain ⟨f1, f2, f3, f4, f5⟩ := hy.facts (p := p) hr hp (diagonal q) hang
    have hpas := hsub ms m [] rfl
    have hv := hvar _ _ hpas
    have hPP := restFold_psd (x := x) hNP hM hpas
    refine hrej fun θ' hθ' => ?_
    rw [hθ] at hθ'
    obtain rfl := Thresh.sigmas.inj hθ'
    obtain ⟨V, hV⟩ : ∃ V, V = restFold x (noiseQ p (diagonal q) x) M l (ms.map Meas.time ++ [m.time]) := ⟨_, rfl⟩
    rw [← hV] at hv hPP ⊢
    have h0 : 0 ≤ V i i := hPP.diag_nonneg
    have hs := sanitize_pos ((m.z : Payload).R i i)
    unfold Payload.distSq
    rw [(mahalanobis_one (m := m.z) i (hms m (by simp)).1 hang _ V (by linarith)).1]
    have hyi : (if lastOf l (ms.map Meas.time) < m.time then wrapStateAngles y else y) i = x i := by
      rw [← f5]
      split
      · exact wrap_other y hang
      · rfl
    rw [hyi, div_lt_iff₀ (by linarith)]
    refine lt_of_lt_of_le hnear (mul_le_mul_of_nonneg_left ?_ (mul_self_nonneg θ))
    have : max ((m.z : Payload).R i i) 1e-9 ≤ sanitize ((m.z : Payload).R i i) :=
      max_le (sanitize_ge _) (sanitize_floor _)
    linarith

/-- C123 for a sensor that goes on: as long as its values stay within some bound, however far from the estimate, and the
process noise of the variable is not zero, one of its messages is used. -/
theorem C123_eventually (hc : ∀ c, p.ctlUpd c = false) {q : Fin 15 → ℝ} (hq : ∀ i, 0 ≤ q i) {f : Filt (ekfCore p)} {x : State} {M : Mat15}
    {l : Int} (hf : Known f x M (diagonal q) l) (hM : M.PosSemidef) (hr : AtRest x) (hp : cos (x 4) ≠ 0) {i : Fin 15}
    (hang : ¬ angular i) (hN : 0 < noiseQ p (diagonal q) x i i) (s : ℕ → Meas (ekfCore p)) {θ B : ℝ} (hθ : θ ≠ 0)
    (hs : ∀ n, Payload.indices (s n).z = [i] ∧ Payload.GoodR (s n).z ∧ ((s n).z : Payload).thresh = .sigmas θ ∧
      |(((s n).z : Payload).z i).val - x i| ≤ B)
    (h0 : l ≤ (s 0).time) (hmono : ∀ n, (s n).time ≤ (s (n + 1)).time) (htime : ∀ T, ∃ n, T ≤ (s n).time) :
    ∃ n y w g, (((List.range n).map s).foldl Filt.processMeasurement f).x = some y ∧ UpToTurns y x ∧ y i = x i ∧
      (((List.range (n + 1)).map s).foldl Filt.processMeasurement f).x = some w ∧
      w i = x i + g * ((((s n).z : Payload).z i).val - x i) ∧ 0 ≤ g ∧ g < 1 ∧ (l < (s n).time → 0 < g) := by
  have hB : 0 ≤ B := le_trans (abs_nonneg _) (hs 0).2.2.2
  have hθ2 : 0 < θ * θ := mul_self_pos.2 hθ
  obtain ⟨N, hNe⟩ : ∃ N, N = noiseQ p (diagonal q) x i i := ⟨_, rfl⟩
  -- a message late enough
  obtain ⟨n, hn⟩ := htime (l + ⌈B ^ 2 / (θ * θ) / N * 1e9⌉)
  have hlate : B ^ 2 ≤ θ * θ * (toSec ((s n).time - l) * N) := by
    have h1 : B ^ 2 / (θ * θ) / N * 1e9 ≤ (((s n).time - l : Int) : ℝ) :=
      (Int.le_ceil _).trans (by exact_mod_cast (by omega : ⌈B ^ 2 / (θ * θ) / N * 1e9⌉ ≤ (s n).time - l))
    have h2 : B ^ 2 / (θ * θ) / N ≤ toSec ((s n).time - l) := by
      unfold toSec
      linarith
    rw [hNe] at h2 ⊢
    rw [div_le_iff₀ hN, div_le_iff₀ hθ2] at h2
    linarith
  have hm : Monotone fun n => (s n).time := monotone_nat_of_le_succ hmono
  have hrange : (List.range n).map s ++ [s n] = (List.range (n + 1)).map s := by
    rw [List.range_succ, List.map_append, List.map_singleton]
  have hpass : Passing l (((List.range n).map s ++ [s n]).map Meas.time) := by
    rw [hrange]
    unfold Passing
    rw [List.pairwise_cons]
    constructor
    · intro t ht
      simp only [List.map_map, List.mem_map] at ht
      obtain ⟨k, -, rfl⟩ := ht
      exact h0.trans (hm (Nat.zero_le k))
    · rw [List.map_map, List.pairwise_map]
      exact List.pairwise_lt_range.imp fun h => hm h.le
  obtain ⟨a, m', b, y, w, g, e, g1, g2, g3, g4, g5, g6, g7, g8⟩ := C123_heard hc hq hf hM hr hp hang ((List.range n).map s) (s n)
    (fun m' hm' => by
      rw [hrange] at hm'
      obtain ⟨k, -, rfl⟩ := List.mem_map.1 hm'
      exact ⟨(hs k).1, (hs k).2.1⟩) hpass (hs n).2.2.1 (by
      have h1 := sq_le_sq' (neg_le_of_abs_le (hs n).2.2.2) (le_of_abs_le (hs n).2.2.2)
      refine lt_of_le_of_lt (h1.trans hlate) ?_
      rw [← hNe]
      refine mul_lt_mul_of_pos_left ?_ hθ2
      have : (0 : ℝ) < max (((s n).z : Payload).R i i) 1e-9 := lt_of_lt_of_le (by norm_num) (le_max_right _ _)
      linarith)
  rw [hrange] at e
  have hlen : a.length ≤ n := by
    have := congrArg List.length e
    simp at this
    omega
  have ha : a = (List.range a.length).map s := by
    have := congrArg (List.take a.length) e
    rw [List.take_left, ← List.map_take, List.take_range, min_eq_left (by omega)] at this
    exact this.symm
  have hm' : m' = s a.length := by
    have := congrArg (fun t => t[a.length]?) e
    simp only [List.getElem?_append_right (le_refl _), Nat.sub_self] at this
    rw [List.getElem?_map, List.getElem?_range (by omega)] at this
    simpa using this.symm
  subst hm'
  refine ⟨a.length, y, w, g, ha ▸ g1, g2, g3, ?_, g5, g6, g7, fun h => g8 h hN⟩
  rw [List.range_succ, List.map_append, List.map_singleton, ← ha]
  exact g4

/-! ## Where it fails, and an example -/

/-- A filter that is sure of where it is, except for one metre along x, with the given process noise. -/
noncomputable def settled (Q : Mat15) : Filt (ekfCore plainPar) :=
  { unsure with cov := (vecMulVec (Pi.single iX 1) (Pi.single iX 1) : Mat15), par := Q }

theorem settled_known (Q : Mat15) : Known (settled Q) 0 (vecMulVec (Pi.single iX 1) (Pi.single iX 1)) Q 0 := ⟨rfl, rfl, rfl, rfl, rfl⟩

theorem settled_psd : (vecMulVec (Pi.single iX 1) (Pi.single iX 1) : Mat15).PosSemidef := by
  have := posSemidef_vecMulVec_self_star (Pi.single iX 1 : State)
  simpa using this

/-- C123 needs process noise: without it, messages that are three metres off, with a standard deviation of one metre, are
rejected at two sigmas for ever, at whatever times and however many they are. -/
theorem C123_deaf (ms : List (Meas (ekfCore plainPar))) (hms : ∀ m ∈ ms, m.z = oneVar iX 3 (.sigmas 2))
    (ht : Passing 0 (ms.map Meas.time)) : (ms.foldl Filt.processMeasurement (settled 0)).x = some (0 : State) := by
  have hang : ¬ angular iX := by unfold angular; decide
  have hw : wrapStateAngles 0 = 0 := by
    funext i
    unfold wrapStateAngles
    split
    · exact normalizeAngle_zero
    · rfl
  have hN : noiseQ plainPar 0 0 = 0 := rfl
  have hfix : ∀ d : Int, restCov 0 0 (vecMulVec (Pi.single iX 1) (Pi.single iX 1)) d = vecMulVec (Pi.single iX 1) (Pi.single iX 1) := by
    intro d
    have hrest : AtRest (Pi.single iX 1 : State) := by
      intro i hi
      refine Pi.single_eq_of_ne ?_ _
      rintro rfl
      revert hi
      decide
    unfold restCov
    rw [smul_zero, add_zero, mul_vecMulVec, vecMulVec_mul, vecMul_transpose, transferF_pose 0 _ _ hrest]
  obtain ⟨M, hM⟩ : ∃ M : Mat15, M = vecMulVec (Pi.single iX 1) (Pi.single iX 1) := ⟨_, rfl⟩
  have key : ∀ (ms : List (Meas (ekfCore plainPar))) (f : Filt (ekfCore plainPar)) (l : Int), (∀ m ∈ ms, m.z = oneVar iX 3 (.sigmas 2)) →
      Passing l (ms.map Meas.time) → Known f 0 M 0 l → (ms.foldl Filt.processMeasurement f).x = some (0 : State) := by
    intro ms
    induction ms with
    | nil => exact fun f l _ _ h => h.state
    | cons m ms ih =>
      intro f l hms ht h
      obtain ⟨h1, h2⟩ := ht.tail
      have hz := hms m (by simp)
      have hy : (if l < m.time then wrapStateAngles (0 : State) else 0) = 0 := by rw [hw]; simp
      have hk := rest_rejected (i := iX) (fun _ => rfl) h zero_atRest (by simp) h1 (by rw [hN]; exact PosSemidef.zero)
        (by rw [hM]; exact settled_psd) (by rw [hz]; exact oneVar_indices _ _ _) hang (by
          rw [hy, hN, hM, hfix, hz]
          intro hpass
          have := hpass 2 rfl
          unfold Payload.distSq at this
          have h0 : (vecMulVec (Pi.single iX 1) (Pi.single iX 1) : Mat15) iX iX + sanitize ((oneVar iX 3 (.sigmas 2)).R iX iX) = 2 := by
            show (vecMulVec (Pi.single iX 1) (Pi.single iX 1) : Mat15) iX iX + sanitize ((1 : Mat15) iX iX) = 2
            rw [Matrix.one_apply_eq, sanitize_one, vecMulVec_apply, Pi.single_eq_same]
            norm_num
          rw [(mahalanobis_one iX (oneVar_indices iX 3 (.sigmas 2)) hang 0 _ (by rw [h0]; norm_num)).1, h0] at this
          simp only [oneVar, Dbl.val, Pi.zero_apply] at this
          norm_num at this)
      rw [hy, hN, hM, hfix, ← hM] at hk
      exact ih _ _ (fun m' hm' => hms m' (by simp [hm'])) h2 hk
  exact key ms _ 0 hms ht (hM ▸ settled_known 0)

/-- The same sensor, with process noise: its messages, one a second, meet what C123 asks for. -/
example : ∃ (q : Fin 15 → ℝ) (s : ℕ → Meas (ekfCore plainPar)), (∀ i, 0 ≤ q i) ∧ 0 < noiseQ plainPar (diagonal q) 0 iX iX ∧
    Known (settled (diagonal q)) 0 (vecMulVec (Pi.single iX 1) (Pi.single iX 1)) (diagonal q) 0 ∧
    (∀ n, Payload.indices (s n).z = [iX] ∧ Payload.GoodR (s n).z ∧ ((s n).z : Payload).thresh = .sigmas 2 ∧
      |(((s n).z : Payload).z iX).val - (0 : State) iX| ≤ 3) ∧ 0 ≤ (s 0).time ∧ (∀ n, (s n).time ≤ (s (n + 1)).time) ∧
    ∀ T, ∃ n, T ≤ (s n).time := by
  refine ⟨fun _ => 0.05, fun n => { unsureRead .unlimited with time := (n : Int) * 1000000000, z := oneVar iX 3 (.sigmas 2) },
    fun _ => by norm_num, ?_, settled_known _, fun n => ⟨oneVar_indices _ _ _, PosSemidef.one.submatrix _, rfl, ?_⟩, ?_, fun n => ?_, fun T => ⟨T.toNat, ?_⟩⟩
  · show 0 < (diagonal fun _ => (0.05 : ℝ) : Mat15) iX iX
    rw [diagonal_apply_eq]
    norm_num
  · simp [oneVar, Dbl.val]
  · simp
  · show (n : Int) * 1000000000 ≤ ((n + 1 : ℕ) : Int) * 1000000000
    push_cast
    omega
  · show T ≤ (T.toNat : Int) * 1000000000
    omega

end RL
