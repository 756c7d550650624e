import Verif.Props.Disagree
/-! # C135: what was told long ago is forgotten -/

namespace RL
open Matrix Real Filter

/-- One more reading brings the variances together, and the estimates up to the difference of the variances. -/
theorem told_closer {g g' : Gauge} {z r w D : ℝ} (hr : 0 < r) (hw : 0 < w) (hv : w ≤ g.var) (hv' : w ≤ g'.var)
    (hD : |z - g'.value| ≤ D) :
    |(g.told z r).var - (g'.told z r).var| ≤ (r / (r + w)) ^ 2 * |g.var - g'.var| ∧
    |(g.told z r).value - (g'.told z r).value| ≤
      r / (r + w) * |g.value - g'.value| + (r / (r + w)) ^ 2 * |g.var - g'.var| * D / r := by
  obtain ⟨x, a⟩ := g
  obtain ⟨y, b⟩ := g'
  dsimp only at hv hv' hD
  unfold Gauge.told
  dsimp only
  have hs : 0 < a + r := by linarith
  have hs' : 0 < b + r := by linarith
  have hD0 : 0 ≤ D := (abs_nonneg _).trans hD
  have k1 : r / (a + r) ≤ r / (r + w) := div_le_div_of_nonneg_left hr.le (by linarith) (by linarith)
  have k2 : r / (b + r) ≤ r / (r + w) := div_le_div_of_nonneg_left hr.le (by linarith) (by linarith)
  have k3 : r / (a + r) * (r / (b + r)) ≤ (r / (r + w)) ^ 2 := by
    rw [sq]; exact mul_le_mul k1 k2 (by positivity) (by positivity)
  constructor
  · have e : a * r / (a + r) - b * r / (b + r) = r / (a + r) * (r / (b + r)) * (a - b) := by field_simp; ring
    rw [e, abs_mul, abs_of_nonneg (by positivity)]
    exact mul_le_mul_of_nonneg_right k3 (abs_nonneg _)
  · have e : (x * r + z * a) / (a + r) - (y * r + z * b) / (b + r) =
        r / (a + r) * (x - y) + r / (a + r) * (r / (b + r)) * (a - b) * (z - y) / r := by field_simp; ring
    rw [e]
    refine (abs_add_le _ _).trans (add_le_add ?_ ?_)
    · rw [abs_mul, abs_of_nonneg (by positivity)]
      exact mul_le_mul_of_nonneg_right k1 (abs_nonneg _)
    · rw [abs_div, abs_of_pos hr, abs_mul, abs_mul, abs_of_nonneg (by positivity : 0 ≤ r / (a + r) * (r / (b + r)))]
      refine div_le_div_of_nonneg_right ?_ hr.le
      exact mul_le_mul (mul_le_mul_of_nonneg_right k3 (abs_nonneg _)) hD (abs_nonneg _) (by positivity)

theorem forget_step {dx dv dx0 dv0 D r w a ρ : ℝ} (hρ : ρ = r / (r + w)) (hr : 0 < r) (hw : 0 < w) (hD : 0 ≤ D)
    (ha : 0 < a) (ha1 : a ≤ 1) (k1 : |dv| ≤ ρ ^ 2 * |dv0|) (k2 : |dx| ≤ ρ * |dx0| + ρ ^ 2 * |dv0| * D / r) :
    a * (|dx| + |dv| * D * (1 - a) / w) ≤ a * ρ * (|dx0| + |dv0| * D * (1 - a * ρ) / w) := by
  have h1 : |dv| * D * (1 - a) / w ≤ ρ ^ 2 * |dv0| * D * (1 - a) / w := by
    refine div_le_div_of_nonneg_right ?_ hw.le
    exact mul_le_mul_of_nonneg_right (mul_le_mul_of_nonneg_right k1 hD) (by linarith)
  have h2 : ρ ^ 2 * |dv0| * D / r = ρ * (1 - ρ) * |dv0| * D / w := by
    have : ρ / r = (1 - ρ) / w := by rw [hρ]; field_simp; ring
    calc ρ ^ 2 * |dv0| * D / r = ρ * |dv0| * D * (ρ / r) := by ring
      _ = _ := by rw [this]; ring
  have h3 : |dx| + |dv| * D * (1 - a) / w ≤ ρ * (|dx0| + |dv0| * D * (1 - a * ρ) / w) := by
    refine (add_le_add k2 h1).trans (le_of_eq ?_)
    rw [h2]; ring
  calc _ ≤ a * (ρ * (|dx0| + |dv0| * D * (1 - a * ρ) / w)) := mul_le_mul_of_nonneg_left h3 ha.le
    _ = _ := by ring

/-- The same readings of `i`, all of variance `r`, bring two banks together. -/
theorem banks_meet {q : Fin 15 → ℝ} {i : Fin 15} {r lo up : ℝ} {δ : Int} (hδ : 0 ≤ δ) (hr : 0 < r)
    (hw : 0 < toSec δ * q i) : ∀ (ls : List Reading) (b b' : Bank), b.time = b'.time →
    (∀ c ∈ ls, c.of = i ∧ c.r = r ∧ Between lo up c.z) → Spaced δ b.time ls → 0 ≤ (b.of i).var → 0 ≤ (b'.of i).var →
    Between lo up (b'.of i).value →
    |((ls.foldl (Bank.take q) b).of i).value - ((ls.foldl (Bank.take q) b').of i).value| ≤
      (r / (r + toSec δ * q i)) ^ ls.length * (|(b.of i).value - (b'.of i).value| +
        |(b.of i).var - (b'.of i).var| * (up - lo) * (1 - (r / (r + toSec δ * q i)) ^ ls.length) / (toSec δ * q i)) := by
  have hsec := toSec_nonneg hδ
  have hq : 0 ≤ q i := by
    by_contra h
    have := mul_nonpos_of_nonneg_of_nonpos hsec (le_of_lt (not_le.1 h))
    linarith
  intro ls
  induction ls with
  | nil => intro b b' _ _ _ _ _ _; simp
  | cons c ls ih =>
    intro b b' ht hz hs hv hv' hbt
    obtain ⟨c1, c2, c3⟩ := hz c List.mem_cons_self
    obtain ⟨g, hg⟩ : ∃ g, g = (b.of i).later (q i) (toSec (max 0 (c.time - b.time))) := ⟨_, rfl⟩
    obtain ⟨g', hg'⟩ : ∃ g', g' = (b'.of i).later (q i) (toSec (max 0 (c.time - b'.time))) := ⟨_, rfl⟩
    have et : (b.take q c).of i = g.told c.z r := by rw [hg, ← c2]; exact if_pos c1.symm
    have et' : (b'.take q c).of i = g'.told c.z r := by rw [hg', ← c2]; exact if_pos c1.symm
    have htime : (b.take q c).time = c.time := by
      show max _ _ = _
      have := hs.1
      omega
    have htime' : (b'.take q c).time = c.time := by
      show max _ _ = _
      have := hs.1
      omega
    have h1 : toSec δ * q i ≤ toSec (max 0 (c.time - b.time)) * q i := by
      refine mul_le_mul_of_nonneg_right ?_ hq
      unfold toSec
      have : δ ≤ max 0 (c.time - b.time) := by have := hs.1; omega
      have : (δ : ℝ) ≤ ((max 0 (c.time - b.time) : Int) : ℝ) := by exact_mod_cast this
      nlinarith
    have gv : g.var = (b.of i).var + toSec (max 0 (c.time - b.time)) * q i := by rw [hg]; rfl
    have gv' : g'.var = (b'.of i).var + toSec (max 0 (c.time - b.time)) * q i := by rw [hg', ht]; rfl
    have gx : g.value = (b.of i).value := by rw [hg]; rfl
    have gx' : g'.value = (b'.of i).value := by rw [hg']; rfl
    obtain ⟨w, hwe⟩ : ∃ w, w = toSec δ * q i := ⟨_, rfl⟩
    rw [← hwe] at hw h1 ih ⊢
    have hge : w ≤ g.var := by linarith
    have hge' : w ≤ g'.var := by linarith
    have hDc : |c.z - g'.value| ≤ up - lo := by rw [gx']; exact between_dist c3 hbt
    obtain ⟨k1, k2⟩ := told_closer hr hw hge hge' hDc
    have hdv : g.var - g'.var = (b.of i).var - (b'.of i).var := by rw [gv, gv']; ring
    rw [hdv] at k1 k2
    rw [gx, gx'] at k2
    have hb2 : Between lo up (g'.told c.z r).value :=
      told_between (by linarith) hr (by rw [gx']; exact hbt) c3
    rw [List.foldl_cons, List.foldl_cons]
    refine (ih (b.take q c) (b'.take q c) (htime.trans htime'.symm) (fun c' h => hz c' (List.mem_cons_of_mem _ h))
      (htime ▸ hs.2) ?_ ?_ (by rw [et']; exact hb2)).trans ?_
    · rw [et]; unfold Gauge.told; have : 0 < g.var := by linarith
      positivity
    · rw [et']; unfold Gauge.told; have : 0 < g'.var := by linarith
      positivity
    rw [et, et', List.length_cons]
    rw [pow_succ]
    exact forget_step rfl hr hw (by linarith [hbt.1, hbt.2]) (by positivity)
      (pow_le_one₀ (by positivity) (by rw [div_le_one (by positivity)]; linarith)) k1 k2

variable {p : FilterPar} {Q : Mat15} {f : Filt (ekfCore p)} {x0 : State} {m : Meas (ekfCore p)} {d : Reading}
  {ms : List (Meas (ekfCore p))} {ds : List Reading} {x : State} {f' : Filt (ekfCore p)} {x0' : State}
  {m' : Meas (ekfCore p)} {d' : Reading} {ms' : List (Meas (ekfCore p))} {ds' : List Reading} {x' : State}
  {l l' : Meas (ekfCore p)} {ls ls' : List (Meas (ekfCore p))} {c : Reading} {cs : List Reading}

/-- C135: two filters that start anywhere and are told anything about rates and accelerations, and then get the same
readings of one of them, `δ` apart and of variance `r`, are with `n` readings after the first no further apart than the
range of all values times `ρ ^ n / (1 - ρ)`, where `ρ = r / (r + δ q)` and `q` is the process noise. -/
theorem C135_forgotten (hc : ∀ c, p.ctlUpd c = false) (hQ : Q.PosSemidef) (hd : p.dynamic = true → NoCross Q)
    (ha : HeldApart Q) (h : Unheard Q f x0) (hm : MeasReads m d) (hms : List.Forall₂ MeasReads ms ds)
    (h' : Unheard Q f' x0') (hm' : MeasReads m' d') (hms' : List.Forall₂ MeasReads ms' ds')
    (hl : MeasReads l c) (hls : List.Forall₂ MeasReads ls cs) (hl' : MeasReads l' c) (hls' : List.Forall₂ MeasReads ls' cs)
    (hx : ((m :: (ms ++ l :: ls)).foldl Filt.processMeasurement f).x = some x)
    (hx' : ((m' :: (ms' ++ l' :: ls')).foldl Filt.processMeasurement f').x = some x') {r : ℝ}
    (hr : ∀ e ∈ c :: cs, e.of = c.of ∧ e.r = r) (ht : ∀ e ∈ d :: ds, e.time ≤ c.time)
    (ht' : ∀ e ∈ d' :: ds', e.time ≤ c.time) {δ : Int} (hδ : 0 ≤ δ) (hs : Spaced δ c.time cs)
    (hq : 0 < toSec δ * Q c.of c.of) {lo up : ℝ} (h0 : Between lo up (x0 c.of)) (h0' : Between lo up (x0' c.of))
    (hz : ∀ e ∈ (d :: ds) ++ (d' :: ds') ++ (c :: cs), e.of = c.of → Between lo up e.z) :
    |x c.of - x' c.of| ≤ (up - lo) * ((r / (r + toSec δ * Q c.of c.of)) ^ cs.length /
      (1 - r / (r + toSec δ * Q c.of c.of))) := by
  have hi : Held c.of := hl.2.1
  have hrc : c.r = r := (hr c List.mem_cons_self).2
  have hr0 : 0 < r := hrc ▸ hl.pos
  obtain ⟨e, -⟩ := C128_bank hc hQ hd ha h hm (List.rel_append hms (.cons hl hls)) hx c.of hi
  obtain ⟨e', -⟩ := C128_bank hc hQ hd ha h' hm' (List.rel_append hms' (.cons hl' hls')) hx' c.of hi
  rw [e, e', List.foldl_append, List.foldl_append, List.foldl_cons, List.foldl_cons]
  change |((cs.foldl _ ((bankOf Q f x0 d ds).take _ c)).of c.of).value -
    ((cs.foldl _ ((bankOf Q f' x0' d' ds').take _ c)).of c.of).value| ≤ _
  have hqi := hQ.diag_nonneg (i := c.of)
  have hzc : Between lo up c.z := hz c (by simp) rfl
  -- either bank after the first common reading
  have side : ∀ {f : Filt (ekfCore p)} {x0 : State} {m : Meas (ekfCore p)} {d : Reading} {ms : List (Meas (ekfCore p))}
      {ds : List Reading}, Unheard Q f x0 → MeasReads m d → List.Forall₂ MeasReads ms ds → (∀ e ∈ d :: ds, e.time ≤ c.time) →
      Between lo up (x0 c.of) → (∀ e ∈ d :: ds, e.of = c.of → Between lo up e.z) →
      ((bankOf Q f x0 d ds).take (fun i => Q i i) c).time = c.time ∧
      0 ≤ (((bankOf Q f x0 d ds).take (fun i => Q i i) c).of c.of).var ∧
      (((bankOf Q f x0 d ds).take (fun i => Q i i) c).of c.of).var ≤ r ∧
      Between lo up (((bankOf Q f x0 d ds).take (fun i => Q i i) c).of c.of).value := by
    intro f x0 m d ms ds h hm hms ht h0 hz
    have hv := bank_var hQ h hm.pos (forall2_pos hms) c.of
    have hb := bank_between hQ h hm.pos (forall2_pos hms) (i := c.of) (fun _ => h0) hz
    have htm : (bankOf Q f x0 d ds).time ≤ c.time :=
      bank_time (ht d List.mem_cons_self) fun e he => ht e (List.mem_cons_of_mem _ he)
    have et : ((bankOf Q f x0 d ds).take (fun i => Q i i) c).of c.of =
        (((bankOf Q f x0 d ds).of c.of).later (Q c.of c.of) (toSec (max 0 (c.time - (bankOf Q f x0 d ds).time)))).told c.z r := by
      rw [← hrc]; exact if_pos rfl
    have hl := later_var hv hqi (c.time - (bankOf Q f x0 d ds).time)
    refine ⟨max_eq_right htm, ?_, ?_, ?_⟩
    · rw [et]; unfold Gauge.told; positivity
    · rw [et]
      show _ / _ ≤ _
      rw [div_le_iff₀ (by positivity)]
      nlinarith
    · rw [et]
      exact told_between hl hr0 hb hzc
  obtain ⟨t1, v1, w1, b1⟩ := side h hm hms ht h0 fun e he => hz e (by simp only [List.mem_append]; exact .inl (.inl he))
  obtain ⟨t2, v2, w2, b2⟩ := side h' hm' hms' ht' h0' fun e he => hz e (by simp only [List.mem_append]; exact .inl (.inr he))
  refine (banks_meet (q := fun i => Q i i) hδ hr0 hq cs _ _ (t1.trans t2.symm) (fun e he => ?_) (t1 ▸ hs) v1 v2 b2).trans ?_
  · obtain ⟨e1, e2⟩ := hr e (List.mem_cons_of_mem _ he)
    exact ⟨e1, e2, hz e (by simp only [List.mem_append]; exact .inr (List.mem_cons_of_mem _ he)) e1⟩
  · have hd1 := between_dist b1 b2
    have hd2 : |(((bankOf Q f x0 d ds).take (fun i => Q i i) c).of c.of).var -
        (((bankOf Q f' x0' d' ds').take (fun i => Q i i) c).of c.of).var| ≤ r := by
      rw [abs_le]; constructor <;> linarith
    generalize |(((bankOf Q f x0 d ds).take (fun i => Q i i) c).of c.of).var -
        (((bankOf Q f' x0' d' ds').take (fun i => Q i i) c).of c.of).var| = u at *
    generalize |(((bankOf Q f x0 d ds).take (fun i => Q i i) c).of c.of).value -
        (((bankOf Q f' x0' d' ds').take (fun i => Q i i) c).of c.of).value| = y at *
    generalize toSec δ * Q c.of c.of = w at *
    have hD : 0 ≤ up - lo := by linarith [h0.1, h0.2]
    have hone : (1 : ℝ) - r / (r + w) = w / (r + w) := by field_simp; ring
    have hp : 0 ≤ (r / (r + w)) ^ cs.length := by positivity
    have hk : u * (up - lo) * (1 - (r / (r + w)) ^ cs.length) / w ≤ r * (up - lo) / w := by
      refine div_le_div_of_nonneg_right ?_ hq.le
      have h1 : u * (up - lo) * (1 - (r / (r + w)) ^ cs.length) ≤ u * (up - lo) * 1 ∨ u < 0 := by
        rcases lt_or_ge u 0 with hu | hu
        · exact .inr hu
        · exact .inl (mul_le_mul_of_nonneg_left (by linarith) (mul_nonneg hu hD))
      rcases h1 with h1 | h1
      · refine h1.trans ?_
        rw [mul_one]
        exact mul_le_mul_of_nonneg_right hd2 hD
      · have hle : (r / (r + w)) ^ cs.length ≤ 1 :=
          pow_le_one₀ (by positivity) (by rw [div_le_one (by positivity)]; linarith)
        have h2 : u * (up - lo) * (1 - (r / (r + w)) ^ cs.length) ≤ 0 :=
          mul_nonpos_of_nonpos_of_nonneg (mul_nonpos_of_nonpos_of_nonneg h1.le hD) (by linarith)
        exact h2.trans (by positivity)
    refine (mul_le_mul_of_nonneg_left (add_le_add hd1 hk) hp).trans (le_of_eq ?_)
    rw [hone]
    field_simp
    try ring

/-- C135: whatever the range, the process noise, the variance and the distance of the readings are, there is a number of
readings after which two filters that agree about them agree about the estimate up to `ε`, wherever they started and
whatever they were told before. -/
theorem C135_agree (hc : ∀ c, p.ctlUpd c = false) (hQ : Q.PosSemidef) (hd : p.dynamic = true → NoCross Q)
    (ha : HeldApart Q) {i : Fin 15} {r lo up : ℝ} (hr0 : 0 < r) {δ : Int} (hδ : 0 ≤ δ) (hq : 0 < toSec δ * Q i i) {ε : ℝ}
    (hε : 0 < ε) : ∃ N : ℕ, ∀ (f f' : Filt (ekfCore p)) (x0 x0' : State) (m m' l l' : Meas (ekfCore p)) (d d' c : Reading)
      (ms ms' ls ls' : List (Meas (ekfCore p))) (ds ds' cs : List Reading) (x x' : State), Unheard Q f x0 → Unheard Q f' x0' →
      MeasReads m d → MeasReads m' d' → MeasReads l c → MeasReads l' c → List.Forall₂ MeasReads ms ds →
      List.Forall₂ MeasReads ms' ds' → List.Forall₂ MeasReads ls cs → List.Forall₂ MeasReads ls' cs → N ≤ cs.length →
      (∀ e ∈ c :: cs, e.of = i ∧ e.r = r) → (∀ e ∈ (d :: ds) ++ (d' :: ds'), e.time ≤ c.time) → Spaced δ c.time cs →
      Between lo up (x0 i) → Between lo up (x0' i) →
      (∀ e ∈ (d :: ds) ++ (d' :: ds') ++ (c :: cs), e.of = i → Between lo up e.z) →
      ((m :: (ms ++ l :: ls)).foldl Filt.processMeasurement f).x = some x →
      ((m' :: (ms' ++ l' :: ls')).foldl Filt.processMeasurement f').x = some x' → |x i - x' i| ≤ ε := by
  obtain ⟨ρ, hρ⟩ : ∃ ρ, ρ = r / (r + toSec δ * Q i i) := ⟨_, rfl⟩
  have hρ0 : 0 ≤ ρ := by rw [hρ]; positivity
  have hρ1 : ρ < 1 := by rw [hρ, div_lt_one (by positivity)]; linarith
  have hlim : Tendsto (fun n : ℕ => (up - lo) * (ρ ^ n / (1 - ρ))) atTop (nhds 0) := by
    have := ((tendsto_pow_atTop_nhds_zero_of_lt_one hρ0 hρ1).div_const (1 - ρ)).const_mul (up - lo)
    simpa using this
  obtain ⟨N, hN⟩ := (hlim.eventually (Iio_mem_nhds hε)).exists_forall_of_atTop
  refine ⟨N, fun f f' x0 x0' m m' l l' d d' c ms ms' ls ls' ds ds' cs x x' h h' hm hm' hl hl' hms hms' hls hls' hn hr ht hs h0
    h0' hz hx hx' => ?_⟩
  obtain rfl : c.of = i := (hr c List.mem_cons_self).1
  have := C135_forgotten hc hQ hd ha h hm hms h' hm' hms' hl hls hl' hls' hx hx' hr
    (fun e he => ht e (List.mem_append_left _ he)) (fun e he => ht e (List.mem_append_right _ he)) hδ hs hq h0 h0' hz
  rw [← hρ] at this
  exact this.trans (hN _ hn).le

/-- One filter was told a forward acceleration of 0 and the other one of 100.  After three readings of 1, a second apart and with
variance 1e-4, they differ by less than 0.02. -/
example : ∃ x x' : State,
    (([0, 1000000000, 2000000000, 3000000000].zipWith (fun t z => readMsg t iAx z 1e-4) [0, 1, 1, 1]).foldl
      Filt.processMeasurement (idleFilt defaultQ)).x = some x ∧
    (([0, 1000000000, 2000000000, 3000000000].zipWith (fun t z => readMsg t iAx z 1e-4) [100, 1, 1, 1]).foldl
      Filt.processMeasurement (idleFilt defaultQ)).x = some x' ∧ |x iAx - x' iAx| ≤ 0.02 := by
  have hi : Held iAx := by unfold Held; decide
  have hQ : HeldApart defaultQ := fun i j _ _ hij => Matrix.diagonal_apply_ne _ hij
  have hr : (1e-9 : ℝ) ≤ 1e-4 := by norm_num
  have hq : ∀ k, k ≠ iAx → defaultQ k iAx = 0 := fun k hk => Matrix.diagonal_apply_ne _ hk
  have fin : ∀ z : ℝ, ∃ x, ([readMsg 0 iAx z 1e-4, readMsg 1000000000 iAx 1 1e-4, readMsg 2000000000 iAx 1 1e-4,
      readMsg 3000000000 iAx 1 1e-4].foldl Filt.processMeasurement (idleFilt defaultQ)).x = some x := by
    intro z
    refine readings_finite defaultQ_psd (i := iAx) (j := iAx) (by decide) (by decide) hq 0 z hr _ ?_
    intro m hm
    simp only [List.mem_cons, List.not_mem_nil, or_false] at hm
    rcases hm with rfl | rfl | rfl <;> exact ⟨1, 1e-4, readOf_reads iAx 1 hr⟩
  obtain ⟨x, hx⟩ := fin 0
  obtain ⟨x', hx'⟩ := fin 100
  refine ⟨x, x', hx, hx', ?_⟩
  have h := C135_forgotten (by simp [plainPar]) defaultQ_psd (by simp [plainPar, demoPar]) hQ (idleFilt_unheard defaultQ)
    (readMsg_reads 0 hi 0 hr) .nil (idleFilt_unheard defaultQ) (readMsg_reads 0 hi 100 hr) .nil
    (readMsg_reads 1000000000 hi 1 hr)
    (.cons (readMsg_reads 2000000000 hi 1 hr) (.cons (readMsg_reads 3000000000 hi 1 hr) .nil))
    (readMsg_reads 1000000000 hi 1 hr)
    (.cons (readMsg_reads 2000000000 hi 1 hr) (.cons (readMsg_reads 3000000000 hi 1 hr) .nil)) hx hx'
    (r := 1e-4) (by simp) (by simp) (by simp) (δ := 1000000000) (by norm_num) (by norm_num [Spaced])
    (by
      have hqa : defaultQ iAx iAx = 0.01 := by simp [defaultQ, iAx]
      rw [hqa]; norm_num [toSec]) (lo := 0) (up := 100) (by norm_num [Between]) (by norm_num [Between])
    (by simp [Between])
  have hqa : defaultQ iAx iAx = 0.01 := by simp [defaultQ, iAx]
  rw [hqa] at h
  refine h.trans ?_
  norm_num [toSec]

/-- C135: without process noise two filters that differ in the initial estimate of a variable keep a part of the difference:
the weight of the initial estimate among the readings. -/
theorem C135_kept (hc : ∀ c, p.ctlUpd c = false) (hQ : Q.PosSemidef) (hd : p.dynamic = true → NoCross Q)
    (ha : HeldApart Q) (h : Unheard Q f x0) (h' : Unheard Q f' x0') (hcov : f'.cov = f.cov) (hm : MeasReads m d)
    (hms : List.Forall₂ MeasReads ms ds) (hx : ((m :: ms).foldl Filt.processMeasurement f).x = some x)
    (hx' : ((m :: ms).foldl Filt.processMeasurement f').x = some x') {i : Fin 15} (hi : Held i) (hid : i ≠ d.of)
    (hq : Q i i = 0) (hv : 0 < (show Mat15 from f.cov) i i) :
    x i - x' i = (x0 i - x0' i) * (1 / (show Mat15 from f.cov) i i) /
      (1 / (show Mat15 from f.cov) i i + weightSum (readingsOf i ds)) := by
  obtain ⟨e, -⟩ := C128_prior hc hQ hd ha h hm hms hx hi hid hq hv
  obtain ⟨e', -⟩ := C128_prior hc hQ hd ha h' hm hms hx' hi hid hq (by rw [hcov]; exact hv)
  rw [e, e', hcov]
  simp only [average, weightSum, valueSum]
  rw [← sub_div]
  congr 1
  ring

/-- A filter that starts with a forward acceleration of 1. -/
noncomputable def pushedFilt : Filt (ekfCore plainPar) := { idleFilt 0 with x := some (Pi.single iAx 1) }

theorem pushedFilt_first : Untilted iAx 0 (pushedFilt.processMeasurement (readMsg 0 iAy 0 1)) := by
  have hr : (1e-9 : ℝ) ≤ 1 := by norm_num
  have hu : Uncorrelated ((1e-3 : ℝ) • (1 : Mat15)) := uncorrelated_smul (by norm_num)
  have h4 : Matrix.PosSemidef (initCov (readOf iAy 0 1) ((1e-3 : ℝ) • (1 : Mat15))) :=
    initCov_psd (readOf_reads iAy 0 hr).good hu.1 hu.2
  have h5 : ∀ k, k = iPitch ∨ k = iVpitch ∨ k = iVyaw → (initCov (readOf iAy 0 1) ((1e-3 : ℝ) • (1 : Mat15))) k iAx = 0 := by
    intro k hk
    have hki : k ≠ iAx := by rcases hk with rfl | rfl | rfl <;> decide
    have e1 : (readOf iAy 0 1).R k iAx = 0 := by
      show ((1 : ℝ) • (1 : Mat15)) k iAx = 0
      rw [Matrix.smul_apply, Matrix.one_apply_ne hki, smul_zero]
    have e2 : ((1e-3 : ℝ) • (1 : Mat15)) k iAx = 0 := by rw [Matrix.smul_apply, Matrix.one_apply_ne hki, smul_zero]
    simp only [initCov, Matrix.of_apply, e1, e2, ite_self]
  have e : initState (readOf iAy 0 1) (Pi.single iAx 1) =
      some fun k => if (readOf iAy 0 1).upd k then ((readOf iAy 0 1).z k).val else (Pi.single iAx 1 : State) k :=
    if_pos fun _ _ => rfl
  have hzero : ∀ k : Fin 15, k = iPitch ∨ k = iVpitch ∨ k = iVyaw →
      (if decide (k = iAy) = true then (0 : ℝ) else (Pi.single iAx 1 : State) k) = 0 := by
    rintro k (rfl | rfl | rfl) <;> rw [if_neg (by decide)] <;> exact Pi.single_eq_of_ne (by decide) _
  exact ⟨rfl, rfl, _, e, hzero _ (Or.inl rfl), hzero _ (Or.inr (Or.inl rfl)), hzero _ (Or.inr (Or.inr rfl)), h4, h5⟩

/-- Filters that start with forward accelerations of 0 and 1 of variance 1e-3, without process noise: a reading with the same
variance leaves half of the difference. -/
example : ∃ x x' : State,
    ([readMsg 0 iAy 0 1, readMsg 1000000000 iAx 0 1e-3].foldl Filt.processMeasurement (idleFilt 0)).x = some x ∧
    ([readMsg 0 iAy 0 1, readMsg 1000000000 iAx 0 1e-3].foldl Filt.processMeasurement pushedFilt).x = some x' ∧
    x' iAx - x iAx = 1 / 2 := by
  have hr : (1e-9 : ℝ) ≤ 1e-3 := by norm_num
  have hr1 : (1e-9 : ℝ) ≤ 1 := by norm_num
  have hi : Held iAx := by unfold Held; decide
  have hj : Held iAy := by unfold Held; decide
  have hms : ∀ m ∈ [readMsg 1000000000 iAx 0 1e-3], ∃ z r, Payload.Reads m.z iAx z r := by
    intro m hm
    rw [List.mem_singleton.1 hm]
    exact ⟨0, 1e-3, readOf_reads iAx 0 hr⟩
  obtain ⟨x, hx⟩ := readings_finite (Q := 0) PosSemidef.zero (i := iAx) (j := iAy) (by decide) (by decide) (by simp) 0 0 hr1 _ hms
  obtain ⟨x', hx'⟩ := upright_run (p := plainPar) (by simp [plainPar]) (by simp [plainPar, demoPar]) (i := iAx) (by decide)
    (Q := 0) PosSemidef.zero (by simp) _ hms _ pushedFilt_first
  refine ⟨x, x', hx, hx', ?_⟩
  have h := C135_kept (by simp [plainPar]) PosSemidef.zero (fun _ _ _ _ => rfl) (fun _ _ _ _ _ => rfl)
    (f := idleFilt 0) (f' := pushedFilt) (x0' := Pi.single iAx 1)
    (idleFilt_unheard 0) ⟨rfl, rfl, rfl, uncorrelated_smul (by norm_num)⟩ rfl (readMsg_reads 0 hj 0 hr1)
    (.cons (readMsg_reads 1000000000 hi 0 hr) .nil) hx hx' hi (by decide) rfl (by norm_num [idleFilt])
  have hv : (show Mat15 from (idleFilt 0).cov) iAx iAx = 1e-3 := by
    show ((1e-3 : ℝ) • (1 : Mat15)) iAx iAx = 1e-3
    rw [Matrix.smul_apply, Matrix.one_apply_eq, smul_eq_mul, mul_one]
  rw [hv] at h
  have hs : (Pi.single iAx 1 : State) iAx = 1 := Pi.single_eq_same _ _
  rw [hs] at h
  norm_num [readingsOf, weightSum, iAx] at h
  linarith

end RL
