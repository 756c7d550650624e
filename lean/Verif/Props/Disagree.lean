import Verif.Props.Upright
/-! # C130: two sources that disagree -/

namespace RL
open Matrix Real Filter

variable {p : FilterPar} {Q : Mat15} {f : Filt (ekfCore p)} {x0 : State} {m : Meas (ekfCore p)} {d : Reading}
  {ms : List (Meas (ekfCore p))} {ds : List Reading}

/-- The bank that the filter simulates. -/
noncomputable def bankOf (Q : Mat15) (f : Filt (ekfCore p)) (x0 : State) (d : Reading) (ds : List Reading) : Bank :=
  ds.foldl (Bank.take fun i => Q i i) (Bank.first x0 (fun i => (show Mat15 from f.cov) i i) d)

theorem bankOf_snoc (c : Reading) : bankOf Q f x0 d (ds ++ [c]) = (bankOf Q f x0 d ds).take (fun i => Q i i) c := by
  unfold bankOf
  rw [List.foldl_append]
  rfl

theorem bank_var (hQ : Q.PosSemidef) (h : Unheard Q f x0) (hd : 0 < d.r) (hr : ∀ c ∈ ds, 0 < c.r) (i : Fin 15) :
    0 ≤ ((bankOf Q f x0 d ds).of i).var := by
  induction ds using List.reverseRecOn with
  | nil =>
    show 0 ≤ (if i = d.of then (⟨d.z, d.r⟩ : Gauge) else ⟨x0 i, (show Mat15 from f.cov) i i⟩).var
    split
    · exact hd.le
    · exact h.cov.1 i
  | append_singleton ds c ih =>
    have hv := ih fun c h => hr c (List.mem_append_left _ h)
    have hl := later_var hv (hQ.diag_nonneg (i := i)) (c.time - (bankOf Q f x0 d ds).time)
    have hcr := hr c (by simp)
    rw [bankOf_snoc]
    show 0 ≤ (if i = c.of then _ else _ : Gauge).var
    split
    · unfold Gauge.told; positivity
    · exact hl

theorem bank_between (hQ : Q.PosSemidef) (h : Unheard Q f x0) (hd : 0 < d.r) (hr : ∀ c ∈ ds, 0 < c.r) {i : Fin 15}
    {lo up : ℝ} (h0 : i ≠ d.of → Between lo up (x0 i)) (hz : ∀ c ∈ d :: ds, c.of = i → Between lo up c.z) :
    Between lo up ((bankOf Q f x0 d ds).of i).value := by
  induction ds using List.reverseRecOn with
  | nil =>
    show Between lo up (if i = d.of then (⟨d.z, d.r⟩ : Gauge) else ⟨x0 i, (show Mat15 from f.cov) i i⟩).value
    split
    · rename_i hid
      exact hz d List.mem_cons_self hid.symm
    · rename_i hid
      exact h0 hid
  | append_singleton ds c ih =>
    have hr' : ∀ c ∈ ds, 0 < c.r := fun c h => hr c (List.mem_append_left _ h)
    have hb := ih hr' fun c hc => hz c (by
      rcases List.mem_cons.1 hc with rfl | hc
      · exact List.mem_cons_self
      · exact List.mem_cons_of_mem _ (List.mem_append_left _ hc))
    have hl := later_var (bank_var hQ h hd hr' i) (hQ.diag_nonneg (i := i)) (c.time - (bankOf Q f x0 d ds).time)
    rw [bankOf_snoc]
    show Between lo up (if i = c.of then _ else _ : Gauge).value
    split
    · rename_i hic
      exact told_between hl (hr c (by simp)) hb (hz c (by simp) hic.symm)
    · exact hb

theorem bank_time {T : Int} (hd : d.time ≤ T) (hds : ∀ c ∈ ds, c.time ≤ T) : (bankOf Q f x0 d ds).time ≤ T := by
  induction ds using List.reverseRecOn with
  | nil => exact hd
  | append_singleton ds c ih =>
    rw [bankOf_snoc]
    show max _ _ ≤ _
    exact max_le (ih fun c h => hds c (List.mem_append_left _ h)) (hds c (by simp))

theorem between_dist {lo up a b : ℝ} (ha : Between lo up a) (hb : Between lo up b) : |a - b| ≤ up - lo := by
  rw [abs_le]
  constructor <;> linarith [ha.1, ha.2, hb.1, hb.2]

theorem factor_le {v w r r' : ℝ} (hr : 0 < r) (hrr : r ≤ r') (hw : 0 ≤ w) (hv : w ≤ v) :
    (1 + v / r)⁻¹ ≤ r' / (r' + w) := by
  have e : (1 + v / r)⁻¹ = r / (r + v) := by
    have : 1 + v / r = (r + v) / r := by field_simp
    rw [this, inv_div]
  rw [e, div_le_div_iff₀ (by linarith) (by linarith)]
  nlinarith

/-- C130: the estimate of a rate or acceleration follows each reading that comes `δ` or more after the others: up to a fraction
`r / (r + q δ)` of the spread of all readings, where `q` is its process noise. -/
theorem C130_follows (hc : ∀ c, p.ctlUpd c = false) (hQ : Q.PosSemidef) (hd : p.dynamic = true → NoCross Q)
    (ha : HeldApart Q) (h : Unheard Q f x0) (hm : MeasReads m d) {l : Meas (ekfCore p)} {c : Reading}
    (hms : List.Forall₂ MeasReads (ms ++ [l]) (ds ++ [c])) {x : State}
    (hx : ((m :: (ms ++ [l])).foldl Filt.processMeasurement f).x = some x) (hi : Held c.of) {lo up : ℝ}
    (h0 : c.of ≠ d.of → Between lo up (x0 c.of))
    (hz : ∀ e ∈ d :: (ds ++ [c]), e.of = c.of → Between lo up e.z) {δ : Int} (hδ : 0 ≤ δ)
    (ht : ∀ e ∈ d :: ds, e.time + δ ≤ c.time) {r : ℝ} (hr : c.r ≤ r) :
    |x c.of - c.z| ≤ r / (r + toSec δ * Q c.of c.of) * (up - lo) := by
  obtain ⟨e, -⟩ := C128_bank hc hQ hd ha h hm hms hx c.of hi
  have hpos := forall2_pos hms
  have hpos' : ∀ e ∈ ds, 0 < e.r := fun e he => hpos e (List.mem_append_left _ he)
  have hcr : 0 < c.r := hpos c (by simp)
  have hq := hQ.diag_nonneg (i := c.of)
  have hv := bank_var hQ h hm.pos hpos' c.of
  have hb := bank_between hQ h hm.pos hpos' h0 fun e he => hz e (by
    rcases List.mem_cons.1 he with rfl | he
    · exact List.mem_cons_self
    · exact List.mem_cons_of_mem _ (List.mem_append_left _ he))
  have hT : (bankOf Q f x0 d ds).time ≤ c.time - δ :=
    bank_time (by have := ht d List.mem_cons_self; omega) fun e he => by have := ht e (List.mem_cons_of_mem _ he); omega
  have e' : x c.of = ((bankOf Q f x0 d (ds ++ [c])).of c.of).value := e
  rw [bankOf_snoc] at e'
  generalize bankOf Q f x0 d ds = b at *
  have et : (b.take (fun i => Q i i) c).of c.of =
      ((b.of c.of).later (Q c.of c.of) (toSec (max 0 (c.time - b.time)))).told c.z c.r := if_pos rfl
  have hl := later_var hv hq (c.time - b.time)
  have hge : toSec δ * Q c.of c.of ≤ ((b.of c.of).later (Q c.of c.of) (toSec (max 0 (c.time - b.time)))).var := by
    unfold Gauge.later
    have h1 : toSec δ ≤ toSec (max 0 (c.time - b.time)) := by
      unfold toSec
      have : δ ≤ max 0 (c.time - b.time) := by omega
      have : (δ : ℝ) ≤ ((max 0 (c.time - b.time) : Int) : ℝ) := by exact_mod_cast this
      nlinarith
    have := mul_le_mul_of_nonneg_right h1 hq
    dsimp only
    linarith
  have hve : ((b.of c.of).later (Q c.of c.of) (toSec (max 0 (c.time - b.time)))).value = (b.of c.of).value := rfl
  have hw : 0 ≤ toSec δ * Q c.of c.of := mul_nonneg (toSec_nonneg hδ) hq
  have hbz := between_dist hb (hz c (by simp) rfl)
  rw [e', et, (told_error hl hcr).1, hve]
  generalize ((b.of c.of).later (Q c.of c.of) (toSec (max 0 (c.time - b.time)))).var = v at *
  rw [abs_div, abs_of_pos (by positivity : 0 < 1 + v / c.r), div_eq_mul_inv, mul_comm]
  have h1 := factor_le hcr hr hw hge
  exact mul_le_mul h1 hbz (abs_nonneg _) (le_trans (by positivity) h1)

/-- C130: two sources read a rate or acceleration as `a` and `b`, in turn, `δ` apart, with variance at most `r`.  With every
reading the estimate goes back and forth by at least `1 - 2 r / (r + q δ)` of their difference. -/
theorem C130_oscillates (hc : ∀ c, p.ctlUpd c = false) (hQ : Q.PosSemidef) (hd : p.dynamic = true → NoCross Q)
    (ha : HeldApart Q) (h : Unheard Q f x0) (hm : MeasReads m d) {l l' : Meas (ekfCore p)} {c c' : Reading}
    (hms : List.Forall₂ MeasReads ms ds) (hl : MeasReads l c) (hl' : MeasReads l' c') {x x' : State}
    (hx : ((m :: (ms ++ [l])).foldl Filt.processMeasurement f).x = some x)
    (hx' : ((m :: ((ms ++ [l]) ++ [l'])).foldl Filt.processMeasurement f).x = some x') {i : Fin 15}
    (hci : c.of = i) (hci' : c'.of = i) {a b : ℝ} (hca : c.z = a) (hcb : c'.z = b)
    (h0 : i ≠ d.of → x0 i = a ∨ x0 i = b) (hz : ∀ e ∈ d :: ds, e.of = i → e.z = a ∨ e.z = b) {δ : Int} (hδ : 0 ≤ δ)
    (ht : ∀ e ∈ d :: ds, e.time + δ ≤ c.time) (ht' : c.time + δ ≤ c'.time) {r : ℝ} (hr : c.r ≤ r) (hr' : c'.r ≤ r) :
    (1 - 2 * (r / (r + toSec δ * Q i i))) * |b - a| ≤ |x' i - x i| := by
  have hbt : ∀ z, z = a ∨ z = b → Between (min a b) (max a b) z := by
    rintro z (rfl | rfl)
    · exact ⟨min_le_left _ _, le_max_left _ _⟩
    · exact ⟨min_le_right _ _, le_max_right _ _⟩
  have f2 : List.Forall₂ MeasReads (ms ++ [l]) (ds ++ [c]) := List.rel_append hms (.cons hl .nil)
  have f3 : List.Forall₂ MeasReads ((ms ++ [l]) ++ [l']) ((ds ++ [c]) ++ [c']) := List.rel_append f2 (.cons hl' .nil)
  have hz2 : ∀ e ∈ d :: (ds ++ [c]), e.of = i → e.z = a ∨ e.z = b := by
    intro e he hei
    rcases List.mem_cons.1 he with rfl | he
    · exact hz _ List.mem_cons_self hei
    · rcases List.mem_append.1 he with he | he
      · exact hz _ (List.mem_cons_of_mem _ he) hei
      · rw [List.mem_singleton.1 he]; exact Or.inl hca
  have hz3 : ∀ e ∈ d :: ((ds ++ [c]) ++ [c']), e.of = i → e.z = a ∨ e.z = b := by
    intro e he hei
    rcases List.mem_cons.1 he with rfl | he
    · exact hz _ List.mem_cons_self hei
    · rcases List.mem_append.1 he with he | he
      · exact hz2 _ (List.mem_cons_of_mem _ he) hei
      · rw [List.mem_singleton.1 he]; exact Or.inr hcb
  have k1 := C130_follows hc hQ hd ha h hm f2 hx (by rw [hci]; exact hci ▸ hl.2.1) (lo := min a b) (up := max a b)
    (fun hne => hbt _ (by rw [hci] at hne ⊢; exact h0 hne)) (fun e he hei => hbt _ (hz2 e he (hei.trans hci))) hδ ht hr
  have k2 := C130_follows hc hQ hd ha h hm f3 hx' (by rw [hci']; exact hci' ▸ hl'.2.1) (lo := min a b) (up := max a b)
    (fun hne => hbt _ (by rw [hci'] at hne ⊢; exact h0 hne)) (fun e he hei => hbt _ (hz3 e he (hei.trans hci'))) hδ
    (by
      intro e he
      rcases List.mem_cons.1 he with rfl | he
      · have := ht _ (List.mem_cons_self (l := ds)); omega
      · rcases List.mem_append.1 he with he | he
        · have := ht _ (List.mem_cons_of_mem _ he); omega
        · rw [List.mem_singleton.1 he]; exact ht') hr'
  rw [hci, hca] at k1
  rw [hci', hcb] at k2
  have e : max a b - min a b = |b - a| := by rw [max_sub_min_eq_abs]
  rw [e] at k1 k2
  generalize r / (r + toSec δ * Q i i) = κ at *
  have t : |b - a| ≤ |x' i - b| + |x' i - x i| + |x i - a| := by
    have h1 : b - a = -(x' i - b) + (x' i - x i) + (x i - a) := by ring
    calc |b - a| = |-(x' i - b) + (x' i - x i) + (x i - a)| := by rw [← h1]
      _ ≤ |-(x' i - b) + (x' i - x i)| + |x i - a| := abs_add_le _ _
      _ ≤ |-(x' i - b)| + |x' i - x i| + |x i - a| := by gcongr; exact abs_add_le _ _
      _ = _ := by rw [abs_neg]
  linarith

/-! ## The distance of the sources does not matter -/

/-- The same readings of `i` on another scale. -/
def Rescaled (i : Fin 15) (s t : ℝ) (c c' : Reading) : Prop :=
  c.time = c'.time ∧ c.of = c'.of ∧ c.r = c'.r ∧ (c.of = i → c'.z = s * c.z + t)

theorem told_rescaled {g g' : Gauge} {z z' r s t : ℝ} (hv : 0 ≤ g.var) (hr : 0 < r) (h1 : g'.value = s * g.value + t)
    (h2 : g'.var = g.var) (h3 : z' = s * z + t) :
    (g'.told z' r).value = s * (g.told z r).value + t ∧ (g'.told z' r).var = (g.told z r).var := by
  have : g.var + r ≠ 0 := by positivity
  unfold Gauge.told
  rw [h1, h2, h3]
  constructor
  · dsimp only
    field_simp
    ring
  · rfl

/-- C130, against the documentation (configuring_robot_localization.rst: the output oscillates if the sources differ by more
than their variance): how the estimate moves between the readings does not depend on how far they are apart.  If the readings are
moved and their differences multiplied by any factor, the estimates are moved and their differences multiplied by it. -/
theorem C130_any_distance (hc : ∀ c, p.ctlUpd c = false) (hQ : Q.PosSemidef) (hd : p.dynamic = true → NoCross Q)
    (ha : HeldApart Q) (h : Unheard Q f x0) (hm : MeasReads m d) (hms : List.Forall₂ MeasReads ms ds) {x : State}
    (hx : ((m :: ms).foldl Filt.processMeasurement f).x = some x) {f' : Filt (ekfCore p)} {x0' : State}
    {m' : Meas (ekfCore p)} {d' : Reading} {ms' : List (Meas (ekfCore p))} {ds' : List Reading} {x' : State}
    (h' : Unheard Q f' x0') (hcov : f'.cov = f.cov) (hm' : MeasReads m' d') (hms' : List.Forall₂ MeasReads ms' ds')
    (hx' : ((m' :: ms').foldl Filt.processMeasurement f').x = some x') {i : Fin 15} (hi : Held i) {s t : ℝ}
    (h0 : i ≠ d.of → x0' i = s * x0 i + t) (h1 : Rescaled i s t d d') (h2 : List.Forall₂ (Rescaled i s t) ds ds') :
    x' i = s * x i + t := by
  obtain ⟨e, -⟩ := C128_bank hc hQ hd ha h hm hms hx i hi
  obtain ⟨e', -⟩ := C128_bank hc hQ hd ha h' hm' hms' hx' i hi
  have key : ∀ (ds ds' : List Reading), List.Forall₂ (Rescaled i s t) ds ds' → ∀ (b b' : Bank), b'.time = b.time →
      (∀ c ∈ ds, 0 < c.r) → 0 ≤ (b.of i).var → (b'.of i).value = s * (b.of i).value + t → (b'.of i).var = (b.of i).var →
      ((ds'.foldl (Bank.take fun i => Q i i) b').of i).value =
        s * ((ds.foldl (Bank.take fun i => Q i i) b).of i).value + t := by
    intro ds ds' hr
    induction hr with
    | nil => exact fun b b' _ _ _ h _ => h
    | @cons c c' ds ds' hcc _ ih =>
      intro b b' hbt hpos hv hval hvar
      obtain ⟨c1, c2, c3, c4⟩ := hcc
      have hq := hQ.diag_nonneg (i := i)
      have hcr := hpos c List.mem_cons_self
      have hl := later_var hv hq (c.time - b.time)
      have hl2 : ((b'.of i).later (Q i i) (toSec (max 0 (c'.time - b'.time)))).var =
          ((b.of i).later (Q i i) (toSec (max 0 (c.time - b.time)))).var := by
        unfold Gauge.later
        rw [hvar, ← c1, hbt]
      have et : (b.take (fun i => Q i i) c).of i = if i = c.of then
          ((b.of i).later (Q i i) (toSec (max 0 (c.time - b.time)))).told c.z c.r else
          (b.of i).later (Q i i) (toSec (max 0 (c.time - b.time))) := rfl
      have et' : (b'.take (fun i => Q i i) c').of i = if i = c'.of then
          ((b'.of i).later (Q i i) (toSec (max 0 (c'.time - b'.time)))).told c'.z c'.r else
          (b'.of i).later (Q i i) (toSec (max 0 (c'.time - b'.time))) := rfl
      rw [List.foldl_cons, List.foldl_cons]
      have step : 0 ≤ ((b.take (fun i => Q i i) c).of i).var ∧
          ((b'.take (fun i => Q i i) c').of i).value = s * ((b.take (fun i => Q i i) c).of i).value + t ∧
          ((b'.take (fun i => Q i i) c').of i).var = ((b.take (fun i => Q i i) c).of i).var := by
        rw [et, et', ← c2, ← c3]
        split
        · rename_i hic
          obtain ⟨k1, k2⟩ := told_rescaled (g := (b.of i).later (Q i i) (toSec (max 0 (c.time - b.time))))
            (g' := (b'.of i).later (Q i i) (toSec (max 0 (c'.time - b'.time)))) hl hcr hval hl2 (c4 hic.symm)
          exact ⟨by unfold Gauge.told; positivity, k1, k2⟩
        · exact ⟨hl, hval, hl2⟩
      refine ih _ _ ?_ (fun c h => hpos c (List.mem_cons_of_mem _ h)) step.1 step.2.1 step.2.2
      show max _ _ = max _ _
      rw [hbt, c1]
  obtain ⟨d1, d2, d3, d4⟩ := h1
  rw [e, e']
  have hfirst : (Bank.first x0 (fun i => (show Mat15 from f.cov) i i) d).of i =
      if i = d.of then (⟨d.z, d.r⟩ : Gauge) else ⟨x0 i, (show Mat15 from f.cov) i i⟩ := rfl
  have hfirst' : (Bank.first x0' (fun i => (show Mat15 from f'.cov) i i) d').of i =
      if i = d'.of then (⟨d'.z, d'.r⟩ : Gauge) else ⟨x0' i, (show Mat15 from f.cov) i i⟩ := by rw [← hcov]; rfl
  refine key ds ds' h2 _ _ d1.symm (forall2_pos hms) ?_ ?_ ?_
  · rw [hfirst]
    split
    · exact hm.pos.le
    · exact h.cov.1 i
  · rw [hfirst, hfirst', ← d2]
    split
    · rename_i hid
      exact d4 hid.symm
    · rename_i hid
      exact h0 hid
  · rw [hfirst, hfirst', ← d2]
    split
    · exact d3.symm
    · rfl

/-! ## Large variances -/

/-- Readings of `i` with variance `r`, at most `Δ` after what was heard before. -/
def Frequent (Δ : Int) (i : Fin 15) (r : ℝ) : Int → List Reading → Prop
  | _, [] => True
  | t, c :: cs => c.of = i ∧ c.r = r ∧ c.time ≤ t + Δ ∧ Frequent Δ i r (max t c.time) cs

theorem frequent_snoc {Δ : Int} {i : Fin 15} {r : ℝ} {c : Reading} : ∀ {t : Int} {ds : List Reading}, Frequent Δ i r t (ds ++ [c]) →
    Frequent Δ i r t ds ∧ c.of = i ∧ c.r = r ∧ c.time ≤ (ds.map Reading.time).foldl max t + Δ := by
  intro t ds
  induction ds generalizing t with
  | nil => exact fun h => ⟨trivial, h.1, h.2.1, h.2.2.1⟩
  | cons e ds ih =>
    intro h
    obtain ⟨k1, k2⟩ := ih h.2.2.2
    exact ⟨⟨h.1, h.2.1, h.2.2.1, k1⟩, k2⟩

theorem bank_latest : (bankOf Q f x0 d ds).time = (ds.map Reading.time).foldl max d.time := by
  induction ds using List.reverseRecOn with
  | nil => rfl
  | append_singleton ds c ih =>
    rw [bankOf_snoc, List.map_append, List.foldl_append]
    show max _ _ = max _ _
    rw [ih]

/-- The variance before a reading, with readings of variance `r`, gets close to `V` or lower, if `V² ≥ w (V + r)`, where `w` is
the growth of the variance from one reading to the next. -/
theorem variance_step {v w V r : ℝ} (hv : 0 ≤ v) (hw : 0 ≤ w) (hV : 0 < V) (hr : 0 < r) (h : w * (V + r) ≤ V * V) :
    (v + w) * r / (v + w + r) ≤ V * r / (V + r) + r / (V * r / (V + r) + r) * max (v - V * r / (V + r)) 0 := by
  obtain ⟨P, hP⟩ : ∃ P, P = V * r / (V + r) := ⟨_, rfl⟩
  have hPpos : 0 < P := by rw [hP]; positivity
  have hPw : P + w ≤ V := by
    have h1 : P = V - V * V / (V + r) := by rw [hP]; field_simp; ring
    have h2 : w ≤ V * V / (V + r) := by rw [le_div_iff₀ (by positivity)]; exact h
    linarith
  have hT : (P + w) * r / (P + w + r) ≤ P := by
    have h1 : (P + w) * r / (P + w + r) ≤ V * r / (V + r) := by
      rw [div_le_div_iff₀ (by positivity) (by positivity)]
      nlinarith [mul_nonneg (mul_nonneg hr.le hr.le) (sub_nonneg.2 hPw)]
    rwa [← hP] at h1
  rw [← hP]
  have hbound : (v + w) * r / (v + w + r) - (P + w) * r / (P + w + r) ≤ r / (P + r) * max (v - P) 0 := by
    have e : (v + w) * r / (v + w + r) - (P + w) * r / (P + w + r) = r * r * (v - P) / ((v + w + r) * (P + w + r)) := by
      field_simp
      ring
    rw [e]
    rcases le_total v P with hvp | hvp
    · rw [max_eq_right (by linarith), mul_zero]
      exact div_nonpos_of_nonpos_of_nonneg (mul_nonpos_of_nonneg_of_nonpos (by positivity) (by linarith)) (by positivity)
    · rw [max_eq_left (by linarith), div_mul_eq_mul_div, div_le_div_iff₀ (by positivity) (by positivity)]
      have hd : 0 ≤ r * (v - P) := mul_nonneg hr.le (by linarith)
      have hden : r * (P + r) ≤ (v + w + r) * (P + w + r) := by nlinarith
      nlinarith [mul_le_mul_of_nonneg_left hden hd]
  linarith

theorem bank_settles (hQ : Q.PosSemidef) (h : Unheard Q f x0) (hd : 0 < d.r) {i : Fin 15} {r V : ℝ} (hr : 0 < r) (hV : 0 < V)
    {Δ : Int} (hΔ : 0 ≤ Δ) (hVr : toSec Δ * Q i i * (V + r) ≤ V * V) (ds : List Reading) (hs : Frequent Δ i r d.time ds) :
    max (((bankOf Q f x0 d ds).of i).var - V * r / (V + r)) 0 ≤
      (r / (V * r / (V + r) + r)) ^ ds.length * max (((bankOf Q f x0 d []).of i).var - V * r / (V + r)) 0 := by
  have hpos : ∀ (ds : List Reading) (t : Int), Frequent Δ i r t ds → ∀ c ∈ ds, 0 < c.r := by
    intro ds
    induction ds with
    | nil => simp
    | cons e ds ih =>
      intro t h c hc
      rcases List.mem_cons.1 hc with rfl | hc
      · rw [h.2.1]; exact hr
      · exact ih _ h.2.2.2 c hc
  induction ds using List.reverseRecOn with
  | nil => simp
  | append_singleton ds c ih =>
    obtain ⟨k1, k2, k3, k4⟩ := frequent_snoc hs
    have hq := hQ.diag_nonneg (i := i)
    have hv := bank_var hQ h hd (hpos ds _ k1) i
    have ih' := ih k1
    rw [bankOf_snoc, List.length_append, List.length_singleton, pow_succ, mul_comm (_ ^ _), mul_assoc]
    rw [← bank_latest (Q := Q) (f := f) (x0 := x0) (d := d) (ds := ds)] at k4
    generalize bankOf Q f x0 d ds = b at *
    have et : (b.take (fun i => Q i i) c).of i = ((b.of i).later (Q i i) (toSec (max 0 (c.time - b.time)))).told c.z r := by
      rw [← k3]; exact if_pos k2.symm
    rw [et]
    have hτ : toSec (max 0 (c.time - b.time)) ≤ toSec Δ := by
      unfold toSec
      have : max 0 (c.time - b.time) ≤ Δ := by omega
      have : ((max 0 (c.time - b.time) : Int) : ℝ) ≤ (Δ : ℝ) := by exact_mod_cast this
      nlinarith
    have hτ0 := toSec_nonneg (le_max_left 0 (c.time - b.time))
    generalize toSec (max 0 (c.time - b.time)) = τ at *
    have hw : 0 ≤ τ * Q i i := mul_nonneg hτ0 hq
    have hstep := variance_step hv hw hV hr (le_trans (mul_le_mul_of_nonneg_right (mul_le_mul_of_nonneg_right hτ hq) (by positivity)) hVr)
    have hP : 0 < V * r / (V + r) := by positivity
    have hκ : 0 ≤ r / (V * r / (V + r) + r) := by positivity
    have e : (((b.of i).later (Q i i) τ).told c.z r).var = ((b.of i).var + τ * Q i i) * r / ((b.of i).var + τ * Q i i + r) := rfl
    rw [e]
    refine le_trans (max_le ?_ ?_) (mul_le_mul_of_nonneg_left ih' hκ)
    · linarith
    · exact mul_nonneg hκ (le_max_right _ _)

/-- C130, the remedy of the documentation ("ensure that the covariance values are large enough to eliminate oscillations"): whatever
fraction `η` of the spread of the readings is allowed, if their variance is large enough then, after a while, no reading moves the
estimate further. -/
theorem C130_eliminated (hc : ∀ c, p.ctlUpd c = false) (hQ : Q.PosSemidef) (hd : p.dynamic = true → NoCross Q)
    (ha : HeldApart Q) (h : Unheard Q f x0) (hm : MeasReads m d) {i : Fin 15} (hi : Held i) {Δ : Int} (hΔ : 0 ≤ Δ) {η : ℝ}
    (hη : 0 < η) {r : ℝ} (hr : 0 < r) (hlarge : 4 * (toSec Δ * Q i i) * (1 + η) ≤ η * η * r) :
    ∃ N : ℕ, ∀ (ms : List (Meas (ekfCore p))) (ds : List Reading), List.Forall₂ MeasReads ms ds → N ≤ ds.length →
      ∀ (l : Meas (ekfCore p)) (c : Reading), MeasReads l c → Frequent Δ i r d.time (ds ++ [c]) →
      ∀ lo up : ℝ, (i ≠ d.of → Between lo up (x0 i)) → (∀ e ∈ d :: (ds ++ [c]), e.of = i → Between lo up e.z) →
      ∀ x x' : State, ((m :: ms).foldl Filt.processMeasurement f).x = some x →
        ((m :: (ms ++ [l])).foldl Filt.processMeasurement f).x = some x' → |x' i - x i| ≤ η * (up - lo) := by
  have hq := hQ.diag_nonneg (i := i)
  have hw0 : 0 ≤ toSec Δ * Q i i := mul_nonneg (toSec_nonneg hΔ) hq
  obtain ⟨V, hVdef⟩ : ∃ V, V = η / 2 * r := ⟨_, rfl⟩
  have hV : 0 < V := by rw [hVdef]; positivity
  have hVr : toSec Δ * Q i i * (V + r) ≤ V * V := by
    have h1 : toSec Δ * Q i i * (V + r) = toSec Δ * Q i i * (1 + η / 2) * r := by rw [hVdef]; ring
    have h2 : V * V = η * η * r / 4 * r := by rw [hVdef]; ring
    rw [h1, h2]
    refine mul_le_mul_of_nonneg_right ?_ hr.le
    nlinarith
  have hP : 0 < V * r / (V + r) := by positivity
  have hκ0 : 0 ≤ r / (V * r / (V + r) + r) := by positivity
  have hκ1 : r / (V * r / (V + r) + r) < 1 := by rw [div_lt_one (by positivity)]; linarith
  obtain ⟨E, hE⟩ : ∃ E, E = max (((bankOf Q f x0 d []).of i).var - V * r / (V + r)) 0 := ⟨_, rfl⟩
  have hE0 : 0 ≤ E := by rw [hE]; exact le_max_right _ _
  obtain ⟨N, hN⟩ := exists_pow_lt_of_lt_one (show 0 < V / (E + 1) by positivity) hκ1
  refine ⟨N, fun ms ds hms hlen l c hl hs lo up h0 hz x x' hx hx' => ?_⟩
  obtain ⟨k1, k2, k3, k4⟩ := frequent_snoc hs
  have f2 : List.Forall₂ MeasReads (ms ++ [l]) (ds ++ [c]) := List.rel_append hms (.cons hl .nil)
  have hpos' := forall2_pos hms
  have hv := bank_var hQ h hm.pos hpos' i
  have hb := bank_between hQ h hm.pos hpos' h0 fun e he => hz e (by
    rcases List.mem_cons.1 he with rfl | he
    · exact List.mem_cons_self
    · exact List.mem_cons_of_mem _ (List.mem_append_left _ he))
  have hsettle := bank_settles (f := f) (x0 := x0) (d := d) hQ h hm.pos hr hV hΔ hVr ds k1
  rw [← hE] at hsettle
  have hsmall : ((bankOf Q f x0 d ds).of i).var ≤ V * r / (V + r) + V := by
    have h1 : (r / (V * r / (V + r) + r)) ^ ds.length * E ≤ V := by
      calc (r / (V * r / (V + r) + r)) ^ ds.length * E ≤ V / (E + 1) * E :=
            mul_le_mul_of_nonneg_right ((pow_le_pow_of_le_one hκ0 hκ1.le hlen).trans hN.le) hE0
        _ ≤ V / (E + 1) * (E + 1) := mul_le_mul_of_nonneg_left (by linarith) (by positivity)
        _ = V := by field_simp
    have h2 := le_max_left (((bankOf Q f x0 d ds).of i).var - V * r / (V + r)) 0
    linarith
  obtain ⟨e1, -⟩ := C128_bank hc hQ hd ha h hm hms hx i hi
  obtain ⟨e2, -⟩ := C128_bank hc hQ hd ha h hm f2 hx' i hi
  have e1' : x i = ((bankOf Q f x0 d ds).of i).value := e1
  have e2' : x' i = ((bankOf Q f x0 d (ds ++ [c])).of i).value := e2
  rw [bankOf_snoc] at e2'
  rw [← bank_latest (Q := Q) (f := f) (x0 := x0) (d := d) (ds := ds)] at k4
  generalize bankOf Q f x0 d ds = b at *
  have et : (b.take (fun i => Q i i) c).of i = ((b.of i).later (Q i i) (toSec (max 0 (c.time - b.time)))).told c.z r := by
    rw [← k3]; exact if_pos k2.symm
  have hτ : toSec (max 0 (c.time - b.time)) ≤ toSec Δ := by
    unfold toSec
    have : max 0 (c.time - b.time) ≤ Δ := by omega
    have : ((max 0 (c.time - b.time) : Int) : ℝ) ≤ (Δ : ℝ) := by exact_mod_cast this
    nlinarith
  have hτ0 := toSec_nonneg (le_max_left 0 (c.time - b.time))
  have hbz := between_dist (hz c (by simp) k2) hb
  rw [e1', e2', et]
  generalize toSec (max 0 (c.time - b.time)) = τ at *
  have hw : 0 ≤ τ * Q i i := mul_nonneg hτ0 hq
  have hww : τ * Q i i ≤ toSec Δ * Q i i := mul_le_mul_of_nonneg_right hτ hq
  have eg : (((b.of i).later (Q i i) τ).told c.z r).value - (b.of i).value =
      (c.z - (b.of i).value) * (((b.of i).var + τ * Q i i) / ((b.of i).var + τ * Q i i + r)) := by
    show ((b.of i).value * r + c.z * ((b.of i).var + τ * Q i i)) / ((b.of i).var + τ * Q i i + r) - (b.of i).value = _
    field_simp
    ring
  have hvw : (b.of i).var + τ * Q i i ≤ η * r := by
    have h1 : V * r / (V + r) = V - V * V / (V + r) := by field_simp; ring
    have h2 : toSec Δ * Q i i ≤ V * V / (V + r) := by rw [le_div_iff₀ (by positivity)]; exact hVr
    have h3 : 2 * V = η * r := by rw [hVdef]; ring
    linarith
  have hfrac : ((b.of i).var + τ * Q i i) / ((b.of i).var + τ * Q i i + r) ≤ η := by
    rw [div_le_iff₀ (by positivity)]
    have : 0 ≤ η * ((b.of i).var + τ * Q i i) := by positivity
    linarith
  have hfrac0 : 0 ≤ ((b.of i).var + τ * Q i i) / ((b.of i).var + τ * Q i i + r) := by positivity
  rw [eg, abs_mul, abs_of_nonneg hfrac0, mul_comm]
  exact mul_le_mul hfrac hbz (abs_nonneg _) hη.le

/-! ## Examples -/

/-- Forward accelerations 0 and 1, in turn, once per second, with variance 1e-4 each: sources whose distributions do not overlap.
With the default process noise the estimate goes back and forth by more than nine tenths. -/
example : ∃ x x' : State,
    ([readMsg 0 iAx 0 1e-4, readMsg 1000000000 iAx 1 1e-4].foldl Filt.processMeasurement (idleFilt defaultQ)).x = some x ∧
    ([readMsg 0 iAx 0 1e-4, readMsg 1000000000 iAx 1 1e-4, readMsg 2000000000 iAx 0 1e-4].foldl Filt.processMeasurement
      (idleFilt defaultQ)).x = some x' ∧ 0.9 ≤ |x' iAx - x iAx| := by
  have hi : Held iAx := by unfold Held; decide
  have hQ : HeldApart defaultQ := fun i j _ _ hij => Matrix.diagonal_apply_ne _ hij
  have hr : (1e-9 : ℝ) ≤ 1e-4 := by norm_num
  have hq : ∀ k, k ≠ iAx → defaultQ k iAx = 0 := fun k hk => Matrix.diagonal_apply_ne _ hk
  obtain ⟨x, hx⟩ := readings_finite defaultQ_psd (i := iAx) (j := iAx) (by decide) (by decide) hq 0 0 hr
    [readMsg 1000000000 iAx 1 1e-4] (by
      intro m hm
      rw [List.mem_singleton.1 hm]
      exact ⟨1, 1e-4, readOf_reads iAx 1 hr⟩)
  obtain ⟨x', hx'⟩ := readings_finite defaultQ_psd (i := iAx) (j := iAx) (by decide) (by decide) hq 0 0 hr
    [readMsg 1000000000 iAx 1 1e-4, readMsg 2000000000 iAx 0 1e-4] (by
      intro m hm
      rcases List.mem_cons.1 hm with rfl | hm
      · exact ⟨1, 1e-4, readOf_reads iAx 1 hr⟩
      · rw [List.mem_singleton.1 hm]
        exact ⟨0, 1e-4, readOf_reads iAx 0 hr⟩)
  refine ⟨x, x', hx, hx', ?_⟩
  have h := C130_oscillates (by simp [plainPar]) defaultQ_psd (by simp [plainPar, demoPar]) hQ (idleFilt_unheard defaultQ)
    (readMsg_reads 0 hi 0 hr) .nil (readMsg_reads 1000000000 hi 1 hr) (readMsg_reads 2000000000 hi 0 hr) hx hx' rfl rfl rfl rfl
    (fun h => absurd rfl h) (by simp) (δ := 1000000000) (by norm_num) (by simp) (by simp) (r := 1e-4) le_rfl le_rfl
  have hqa : defaultQ iAx iAx = 0.01 := by simp [defaultQ, iAx]
  rw [hqa] at h
  refine le_trans ?_ h
  norm_num [toSec]

/-- The same with accelerations a thousand times closer, well within the variance: the estimate moves by the same fraction of their
difference. -/
example : ∃ x x' : State,
    ([readMsg 0 iAx 0 1e-4, readMsg 1000000000 iAx 1 1e-4].foldl Filt.processMeasurement (idleFilt defaultQ)).x = some x ∧
    ([readMsg 0 iAx 0 1e-4, readMsg 1000000000 iAx 1e-3 1e-4].foldl Filt.processMeasurement (idleFilt defaultQ)).x = some x' ∧
    x' iAx = 1e-3 * x iAx + 0 := by
  have hi : Held iAx := by unfold Held; decide
  have hQ : HeldApart defaultQ := fun i j _ _ hij => Matrix.diagonal_apply_ne _ hij
  have hr : (1e-9 : ℝ) ≤ 1e-4 := by norm_num
  have hq : ∀ k, k ≠ iAx → defaultQ k iAx = 0 := fun k hk => Matrix.diagonal_apply_ne _ hk
  have hfin : ∀ z : ℝ, ∃ x : State, ([readMsg 0 iAx 0 1e-4, readMsg 1000000000 iAx z 1e-4].foldl Filt.processMeasurement
      (idleFilt defaultQ)).x = some x := fun z =>
    readings_finite defaultQ_psd (i := iAx) (j := iAx) (by decide) (by decide) hq 0 0 hr
      [readMsg 1000000000 iAx z 1e-4] (by
        intro m hm
        rw [List.mem_singleton.1 hm]
        exact ⟨z, 1e-4, readOf_reads iAx z hr⟩)
  obtain ⟨x, hx⟩ := hfin 1
  obtain ⟨x', hx'⟩ := hfin 1e-3
  refine ⟨x, x', hx, hx', ?_⟩
  exact C130_any_distance (by simp [plainPar]) defaultQ_psd (by simp [plainPar, demoPar]) hQ (idleFilt_unheard defaultQ)
    (readMsg_reads 0 hi 0 hr) (.cons (readMsg_reads 1000000000 hi 1 hr) .nil) hx (idleFilt_unheard defaultQ) rfl
    (readMsg_reads 0 hi 0 hr) (.cons (readMsg_reads 1000000000 hi 1e-3 hr) .nil) hx' hi (s := 1e-3) (t := 0)
    (fun h => absurd rfl h) ⟨rfl, rfl, rfl, fun _ => by norm_num⟩ (.cons ⟨rfl, rfl, rfl, fun _ => by norm_num⟩ .nil)

/-- With variances of 1000 and a reading per second, no reading moves the estimate by more than a hundredth of the difference, after
a while. -/
example := C130_eliminated (p := plainPar) (f := idleFilt defaultQ) (by simp [plainPar]) defaultQ_psd (by simp [plainPar, demoPar])
  (fun i j _ _ hij => Matrix.diagonal_apply_ne _ hij) (idleFilt_unheard defaultQ)
  (readMsg_reads 0 (i := iAx) (by unfold Held; decide) 0 (r := 1000) (by norm_num)) (i := iAx) (by unfold Held; decide)
  (Δ := 1000000000) (by norm_num) (η := 0.01) (by norm_num) (r := 1000) (by norm_num) (by
    have hqa : defaultQ iAx iAx = 0.01 := by simp [defaultQ, iAx]
    rw [hqa]
    norm_num [toSec])

end RL
