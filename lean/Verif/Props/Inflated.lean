import Verif.Props.Average
import Verif.Props.Parts
import Mathlib.Topology.Algebra.Order.Field
/-! # C129: a variable whose variance is inflated is ignored -/

namespace RL
open Matrix Real Filter

/-- The measurement with another variance of variable `i`. -/
def Payload.withVar (m : Payload) (i : Fin 15) (r : ℝ) : Payload :=
  { m with R := .of fun a b => if a = i ∧ b = i then r else m.R a b }

/-- The measurement with variable `i` deselected. -/
def Payload.without (m : Payload) (i : Fin 15) : Payload := m.part fun k => decide (k ≠ i)

/-- The error of variable `i` is independent of those of the other variables. -/
def Payload.Alone (m : Payload) (i : Fin 15) : Prop :=
  ∀ k, m.upd k = true → k ≠ i → m.R i k = 0 ∧ m.R k i = 0

/-! ## Angles close to the estimate -/

/-- The measured value, for angles up to full turns close to the estimate. -/
noncomputable def closeValue (m : Payload) (x : State) (k : Fin 15) : ℝ :=
  open Classical in x k + if angular k then normalizeAngle ((m.z k).val - x k) else (m.z k).val - x k

noncomputable def Payload.close (m : Payload) (x : State) : Payload :=
  { m with z := fun k => if (m.z k).isFin then .fin (closeValue m x k) else m.z k }

theorem isFin_iff (d : Dbl) : d.isFin = (!d.isNan && !d.isInf) := by cases d <;> rfl

theorem close_indices (m : Payload) (x : State) : (m.close x).indices = m.indices := by
  unfold Payload.indices
  refine List.filter_congr fun k _ => ?_
  show (m.upd k && !(if (m.z k).isFin then Dbl.fin (closeValue m x k) else m.z k).isNan &&
    !(if (m.z k).isFin then Dbl.fin (closeValue m x k) else m.z k).isInf) = _
  cases hz : m.z k <;> simp [Dbl.isFin, Dbl.isNan, Dbl.isInf]

theorem mem_fin {m : Payload} {k : Fin 15} (h : k ∈ m.indices) : (m.z k).isFin = true := by
  unfold Payload.indices at h
  have := (List.mem_filter.1 h).2
  rw [isFin_iff]
  revert this
  cases m.upd k <;> cases (m.z k).isNan <;> simp

theorem close_value {m : Payload} {x : State} {k : Fin 15} (h : k ∈ m.indices) :
    ((m.close x).z k).val = closeValue m x k := by
  show (if (m.z k).isFin then Dbl.fin (closeValue m x k) else m.z k).val = _
  rw [if_pos (mem_fin h)]
  rfl

theorem close_certain {m : Payload} (h : m.Certain) (x : State) : (m.close x).Certain :=
  ⟨h.ungated, h.good, by rw [close_indices]; exact h.proper⟩

theorem close_near (m : Payload) (x : State) : (m.close x).Near x := by
  intro a ha
  have hmem : (m.close x).indices.get a ∈ m.indices := by
    rw [← close_indices m x]; exact List.get_mem _ _
  have e : (m.close x).values a - x ((m.close x).indices.get a) =
      normalizeAngle ((m.z ((m.close x).indices.get a)).val - x ((m.close x).indices.get a)) := by
    unfold Payload.values
    rw [close_value hmem]
    unfold closeValue
    rw [if_pos ha]
    ring
  rw [e]
  obtain ⟨h1, h2, -⟩ := normalizeAngle_spec ((m.z ((m.close x).indices.get a)).val - x ((m.close x).indices.get a))
  exact ⟨h1, h2⟩

theorem close_correct (m : Payload) (x : State) (P : Mat15) : Ekf.correct (m.close x) x P = Ekf.correct m x P := by
  unfold Ekf.correct
  show correctAt (m.close x).indices.get _ m.R m.thresh x P = _
  have key : ∀ l : List (Fin 15), (∀ k ∈ l, k ∈ m.indices) →
      correctAt l.get (fun k => ((m.close x).z k).val) m.R m.thresh x P =
        correctAt l.get (fun k => (m.z k).val) m.R m.thresh x P := by
    intro l hl
    have e : innovation l.get (fun k => ((m.close x).z k).val) x = innovation l.get (fun k => (m.z k).val) x := by
      funext a
      unfold innovation
      dsimp only
      rw [close_value (hl _ (List.get_mem l a))]
      unfold closeValue
      by_cases ha : angular (l.get a)
      · rw [if_pos ha, if_pos (show l.get a = iRoll ∨ l.get a = iPitch ∨ l.get a = iYaw from ha),
          if_pos (show l.get a = iRoll ∨ l.get a = iPitch ∨ l.get a = iYaw from ha), add_sub_cancel_left]
        obtain ⟨h1, h2, -⟩ := normalizeAngle_spec ((m.z (l.get a)).val - x (l.get a))
        exact normalizeAngle_of_mem h1 h2
      · rw [if_neg ha, if_neg (show ¬ (l.get a = iRoll ∨ l.get a = iPitch ∨ l.get a = iYaw) from ha),
          if_neg (show ¬ (l.get a = iRoll ∨ l.get a = iPitch ∨ l.get a = iYaw) from ha), add_sub_cancel_left]
    unfold correctAt
    rw [e]
  rw [close_indices]
  exact key m.indices fun _ h => h

/-- A correction, in the form of the textbook. -/
theorem correct_close {m : Payload} (hm : m.Certain) {P : Mat15} (hP : P.PosSemidef) (x : State) :
    Ekf.correct m x P = some (wrapStateAngles (textbook (m.close x) x P),
      joseph m.indices.get m.R (gain m.indices.get m.R P) P) := by
  rw [← close_correct, correct_near (close_certain hm x) hP (close_near m x) (UpToTurns.refl x)]
  congr 2
  have : ∀ l l' : List (Fin 15), l = l' → joseph l.get m.R (gain l.get m.R P) P = joseph l'.get m.R (gain l'.get m.R P) P := by
    rintro l _ rfl; rfl
  exact this _ _ (close_indices m x)

/-! ## One variable last -/

/-- The textbook correction by one variable. -/
theorem textbook_one {b : Payload} {i : Fin 15} (hi : b.indices = [i]) (y : State) (P : Mat15) :
    textbook b y P = fun k => y k + P k i * (P i i + sanitize (b.R i i))⁻¹ * ((b.z i).val - y i) := by
  have key : ∀ (l : List (Fin 15)) (v : Fin l.length → ℝ), l = [i] → (∀ a, v a = (b.z (l.get a)).val) →
      y + (P.submatrix id l.get * (P.submatrix l.get l.get + subR l.get b.R)⁻¹).mulVec (v - fun a => y (l.get a)) =
        fun k => y k + P k i * (P i i + sanitize (b.R i i))⁻¹ * ((b.z i).val - y i) := by
    rintro l v rfl hv
    have hs : P.submatrix [i].get [i].get + subR [i].get b.R = (.of fun _ _ => P i i + sanitize (b.R i i) : Matrix (Fin 1) (Fin 1) ℝ) := by
      ext a c
      fin_cases a; fin_cases c
      simp [subR]
    have hinv : ((.of fun _ _ => P i i + sanitize (b.R i i) : Matrix (Fin 1) (Fin 1) ℝ))⁻¹ =
        .of fun _ _ => (P i i + sanitize (b.R i i))⁻¹ := by
      by_cases h0 : P i i + sanitize (b.R i i) = 0
      · rw [h0, Matrix.nonsing_inv_apply_not_isUnit _ (by rw [Matrix.det_fin_one]; simp)]
        ext a c
        simp
      · refine Matrix.inv_eq_left_inv ?_
        ext a c
        fin_cases a; fin_cases c
        simp [Matrix.mul_apply, h0]
    have hv' : v = fun _ => (b.z i).val := by
      funext a
      rw [hv a]
      fin_cases a
      rfl
    funext k
    rw [hv']
    have e : (P.submatrix [i].get [i].get + subR [i].get b.R)⁻¹ = (.of fun _ _ => (P i i + sanitize (b.R i i))⁻¹ : Matrix (Fin 1) (Fin 1) ℝ) := by
      rw [← hinv]
      exact congrArg _ hs
    rw [e]
    simp [mulVec, dotProduct, Matrix.mul_apply]
  exact key b.indices b.values hi fun _ => rfl

theorem joseph_one {b : Payload} {i : Fin 15} (hi : b.indices = [i]) (hb : b.Certain) {P : Mat15} (hP : P.PosSemidef) :
    joseph b.indices.get b.R (gain b.indices.get b.R P) P =
      .of fun k l => P k l - P k i * (P i i + sanitize (b.R i i))⁻¹ * P i l := by
  have h1 := correct_one i hi hb 0 hP
  rw [correct_close hb hP] at h1
  exact (Prod.mk.inj (Option.some.inj h1)).2

/-- A measurement taken in two parts, without regard to full turns. -/
theorem textbook_parts {m : Payload} (hm : m.Certain) (A : Fin 15 → Bool) (hs : m.Separate A) (x : State) {P : Mat15}
    (hP : P.PosSemidef) :
    let Pa := joseph (m.part A).indices.get (m.part A).R (gain (m.part A).indices.get (m.part A).R P) P
    let b := m.part fun i => !A i
    textbook m x P = textbook b (textbook (m.part A) x P) Pa ∧
    joseph m.indices.get m.R (gain m.indices.get m.R P) P = joseph b.indices.get b.R (gain b.indices.get b.R Pa) Pa := by
  intro Pa b
  obtain ⟨w, p⟩ := weight_parts hm A hs
  have ha := part_certain hm A
  have hb : b.Certain := part_certain hm _
  have hPa : Pa.PosSemidef := joseph_psd' ha hP
  obtain ⟨a1, a2, a3⟩ := factor_spec ha hP
  obtain ⟨b1, b2, b3⟩ := factor_spec hb hPa
  obtain ⟨m1, m2, m3⟩ := factor_spec hm hP
  have ea : Pa = factor (m.part A) P * P := a2
  have e := two_updates (P := P) a1 (Wb := weight b) (A2 := factor b Pa) (by rw [← ea]; exact b1)
  rw [← w] at e
  have hF := left_inverse_unique m1 e
  rw [m2, m3, b2, b3, a3, hF]
  constructor
  · rw [p, Matrix.mulVec_add P, ← add_assoc, Matrix.mulVec_add (factor b Pa * factor (m.part A) P), ← Matrix.mulVec_mulVec,
      ← Matrix.mulVec_mulVec, Matrix.mulVec_mulVec (push _) (factor (m.part A) P) P, ← ea, ← Matrix.mulVec_add]
  · rw [Matrix.mul_assoc, ← ea]

theorem part_single {m : Payload} {i : Fin 15} (hi : i ∈ m.indices) :
    (m.part fun k => !decide (k ≠ i)).indices = [i] := by
  have hm := (List.mem_filter.1 hi).2
  have e : (m.part fun k => !decide (k ≠ i)).indices = (List.finRange 15).filter (fun k => decide (k = i)) := by
    unfold Payload.indices
    refine List.filter_congr fun k _ => ?_
    show ((m.upd k && !decide (k ≠ i)) && !(m.z k).isNan && !(m.z k).isInf) = _
    by_cases hk : k = i
    · subst hk
      simp only [ne_eq, not_true_eq_false, decide_false, Bool.not_false, Bool.and_true, decide_true]
      exact hm
    · simp [hk]
  rw [e]
  clear hm hi e
  revert i
  decide

theorem close_part (m : Payload) (A : Fin 15 → Bool) (x : State) : (m.part A).close x = (m.close x).part A := rfl

/-- The correction by a measurement with an independent variable `i`: first without it, then with it alone. -/
theorem correct_last {m : Payload} (hm : m.Certain) {i : Fin 15} (hi : i ∈ m.indices) (hs : m.Alone i) (hf : 1e-9 ≤ m.R i i)
    (x : State) {P : Mat15} (hP : P.PosSemidef) :
    let a := m.without i
    let Pa := joseph a.indices.get a.R (gain a.indices.get a.R P) P
    let y := textbook (a.close x) x P
    Pa.PosSemidef ∧ Ekf.correct a x P = some (wrapStateAngles y, Pa) ∧
    Ekf.correct m x P = some
      (wrapStateAngles fun k => y k + Pa k i * (Pa i i + m.R i i)⁻¹ * (closeValue m x i - y i),
        .of fun k l => Pa k l - Pa k i * (Pa i i + m.R i i)⁻¹ * Pa i l) := by
  intro a Pa y
  have ha : a.Certain := part_certain hm _
  have hPa : Pa.PosSemidef := joseph_psd' ha hP
  refine ⟨hPa, correct_close ha hP x, ?_⟩
  have hsep : m.Separate fun k => decide (k ≠ i) := by
    intro k l hk hl hkl
    by_cases h1 : k = i
    · subst h1
      have : l ≠ k := fun e => hkl (by subst e; rfl)
      exact (hs l hl this).1
    · have h2 : l = i := by
        by_contra h2
        exact hkl (by simp [h1, h2])
      subst h2
      exact (hs k hk h1).2
  have hcm := close_certain hm x
  have hci : i ∈ (m.close x).indices := by rw [close_indices]; exact hi
  obtain ⟨t1, -⟩ := textbook_parts hcm (fun k => decide (k ≠ i)) hsep x hP
  obtain ⟨-, t2⟩ := textbook_parts hm (fun k => decide (k ≠ i)) hsep x hP
  have hj : joseph ((m.close x).part fun k => decide (k ≠ i)).indices.get ((m.close x).part fun k => decide (k ≠ i)).R
      (gain ((m.close x).part fun k => decide (k ≠ i)).indices.get ((m.close x).part fun k => decide (k ≠ i)).R P) P = Pa := by
    have : ∀ l l' : List (Fin 15), l = l' → joseph l.get m.R (gain l.get m.R P) P = joseph l'.get m.R (gain l'.get m.R P) P := by
      rintro l _ rfl; rfl
    exact this _ _ (close_indices a x)
  have hj2 := joseph_one (part_single hi) (part_certain hm fun k => !decide (k ≠ i)) hPa
  rw [correct_close hm hP x, t1, t2.trans hj2, textbook_one (part_single hci), hj]
  have hv : (((m.close x).part fun k => !decide (k ≠ i)).z i).val = closeValue m x i := close_value hi
  have hR : sanitize (((m.close x).part fun k => !decide (k ≠ i)).R i i) = m.R i i := sanitize_above hf
  have hR' : sanitize ((m.part fun k => !decide (k ≠ i)).R i i) = m.R i i := sanitize_above hf
  rw [hv, hR, hR']
  rfl

/-! ## Inflating -/

theorem withVar_entry (m : Payload) (i : Fin 15) (r : ℝ) (a b : Fin 15) :
    (m.withVar i r).R a b = if a = i ∧ b = i then r else m.R a b := rfl

theorem withVar_certain {m : Payload} (hm : m.Certain) {i : Fin 15} (hf : 1e-9 ≤ m.R i i) {r : ℝ} (hr : m.R i i ≤ r) :
    (m.withVar i r).Certain := by
  have hpsd : ∀ {n : Type} [Fintype n] (e : n → Fin 15),
      (Matrix.of fun a b => if e a = i ∧ e b = i then r - m.R i i else 0 : Matrix n n ℝ).PosSemidef := by
    intro n _ e
    have : (Matrix.of fun a b => if e a = i ∧ e b = i then r - m.R i i else 0 : Matrix n n ℝ) =
        (r - m.R i i) • vecMulVec (fun a => if e a = i then 1 else 0) (star fun a => if e a = i then 1 else 0) := by
      ext a b
      by_cases h1 : e a = i <;> by_cases h2 : e b = i <;> simp [vecMulVec, h1, h2]
    rw [this]
    exact (posSemidef_vecMulVec_self_star _).smul (by linarith)
  refine ⟨hm.ungated, ?_, ?_⟩
  · have e : (m.withVar i r).R.submatrix (fun k : {k // m.upd k = true} => k.1) (fun k : {k // m.upd k = true} => k.1) =
        m.R.submatrix (fun k : {k // m.upd k = true} => k.1) (fun k : {k // m.upd k = true} => k.1) +
          .of fun (a b : {k // m.upd k = true}) => if a.1 = i ∧ b.1 = i then r - m.R i i else 0 := by
      ext a b
      simp only [Matrix.submatrix_apply, Matrix.add_apply, Matrix.of_apply, withVar_entry]
      split
      · rename_i h
        rw [h.1, h.2]; ring
      · rw [add_zero]
    show Matrix.PosSemidef ((m.withVar i r).R.submatrix (fun k : {k // m.upd k = true} => k.1) (fun k : {k // m.upd k = true} => k.1))
    rw [e]
    exact PosSemidef.add hm.good (hpsd _)
  · have e : subR m.indices.get (m.withVar i r).R = (.of fun a b => if m.indices.get a = i ∧ m.indices.get b = i then r - m.R i i else 0) +
        subR m.indices.get m.R := by
      ext a b
      simp only [subR, Matrix.add_apply, Matrix.of_apply, withVar_entry]
      by_cases h : m.indices.get a = i ∧ m.indices.get b = i
      · have hab : a = b := get_inj m.indices_nodup (h.1.trans h.2.symm)
        rw [if_pos h, if_pos h, if_pos hab, if_pos hab, h.1, h.2, sanitize_above (hf.trans hr), sanitize_above hf]
        ring
      · rw [if_neg h, if_neg h, zero_add]
    show (subR m.indices.get (m.withVar i r).R).det ≠ 0
    rw [e]
    have : ((.of fun a b => if m.indices.get a = i ∧ m.indices.get b = i then r - m.R i i else 0) +
        subR m.indices.get m.R : Matrix _ _ ℝ).PosDef := PosDef.posSemidef_add (hpsd _) hm.posDef
    exact (this.isUnit.map Matrix.detMonoidHom).ne_zero

/-- The measurement without `i` does not contain the variance of `i`. -/
theorem withVar_without (m : Payload) (i : Fin 15) (r : ℝ) (x : State) (P : Mat15) :
    Ekf.correct ((m.withVar i r).without i) x P = Ekf.correct (m.without i) x P := by
  refine C07_deselected_irrelevant ((m.withVar i r).without i) (m.without i) ⟨rfl, fun _ _ => rfl, ?_, rfl⟩ x P
  intro a b ha hb
  show (if a = i ∧ b = i then r else m.R a b) = m.R a b
  rw [if_neg]
  rintro ⟨h, -⟩
  have : (m.upd a && decide (a ≠ i)) = true := ha
  rw [h] at this
  simp at this

/-- A message with another variance of variable `i`. -/
def Meas.withVar {p : FilterPar} (M : Meas (ekfCore p)) (i : Fin 15) (r : ℝ) : Meas (ekfCore p) :=
  { M with z := (show Payload from M.z).withVar i r }

/-- A message with variable `i` deselected. -/
def Meas.without {p : FilterPar} (M : Meas (ekfCore p)) (i : Fin 15) : Meas (ekfCore p) :=
  { M with z := (show Payload from M.z).without i }

/-- C129: how far the correction by a measurement is from the one by the same measurement with variable `i` deselected.
The distance, of each variable and each covariance, is inversely proportional to the sum of the two variances of `i`, the
one in the measurement and the one that remains after the other variables of the measurement. -/
theorem C129_exact (m : Payload) (hm : m.Certain) (i : Fin 15) (hi : i ∈ m.indices) (hs : m.Alone i)
    (hf : 1e-9 ≤ m.R i i) (x : State) (P : Mat15) (hP : P.PosSemidef) :
    ∃ (y : State) (Pa : Mat15) (d : ℝ), Pa.PosSemidef ∧ Ekf.correct (m.without i) x P = some (wrapStateAngles y, Pa) ∧
      (¬ angular i → d = (m.z i).val - y i) ∧ (angular i → ∃ n : ℤ, d = (m.z i).val - y i + n * (2 * π)) ∧
      ∀ r, m.R i i ≤ r → Ekf.correct (m.withVar i r) x P = some
        (wrapStateAngles fun k => y k + Pa k i * d / (Pa i i + r), .of fun k l => Pa k l - Pa k i * Pa i l / (Pa i i + r)) := by
  obtain ⟨h1, h2, -⟩ := correct_last hm hi hs hf x hP
  refine ⟨_, _, closeValue m x i - textbook ((m.without i).close x) x P i, h1, h2, ?_, ?_, ?_⟩
  · intro ha
    unfold closeValue
    rw [if_neg ha]
    ring
  · intro ha
    obtain ⟨-, -, n, hn⟩ := normalizeAngle_spec ((m.z i).val - x i)
    refine ⟨-n, ?_⟩
    unfold closeValue
    rw [if_pos ha]
    push_cast
    linarith
  · intro r hr
    have hc := withVar_certain hm hf hr
    have hR : (m.withVar i r).R i i = r := by rw [withVar_entry, if_pos ⟨rfl, rfl⟩]
    have hs' : (m.withVar i r).Alone i := by
      intro k hk hki
      rw [withVar_entry, withVar_entry, if_neg (fun h => hki h.2), if_neg (fun h => hki h.1)]
      exact hs k hk hki
    obtain ⟨-, g2, g3⟩ := correct_last hc (show i ∈ (m.withVar i r).indices from hi) hs' (by rw [hR]; exact hf.trans hr) x hP
    have hsame : (joseph ((m.withVar i r).without i).indices.get ((m.withVar i r).without i).R
        (gain ((m.withVar i r).without i).indices.get ((m.withVar i r).without i).R P) P) =
        joseph (m.without i).indices.get (m.without i).R (gain (m.without i).indices.get (m.without i).R P) P := by
      have := g2.symm.trans ((withVar_without m i r x P).trans h2)
      exact (Prod.mk.inj (Option.some.inj this)).2
    have hagree : textbook (((m.withVar i r).without i).close x) x P = textbook ((m.without i).close x) x P := by
      have hsub : subR (m.without i).indices.get (m.withVar i r).R = subR (m.without i).indices.get m.R := by
        have hne : ∀ a, (m.without i).indices.get a ≠ i := fun a e => by
          have := ((part_mem m _ _).1 (List.get_mem (m.without i).indices a)).2
          exact (of_decide_eq_true this) e
        ext a b
        have e : ∀ c, (m.withVar i r).R ((m.without i).indices.get a) c = m.R ((m.without i).indices.get a) c := fun c => by
          rw [withVar_entry, if_neg (fun h => hne a h.1)]
        simp only [subR, Matrix.of_apply, e]
      have key : ∀ (l : List (Fin 15)) (v : Fin l.length → ℝ), l = (m.without i).indices →
          x + (P.submatrix id l.get * (P.submatrix l.get l.get + subR l.get (m.withVar i r).R)⁻¹).mulVec
            (v - fun a => x (l.get a)) =
          x + (P.submatrix id l.get * (P.submatrix l.get l.get + subR l.get m.R)⁻¹).mulVec (v - fun a => x (l.get a)) := by
        rintro l v rfl
        rw [hsub]
      exact key ((m.without i).close x).indices ((m.without i).close x).values (close_indices _ _)
    rw [hR, hsame, hagree] at g3
    rw [g3]
    have hcv : closeValue (m.withVar i r) x i = closeValue m x i := rfl
    rw [hcv]
    congr 2
    · congr 1
      funext k
      rw [div_eq_mul_inv]
      ring
    · ext k l
      simp only [Matrix.of_apply]
      rw [div_eq_mul_inv]
      ring

theorem shrink {a b c : ℝ} : Tendsto (fun r : ℝ => a + b / (c + r)) atTop (nhds a) := by
  have h : Tendsto (fun r : ℝ => b / (c + r)) atTop (nhds 0) :=
    tendsto_const_nhds.div_atTop (tendsto_atTop_add_const_left _ _ tendsto_id)
  simpa using h.const_add a

theorem correct_some {p : FilterPar} {g : Filt (ekfCore p)} {x : State} (hx : g.x = some x) {z : Payload} {w : State × Mat15}
    (h : Ekf.correct z x g.cov = some w) : (g.correct z).x = some w.1 ∧ (g.correct z).cov = w.2 := by
  show ((ekfCore p).correct z (g.x, g.cov, g.ext)).1 = _ ∧ ((ekfCore p).correct z (g.x, g.cov, g.ext)).2.1 = _
  rw [hx]
  simp [ekfCore, h]

theorem catchUp_cov {p : FilterPar} {f : Filt (ekfCore p)} (hQ : Matrix.PosSemidef (n := Fin 15) (R := ℝ) f.par)
    (hd : p.dynamic = true → NoCross f.par) (hP : CovOk f.x f.cov) (t : Int) :
    CovOk (catchUp f t).x (catchUp f t).cov := by
  unfold catchUp
  split
  · exact ekfCore_predict_cov hQ hd f.ctl f.ctlTime t (t - f.lastTime) f.x f.cov () (by omega) hP
  · exact hP

/-- C129 (for messages after the first): as the variance of a variable in a message is inflated, the estimate (angles up to
full turns) and its covariance tend to those after the message with this variable deselected.  Missing, because it is
false: the same for the first message (`C129_first_message`), and for many messages (`C129_believed`). -/
theorem C129_limit_partial {p : FilterPar} (f : Filt (ekfCore p)) (hon : f.initialized = true)
    (hQ : Matrix.PosSemidef (n := Fin 15) (R := ℝ) f.par) (hd : p.dynamic = true → NoCross f.par) (hP : CovOk f.x f.cov)
    (M : Meas (ekfCore p)) (hm : Payload.Certain M.z) (i : Fin 15) (hi : i ∈ Payload.indices M.z)
    (hs : Payload.Alone M.z i) (hf : 1e-9 ≤ Payload.R M.z i i)
    (hfin : (f.processMeasurement (M.without i)).x ≠ none) :
    ∃ (g : ℝ → State) (y : State),
      (f.processMeasurement (M.without i)).x = some (wrapStateAngles y) ∧
      (∀ r, Payload.R M.z i i ≤ r → (f.processMeasurement (M.withVar i r)).x = some (wrapStateAngles (g r))) ∧
      (∀ k, Tendsto (fun r => g r k) atTop (nhds (y k))) ∧
      ∀ k l, Tendsto (fun r => (show Mat15 from (f.processMeasurement (M.withVar i r)).cov) k l) atTop
        (nhds ((show Mat15 from (f.processMeasurement (M.without i)).cov) k l)) := by
  have e0 : f.processMeasurement (M.without i) = (catchUp f M.time).correct ((show Payload from M.z).without i) :=
    process_eq f hon _
  have e1 : ∀ r, f.processMeasurement (M.withVar i r) = (catchUp f M.time).correct ((show Payload from M.z).withVar i r) :=
    fun r => process_eq f hon _
  have hcov := catchUp_cov hQ hd hP M.time
  rw [e0] at hfin
  simp only [e0, e1]
  generalize catchUp f M.time = g at *
  cases hx : g.x with
  | none =>
    exfalso
    apply hfin
    show ((ekfCore p).correct _ (g.x, g.cov, g.ext)).1 = none
    rw [hx]
    rfl
  | some x =>
    have hPg : Matrix.PosSemidef (n := Fin 15) (R := ℝ) g.cov := hcov (by rw [hx]; simp)
    obtain ⟨y, Pa, d, -, h1, -, -, h2⟩ := C129_exact M.z hm i hi hs hf x g.cov hPg
    obtain ⟨a1, a2⟩ := correct_some hx h1
    refine ⟨fun r k => y k + Pa k i * d / (Pa i i + r), y, a1, fun r hr => (correct_some hx (h2 r hr)).1, fun k => shrink, ?_⟩
    intro k l
    have hl : Tendsto (fun r => Pa k l + -(Pa k i * Pa i l) / (Pa i i + r)) atTop (nhds (Pa k l)) := shrink
    have e : Pa k l = (show Mat15 from (g.correct ((show Payload from M.z).without i)).cov) k l :=
      (congrFun (congrFun a2 k) l).symm
    refine Tendsto.congr' ?_ (hl.trans (le_of_eq (congrArg nhds e)))
    filter_upwards [eventually_ge_atTop (Payload.R M.z i i)] with r hr
    have e2 := (correct_some hx (h2 r hr)).2
    have e3 : (show Mat15 from (g.correct ((show Payload from M.z).withVar i r)).cov) k l =
        Pa k l - Pa k i * Pa i l / (Pa i i + r) := congrFun (congrFun e2 k) l
    refine Eq.trans ?_ e3.symm
    rw [neg_div]
    ring

/-- C129, refuted for the first message: it sets the variable to the measured value, whatever the variance. -/
theorem C129_first_message {p : FilterPar} (f : Filt (ekfCore p)) (hf : f.initialized = false) (x0 : State)
    (h0 : f.x = some x0) (M : Meas (ekfCore p))
    (hfin : ∀ k, Payload.upd M.z k = true → (Payload.z M.z k).isFin = true) (i : Fin 15) (hi : Payload.upd M.z i = true) (r : ℝ) :
    ∃ x x', (f.processMeasurement (M.withVar i r)).x = some x ∧ x i = (Payload.z M.z i).val ∧
      (f.processMeasurement (M.without i)).x = some x' ∧ x' i = x0 i := by
  obtain ⟨x, hx, h⟩ := C128_first_message f hf x0 h0 (M.withVar i r) hfin
  refine ⟨x, ?_⟩
  have e : (f.processMeasurement (M.without i)).x = initState ((show Payload from M.z).without i) x0 := by
    unfold Filt.processMeasurement
    rw [hf]
    show (ekfCore p).initX ((show Payload from M.z).without i) f.x = _
    rw [h0]
    rfl
  have e2 : initState ((show Payload from M.z).without i) x0 = some fun k =>
      if ((show Payload from M.z).without i).upd k then (((show Payload from M.z).without i).z k).val else x0 k := by
    refine if_pos fun k hk => hfin k ?_
    have hk' : ((show Payload from M.z).upd k && decide (k ≠ i)) = true := hk
    exact (Bool.and_eq_true_iff.1 hk').1
  refine ⟨_, hx, (h i hi).1, e.trans e2, ?_⟩
  show (if ((show Payload from M.z).upd i && decide (i ≠ i)) = true then _ else x0 i) = x0 i
  rw [if_neg (by simp)]

/-- C129, refuted for many messages, if nothing else measures the variable: with process noise, however large the variance
of a constant reading `z` of a rate or acceleration, after enough readings the estimate is as close to `z` as one likes. -/
theorem C129_believed {p : FilterPar} (hc : ∀ c, p.ctlUpd c = false) {Q : Mat15} (hQ : Q.PosSemidef)
    (hd : p.dynamic = true → NoCross Q) (ha : HeldApart Q) (x0 : State) (i : Fin 15) (hi : Held i) (hq : 0 < Q i i)
    (z r : ℝ) (hr : 0 < r) (δ : Int) (hδ : 0 < δ) (ε : ℝ) (hε : 0 < ε) :
    ∃ N : ℕ, ∀ (f : Filt (ekfCore p)), Unheard Q f x0 → ∀ (m : Meas (ekfCore p)) (d : Reading), MeasReads m d → d.of ≠ i →
      ∀ (ms : List (Meas (ekfCore p))) (ds : List Reading), List.Forall₂ MeasReads ms ds →
      (∀ c ∈ ds, c.of = i ∧ c.z = z ∧ c.r = r) → Spaced δ d.time ds → N ≤ ds.length →
      ∀ x : State, ((m :: ms).foldl Filt.processMeasurement f).x = some x → |x i - z| ≤ ε := by
  have hs : 0 < toSec δ := by
    unfold toSec
    have : (0 : ℝ) < δ := by exact_mod_cast hδ
    positivity
  have hsq : 0 < toSec δ * Q i i := by positivity
  set c := r / (r + toSec δ * Q i i) with hcdef
  have hc0 : 0 ≤ c := by positivity
  have hc1 : c < 1 := by rw [hcdef, div_lt_one (by positivity)]; linarith
  obtain ⟨N, hN⟩ := exists_pow_lt_of_lt_one (show 0 < ε / (|x0 i - z| + 1) by positivity) hc1
  refine ⟨N, fun f hf m d hm hdi ms ds hms hz hsp hlen x hx => ?_⟩
  have h := C128_converges hc hQ hd ha hf hm hms hx hi hz hδ.le hsp hr
  rw [if_neg (fun e => hdi e.symm)] at h
  refine h.trans ?_
  have h1 : c ^ ds.length ≤ c ^ N := pow_le_pow_of_le_one hc0 hc1.le hlen
  have h2 : c ^ ds.length ≤ ε / (|x0 i - z| + 1) := h1.trans hN.le
  calc c ^ ds.length * |x0 i - z| ≤ ε / (|x0 i - z| + 1) * |x0 i - z| := mul_le_mul_of_nonneg_right h2 (abs_nonneg _)
    _ ≤ ε / (|x0 i - z| + 1) * (|x0 i - z| + 1) := mul_le_mul_of_nonneg_left (by linarith) (by positivity)
    _ = ε := by field_simp

theorem weightSum_append (a b : List (ℝ × ℝ)) : weightSum (a ++ b) = weightSum a + weightSum b := by
  induction a with
  | nil => simp [weightSum]
  | cons c a ih => simp only [List.cons_append, weightSum, ih]; ring

theorem valueSum_append (a b : List (ℝ × ℝ)) : valueSum (a ++ b) = valueSum a + valueSum b := by
  induction a with
  | nil => simp [valueSum]
  | cons c a ih => simp only [List.cons_append, valueSum, ih]; ring

theorem weightSum_const (zs : List ℝ) (r : ℝ) : weightSum (zs.map fun z => (z, r)) = zs.length / r := by
  induction zs with
  | nil => simp [weightSum]
  | cons c zs ih => simp only [List.map_cons, weightSum, ih, List.length_cons]; push_cast; ring

theorem valueSum_const (zs : List ℝ) (r : ℝ) : valueSum (zs.map fun z => (z, r)) = zs.sum / r := by
  induction zs with
  | nil => simp [valueSum]
  | cons c zs ih => simp only [List.map_cons, valueSum, ih, List.sum_cons]; ring

/-- C129, the exception of the documentation: the readings `as` of a second source, and inflated readings `zs`, of a rate or
acceleration without process noise.  With the variance of the `zs` the estimate tends to the mean of the second source alone. -/
theorem C129_second_source {p : FilterPar} (hc : ∀ c, p.ctlUpd c = false) {Q : Mat15} (hQ : Q.PosSemidef)
    (hd : p.dynamic = true → NoCross Q) (ha : HeldApart Q) (i : Fin 15) (hq : Q i i = 0)
    (as : List (ℝ × ℝ)) (h0 : as ≠ []) (hpos : ∀ a ∈ as, 0 < a.2) (zs : List ℝ) (ε : ℝ) (hε : 0 < ε) :
    ∃ r0 : ℝ, ∀ r, r0 ≤ r → ∀ (f : Filt (ekfCore p)) (x0 : State), Unheard Q f x0 →
      ∀ (m : Meas (ekfCore p)) (d : Reading), MeasReads m d → d.of = i →
      ∀ (ms : List (Meas (ekfCore p))) (ds : List Reading), List.Forall₂ MeasReads ms ds →
      (readingsOf i (d :: ds)).Perm (as ++ zs.map fun z => (z, r)) →
      ∀ x : State, ((m :: ms).foldl Filt.processMeasurement f).x = some x → |x i - average as| ≤ ε := by
  have hw : 0 < weightSum as := by
    cases as with
    | nil => exact absurd rfl h0
    | cons a as =>
      have hn : ∀ l : List (ℝ × ℝ), (∀ a ∈ l, 0 < a.2) → 0 ≤ weightSum l := by
        intro l hl
        induction l with
        | nil => exact le_rfl
        | cons b l ih =>
          have := ih fun c hc => hl c (List.mem_cons_of_mem _ hc)
          have hb := hl b List.mem_cons_self
          simp only [weightSum]
          positivity
      have := hn as fun c hc => hpos c (List.mem_cons_of_mem _ hc)
      have hb := hpos a List.mem_cons_self
      simp only [weightSum]
      positivity
  have ht : Tendsto (fun r : ℝ => average (as ++ zs.map fun z => (z, r))) atTop (nhds (average as)) := by
    have hn : Tendsto (fun r : ℝ => valueSum as + zs.sum / r) atTop (nhds (valueSum as)) := by
      simpa using (tendsto_const_nhds.div_atTop tendsto_id : Tendsto (fun r : ℝ => zs.sum / r) atTop (nhds 0)).const_add (valueSum as)
    have hdn : Tendsto (fun r : ℝ => weightSum as + zs.length / r) atTop (nhds (weightSum as)) := by
      simpa using (tendsto_const_nhds.div_atTop tendsto_id : Tendsto (fun r : ℝ => (zs.length : ℝ) / r) atTop (nhds 0)).const_add (weightSum as)
    refine (hn.div hdn hw.ne').congr fun r => ?_
    unfold average
    rw [valueSum_append, weightSum_append, weightSum_const, valueSum_const]
    rfl
  obtain ⟨r0, hr0⟩ := eventually_atTop.1 (ht.eventually (Metric.closedBall_mem_nhds _ hε))
  refine ⟨r0, fun r hr f x0 hf m d hm hdi ms ds hms hp x hx => ?_⟩
  obtain ⟨e, -⟩ := C128_mean hc hQ hd ha hf hm hms hx (by rw [hdi]; exact hq)
  rw [hdi] at e
  have : average (readingsOf i (d :: ds)) = average (as ++ zs.map fun z => (z, r)) := by
    unfold average
    rw [weightSum_perm hp, valueSum_perm hp]
  rw [e, this, ← Real.dist_eq]
  exact hr0 r hr

/-! ## Examples -/

/-- Position and yaw measured with unit variances; the yaw is to be ignored. -/
def headingDemo : Payload := ⟨fun k => decide (k = 0) || decide (k = iYaw), fun _ => .fin 1, 1, .unlimited⟩

theorem headingDemo_ok : headingDemo.Certain ∧ iYaw ∈ headingDemo.indices ∧ headingDemo.Alone iYaw ∧
    1e-9 ≤ headingDemo.R iYaw iYaw := by
  refine ⟨⟨rfl, PosSemidef.submatrix PosSemidef.one _, ?_⟩, ?_, ?_, by norm_num [headingDemo]⟩
  · have e : subR headingDemo.indices.get headingDemo.R = 1 := by
      ext a b
      show (if a = b then sanitize ((1 : Mat15) _ _) else (1 : Mat15) _ _) = _
      by_cases hab : a = b
      · subst hab
        simp [sanitize_one]
      · rw [if_neg hab, Matrix.one_apply_ne hab, Matrix.one_apply_ne]
        exact fun h => hab (get_inj headingDemo.indices_nodup h)
    rw [e]; simp
  · unfold Payload.indices
    exact List.mem_filter.2 ⟨List.mem_finRange _, by simp [headingDemo, Dbl.isNan, Dbl.isInf]⟩
  · intro k _ hk
    exact ⟨Matrix.one_apply_ne (fun e => hk e.symm), Matrix.one_apply_ne hk⟩

/-- With a unit covariance at the origin, a yaw of 1 with variance `r` gives the yaw `1 / (1 + r)`. -/
example (r : ℝ) (hr : 1 ≤ r) : ∃ y, Ekf.correct (headingDemo.withVar iYaw r) 0 1 = some y ∧ y.1 iYaw = 1 / (1 + r) := by
  obtain ⟨hm0, hi, hs, hf0⟩ := headingDemo_ok
  have hm := withVar_certain hm0 hf0 (show headingDemo.R iYaw iYaw ≤ r by simpa [headingDemo] using hr)
  set m := headingDemo.withVar iYaw r with hmdef
  have hR : m.R iYaw iYaw = r := by rw [hmdef, withVar_entry, if_pos ⟨rfl, rfl⟩]
  have hs' : m.Alone iYaw := by
    intro k hk hki
    rw [hmdef, withVar_entry, withVar_entry, if_neg (fun h => hki h.2), if_neg (fun h => hki h.1)]
    exact hs k hk hki
  obtain ⟨-, -, h3⟩ := correct_last hm (show iYaw ∈ m.indices from hi) hs'
    (by rw [hR]; exact le_trans (by norm_num) hr) 0 PosSemidef.one
  have ex : (m.without iYaw).indices = [0] := by
    have : (headingDemo.without iYaw) = (headingDemo.part fun k => !decide (k ≠ 0)) := by
      unfold Payload.without Payload.part headingDemo
      congr 1
      funext k
      revert k
      decide
    show (headingDemo.without iYaw).indices = [0]
    rw [this]
    refine part_single ?_
    unfold Payload.indices
    exact List.mem_filter.2 ⟨List.mem_finRange _, by simp [headingDemo, Dbl.isNan, Dbl.isInf]⟩
  have ht : textbook ((m.without iYaw).close 0) 0 1 iYaw = 0 := by
    rw [textbook_one ((close_indices _ _).trans ex)]
    simp [iYaw]
  have hj : joseph (m.without iYaw).indices.get (m.without iYaw).R
      (gain (m.without iYaw).indices.get (m.without iYaw).R 1) 1 iYaw iYaw = 1 := by
    rw [joseph_one ex (part_certain hm _) PosSemidef.one]
    simp [iYaw]
  have hcv : closeValue m 0 iYaw = 1 := by
    have : ((m.z iYaw).val - (0 : State) iYaw) = 1 := by simp [hmdef, Payload.withVar, headingDemo, Dbl.val]
    unfold closeValue
    rw [if_pos (show angular iYaw from Or.inr (Or.inr rfl)), this, normalizeAngle_of_mem (by linarith [Real.pi_pos]) (by linarith [Real.pi_gt_three])]
    simp
  obtain ⟨s, Pm, h4, h5⟩ : ∃ s Pm, Ekf.correct m 0 1 = some (wrapStateAngles s, Pm) ∧ s iYaw = 1 / (1 + r) := by
    refine ⟨_, _, h3, ?_⟩
    rw [ht, hj, hcv, hR, one_div]
    ring
  have h1 : (0 : ℝ) < 1 / (1 + r) := by positivity
  have h2 : 1 / (1 + r) ≤ 1 := by rw [div_le_one (by positivity)]; linarith
  have hw : wrapStateAngles s iYaw = normalizeAngle (s iYaw) := if_pos (Or.inr (Or.inr rfl))
  refine ⟨_, h4, hw.trans ?_⟩
  rw [h5]
  exact normalizeAngle_of_mem (by linarith [Real.pi_pos]) (by linarith [Real.pi_gt_three])

/-- The first message of a filter, with the yaw rate 1 of variance a million: the yaw rate is estimated as 1. -/
example : ∃ x x', ((idleFilt 0).processMeasurement ((readMsg 0 iVyaw 1 1).withVar iVyaw 1e6)).x = some x ∧ x iVyaw = 1 ∧
    ((idleFilt 0).processMeasurement ((readMsg 0 iVyaw 1 1).without iVyaw)).x = some x' ∧ x' iVyaw = 0 :=
  C129_first_message (idleFilt 0) rfl 0 rfl (readMsg 0 iVyaw 1 1) (fun _ _ => rfl) iVyaw (by simp [readMsg, readOf]) 1e6

/-- A filter that has been initialised, and a message about position and yaw at the time of its estimate. -/
example : ∃ (g : ℝ → State) (y : State),
    (∀ r, 1 ≤ r → ((show Filt (ekfCore plainPar) from { idleFilt 0 with initialized := true }).processMeasurement
      (Meas.withVar ⟨0, "compass", headingDemo, fun _ : Fin 6 => (0 : ℝ), 0⟩ iYaw r)).x = some (wrapStateAngles (g r))) ∧
    ∀ k, Tendsto (fun r => g r k) atTop (nhds (y k)) := by
  obtain ⟨hm, hi, hs, hf⟩ := headingDemo_ok
  have hP : Matrix.PosSemidef ((1e-3 : ℝ) • (1 : Mat15)) := PosSemidef.smul PosSemidef.one (by norm_num)
  obtain ⟨g, y, -, h1, h2, -⟩ := C129_limit_partial (p := plainPar) { idleFilt 0 with initialized := true } rfl
    (show Matrix.PosSemidef (0 : Mat15) from PosSemidef.zero) (fun _ _ _ _ => rfl) (fun _ => hP)
    ⟨0, "compass", headingDemo, fun _ : Fin 6 => (0 : ℝ), 0⟩ hm iYaw hi hs hf (by
      rw [process_eq _ rfl]
      have h := correct_close (part_certain hm fun k => decide (k ≠ iYaw)) hP (0 : State)
      have h' := (correct_some (p := plainPar) (g := { idleFilt 0 with initialized := true }) (x := 0) rfl h).1
      exact fun hn => absurd (hn.symm.trans h') (by simp))
  refine ⟨g, y, fun r hr => h1 r ?_, h2⟩
  show (1 : Mat15) iYaw iYaw ≤ r
  simpa using hr

/-- A yaw rate of 1 with variance 1000, again and again, with the default process noise. -/
example := C129_believed (p := plainPar) (by simp [plainPar]) defaultQ_psd (by simp [plainPar, demoPar])
  (fun i j _ _ hij => Matrix.diagonal_apply_ne _ hij) 0 iVyaw (by unfold Held; decide) (by simp [defaultQ, iVyaw]; norm_num)
  1 1000 (by norm_num) 1000000000 (by norm_num) 0.01 (by norm_num)

/-- A yaw rate of 2 from one source, and one of 4 from a second with an inflated variance. -/
example : ∃ (r : ℝ) (x : State), 1 ≤ r ∧
    ([readMsg 0 iVyaw 2 1, readMsg 1000000000 iVyaw 4 r].foldl Filt.processMeasurement (idleFilt 0)).x = some x ∧
    |x iVyaw - 2| ≤ 0.01 := by
  have hi : Held iVyaw := by unfold Held; decide
  obtain ⟨r0, h⟩ := C129_second_source (p := plainPar) (by simp [plainPar]) PosSemidef.zero (fun _ _ _ _ => rfl)
    (fun _ _ _ _ _ => rfl) iVyaw rfl [(2, 1)] (by simp) (by simp) [4] 0.01 (by norm_num)
  have hr : (1e-9 : ℝ) ≤ max r0 1 := le_trans (by norm_num) (le_max_right r0 1)
  obtain ⟨x, hx⟩ := two_readings_finite (Q := 0) PosSemidef.zero (i := iVyaw) (j := iVyaw) hi 2 4
    (r := 1) (r' := max r0 1) (by norm_num) hr
  refine ⟨max r0 1, x, le_max_right _ _, hx, ?_⟩
  have := h (max r0 1) (le_max_left _ _) (idleFilt 0) 0 (idleFilt_unheard 0) _ _ (readMsg_reads 0 hi 2 (r := 1) (by norm_num)) rfl
    _ _ (.cons (readMsg_reads 1000000000 hi 4 hr) .nil) (by simp [readingsOf]) x hx
  have e : average [((2 : ℝ), (1 : ℝ))] = 2 := by norm_num [average, valueSum, weightSum]
  rwa [e] at this

end RL
