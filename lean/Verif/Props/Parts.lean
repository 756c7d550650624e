import Verif.Proofs.Parts
/-! # C95: what is measured counts, not how it is cut into measurements -/

namespace RL
open Matrix Real

/-- Fuse measurements one after the other. -/
noncomputable def fuseAll : List Payload → State → Mat15 → Option (State × Mat15)
  | [], x, P => some (x, P)
  | m :: ms, x, P => (Ekf.correct m x P).bind fun r => fuseAll ms r.1 r.2

/-- No measured angle is ever more than half a turn away from the estimate it is compared with. -/
def NearAll : List Payload → State → Mat15 → Prop
  | [], _, _ => True
  | m :: ms, x, P => m.Near x ∧ NearAll ms (textbook m x P) (joseph m.indices.get m.R (gain m.indices.get m.R P) P)

/-- Two states are the same but for full turns of the angles. -/
def UpToTurns (x y : State) : Prop := ∀ i, (angular i → ∃ k : ℤ, x i = y i + k * (2 * π)) ∧ (¬ angular i → x i = y i)

theorem UpToTurns.refl (x : State) : UpToTurns x x := fun i => ⟨fun _ => ⟨0, by simp⟩, fun _ => rfl⟩

theorem nearAll_noAngles (ms : List Payload) (h : ∀ m ∈ ms, m.NoAngles) (x : State) (P : Mat15) : NearAll ms x P := by
  induction ms generalizing x P with
  | nil => trivial
  | cons m ms ih =>
    exact ⟨(h m List.mem_cons_self).near x, ih (fun m' h' => h m' (List.mem_cons_of_mem _ h')) _ _⟩

/-- The estimate after any measurements, from the sums of their weights and weighted values. -/
theorem fuseAll_eq (ms : List Payload) (hm : ∀ m ∈ ms, m.Certain) {P : Mat15} (hP : P.PosSemidef) {x y : State}
    (hxy : UpToTurns x y) (hn : NearAll ms y P) :
    ∃ F : Mat15, F * (1 + P * (ms.map weight).sum) = 1 ∧ ∃ x', fuseAll ms x P = some (x', F * P) ∧
      UpToTurns x' (F.mulVec (y + P.mulVec (ms.map push).sum)) ∧
      (ms ≠ [] → x' = wrapStateAngles (F.mulVec (y + P.mulVec (ms.map push).sum))) := by
  induction ms generalizing P x y with
  | nil =>
    refine ⟨1, by simp, x, by simp [fuseAll], ?_, fun h => absurd rfl h⟩
    simpa using hxy
  | cons m ms ih =>
    have hmm := hm m List.mem_cons_self
    obtain ⟨f1, f2, f3⟩ := factor_spec hmm hP
    have hc := correct_near hmm hP hn.1 hxy
    have hP' := joseph_psd' hmm hP
    obtain ⟨F, g1, x', g2, g3, g4⟩ := ih (fun m' h' => hm m' (List.mem_cons_of_mem _ h')) hP' (wrap_turns (textbook m y P)) hn.2
    rw [f2] at g1 g2 g3 g4 hc
    refine ⟨F * factor m P, ?_, x', ?_, ?_⟩
    · rw [List.map_cons, List.sum_cons]
      exact two_updates f1 g1
    · show (Ekf.correct m x P).bind _ = _
      rw [hc, Option.bind_some, Matrix.mul_assoc]
      exact g2
    · have e : F.mulVec (textbook m y P + (factor m P * P).mulVec (ms.map push).sum) =
          (F * factor m P).mulVec (y + P.mulVec ((m :: ms).map push).sum) := by
        rw [f3, List.map_cons, List.sum_cons, Matrix.mulVec_add P, ← add_assoc, ← Matrix.mulVec_mulVec (ms.map push).sum,
          ← Matrix.mulVec_add, Matrix.mulVec_mulVec]
      rw [e] at g3 g4
      refine ⟨g3, fun _ => ?_⟩
      by_cases h0 : ms = []
      · subst h0
        have hx : x' = wrapStateAngles (textbook m y P) := by
          simp only [fuseAll, Option.some.injEq, Prod.mk.injEq] at g2
          exact g2.1.symm
        have hF : F = 1 := by
          have : F * (1 + factor m P * P * 0) = 1 := g1
          rwa [Matrix.mul_zero, add_zero, Matrix.mul_one] at this
        rw [hx, ← e, hF]
        simp
      · exact g4 h0

/-- Only the sums count. -/
theorem fuseAll_congr {ms ms' : List Payload} (hm : ∀ m ∈ ms, m.Certain) (hm' : ∀ m ∈ ms', m.Certain) (h0 : ms ≠ [])
    (h0' : ms' ≠ []) {P : Mat15} (hP : P.PosSemidef) {x : State} (hn : NearAll ms x P) (hn' : NearAll ms' x P)
    (hw : (ms.map weight).sum = (ms'.map weight).sum) (hp : (ms.map push).sum = (ms'.map push).sum) :
    fuseAll ms x P = fuseAll ms' x P := by
  obtain ⟨F, f1, y, f2, -, f3⟩ := fuseAll_eq ms hm hP (UpToTurns.refl x) hn
  obtain ⟨F', f1', y', f2', -, f3'⟩ := fuseAll_eq ms' hm' hP (UpToTurns.refl x) hn'
  have e : F = F' := left_inverse_unique f1 (by rw [hw]; exact f1')
  rw [f2, f2', f3 h0, f3' h0', e, hp]

/-! ## Parts -/

/-- The part of a measurement that concerns some of the variables. -/
def Payload.part (m : Payload) (A : Fin 15 → Bool) : Payload := { m with upd := fun i => m.upd i && A i }

/-- The errors of the variables of the part and of the others are not correlated. -/
def Payload.Separate (m : Payload) (A : Fin 15 → Bool) : Prop :=
  ∀ i j, m.upd i = true → m.upd j = true → A i ≠ A j → m.R i j = 0

theorem part_mem (m : Payload) (A : Fin 15 → Bool) (i : Fin 15) : i ∈ (m.part A).indices ↔ i ∈ m.indices ∧ A i = true := by
  simp [Payload.indices, Payload.part]
  tauto

theorem part_values (m : Payload) (A : Fin 15 → Bool) (i : Fin 15) :
    ((m.part A).z i = m.z i) ∧ (m.part A).R = m.R := ⟨rfl, rfl⟩

theorem mem_upd {m : Payload} {i : Fin 15} (h : i ∈ m.indices) : m.upd i = true := by
  simp [Payload.indices] at h
  exact h.1.1

theorem parts_disjoint (m : Payload) (A : Fin 15 → Bool) :
    (∀ i ∈ (m.part A).indices, i ∉ (m.part fun i => !A i).indices) ∧
    (∀ i ∈ (m.part fun i => !A i).indices, i ∉ (m.part A).indices) := by
  constructor
  · intro i h1 h2
    have := ((part_mem _ _ _).1 h1).2
    have := ((part_mem _ _ _).1 h2).2
    simp_all
  · intro i h1 h2
    have := ((part_mem _ _ _).1 h1).2
    have := ((part_mem _ _ _).1 h2).2
    simp_all

theorem parts_sum (m : Payload) (A : Fin 15 → Bool) (hs : m.Separate A) :
    m.proj = (m.part A).proj + (m.part fun i => !A i).proj ∧
    m.spread = (m.part A).spread + (m.part fun i => !A i).spread ∧
    m.placed = (m.part A).placed + (m.part fun i => !A i).placed := by
  refine ⟨?_, ?_, ?_⟩
  · unfold Payload.proj
    rw [Matrix.diagonal_add]
    congr 1
    funext i
    simp only [part_mem]
    by_cases h : i ∈ m.indices <;> cases hA : A i <;> simp [h]
  · ext i j
    simp only [Payload.spread, Matrix.add_apply, Matrix.of_apply, part_mem, (part_values m _ 0).2]
    by_cases h : i ∈ m.indices
    · by_cases h' : j ∈ m.indices
      · by_cases hA : A i = A j
        · cases h1 : A i <;> simp [h, h', ← hA, h1]
        · have hne : i ≠ j := fun he => hA (by rw [he])
          rw [hs i j (mem_upd h) (mem_upd h') hA]
          cases h1 : A i <;> cases h2 : A j <;> simp [h, h', hne] <;> simp_all
      · simp [h']
    · simp [h]
  · funext i
    simp only [Payload.placed, Pi.add_apply, part_mem, part_values]
    by_cases h : i ∈ m.indices <;> cases hA : A i <;> simp [h]

theorem part_certain {m : Payload} (hm : m.Certain) (A : Fin 15 → Bool) : (m.part A).Certain where
  ungated := hm.ungated
  good := by
    have := Matrix.PosSemidef.submatrix hm.good
      (fun i : {i // (m.part A).upd i = true} => (⟨i.1, by
        have := i.2
        simp only [Payload.part, Bool.and_eq_true] at this
        exact this.1⟩ : {i // m.upd i = true}))
    exact this
  proper := by
    have hp := hm.posDef
    have hmem : ∀ a : Fin (m.part A).indices.length, ∃ b : Fin m.indices.length, m.indices.get b = (m.part A).indices.get a := by
      intro a
      exact List.get_of_mem ((part_mem _ _ _).1 (List.get_mem (m.part A).indices a)).1
    choose e he using hmem
    have hinj : Function.Injective e := by
      intro a b hab
      exact get_inj (m.part A).indices_nodup (by rw [← he, ← he, hab])
    have key : subR (m.part A).indices.get (m.part A).R = (subR m.indices.get m.R).submatrix e e := by
      ext a b
      simp only [subR, Matrix.of_apply, Matrix.submatrix_apply, he, hinj.eq_iff]
      rfl
    rw [key]
    exact ((hp.submatrix hinj).isUnit.map Matrix.detMonoidHom).ne_zero

theorem weight_parts {m : Payload} (hm : m.Certain) (A : Fin 15 → Bool) (hs : m.Separate A) :
    weight m = weight (m.part A) + weight (m.part fun i => !A i) ∧
    push m = push (m.part A) + push (m.part fun i => !A i) := by
  obtain ⟨h1, h2, h3⟩ := parts_sum m A hs
  obtain ⟨d1, d2⟩ := parts_disjoint m A
  obtain ⟨a1, a2, a3⟩ := weight_elsewhere d1
  obtain ⟨b1, b2, b3⟩ := weight_elsewhere d2
  have hw : weight m = weight (m.part A) + weight (m.part fun i => !A i) := by
    apply weight_unique hm
    · rw [h1, Matrix.add_mul, Matrix.mul_add, Matrix.mul_add, a1, b1, weight_proj, weight_proj, add_zero, zero_add]
    · rw [h2, h1, Matrix.add_mul, Matrix.mul_add, Matrix.mul_add, a2, b2, weight_spread (part_certain hm _),
        weight_spread (part_certain hm _), add_zero, zero_add]
  refine ⟨hw, ?_⟩
  rw [push_eq, push_eq, push_eq, hw, h3, Matrix.add_mulVec, Matrix.mulVec_add, Matrix.mulVec_add, a3, b3, add_zero, zero_add]

/-- C95: a measurement and its two parts, one after the other, give the same estimate and covariance, if the errors of the
parts are not correlated (and no angle wraps). -/
theorem C95_two_parts_partial (m : Payload) (hm : m.Certain) (A : Fin 15 → Bool) (hs : m.Separate A) (x : State) (P : Mat15)
    (hP : P.PosSemidef) (h1 : m.Near x) (h2 : NearAll [m.part A, m.part fun i => !A i] x P) :
    fuseTwo (m.part A) (m.part fun i => !A i) x P = Ekf.correct m x P := by
  obtain ⟨w, p⟩ := weight_parts hm A hs
  have := fuseAll_congr (ms := [m.part A, m.part fun i => !A i]) (ms' := [m])
    (by intro n hn; simp only [List.mem_cons, List.not_mem_nil, or_false] at hn; rcases hn with rfl | rfl <;> exact part_certain hm _)
    (by intro n hn; rw [List.mem_singleton] at hn; rw [hn]; exact hm) (by simp) (by simp) hP h2 ⟨h1, trivial⟩
    (by simp [w]) (by simp [p])
  simp only [fuseAll, Option.bind_some] at this
  unfold fuseTwo
  have e : ∀ o : Option (State × Mat15), o.bind (fun r => some (r.1, r.2)) = o := by intro o; cases o <;> rfl
  rw [e] at this
  rw [← this]
  congr 1
  funext r
  exact (e _).symm

/-- The parts by a grouping of the variables. -/
def Payload.parts (m : Payload) {k : ℕ} (c : Fin 15 → Fin k) : List Payload := List.ofFn fun a => m.part fun i => decide (c i = a)

/-- Errors of variables of different groups are not correlated. -/
def Payload.Apart (m : Payload) {k : ℕ} (c : Fin 15 → Fin k) : Prop :=
  ∀ i j, m.upd i = true → m.upd j = true → c i ≠ c j → m.R i j = 0

theorem groups_sum (m : Payload) {k : ℕ} (c : Fin 15 → Fin k) (hs : m.Apart c) :
    m.proj = ∑ a, (m.part fun i => decide (c i = a)).proj ∧ m.spread = ∑ a, (m.part fun i => decide (c i = a)).spread ∧
    m.placed = ∑ a, (m.part fun i => decide (c i = a)).placed := by
  have one : ∀ (p : Prop) [Decidable p] (v : ℝ) (b : Fin k), ∑ a, (if p ∧ b = a then v else 0) = if p then v else 0 := by
    intro p _ v b
    by_cases hp : p
    · simp [hp]
    · simp [hp]
  refine ⟨?_, ?_, ?_⟩
  · ext i j
    rw [Matrix.sum_apply]
    simp only [Payload.proj, Matrix.diagonal_apply, part_mem, decide_eq_true_eq]
    by_cases hij : i = j
    · simp only [hij, if_true, one]
    · simp [hij]
  · ext i j
    rw [Matrix.sum_apply]
    simp only [Payload.spread, Matrix.of_apply, part_mem, decide_eq_true_eq, (part_values m _ 0).2]
    by_cases hc : c i = c j
    · have : ∀ a, ((i ∈ m.indices ∧ c i = a) ∧ (j ∈ m.indices ∧ c j = a)) ↔ ((i ∈ m.indices ∧ j ∈ m.indices) ∧ c i = a) := by
        intro a
        rw [← hc]
        tauto
      simp only [this, one]
    · have hne : i ≠ j := fun he => hc (by rw [he])
      rw [Finset.sum_eq_zero]
      · split
        · rename_i h
          exact hs i j (mem_upd h.1) (mem_upd h.2) hc
        · rfl
      · intro a _
        rw [if_neg]
        rintro ⟨⟨-, h1⟩, -, h2⟩
        exact hc (h1.trans h2.symm)
  · funext i
    rw [Finset.sum_apply]
    simp only [Payload.placed, part_mem, part_values, decide_eq_true_eq, one]

theorem groups_disjoint (m : Payload) {k : ℕ} (c : Fin 15 → Fin k) {a b : Fin k} (h : a ≠ b) :
    ∀ i ∈ (m.part fun i => decide (c i = a)).indices, i ∉ (m.part fun i => decide (c i = b)).indices := by
  intro i h1 h2
  have h1 := ((part_mem _ _ _).1 h1).2
  have h2 := ((part_mem _ _ _).1 h2).2
  rw [decide_eq_true_eq] at h1 h2
  exact h (h1.symm.trans h2)

theorem sum_mul_sum {k : ℕ} (W B V : Fin k → Mat15) (h1 : ∀ a b, a ≠ b → W a * B b = 0) (h2 : ∀ a, W a * B a = V a) :
    (∑ a, W a) * ∑ b, B b = ∑ a, V a := by
  rw [Matrix.sum_mul]
  refine Finset.sum_congr rfl fun a _ => ?_
  rw [Matrix.mul_sum, Finset.sum_eq_single a (fun b _ hb => h1 a b hb.symm) (fun h => absurd (Finset.mem_univ a) h), h2]

theorem weight_groups {m : Payload} (hm : m.Certain) {k : ℕ} (c : Fin 15 → Fin k) (hs : m.Apart c) :
    ((m.parts c).map weight).sum = weight m ∧ ((m.parts c).map push).sum = push m := by
  obtain ⟨h1, h2, h3⟩ := groups_sum m c hs
  have he := fun {a b : Fin k} (hab : a ≠ b) => weight_elsewhere (groups_disjoint m c hab)
  have e1 : ((m.parts c).map weight).sum = ∑ a, weight (m.part fun i => decide (c i = a)) := by
    unfold Payload.parts
    rw [List.map_ofFn, List.sum_ofFn]
    rfl
  have e2 : ((m.parts c).map push).sum = ∑ a, push (m.part fun i => decide (c i = a)) := by
    unfold Payload.parts
    rw [List.map_ofFn, List.sum_ofFn]
    rfl
  have hw : weight m = ∑ a, weight (m.part fun i => decide (c i = a)) := by
    apply weight_unique hm
    · rw [h1]
      exact sum_mul_sum _ _ _ (fun a b hab => (he hab).1) (fun a => weight_proj _)
    · rw [h2, h1]
      exact sum_mul_sum _ _ _ (fun a b hab => (he hab).2.1) (fun a => weight_spread (part_certain hm _))
  refine ⟨e1.trans hw.symm, ?_⟩
  rw [e2, push_eq m, hw, h3, Matrix.sum_mulVec]
  refine Finset.sum_congr rfl fun a _ => ?_
  rw [Matrix.mulVec_sum, Finset.sum_eq_single a (fun b _ hb => (he hb.symm).2.2) (fun h => absurd (Finset.mem_univ a) h), push_eq]

theorem fuseAll_single (m : Payload) (x : State) (P : Mat15) : fuseAll [m] x P = Ekf.correct m x P := by
  simp only [fuseAll]
  cases Ekf.correct m x P <;> rfl

/-- C95: a measurement and its parts, one after the other, give the same estimate and covariance, if errors of different
parts are not correlated (and no angle wraps); down to single variables if the covariance is diagonal. -/
theorem C95_any_parts_partial (m : Payload) (hm : m.Certain) {k : ℕ} (hk : 0 < k) (c : Fin 15 → Fin k) (hs : m.Apart c)
    (x : State) (P : Mat15) (hP : P.PosSemidef) (h1 : m.Near x) (h2 : NearAll (m.parts c) x P) :
    fuseAll (m.parts c) x P = Ekf.correct m x P := by
  obtain ⟨w, p⟩ := weight_groups hm c hs
  rw [← fuseAll_single]
  refine fuseAll_congr ?_ (by intro n hn; rw [List.mem_singleton] at hn; rw [hn]; exact hm) ?_ (by simp) hP h2 ⟨h1, trivial⟩
    (by simp [w]) (by simp [p])
  · intro n hn
    unfold Payload.parts at hn
    rw [List.mem_ofFn] at hn
    obtain ⟨a, rfl⟩ := hn
    exact part_certain hm _
  · intro h
    have := congrArg List.length h
    simp [Payload.parts] at this
    omega

/-! ## Repeated readings -/

/-- Readings of one sensor: the same variables, all numbers, and the same covariance. -/
structure Readings (m : Payload) (l : List Payload) : Prop where
  upd : ∀ r ∈ l, r.upd = m.upd
  cov : ∀ r ∈ l, r.R = m.R
  thr : ∀ r ∈ l, r.thresh = m.thresh
  fin : ∀ r ∈ l, ∀ i, m.upd i = true → (r.z i).isFin = true

/-- The mean of readings, with the covariance of a mean of independent errors. -/
noncomputable def meanReading (m : Payload) (l : List Payload) : Payload :=
  { upd := m.upd, z := fun i => .fin ((l.map fun r => (r.z i).val).sum / l.length), R := (l.length : ℝ)⁻¹ • m.R, thresh := m.thresh }

theorem indices_all {m : Payload} (h : ∀ i, m.upd i = true → (m.z i).isFin = true) : m.indices = (List.finRange 15).filter m.upd := by
  unfold Payload.indices
  refine List.filter_congr fun i _ => ?_
  cases hu : m.upd i
  · simp
  · have := h i hu
    cases hz : m.z i <;> rw [hz] at this <;> simp_all [Dbl.isFin, Dbl.isNan, Dbl.isInf]

theorem sanitize_div {v n : ℝ} (hn : 1 ≤ n) (h : 1e-9 * n ≤ v) : sanitize (n⁻¹ * v) = n⁻¹ * sanitize v := by
  have h0 : 0 < n := by linarith
  have e : (1e-9 : ℝ) ≤ n⁻¹ * v := by
    rw [inv_mul_eq_div, le_div_iff₀ h0]
    exact h
  have e' : (1e-9 : ℝ) ≤ v := by
    refine le_trans ?_ h
    have : (0 : ℝ) ≤ 1e-9 := by norm_num
    nlinarith
  have k : ∀ w : ℝ, 1e-9 ≤ w → sanitize w = w := by
    intro w hw
    have : (0 : ℝ) ≤ 1e-9 := by norm_num
    unfold sanitize
    simp only
    rw [if_neg (show ¬ w < 0 by linarith), if_neg (by linarith)]
  rw [k _ e, k _ e']

/-- C95: readings of one sensor taken together count as their mean with the variance divided by their number, while that
stays above the floor of 1e-9. -/
theorem C95_readings_partial (l : List Payload) (hl : l ≠ []) (m : Payload) (hr : Readings m l) (hc : ∀ r ∈ l, r.Certain)
    (hfloor : ∀ i, m.upd i = true → 1e-9 * (l.length : ℝ) ≤ m.R i i) (x : State) (P : Mat15) (hP : P.PosSemidef)
    (h1 : (meanReading m l).Near x) (h2 : NearAll l x P) :
    fuseAll l x P = Ekf.correct (meanReading m l) x P := by
  have hn : (1 : ℝ) ≤ l.length := by
    have : 1 ≤ l.length := List.length_pos_iff.2 hl
    exact_mod_cast this
  have hn0 : (l.length : ℝ) ≠ 0 := by linarith
  set M := meanReading m l with hM
  have idx : ∀ r ∈ l, r.indices = M.indices := by
    intro r hr'
    rw [indices_all (m := r) (by rw [hr.upd r hr']; exact hr.fin r hr'), indices_all (m := M) (fun _ _ => rfl), hr.upd r hr']
    rfl
  have hsub : ∀ r ∈ l, subR M.indices.get M.R = (l.length : ℝ)⁻¹ • subR M.indices.get r.R := by
    intro r hr'
    rw [hr.cov r hr']
    ext a b
    simp only [subR, Matrix.of_apply, Matrix.smul_apply, smul_eq_mul]
    have hu : m.upd (M.indices.get a) = true := M.indices_upd a
    split
    · rename_i hab
      subst hab
      exact sanitize_div hn (hfloor _ hu)
    · rfl
  obtain ⟨r0, hr0⟩ := List.exists_mem_of_ne_nil l hl
  have hMc : M.Certain := by
    have c0 := hc r0 hr0
    refine ⟨by rw [← c0.ungated, hr.thr r0 hr0]; rfl, ?_, ?_⟩
    · have g := c0.good
      unfold Payload.GoodR at g ⊢
      have : Matrix.PosSemidef ((l.length : ℝ)⁻¹ • Matrix.submatrix m.R (fun i : {i // m.upd i = true} => i.1) (fun i => i.1)) := by
        refine Matrix.PosSemidef.smul ?_ (by positivity)
        have e1 := hr.upd r0 hr0
        have e2 := hr.cov r0 hr0
        obtain ⟨u, z, R, t⟩ := r0
        simp only at e1 e2
        subst e1 e2
        exact g
      exact this
    · rw [hsub r0 hr0]
      have p0 := c0.proper
      rw [idx r0 hr0] at p0
      rw [Matrix.det_smul]
      exact mul_ne_zero (pow_ne_zero _ (inv_ne_zero hn0)) p0
  have hsp : ∀ r ∈ l, r.spread = (l.length : ℝ) • M.spread ∧ r.proj = M.proj := by
    intro r hr'
    constructor
    · rw [spread_eq M, hsub r hr', spread_eq r]
      have := idx r hr'
      generalize r.indices = ri at *
      subst this
      rw [Matrix.mul_smul, Matrix.smul_mul, smul_smul, mul_inv_cancel₀ hn0, one_smul]
    · unfold Payload.proj
      rw [idx r hr']
  have hw : ∀ r ∈ l, weight r = (l.length : ℝ)⁻¹ • weight M := by
    intro r hr'
    refine weight_unique (hc r hr') ?_ ?_
    · rw [(hsp r hr').2, Matrix.smul_mul, weight_proj]
    · rw [(hsp r hr').1, (hsp r hr').2, Matrix.smul_mul, Matrix.mul_smul, smul_smul, inv_mul_cancel₀ hn0, one_smul,
        weight_spread hMc]
  have hpl : (l.map Payload.placed).sum = (l.length : ℝ) • M.placed := by
    funext i
    have e1 : (l.map Payload.placed).sum i = (l.map fun r => r.placed i).sum := by
      clear_value M
      clear * -
      induction l with
      | nil => rfl
      | cons a l ih => simp [ih]
    rw [e1, Pi.smul_apply, smul_eq_mul]
    by_cases hi : i ∈ M.indices
    · have : l.map (fun r => r.placed i) = l.map fun r => (r.z i).val := by
        refine List.map_congr_left fun r hr' => ?_
        unfold Payload.placed
        rw [idx r hr', if_pos hi]
      rw [this]
      unfold Payload.placed
      rw [if_pos hi]
      show _ = (l.length : ℝ) * (_ / _)
      rw [mul_div_cancel₀ _ hn0]
    · have : l.map (fun r => r.placed i) = l.map fun _ => (0 : ℝ) := by
        refine List.map_congr_left fun r hr' => ?_
        unfold Payload.placed
        rw [idx r hr', if_neg hi]
      rw [this]
      unfold Payload.placed
      rw [if_neg hi]
      simp
  have sumw : (l.map weight).sum = weight M := by
    have : l.map weight = l.map fun _ => (l.length : ℝ)⁻¹ • weight M := List.map_congr_left hw
    rw [this, List.map_const', List.sum_replicate, ← Nat.cast_smul_eq_nsmul ℝ, smul_smul, mul_inv_cancel₀ hn0, one_smul]
  have sump : (l.map push).sum = push M := by
    have : l.map push = l.map fun r => ((l.length : ℝ)⁻¹ • weight M).mulVec r.placed :=
      List.map_congr_left fun r hr' => by rw [push_eq, hw r hr']
    have lin : ∀ (W : Mat15) (k : List Payload), (k.map fun r => W.mulVec r.placed).sum = W.mulVec (k.map Payload.placed).sum := by
      intro W k
      induction k with
      | nil => simp
      | cons a k ih => simp only [List.map_cons, List.sum_cons, ih, Matrix.mulVec_add]
    rw [this, lin, hpl, Matrix.mulVec_smul, Matrix.smul_mulVec, smul_smul, mul_inv_cancel₀ hn0, one_smul, push_eq]
  rw [← fuseAll_single]
  exact fuseAll_congr hc (by intro n hn; rw [List.mem_singleton] at hn; rw [hn]; exact hMc) hl (by simp) hP h2 ⟨h1, trivial⟩
    (by simp [sumw]) (by simp [sump])

/-! ## In the filter -/

theorem correct_all {p : FilterPar} (zs : List Payload) (g : Filt (ekfCore p)) (x : State) (hx : g.x = some x)
    (r : State × Mat15) (hr : fuseAll zs x g.cov = some r) :
    (zs.foldl (fun f z => Filt.correct f z) g : Filt (ekfCore p)) = { g with x := some r.1, cov := r.2 } := by
  induction zs generalizing g x with
  | nil =>
    obtain ⟨ini, x', P, u, pr, par, ctl, ct, lt, st⟩ := g
    simp only at hx
    subst hx
    simp only [fuseAll, Option.some.injEq] at hr
    subst hr
    rfl
  | cons z zs ih =>
    obtain ⟨ini, x', P, u, pr, par, ctl, ct, lt, st⟩ := g
    simp only at hx
    subst hx
    have hr' : (Ekf.correct z x P).bind (fun q => fuseAll zs q.1 q.2) = some r := hr
    obtain ⟨q, h1, h2⟩ := Option.bind_eq_some_iff.1 hr'
    have e : (Filt.correct (⟨ini, some x, P, u, pr, par, ctl, ct, lt, st⟩ : Filt (ekfCore p)) z : Filt (ekfCore p)) =
        ⟨ini, some q.1, q.2, (), pr, par, ctl, ct, lt, st⟩ := by
      simp [Filt.correct, ekfCore, h1]
    exact (congrArg (fun h : Filt (ekfCore p) => List.foldl (fun f z => Filt.correct f z) h zs) e).trans
      (ih ⟨ini, some q.1, q.2, (), pr, par, ctl, ct, lt, st⟩ q.1 rfl h2)

theorem process_all {C : Core} (l : List (Meas C)) (f : Filt C) (hi : f.initialized = true) (t : Int) (ht : ∀ m ∈ l, m.time = t)
    (h0 : l ≠ []) : l.foldl Filt.processMeasurement f = (l.map Meas.z).foldl Filt.correct (catchUp f t) := by
  have stay : ∀ (l : List (Meas C)) (g : Filt C), g.initialized = true → t ≤ g.lastTime → (∀ m ∈ l, m.time = t) →
      l.foldl Filt.processMeasurement g = (l.map Meas.z).foldl Filt.correct g := by
    intro l
    induction l with
    | nil => intro g _ _ _; rfl
    | cons m l ih =>
      intro g hg hl hm
      have e : catchUp g m.time = g := by
        unfold catchUp
        rw [if_neg (by rw [hm m List.mem_cons_self]; omega)]
      rw [List.foldl_cons, List.map_cons, List.foldl_cons, process_eq g hg, e]
      exact ih _ hg hl fun m' h' => hm m' (List.mem_cons_of_mem _ h')
  cases l with
  | nil => exact absurd rfl h0
  | cons m l =>
    rw [List.foldl_cons, List.map_cons, List.foldl_cons, process_eq f hi, ht m List.mem_cons_self]
    refine stay l _ ?_ ?_ fun m' h' => ht m' (List.mem_cons_of_mem _ h')
    · unfold catchUp Filt.correct
      split <;> exact hi
    · show t ≤ (catchUp f t).lastTime
      unfold catchUp
      split
      · exact le_refl _
      · rename_i h
        simpa using h

theorem none_all {p : FilterPar} (zs : List Payload) (g : Filt (ekfCore p)) (hx : g.x = none) :
    (zs.foldl (fun f z => Filt.correct f z) g : Filt (ekfCore p)) = g := by
  induction zs with
  | nil => rfl
  | cons z zs ih =>
    obtain ⟨ini, x', P, u, pr, par, ctl, ct, lt, st⟩ := g
    simp only at hx
    subst hx
    exact ih

/-- Two bundles of simultaneous measurements with the same effect on an estimate have the same effect on the filter. -/
theorem process_congr {p : FilterPar} (f : Filt (ekfCore p)) (hi : f.initialized = true)
    (hQ : Matrix.PosSemidef (n := Fin 15) (R := ℝ) f.par) (hd : p.dynamic = true → NoCross f.par) (hc : CovOk f.x f.cov)
    (t : Int) (l l' : List (Meas (ekfCore p))) (h0 : l ≠ []) (h0' : l' ≠ []) (ht : ∀ m ∈ l, m.time = t) (ht' : ∀ m ∈ l', m.time = t)
    (zs zs' : List Payload) (hz : l.map Meas.z = zs) (hz' : l'.map Meas.z = zs')
    (h : ∀ (x : State) (P : Mat15), P.PosSemidef → ∃ r, fuseAll zs x P = some r ∧ fuseAll zs' x P = some r) :
    l.foldl Filt.processMeasurement f = l'.foldl Filt.processMeasurement f := by
  rw [process_all l f hi t ht h0, process_all l' f hi t ht' h0', hz, hz']
  have hcg : CovOk (catchUp f t).x (catchUp f t).cov := by
    unfold catchUp
    split
    · exact ekfCore_predict_cov hQ hd _ _ _ _ _ _ _ (by omega) hc
    · exact hc
  generalize catchUp f t = g at hcg ⊢
  cases hx : g.x with
  | none =>
    exact (none_all zs g hx).trans (none_all zs' g hx).symm
  | some x =>
    obtain ⟨r, h1, h2⟩ := h x g.cov (hcg (by rw [hx]; simp))
    exact (correct_all zs g x hx r h1).trans (correct_all zs' g x hx r h2).symm

/-- C95 for an initialised filter: a measurement without orientations, or its parts with the same stamp. -/
theorem C95_filter_parts_partial (p : FilterPar) (f : Filt (ekfCore p)) (hi : f.initialized = true)
    (hQ : Matrix.PosSemidef (n := Fin 15) (R := ℝ) f.par) (hd : p.dynamic = true → NoCross f.par) (hc : CovOk f.x f.cov)
    (m : Payload) (hm : m.Certain) (hna : m.NoAngles) {k : ℕ} (hk : 0 < k) (c : Fin 15 → Fin k) (hs : m.Apart c)
    (M : Meas (ekfCore p)) (hM : M.z = m) (l : List (Meas (ekfCore p))) (hl : l.map Meas.z = m.parts c)
    (ht : ∀ n ∈ l, n.time = M.time) : l.foldl Filt.processMeasurement f = f.processMeasurement M := by
  have hp : ∀ n ∈ m.parts c, n.NoAngles ∧ n.Certain := by
    intro n hn
    unfold Payload.parts at hn
    rw [List.mem_ofFn] at hn
    obtain ⟨a, rfl⟩ := hn
    refine ⟨fun i hia => ?_, part_certain hm _⟩
    simp [Payload.part, hna i hia]
  refine process_congr f hi hQ hd hc M.time l [M] ?_ (by simp) ht (by simp) (m.parts c) [m] hl (by rw [← hM]; rfl) fun x P hP => ?_
  · rintro rfl
    have e : (m.parts c).length = 0 := by rw [← hl]; rfl
    rw [Payload.parts, List.length_ofFn] at e
    omega
  · obtain ⟨F, -, y, h1, -⟩ := fuseAll_eq (m.parts c) (fun n hn => (hp n hn).2) hP (UpToTurns.refl x)
      (nearAll_noAngles _ (fun n hn => (hp n hn).1) _ _)
    have h2 := C95_any_parts_partial m hm hk c hs x P hP (hna.near x) (nearAll_noAngles _ (fun n hn => (hp n hn).1) _ _)
    refine ⟨_, h1, ?_⟩
    exact (fuseAll_single m x P).trans (h2.symm.trans h1)

/-- C95 for an initialised filter: readings without orientations with the same stamp, or their mean. -/
theorem C95_filter_readings_partial (p : FilterPar) (f : Filt (ekfCore p)) (hi : f.initialized = true)
    (hQ : Matrix.PosSemidef (n := Fin 15) (R := ℝ) f.par) (hd : p.dynamic = true → NoCross f.par) (hc : CovOk f.x f.cov)
    (m : Payload) (hna : m.NoAngles) (zs : List Payload) (h0 : zs ≠ []) (hr : Readings m zs) (hcr : ∀ r ∈ zs, r.Certain)
    (hfloor : ∀ i, m.upd i = true → 1e-9 * (zs.length : ℝ) ≤ m.R i i) (l : List (Meas (ekfCore p))) (hl : l.map Meas.z = zs)
    (M : Meas (ekfCore p)) (hM : M.z = meanReading m zs) (ht : ∀ n ∈ l, n.time = M.time) :
    l.foldl Filt.processMeasurement f = f.processMeasurement M := by
  have hna' : ∀ n ∈ zs, n.NoAngles := fun n hn i hia => by
    rw [hr.upd n hn]; exact hna i hia
  refine process_congr f hi hQ hd hc M.time l [M] ?_ (by simp) ht (by simp) zs [meanReading m zs] hl (by rw [← hM]; rfl)
    fun x P hP => ?_
  · rintro rfl
    exact h0 hl.symm
  obtain ⟨F, -, y, h1, -⟩ := fuseAll_eq zs hcr hP (UpToTurns.refl x) (nearAll_noAngles _ hna' _ _)
  have h2 := C95_readings_partial zs h0 m hr hcr hfloor x P hP (Payload.NoAngles.near (m := meanReading m zs) hna x)
    (nearAll_noAngles _ hna' _ _)
  exact ⟨_, h1, (fuseAll_single _ x P).trans (h2.symm.trans h1)⟩

/-- C95 is false at start-up: a filter is initialised by one message with position and velocity to both; of two messages
the first initialises and the second is fused into the initial covariance, which is near zero by default. -/
theorem C95_first_message (p : FilterPar) (f : Filt (ekfCore p)) (hi : f.initialized = false) (hx : f.x = some (0 : State))
    (hc : f.cov = ((1e-9 : ℝ) • (1 : Mat15) : Mat15)) (t : Int) (v : ℝ) (c : Fin 6 → ℝ) (ct : Int) (both : Payload)
    (hu : ∀ i, both.upd i = true ↔ i = iX ∨ i = iVx) (h1 : both.z iX = .fin 0) (h2 : both.z iVx = .fin v) :
    ∃ x x' : State,
      (f.processMeasurement ⟨t, "odom", both, c, ct⟩).x = some x ∧ x iX = 0 ∧ x iVx = v ∧
      (List.foldl Filt.processMeasurement f [⟨t, "pose", oneVar iX 0 .unlimited, c, ct⟩,
        ⟨t, "twist", oneVar iVx v .unlimited, c, ct⟩]).x = some x' ∧ x' iVx = v * (1e-9 / (1e-9 + 1)) := by
  obtain ⟨-, x', -, -, e1, e2⟩ := C89_first_measurements p f hi hx hc t v c ct
  refine ⟨fun k => if both.upd k then (both.z k).val else 0, x', ?_, ?_, ?_, e1, e2⟩
  · unfold Filt.processMeasurement
    simp only [hi, Bool.false_eq_true, if_false, hx]
    show initState both 0 = _
    unfold initState
    rw [if_pos]
    · rfl
    · intro i hi'
      rcases (hu i).1 hi' with rfl | rfl
      · rw [h1]; rfl
      · rw [h2]; rfl
  · show (if both.upd iX then (both.z iX).val else 0) = 0
    rw [if_pos ((hu iX).2 (Or.inl rfl)), h1]; rfl
  · show (if both.upd iVx then (both.z iVx).val else 0) = v
    rw [if_pos ((hu iVx).2 (Or.inr rfl)), h2]; rfl

/-- A position and a velocity with independent errors: one measurement, or two. -/
def pairDemo : Payload := ⟨fun k => decide (k = 0) || decide (k = 6), fun _ => .fin 1, 1, .unlimited⟩

example : pairDemo.Certain ∧ pairDemo.NoAngles ∧ pairDemo.Apart (fun i : Fin 15 => (⟨i.val / 6, by omega⟩ : Fin 3)) := by
  refine ⟨⟨rfl, PosSemidef.one.submatrix _, ?_⟩, ?_, ?_⟩
  · have : subR pairDemo.indices.get pairDemo.R = 1 := by
      ext a b
      show (if a = b then sanitize ((1 : Mat15) _ _) else (1 : Mat15) _ _) = _
      by_cases hab : a = b
      · subst hab
        simp [sanitize_one]
      · rw [if_neg hab, Matrix.one_apply_ne hab, Matrix.one_apply_ne]
        exact fun h => hab (get_inj pairDemo.indices_nodup h)
    rw [this, Matrix.det_one]
    exact one_ne_zero
  · rintro i (rfl | rfl | rfl) <;> rfl
  · intro i j _ _ h
    exact Matrix.one_apply_ne fun he => h (by rw [he])

example : Readings (oneVar 0 0 .unlimited) [oneVar 0 1 .unlimited, oneVar 0 3 .unlimited] ∧
    ((meanReading (oneVar 0 0 .unlimited) [oneVar 0 1 .unlimited, oneVar 0 3 .unlimited]).z 0).val = 2 := by
  refine ⟨⟨?_, ?_, ?_, ?_⟩, ?_⟩
  · simp [oneVar]
  · simp [oneVar]
  · simp [oneVar]
  · simp [oneVar, Dbl.isFin]
  · simp [meanReading, oneVar, Dbl.val]
    norm_num

end RL
