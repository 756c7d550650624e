import Verif.Model.Query
import Verif.Props.Listener
import Verif.Props.EkfMotion
import Verif.Props.EkfCov
import Verif.Props.Params
import Verif.Props.Settings
/-! # C84 to C87: answers of the listener -/

namespace RL
open Listen Matrix Est

/-! ## C84 -/

/-- The parameter that gives a matrix row by row. -/
def rowMajor (M : Mat15) : List ℝ := (List.finRange 225).map fun k => M ⟨k.val / 15, by omega⟩ ⟨k.val % 15, by omega⟩

theorem rowMajor_getD (M : Mat15) (rest : List ℝ) (i j : Fin 15) :
    (rowMajor M ++ rest).getD (15 * i.val + j.val) 0 = M i j := by
  have hl : (rowMajor M).length = 225 := by simp [rowMajor]
  have h2 : (15 * i.val + j.val) / 15 = i.val := by omega
  have h3 : (15 * i.val + j.val) % 15 = j.val := by omega
  rw [List.getD_append _ _ _ _ (by omega), rowMajor, getD_map_finRange _ _ (by omega)]
  simp only [h2, h3]

/-- Written out in full, whatever follows. -/
theorem noise_read (fmt : ℝ → ℝ) (M : Mat15) (rest : List ℝ) :
    loadCovParam (some (rowMajor M ++ rest)) = .loaded Mᵀ ∧
    readNoise fmt (some (rowMajor M ++ rest)) = some (.of fun i j => fmt (M i j)) := by
  have hl : (rowMajor M ++ rest).length = 225 + rest.length := by simp [rowMajor]
  constructor
  · simp only [loadCovParam, loadCovariance, hl, if_true]
    rw [if_neg (by omega), if_pos (by omega)]
    congr 1
    ext i j
    exact rowMajor_getD M rest j i
  · simp only [readNoise, Option.getD_some, hl]
    rw [if_pos (by omega)]
    simp only [rowMajor_getD]

/-- C84, partial: a process noise written out in full, symmetric, with entries that survive printing, is used by the
filter and by the listener, whatever follows it in the list. -/
theorem C84_same_noise_partial (fmt : ℝ → ℝ) (M : Mat15) (rest : List ℝ) (hM : Mᵀ = M)
    (hf : ∀ i j, fmt (M i j) = M i j) :
    loadCovParam (some (rowMajor M ++ rest)) = .loaded M ∧ readNoise fmt (some (rowMajor M ++ rest)) = some M := by
  obtain ⟨h1, h2⟩ := noise_read fmt M rest
  refine ⟨by rw [h1, hM], h2.trans ?_⟩
  simp only [hf]
  rfl

/-- C84, refuted for all other lengths too: both read outside the bounds. -/
theorem C84_short_undefined (fmt : ℝ → ℝ) (l : List ℝ) (h : l.length < 225) (h2 : l.length ≠ 15) :
    loadCovParam (some l) = .outOfBounds ∧ readNoise fmt (some l) = none :=
  ⟨C56_short_list_out_of_bounds l h h2, if_neg (by simpa using h)⟩

/-- C84, refuted: without the parameter, and with the fifteen numbers of a diagonal, the filter has a process noise and the
constructor of the listener reads outside the bounds of a list. -/
theorem C84_default_undefined (fmt : ℝ → ℝ) :
    loadCovParam none = .unset ∧ readNoise fmt none = none ∧
    ∀ d : List ℝ, d.length = 15 → (∃ M, loadCovParam (some d) = .loaded M) ∧ readNoise fmt (some d) = none := by
  refine ⟨rfl, by simp [readNoise], ?_⟩
  intro d hd
  exact ⟨⟨Matrix.diagonal fun i => d.getD i.val 0, by simp only [loadCovParam, loadCovariance, hd, if_true]⟩,
    by simp [readNoise, hd]⟩

/-- C84, refuted for a matrix that is not symmetric: the two are transposed to each other. -/
theorem C84_transposed (M : Mat15) (rest : List ℝ) :
    loadCovParam (some (rowMajor M ++ rest)) = .loaded Mᵀ ∧ readNoise id (some (rowMajor M ++ rest)) = some M :=
  noise_read id M rest

example : (1 : Mat15)ᵀ = 1 ∧ (Matrix.single 0 1 1 : Mat15)ᵀ ≠ Matrix.single 0 1 1 := by
  refine ⟨by simp, fun h => ?_⟩
  have := congrFun (congrFun h 0) 1
  simp [Matrix.single] at this

/-! ## C86 -/

theorem predicted_spec {Q : Mat15} {e : Full} {dt : ℝ} (h0 : 0 ≤ dt) (h1 : dt ≤ 9000000000) (hc : Real.cos (e.x 4) ≠ 0) :
    ∃ n : Int, 0 ≤ n ∧ toSec n ≤ dt ∧ dt < toSec n + 1e-9 ∧
      predicted Q e dt = some ⟨wrapStateAngles ((transferF e.x (toSec n)).mulVec e.x),
        transferJ e.x (toSec n) * e.P * (transferJ e.x (toSec n))ᵀ + toSec n • Q⟩ := by
  have hv : (0:ℝ) ≤ dt * 1000000000 := by positivity
  have hf : fromSeconds dt = some ⌊dt * 1000000000⌋ := by
    unfold fromSeconds toInt64
    simp only [if_pos hv]
    rw [if_pos]
    refine ⟨le_trans (by norm_num) (Int.floor_nonneg.2 hv), ?_⟩
    have : (⌊dt * 1000000000⌋ : ℝ) ≤ 9223372036854775807 := (Int.floor_le _).trans (by nlinarith)
    exact_mod_cast this
  refine ⟨⌊dt * 1000000000⌋, Int.floor_nonneg.2 hv, ?_, ?_, ?_⟩
  · have := Int.floor_le (dt * 1000000000)
    unfold toSec
    norm_num
    linarith
  · have := Int.lt_floor_add_one (dt * 1000000000)
    unfold toSec
    norm_num
    linarith
  · have ha : ∀ t : ℝ, applyControl estPar (prepareControl estPar 0 0 0 e.x) t e.x = e.x := by
      intro t
      funext i
      have : prepareControl estPar 0 0 0 e.x = 0 := by funext c; simp [prepareControl, estPar]
      rw [this]
      fin_cases i <;> simp [applyControl, estPar]
    unfold predicted
    rw [hf, Option.bind_some, Ekf.predict, if_neg hc, ha]
    rfl

/-- A pair of messages as a filter publishes it whose covariance is one and whose pitch is not vertical. -/
def Published (m : MsgPair) : Prop :=
  ∃ fr x P t d, odomMessage fr true x P t = some m.1 ∧ accelMessage fr true x P t d = some m.2 ∧ P.PosSemidef ∧
    -(Real.pi / 2) < x 4 ∧ x 4 < Real.pi / 2

theorem published_stored {m : MsgPair} (h : Published m) :
    (fullOf m.1 m.2).P.PosSemidef ∧ Real.cos ((fullOf m.1 m.2).x 4) ≠ 0 := by
  obtain ⟨fr, x, P, t, d, ho, ha, hP, hp⟩ := h
  obtain ⟨-, hx, -, -, hc⟩ := C47_contents fr x P t d m.1 m.2 ho ha hp
  constructor
  · have mask : ∀ p : Fin 15 → Bool, (Matrix.of fun i j => if p i && p j then P i j else 0).PosSemidef :=
      fun p => psd_mask p P (hP.submatrix _)
    have e : (fullOf m.1 m.2).P = (Matrix.of fun i j => if decide (i.val < 6) && decide (j.val < 6) then P i j else 0) +
        (Matrix.of fun i j => if decide (6 ≤ i.val ∧ i.val < 12) && decide (6 ≤ j.val ∧ j.val < 12) then P i j else 0) +
        (Matrix.of fun i j => if decide (12 ≤ i.val) && decide (12 ≤ j.val) then P i j else 0) := by
      ext i j
      rw [hc]
      simp only [Matrix.add_apply, Matrix.of_apply, Bool.and_eq_true, decide_eq_true_eq]
      by_cases h1 : i.val < 6 ∧ j.val < 6
      · rw [if_pos (Or.inl h1), if_pos h1, if_neg (by omega), if_neg (by omega)]; simp
      by_cases h2 : (6 ≤ i.val ∧ i.val < 12) ∧ 6 ≤ j.val ∧ j.val < 12
      · rw [if_pos (Or.inr (Or.inl h2)), if_neg h1, if_pos h2, if_neg (by omega)]; simp
      by_cases h3 : 12 ≤ i.val ∧ 12 ≤ j.val
      · rw [if_pos (Or.inr (Or.inr h3)), if_neg h1, if_neg h2, if_pos h3]; simp
      · rw [if_neg (by tauto), if_neg h1, if_neg h2, if_neg h3]; simp
    rw [e]
    exact ((mask fun i => decide (i.val < 6)).add (mask fun i => decide (6 ≤ i.val ∧ i.val < 12))).add
      (mask fun i => decide (12 ≤ i.val))
  · rw [hx 4 (by decide)]
    exact (Real.cos_pos_of_mem_Ioo hp).ne'

/-- Everything a listener holds was heard. -/
theorem heard_item {size : ℕ} {ms : List MsgPair} {a : Item Full} (h : a ∈ (heard size ms).buf.items) :
    ∃ m ∈ ms, a = ⟨stampSec m.1.stamp, fullOf m.1 m.2⟩ := by
  rw [heard_buf] at h
  have h2 := (C44_buffer_partial size (ms.map fun m => (Op.set ⟨stampSec m.1.stamp, fullOf m.1 m.2⟩ : Op Full))).2.2 a h
  simpa [setStates, eq_comm, List.filterMap_map] using h2

theorem mounted_psd (world mount : Tf) (e : Full) (h : e.P.PosSemidef) : (mounted world mount e).P.PosSemidef := by
  set pose : Matrix (Fin 6) (Fin 6) ℝ := Listen.rot6d mount.rot *
    (.of fun i j => e.P (Fin.castLE (by omega) i) (Fin.castLE (by omega) j)) * (Listen.rot6d mount.rot)ᵀ with hpose
  have h6 : pose.PosSemidef := psd_congr (h.submatrix (Fin.castLE (by omega))) _
  have := psd_mask (fun i : Fin 15 => decide (i.val < 6)) (mounted world mount e).P (by
    have e1 : (mounted world mount e).P.submatrix (fun i : {i : Fin 15 // decide (i.val < 6) = true} => i.1)
          (fun i : {i : Fin 15 // decide (i.val < 6) = true} => i.1) =
        pose.submatrix (fun i : {i : Fin 15 // decide (i.val < 6) = true} => ⟨i.1.val, by simpa using i.2⟩)
          (fun i : {i : Fin 15 // decide (i.val < 6) = true} => ⟨i.1.val, by simpa using i.2⟩) := by
      ext i j
      have hi : i.1.val < 6 := by simpa using i.2
      have hj : j.1.val < 6 := by simpa using j.2
      simp [mounted, hi, hj, hpose]
    rw [e1]
    exact h6.submatrix _)
  have e2 : (Matrix.of fun i j : Fin 15 => if decide (i.val < 6) && decide (j.val < 6) then (mounted world mount e).P i j else 0) =
      (mounted world mount e).P := by
    ext i j
    by_cases h1 : i.val < 6 ∧ j.val < 6
    · simp [h1.1, h1.2]
    · simp only [Matrix.of_apply, Bool.and_eq_true, decide_eq_true_eq, if_neg h1, mounted, dif_neg h1]
  rwa [e2] at this

theorem heard_ordered (size : ℕ) (ms : List MsgPair) : Ordered (heard size ms).buf.items := by
  rw [heard_buf]; exact (C44_buffer_partial size _).1

/-- C86, partial: whatever a filter with proper covariances has sent, every covariance in an answer of the listener is a
covariance, for every frame, unless the time asked for is before all stored ones. -/
theorem C86_covariances_partial (size : ℕ) (ms : List MsgPair) (hms : ∀ m ∈ ms, Published m) (Q : Mat15) (hQ : Q.PosSemidef)
    (ext : Full → ℝ → Full) (hext : Predicts Q ext) (tf : TfBuffer) {tree : Listen.Frames} (ht : IsTree tree) {depth : ℕ}
    (hd : tree.length < depth) (c : Cache) (hc : CacheOk tree c) (time : ℝ) (frame worldFrame : String) (r : Full)
    (hpast : (heard size ms).buf.items = [] ∨ ∃ a ∈ (heard size ms).buf.items, a.time ≤ time)
    (hr : ∀ a ∈ (heard size ms).buf.items, time - a.time ≤ 9000000000)
    (h : ((heard size ms).getState ext tf tree depth c time frame worldFrame).1 = .state r) : r.P.PosSemidef := by
  have hst : ∀ a ∈ (heard size ms).buf.items, a.val.P.PosSemidef ∧ Real.cos (a.val.x 4) ≠ 0 := by
    intro a ha
    obtain ⟨m, hm, rfl⟩ := heard_item ha
    exact published_stored (hms m hm)
  have hex : ∀ a ∈ (heard size ms).buf.items, a.time < time → (ext a.val (time - a.time)).P.PosSemidef := by
    intro a ha hlt
    obtain ⟨h1, h2⟩ := hst a ha
    obtain ⟨n, hn, -, -, e⟩ := predicted_spec (Q := Q) (by linarith : 0 ≤ time - a.time) (hr a ha) h2
    rw [hext _ _ _ e]
    exact (psd_congr h1 _).add (hQ.smul (by unfold toSec; positivity))
  have hw : (written ((heard size ms).buf.getState ext time)).P.PosSemidef := by
    rcases C45_total (heard size ms).buf time (heard_ordered size ms) with h | ⟨l, a, r, h, h1, h2⟩ |
      ⟨l, a, c, r, h, h1, h2, h3⟩ | ⟨l, a, h, h1⟩ | ⟨a, r, h, h1⟩
    · rw [(C45_empty _ ext time).2 h]; exact PosSemidef.zero
    · rw [C45_exact _ ext time l r a h h1 h2]
      exact (hst a (by rw [h]; simp)).1
    · rw [C45_between _ ext time l r a c h h1 h2 h3]
      exact hex a (by rw [h]; simp) h1
    · rw [C45_after _ ext time l a h h1]
      exact hex a (by rw [h]; simp) h1
    · exfalso
      rcases hpast with h0 | ⟨b, hb, hle⟩
      · rw [h0] at h; cases h
      · exact absurd (h1 b hb) (not_lt.2 hle)
  obtain ⟨-, ⟨-, -, h3⟩ | ⟨ns, world, mount, -, -, -, -, h3⟩⟩ :=
    getState_cases (heard size ms) ext tf ht hd c hc time frame worldFrame r h
  · rw [h3]; exact hw
  · rw [h3]; exact mounted_psd _ _ _ hw

/-- The messages of a filter at rest at the origin that is sure about it. -/
noncomputable def restPair (t : Int) : MsgPair :=
  ({ frame := "odom", child := "base_link", stamp := t, pos := ![0, 0, 0], ori := Quat.ofRPY 0 0 0, poseCov := fun _ => 0,
     lin := ![.fin 0, .fin 0, .fin 0], ang := ![.fin 0, .fin 0, .fin 0], twistCov := fun _ => 0 },
   { frame := "base_link", stamp := t, lin := ![0, 0, 0], ang := 0, cov := fun _ => 0 })

theorem restPair_published (t : Int) : Published (restPair t) := by
  refine ⟨{ map := "map", odom := "odom", base := "base_link", world := "odom", baseOut := "base_link" }, 0, 0, t, ⟨0, 0, 0, 0⟩, ?_, ?_, PosSemidef.zero, ?_, ?_⟩
  · simp [odomMessage, restPair]
  · simp [accelMessage, restPair]
  · simpa using Real.pi_pos
  · simpa using Real.pi_pos

theorem restPair_full (t : Int) : fullOf (restPair t).1 (restPair t).2 = Full.zero := by
  have hq := C43_same_angles 0 0 0 (by linarith [Real.pi_pos]) (by linarith [Real.pi_pos])
  have h0 : normalizeAngle 0 = 0 := normalizeAngle_zero
  unfold fullOf restPair Full.zero
  simp only [hq, h0]
  congr 1
  · funext i; fin_cases i <;> rfl
  · ext i j
    simp

theorem heard_rest (t : Int) : (heard 10 [restPair t]).buf.items = [⟨stampSec t, Full.zero⟩] ∧
    (heard 10 [restPair t]).base = "base_link" ∧ (heard 10 [restPair t]).world = "odom" := by
  rw [← restPair_full t]
  simp [heard, Listener.new, Listener.callback, Buf.setState, Buf.pushBack, restPair]

/-- C86, refuted for times before all stored ones: the noise is subtracted. -/
theorem C86_past_not_covariance (ext : Full → ℝ → Full) (hext : Predicts 1 ext) (tf : TfBuffer) (tree : Listen.Frames)
    (depth : ℕ) (c : Cache) : ∃ m r, Published m ∧
    ((heard 10 [m]).getState ext tf tree depth c 0 "base_link" "").1 = .state r ∧ ¬r.P.PosSemidef := by
  obtain ⟨h1, h2, h3⟩ := heard_rest 1000000000
  refine ⟨restPair 1000000000, ext Full.zero (0 - 1), restPair_published _, ?_, ?_⟩
  · have hg := C45_before (heard 10 [restPair 1000000000]).buf ext 0 [] ⟨1, Full.zero⟩
      (by rw [h1]; simp [stampSec]) (by rw [h1]; simp [stampSec])
    unfold Listener.getState
    rw [h2, h3, if_neg (by decide), if_pos (by decide), hg]
    rfl
  · have e : predicted 1 Full.zero (0 - 1) = some ⟨wrapStateAngles ((transferF Full.zero.x (toSec (-1000000000))).mulVec
        (applyControl estPar (prepareControl estPar 0 0 0 Full.zero.x) (toSec (-1000000000)) Full.zero.x)),
        transferJ Full.zero.x (toSec (-1000000000)) * Full.zero.P * (transferJ Full.zero.x (toSec (-1000000000))).transpose +
          toSec (-1000000000) • noiseQ estPar 1 Full.zero.x⟩ := by
      have hf : fromSeconds (0 - 1) = some (-1000000000) := by
        have : ⌈(-1000000000 : ℝ)⌉ = -1000000000 := by
          have := Int.ceil_intCast (R := ℝ) (-1000000000)
          exact_mod_cast this
        norm_num [fromSeconds, toInt64, this]
      unfold predicted
      rw [hf, Option.bind_some, Ekf.predict, if_neg (by simp [Full.zero])]
      rfl
    rw [hext _ _ _ e]
    intro hp
    have := hp.diag_nonneg (i := 0)
    simp [noiseQ, estPar, Full.zero, toSec] at this
    linarith

/-- The conditions of `C86_covariances_partial` are met, with an answer. -/
example (tf : TfBuffer) (tree : Listen.Frames) (depth : ℕ) (c : Cache) (ext : Full → ℝ → Full) :
    (∀ m ∈ [restPair 1000000000], Published m) ∧ (1 : Mat15).PosSemidef ∧
    (∃ a ∈ (heard 10 [restPair 1000000000]).buf.items, a.time ≤ 2) ∧
    ∃ r, ((heard 10 [restPair 1000000000]).getState ext tf tree depth c 2 "base_link" "").1 = .state r := by
  obtain ⟨h1, h2, h3⟩ := heard_rest 1000000000
  refine ⟨by simpa using restPair_published _, PosSemidef.one, ⟨⟨1, Full.zero⟩, by rw [h1]; simp [stampSec], by norm_num⟩,
    written ((heard 10 [restPair 1000000000]).buf.getState ext 2), ?_⟩
  unfold Listener.getState
  rw [h2, h3, if_neg (by decide), if_pos (by decide)]

/-! ## C87 -/

/-- C87: an answer for the base after a stored state is that state carried on by rigid body motion, over the time between the
two (to a nanosecond), angles wrapped. -/
theorem C87_carried_on (b : Buf Full) (Q : Mat15) (ext : Full → ℝ → Full) (hext : Predicts Q ext) (time : ℝ)
    (l r : List (Item Full)) (a : Item Full) (hb : b.items = l ++ a :: r) (ha : a.time < time) (hr : ∀ x ∈ r, time < x.time)
    (hc : Real.cos (a.val.x 4) ≠ 0) (ht : time - a.time ≤ 9000000000) :
    ∃ dt, 0 ≤ dt ∧ dt ≤ time - a.time ∧ time - a.time < dt + 1e-9 ∧ ∀ i : Fin 15,
      (written (b.getState ext time)).x i = if i = 3 ∨ i = 4 ∨ i = 5 then
        normalizeAngle ((Body.move (Body.kin a.val.x) dt).vec i) else (Body.move (Body.kin a.val.x) dt).vec i := by
  obtain ⟨n, hn, h1, h2, e⟩ := predicted_spec (Q := Q) (by linarith : 0 ≤ time - a.time) ht hc
  have hw : written (b.getState ext time) = ext a.val (time - a.time) := by
    cases r with
    | nil => rw [C45_after b ext time l a hb ha]; rfl
    | cons c r =>
      rw [C45_between b ext time l r a c hb ha (hr c (by simp)) (fun x hx => hr x (by simp [hx]))]; rfl
  refine ⟨toSec n, by unfold toSec; positivity, h1, h2, ?_⟩
  intro i
  rw [hw, hext _ _ _ e, C03_rigid_body]
  rfl

example : ∃ b : Buf Full, ∃ l r a, b.items = l ++ a :: r ∧ a.time < 1 ∧ (∀ x ∈ r, (1:ℝ) < x.time) ∧ Real.cos (a.val.x 4) ≠ 0 ∧
    1 - a.time ≤ (9000000000:ℝ) ∧ ∃ Q ext, Predicts Q ext :=
  ⟨⟨[⟨0, Full.zero⟩, ⟨2, Full.zero⟩], 2⟩, [], [⟨2, Full.zero⟩], ⟨0, Full.zero⟩, rfl, by norm_num, by simp, by simp [Full.zero],
    by norm_num, 1, fun e dt => (predicted 1 e dt).getD e, fun e dt r h => by simp [h]⟩

/-! ## C85 -/

/-- C85, partial: a covariance that is symmetric, as those of `C86_covariances_partial` are, is sent row by row, as
documented, and the state in the documented order. -/
theorem C85_row_major_partial (e : Full) (h : e.Pᵀ = e.P) : ∃ s, response (.state e) = some s ∧ s.state = e.x ∧
    ∀ i j : Fin 15, s.covariance ⟨15 * i.val + j.val, by omega⟩ = e.P i j := by
  refine ⟨_, rfl, rfl, ?_⟩
  intro i j
  have h2 : (15 * i.val + j.val) / 15 = i.val := by omega
  have h3 : (15 * i.val + j.val) % 15 = j.val := by omega
  simp only [h2, h3]
  exact congrFun (congrFun h i) j

example (e : Full) (h : e.P.PosSemidef) : e.Pᵀ = e.P := by
  have := h.1
  rwa [IsHermitian, conjTranspose_eq_transpose_of_trivial] at this

/-- C85, refuted: what is sent is the transposed matrix. -/
theorem C85_column_major (e : Full) : ∃ s, response (.state e) = some s ∧
    ∀ i j : Fin 15, s.covariance ⟨15 * i.val + j.val, by omega⟩ = e.P j i := by
  refine ⟨_, rfl, ?_⟩
  intro i j
  have h2 : (15 * i.val + j.val) / 15 = i.val := by omega
  have h3 : (15 * i.val + j.val) % 15 = j.val := by omega
  simp only [h2, h3]

/-- A listener can hold a covariance that is not symmetric: it is what the messages contain. -/
theorem C85_asymmetric : ∃ m : MsgPair, ∃ s, response ((heard 10 [m]).getState (fun e _ => e) (fun _ _ _ => none) [] 1 ⟨[], []⟩ 0 "base_link" "").1 = some s ∧
    s.covariance 1 = 0 ∧ m.1.poseCov 1 = 1 := by
  let m : MsgPair := ({ (restPair 0).1 with poseCov := fun k => if k = 1 then 1 else 0 }, (restPair 0).2)
  have h1 : (heard 10 [m]).buf.items = [⟨0, fullOf m.1 m.2⟩] ∧ (heard 10 [m]).base = "base_link" ∧ (heard 10 [m]).world = "odom" := by
    simp [heard, Listener.new, Listener.callback, Buf.setState, Buf.pushBack, restPair, m, stampSec]
  obtain ⟨h1, h2, h3⟩ := h1
  have hg := C45_exact (heard 10 [m]).buf (fun e _ => e) 0 [] [] ⟨0, fullOf m.1 m.2⟩ h1 rfl (by simp)
  refine ⟨m, { state := (fullOf m.1 m.2).x
               covariance := fun k => (fullOf m.1 m.2).P ⟨k.val % 15, by omega⟩ ⟨k.val / 15, by omega⟩ }, ?_, ?_, by simp [m]⟩
  · unfold Listener.getState
    rw [h2, h3, if_neg (by decide), if_pos (by decide), hg]
    rfl
  · simp [fullOf, m]

/-- C85, refuted: when there is nothing to answer, the response is that of a robot at rest at the origin, without any
uncertainty. -/
theorem C85_no_answer (ext : Full → ℝ → Full) (tf : TfBuffer) (tree : Listen.Frames) (depth : ℕ) (c : Cache) :
    ((Listener.new 10).getState ext tf tree depth c 0 "base_link" "").1 = .no ∧
    ((heard 10 [restPair 0]).getState ext tf tree depth c 0 "base_link" "").1 = .state Full.zero ∧
    response .no = response (.state Full.zero) := by
  obtain ⟨h1, h2, h3⟩ := heard_rest 0
  refine ⟨by simp [Listener.getState, Listener.new], ?_, ?_⟩
  · have hg := C45_exact (heard 10 [restPair 0]).buf ext 0 [] [] ⟨0, Full.zero⟩ (by rw [h1]; simp [stampSec]) rfl (by simp)
    unfold Listener.getState
    rw [h2, h3, if_neg (by decide), if_pos (by decide), hg]
    rfl
  · simp only [response, Full.zero, Option.some.injEq, Response.mk.injEq, true_and]
    rfl

end RL
