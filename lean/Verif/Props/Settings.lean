import Verif.Model.Settings
import Verif.Props.EkfControl
import Verif.Props.Output
import Verif.Props.Params
/-! # C80 to C83: timeouts, initial state, frames, complaints about covariances -/

namespace RL

theorem toInt64_le {v : ℝ} {n : Int} (h : toInt64 v = some n) (hv : 0 ≤ v) : (n : ℝ) ≤ v ∧ v < n + 1 := by
  unfold toInt64 at h
  simp only [if_pos hv] at h
  split at h
  · rw [Option.some.injEq] at h
    subst h
    exact ⟨Int.floor_le v, Int.lt_floor_add_one v⟩
  · simp at h

theorem fromSeconds_zero : fromSeconds 0 = some 0 := by
  simp [fromSeconds, toInt64]

/-- C80 with a `control_timeout`: a command given at `ct` acts as given on predictions to a time `ref` less than the
timeout later (up to the resolution of a nanosecond), and as a zero command from then on. -/
theorem C80_given_partial (tp : TimeParams) (ts : TimeSettings) (h : loadTimes tp = some ts) (s : ℝ) (hs : 0 ≤ s)
    (hp : tp.controlTimeout = some s) (upd : Fin 6 → Bool) (aL aG dL dG : Fin 6 → ℝ) (dyn : Bool) (ctl : Fin 6 → ℝ)
    (ct ref : Int) (x : State) (c : Fin 6) (hc : upd c = true) :
    (toSec (ref - ct) ≤ s - 1e-9 → prepareControl (controlPar ts true upd aL aG dL dG dyn) ctl ct ref x c =
      computeControlAcceleration (x (velIdx c)) (ctl c) (aL c) (aG c) (dL c) (dG c)) ∧
    (s ≤ toSec (ref - ct) → prepareControl (controlPar ts true upd aL aG dL dG dyn) ctl ct ref x c =
      computeControlAcceleration (x (velIdx c)) 0 (aL c) (aG c) (dL c) (dG c)) := by
  have hn : fromSeconds s = some ts.controlTimeout := by
    unfold loadTimes at h
    rw [hp] at h
    simp only [Option.bind_eq_bind, Option.pure_def, Option.getD_some, Option.bind_eq_some_iff, Option.some.injEq] at h
    obtain ⟨a, _, b, _, c, h3, rfl⟩ := h
    exact h3
  obtain ⟨h1, h2⟩ := toInt64_le hn (by positivity)
  have hd : toSec (ref - ct) = ((ref - ct : Int) : ℝ) * 1e-9 := rfl
  constructor
  · intro ha
    refine (C11_prepared (controlPar ts true upd aL aG dL dG dyn) ctl ct ref x c).2.2 rfl hc ?_
    change ref - ct < ts.controlTimeout
    rw [hd] at ha
    have : ((ref - ct : Int) : ℝ) < (ts.controlTimeout : ℝ) := by
      norm_num at ha ⊢; linarith
    exact_mod_cast this
  · intro ha
    refine (C11_prepared (controlPar ts true upd aL aG dL dG dyn) ctl ct ref x c).2.1 rfl hc ?_
    change ts.controlTimeout ≤ ref - ct
    rw [hd] at ha
    have : (ts.controlTimeout : ℝ) ≤ ((ref - ct : Int) : ℝ) := by
      norm_num at ha ⊢; linarith
    exact_mod_cast this

example : ∃ ts, loadTimes ⟨none, some 1, none, some 0.5⟩ = some ts ∧ ts.controlTimeout = 500000000 := by
  have h1 : fromSeconds 1 = some 1000000000 := by
    norm_num [fromSeconds, toInt64]
  have h2 : fromSeconds |0| = some 0 := by simp [fromSeconds_zero]
  have h3 : fromSeconds 0.5 = some 500000000 := by
    norm_num [fromSeconds, toInt64]
  refine ⟨⟨1000000000, 0, 500000000⟩, ?_, rfl⟩
  simp [loadTimes, h1, fromSeconds_zero]
  norm_num [fromSeconds, toInt64]

/-- The `control_timeout` is zero when the parameter is not set, whatever the sensor timeout. -/
theorem loadTimes_default (tp : TimeParams) (ts : TimeSettings) (h : loadTimes tp = some ts) (hp : tp.controlTimeout = none) :
    ts.controlTimeout = 0 := by
  unfold loadTimes at h
  rw [hp] at h
  simp only [Option.bind_eq_bind, Option.pure_def, Option.getD_none, fromSeconds_zero, Option.bind_eq_some_iff,
    Option.some.injEq] at h
  obtain ⟨a, _, b, _, c, rfl, rfl⟩ := h
  rfl

/-- C80 is refuted without the parameter `control_timeout`: the prediction to any time from the one of the command on is
the same for all commands, so that no command ever acts after it was given. -/
theorem C80_default_ignores_commands (tp : TimeParams) (ts : TimeSettings) (h : loadTimes tp = some ts)
    (hp : tp.controlTimeout = none) (use : Bool) (upd : Fin 6 → Bool) (aL aG dL dG : Fin 6 → ℝ) (dyn : Bool) (Q : Mat15)
    (ctl ctl' : Fin 6 → ℝ) (ct ct' ref : Int) (dt : ℝ) (x : State) (P : Mat15) (hr : ct ≤ ref) (hr' : ct' ≤ ref) :
    Ekf.predict (controlPar ts use upd aL aG dL dG dyn) Q ctl ct ref dt x P =
      Ekf.predict (controlPar ts use upd aL aG dL dG dyn) Q ctl' ct' ref dt x P := by
  have h0 := loadTimes_default tp ts h hp
  apply C11_expired_command
  · change ts.controlTimeout ≤ _; omega
  · change ts.controlTimeout ≤ _; omega

/-- It acts on predictions to times before it was given (measurements that were under way). -/
theorem C80_default_acts_on_the_past (tp : TimeParams) (ts : TimeSettings) (h : loadTimes tp = some ts)
    (hp : tp.controlTimeout = none) (upd : Fin 6 → Bool) (aL aG dL dG : Fin 6 → ℝ) (dyn : Bool)
    (ctl : Fin 6 → ℝ) (ct ref : Int) (x : State) (c : Fin 6) (hc : upd c = true) (hr : ref < ct) :
    prepareControl (controlPar ts true upd aL aG dL dG dyn) ctl ct ref x c =
      computeControlAcceleration (x (velIdx c)) (ctl c) (aL c) (aG c) (dL c) (dG c) := by
  have h0 := loadTimes_default tp ts h hp
  refine (C11_prepared (controlPar ts true upd aL aG dL dG dyn) ctl ct ref x c).2.2 rfl hc ?_
  change ref - ct < ts.controlTimeout
  omega

/-- The parameters of the preceding theorems exist, and commands differ: with a `control_timeout` of half a second the same
two commands lead to different predictions. -/
example : ∃ tp ts, loadTimes tp = some ts ∧ tp.controlTimeout = none ∧ 0 < ts.sensorTimeout := by
  have h1 : fromSeconds 1 = some 1000000000 := by
    norm_num [fromSeconds, toInt64]
  refine ⟨⟨none, some 1, none, none⟩, ⟨1000000000, 0, 0⟩, ?_, rfl, by norm_num⟩
  simp [loadTimes, h1, fromSeconds_zero]

example : computeControlAcceleration 0 1 1 1 1 1 ≠ computeControlAcceleration 0 0 1 1 1 1 := by
  norm_num [computeControlAcceleration]

/-- C81: after the first measurement every variable that it does not measure has the value given in `initial_state`, every
variable it measures the measured value. -/
theorem C81_first_estimate (p : FilterPar) (P : MQueue (ekfCore p)) (cfg : Cfg (ekfCore p)) (l : List ℝ) (hl : l.length = 15)
    (hcfg : cfg.initialState = some (initialState (some l))) (fctl0 : Fin 6 → ℝ) (now : Int) (z : Payload) (t : Int) (topic : String)
    (ctl : Fin 6 → ℝ) (ct : Int) (hfin : ∀ i, z.upd i = true → (z.z i).isFin = true) :
    ∃ x : State, ((Node.start cfg P () fctl0 now).filt.processMeasurement ⟨t, topic, z, ctl, ct⟩).x = some x ∧
      ∀ i : Fin 15, x i = if z.upd i = true then (z.z i).val else l[i.val]'(by omega) := by
  refine ⟨fun i => if z.upd i = true then (z.z i).val else initialState (some l) i, ?_, ?_⟩
  · change (cfg.initialState : Option State).bind (initState z) = _
    rw [hcfg]
    simp only [Option.bind_some, initState]
    rw [if_pos hfin]
  · intro i
    have h15 : i.val < l.length := by omega
    simp [initialState, hl, h15]

/-- C81: a list of the wrong length is ignored: the filter starts at zero. -/
theorem C81_wrong_length (l : List ℝ) (h : l.length ≠ 15) : initialState (some l) = 0 := by
  simp [initialState, h]

example : ∃ l : List ℝ, l.length = 15 ∧ initialState (some l) ≠ 0 := by
  refine ⟨List.replicate 15 1, by simp, fun h => ?_⟩
  have := congrFun h 0
  simp [initialState] at this

/-- C82: with a configuration that is not reported as invalid, no transform is broadcast from a frame to itself, and the
transform asked for to compute it is one between two different frames. -/
theorem C82_no_self_transform_partial (p : FrameParams) (hv : framesInvalid (loadFrames p) = false) (buf : TfBuffer) (off : Int) (init : Bool)
    (x : State) (P : Mat15) (t : Int) (m : OdomMsg) (hm : odomMessage (loadFrames p) init x P t = some m) (b : TfMsg)
    (hb : broadcast (loadFrames p) buf off m = some b) : b.frame ≠ b.child ∧ (loadFrames p).base ≠ (loadFrames p).odom := by
  generalize loadFrames p = fr at *
  have hv' : ¬(fr.map = fr.odom ∨ fr.odom = fr.base ∨ fr.map = fr.base ∨ fr.odom = fr.baseOut ∨ fr.map = fr.baseOut) := by
    simpa [framesInvalid] using hv
  simp only [not_or] at hv'
  obtain ⟨h1, h2, h3, h4, h5⟩ := hv'
  refine ⟨?_, fun e => h2 e.symm⟩
  have hc : m.child = fr.baseOut := by
    unfold odomMessage at hm
    split at hm
    · rw [Option.some.injEq] at hm; subst hm; rfl
    · simp at hm
  unfold broadcast at hb
  simp only at hb
  split at hb
  · rename_i hf
    rw [Option.some.injEq] at hb
    subst hb
    change m.frame ≠ m.child
    rw [hf, hc]
    exact h4
  · split at hb
    · obtain ⟨t', _, rfl⟩ := Option.map_eq_some_iff.1 hb
      exact h1
    · simp at hb

example : framesInvalid (loadFrames ⟨none, none, none, none, none⟩) = false := by decide

/-- C82 is refuted for an invalid configuration: it is used all the same, and a frame becomes its own parent. -/
theorem C82_invalid_configuration_used : ∃ p : FrameParams, framesInvalid (loadFrames p) = true ∧
    ∀ (buf : TfBuffer) (off : Int) (x : State) (P : Mat15) (t : Int), ∃ m b, odomMessage (loadFrames p) true x P t = some m ∧
      broadcast (loadFrames p) buf off m = some b ∧ b.frame = b.child := by
  refine ⟨⟨none, none, none, some "odom", none⟩, by decide, ?_⟩
  intro buf off x P t
  exact ⟨_, { frame := "odom", child := "odom", stamp := t + off, org := ![x 0, x 1, x 2], ori := Quat.ofRPY (x 3) (x 4) (x 5) },
    rfl, rfl, rfl⟩

theorem mem_covIssues {upd : Fin 15 → Bool} {off dim : ℕ} {m : Matrix (Fin dim) (Fin dim) ℝ} {c : CovIssue} :
    c ∈ covIssues upd off dim m ↔ ∃ i j : Fin dim, covIssue upd off i.val j.val (m i j) = some c := by
  simp [covIssues]

/-- C83 for poses: there is a complaint exactly when an entry that concerns a selected variable is above 1000, or a selected
variable has a variance that is not positive; and the complaint is about such an entry. -/
theorem C83_pose_partial (upd : Fin 15 → Bool) (m : M6) :
    ((covIssues upd 0 6 m ≠ []) ↔ ∃ i j : Fin 6,
      (1000 < m i j ∧ (upd (Fin.castLE (by omega) i) = true ∨ upd (Fin.castLE (by omega) j) = true)) ∨
      (i = j ∧ upd (Fin.castLE (by omega) i) = true ∧ m i i ≤ 0)) ∧
    (∀ i : ℕ, (CovIssue.zero i ∈ covIssues upd 0 6 m ↔
      ∃ h : i < 6, upd ⟨i, by omega⟩ = true ∧ m ⟨i, h⟩ ⟨i, h⟩ = 0)) ∧
    (∀ i : ℕ, (CovIssue.negative i ∈ covIssues upd 0 6 m ↔
      ∃ h : i < 6, upd ⟨i, by omega⟩ = true ∧ m ⟨i, h⟩ ⟨i, h⟩ < 0)) := by
  have key : ∀ i j : Fin 6, covIssue upd 0 i.val j.val (m i j) =
      open Classical in
      if m i j > 1000 ∧ (upd (Fin.castLE (by omega) i) = true ∨ upd (Fin.castLE (by omega) j) = true) then some (.large i j)
      else if upd (Fin.castLE (by omega) i) = true ∧ i.val = j.val ∧ m i j = 0 then some (.zero i)
      else if upd (Fin.castLE (by omega) i) = true ∧ i.val = j.val ∧ m i j < 0 then some (.negative i)
      else none := by
    intro i j
    have hi : i.val < 15 := by omega
    have hj : j.val < 15 := by omega
    simp only [covIssue, Nat.zero_add, hi, hj, dif_pos]
    rfl
  refine ⟨?_, ?_, ?_⟩
  · rw [Ne, List.eq_nil_iff_forall_not_mem]
    push Not
    constructor
    · rintro ⟨c, hc⟩
      obtain ⟨i, j, h⟩ := mem_covIssues.1 hc
      rw [key] at h
      refine ⟨i, j, ?_⟩
      split at h
      · left; rename_i h'; exact h'
      · split at h
        · rename_i h'
          have e : i = j := Fin.ext h'.2.1
          subst e
          right; exact ⟨rfl, h'.1, h'.2.2.le⟩
        · split at h
          · rename_i h'
            have e : i = j := Fin.ext h'.2.1
            subst e
            right; exact ⟨rfl, h'.1, h'.2.2.le⟩
          · simp at h
    · rintro ⟨i, j, h | ⟨rfl, hu, hle⟩⟩
      · exact ⟨.large i j, mem_covIssues.2 ⟨i, j, by rw [key, if_pos h]⟩⟩
      · have hn : ¬(m i i > 1000 ∧ (upd (Fin.castLE (by omega) i) = true ∨ upd (Fin.castLE (by omega) i) = true)) := by
          rintro ⟨h, -⟩; linarith
        rcases hle.lt_or_eq with hlt | he
        · exact ⟨.negative i, mem_covIssues.2 ⟨i, i, by
            rw [key, if_neg hn, if_neg (by rintro ⟨-, -, h⟩; linarith), if_pos ⟨hu, rfl, hlt⟩]⟩⟩
        · exact ⟨.zero i, mem_covIssues.2 ⟨i, i, by rw [key, if_neg hn, if_pos ⟨hu, rfl, he⟩]⟩⟩
  · intro k
    rw [mem_covIssues]
    constructor
    · rintro ⟨i, j, h⟩
      rw [key] at h
      split at h
      · simp at h
      · split at h
        · rename_i h'
          have e : i = j := Fin.ext h'.2.1
          subst e
          injection h with h
          injection h with h
          subst h
          exact ⟨i.isLt, h'.1, h'.2.2⟩
        · split at h <;> simp at h
    · rintro ⟨hk, hu, hz⟩
      refine ⟨⟨k, hk⟩, ⟨k, hk⟩, ?_⟩
      rw [key, if_neg (by rintro ⟨h, -⟩; linarith), if_pos ⟨hu, rfl, hz⟩]
  · intro k
    rw [mem_covIssues]
    constructor
    · rintro ⟨i, j, h⟩
      rw [key] at h
      split at h
      · simp at h
      · split at h
        · simp at h
        · split at h
          · rename_i h'
            have e : i = j := Fin.ext h'.2.1
            subst e
            injection h with h
            injection h with h
            subst h
            exact ⟨i.isLt, h'.1, h'.2.2⟩
          · simp at h
    · rintro ⟨hk, hu, hz⟩
      refine ⟨⟨k, hk⟩, ⟨k, hk⟩, ?_⟩
      rw [key, if_neg (by rintro ⟨h, -⟩; linarith), if_neg (by rintro ⟨-, -, h⟩; linarith), if_pos ⟨hu, rfl, hz⟩]

example : ∃ (upd : Fin 15 → Bool) (m : M6), covIssues upd 0 6 m ≠ [] :=
  ⟨fun _ => true, 0, (C83_pose_partial _ _).1.2 ⟨0, 0, Or.inr ⟨rfl, rfl, le_refl _⟩⟩⟩

theorem fillFalse_getD {off n : ℕ} {v w : List Bool} (h : fillFalse off n v = some w) (k : ℕ) :
    w.getD k false = if off ≤ k ∧ k < off + n then false else v.getD k false := by
  have hl : off + n ≤ v.length := by
    by_contra hc
    rw [fillFalse_none.2 (by omega)] at h
    simp at h
  obtain ⟨w', e, -, h'⟩ := fillFalse_some hl
  rw [e, Option.some.injEq] at h
  subst h
  rw [h' k]

theorem covIssue_large {upd : Fin 15 → Bool} {off i j : ℕ} {v : ℝ} {c : CovIssue} (hi : i < 15) (hu : upd ⟨i, hi⟩ = false)
    (h : covIssue upd off i j v = some c) : c = .large i j := by
  unfold covIssue at h
  simp only [hi, dif_pos, hu, Bool.false_eq_true, false_and, if_false, Option.ite_none_right_eq_some, Option.some.injEq] at h
  exact h.2.symm

theorem flags_apply {v : List Bool} {u : Fin 15 → Bool} (h : flags v = some u) (i : Fin 15) : u i = v.getD i.val false := by
  unfold flags at h
  split at h
  · rw [Option.some.injEq] at h; subst h; rfl
  · simp at h

/-- C83 is refuted for velocities: a twist input never gets a complaint about a variance that is zero or negative. -/
theorem C83_twist_never (s : SensorPar) (cd : CallbackData) (h : twistData s = some cd) (m : M6) (c : CovIssue)
    (hc : c ∈ covIssues cd.upd 6 6 m) : ∃ i j : ℕ, c = .large i j := by
  obtain ⟨i, j, h'⟩ := mem_covIssues.1 hc
  refine ⟨i, j, covIssue_large (by omega) ?_ h'⟩
  unfold twistData twistVec at h
  simp only [Option.bind_eq_bind, Option.pure_def, Option.bind_eq_some_iff, Option.some.injEq] at h
  obtain ⟨v, hv, u, hf, rfl⟩ := h
  change u _ = false
  rw [flags_apply hf, fillFalse_getD hv, if_pos (by simp)]

/-- The same for accelerations of an IMU. -/
theorem C83_acceleration_never (s : SensorPar) (cd : CallbackData × CallbackData × CallbackData) (h : imuData s = some cd) (m : M3)
    (c : CovIssue) (hc : c ∈ covIssues cd.2.2.upd 12 3 m) : ∃ i j : ℕ, c = .large i j := by
  obtain ⟨i, j, h'⟩ := mem_covIssues.1 hc
  refine ⟨i, j, covIssue_large (by omega) ?_ h'⟩
  unfold imuData imuAccelVec at h
  simp only [Option.bind_eq_bind, Option.pure_def, Option.bind_eq_some_iff, Option.some.injEq] at h
  obtain ⟨vp, -, vt, -, va, ⟨v, hv, hva⟩, p, -, t, -, a, ha, rfl⟩ := h
  change a _ = false
  rw [flags_apply ha, fillFalse_getD hva, fillFalse_getD hv, if_neg (by simp; omega), if_pos (by simp; omega)]

/-- Such an input exists: a velocity with all variances zero, every one of them used. -/
example : ∃ s cd, twistData s = some cd ∧ (∀ i : Fin 6, cd.upd ⟨6 + i.val, by omega⟩ = true) ∧
    ∀ c ∈ covIssues cd.upd 6 6 (0 : M6), ∃ i j : ℕ, c = .large i j := by
  let s : SensorPar := ⟨"twist0", List.replicate 15 true, false, false, false, .unlimited, .unlimited, .unlimited⟩
  cases hcd : twistData s with
  | none => simp [twistData, twistVec, fillFalse, flags, s] at hcd
  | some cd =>
    refine ⟨s, cd, hcd, ?_, fun c hc => C83_twist_never s cd hcd 0 c hc⟩
    intro i
    unfold twistData twistVec at hcd
    simp only [Option.bind_eq_bind, Option.pure_def, Option.bind_eq_some_iff, Option.some.injEq] at hcd
    obtain ⟨v, hv, u, hf, rfl⟩ := hcd
    change u _ = true
    rw [flags_apply hf, fillFalse_getD hv, if_neg (by simp)]
    fin_cases i <;> rfl

end RL
