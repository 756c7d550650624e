import Verif.Props.Ancestor
import Verif.Props.Estimator
import Verif.Props.Output
import Mathlib.Analysis.Calculus.Deriv.Add
import Mathlib.Analysis.Calculus.Deriv.Mul
import Mathlib.Analysis.SpecialFunctions.Trigonometric.Deriv
/-!
# The listener (C47, C48, C70–C72)
-/

namespace RL
open Listen Matrix Est

/-! ## C47 -/

/-- A pair of messages as received. -/
abbrev MsgPair := OdomMsg × AccelMsg

/-- A listener after a series of messages. -/
noncomputable def heard (size : ℕ) (ms : List MsgPair) : Listener :=
  ms.foldl (fun l m => l.callback m.1 m.2) (Listener.new size)

theorem heard_buf (size : ℕ) (ms : List MsgPair) :
    (heard size ms).buf = Buf.run size (ms.map fun m => .set ⟨stampSec m.1.stamp, fullOf m.1 m.2⟩) := by
  unfold heard Buf.run
  have : ∀ (l : Listener), (ms.foldl (fun l m => l.callback m.1 m.2) l).buf =
      (ms.map fun m => (Op.set ⟨stampSec m.1.stamp, fullOf m.1 m.2⟩ : Op Full)).foldl Buf.apply l.buf := by
    induction ms with
    | nil => intro l; rfl
    | cons m ms ih => intro l; simp only [List.foldl_cons, List.map_cons]; rw [ih]; rfl
  exact this _

/-- C47, partial: messages at whole seconds in time order are stored under their stamps, and a query at the stamp of one
of the newest ones returns what was made of it.  Missing: stamps between the seconds (`C47_same_second_dropped`,
`C47_half_seconds`). -/
theorem C47_stored_partial (size : ℕ) (ext : Full → ℝ → Full) (pre post : List MsgPair) (m : MsgPair)
    (hw : ∀ q ∈ pre ++ m :: post, (1000000000 : Int) ∣ q.1.stamp)
    (ho : (pre ++ m :: post).Pairwise fun a b => a.1.stamp < b.1.stamp) (hn : post.length < size) :
    (heard size (pre ++ m :: post)).buf.getState ext (toSec m.1.stamp) = .exact ⟨toSec m.1.stamp, fullOf m.1 m.2⟩ := by
  have key : ∀ q ∈ pre ++ m :: post, ((stampSec q.1.stamp : Int) : ℝ) = toSec q.1.stamp := by
    intro q hq
    obtain ⟨k, hk⟩ := hw q hq
    unfold stampSec toSec
    rw [hk, Int.mul_ediv_cancel_left _ (by norm_num)]
    push_cast
    ring
  obtain ⟨items, hi⟩ : ∃ items : List (Item Full),
      items = (pre ++ m :: post).map fun q => ⟨(stampSec q.1.stamp : Int), fullOf q.1 q.2⟩ := ⟨_, rfl⟩
  have hso : StrictlyOrdered items := by
    rw [hi]
    unfold StrictlyOrdered
    rw [List.pairwise_map]
    refine List.Pairwise.imp_of_mem ?_ ho
    intro a b ha hb hab
    simp only
    rw [key a ha, key b hb]
    unfold toSec
    have : (a.1.stamp : ℝ) < b.1.stamp := by exact_mod_cast hab
    linarith
  have hb : (heard size (pre ++ m :: post)).buf.items = items.drop (items.length - size) := by
    rw [heard_buf, ← C46_fresh_partial size items hso, hi, List.map_map]
    rfl
  have hsplit : items = pre.map (fun q => ⟨(stampSec q.1.stamp : Int), fullOf q.1 q.2⟩) ++
      ⟨(stampSec m.1.stamp : Int), fullOf m.1 m.2⟩ :: post.map (fun q => ⟨(stampSec q.1.stamp : Int), fullOf q.1 q.2⟩) := by
    rw [hi]; simp
  have hlen : items.length - size ≤ pre.length := by
    rw [hi]; simp; omega
  have hm := key m (by simp)
  have hlen' : items.length - size ≤ (pre.map fun q => (⟨(stampSec q.1.stamp : Int), fullOf q.1 q.2⟩ : Item Full)).length := by
    rw [List.length_map]; exact hlen
  obtain ⟨k, hk⟩ : ∃ k, k = items.length - size := ⟨_, rfl⟩
  rw [← hk] at hlen' hb
  rw [hsplit, List.drop_append_of_le_length hlen'] at hb
  rw [← hm]
  refine C45_exact _ ext _ _ _ _ hb rfl ?_
  intro x hx
  rw [hsplit] at hso
  exact (List.pairwise_cons.1 (List.pairwise_append.1 hso).2.1).1 x hx

/-- C47, refuted: of the messages within one second only the first is kept, whatever the others say. -/
theorem C47_same_second_dropped (size : ℕ) (ms : List MsgPair) (o : OdomMsg) (a : AccelMsg) (last : Item Full)
    (hl : (heard size ms).buf.items.getLast? = some last) (ht : last.time = stampSec o.stamp) :
    (heard size (ms ++ [(o, a)])).buf = (heard size ms).buf := by
  have e : heard size (ms ++ [(o, a)]) = (heard size ms).callback o a := by simp [heard]
  rw [e]
  show (heard size ms).buf.setState _ = _
  have hg := C44_buffer_partial size (ms.map fun m => (Op.set ⟨stampSec m.1.stamp, fullOf m.1 m.2⟩ : Op Full))
  rw [← run_cap, ← heard_buf] at hg
  rw [setState_eq _ _ hg.1 hg.2.1, if_pos ⟨last, hl, ht⟩]

/-- C47: what is stored is the estimate that was sent: same pose, velocities, accelerations, and the covariances of each
of the three groups; the correlations between the groups are lost.  Angles come back within their ranges. -/
theorem C47_contents (fr : RL.Frames) (x : State) (P : Mat15) (t : Int) (d : Differ) (o : OdomMsg) (a : AccelMsg)
    (ho : odomMessage fr true x P t = some o) (ha : accelMessage fr true x P t d = some a)
    (hp : -(Real.pi / 2) < x 4 ∧ x 4 < Real.pi / 2) :
    Body.pose (fullOf o a).x = Body.pose x ∧ (∀ i : Fin 15, ¬(i.val = 3 ∨ i.val = 5) → (fullOf o a).x i = x i) ∧
    (fullOf o a).x 3 = normalizeAngle (x 3) ∧ (fullOf o a).x 5 = normalizeAngle (x 5) ∧
    ∀ i j : Fin 15, (fullOf o a).P i j = if (i.val < 6 ∧ j.val < 6) ∨ ((6 ≤ i.val ∧ i.val < 12) ∧ 6 ≤ j.val ∧ j.val < 12) ∨
      (12 ≤ i.val ∧ 12 ≤ j.val) then P i j else 0 := by
  rw [odomMessage, if_pos rfl, Option.some.injEq] at ho
  rw [accelMessage, if_pos rfl, Option.some.injEq] at ha
  have hq := C43_same_angles (x 3) (x 4) (x 5) hp.1 hp.2
  have hx : (fullOf o a).x = ![x 0, x 1, x 2, normalizeAngle (x 3), x 4, normalizeAngle (x 5), x 6, x 7, x 8, x 9, x 10,
      x 11, x 12, x 13, x 14] := by
    rw [← ho, ← ha]
    unfold fullOf
    simp only [hq]
    rfl
  refine ⟨?_, ?_, by rw [hx]; rfl, by rw [hx]; rfl, ?_⟩
  · have e : Body.rot ![normalizeAngle (x 3), x 4, normalizeAngle (x 5)] = Body.rot ![x 3, x 4, x 5] := by
      simp [Body.rot, Body.rotX, Body.rotY, Body.rotZ, sin_normalizeAngle, cos_normalizeAngle]
    unfold Body.pose
    rw [hx]
    exact congrArg₂ Tf.mk e rfl
  · intro i hi
    rw [hx]
    fin_cases i <;> first | rfl | simp at hi
  · intro i j
    rw [← ho, ← ha]
    simp only [fullOf, Matrix.of_apply]
    by_cases h1 : i.val < 6 ∧ j.val < 6
    · rw [dif_pos h1, if_pos (Or.inl h1)]
      congr 1 <;> apply Fin.ext <;> simp only <;> omega
    rw [dif_neg h1]
    by_cases h2 : (6 ≤ i.val ∧ i.val < 12) ∧ 6 ≤ j.val ∧ j.val < 12
    · rw [dif_pos h2, if_pos (Or.inr (Or.inl h2))]
      congr 1 <;> apply Fin.ext <;> simp only <;> omega
    rw [dif_neg h2]
    by_cases h3 : 12 ≤ i.val ∧ 12 ≤ j.val
    · rw [dif_pos h3, if_pos (Or.inr (Or.inr h3)), dif_pos (by omega)]
      congr 1 <;> apply Fin.ext <;> simp only <;> omega
    · rw [dif_neg h3, if_neg (by tauto)]

/-- Messages of a robot at `x` at a time in nanoseconds. -/
noncomputable def msgAt (stamp : Int) (x : ℝ) : MsgPair :=
  ({ frame := "odom", child := "base", stamp := stamp, pos := ![x, 0, 0], ori := ⟨0, 0, 0, 1⟩, poseCov := fun _ => 0,
     lin := fun _ => .fin 0, ang := fun _ => .fin 0, twistCov := fun _ => 0 },
   { frame := "base", stamp := stamp, lin := 0, ang := 0, cov := fun _ => 0 })

theorem msgAt_x (stamp : Int) (x : ℝ) : (fullOf (msgAt stamp x).1 (msgAt stamp x).2).x 0 = x := rfl

/-- C47, refuted: outputs at 0.25 s and 0.75 s.  The second is not stored, and the answer at its time is a prediction from
the first, taken to be at 0 s. -/
theorem C47_half_seconds (ext : Full → ℝ → Full) :
    let ms := [msgAt 250000000 1, msgAt 750000000 2]
    (heard 10 ms).buf.items = [⟨0, fullOf (msgAt 250000000 1).1 (msgAt 250000000 1).2⟩] ∧
    (heard 10 ms).buf.getState ext (toSec 750000000) =
      .future ⟨toSec 750000000, ext (fullOf (msgAt 250000000 1).1 (msgAt 250000000 1).2) (toSec 750000000)⟩ := by
  have h1 : (heard 10 [msgAt 250000000 1]).buf.items = [⟨0, fullOf (msgAt 250000000 1).1 (msgAt 250000000 1).2⟩] := by
    simp [heard, Listener.new, Listener.callback, Buf.setState, Buf.pushBack, msgAt, stampSec]
  have h2 : (heard 10 [msgAt 250000000 1, msgAt 750000000 2]).buf = (heard 10 [msgAt 250000000 1]).buf :=
    C47_same_second_dropped 10 [msgAt 250000000 1] _ _ ⟨0, fullOf (msgAt 250000000 1).1 (msgAt 250000000 1).2⟩
      (by rw [h1]; rfl) (by simp [stampSec])
  refine ⟨by rw [h2, h1], ?_⟩
  have hpos : (0 : ℝ) < toSec 750000000 := by unfold toSec; norm_num
  have := C45_after (heard 10 [msgAt 250000000 1, msgAt 750000000 2]).buf ext (toSec 750000000) []
    ⟨0, fullOf (msgAt 250000000 1).1 (msgAt 250000000 1).2⟩ (by rw [h2, h1]; rfl) hpos
  simpa using this

/-- Messages at 5 s and 7 s meet the conditions of `C47_stored_partial`. -/
example (ext : Full → ℝ → Full) : (heard 10 ([] ++ msgAt 5000000000 1 :: [msgAt 7000000000 2])).buf.getState ext (toSec 5000000000) =
    .exact ⟨toSec 5000000000, fullOf (msgAt 5000000000 1).1 (msgAt 5000000000 1).2⟩ :=
  C47_stored_partial 10 ext [] [msgAt 7000000000 2] (msgAt 5000000000 1) (by simp [msgAt]) (by simp [msgAt])
    (by simp)

/-! ## C48 -/

/-- A frame moves, at time `t`, with velocity `v` and angular velocity `w` given in its own axes. -/
def Moving (T : ℝ → Tf) (t : ℝ) (v w : V3) : Prop :=
  (∀ i j, HasDerivAt (fun s => (T s).rot i j) (((T t).rot * Body.skew w) i j) t) ∧
    ∀ i, HasDerivAt (fun s => (T s).org i) ((T t).rot.mulVec v i) t

theorem mounted_pose (world mount : Tf) (e : Full) (hw : IsRot world.rot) (hm : IsRot mount.rot) :
    Body.pose (mounted world mount e).x = (world.mul (Body.pose e.x)).mul mount := by
  have hr : IsRot ((world.mul (Body.pose e.x)).mul mount).rot :=
    Tf.isRot_mul (Tf.isRot_mul hw (isRot_bodyRot _)) hm
  have he := rot_eulerAngles hr
  show Tf.mk _ _ = _
  unfold Body.pose
  have hb : ({ rot := axisZ (e.x 5) * axisY (e.x 4) * axisX (e.x 3), org := ![e.x 0, e.x 1, e.x 2] } : Tf) = Body.pose e.x := rfl
  have h1 : Body.rot ![(mounted world mount e).x 3, (mounted world mount e).x 4, (mounted world mount e).x 5] =
      ((world.mul (Body.pose e.x)).mul mount).rot := he
  rw [h1]
  have h2 : ![(mounted world mount e).x 0, (mounted world mount e).x 1, (mounted world mount e).x 2] =
      ((world.mul (Body.pose e.x)).mul mount).org := by
    ext i
    fin_cases i <;> rfl
  rw [h2]
  rfl

theorem skew_mulVec (w v : V3) : (Body.skew w).mulVec v = cross w v := by
  ext i
  rw [mulVec3]
  fin_cases i <;> simp [Body.skew, cross] <;> ring

/-- Angular velocity in turned axes. -/
theorem skew_conj {m : M3} (h : IsRot m) (w : V3) : Body.skew w * m = m * Body.skew (mᵀ.mulVec w) := by
  obtain ⟨c00, c01, c02, c10, c11, c12, c20, c21, c22⟩ := h.cof
  have hw : m.mulVec (mᵀ.mulVec w) = w := by rw [mulVec_mulVec, h.1, one_mulVec]
  obtain ⟨u, hu⟩ : ∃ u, u = mᵀ.mulVec w := ⟨_, rfl⟩
  rw [← hu] at hw ⊢
  have w0 : w 0 = m 0 0 * u 0 + m 0 1 * u 1 + m 0 2 * u 2 := by rw [← hw, mulVec3]
  have w1 : w 1 = m 1 0 * u 0 + m 1 1 * u 1 + m 1 2 * u 2 := by rw [← hw, mulVec3]
  have w2 : w 2 = m 2 0 * u 0 + m 2 1 * u 1 + m 2 2 * u 2 := by rw [← hw, mulVec3]
  ext i j
  rw [mul3, mul3]
  fin_cases i <;> fin_cases j <;> simp [Body.skew] <;> simp only [w0, w1, w2]
  · linear_combination u 1 * c02 - u 2 * c01
  · linear_combination u 2 * c00 - u 0 * c02
  · linear_combination u 0 * c01 - u 1 * c00
  · linear_combination u 1 * c12 - u 2 * c11
  · linear_combination u 2 * c10 - u 0 * c12
  · linear_combination u 0 * c11 - u 1 * c10
  · linear_combination u 1 * c22 - u 2 * c21
  · linear_combination u 2 * c20 - u 0 * c22
  · linear_combination u 0 * c21 - u 1 * c20

/-- C48: the state computed for a frame mounted on the robot is the pose and velocity of that frame.  The robot follows
any path `T` that has the estimated pose and velocities at this time. -/
theorem C48_rigid (T : ℝ → Tf) (t : ℝ) (e : Full) (world mount : Tf) (hw : IsRot world.rot) (hm : IsRot mount.rot)
    (hT : T t = Body.pose e.x) (hv : Moving T t (Body.kin e.x).vel (Body.kin e.x).rate) :
    Body.pose (mounted world mount e).x = (world.mul (T t)).mul mount ∧
    Moving (fun s => (world.mul (T s)).mul mount) t (Body.kin (mounted world mount e).x).vel
      (Body.kin (mounted world mount e).x).rate := by
  refine ⟨by rw [hT]; exact mounted_pose world mount e hw hm, ?_, ?_⟩
  · have hrate : (Body.kin (mounted world mount e).x).rate = mount.rotᵀ.mulVec (Body.kin e.x).rate := by
      ext i
      fin_cases i <;> rfl
    rw [hrate]
    intro i j
    have e1 : ((world.mul (T t)).mul mount).rot * Body.skew (mount.rotᵀ.mulVec (Body.kin e.x).rate) =
        world.rot * ((T t).rot * Body.skew (Body.kin e.x).rate) * mount.rot := by
      show world.rot * (T t).rot * mount.rot * _ = _
      rw [Matrix.mul_assoc (world.rot * (T t).rot), ← skew_conj hm]
      simp only [Matrix.mul_assoc]
    rw [e1]
    obtain ⟨D, hD⟩ : ∃ D, D = (T t).rot * Body.skew (Body.kin e.x).rate := ⟨_, rfl⟩
    have hd := hv.1
    rw [← hD] at hd ⊢
    have hf : (fun s => ((world.mul (T s)).mul mount).rot i j) = fun s =>
        (world.rot i 0 * (T s).rot 0 0 + world.rot i 1 * (T s).rot 1 0 + world.rot i 2 * (T s).rot 2 0) * mount.rot 0 j +
        (world.rot i 0 * (T s).rot 0 1 + world.rot i 1 * (T s).rot 1 1 + world.rot i 2 * (T s).rot 2 1) * mount.rot 1 j +
        (world.rot i 0 * (T s).rot 0 2 + world.rot i 1 * (T s).rot 1 2 + world.rot i 2 * (T s).rot 2 2) * mount.rot 2 j := by
      funext s
      show (world.rot * (T s).rot * mount.rot) i j = _
      rw [mul3, mul3, mul3, mul3]
    rw [hf, mul3, mul3, mul3, mul3]
    have hcol : ∀ k, HasDerivAt (fun s => world.rot i 0 * (T s).rot 0 k + world.rot i 1 * (T s).rot 1 k + world.rot i 2 * (T s).rot 2 k)
        (world.rot i 0 * D 0 k + world.rot i 1 * D 1 k + world.rot i 2 * D 2 k) t := fun k =>
      (((hd 0 k).const_mul _).add ((hd 1 k).const_mul _)).add ((hd 2 k).const_mul _)
    exact (((hcol 0).mul_const _).add ((hcol 1).mul_const _)).add ((hcol 2).mul_const _)
  · have hvel : (Body.kin (mounted world mount e).x).vel =
        mount.rotᵀ.mulVec ((Body.kin e.x).vel + cross (Body.kin e.x).rate mount.org) := by
      ext i
      fin_cases i <;> rfl
    rw [hvel]
    intro i
    have e1 : ((world.mul (T t)).mul mount).rot.mulVec (mount.rotᵀ.mulVec ((Body.kin e.x).vel + cross (Body.kin e.x).rate mount.org)) =
        world.rot.mulVec (((T t).rot * Body.skew (Body.kin e.x).rate).mulVec mount.org + (T t).rot.mulVec (Body.kin e.x).vel) := by
      show (world.rot * (T t).rot * mount.rot).mulVec _ = _
      rw [← skew_mulVec, mulVec_mulVec, Matrix.mul_assoc (world.rot * (T t).rot), hm.1, Matrix.mul_one, ← mulVec_mulVec,
        mulVec_add, mulVec_mulVec _ (T t).rot (Body.skew _), add_comm]
    rw [e1]
    obtain ⟨D, hD⟩ : ∃ D, D = (T t).rot * Body.skew (Body.kin e.x).rate := ⟨_, rfl⟩
    obtain ⟨u, hu⟩ : ∃ u, u = (T t).rot.mulVec (Body.kin e.x).vel := ⟨_, rfl⟩
    have hd := hv.1
    have hp := hv.2
    rw [← hD] at hd ⊢
    rw [← hu] at hp ⊢
    have hf : (fun s => ((world.mul (T s)).mul mount).org i) = fun s =>
        (world.rot i 0 * ((T s).rot 0 0 * mount.org 0 + (T s).rot 0 1 * mount.org 1 + (T s).rot 0 2 * mount.org 2 + (T s).org 0) +
        world.rot i 1 * ((T s).rot 1 0 * mount.org 0 + (T s).rot 1 1 * mount.org 1 + (T s).rot 1 2 * mount.org 2 + (T s).org 1) +
        world.rot i 2 * ((T s).rot 2 0 * mount.org 0 + (T s).rot 2 1 * mount.org 1 + (T s).rot 2 2 * mount.org 2 + (T s).org 2)) +
        world.org i := by
      funext s
      show ((world.rot * (T s).rot).mulVec mount.org + (world.rot.mulVec (T s).org + world.org)) i = _
      simp only [Pi.add_apply]
      rw [mulVec3, mulVec3, mul3, mul3, mul3]
      ring
    rw [hf, mulVec3]
    simp only [Pi.add_apply, mulVec3]
    have hrow : ∀ k, HasDerivAt
        (fun s => (T s).rot k 0 * mount.org 0 + (T s).rot k 1 * mount.org 1 + (T s).rot k 2 * mount.org 2 + (T s).org k)
        (D k 0 * mount.org 0 + D k 1 * mount.org 1 + D k 2 * mount.org 2 + u k) t := fun k =>
      ((((hd k 0).mul_const _).add ((hd k 1).mul_const _)).add ((hd k 2).mul_const _)).add (hp k)
    exact ((((hrow 0).const_mul _).add ((hrow 1).const_mul _)).add ((hrow 2).const_mul _)).add_const _

/-- A robot driving forward while turning left meets the conditions of `C48_rigid`. -/
example : Moving (fun s => { rot := Body.rotZ s, org := ![Real.sin s, 1 - Real.cos s, 0] }) 0 ![1, 0, 0] ![0, 0, 1] := by
  refine ⟨fun i j => ?_, fun i => ?_⟩
  · rw [mul3]
    have hs := Real.hasDerivAt_sin 0
    have hc := Real.hasDerivAt_cos 0
    have h0 : HasDerivAt (fun _ : ℝ => (0 : ℝ)) 0 0 := hasDerivAt_const _ _
    have h1 : HasDerivAt (fun _ : ℝ => (1 : ℝ)) 0 0 := hasDerivAt_const _ _
    fin_cases i <;> fin_cases j <;> simp [Body.rotZ, Body.skew]
    · simpa using hc
    · simpa using hs.fun_neg
    · exact h0
    · simpa using hs
    · simpa using hc
    · exact h0
    · exact h0
    · exact h0
    · exact h1
  · rw [mulVec3]
    have hs := Real.hasDerivAt_sin 0
    have hc := Real.hasDerivAt_cos 0
    fin_cases i <;> simp [Body.rotZ]
    · simpa using hs
    · simpa using hc.const_sub 1
    · exact hasDerivAt_const _ _

/-- Time of a lookup of the listener. -/
def LookedUpAt (time : ℝ) (ns : Int) : Prop :=
  (0 ≤ time → (ns : ℝ) ≤ time * 1000000000 ∧ time * 1000000000 < ns + 1) ∧
    (time < 0 → (ns : ℝ) - 1 < time * 1000000000 ∧ time * 1000000000 ≤ ns)

theorem lookupNs_spec {time : ℝ} {ns : Int} (h : lookupNs time = some ns) : LookedUpAt time ns := by
  obtain ⟨r, hr⟩ : ∃ r : Int, r = if 0 ≤ time * 1000000000 then ⌊time * 1000000000⌋ else ⌈time * 1000000000⌉ := ⟨_, rfl⟩
  have e : lookupNs time = if -2147483648 ≤ r ∧ r ≤ 2147483647 then some r else none := by rw [hr]; rfl
  rw [e] at h
  have hrn : r = ns := by
    by_cases hc : -2147483648 ≤ r ∧ r ≤ 2147483647
    · rw [if_pos hc] at h; exact Option.some.inj h
    · rw [if_neg hc] at h; cases h
  subst hrn
  refine ⟨fun h0 => ?_, fun h0 => ?_⟩
  · rw [if_pos (by linarith)] at hr
    rw [hr]
    exact ⟨Int.floor_le _, Int.lt_floor_add_one _⟩
  · rw [if_neg (by linarith)] at hr
    rw [hr]
    exact ⟨by have := Int.ceil_lt_add_one (time * 1000000000); linarith, Int.le_ceil _⟩

/-- Every answer that is a state is what the buffer says for the base, or that state moved to a frame that is mounted on the
base, seen from a world frame that is not. -/
theorem getState_cases (l : Listener) (ext : Full → ℝ → Full) (tf : TfBuffer) {tree : Listen.Frames} (ht : IsTree tree) {depth : ℕ}
    (hd : tree.length < depth) (c : Cache) (hc : CacheOk tree c) (time : ℝ) (frame worldFrame : String) (r : Full)
    (h : (l.getState ext tf tree depth c time frame worldFrame).1 = .state r) :
    (l.base ≠ "" ∧ l.world ≠ "") ∧
    ((frame = l.base ∧ (worldFrame = "" ∨ worldFrame = l.world) ∧ r = written (l.buf.getState ext time)) ∨
    ∃ ns world mount, lookupNs time = some ns ∧ tf l.base frame ns = some mount ∧ Reaches tree frame l.base ∧
      ((worldFrame = "" ∨ worldFrame = l.world) ∧ world = Tf.id ∨
        tf worldFrame l.world ns = some world ∧ ¬Reaches tree worldFrame l.base) ∧
      r = mounted world mount (written (l.buf.getState ext time))) := by
  unfold Listener.getState at h
  by_cases hf : l.base = "" ∨ l.world = ""
  · rw [if_pos hf] at h; cases h
  rw [if_neg hf] at h
  refine ⟨by tauto, ?_⟩
  have hwf : ((if worldFrame = "" then l.world else worldFrame) = l.world) ↔ (worldFrame = "" ∨ worldFrame = l.world) := by
    by_cases hw : worldFrame = "" <;> simp [hw]
  obtain ⟨wf, hwfd⟩ : ∃ wf, wf = if worldFrame = "" then l.world else worldFrame := ⟨_, rfl⟩
  simp only [← hwfd] at h
  rw [← hwfd] at hwf
  by_cases h1 : frame = l.base ∧ wf = l.world
  · rw [if_pos h1] at h
    simp only [Answer.state.injEq] at h
    exact Or.inl ⟨h1.1, hwf.1 h1.2, h.symm⟩
  rw [if_neg h1] at h
  right
  by_cases h2 : wf = l.world
  · rw [if_pos h2] at h
    cases hn : lookupNs time with
    | none => rw [hn] at h; cases h
    | some ns =>
      rw [hn] at h
      simp only at h
      cases hm : tf l.base frame ns with
      | none => rw [hm] at h; cases h
      | some mount =>
        rw [hm] at h
        simp only at h
        obtain ⟨b, c', e, hb, -⟩ := findAncestor_ok ht hd hc frame l.base
        rw [e] at h
        cases b with
        | false => cases h
        | true =>
          simp only [Answer.state.injEq] at h
          exact ⟨ns, Tf.id, mount, rfl, hm, hb.1 rfl, Or.inl ⟨hwf.1 h2, rfl⟩, h.symm⟩
  · rw [if_neg h2] at h
    have hwe : worldFrame ≠ "" ∧ wf = worldFrame := by
      have : worldFrame ≠ "" := fun hw => h2 (hwf.2 (Or.inl hw))
      exact ⟨this, by rw [hwfd, if_neg this]⟩
    rw [hwe.2] at h
    cases hn : lookupNs time with
    | none => rw [hn] at h; cases h
    | some ns =>
      rw [hn] at h
      simp only at h
      cases hw : tf worldFrame l.world ns with
      | none => rw [hw] at h; cases h
      | some world =>
        rw [hw] at h
        simp only at h
        obtain ⟨b, c', e, hb, hc'⟩ := findAncestor_ok ht hd hc worldFrame l.base
        rw [e] at h
        cases b with
        | true => cases h
        | false =>
          simp only at h
          have hnr : ¬Reaches tree worldFrame l.base := fun hr => by simpa using hb.2 hr
          cases hm : tf l.base frame ns with
          | none => rw [hm] at h; cases h
          | some mount =>
            rw [hm] at h
            simp only at h
            obtain ⟨b, c'', e, hb, -⟩ := findAncestor_ok ht hd hc' frame l.base
            rw [e] at h
            cases b with
            | false => cases h
            | true =>
              simp only [Answer.state.injEq] at h
              exact ⟨ns, world, mount, rfl, hm, hb.1 rfl, Or.inr ⟨hw, hnr⟩, h.symm⟩

/-- C48: every state a query returns is the pose and velocity of the frame asked for, when the base follows the estimated
motion and the transforms are those of the buffer at the time asked for. -/
theorem C48_query (l : Listener) (ext : Full → ℝ → Full) (tf : TfBuffer) (htf : SaneBuf tf) {tree : Listen.Frames} (ht : IsTree tree)
    {depth : ℕ} (hd : tree.length < depth) (c : Cache) (hc : CacheOk tree c) (time : ℝ) (frame worldFrame : String) (r : Full)
    (h : (l.getState ext tf tree depth c time frame worldFrame).1 = .state r) (T : ℝ → Tf) (t : ℝ)
    (hT : T t = Body.pose (written (l.buf.getState ext time)).x)
    (hv : Moving T t (Body.kin (written (l.buf.getState ext time)).x).vel (Body.kin (written (l.buf.getState ext time)).x).rate) :
    ∃ world mount : Tf,
      (frame = l.base ∧ mount = Tf.id ∨ ∃ ns, LookedUpAt time ns ∧ tf l.base frame ns = some mount) ∧
      ((worldFrame = "" ∨ worldFrame = l.world) ∧ world = Tf.id ∨ ∃ ns, LookedUpAt time ns ∧ tf worldFrame l.world ns = some world) ∧
      Body.pose r.x = (world.mul (T t)).mul mount ∧
      Moving (fun s => (world.mul (T s)).mul mount) t (Body.kin r.x).vel (Body.kin r.x).rate := by
  have hid : IsRot Tf.id.rot := IsRot.one
  obtain ⟨-, ⟨h1, h2, h3⟩ | ⟨ns, world, mount, hn, hm, -, hw, hr⟩⟩ := getState_cases l ext tf ht hd c hc time frame worldFrame r h
  · refine ⟨Tf.id, Tf.id, Or.inl ⟨h1, rfl⟩, Or.inl ⟨h2, rfl⟩, ?_⟩
    have e : ∀ a : Tf, (Tf.id.mul a).mul Tf.id = a := by intro a; simp [Tf.mul, Tf.id]
    rw [e, h3, ← hT]
    refine ⟨rfl, ?_⟩
    simp only [e]
    exact hv
  · have hns := lookupNs_spec hn
    have hmr : IsRot mount.rot := htf.rot _ _ _ _ hm
    have hwr : IsRot world.rot := by
      rcases hw with ⟨-, rfl⟩ | ⟨hw, -⟩
      · exact hid
      · exact htf.rot _ _ _ _ hw
    refine ⟨world, mount, Or.inr ⟨ns, hns, hm⟩, ?_, ?_⟩
    · rcases hw with ⟨a, b⟩ | ⟨hw, -⟩
      · exact Or.inl ⟨a, b⟩
      · exact Or.inr ⟨ns, hns, hw⟩
    · rw [hr]
      exact C48_rigid T t _ world mount hwr hmr hT hv

/-! ## C70: when -/

/-- C70, partial: a query by number of seconds between -2.1 and 2.1 looks transforms up at that time (in whole nanoseconds).
Missing: all other times (`C70_overflow`). -/
theorem C70_lookup_time_partial (time : ℝ) (h : |time| ≤ 2.147483647) : ∃ ns, lookupNs time = some ns ∧ LookedUpAt time ns := by
  obtain ⟨h1, h2⟩ := abs_le.1 h
  have : ∃ ns, lookupNs time = some ns := by
    unfold lookupNs
    simp only
    have hr : -2147483648 ≤ (if 0 ≤ time * 1000000000 then ⌊time * 1000000000⌋ else ⌈time * 1000000000⌉ : Int) ∧
        (if 0 ≤ time * 1000000000 then ⌊time * 1000000000⌋ else ⌈time * 1000000000⌉ : Int) ≤ 2147483647 := by
      split
      · constructor
        · rw [Int.le_floor]; push_cast; linarith
        · have : (⌊time * 1000000000⌋ : ℝ) ≤ 2147483647 := (Int.floor_le _).trans (by linarith)
          exact_mod_cast this
      · constructor
        · have : (-2147483648 : ℝ) ≤ (⌈time * 1000000000⌉ : ℝ) := le_trans (by linarith) (Int.le_ceil _)
          exact_mod_cast this
        · rw [Int.ceil_le]; push_cast; linarith
    rw [if_pos hr]
    exact ⟨_, rfl⟩
  obtain ⟨ns, hn⟩ := this
  exact ⟨ns, hn, lookupNs_spec hn⟩

/-- C70, refuted: from 2.147483648 s on (that is, at all times of a real clock) the state of a frame other than the base has
no defined value: the time in nanoseconds does not fit the type it is converted to. -/
theorem C70_overflow (l : Listener) (ext : Full → ℝ → Full) (tf : TfBuffer) (tree : Listen.Frames) (depth : ℕ) (c : Cache) (time : ℝ)
    (frame worldFrame : String) (hb : l.base ≠ "") (hw : l.world ≠ "") (hf : frame ≠ l.base) (ht : 2.147483648 ≤ time) :
    (l.getState ext tf tree depth c time frame worldFrame).1 = .ub := by
  have hn : lookupNs time = none := by
    unfold lookupNs
    simp only
    rw [if_neg]
    rintro ⟨-, h⟩
    rw [if_pos (by linarith)] at h
    have : (2147483648 : Int) ≤ ⌊time * 1000000000⌋ := by
      rw [Int.le_floor]; push_cast; linarith
    omega
  unfold Listener.getState
  rw [if_neg (by tauto)]
  simp only
  rw [if_neg (by tauto), hn]
  generalize (if worldFrame = "" then l.world else worldFrame) = wf
  by_cases h : wf = l.world
  · rw [if_pos h]
  · rw [if_neg h]

/-- C70, refuted: a query by `rclcpp::Time` is answered for its time only if that is a whole second. -/
theorem C70_whole_seconds (ns now : Int) (h0 : ns ≠ 0) :
    ((queryTime ns now : Int) : ℝ) = toSec ns ↔ (1000000000 : Int) ∣ ns := by
  unfold queryTime toSec
  rw [if_neg h0]
  constructor
  · intro h
    refine ⟨ns.tdiv 1000000000, ?_⟩
    have : (ns : ℝ) = 1000000000 * (ns.tdiv 1000000000 : Int) := by rw [h]; norm_num; ring
    exact_mod_cast this
  · rintro ⟨k, rfl⟩
    rw [Int.mul_tdiv_cancel_left _ (by norm_num)]
    push_cast
    ring

example : ((queryTime 1500000000 0 : Int) : ℝ) ≠ toSec 1500000000 := fun h => by
  have := (C70_whole_seconds 1500000000 0 (by norm_num)).1 h
  omega

/-! ## C71: accelerations and covariances -/

/-- C71, partial: the state of the base in the world frame of the filter is returned in full.  Missing: other frames
(`C71_acceleration_lost`, `C71_twist_covariance_lost`, `C71_turned_mount`, `C71_no_lever_arm`). -/
theorem C71_base_partial (l : Listener) (ext : Full → ℝ → Full) (tf : TfBuffer) (tree : Listen.Frames) (depth : ℕ) (c : Cache)
    (time : ℝ) (hb : l.base ≠ "") (hw : l.world ≠ "") (a : Item Full) (h : l.buf.getState ext time = .exact a) :
    (l.getState ext tf tree depth c time l.base "").1 = .state a.val := by
  unfold Listener.getState
  rw [if_neg (by tauto)]
  simp only
  rw [if_pos ⟨trivial, rfl⟩, h]
  rfl

/-- C71, refuted: for other frames the acceleration is always zero. -/
theorem C71_acceleration_lost (world mount : Tf) (e : Full) : (Body.kin (mounted world mount e).x).acc = 0 := by
  ext i
  fin_cases i <;> rfl

/-- C71, refuted: for other frames the covariance of the velocities is zero (certainty). -/
theorem C71_twist_covariance_lost (world mount : Tf) (e : Full) (r k : Fin 6) :
    (mounted world mount e).P (twistVar r) (twistVar k) = 0 := by
  have h : ¬((twistVar r).val < 6 ∧ (twistVar k).val < 6) := by
    fin_cases r <;> simp [twistVar]
  show (if h : (twistVar r).val < 6 ∧ (twistVar k).val < 6 then _ else (0 : ℝ)) = 0
  rw [dif_neg h]

/-- C71, refuted: a sensor at the origin of the base, turned a quarter to the left, is where the base is, but the variances
of its position along x and y of the world are exchanged. -/
theorem C71_turned_mount (e : Full) (hd : e.P 0 0 ≠ e.P 1 1) :
    let mount : Tf := { rot := !![0, -1, 0; 1, 0, 0; 0, 0, 1], org := 0 }
    (mounted Tf.id mount e).x 0 = e.x 0 ∧ (mounted Tf.id mount e).x 1 = e.x 1 ∧
    (mounted Tf.id mount e).P 0 0 = e.P 1 1 ∧ (mounted Tf.id mount e).P 0 0 ≠ e.P 0 0 := by
  intro mount
  have hp : (mounted Tf.id mount e).P 0 0 = e.P 1 1 := by
    show (rot6d mount.rot * (.of fun i j => e.P (Fin.castLE (by omega) i) (Fin.castLE (by omega) j)) * (rot6d mount.rot)ᵀ) 0 0 = _
    rw [Matrix.mul_apply]
    simp only [Matrix.mul_apply, Fin.sum_univ_six]
    simp [rot6d, mount]
  refine ⟨?_, ?_, hp, by rw [hp]; exact hd.symm⟩
  · show ((Tf.id.mul _).mul mount).org 0 = _
    simp [Tf.mul, Tf.id, mount]
  · show ((Tf.id.mul _).mul mount).org 1 = _
    simp [Tf.mul, Tf.id, mount]

/-- C71, refuted: an uncertain heading makes the position of a sensor in front uncertain; the listener gives the covariance
of the base instead, for every offset. -/
theorem C71_no_lever_arm (world : Tf) (org : V3) (e : Full) (r k : Fin 6) :
    (mounted world { rot := 1, org := org } e).P (poseVar r) (poseVar k) = e.P (poseVar r) (poseVar k) := by
  have h6 : Listen.rot6d (1 : M3) = 1 := by
    ext i j
    fin_cases i <;> fin_cases j <;> simp [Listen.rot6d, Matrix.one_apply]
  have hv : ∀ q : Fin 6, (poseVar q).val = q.val := by intro q; fin_cases q <;> rfl
  simp only [mounted, Matrix.of_apply]
  rw [dif_pos ⟨by rw [hv]; exact r.2, by rw [hv]; exact k.2⟩, h6, Matrix.transpose_one, Matrix.one_mul, Matrix.mul_one]
  rfl

/-! ## C72: what is answered -/

/-- C72: a state is only returned after a message gave the frames, and only for the base itself or a frame below it, in a
world frame that is the filter's or one not below the base. -/
theorem C72_sensible (l : Listener) (ext : Full → ℝ → Full) (tf : TfBuffer) {tree : Listen.Frames} (ht : IsTree tree) {depth : ℕ}
    (hd : tree.length < depth) (c : Cache) (hc : CacheOk tree c) (time : ℝ) (frame worldFrame : String) (r : Full)
    (h : (l.getState ext tf tree depth c time frame worldFrame).1 = .state r) :
    (l.base ≠ "" ∧ l.world ≠ "") ∧ Reaches tree frame l.base ∧
      (worldFrame = "" ∨ worldFrame = l.world ∨ ¬Reaches tree worldFrame l.base) := by
  obtain ⟨h0, ⟨h1, h2, -⟩ | ⟨ns, world, mount, -, -, h3, h4, -⟩⟩ := getState_cases l ext tf ht hd c hc time frame worldFrame r h
  · exact ⟨h0, by rw [h1]; exact Relation.ReflTransGen.refl, by tauto⟩
  · exact ⟨h0, h3, by tauto⟩

/-- C72, refuted for a buffer of size zero: after a message the listener answers every query for the base with zeros and
certainty, although it has stored nothing. -/
theorem C72_zero_size (ext : Full → ℝ → Full) (tf : TfBuffer) (tree : Listen.Frames) (depth : ℕ) (c : Cache) (time : ℝ) (m : MsgPair)
    (hb : m.1.child ≠ "") (hw : m.1.frame ≠ "") :
    ((heard 0 [m]).getState ext tf tree depth c time m.1.child "").1 = .state Full.zero := by
  have e : heard 0 [m] = { base := m.1.child, world := m.1.frame, buf := { items := [], cap := 0 } } := by
    simp [heard, Listener.new, Listener.callback, Buf.setState, Buf.pushBack]
  rw [e]
  unfold Listener.getState
  rw [if_neg (by simp; tauto)]
  simp only
  rw [if_pos ⟨trivial, rfl⟩, (C45_empty _ ext time).2 rfl]
  rfl

/-- A listener that has heard of the base at 1 s, and a camera on the base. -/
noncomputable def cameraTf : TfBuffer := fun target source _ =>
  if target = source then some Tf.id
  else if target = "base" ∧ source = "camera" then some { rot := 1, org := ![0.5, 0, 1] } else none

example (ext : Full → ℝ → Full) : ∃ r, ((heard 10 [msgAt 1000000000 3]).getState ext cameraTf treeDemo 4 { anc := [], desc := [] } 1
    "camera" "").1 = .state r := by
  have e : heard 10 [msgAt 1000000000 3] = { base := "base", world := "odom", buf := (heard 10 [msgAt 1000000000 3]).buf } := by
    simp [heard, Listener.new, Listener.callback, msgAt]
  rw [e]
  obtain ⟨ns, hn, -⟩ := C70_lookup_time_partial 1 (by norm_num [abs_le])
  unfold Listener.getState
  rw [if_neg (by decide)]
  simp only
  rw [if_neg (by decide), if_pos (by decide), hn]
  have : findAncestor 4 treeDemo { anc := [], desc := [] } "camera" "base" =
      some (true, { anc := [("camera", "base")], desc := [] }) := by rfl
  simp [cameraTf, this]

end RL
