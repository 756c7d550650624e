import Verif.Model.Output
import Verif.Props.Rpy
import Verif.Props.Pose
import Verif.Props.EkfCorrect
import Verif.Spec.EkfDemo
/-!
# What the node sends (C41, C42, C67, C68)
-/

namespace RL
open Matrix

/-- The pose a state stands for. -/
noncomputable def Body.pose (x : Fin 15 → ℝ) : Tf := { rot := Body.rot ![x 3, x 4, x 5], org := ![x 0, x 1, x 2] }

/-- The variables of the messages in the order of their covariances: x, y, z and rotations about x, y, z. -/
def poseVar : Fin 6 → Fin 15 := ![0, 1, 2, 3, 4, 5]
def twistVar : Fin 6 → Fin 15 := ![6, 7, 8, 9, 10, 11]
def accVar : Fin 3 → Fin 15 := ![12, 13, 14]

/-- Row and column in a covariance of a message (row by row, six columns). -/
def entry (cov : Fin 36 → ℝ) (r c : Fin 6) : ℝ := cov ⟨6 * r.val + c.val, by omega⟩

/-- C41: nothing is sent before the first measurement; then the message is the whole estimate: its pose, velocities,
covariances of pose and velocity at their places, its time and frames. -/
theorem C41_odometry (fr : Frames) (init : Bool) (x : State) (P : Mat15) (t : Int) :
    (init = false → odomMessage fr init x P t = none) ∧
    (init = true → ∃ m, odomMessage fr init x P t = some m ∧ m.stamp = t ∧ m.frame = fr.world ∧ m.child = fr.baseOut ∧
      m.ori.len2 = 1 ∧ ({ rot := m.ori.mat, org := m.pos } : Tf) = Body.pose x ∧
      (∀ i, m.lin i = .fin ((Body.kin x).vel i)) ∧ (∀ i, m.ang i = .fin ((Body.kin x).rate i)) ∧
      (∀ r c, entry m.poseCov r c = P (poseVar r) (poseVar c)) ∧ ∀ r c, entry m.twistCov r c = P (twistVar r) (twistVar c)) := by
  refine ⟨fun h => by simp [odomMessage, h], fun h => ?_⟩
  refine ⟨_, by rw [odomMessage, if_pos h], rfl, rfl, rfl, len2_ofRPY _ _ _, ?_, ?_, ?_, ?_, ?_⟩
  · simp only [Body.pose]
    rw [mat_ofRPY, setRPY_eq]
  · intro i; fin_cases i <;> rfl
  · intro i; fin_cases i <;> rfl
  · intro r c
    simp only [entry]
    congr 1
    · fin_cases r <;> fin_cases c <;> rfl
    · fin_cases r <;> fin_cases c <;> rfl
  · intro r c
    simp only [entry]
    congr 1
    · fin_cases r <;> fin_cases c <;> rfl
    · fin_cases r <;> fin_cases c <;> rfl

/-- C41: the acceleration message is sent after the first measurement and contains the estimated acceleration with its
covariance, and no correlation between linear and angular parts. -/
theorem C41_acceleration (fr : Frames) (init : Bool) (x : State) (P : Mat15) (t : Int) (d : Differ) :
    (init = false → accelMessage fr init x P t d = none) ∧
    (init = true → ∃ m, accelMessage fr init x P t d = some m ∧ m.stamp = t ∧ m.frame = fr.baseOut ∧
      m.lin = (Body.kin x).acc ∧ m.ang = d.acc ∧
      (∀ r c : Fin 3, entry m.cov (Fin.castLE (by omega) r) (Fin.castLE (by omega) c) = P (accVar r) (accVar c)) ∧
      (∀ r c : Fin 3, entry m.cov ⟨r.val + 3, by omega⟩ ⟨c.val + 3, by omega⟩ = d.cov r c) ∧
      ∀ r c : Fin 6, (r.val < 3 ∧ 3 ≤ c.val ∨ 3 ≤ r.val ∧ c.val < 3) → entry m.cov r c = 0) := by
  refine ⟨fun h => by simp [accelMessage, h], fun h => ?_⟩
  refine ⟨_, by rw [accelMessage, if_pos h], rfl, rfl, rfl, rfl, ?_, ?_, ?_⟩
  · intro r c
    fin_cases r <;> fin_cases c <;> rfl
  · intro r c
    fin_cases r <;> fin_cases c <;> rfl
  · intro r c hrc
    simp only [entry]
    rw [dif_neg (by omega), dif_neg (by omega)]

/-! ## C42 -/

/-- A buffer that knows where the base is in the odometry frame. -/
def KnowsOdom (buf : TfBuffer) (fr : Frames) (time : Int) (odomBase : Tf) : Prop :=
  buf fr.base fr.odom time = some odomBase.inv

/-- C42: in the map frame, what is broadcast composed with the transform from odom to base it was computed from is the
estimated pose; at times where the base was elsewhere in the odometry frame it is as far off as the base was. -/
theorem C42_map_to_base (fr : Frames) (buf : TfBuffer) (off : Int) (init : Bool) (x : State) (P : Mat15) (t : Int) (m : OdomMsg)
    (hm : odomMessage fr init x P t = some m) (hw : fr.world = fr.map) (hne : fr.map ≠ fr.odom) (ob : Tf) (hrot : IsRot ob.rot)
    (hob : KnowsOdom buf fr 0 ob) :
    ∃ b, broadcast fr buf off m = some b ∧ b.frame = fr.map ∧ b.child = fr.odom ∧ b.stamp = t + off ∧
      b.tf.mul ob = Body.pose x ∧ b.ori.len2 = 1 ∧
      ∀ other : Tf, (b.tf.mul other = Body.pose x ↔ other = ob) := by
  cases init with
  | false => simp [odomMessage] at hm
  | true =>
    obtain ⟨m', e, hst, hfr, -, -, hp, -⟩ := (C41_odometry fr true x P t).2 rfl
    rw [e, Option.some.injEq] at hm
    subst hm
    have hpose : IsRot (Body.pose x).rot := by
      simp only [Body.pose]
      rw [← setRPY_eq]
      exact isRot_setRPY _ _ _
    refine ⟨_, by
      unfold broadcast
      rw [if_neg (by rw [hfr, hw]; exact hne), if_pos (by rw [hfr, hw]), hob]
      rfl, rfl, rfl, by rw [hst], ?_⟩
    simp only [TfMsg.tf]
    rw [hp]
    have hr2 : IsRot ((Body.pose x).mul ob.inv).rot := Tf.isRot_mul hpose (Tf.isRot_inv hrot)
    have hq := C43_matrix_to_quaternion hr2
    have hb : ({ rot := (quatOf ((Body.pose x).mul ob.inv).rot).mat, org := ((Body.pose x).mul ob.inv).org } : Tf) =
        (Body.pose x).mul ob.inv := by
      rw [hq.2]
    rw [hb]
    have hid : ∀ a : Tf, a.mul Tf.id = a := by
      intro a
      simp [Tf.mul, Tf.id]
    have main : ((Body.pose x).mul ob.inv).mul ob = Body.pose x := by
      rw [Tf.mul_assoc, Tf.inv_mul hrot, hid]
    refine ⟨main, hq.1, fun other => ⟨fun h => ?_, fun h => by rw [h]; exact main⟩⟩
    have h3 : ((Body.pose x).mul ob.inv).inv.mul (((Body.pose x).mul ob.inv).mul other) =
        ((Body.pose x).mul ob.inv).inv.mul (((Body.pose x).mul ob.inv).mul ob) := by rw [h, main]
    rw [Tf.inv_mul_cancel_left hr2, Tf.inv_mul_cancel_left hr2] at h3
    exact h3

/-- C42: where the world frame is the odometry frame, the estimated pose itself is broadcast. -/
theorem C42_odom_to_base (fr : Frames) (buf : TfBuffer) (off : Int) (init : Bool) (x : State) (P : Mat15) (t : Int) (m : OdomMsg)
    (hm : odomMessage fr init x P t = some m) (hw : fr.world = fr.odom) :
    ∃ b, broadcast fr buf off m = some b ∧ b.frame = fr.odom ∧ b.child = fr.baseOut ∧ b.stamp = t + off ∧
      b.tf = Body.pose x := by
  cases init with
  | false => simp [odomMessage] at hm
  | true =>
    obtain ⟨m', e, hst, hfr, hch, -, hp, -⟩ := (C41_odometry fr true x P t).2 rfl
    rw [e, Option.some.injEq] at hm
    subst hm
    exact ⟨_, by unfold broadcast; rw [if_pos (by rw [hfr, hw])], by change m'.frame = _; rw [hfr, hw], hch,
      by change m'.stamp + off = _; rw [hst], by rw [TfMsg.tf]; exact hp⟩

/-- C42: without a transform from odom to base, or with a world frame that is neither, nothing is broadcast. -/
theorem C42_nothing_else (fr : Frames) (buf : TfBuffer) (off : Int) (m : OdomMsg) (h : m.frame ≠ fr.odom) :
    (buf fr.base fr.odom 0 = none → broadcast fr buf off m = none) ∧
    (m.frame ≠ fr.map → broadcast fr buf off m = none) := by
  constructor
  · intro hb
    unfold broadcast
    rw [if_neg h]
    split
    · rw [hb]; rfl
    · rfl
  · intro hm
    unfold broadcast
    rw [if_neg h, if_neg hm]

/-- Frames of a usual node for the map. -/
def framesDemo : Frames := { world := "map", map := "map", odom := "odom", base := "base_link", baseOut := "base_link" }

example : KnowsOdom (fun _ _ _ => some (Tf.inv { rot := 1, org := ![1, 2, 0] })) framesDemo 0 { rot := 1, org := ![1, 2, 0] } ∧
    IsRot (1 : M3) ∧ framesDemo.world = framesDemo.map ∧ framesDemo.map ≠ framesDemo.odom := by
  refine ⟨rfl, IsRot.one, rfl, by decide⟩

/-! ## C67: angular acceleration -/

/-- One cycle in which measurements are processed: whether the filter is initialised, the time, and the estimate. -/
structure Cycle where
  init : Bool
  now : Int
  x : State
  P : Mat15

noncomputable def Differ.run (d : Differ) (cs : List Cycle) : Differ := cs.foldl (fun d c => d.step c.init c.now c.x c.P) d

/-- C67: from the second cycle with an initialised filter on, the angular acceleration is the change of the estimated
angular velocity since the previous cycle, per second; its covariance is that of a difference of two independent rates with
the current covariance. -/
theorem C67_difference_quotient_partial (d : Differ) (cs : List Cycle) (a b : Cycle) (ha : a.init = true) (hb : b.init = true)
    (between : List Cycle) (hbt : ∀ c ∈ between, c.init = false) (i j : Fin 3) :
    (d.run (cs ++ a :: between ++ [b])).acc i = ((Body.kin b.x).rate i - (Body.kin a.x).rate i) / (toSec b.now - toSec a.now) ∧
    (d.run (cs ++ a :: between ++ [b])).cov i j =
      2 * b.P ⟨i.val + 9, by omega⟩ ⟨j.val + 9, by omega⟩ / (toSec b.now - toSec a.now) ^ 2 := by
  have h1 : ∀ (l : List Cycle) (d : Differ), (∀ c ∈ l, c.init = false) → d.run l = d := by
    intro l
    induction l with
    | nil => intro d _; rfl
    | cons c l ih =>
      intro d hl
      have hc : d.step c.init c.now c.x c.P = d := by
        unfold Differ.step
        rw [if_neg]
        rw [hl c List.mem_cons_self]
        simp
      calc d.run (c :: l) = (d.step c.init c.now c.x c.P).run l := rfl
        _ = d.run l := by rw [hc]
        _ = d := ih d fun c hc => hl c (List.mem_cons_of_mem _ hc)
  have h2 : d.run (cs ++ a :: between ++ [b]) =
      ((d.run cs).step a.init a.now a.x a.P).step b.init b.now b.x b.P := by
    have e : d.run (cs ++ a :: between ++ [b]) = ((((d.run cs).step a.init a.now a.x a.P).run between).step b.init b.now b.x b.P) := by
      simp [Differ.run, List.foldl_append]
    rw [e, h1 between _ hbt]
  rw [h2]
  have hv : ∀ x : State, ∀ i : Fin 3, (![x 9, x 10, x 11] : V3) i = (Body.kin x).rate i := by
    intro x i
    fin_cases i <;> rfl
  constructor
  · simp only [Differ.step, ha, hb, if_true, hv]
  · simp only [Differ.step, ha, hb, if_true, Matrix.of_apply]
    ring

/-- C67 fails in the first cycle: what is sent depends on what was in memory before (uninitialised members). -/
theorem C67_first_cycle_arbitrary (c : Cycle) (hc : c.init = true) (v : V3) (cov : M3) :
    ∃ d : Differ, (d.run [c]).acc = v := by
  refine ⟨{ lastTime := toSec c.now - 1, lastRate := fun i => (![c.x 9, c.x 10, c.x 11] : V3) i - v i, acc := 0, cov := cov }, ?_⟩
  funext i
  simp [Differ.run, Differ.step, hc]

/-- C67 fails where the time of the estimate is not the time of the cycle: a body with angular acceleration `a` about one
axis, estimated exactly one second further, is reported with half of it after two seconds. -/
theorem C67_cycle_time (d : Differ) (a : ℝ) :
    let before : Cycle := { init := true, now := 0, x := 0, P := 0 }
    let after : Cycle := { init := true, now := 2000000000, x := fun i => if i = 11 then a * 1 else 0, P := 0 }
    (d.run [before, after]).acc 2 = a / 2 := by
  simp [Differ.run, Differ.step, toSec]
  norm_num

example : ∀ c ∈ ([] : List Cycle), c.init = false := by simp

/-! ## C68: estimates that are not numbers -/

/-- C68 fails: an estimate that is not finite is sent out like any other (the test only logs an error). -/
theorem C68_published_anyway (p : FilterPar) {P : MQueue (ekfCore p)} (cfg : Cfg (ekfCore p)) (n : Node (ekfCore p) P) (tfOk : Bool)
    (hi : n.filt.initialized = true) (hx : n.filt.x = none) (hs : n.lastPub < n.filt.lastTime) :
    Out.odom n.filt.lastTime (none : Option State) n.filt.cov ∈ (n.publish cfg tfOk).2 := by
  have hd : ¬ n.filt.lastTime ≤ n.lastPub := by omega
  unfold Node.publish
  rw [if_pos hi]
  simp only [hx]
  simp [hd]

/-- A measurement of x that is not a number. -/
def nanZ : Payload := demoZ (fun i => decide (i = 0)) (fun i => if i = 0 then .nan else .fin 0)

/-- C68 fails: it is enough that the first measurement is not a number. -/
theorem C68_first_nan :
    ∃ cov, Out.odom 1 (none : Option State) cov ∈
      ((demoNode plainPar).run (demoCfg plainPar) [.sensor "a" 1 (some nanZ), .tick 2 2 false]).2 := by
  have h0 : ∀ x, initState nanZ x = none := fun x => (C05_first_measurement_contaminates nanZ x 0 rfl rfl).1
  refine ⟨initCov nanZ ((1e-9 : ℝ) • (1 : Mat15)), ?_⟩
  simp [Node.run, Node.step, demoNode, Node.start, Node.sensor, Node.enqueue, demoCfg, demoQ, PQueue.sortedList,
    PQueue.insertSorted, Node.periodic, Node.advance, Node.integrate, Node.drain, PQueue.size, Filt.processMeasurement,
    Node.publish, ekfCore, h0]
  exact List.mem_append_right _ (List.mem_append_left _ (List.mem_append_left _ List.mem_cons_self))

/-- C68: a finite estimate is sent as it is. -/
theorem C68_finite_partial (p : FilterPar) {P : MQueue (ekfCore p)} (cfg : Cfg (ekfCore p)) (n : Node (ekfCore p) P) (tfOk : Bool)
    (x : State) (hx : n.filt.x = some x) (o : Out (ekfCore p)) (ho : o ∈ (n.publish cfg tfOk).2) (t : Int)
    (y : Option State) (c : Mat15) (he : o = Out.odom t y c) : y = some x ∧ c = n.filt.cov := by
  subst he
  unfold Node.publish at ho
  split at ho
  · simp only [List.mem_append] at ho
    rcases ho with (ho | ho) | ho
    · split at ho <;> simp at ho
    · split at ho
      · have hE := List.mem_singleton.mp ho
        injection hE with h1 h2 h3
        exact ⟨h2.trans hx, h3⟩
      · simp at ho
    · split at ho <;> simp at ho
  · simp at ho

end RL
