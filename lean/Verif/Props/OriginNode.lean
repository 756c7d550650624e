import Verif.Proofs.SysSim
import Verif.Props.Origin
import Verif.Props.System
/-! # C90: the origin of the world frame does not matter to the whole node, from the messages it gets to the messages it sends -/

namespace RL
open Matrix Real

/-- The same place in coordinates of a frame: moved in the world frame, unchanged in others. -/
def frameShift (world : String) (d : V3) (frame : String) : V3 := if frame = world then d else 0

/-- The same transform from `source` to `target`, with the world frame seen from the other origin. -/
noncomputable def Tf.seenFrom (world : String) (d : V3) (target source : String) (t : Tf) : Tf :=
  { rot := t.rot, org := t.org + frameShift world d target - t.rot.mulVec (frameShift world d source) }

/-- The same transforms. -/
noncomputable def TfBuffer.seenFrom (world : String) (d : V3) (b : TfBuffer) : TfBuffer :=
  fun x y t => (b x y t).map (Tf.seenFrom world d x y)

/-- The same pose message. -/
def PoseMsg.seenFrom (world : String) (d : V3) (m : PoseMsg) : PoseMsg := { m with pos := m.pos + frameShift world d m.frame }

/-- The same odometry message. -/
def OdomMsg.seenFrom (world : String) (d : V3) (m : OdomMsg) : OdomMsg := { m with pos := m.pos + frameShift world d m.frame }

/-- The same events: positions in the world frame seen from another origin. -/
noncomputable def Sys.Ev.seenFrom (world : String) (d : V3) : Sys.Ev → Sys.Ev
  | .odom i buf junk m => .odom i (buf.seenFrom world d) (State.moved d junk) (m.seenFrom world d)
  | .pose i buf junk m => .pose i (buf.seenFrom world d) (State.moved d junk) (m.seenFrom world d)
  | .twist i buf junk m => .twist i (buf.seenFrom world d) (State.moved d junk) m
  | .imu i buf junk m => .imu i (buf.seenFrom world d) (State.moved d junk) m
  | .command now u => .command now u
  | .setPose now buf junk m => .setPose now (buf.seenFrom world d) (State.moved d junk) (m.seenFrom world d)
  | .reset => .reset
  | .toggle on => .toggle on
  | .enable => .enable
  | .tick now now2 buf => .tick now now2 (buf.seenFrom world d)

/-- The same settings: the initial state seen from that origin. -/
def SysCfg.seenFrom {p : FilterPar} (d : V3) (g : SysCfg (ekfCore p)) : SysCfg (ekfCore p) :=
  { cfg := g.cfg.moved d, frames := g.frames, inputs := g.inputs, twoD := g.twoD, gravity := g.gravity, tfOffset := g.tfOffset }

/-- The same messages sent: positions seen from that origin. -/
def Sent.seenFrom (d : V3) : Sent → Sent
  | .odom t m => .odom t (m.map fun m => { m with pos := m.pos + d })
  | .tf t m => .tf t (m.map fun m => { m with org := m.org + d })
  | .accel t m => .accel t m

/-- What is asked of the settings of a node. `inWorld` says for which topics messages are in the world frame. -/
structure SysCfg.FitsOrigin {C : Core} (g : SysCfg C) (inWorld : String → Prop) (d : V3) : Prop where
  named : g.frames.world ≠ "" ∧ g.frames.base ≠ "" ∧ g.frames.base ≠ g.frames.world
  plane : g.twoD = true → d 2 = 0
  /-- Velocities, accelerations and the orientations of an IMU come with no position. -/
  odom : ∀ (i : ℕ) a b, g.inputs.odomCds[i]? = some (a, b) → (∀ j : Fin 15, j.val < 3 → b.upd j = false) ∧
    (a.relative = true → a.differential = false → inWorld a.topic → ∀ j : Fin 15, j.val < 3 → a.upd j = false)
  pose : ∀ (i : ℕ) a, g.inputs.poseCds[i]? = some a →
    a.relative = true → a.differential = false → inWorld a.topic → ∀ j : Fin 15, j.val < 3 → a.upd j = false
  twist : ∀ (i : ℕ) a, g.inputs.twistCds[i]? = some a → ∀ j : Fin 15, j.val < 3 → a.upd j = false
  imu : ∀ (i : ℕ) a b e, g.inputs.imuCds[i]? = some (a, b, e) → ∀ j : Fin 15, j.val < 3 →
    a.upd j = false ∧ b.upd j = false ∧ e.upd j = false

/-- What is asked of an event: no velocity, acceleration or orientation of the world frame itself, messages of an input
that compares poses always in the same frame, no `reset`, no `set_pose` that cannot be transformed. -/
def Sys.Ev.FitsOrigin {C : Core} (g : SysCfg C) (inWorld : String → Prop) : Sys.Ev → Prop
  | .odom i _ _ m => m.child ≠ g.frames.world ∧ ∀ a b, g.inputs.odomCds[i]? = some (a, b) →
      a.differential = true ∨ a.relative = true → (m.frame = g.frames.world ↔ inWorld a.topic)
  | .pose i _ _ m => ∀ a, g.inputs.poseCds[i]? = some a →
      a.differential = true ∨ a.relative = true → (m.frame = g.frames.world ↔ inWorld a.topic)
  | .twist _ _ _ m => m.frame ≠ g.frames.world
  | .imu i _ _ m => m.frame ≠ g.frames.world ∧ ∀ a b d, g.inputs.imuCds[i]? = some (a, b, d) →
      a.differential = true ∨ a.relative = true → ¬ inWorld a.topic
  | .setPose _ buf _ m => lookupTransformSafe buf g.frames.world m.frame (poseLookupTime m.stamp) ≠ none
  | .reset => False
  | _ => True

section helpers

/-- The second measurement is the first one seen from the other origin, where it is used. -/
structure Payload.SeenFrom (d : V3) (m m' : Payload) : Prop where
  upd : m'.upd = m.upd
  R : m'.R = m.R
  thresh : m'.thresh = m.thresh
  z : ∀ i, m.upd i = true → m'.z i = (m.moved d).z i

theorem Payload.seenFrom_moved (d : V3) (m : Payload) : m.SeenFrom d (m.moved d) := ⟨rfl, rfl, rfl, fun _ _ => rfl⟩

theorem Payload.seenFrom_same {d : V3} {m : Payload} (h : ∀ i : Fin 15, i.val < 3 → m.upd i = true → d ⟨i.val % 3, by omega⟩ = 0 ∧ ∃ a, m.z i = .fin a) :
    m.SeenFrom d m := by
  refine ⟨rfl, rfl, rfl, fun i hi => ?_⟩
  unfold Payload.moved
  dsimp only
  split
  · rename_i h3
    obtain ⟨h0, a, ha⟩ := h i h3 hi
    have : (⟨i.val, h3⟩ : Fin 3) = ⟨i.val % 3, by omega⟩ := Fin.ext (Nat.mod_eq_of_lt h3).symm
    rw [this, h0, ha]
    simp [Dbl.movedBy]
  · rfl

theorem Payload.SeenFrom.indices {d : V3} {m m' : Payload} (h : m.SeenFrom d m') : m'.indices = (m.moved d).indices := by
  unfold Payload.indices
  refine List.filter_congr fun i _ => ?_
  rw [h.upd]
  show _ = (m.upd i && _ && _)
  cases hu : m.upd i with
  | false => rfl
  | true => rw [h.z i hu]

theorem Payload.SeenFrom.correct {d : V3} {m m' : Payload} (h : m.SeenFrom d m') (x : State) (P : Mat15) :
    Ekf.correct m' x P = Ekf.correct (m.moved d) x P := by
  have key : ∀ l : List (Fin 15), (∀ i ∈ l, m.upd i = true) →
      innovation l.get (fun i => (m'.z i).val) x = innovation l.get (fun i => ((m.moved d).z i).val) x := by
    intro l hl
    funext a
    unfold innovation
    simp only [h.z _ (hl _ (List.get_mem l a))]
  have hl : ∀ i ∈ (m.moved d).indices, m.upd i = true := by
    intro i hi
    have := (List.mem_filter.1 hi).2
    simp only [Bool.and_eq_true] at this
    exact this.1.1
  unfold Ekf.correct
  rw [h.indices]
  unfold correctAt
  rw [key _ hl, show m'.R = (m.moved d).R from h.R, show m'.thresh = (m.moved d).thresh from h.thresh]

theorem Payload.SeenFrom.init {d : V3} {m m' : Payload} (h : m.SeenFrom d m') (x : State) :
    initState m' x = initState (m.moved d) x := by
  have hf : (∀ i, m'.upd i = true → (m'.z i).isFin = true) ↔ ∀ i, (m.moved d).upd i = true → ((m.moved d).z i).isFin = true := by
    refine forall_congr' fun i => ?_
    rw [h.upd]
    show (m.upd i = true → _) ↔ (m.upd i = true → _)
    refine imp_congr_right fun hu => ?_
    rw [h.z i hu]
  unfold initState
  by_cases hA : ∀ i, m'.upd i = true → (m'.z i).isFin = true
  · rw [if_pos hA, if_pos (hf.1 hA)]
    congr 1
    funext i
    rw [h.upd]
    show (if m.upd i = true then _ else _) = if m.upd i = true then _ else _
    split_ifs with hu
    · rw [h.z i hu]
    · rfl
  · rw [if_neg hA, if_neg (fun q => hA (hf.2 q))]

/-- The filter seen from another origin, with measurements that count where they are used. -/
noncomputable def shiftSim (p : FilterPar) (d : V3) : CoreSim (ekfCore p) (ekfCore p) 0 where
  low := 0
  X := (movedSim p d).X
  Cov := (movedSim p d).Cov
  Ext := (movedSim p d).Ext
  Par := (movedSim p d).Par
  Z z z' := Payload.SeenFrom d z z'
  Ctl := (movedSim p d).Ctl
  predict := (movedSim p d).predict
  correct := by
    rintro z z' x x' P P' e e' hz hx hP he
    have h := (movedSim p d).correct (z := z) (z' := Payload.moved d z) rfl hx hP he
    have e2 : (ekfCore p).correct z' (x', P', e') = (ekfCore p).correct (Payload.moved d z) (x', P', e') := by
      cases x' with
      | none => rfl
      | some y =>
        show (match Ekf.correct z' y P' with
          | some r => (some r.1, r.2, ())
          | none => (none, P', ()) : Option State × Mat15 × Unit) =
          match Ekf.correct (Payload.moved d z) y P' with
          | some r => (some r.1, r.2, ())
          | none => (none, P', ())
        rw [show Ekf.correct (z' : Payload) y P' = _ from Payload.SeenFrom.correct hz y P']
    rw [e2]
    exact h
  initX := by
    rintro z z' x x' hz hx
    have h := (movedSim p d).initX (z := z) (z' := Payload.moved d z) rfl hx
    have e2 : (ekfCore p).initX z' x' = (ekfCore p).initX (Payload.moved d z) x' := by
      cases x' with
      | none => rfl
      | some y => exact Payload.SeenFrom.init hz y
    rw [e2]
    exact h
  initCov := by
    rintro z z' P P' hz hP
    have hz : Payload.SeenFrom d z z' := hz
    have hP : P' = P := hP
    subst hP
    show initCov z' P' = initCov z P'
    unfold initCov
    rw [hz.upd, hz.R]

theorem lookup_seenFrom (world : String) (d : V3) (b : TfBuffer) (x y : String) (t : Int) :
    lookupTransformSafe (b.seenFrom world d) x y t = (lookupTransformSafe b x y t).map (Tf.seenFrom world d x y) := by
  unfold lookupTransformSafe TfBuffer.seenFrom
  cases b x y t with
  | some t => rfl
  | none =>
    dsimp only [Option.map_none]
    cases b x y 0 with
    | some t => rfl
    | none =>
      dsimp only [Option.map_none]
      split_ifs with h
      · subst h
        simp [Tf.seenFrom, Tf.id]
      · rfl

theorem seenFrom_elsewhere {world : String} {d : V3} {x y : String} (hx : x ≠ world) (hy : y ≠ world) (t : Tf) :
    Tf.seenFrom world d x y t = t := by
  simp [Tf.seenFrom, frameShift, hx, hy]

theorem lookup_elsewhere {world : String} {d : V3} (b : TfBuffer) {x y : String} (hx : x ≠ world) (hy : y ≠ world) (t : Int) :
    lookupTransformSafe (b.seenFrom world d) x y t = lookupTransformSafe b x y t := by
  rw [lookup_seenFrom]
  cases lookupTransformSafe b x y t with
  | none => rfl
  | some t => exact congrArg some (seenFrom_elsewhere hx hy t)

theorem finish_seenFrom {d : V3} {c c' : PrepCtx} (h2 : c'.twoD = c.twoD) (hd : c.twoD = true → d 2 = 0) {m m' : Payload} (h : m.SeenFrom d m') :
    (finish c m).SeenFrom d (finish c' m') := by
  unfold finish
  rw [h2]
  cases ht : c.twoD with
  | false => simpa using h
  | true =>
    simp only [if_true]
    have hd := hd ht
    unfold forceTwoD
    refine ⟨?_, ?_, h.thresh, ?_⟩
    · dsimp only; rw [h.upd]
    · dsimp only; rw [h.R]
    · intro i hi
      dsimp only at hi ⊢
      unfold Payload.moved
      dsimp only
      by_cases ho : offPlane i = true
      · simp only [ho, if_true]
        split
        · rename_i h3
          have : i = 2 := by
            clear hi
            revert ho h3
            revert i
            decide
          subst this
          simpa [Dbl.movedBy] using hd.symm
        · rfl
      · simp only [ho] at hi ⊢
        exact h.z i hi

/-- The same pose of a topic. -/
noncomputable def topicShift (inWorld : String → Prop) (d : V3) (topic : String) : V3 :=
  open Classical in if inWorld topic then d else 0

noncomputable def Tf.plus (d : V3) (t : Tf) : Tf := { rot := t.rot, org := t.org + d }

/-- The same earlier poses. -/
structure PoseMem.SeenFrom (inWorld : String → Prop) (d : V3) (k k' : PoseMem) : Prop where
  init : ∀ s, k'.init s = (k.init s).map (Tf.plus (topicShift inWorld d s))
  prev : ∀ s, k'.prev s = (k.prev s).map fun a => (a.1.plus (topicShift inWorld d s), a.2)

/-- The same knowledge of the node. -/
structure PrepCtx.SeenFrom (world base : String) (d : V3) (c c' : PrepCtx) : Prop where
  worldEq : c.world = world
  baseEq : c.base = base
  named : world ≠ "" ∧ base ≠ "" ∧ base ≠ world
  plane : c.twoD = true → d 2 = 0
  eq : c' = { c with buf := c.buf.seenFrom world d, state := State.moved d c.state }

theorem maskAxes_nothing (r : M3) {u : Fin 3 → Bool} (h : ∀ j, u j = false) (i : Fin 3) : maskAxes r u i = false := by
  rw [show u = fun _ => false from funext h]
  simp [maskAxes]
  norm_num

theorem put_low {α : Type} {off : ℕ} (ho : 3 ≤ off) (f : Fin 15 → α) (v : Fin 3 → α) {i : Fin 15} (hi : i.val < 3) : put off f v i = f i := by
  unfold put
  rw [dif_neg (by omega)]

variable {world base : String} {inWorld : String → Prop} {d : V3}

theorem twist_seenFrom {c c' : PrepCtx} (hc : c.SeenFrom world base d c') {m : TwistMsg} (hm : m.frame ≠ world) {target : String}
    (ht : target ≠ world) {p : Payload} (hp : ∀ j : Fin 15, j.val < 3 → p.upd j = false) :
    Option.Rel (Payload.SeenFrom d) (prepareTwist c m target p) (prepareTwist c' m target p) := by
  rw [hc.eq]
  unfold prepareTwist
  dsimp only
  rw [lookup_elsewhere _ ht (by split_ifs; exacts [ht, hm])]
  cases lookupTransformSafe c.buf target (if m.frame = "" then target else m.frame) m.stamp with
  | none => exact .none
  | some t =>
    refine .some ?_
    unfold twistPayload
    dsimp only
    refine finish_seenFrom rfl hc.plane (Payload.seenFrom_same fun i hi hu => ?_)
    dsimp only at hu
    rw [put_low (by omega) _ _ hi, put_low (by omega) _ _ hi, hp i hi] at hu
    cases hu

theorem accel_seenFrom {c c' : PrepCtx} (hc : c.SeenFrom world base d c') {m : ImuMsg} (hm : m.frame ≠ world) {target : String}
    (ht : target ≠ world) (grav rel : Bool) {p : Payload} (hp : ∀ j : Fin 15, j.val < 3 → p.upd j = false) :
    Option.Rel (Payload.SeenFrom d) (prepareAcceleration c grav m target rel p) (prepareAcceleration c' grav m target rel p) := by
  rw [hc.eq]
  unfold prepareAcceleration
  dsimp only
  rw [lookup_elsewhere _ ht (by split_ifs; exacts [by rw [hc.baseEq]; exact hc.named.2.2, hm])]
  cases lookupTransformSafe c.buf target (if m.frame = "" then c.base else m.frame) m.stamp with
  | none => exact .none
  | some t =>
    refine .some ?_
    unfold accelPayload
    dsimp only
    refine finish_seenFrom rfl hc.plane (Payload.seenFrom_same fun i hi hu => ?_)
    dsimp only at hu
    rw [put_low (by omega) _ _ hi, hp i hi] at hu
    cases hu

theorem plus_zero (t : Tf) : t.plus 0 = t := by simp [Tf.plus]

theorem msgPose_seenFrom (m : PoseMsg) : msgPose (m.seenFrom world d) = (msgPose m).plus (frameShift world d m.frame) := rfl

theorem plus_mul (v : V3) (t s : Tf) : (t.plus v).mul s = (t.mul s).plus v := by
  simp [Tf.plus, Tf.mul, add_assoc]

theorem plus_inverseTimes (v : V3) (t s : Tf) : (t.plus v).inverseTimes (s.plus v) = t.inverseTimes s := by
  simp [Tf.plus, Tf.inverseTimes]

theorem seenFrom_mul (x y : String) (t s : Tf) :
    (Tf.seenFrom world d x y t).mul (s.plus (frameShift world d y)) = (t.mul s).plus (frameShift world d x) := by
  simp only [Tf.seenFrom, Tf.plus, Tf.mul, Tf.mk.injEq, true_and, mulVec_add]
  abel

theorem seenFrom_mul' {x y : String} (hy : frameShift world d y = 0) (t s : Tf) :
    (Tf.seenFrom world d x y t).mul s = (t.mul s).plus (frameShift world d x) := by
  have := seenFrom_mul (world := world) (d := d) x y t s
  rwa [hy, plus_zero] at this

theorem poseUpd_low {r : M3} {u : Fin 15 → Bool} (h : ∀ j : Fin 15, j.val < 3 → u j = false) {i : Fin 15} (hi : i.val < 3) :
    poseUpd r u i = false := by
  unfold poseUpd
  rw [put_low (by omega) _ _ hi]
  unfold put
  rw [dif_pos (by omega)]
  exact maskAxes_nothing r (fun j => h _ (by simp [axis])) _

theorem diffUpd_low (u : Fin 15 → Bool) {i : Fin 15} (hi : i.val < 3) : diffUpd u i = false := by
  unfold diffUpd
  rw [dif_neg (by omega)]

theorem source_seenFrom {c c' : PrepCtx} (hc : c.SeenFrom world base d c') {source : String} (hs : source ≠ world) (time : Int) :
    sourceTf c' source time = sourceTf c source time := by
  rw [hc.eq]
  unfold sourceTf
  dsimp only
  rw [lookup_elsewhere _ hs (by rw [hc.baseEq]; exact hc.named.2.2)]

theorem topic_shift {frame topic : String} (h : frame = world ↔ inWorld topic) : topicShift inWorld d topic = frameShift world d frame := by
  unfold topicShift frameShift
  by_cases hf : frame = world
  · rw [if_pos hf, if_pos (h.1 hf)]
  · rw [if_neg hf, if_neg fun q => hf (h.2 q)]

/-- The velocity from two poses. -/
theorem differ_seenFrom {c c' : PrepCtx} (hc : c.SeenFrom world base d c') {k k' : PoseMem} (hk : k.SeenFrom inWorld d k') (last : Int)
    (t : Tf) (r6 covR : M6) (pose : Tf) (stamp : Int) {topic source : String} (hs : source ≠ world) (p : Payload) (u : Fin 15 → Bool) :
    Option.Rel (Payload.SeenFrom d)
      ((k.prev topic).bind fun old =>
        prepareTwist c (diffTwist t r6 covR old.1 old.2 pose last stamp source) c.base { p with upd := diffUpd u })
      ((k'.prev topic).bind fun old =>
        prepareTwist c' (diffTwist t r6 covR old.1 old.2 (pose.plus (topicShift inWorld d topic)) last stamp source) c'.base
          { p with upd := diffUpd u }) := by
  rw [hk.prev topic]
  cases k.prev topic with
  | none => exact .none
  | some old =>
    have e : c'.base = c.base := by rw [hc.eq]
    simp only [Option.map_some, Option.bind_some, e]
    rw [show diffTwist t r6 covR (old.1.plus (topicShift inWorld d topic)) old.2 (pose.plus (topicShift inWorld d topic)) last stamp source =
      diffTwist t r6 covR old.1 old.2 pose last stamp source from by unfold diffTwist; rw [plus_inverseTimes]]
    exact twist_seenFrom hc hs (by rw [hc.baseEq]; exact hc.named.2.2) fun j hj => diffUpd_low _ hj

theorem plus_memory {k k' : PoseMem} (hk : k.SeenFrom inWorld d k') (topic : String) (pose : Tf) (cov : M6) :
    PoseMem.SeenFrom inWorld d { k with prev := fun s => if s = topic then some (pose, cov) else k.prev s }
      { k' with prev := fun s => if s = topic then some (pose.plus (topicShift inWorld d topic), cov) else k'.prev s } := by
  refine ⟨hk.init, fun s => ?_⟩
  dsimp only
  split_ifs with h
  · rw [h]; rfl
  · exact hk.prev s

theorem plus_first {k k' : PoseMem} (hk : k.SeenFrom inWorld d k') (topic : String) (first : Tf) :
    PoseMem.SeenFrom inWorld d { k with init := fun s => if s = topic then some first else k.init s }
      { k' with init := fun s => if s = topic then some (first.plus (topicShift inWorld d topic)) else k'.init s } := by
  refine ⟨fun s => ?_, hk.prev⟩
  dsimp only
  split_ifs with h
  · rw [h]; rfl
  · exact hk.init s

theorem posePayload_seenFrom {c c' : PrepCtx} (hc : c.SeenFrom world base d c') (p : Payload) (u : Fin 15 → Bool) (R : Mat15) {o o' : V3}
    (rpy : V3) (h : o' = o + d ∨ ∀ j : Fin 15, j.val < 3 → u j = false) :
    (finish c { p with upd := u, z := put 3 (put 0 p.z (fun i => .fin (o i))) (fun i => .fin (rpy i)), R := R }).SeenFrom d
      (finish c' { p with upd := u, z := put 3 (put 0 p.z (fun i => .fin (o' i))) (fun i => .fin (rpy i)), R := R }) := by
  refine finish_seenFrom (by rw [hc.eq]) hc.plane ⟨rfl, rfl, rfl, fun i hu => ?_⟩
  unfold Payload.moved
  dsimp only at hu ⊢
  split
  · rename_i hi
    rw [put_low (off := 3) (by omega) _ _ hi, put_low (off := 3) (by omega) _ _ hi]
    rcases h with rfl | h
    · unfold put
      rw [dif_pos ⟨Nat.zero_le _, by omega⟩, dif_pos ⟨Nat.zero_le _, by omega⟩]
      rfl
    · rw [h i hi] at hu
      cases hu
  · rename_i hi
    unfold put
    by_cases h3 : 3 ≤ i.val ∧ i.val < 3 + 3
    · rw [dif_pos h3, dif_pos h3]
    · rw [dif_neg h3, dif_neg h3, dif_neg (by omega), dif_neg (by omega)]

/-- `preparePose` for the orientation of an IMU that is not in the world frame. -/
theorem imuPose_seenFrom {c c' : PrepCtx} (hc : c.SeenFrom world base d c') {k k' : PoseMem} (hk : k.SeenFrom inWorld d k') (last : Int)
    {m : PoseMsg} (hm : m.frame ≠ world) {topic source : String} (hs : source ≠ world) (diff rel : Bool)
    (hw : diff = true ∨ rel = true → ¬ inWorld topic) {p : Payload} (hp : ∀ j : Fin 15, j.val < 3 → p.upd j = false) :
    PoseMem.SeenFrom inWorld d (preparePose c k last m topic base source diff rel true p).1
      (preparePose c' k' last m topic base source diff rel true p).1 ∧
    Option.Rel (Payload.SeenFrom d) (preparePose c k last m topic base source diff rel true p).2
      (preparePose c' k' last m topic base source diff rel true p).2 := by
  have hb := hc.named.2.1
  have e1 : ∀ c : PrepCtx, poseFrames c m.frame base diff true = (base, m.frame) := by
    intro c
    simp [poseFrames, hb]
  have e2 : lookupTransformSafe c'.buf base m.frame (poseLookupTime m.stamp) = lookupTransformSafe c.buf base m.frame (poseLookupTime m.stamp) := by
    rw [hc.eq]
    exact lookup_elsewhere _ hc.named.2.2 hm _
  unfold preparePose
  simp only [e1, e2, source_seenFrom hc hs]
  cases lookupTransformSafe c.buf base m.frame (poseLookupTime m.stamp) with
  | none => exact ⟨hk, .none⟩
  | some t =>
    unfold poseWith
    dsimp only
    cases diff with
    | true =>
      have h0 : topicShift inWorld d topic = 0 := if_neg (hw (Or.inl rfl))
      have h1 := plus_memory hk topic
      have h2 := fun t r6 covR pose => differ_seenFrom hc hk last t r6 covR pose m.stamp (topic := topic) hs p
      simp only [h0, plus_zero] at h1 h2
      exact ⟨h1 _ _, h2 _ _ _ _ _⟩
    | false =>
      simp only [Bool.false_eq_true, if_false, if_true]
      cases rel with
      | false =>
        simp only [Bool.false_eq_true, if_false]
        exact ⟨hk, .some (posePayload_seenFrom hc p _ _ _ (Or.inr fun j hj => poseUpd_low hp hj))⟩
      | true =>
        have h0 : topicShift inWorld d topic = 0 := if_neg (hw (Or.inr rfl))
        have h1 := plus_first hk topic
        have h2 : k'.init topic = k.init topic := by
          rw [hk.init, h0]
          cases k.init topic with
          | none => rfl
          | some t => exact congrArg some (plus_zero t)
        simp only [h0, plus_zero] at h1
        simp only [if_true, h2]
        exact ⟨h1 _, .some (posePayload_seenFrom hc p _ _ _ (Or.inr fun j hj => poseUpd_low hp hj))⟩

/-- `preparePose` for a pose. -/
theorem pose_seenFrom {c c' : PrepCtx} (hc : c.SeenFrom world base d c') {k k' : PoseMem} (hk : k.SeenFrom inWorld d k') (last : Int)
    (m : PoseMsg) {topic source : String} (hs : source ≠ world) (diff rel : Bool)
    (hw : diff = true ∨ rel = true → (m.frame = world ↔ inWorld topic)) {p : Payload}
    (hp : rel = true → diff = false → inWorld topic → ∀ j : Fin 15, j.val < 3 → p.upd j = false) :
    PoseMem.SeenFrom inWorld d (preparePose c k last m topic world source diff rel false p).1
      (preparePose c' k' last (m.seenFrom world d) topic world source diff rel false p).1 ∧
    Option.Rel (Payload.SeenFrom d) (preparePose c k last m topic world source diff rel false p).2
      (preparePose c' k' last (m.seenFrom world d) topic world source diff rel false p).2 := by
  have hb := hc.named.1
  have e0 : (m.seenFrom world d).frame = m.frame := rfl
  have e4 : (m.seenFrom world d).stamp = m.stamp := rfl
  have e5 : ∀ s, poseCov s (m.seenFrom world d) = poseCov s m := fun _ => rfl
  cases diff with
  | true =>
    have e1 : ∀ c : PrepCtx, poseFrames c m.frame world true false = (world, world) := by
      intro c
      simp [poseFrames, hb]
    have e2 : lookupTransformSafe c'.buf world world (poseLookupTime m.stamp) =
        (lookupTransformSafe c.buf world world (poseLookupTime m.stamp)).map (Tf.seenFrom world d world world) := by
      rw [hc.eq]
      exact lookup_seenFrom _ _ _ _ _ _
    have h0 := topic_shift (d := d) (hw (Or.inl rfl))
    unfold preparePose
    simp only [e0, e1, e2, e4, source_seenFrom hc hs]
    cases lookupTransformSafe c.buf world world (poseLookupTime m.stamp) with
    | none => exact ⟨hk, .none⟩
    | some t =>
      unfold poseWith
      dsimp only [Option.map_some]
      simp only [msgPose_seenFrom, ← h0, e4, e5, Bool.false_eq_true, if_false, if_true]
      have h2 := fun r6 covR pose => differ_seenFrom hc hk last t r6 covR pose m.stamp (topic := topic) hs p
      exact ⟨plus_memory hk topic _ _, h2 _ _ _ _⟩
  | false =>
    have e1 : ∀ c : PrepCtx, poseFrames c m.frame world false false = (world, m.frame) := by
      intro c
      simp [poseFrames, hb]
    have e2 : lookupTransformSafe c'.buf world m.frame (poseLookupTime m.stamp) =
        (lookupTransformSafe c.buf world m.frame (poseLookupTime m.stamp)).map (Tf.seenFrom world d world m.frame) := by
      rw [hc.eq]
      exact lookup_seenFrom _ _ _ _ _ _
    have ew : frameShift world d world = d := if_pos rfl
    unfold preparePose
    simp only [e0, e1, e2, e4, source_seenFrom hc hs]
    cases lookupTransformSafe c.buf world m.frame (poseLookupTime m.stamp) with
    | none => exact ⟨hk, .none⟩
    | some t =>
      have er : (Tf.seenFrom world d world m.frame t).rot = t.rot := rfl
      unfold poseWith
      dsimp only [Option.map_some]
      simp only [msgPose_seenFrom, e5, er, Bool.false_eq_true, if_false]
      cases rel with
      | false =>
        cases sourceTf c source (poseLookupTime m.stamp) with
        | none =>
          simp only [Bool.false_eq_true, if_false, seenFrom_mul, ew]
          exact ⟨hk, .some (posePayload_seenFrom hc p _ _ _ (Or.inl rfl))⟩
        | some s =>
          simp only [Bool.false_eq_true, if_false, plus_mul, seenFrom_mul, ew]
          exact ⟨hk, .some (posePayload_seenFrom hc p _ _ _ (Or.inl rfl))⟩
      | true =>
        have h0 := topic_shift (d := d) (hw (Or.inr rfl))
        have e7 : ∀ a : Tf, (k'.init topic).getD (a.plus (frameShift world d m.frame)) =
            ((k.init topic).getD a).plus (frameShift world d m.frame) := by
          intro a
          rw [hk.init, h0]
          cases k.init topic <;> rfl
        have hf : ∀ s : Tf, ((Tf.seenFrom world d world m.frame t).mul s).org = (t.mul s).org + d ∨
            ∀ j : Fin 15, j.val < 3 → poseUpd t.rot p.upd j = false := by
          intro s
          by_cases hi : inWorld topic
          · exact Or.inr fun j hj => poseUpd_low (hp rfl rfl hi) hj
          · refine Or.inl ?_
            rw [seenFrom_mul' (by rw [← h0]; exact if_neg hi), ew]
            rfl
        have hm := plus_first hk topic
        rw [h0] at hm
        cases sourceTf c source (poseLookupTime m.stamp) with
        | none =>
          simp only [if_true, e7, plus_inverseTimes]
          exact ⟨hm _, .some (posePayload_seenFrom hc p _ _ _ (hf _))⟩
        | some s =>
          simp only [if_true, plus_mul, e7, plus_inverseTimes]
          exact ⟨hm _, .some (posePayload_seenFrom hc p _ _ _ (hf _))⟩

theorem finish_moved {c c' : PrepCtx} (hc : c.SeenFrom world base d c') (m : Payload) : finish c' (m.moved d) = (finish c m).moved d := by
  have h2 : c'.twoD = c.twoD := by rw [hc.eq]
  unfold finish
  rw [h2]
  cases ht : c.twoD with
  | false => rfl
  | true =>
    have hd := hc.plane ht
    simp only [if_true, forceTwoD, Payload.moved, Payload.mk.injEq, and_true, true_and]
    funext i
    by_cases ho : offPlane i = true
    · simp only [ho, if_true]
      split
      · rename_i h3
        have : i = 2 := by
          revert ho h3
          revert i
          decide
        subst this
        simpa [Dbl.movedBy] using hd.symm
      · rfl
    · simp only [ho]
      rfl

/-- `preparePose` for a pose that is set. -/
theorem asked_seenFrom {c c' : PrepCtx} (hc : c.SeenFrom world base d c') (m : PoseMsg) (p : Payload) :
    Option.Rel (fun m m' => m' = m.moved d ∧ ∀ i : Fin 15, i.val < 3 → ∃ a, m.z i = .fin a) (preparePose c .blank m.stamp m "set_pose" world base false false false p).2
      (preparePose c' .blank m.stamp (m.seenFrom world d) "set_pose" world base false false false p).2 := by
  have hb := hc.named.1
  have e0 : (m.seenFrom world d).frame = m.frame := rfl
  have e4 : (m.seenFrom world d).stamp = m.stamp := rfl
  have e5 : ∀ s, poseCov s (m.seenFrom world d) = poseCov s m := fun _ => rfl
  have e1 : ∀ c : PrepCtx, poseFrames c m.frame world false false = (world, m.frame) := by
    intro c
    simp [poseFrames, hb]
  have e2 : lookupTransformSafe c'.buf world m.frame (poseLookupTime m.stamp) =
      (lookupTransformSafe c.buf world m.frame (poseLookupTime m.stamp)).map (Tf.seenFrom world d world m.frame) := by
    rw [hc.eq]
    exact lookup_seenFrom _ _ _ _ _ _
  have e8 : sourceTf c base (poseLookupTime m.stamp) = none := by simp [sourceTf, hc.baseEq]
  have ew : frameShift world d world = d := if_pos rfl
  unfold preparePose
  simp only [e0, e1, e2, e4, source_seenFrom hc hc.named.2.2, e8]
  cases lookupTransformSafe c.buf world m.frame (poseLookupTime m.stamp) with
  | none => exact .none
  | some t =>
    have er : (Tf.seenFrom world d world m.frame t).rot = t.rot := rfl
    unfold poseWith
    dsimp only [Option.map_some]
    simp only [msgPose_seenFrom, e5, er, Bool.false_eq_true, if_false, seenFrom_mul, ew]
    refine .some ⟨?_, fun i hi => ?_⟩
    swap
    · unfold finish forceTwoD
      have : ∀ (r : V3) (o : V3), put 3 (put 0 p.z fun i => .fin (o i)) (fun i => .fin (r i)) i = .fin (o ⟨i.val, hi⟩) := by
        intro r o
        rw [put_low (off := 3) (by omega) _ _ hi]
        unfold put
        rw [dif_pos ⟨Nat.zero_le _, by omega⟩]
        rfl
      split_ifs
      · dsimp only
        split_ifs
        · exact ⟨_, rfl⟩
        · exact ⟨_, this _ _⟩
      · exact ⟨_, this _ _⟩
    rw [← finish_moved hc]
    congr 1
    simp only [Payload.moved, Payload.mk.injEq, and_true, true_and]
    funext i
    split
    · rename_i hi
      rw [put_low (off := 3) (by omega) _ _ hi, put_low (off := 3) (by omega) _ _ hi]
      unfold put
      rw [dif_pos ⟨Nat.zero_le _, by omega⟩, dif_pos ⟨Nat.zero_le _, by omega⟩]
      rfl
    · rename_i hi
      unfold put
      by_cases h3 : 3 ≤ i.val ∧ i.val < 3 + 3
      · rw [dif_pos h3, dif_pos h3]
        rfl
      · rw [dif_neg h3, dif_neg h3, dif_neg (by omega), dif_neg (by omega)]

/-- What is asked of a pose message that arrives on a topic. -/
def PoseFitsOrigin (world base : String) (inWorld : String → Prop) (m : PoseMsg) (cd : CallbackData) (target : String) (imu : Bool) : Prop :=
  (cd.differential = true ∨ cd.relative = true → (m.frame = world ↔ inWorld cd.topic)) ∧
  if imu then target = base ∧ m.frame ≠ world ∧ ∀ j : Fin 15, j.val < 3 → cd.upd j = false
  else target = world ∧ (cd.relative = true → cd.differential = false → inWorld cd.topic → ∀ j : Fin 15, j.val < 3 → cd.upd j = false)

/-- The messages seen from another origin. -/
noncomputable def shiftMessages (world base : String) (inWorld : String → Prop) (d : V3) : MsgSim where
  CdPose _ := True
  Cd cd := ∀ j : Fin 15, j.val < 3 → cd.upd j = false
  Zero := False
  Ctx := PrepCtx.SeenFrom world base d
  Mem := PoseMem.SeenFrom inWorld d
  Pay := Payload.SeenFrom d
  Ask m m' := m' = m.moved d ∧ ∀ i : Fin 15, i.val < 3 → ∃ a, m.z i = .fin a
  Pose m m' := m' = m.seenFrom world d
  Twist m m' := m' = m ∧ m.frame ≠ world
  Imu m m' := m' = m ∧ m.frame ≠ world
  Odom m m' := m' = m.seenFrom world d ∧ m.child ≠ world
  Src _ source := source ≠ world
  Fine _ _ m cd target imu := PoseFitsOrigin world base inWorld m cd target imu
  base h := by rw [h.eq]
  world h := by rw [h.eq]
  odomSrc _ h := h.2
  baseSrc h := by rw [h.baseEq]; exact h.named.2.2
  poseStamp := by rintro m _ rfl; rfl
  twistStamp := by rintro m _ ⟨rfl, -⟩; rfl
  odomSame := by rintro m _ ⟨rfl, -⟩; exact ⟨rfl, rfl⟩
  odomPose := by rintro m _ ⟨rfl, -⟩; rfl
  odomTwist := by rintro m _ ⟨rfl, h⟩; exact ⟨rfl, h⟩
  imuSame := by rintro m _ ⟨rfl, -⟩; exact ⟨rfl, rfl, rfl, rfl⟩
  imuPose := by
    rintro m _ ⟨rfl, h⟩
    simp [ImuMsg.poseOf, PoseMsg.seenFrom, frameShift, h]
  imuTwist := by rintro m _ ⟨rfl, h⟩; exact ⟨rfl, h⟩
  mem0 := ⟨fun _ => rfl, fun _ => rfl⟩
  twist := by
    rintro c c' m _ hc ⟨rfl, hm⟩ cd target hcd hs
    exact twist_seenFrom hc hm hs hcd
  accel := by
    rintro c c' m _ hc ⟨rfl, hm⟩ cd target grav hcd hs
    exact accel_seenFrom hc hm hs grav cd.relative hcd
  pose := by
    rintro c c' k k' m _ hc hk rfl last cd target source imu - hs ⟨hf, hi⟩
    cases imu with
    | true =>
      obtain ⟨rfl, hm, hp⟩ := hi
      have e : m.seenFrom world d = m := by simp [PoseMsg.seenFrom, frameShift, hm]
      rw [e]
      exact imuPose_seenFrom hc hk last hm hs _ _ (fun h q => hm ((hf h).2 q)) hp
    | false =>
      obtain ⟨rfl, hp⟩ := hi
      exact pose_seenFrom hc hk last m hs _ _ hf hp
  asked := by
    rintro c c' m _ hc rfl
    have h := asked_seenFrom hc m Sys.blankPose
    rw [show c'.world = world by rw [hc.eq]; exact hc.worldEq, show c'.base = base by rw [hc.eq]; exact hc.baseEq, hc.worldEq, hc.baseEq]
    exact h

theorem odomMessage_seenFrom (fr : Frames) (x : State) (P : Mat15) (t : Int) :
    odomMessage fr true (State.moved d x) P t = (odomMessage fr true x P t).map fun m => { m with pos := m.pos + d } := by
  simp only [odomMessage, if_true, Option.map_some, Option.some.injEq, OdomMsg.mk.injEq, true_and, and_true]
  refine ⟨?_, rfl, ?_⟩
  · funext i
    fin_cases i <;> rfl
  · constructor <;> rfl

theorem broadcast_seenFrom (fr : Frames) (hb : fr.base ≠ fr.world) (b : TfBuffer) (offset : Int) {m : OdomMsg} (hm : m.frame = fr.world) :
    broadcast fr (b.seenFrom fr.world d) offset { m with pos := m.pos + d } =
      (broadcast fr b offset m).map fun m => { m with org := m.org + d } := by
  unfold broadcast
  dsimp only
  split_ifs with h1 h2
  · rfl
  · have : b.seenFrom fr.world d fr.base fr.odom 0 = b fr.base fr.odom 0 := by
      unfold TfBuffer.seenFrom
      cases b fr.base fr.odom 0 with
      | none => rfl
      | some t => exact congrArg some (seenFrom_elsewhere hb (by rw [← hm]; exact fun h => h1 h.symm) t)
    rw [this]
    cases b fr.base fr.odom 0 with
    | none => rfl
    | some t =>
      refine congrArg some ?_
      simp only [TfMsg.tf, Tf.mul, add_assoc]
  · rfl

/-- Two whole nodes, the second told everything as seen from another origin. -/
noncomputable def shiftNodes (p : FilterPar) (inWorld : String → Prop) (d : V3) (g : SysCfg (ekfCore p)) (hg : g.FitsOrigin inWorld d) :
    SysPair (shiftSim p d) (shiftMessages g.frames.world g.frames.base inWorld d) (ekfView p) (ekfView p) g (g.seenFrom d) where
  Clean _ _ := True
  Diff := Eq
  Buf b b' := b' = b.seenFrom g.frames.world d
  Junk j j' := j' = State.moved d j
  Cmd := Eq
  Said s s' := s' = s.seenFrom d
  frames := rfl
  inputs := rfl
  odomCds i a b h := ⟨trivial, (hg.odom i a b h).1⟩
  poseCds _ _ _ := trivial
  twistCds := hg.twist
  imuCds i a b e h := ⟨trivial, fun j hj => (hg.imu i a b e h j hj).2.1, fun j hj => (hg.imu i a b e h j hj).2.2⟩
  cfg := ⟨rfl, rfl, rfl, rfl, rfl, rfl, rfl, rfl, rfl, rfl, rfl, rfl⟩
  name _ := rfl
  meas h := h
  pose := by
    rintro m _ ⟨rfl, h⟩
    refine ⟨?_, rfl⟩
    show some _ = some _
    congr 1
    funext i
    unfold Payload.moved State.moved
    dsimp only
    split
    · rename_i hi
      obtain ⟨a, ha⟩ := h i hi
      rw [ha]
      rfl
    · rfl
  cmd h t := ⟨h.symm, rfl⟩
  zero h := h.elim
  ctl0 h := ⟨h.1, rfl⟩
  tfDue := by
    rintro b _ rfl
    unfold Sys.tfDue TfBuffer.seenFrom
    rw [Option.isSome_map]
  ctx := by
    rintro x _ P e _ b _ j _ rfl - rfl rfl rfl
    refine ⟨rfl, rfl, hg.named, hg.plane, ?_⟩
    cases (x : Option State) <;> rfl
  differ := by
    rintro x _ P _ e _ rfl rfl - rfl init now
    cases (x : Option State) <;> rfl
  odom := by
    rintro x x' P P' hx hP - t
    have hx : x' = Option.map (State.moved d) x := hx
    have hP : P' = P := hP
    subst hx hP
    cases (x : Option State) with
    | none => rfl
    | some x => exact congrArg (Sent.odom t) (odomMessage_seenFrom g.frames x P' t)
  tf := by
    rintro x x' P P' b _ hx hP - rfl t
    have hx : x' = Option.map (State.moved d) x := hx
    have hP : P' = P := hP
    subst hx hP
    cases (x : Option State) with
    | none => rfl
    | some x =>
      refine congrArg (Sent.tf t) ?_
      exact (congrArg (fun o : Option OdomMsg => o.bind fun m => broadcast g.frames (b.seenFrom g.frames.world d) g.tfOffset m)
        (odomMessage_seenFrom (d := d) g.frames x P' t)).trans (broadcast_seenFrom g.frames hg.named.2.2 b g.tfOffset rfl)
  accel := by
    rintro x _ P _ e _ rfl rfl - rfl t
    cases (x : Option State) with
    | none => rfl
    | some x => rfl

theorem origin_fine {p : FilterPar} {g : SysCfg (ekfCore p)} (hg : g.FitsOrigin inWorld d) {P : MQueue (ekfCore p)} (s : Sys (ekfCore p) P)
    (es : List Sys.Ev) (hes : ∀ e ∈ es, e.FitsOrigin g inWorld) : (shiftNodes p inWorld d g hg).RunFine s es := by
  induction es generalizing s with
  | nil => trivial
  | cons e es ih =>
    refine ⟨trivial, ?_, ih _ fun e he => hes e (List.mem_cons_of_mem _ he)⟩
    have he := hes e List.mem_cons_self
    cases e with
    | odom i b j m => exact fun a b h _ => ⟨he.2 a b h, rfl, (hg.odom i a b h).2⟩
    | pose i b j m => exact fun a h => ⟨he a h, rfl, hg.pose i a h⟩
    | imu i b j m =>
      exact fun a b e h _ => ⟨fun q => ⟨fun w => (he.1 w).elim, fun w => (he.2 a b e h q w).elim⟩, rfl, he.1,
        fun j hj => (hg.imu i a b e h j hj).1⟩
    | setPose n b j m =>
      intro h
      refine he ?_
      unfold preparePose at h
      rw [show poseFrames (s.ctx (ekfView p) g b j) m.frame g.frames.world false false = (g.frames.world, m.frame) by
        simp [poseFrames, hg.named.1]] at h
      change (match lookupTransformSafe b g.frames.world m.frame (poseLookupTime m.stamp) with
        | none => _
        | some t => poseWith _ _ _ t _ _ _ _ _ _ _ _ : PoseMem × Option Payload).2 = none at h
      cases hl : lookupTransformSafe b g.frames.world m.frame (poseLookupTime m.stamp) with
      | none => rfl
      | some t =>
        rw [hl] at h
        simp [poseWith] at h
    | reset => exact he
    | _ => trivial

end helpers

/-- C90 for the whole node: when everything that happens to the node is told as seen from another origin of the world frame
(poses and transforms in it, poses that are set, the initial state), it sends the same messages at the same times, with the
positions it reports and the transforms it broadcasts seen from that origin.  For every run without `reset` and without a
`set_pose` that cannot be transformed. -/
theorem C90_node_partial (p : FilterPar) (d : V3) (inWorld : String → Prop) (g : SysCfg (ekfCore p)) (hg : g.FitsOrigin inWorld d)
    (u : Fin 6 → ℝ) (now : Int) (a : Differ) (es : List Sys.Ev) (hes : ∀ e ∈ es, e.FitsOrigin g inWorld) :
    (Sys.run (ekfView p) (g.seenFrom d) (Sys.start (g.seenFrom d) (PQueue.sortedList _ _) () u now a)
        (es.map (Sys.Ev.seenFrom g.frames.world d))).2 =
      (Sys.run (ekfView p) g (Sys.start g (PQueue.sortedList _ _) () u now a) es).2.map (Sent.seenFrom d) := by
  have hst : (shiftNodes p inWorld d g hg).Alike (QueueSim.sorted _) (Sys.start g (PQueue.sortedList _ _) () u now a)
      (Sys.start (g.seenFrom d) (PQueue.sortedList _ _) () u now a) := by
    refine ⟨⟨?_, ⟨fun _ => rfl, fun _ => rfl⟩⟩, rfl⟩
    have := NodeSim.start (κ := QueueSim.sorted (shiftSim p d)) (g := g.cfg) (g' := (g.seenFrom d).cfg)
      (shiftNodes p inWorld d g hg).cfg rfl rfl ⟨rfl, rfl⟩ (e := ()) (e' := ()) trivial (u := u) (u' := u) ⟨rfl, rfl⟩ now
    rwa [Int.add_zero] at this
  have he : List.Forall₂ (shiftNodes p inWorld d g hg).EvSim es (es.map (Sys.Ev.seenFrom g.frames.world d)) := by
    rw [List.forall₂_map_right_iff, List.forall₂_same]
    intro e h
    have h := hes e h
    cases e with
    | odom i b j m => exact .odom i rfl rfl ⟨rfl, h.1⟩
    | pose i b j m => exact .pose i rfl rfl rfl
    | twist i b j m => exact .twist i rfl rfl ⟨rfl, h⟩
    | imu i b j m => exact .imu i rfl rfl ⟨rfl, h.1⟩
    | command now u => exact .command now rfl
    | setPose now b j m => exact .setPose now rfl rfl rfl
    | reset => exact .reset
    | toggle on => exact .toggle on
    | enable => exact .enable
    | tick now now2 b => exact .tick now now2 rfl
  have h := (hst.run he (origin_fine hg _ es hes)).2
  revert h
  generalize (Sys.run (ekfView p) (g.seenFrom d) _ _).2 = l'
  generalize (Sys.run (ekfView p) g _ es).2 = l
  intro h
  induction h with
  | nil => rfl
  | cons hab _ ih => rw [List.map_cons, ← ih]; exact congrArg (· :: _) hab

/-- What is asked of the parameters. -/
theorem loaded_fitsOrigin {o : Nav.Given} {c : NodeConf} (h : loadNode o = some c) (d : V3) (inWorld : String → Prop)
    (hn : c.frames.world ≠ "" ∧ c.frames.base ≠ "" ∧ c.frames.base ≠ c.frames.world) (hp : c.sw.twoD = true → d 2 = 0)
    (ho : ∀ s ∈ c.inputs.odoms, s.par.rel = true → s.par.differential = true ∨ ¬ inWorld (s.par.name ++ "_pose"))
    (hs : ∀ s ∈ c.inputs.poses, s.par.rel = true → s.par.differential = true ∨ ¬ inWorld s.par.name) :
    c.sys.FitsOrigin inWorld d := by
  have hm := loadNode_made h
  refine ⟨hn, hp, ?_, ?_, ?_, ?_⟩
  · intro i x y hxy
    obtain ⟨s, hs, hd⟩ := hm.odom i _ hxy
    obtain ⟨-, hy, -⟩ := odomData_spec hd
    refine ⟨fun j hj => ?_, fun h1 h2 h3 => ?_⟩
    · rw [hy, if_pos (by omega)]
    · unfold odomData at hd
      simp only [Option.bind_eq_bind, Option.bind_eq_some_iff] at hd
      obtain ⟨_, -, _, -, _, -, hd⟩ := hd
      cases hd
      rcases ho s (List.mem_of_getElem? hs) h1 with q | q
      · rw [q] at h2; cases h2
      · exact (q h3).elim
  · intro i x hx h1 h2 h3
    obtain ⟨s, hs', hd⟩ := hm.pose i _ hx
    unfold poseData at hd
    simp only [Option.bind_eq_bind, Option.bind_eq_some_iff] at hd
    obtain ⟨_, -, _, -, hd⟩ := hd
    cases hd
    rcases hs s (List.mem_of_getElem? hs') h1 with q | q
    · rw [q] at h2; cases h2
    · exact (q h3).elim
  · intro i x hx j hj
    obtain ⟨s, -, hd⟩ := hm.twist i _ hx
    rw [twistData_spec hd, if_pos (by omega)]
  · intro i x y z hxyz j hj
    obtain ⟨s, -, hd⟩ := hm.imu i _ hxyz
    obtain ⟨h1, h2, h3, -⟩ := imuData_spec hd
    rw [h1, h2, h3, if_neg (by omega), if_neg (by omega), if_neg (by omega)]
    exact ⟨rfl, rfl, rfl⟩

/-- C90 for a node with any parameters: what is asked is that the world frame and the frame of the robot have different names,
that the origin is only moved in the plane in two-dimensional mode, and that no input with `relative` gives poses in the
world frame. -/
theorem C90_loaded_partial {o : Nav.Given} {c : NodeConf} (h : loadNode o = some c) (d : V3) (inWorld : String → Prop)
    (hn : c.frames.world ≠ "" ∧ c.frames.base ≠ "" ∧ c.frames.base ≠ c.frames.world) (hp : c.sw.twoD = true → d 2 = 0)
    (ho : ∀ s ∈ c.inputs.odoms, s.par.rel = true → s.par.differential = true ∨ ¬ inWorld (s.par.name ++ "_pose"))
    (hs : ∀ s ∈ c.inputs.poses, s.par.rel = true → s.par.differential = true ∨ ¬ inWorld s.par.name)
    (u : Fin 6 → ℝ) (now : Int) (a : Differ) (es : List Sys.Ev) (hes : ∀ e ∈ es, e.FitsOrigin c.sys inWorld) :
    (Sys.run (ekfView c.par) (c.sys.seenFrom d) (Sys.start (c.sys.seenFrom d) (PQueue.sortedList _ _) () u now a)
        (es.map (Sys.Ev.seenFrom c.frames.world d))).2 =
      (Sys.run (ekfView c.par) c.sys (Sys.start c.sys (PQueue.sortedList _ _) () u now a) es).2.map (Sent.seenFrom d) :=
  C90_node_partial c.par d inWorld c.sys (loaded_fitsOrigin h d inWorld hn hp ho hs) u now a es hes

/-- C90 fails for an input with `relative` that gives poses in the world frame: the first one counts as the origin, wherever
it is. -/
theorem C90_relative (c : PrepCtx) (hw : c.world ≠ "") (h2 : c.twoD = false) (hb : ∀ t, c.buf c.world c.world t = none) (mem : PoseMem)
    (last : Int) (m : PoseMsg) (hm : m.frame = c.world) {topic : String} (hi : mem.init topic = none) (p : Payload) :
    ∃ q, (preparePose c mem last m topic c.world c.base false true false p).2 = some q ∧ ∀ i : Fin 15, i.val < 3 → q.z i = .fin 0 := by
  have e1 : poseFrames c m.frame c.world false false = (c.world, c.world) := by simp [poseFrames, hw, hm]
  have e2 : lookupTransformSafe c.buf c.world c.world (poseLookupTime m.stamp) = some Tf.id := by
    simp [lookupTransformSafe, hb]
  have e3 : sourceTf c c.base (poseLookupTime m.stamp) = none := by simp [sourceTf]
  unfold preparePose
  simp only [e1, e2, e3]
  unfold poseWith finish
  simp only [hi, Bool.false_eq_true, if_false, if_true, Option.getD_none, h2]
  refine ⟨_, rfl, fun i h => ?_⟩
  dsimp only
  rw [put_low (off := 3) (by omega) _ _ h]
  unfold put
  rw [dif_pos ⟨Nat.zero_le _, by omega⟩]
  simp [Tf.mul, Tf.inverseTimes, Tf.id]

/-! ## Non-vacuity -/

/-- An input of absolute positions. -/
def fixCd : CallbackData :=
  { topic := "fix", upd := fun i => decide (i = 0 ∨ i = 1 ∨ i = 2), sum := 3, differential := false, relative := false
    useChild := false, thresh := .unlimited }

/-- An input of differences of poses. -/
def stepCd : CallbackData := { fixCd with topic := "steps", differential := true }

/-- A node that hears both. -/
noncomputable def fixCfg : SysCfg (ekfCore plainPar) :=
  { cfg := demoCfg plainPar
    frames := { world := "odom", map := "map", odom := "odom", base := "base_link", baseOut := "base_link" }
    inputs := { odoms := [], poses := [], twists := [], imus := [], odomCds := [], poseCds := [fixCd, stepCd], twistCds := [], imuCds := [] }
    twoD := false, gravity := 9.8, tfOffset := 0 }

/-- A position in some frame. -/
def fixMsg (frame : String) : PoseMsg := { frame := frame, stamp := 1, pos := ![1, 2, 3], ori := ⟨0, 0, 0, 1⟩, cov := fun _ => 0 }

/-- Positions in the world frame and in another one, poses compared in the world frame, and a pose that is set: all
conditions are met for every other origin. -/
theorem fix_fits (d : V3) (buf : TfBuffer) : fixCfg.FitsOrigin (fun s => s = "steps") d ∧
    ∀ e ∈ [Sys.Ev.pose 0 buf 0 (fixMsg "odom"), .pose 0 buf 0 (fixMsg "mast"), .pose 1 buf 0 (fixMsg "odom"),
      .setPose 4 buf 0 (fixMsg "odom"), .tick 5 5 buf], e.FitsOrigin fixCfg (fun s => s = "steps") := by
  refine ⟨⟨by decide, (fun h => by cases h), ?_, ?_, ?_, ?_⟩, ?_⟩
  · intro i a b h
    simp [fixCfg] at h
  · intro i a h hr
    have : a = fixCd ∨ a = stepCd := by
      rcases i with _ | _ | i
      · exact Or.inl (by simpa [fixCfg] using h.symm)
      · exact Or.inr (by simpa [fixCfg] using h.symm)
      · simp [fixCfg] at h
    rcases this with rfl | rfl <;> cases hr
  · intro i a h
    simp [fixCfg] at h
  · intro i a b e h
    simp [fixCfg] at h
  · intro e he
    simp only [List.mem_cons, List.not_mem_nil, or_false] at he
    rcases he with rfl | rfl | rfl | rfl | rfl
    · intro a h hr
      obtain rfl : a = fixCd := by simpa [fixCfg] using h.symm
      rcases hr with hr | hr <;> cases hr
    · intro a h hr
      obtain rfl : a = fixCd := by simpa [fixCfg] using h.symm
      rcases hr with hr | hr <;> cases hr
    · intro a h _
      obtain rfl : a = stepCd := by simpa [fixCfg] using h.symm
      simp [fixMsg, fixCfg, stepCd]
    · show lookupTransformSafe buf "odom" "odom" (poseLookupTime 1) ≠ none
      unfold lookupTransformSafe
      cases buf "odom" "odom" (poseLookupTime 1) with
      | some t => simp
      | none => cases buf "odom" "odom" 0 <;> simp
    · trivial

/-- The theorem on that run. -/
example (d : V3) (buf : TfBuffer) (u : Fin 6 → ℝ) (a : Differ) :=
  C90_node_partial plainPar d (fun s => s = "steps") fixCfg (fix_fits d buf).1 u 0 a _ (fix_fits d buf).2

end RL
