import Verif.Model.System
import Verif.Props.NodePar
/-!
# C145: the names of frames do not matter

Every test the program makes on the name of a frame is whether it is empty or the same as another one.  So when all frames
are renamed — in the settings, in the messages and in the transforms — and no two frames get the same name, the node keeps
the same estimate and sends the same messages, with the frames renamed.
-/

namespace RL

/-- A way of renaming frames that confuses no two of them and keeps the empty name. -/
structure Renaming where
  nm : String → String
  inj : ∀ a b, nm a = nm b → a = b
  empty : nm "" = ""

/-- The same transforms, under the new names. -/
def TfBuffer.Renamed (r : Renaming) (b b' : TfBuffer) : Prop := ∀ x y t, b' (r.nm x) (r.nm y) t = b x y t

def Frames.renamed (r : Renaming) (fr : Frames) : Frames :=
  { world := r.nm fr.world, map := r.nm fr.map, odom := r.nm fr.odom, base := r.nm fr.base, baseOut := r.nm fr.baseOut }

def OdomMsg.renamed (r : Renaming) (m : OdomMsg) : OdomMsg := { m with frame := r.nm m.frame, child := r.nm m.child }
def PoseMsg.renamed (r : Renaming) (m : PoseMsg) : PoseMsg := { m with frame := r.nm m.frame }
def TwistMsg.renamed (r : Renaming) (m : TwistMsg) : TwistMsg := { m with frame := r.nm m.frame }
def ImuMsg.renamed (r : Renaming) (m : ImuMsg) : ImuMsg := { m with frame := r.nm m.frame }
def AccelMsg.renamed (r : Renaming) (m : AccelMsg) : AccelMsg := { m with frame := r.nm m.frame }
def TfMsg.renamed (r : Renaming) (m : TfMsg) : TfMsg := { m with frame := r.nm m.frame, child := r.nm m.child }

/-- What is sent, under the new names. -/
def Sent.renamed (r : Renaming) : Sent → Sent
  | .odom t m => .odom t (m.map (OdomMsg.renamed r))
  | .tf t m => .tf t (m.map (TfMsg.renamed r))
  | .accel t m => .accel t (m.map (AccelMsg.renamed r))

/-- The settings with the frames renamed, nothing else. -/
def SysCfg.renamed {C : Core} (r : Renaming) (g : SysCfg C) : SysCfg C := { g with frames := g.frames.renamed r }

/-- The same thing happens, with the frames renamed. -/
inductive Sys.Ev.Renamed (r : Renaming) : Sys.Ev → Sys.Ev → Prop
  | odom (i b b' junk m) : TfBuffer.Renamed r b b' → Renamed r (.odom i b junk m) (.odom i b' junk (m.renamed r))
  | pose (i b b' junk m) : TfBuffer.Renamed r b b' → Renamed r (.pose i b junk m) (.pose i b' junk (m.renamed r))
  | twist (i b b' junk m) : TfBuffer.Renamed r b b' → Renamed r (.twist i b junk m) (.twist i b' junk (m.renamed r))
  | imu (i b b' junk m) : TfBuffer.Renamed r b b' → Renamed r (.imu i b junk m) (.imu i b' junk (m.renamed r))
  | command (now u) : Renamed r (.command now u) (.command now u)
  | setPose (now b b' junk m) : TfBuffer.Renamed r b b' →
      Renamed r (.setPose now b junk m) (.setPose now b' junk (m.renamed r))
  | reset : Renamed r .reset .reset
  | toggle (on) : Renamed r (.toggle on) (.toggle on)
  | enable : Renamed r .enable .enable
  | tick (now now2 b b') : TfBuffer.Renamed r b b' → Renamed r (.tick now now2 b) (.tick now now2 b')

namespace Renaming
variable (r : Renaming)

theorem eq_iff (a b : String) : r.nm a = r.nm b ↔ a = b := ⟨r.inj a b, fun h => h ▸ rfl⟩

theorem empty_iff (a : String) : r.nm a = "" ↔ a = "" := by
  rw [← r.empty]
  exact (r.eq_iff a "").trans (by rw [r.empty])

/-- What the prepare functions read, under the new names. -/
def ctx (c : PrepCtx) (b' : TfBuffer) : PrepCtx := { c with buf := b', world := r.nm c.world, base := r.nm c.base }

variable {r} {c : PrepCtx} {b' : TfBuffer} (hb : TfBuffer.Renamed r c.buf b')
include hb

theorem lookup (x y : String) (t : Int) :
    lookupTransformSafe (r.ctx c b').buf (r.nm x) (r.nm y) t = lookupTransformSafe c.buf x y t := by
  change lookupTransformSafe b' _ _ _ = _
  unfold lookupTransformSafe
  simp only [hb x y, r.eq_iff]

theorem twist (m : TwistMsg) (target : String) (p : Payload) :
    prepareTwist (r.ctx c b') (m.renamed r) (r.nm target) p = prepareTwist c m target p := by
  have hif : (if (m.renamed r).frame = "" then r.nm target else (m.renamed r).frame) =
      r.nm (if m.frame = "" then target else m.frame) := by
    change (if r.nm m.frame = "" then r.nm target else r.nm m.frame) = _
    by_cases h : m.frame = ""
    · rw [if_pos ((r.empty_iff _).2 h), if_pos h]
    · rw [if_neg fun k => h ((r.empty_iff _).1 k), if_neg h]
  unfold prepareTwist
  rw [hif, lookup hb]
  rfl

theorem accel (grav : Bool) (m : ImuMsg) (target : String) (rel : Bool) (p : Payload) :
    prepareAcceleration (r.ctx c b') grav (m.renamed r) (r.nm target) rel p = prepareAcceleration c grav m target rel p := by
  have hif : (if (m.renamed r).frame = "" then (r.ctx c b').base else (m.renamed r).frame) =
      r.nm (if m.frame = "" then c.base else m.frame) := by
    change (if r.nm m.frame = "" then r.nm c.base else r.nm m.frame) = _
    by_cases h : m.frame = ""
    · rw [if_pos ((r.empty_iff _).2 h), if_pos h]
    · rw [if_neg fun k => h ((r.empty_iff _).1 k), if_neg h]
  unfold prepareAcceleration
  rw [hif, lookup hb]
  rfl

theorem source (s : String) (t : Int) : sourceTf (r.ctx c b') (r.nm s) t = sourceTf c s t := by
  unfold sourceTf
  have h1 : lookupTransformSafe (r.ctx c b').buf (r.nm s) (r.ctx c b').base t = lookupTransformSafe c.buf s c.base t :=
    lookup hb s c.base t
  have h2 : (r.nm s ≠ (r.ctx c b').base) = (s ≠ c.base) := propext (not_congr (r.eq_iff s c.base))
  simp only [h1, h2]

omit hb in
theorem frames (f target : String) (d i : Bool) :
    poseFrames (r.ctx c b') (r.nm f) (r.nm target) d i =
      (r.nm (poseFrames c f target d i).1, r.nm (poseFrames c f target d i).2) := by
  unfold poseFrames
  simp only [r.empty_iff]
  by_cases h : target = ""
  · rw [if_pos h, if_pos h]
    by_cases k : f = ""
    · rw [if_pos k, if_pos k]; rfl
    · rw [if_neg k, if_neg k]
  · rw [if_neg h, if_neg h]
    cases (d && !i) <;> rfl

theorem poseWith (mem : PoseMem) (last : Int) (t : Tf) (src : Option Tf) (m : PoseMsg) (topic s : String)
    (d rel i : Bool) (p : Payload) :
    RL.poseWith (r.ctx c b') mem last t src (m.renamed r) topic (r.nm s) d rel i p =
      RL.poseWith c mem last t src m topic s d rel i p := by
  cases d
  · rfl
  · unfold RL.poseWith
    simp only [if_true]
    refine Prod.ext rfl ?_
    dsimp only
    refine congrArg (Option.bind (mem.prev topic)) (funext fun old => ?_)
    exact twist hb (diffTwist _ _ _ old.1 old.2 _ last m.stamp s) c.base _

theorem pose (mem : PoseMem) (last : Int) (m : PoseMsg) (topic target s : String) (d rel i : Bool) (p : Payload) :
    preparePose (r.ctx c b') mem last (m.renamed r) topic (r.nm target) (r.nm s) d rel i p =
      preparePose c mem last m topic target s d rel i p := by
  unfold preparePose
  have hf : poseFrames (r.ctx c b') (m.renamed r).frame (r.nm target) d i =
      (r.nm (poseFrames c m.frame target d i).1, r.nm (poseFrames c m.frame target d i).2) := frames _ _ _ _
  dsimp only
  rw [hf]
  dsimp only
  rw [lookup hb, source hb]
  change (match lookupTransformSafe c.buf _ _ (poseLookupTime m.stamp) with | none => _ | some t => _) = _
  cases lookupTransformSafe c.buf (poseFrames c m.frame target d i).1 (poseFrames c m.frame target d i).2
      (poseLookupTime m.stamp) with
  | none => rfl
  | some t => exact poseWith hb ..

section hub
variable {C : Core} {P : MQueue C} (mk : Payload → C.Z) (h : Hub C P)

theorem hubPose (m : PoseMsg) (cd : CallbackData) (target s : String) (i : Bool) :
    h.poseCallback mk (r.ctx c b') (m.renamed r) cd (r.nm target) (r.nm s) i = h.poseCallback mk c m cd target s i := by
  unfold Hub.poseCallback
  simp only [pose hb]
  rfl

theorem hubTwist (m : TwistMsg) (cd : CallbackData) (target : String) :
    h.twistCallback mk (r.ctx c b') (m.renamed r) cd (r.nm target) = h.twistCallback mk c m cd target := by
  unfold Hub.twistCallback
  rw [twist hb]
  rfl

theorem hubAccel (m : ImuMsg) (cd : CallbackData) (target : String) (grav : Bool) :
    h.accelCallback mk (r.ctx c b') (m.renamed r) cd (r.nm target) grav = h.accelCallback mk c m cd target grav := by
  unfold Hub.accelCallback
  rw [accel hb]
  rfl

theorem hubOdom (m : OdomMsg) (pc tc : CallbackData) :
    h.odomCallback mk (r.ctx c b') (m.renamed r) pc tc = h.odomCallback mk c m pc tc := by
  unfold Hub.odomCallback
  have h1 := hubPose hb mk h
    { frame := m.frame, stamp := m.stamp, pos := m.pos, ori := m.ori, cov := m.poseCov } pc c.world
    (if pc.useChild then m.child else c.base) false
  have h2 := fun k : Hub C P => hubTwist hb mk k
    { frame := m.child, stamp := m.stamp, lin := m.lin, ang := m.ang, cov := m.twistCov } tc c.base
  have hs : r.nm (if pc.useChild = true then m.child else c.base) =
      (if pc.useChild = true then (m.renamed r).child else (r.ctx c b').base) := by
    cases pc.useChild <;> rfl
  rw [hs] at h1
  dsimp only
  rw [← h1]
  by_cases h3 : pc.sum > 0
  · simp only [if_pos h3]
    rw [← h2]
    rfl
  · simp only [if_neg h3]
    rw [← h2]
    rfl

theorem hubImu (m : ImuMsg) (pc tc ac : CallbackData) (grav : Bool) :
    h.imuCallback mk (r.ctx c b') (m.renamed r) pc tc ac grav = h.imuCallback mk c m pc tc ac grav := by
  unfold Hub.imuCallback
  have h1 := hubPose hb mk h
    { frame := m.frame, stamp := m.stamp, pos := 0, ori := m.ori, cov := angularCov m.oriCov } pc c.base c.base true
  have h2 := fun k : Hub C P => hubTwist hb mk k
    { frame := m.frame, stamp := m.stamp, lin := fun _ => .fin 0, ang := m.vel, cov := angularCov m.velCov } tc c.base
  have h3 := fun k : Hub C P => hubAccel hb mk k m ac c.base grav
  dsimp only
  rw [← h1]
  simp only [← h2, ← h3]
  rfl

end hub
end Renaming

variable {C : Core} {P : MQueue C} {V : View C} {g : SysCfg C} {r : Renaming}

theorem Sys.ctx_renamed (s : Sys C P) (b b' : TfBuffer) (junk : State) :
    s.ctx V (g.renamed r) b' junk = r.ctx (s.ctx V g b junk) b' := rfl

theorem Sys.tfDue_renamed {b b' : TfBuffer} (hb : TfBuffer.Renamed r b b') (fr : Frames) :
    Sys.tfDue (fr.renamed r) b' = Sys.tfDue fr b := by
  unfold Sys.tfDue Frames.renamed
  simp only [r.eq_iff, hb fr.base fr.odom]

theorem broadcast_renamed {b b' : TfBuffer} (hb : TfBuffer.Renamed r b b') (fr : Frames) (off : Int) (m : OdomMsg) :
    broadcast (fr.renamed r) b' off (m.renamed r) = (broadcast fr b off m).map (TfMsg.renamed r) := by
  unfold broadcast
  have h1 : ((m.renamed r).frame = (fr.renamed r).odom) = (m.frame = fr.odom) := propext (r.eq_iff _ _)
  have h2 : ((m.renamed r).frame = (fr.renamed r).map) = (m.frame = fr.map) := propext (r.eq_iff _ _)
  have h3 : b' (fr.renamed r).base (fr.renamed r).odom 0 = b fr.base fr.odom 0 := hb _ _ _
  simp only [h1, h2, h3]
  by_cases k1 : m.frame = fr.odom
  · rw [if_pos k1, if_pos k1]; rfl
  · rw [if_neg k1, if_neg k1]
    by_cases k2 : m.frame = fr.map
    · rw [if_pos k2, if_pos k2]
      cases b fr.base fr.odom 0 <;> rfl
    · rw [if_neg k2, if_neg k2]; rfl

theorem Sys.render_renamed {b b' : TfBuffer} (hb : TfBuffer.Renamed r b b') (a : Node C P) (d : Differ) (o : Out C) :
    Sys.render V (g.renamed r) b' a d o = (Sys.render V g b a d o).renamed r := by
  cases o with
  | odom t x cov => simp only [Sys.render, Sent.renamed]; cases V.state x <;> rfl
  | tf t =>
    simp only [Sys.render, Sent.renamed]
    cases V.state a.filt.x with
    | none => rfl
    | some y =>
      have hm : ∀ fr : Frames, odomMessage (fr.renamed r) true y (V.cov a.filt.cov) t =
          (odomMessage fr true y (V.cov a.filt.cov) t).map (OdomMsg.renamed r) := fun _ => rfl
      refine congrArg (Sent.tf t) ?_
      rw [Option.bind_some, Option.bind_some,
        show odomMessage (g.renamed r).frames true y (V.cov a.filt.cov) t = _ from hm g.frames]
      cases odomMessage g.frames true y (V.cov a.filt.cov) t with
      | none => rfl
      | some m => exact broadcast_renamed hb g.frames g.tfOffset m
  | accel t => simp only [Sys.render, Sent.renamed]; cases V.state a.filt.x <;> rfl

theorem Sys.step_renamed (s : Sys C P) {e e' : Sys.Ev} (h : Sys.Ev.Renamed r e e') :
    s.step V (g.renamed r) e' = ((s.step V g e).1, (s.step V g e).2.map (Sent.renamed r)) := by
  cases h with
  | odom i b b' junk m hb =>
    simp only [Sys.step, Sys.ctx_renamed s b b' junk]
    change (match g.inputs.odomCds[i]? with | some (_, _) => _ | none => _) = _
    cases g.inputs.odomCds[i]? with
    | none => rfl
    | some ab =>
      obtain ⟨p, q⟩ := ab
      dsimp only
      by_cases k : p.sum + q.sum > 0
      · simp only [if_pos k]
        rw [Renaming.hubOdom (c := s.ctx V g b junk) hb]
        rfl
      · simp only [if_neg k]; rfl
  | pose i b b' junk m hb =>
    simp only [Sys.step, Sys.ctx_renamed s b b' junk]
    change (match g.inputs.poseCds[i]? with | some _ => _ | none => _) = _
    cases g.inputs.poseCds[i]? with
    | none => rfl
    | some p =>
      dsimp only
      by_cases k : p.sum > 0
      · simp only [if_pos k]
        have := Renaming.hubPose (c := s.ctx V g b junk) hb V.meas s.hub m p g.frames.world g.frames.base false
        rw [← this]
        rfl
      · simp only [if_neg k]; rfl
  | twist i b b' junk m hb =>
    simp only [Sys.step, Sys.ctx_renamed s b b' junk]
    change (match g.inputs.twistCds[i]? with | some _ => _ | none => _) = _
    cases g.inputs.twistCds[i]? with
    | none => rfl
    | some p =>
      dsimp only
      by_cases k : p.sum > 0
      · simp only [if_pos k]
        have := Renaming.hubTwist (c := s.ctx V g b junk) hb V.meas s.hub m p g.frames.base
        rw [← this]
        rfl
      · simp only [if_neg k]; rfl
  | imu i b b' junk m hb =>
    simp only [Sys.step, Sys.ctx_renamed s b b' junk]
    change (match g.inputs.imuCds[i]?, g.inputs.imus[i]? with | some (_, _, _), some _ => _ | _, _ => _) = _
    cases g.inputs.imuCds[i]? with
    | none => rfl
    | some pqd =>
      obtain ⟨p, q, d⟩ := pqd
      cases g.inputs.imus[i]? with
      | none => rfl
      | some set =>
        dsimp only
        by_cases k : p.sum + q.sum + d.sum > 0
        · simp only [if_pos k]
          rw [Renaming.hubImu (c := s.ctx V g b junk) hb]
          rfl
        · simp only [if_neg k]; rfl
  | command now u => rfl
  | setPose now b b' junk m hb =>
    have := Renaming.pose (c := s.ctx V g b junk) hb { init := fun _ => none, prev := fun _ => none } m.stamp m "set_pose"
      g.frames.world g.frames.base false false false Sys.blankPose
    have ha : Sys.asked V (s.ctx V (g.renamed r) b' junk) (m.renamed r) = Sys.asked V (s.ctx V g b junk) m := by
      unfold Sys.asked
      rw [show (preparePose (s.ctx V (g.renamed r) b' junk) _ (m.renamed r).stamp (m.renamed r) "set_pose"
        (s.ctx V (g.renamed r) b' junk).world (s.ctx V (g.renamed r) b' junk).base false false false Sys.blankPose) = _
        from this]
      rfl
    simp only [Sys.step]
    rw [ha]
    rfl
  | reset => rfl
  | toggle on => rfl
  | enable => rfl
  | tick now now2 b b' hb =>
    simp only [Sys.step, Sys.cycle]
    by_cases k : s.hub.node.enabled = true
    · simp only [if_pos k]
      rw [show Sys.tfDue (g.renamed r).frames b' = Sys.tfDue g.frames b from Sys.tfDue_renamed hb g.frames]
      refine Prod.ext rfl ?_
      dsimp only
      rw [List.map_map]
      exact List.map_congr_left fun o _ => Sys.render_renamed hb _ _ o
    · simp only [if_neg k]; rfl

/-- A whole run. -/
theorem Sys.run_renamed {es es' : List Sys.Ev} (h : List.Forall₂ (Sys.Ev.Renamed r) es es') (s : Sys C P) :
    s.run V (g.renamed r) es' = ((s.run V g es).1, (s.run V g es).2.map (Sent.renamed r)) := by
  induction h generalizing s with
  | nil => rfl
  | cons he _ ih =>
    simp only [Sys.run]
    rw [Sys.step_renamed s he, ih]
    simp only [List.map_append]

/-- **C145.**  For every filter, all settings, every run from the start and every way of renaming frames: the node whose
settings, messages and transforms use the new names sends the same messages, with the frames renamed. -/
theorem C145_frames (C : Core) (V : View C) (g : SysCfg C) (P : MQueue C) (r : Renaming) (ext0 : C.Ext) (fctl0 : C.Ctl)
    (now : Int) (d : Differ) (es es' : List Sys.Ev) (h : List.Forall₂ (Sys.Ev.Renamed r) es es') :
    ((Sys.start (g.renamed r) P ext0 fctl0 now d).run V (g.renamed r) es').2 =
      ((Sys.start g P ext0 fctl0 now d).run V g es).2.map (Sent.renamed r) := by
  rw [show Sys.start (g.renamed r) P ext0 fctl0 now d = Sys.start g P ext0 fctl0 now d from rfl, Sys.run_renamed h]

/-- **C145.**  The estimate, the queue and everything else the node keeps are the same. -/
theorem C145_estimate (C : Core) (V : View C) (g : SysCfg C) (P : MQueue C) (r : Renaming) (ext0 : C.Ext) (fctl0 : C.Ctl)
    (now : Int) (d : Differ) (es es' : List Sys.Ev) (h : List.Forall₂ (Sys.Ev.Renamed r) es es') :
    ((Sys.start (g.renamed r) P ext0 fctl0 now d).run V (g.renamed r) es').1 =
      ((Sys.start g P ext0 fctl0 now d).run V g es).1 := by
  rw [show Sys.start (g.renamed r) P ext0 fctl0 now d = Sys.start g P ext0 fctl0 now d from rfl, Sys.run_renamed h]

/-! ## From the parameters -/

open Nav (Given PVal)

/-- The parameters that are names of frames. -/
def frameParams : List String := ["map_frame", "odom_frame", "base_link_frame", "base_link_frame_output", "world_frame"]

/-- The same parameters with the frames renamed.  The first three frames have to be given, since the defaults are not
renamed. -/
structure Nav.Given.FramesRenamed (r : Renaming) (o o' : Given) : Prop where
  rest : ∀ n, n ∉ frameParams → o' n = o n
  names : ∀ n ∈ frameParams, (∃ s, o n = some (.string s) ∧ o' n = some (.string (r.nm s))) ∨
    (n ∈ ["base_link_frame_output", "world_frame"] ∧ o n = none ∧ o' n = none)

theorem decimal_ne_nil (n : ℕ) : decimal n ≠ [] := by
  rw [decimal]
  split <;> simp

theorem input_not_frame {k : String} (hk : k ∈ ["odom", "pose", "twist", "imu"]) (i : ℕ) (s : String) :
    inputName k i ++ s ∉ frameParams := by
  intro h
  have ho : ∀ t : List Char, "odom".toList ++ decimal i ++ t ≠ "odom".toList ++ "_frame".toList := by
    intro t e
    rw [List.append_assoc] at e
    have e := List.append_cancel_left e
    cases hd : decimal i with
    | nil => exact decimal_ne_nil i hd
    | cons c l =>
      rw [hd] at e
      injection e with e
      exact decimal_no_underscore i c (by rw [hd]; simp) e
  simp only [frameParams, List.mem_cons, List.not_mem_nil, or_false] at h
  rcases h with h | h | h | h | h
  · exact ne_input (by rfl) (by decide) hk i s h
  · simp only [List.mem_cons, List.not_mem_nil, or_false] at hk
    have h := congrArg String.toList h
    rw [inputName, String.toList_append, String.toList_append, String.toList_ofList,
      show "odom_frame".toList = "odom".toList ++ "_frame".toList by decide] at h
    have hh := congrArg List.head? h
    rcases hk with rfl | rfl | rfl | rfl
    · exact ho _ h
    all_goals
      rw [show ("odom".toList ++ "_frame".toList).head? = some 'o' by decide] at hh
      first
      | (rw [show ("pose".toList ++ decimal i ++ s.toList).head? = some 'p' from rfl] at hh; revert hh; decide)
      | (rw [show ("twist".toList ++ decimal i ++ s.toList).head? = some 't' from rfl] at hh; revert hh; decide)
      | (rw [show ("imu".toList ++ decimal i ++ s.toList).head? = some 'i' from rfl] at hh; revert hh; decide)
  · exact ne_input (by rfl) (by decide) hk i s h
  · exact ne_input (by rfl) (by decide) hk i s h
  · exact ne_input (by rfl) (by decide) hk i s h

theorem readFrames_renamed {r : Renaming} {o o' : Given} (h : o.FramesRenamed r o') :
    readFrames o' = (readFrames o).map (Frames.renamed r) := by
  have hp : o'.string? "tf_prefix" = o.string? "tf_prefix" := by
    simp only [Given.string?, h.rest "tf_prefix" (by decide)]
  have h1 : ∀ n ∈ frameParams, n ∉ ["base_link_frame_output", "world_frame"] →
      ∃ s, o.string? n = some (some s) ∧ o'.string? n = some (some (r.nm s)) := by
    intro n hn hn'
    rcases h.names n hn with ⟨s, e, e'⟩ | ⟨k, -⟩
    · exact ⟨s, by simp only [Given.string?, e], by simp only [Given.string?, e']⟩
    · exact absurd k hn'
  have h2 : ∀ n ∈ frameParams, ∃ s : Option String, o.string? n = some s ∧ o'.string? n = some (s.map r.nm) := by
    intro n hn
    rcases h.names n hn with ⟨s, e, e'⟩ | ⟨-, e, e'⟩
    · exact ⟨some s, by simp only [Given.string?, e], by simp only [Given.string?, e', Option.map_some]⟩
    · exact ⟨none, by simp only [Given.string?, e], by simp only [Given.string?, e', Option.map_none]⟩
  obtain ⟨m, hm, hm'⟩ := h1 "map_frame" (by decide) (by decide)
  obtain ⟨d, hd, hd'⟩ := h1 "odom_frame" (by decide) (by decide)
  obtain ⟨b, hb, hb'⟩ := h1 "base_link_frame" (by decide) (by decide)
  obtain ⟨u, hu, hu'⟩ := h2 "base_link_frame_output" (by decide)
  obtain ⟨w, hw, hw'⟩ := h2 "world_frame" (by decide)
  unfold readFrames
  rw [hm, hm', hd, hd', hb, hb', hu, hu', hw, hw', hp]
  cases o.string? "tf_prefix" with
  | none => rfl
  | some pre =>
    simp only [Option.bind_eq_bind, Option.bind_some, C60_prefix_ignored, Option.pure_def, Option.map_some]
    cases u <;> cases w <;> rfl

/-- **C145** from the parameters: with the frames renamed the node is set up the same, with the frames renamed. -/
theorem C145_parameters {r : Renaming} {o o' : Given} (h : o.FramesRenamed r o') :
    loadNode o' = (loadNode o).map fun c => { c with frames := c.frames.renamed r } := by
  have hs : ∀ n, n ∉ frameParams → o' n = o n := h.rest
  have h1 : readSwitches o' = readSwitches o :=
    readSwitches_congr (fun n hn => hs n fun k => by revert n; decide)
      (Or.inl (by simp only [Given.bool, hs "reset_on_time_jump" (by decide)]))
  have h3 : readTimes o' = readTimes o := by
    simp only [readTimes, Given.double, Given.double?, hs "transform_time_offset" (by decide), hs "transform_timeout" (by decide),
      hs "frequency" (by decide), hs "sensor_timeout" (by decide), hs "history_length" (by decide), hs "control_timeout" (by decide)]
  have h4 : ∀ b, readControlLists o' b = readControlLists o b := fun b => by
    simp only [readControlLists, Given.bools?, Given.doubles?, hs "control_config" (by decide), hs "acceleration_limits" (by decide),
      hs "acceleration_gains" (by decide), hs "deceleration_limits" (by decide), hs "deceleration_gains" (by decide)]
  have hi : ∀ k ∈ ["odom", "pose", "twist", "imu"], ∀ i, ∀ s ∈ inputSuffixes, o' (inputName k i ++ s) = o (inputName k i ++ s) :=
    fun k hk i s _ => hs _ (input_not_frame hk i s)
  have h5 : readInputs o' = readInputs o := by
    unfold readInputs
    rw [sensorAt_congr (hi "odom" (by decide)) fun i t => readOdom_congr (hi "odom" (by decide) i),
      sensorAt_congr (hi "pose" (by decide)) fun i t => readPose_congr (hi "pose" (by decide) i),
      sensorAt_congr (hi "twist" (by decide)) fun i t => readTwist_congr (hi "twist" (by decide) i),
      sensorAt_congr (hi "imu" (by decide)) fun i t => readImu_congr (hi "imu" (by decide) i)]
  have h6 : ∀ n, n ∉ frameParams → ∀ m, readCov o' n m = readCov o n m := fun n hn m => by
    simp only [readCov, Given.doubles?, hs n hn]
  have h7 : o'.double "gravitational_acceleration" 9.80665 = o.double "gravitational_acceleration" 9.80665 := by
    simp only [Given.double, hs "gravitational_acceleration" (by decide)]
  have h8 : o'.doubles? "initial_state" = o.doubles? "initial_state" := by
    simp only [Given.doubles?, hs "initial_state" (by decide)]
  unfold loadNode
  rw [h1, h3, h5, h6 _ (by decide), h6 _ (by decide), h7, h8, readFrames_renamed h]
  simp only [h4]
  cases readSwitches o with
  | none => rfl
  | some sw =>
    cases o.double "gravitational_acceleration" 9.80665 with
    | none => rfl
    | some gr =>
      cases readFrames o with
      | none => rfl
      | some fr =>
        cases readTimes o with
        | none => rfl
        | some ti =>
          simp only [Option.bind_eq_bind, Option.bind_some, Option.map_some]
          cases readControlLists o sw.useControl with
          | none => rfl
          | some cl =>
            cases o.doubles? "initial_state" with
            | none => rfl
            | some ini =>
              cases readInputs o with
              | none => rfl
              | some ins =>
                simp only [Option.bind_some]
                cases finalControl cl (ins.imus.map fun s => s.par.config) with
                | none => rfl
                | some fc =>
                  cases readCov o "process_noise_covariance" defaultQ with
                  | none => rfl
                  | some q =>
                    cases readCov o "initial_estimate_covariance" ((1e-9 : ℝ) • 1) <;> rfl

/-- **C145** for the node of the extended Kalman filter, from its parameters to what it sends. -/
theorem C145_ekf_node {r : Renaming} {o o' : Given} (ho : o.FramesRenamed r o') {c : NodeConf} (hc : loadNode o = some c) :
    ∃ c', loadNode o' = some c' ∧ ∃ hp : c'.par = c.par, ∀ (P : MQueue (ekfCore c.par)) (ext0 : (ekfCore c.par).Ext)
      (fctl0 : (ekfCore c.par).Ctl) (now : Int) (d : Differ) (es es' : List Sys.Ev),
      List.Forall₂ (Sys.Ev.Renamed r) es es' →
      ((Sys.start (hp ▸ c'.sys) P ext0 fctl0 now d).run (ekfView c.par) (hp ▸ c'.sys) es').2 =
        ((Sys.start c.sys P ext0 fctl0 now d).run (ekfView c.par) c.sys es).2.map (Sent.renamed r) := by
  refine ⟨{ c with frames := c.frames.renamed r }, by rw [C145_parameters ho, hc]; rfl, rfl, ?_⟩
  intro P ext0 fctl0 now d es es' h
  exact C145_frames (ekfCore c.par) (ekfView c.par) c.sys P r ext0 fctl0 now d es es' h

/-- **C145** for the node of the unscented Kalman filter. -/
theorem C145_ukf_node {r : Renaming} {o o' : Given} (ho : o.FramesRenamed r o') {c : NodeConf} (hc : loadNode o = some c)
    (llt : Llt) (k : UkfConst) :
    ∃ c', loadNode o' = some c' ∧ ∃ hp : c'.par = c.par, ∀ (P : MQueue (ukfCore c.par llt k))
      (ext0 : (ukfCore c.par llt k).Ext) (fctl0 : (ukfCore c.par llt k).Ctl) (now : Int) (d : Differ) (es es' : List Sys.Ev),
      List.Forall₂ (Sys.Ev.Renamed r) es es' →
      ((Sys.start (hp ▸ c'.ukfSys llt k) P ext0 fctl0 now d).run (ukfView c.par llt k) (hp ▸ c'.ukfSys llt k) es').2 =
        ((Sys.start (c.ukfSys llt k) P ext0 fctl0 now d).run (ukfView c.par llt k) (c.ukfSys llt k) es).2.map
          (Sent.renamed r) := by
  refine ⟨{ c with frames := c.frames.renamed r }, by rw [C145_parameters ho, hc]; rfl, rfl, ?_⟩
  intro P ext0 fctl0 now d es es' h
  exact C145_frames (ukfCore c.par llt k) (ukfView c.par llt k) (c.ukfSys llt k) P r ext0 fctl0 now d es es' h

/-! ## Examples -/

open Classical in
/-- Every set of transforms can be renamed. -/
theorem TfBuffer.exists_renamed (r : Renaming) (b : TfBuffer) : ∃ b', TfBuffer.Renamed r b b' := by
  refine ⟨fun x' y' t => if h : ∃ x y, x' = r.nm x ∧ y' = r.nm y then b h.choose h.choose_spec.choose t else none, ?_⟩
  intro x y t
  have h : ∃ x0 y0, r.nm x = r.nm x0 ∧ r.nm y = r.nm y0 := ⟨x, y, rfl, rfl⟩
  dsimp only
  rw [dif_pos h]
  have h1 : h.choose = x := (r.inj _ _ h.choose_spec.choose_spec.1).symm
  have h2 : h.choose_spec.choose = y := (r.inj _ _ h.choose_spec.choose_spec.2).symm
  exact congrArg₂ (fun a c => b a c t) h1 h2

/-- Everything that may happen can be renamed, so the theorems speak of every run. -/
theorem Sys.Ev.exists_renamed (r : Renaming) (e : Sys.Ev) : ∃ e', Sys.Ev.Renamed r e e' := by
  cases e with
  | odom i b junk m => exact (TfBuffer.exists_renamed r b).elim fun b' h => ⟨_, .odom i b b' junk m h⟩
  | pose i b junk m => exact (TfBuffer.exists_renamed r b).elim fun b' h => ⟨_, .pose i b b' junk m h⟩
  | twist i b junk m => exact (TfBuffer.exists_renamed r b).elim fun b' h => ⟨_, .twist i b b' junk m h⟩
  | imu i b junk m => exact (TfBuffer.exists_renamed r b).elim fun b' h => ⟨_, .imu i b b' junk m h⟩
  | command now u => exact ⟨_, .command now u⟩
  | setPose now b junk m => exact (TfBuffer.exists_renamed r b).elim fun b' h => ⟨_, .setPose now b b' junk m h⟩
  | reset => exact ⟨_, .reset⟩
  | toggle on => exact ⟨_, .toggle on⟩
  | enable => exact ⟨_, .enable⟩
  | tick now now2 b => exact (TfBuffer.exists_renamed r b).elim fun b' h => ⟨_, .tick now now2 b b' h⟩

/-- Putting the name of a robot in front of all frames. -/
def robotNames (robot : String) : Renaming where
  nm := fun s => if s = "" then "" else robot ++ "/" ++ s
  inj := by
    intro a b h
    by_cases ha : a = "" <;> by_cases hb : b = ""
    · rw [ha, hb]
    · rw [if_pos ha, if_neg hb] at h
      have := congrArg String.toList h
      simp at this
    · rw [if_neg ha, if_pos hb] at h
      have := congrArg String.toList h
      simp at this
    · rw [if_neg ha, if_neg hb] at h
      have := congrArg String.toList h
      simp only [String.toList_append, List.append_cancel_left_eq] at this
      exact String.toList_inj.1 this
  empty := rfl

example : (robotNames "robot1").nm "odom" = "robot1/odom" := by decide

/-- Two robots of one kind: every run of the first has a counterpart on the second, with the same estimate. -/
example (C : Core) (V : View C) (g : SysCfg C) (P : MQueue C) (ext0 : C.Ext) (fctl0 : C.Ctl) (now : Int) (d : Differ)
    (es : List Sys.Ev) :
    ∃ es', List.Forall₂ (Sys.Ev.Renamed (robotNames "robot1")) es es' ∧
      ((Sys.start (g.renamed (robotNames "robot1")) P ext0 fctl0 now d).run V (g.renamed (robotNames "robot1")) es').1 =
        ((Sys.start g P ext0 fctl0 now d).run V g es).1 := by
  have : ∃ es', List.Forall₂ (Sys.Ev.Renamed (robotNames "robot1")) es es' := by
    induction es with
    | nil => exact ⟨[], .nil⟩
    | cons e es ih =>
      obtain ⟨es', h⟩ := ih
      obtain ⟨e', he⟩ := Sys.Ev.exists_renamed (robotNames "robot1") e
      exact ⟨e' :: es', .cons he h⟩
  obtain ⟨es', h⟩ := this
  exact ⟨es', h, C145_estimate C V g P _ ext0 fctl0 now d es es' h⟩

/-- Parameters of a robot and of one with the frames renamed. -/
example : ∃ o o' : Given, o.FramesRenamed (robotNames "robot1") o' ∧ o "odom_frame" = some (.string "odom") := by
  let o : Given := fun n =>
    if n = "map_frame" then some (.string "map") else if n = "odom_frame" then some (.string "odom")
    else if n = "base_link_frame" then some (.string "base_link") else none
  let o' : Given := fun n =>
    if n = "map_frame" then some (.string "robot1/map") else if n = "odom_frame" then some (.string "robot1/odom")
    else if n = "base_link_frame" then some (.string "robot1/base_link") else none
  refine ⟨o, o', ⟨fun n hn => ?_, fun n hn => ?_⟩, rfl⟩
  · simp only [frameParams, List.mem_cons, not_or] at hn
    obtain ⟨a, b, c, -⟩ := hn
    simp only [o, o', if_neg a, if_neg b, if_neg c]
  · simp only [frameParams, List.mem_cons, List.not_mem_nil, or_false] at hn
    rcases hn with rfl | rfl | rfl | rfl | rfl
    · exact Or.inl ⟨"map", rfl, rfl⟩
    · exact Or.inl ⟨"odom", rfl, rfl⟩
    · exact Or.inl ⟨"base_link", rfl, rfl⟩
    · exact Or.inr ⟨by decide, rfl, rfl⟩
    · exact Or.inr ⟨by decide, rfl, rfl⟩

end RL
