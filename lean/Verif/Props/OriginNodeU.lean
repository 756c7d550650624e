import Verif.Props.OriginNode
import Verif.Props.OriginGate
/-! # C90: the origin of the world frame does not matter to the whole node of the unscented filter -/

namespace RL
open Matrix

/-- No input has a rejection threshold. -/
structure Inputs.Unlimited (ins : Inputs) : Prop where
  odom : ∀ (i : ℕ) a b, ins.odomCds[i]? = some (a, b) → a.thresh = .unlimited ∧ b.thresh = .unlimited
  pose : ∀ (i : ℕ) a, ins.poseCds[i]? = some a → a.thresh = .unlimited
  twist : ∀ (i : ℕ) a, ins.twistCds[i]? = some a → a.thresh = .unlimited
  imu : ∀ (i : ℕ) a b e, ins.imuCds[i]? = some (a, b, e) → a.thresh = .unlimited ∧ b.thresh = .unlimited ∧ e.thresh = .unlimited

/-- The same settings: the initial state seen from that origin. -/
def SysCfg.seenFromU {p : FilterPar} {llt : Llt} {k : UkfConst} (d : V3) (g : SysCfg (ukfCore p llt k)) : SysCfg (ukfCore p llt k) :=
  { cfg := g.cfg.movedU d, frames := g.frames, inputs := g.inputs, twoD := g.twoD, gravity := g.gravity, tfOffset := g.tfOffset }

section helpers

theorem finish_thresh (c : PrepCtx) (p : Payload) : (finish c p).thresh = p.thresh := by
  unfold finish forceTwoD
  split_ifs <;> rfl

theorem prepareTwist_thresh {c : PrepCtx} {m : TwistMsg} {target : String} {p q : Payload} (h : prepareTwist c m target p = some q) :
    q.thresh = p.thresh := by
  unfold prepareTwist at h
  obtain ⟨t, -, rfl⟩ := Option.map_eq_some_iff.1 h
  exact finish_thresh _ _

theorem prepareAcceleration_thresh {c : PrepCtx} {g r : Bool} {m : ImuMsg} {target : String} {p q : Payload}
    (h : prepareAcceleration c g m target r p = some q) : q.thresh = p.thresh := by
  unfold prepareAcceleration at h
  obtain ⟨t, -, rfl⟩ := Option.map_eq_some_iff.1 h
  exact finish_thresh _ _

theorem preparePose_thresh {c : PrepCtx} {k : PoseMem} {last : Int} {m : PoseMsg} {topic target source : String} {d r i : Bool}
    {p q : Payload} (h : (preparePose c k last m topic target source d r i p).2 = some q) : q.thresh = p.thresh := by
  unfold preparePose at h
  dsimp only at h
  split at h
  · cases h
  · unfold poseWith at h
    dsimp only at h
    cases d with
    | true =>
      simp only [if_true] at h
      obtain ⟨old, -, h⟩ := Option.bind_eq_some_iff.1 h
      have := prepareTwist_thresh h
      exact this
    | false =>
      simp only [Bool.false_eq_true, if_false, Option.some.injEq] at h
      rw [← h]
      exact finish_thresh _ _

theorem rel_and {R : Payload → Payload → Prop} {Q : Payload → Prop} {a b : Option Payload} (h : Option.Rel R a b)
    (hq : ∀ x, a = some x → Q x) : Option.Rel (fun x y => R x y ∧ Q x) a b := by
  cases h with
  | none => exact .none
  | some h => exact .some ⟨h, hq _ rfl⟩

/-- The messages seen from another origin, none with a rejection threshold. -/
noncomputable def shiftMessagesU (world base : String) (inWorld : String → Prop) (d : V3) : MsgSim :=
  let M := shiftMessages world base inWorld d
  { CdPose := fun cd => cd.thresh = .unlimited
    Cd := fun cd => M.Cd cd ∧ cd.thresh = .unlimited
    Zero := M.Zero
    Ctx := M.Ctx
    Mem := M.Mem
    Pay := fun m m' => M.Pay m m' ∧ m.thresh = .unlimited
    Ask := M.Ask
    Pose := M.Pose
    Twist := M.Twist
    Imu := M.Imu
    Odom := M.Odom
    Src := M.Src
    Fine := M.Fine
    base := M.base
    world := M.world
    odomSrc := M.odomSrc
    baseSrc := M.baseSrc
    poseStamp := M.poseStamp
    twistStamp := M.twistStamp
    odomSame := M.odomSame
    odomPose := M.odomPose
    odomTwist := M.odomTwist
    imuSame := M.imuSame
    imuPose := M.imuPose
    imuTwist := M.imuTwist
    mem0 := M.mem0
    twist := fun hc hm cd target h hs => rel_and (M.twist hc hm cd target h.1 hs) fun _ hx => (prepareTwist_thresh hx).trans h.2
    accel := fun hc hm cd target grav h hs =>
      rel_and (M.accel hc hm cd target grav h.1 hs) fun _ hx => (prepareAcceleration_thresh hx).trans h.2
    pose := fun hc hk hm last cd target source imu h hs hf =>
      have r := M.pose hc hk hm last cd target source imu trivial hs hf
      ⟨r.1, rel_and r.2 fun _ hx => (preparePose_thresh hx).trans h⟩
    asked := M.asked }

theorem Payload.SeenFrom.correctU {d : V3} {m m' : Payload} (h : m.SeenFrom d m') (llt : Llt) (k : UkfConst) (x : State) (P : Mat15)
    (mem : UkfMem) : Ukf.correct llt k m' x P mem = Ukf.correct llt k (m.moved d) x P mem := by
  have key : ∀ (l : List (Fin 15)) (zh : Fin l.length → ℝ), (∀ i ∈ l, m.upd i = true) →
      ukfInnovation l.get (fun i => (m'.z i).val) zh = ukfInnovation l.get (fun i => ((m.moved d).z i).val) zh := by
    intro l zh hl
    funext a
    unfold ukfInnovation
    simp only [h.z _ (hl _ (List.get_mem l a))]
  have hl : ∀ i ∈ (m.moved d).indices, m.upd i = true := by
    intro i hi
    have := (List.mem_filter.1 hi).2
    simp only [Bool.and_eq_true] at this
    exact this.1.1
  unfold Ukf.correct
  rw [h.indices]
  unfold ukfCorrectAt
  dsimp only
  rw [key _ _ hl, show m'.R = (m.moved d).R from h.R, show m'.thresh = (m.moved d).thresh from h.thresh]

/-- The unscented filter seen from another origin, with measurements that count where they are used. -/
noncomputable def shiftSimU (p : FilterPar) (llt : Llt) (k : UkfConst) (hw : ∑ s, k.w s = 1) (d : V3) :
    CoreSim (ukfCore p llt k) (ukfCore p llt k) 0 where
  low := 0
  X := (movedSimU p llt k hw True d).X
  Cov := (movedSimU p llt k hw True d).Cov
  Ext := (movedSimU p llt k hw True d).Ext
  Par := (movedSimU p llt k hw True d).Par
  Z z z' := Payload.SeenFrom d z z' ∧ Payload.thresh z = .unlimited
  Ctl := (movedSimU p llt k hw True d).Ctl
  predict := (movedSimU p llt k hw True d).predict
  correct := by
    rintro z z' x x' P P' e e' ⟨hz, ht⟩ hx hP he
    have h := (movedSimU p llt k hw True d).correct (z := z) (z' := Payload.moved d z) ⟨rfl, fun _ => ht⟩ hx hP he
    have e2 : (ukfCore p llt k).correct z' (x', P', e') = (ukfCore p llt k).correct (Payload.moved d z) (x', P', e') := by
      cases x' with
      | none => rfl
      | some y =>
        show (match Ukf.correct llt k z' y P' e' with
          | some r => (some r.1, r.2.1, r.2.2)
          | none => (none, P', e') : Option State × Mat15 × UkfMem) =
          match Ukf.correct llt k (Payload.moved d z) y P' e' with
          | some r => (some r.1, r.2.1, r.2.2)
          | none => (none, P', e')
        rw [show Ukf.correct llt k (z' : Payload) y P' e' = _ from Payload.SeenFrom.correctU hz llt k y P' e']
    rw [e2]
    exact h
  initX := by
    rintro z z' x x' ⟨hz, ht⟩ hx
    have h := (movedSimU p llt k hw True d).initX (z := z) (z' := Payload.moved d z) ⟨rfl, fun _ => ht⟩ hx
    have e2 : (ukfCore p llt k).initX z' x' = (ukfCore p llt k).initX (Payload.moved d z) x' := by
      cases x' with
      | none => rfl
      | some y => exact Payload.SeenFrom.init hz y
    rw [e2]
    exact h
  initCov := by
    rintro z z' P P' ⟨hz, ht⟩ hP
    have hz : Payload.SeenFrom d z z' := hz
    have hP : P' = P := hP
    subst hP
    show RL.initCov z' P' = RL.initCov z P'
    unfold RL.initCov
    rw [hz.upd, hz.R]

variable {inWorld : String → Prop} {d : V3}

/-- Two whole nodes, the second told everything as seen from another origin. -/
noncomputable def shiftNodesU (p : FilterPar) (llt : Llt) (k : UkfConst) (hw : ∑ s, k.w s = 1) (inWorld : String → Prop) (d : V3)
    (g : SysCfg (ukfCore p llt k)) (hg : g.FitsOrigin inWorld d) (hu : g.inputs.Unlimited) :
    SysPair (shiftSimU p llt k hw d) (shiftMessagesU g.frames.world g.frames.base inWorld d) (ukfView p llt k) (ukfView p llt k)
      g (g.seenFromU d) where
  Clean _ _ := True
  Diff := Eq
  Buf b b' := b' = b.seenFrom g.frames.world d
  Junk j j' := j' = State.moved d j
  Cmd := Eq
  Said s s' := s' = s.seenFrom d
  frames := rfl
  inputs := rfl
  odomCds i a b h := ⟨(hu.odom i a b h).1, (hg.odom i a b h).1, (hu.odom i a b h).2⟩
  poseCds i a h := hu.pose i a h
  twistCds i a h := ⟨hg.twist i a h, hu.twist i a h⟩
  imuCds i a b e h := ⟨(hu.imu i a b e h).1, ⟨fun j hj => (hg.imu i a b e h j hj).2.1, (hu.imu i a b e h).2.1⟩,
    fun j hj => (hg.imu i a b e h j hj).2.2, (hu.imu i a b e h).2.2⟩
  cfg := ⟨rfl, rfl, rfl, rfl, rfl, rfl, rfl, rfl, rfl, rfl, rfl, rfl⟩
  name _ := rfl
  meas h := h
  pose := by
    rintro m _ ⟨rfl, h⟩
    refine ⟨?_, rfl⟩
    show some _ = some _
    congr 1
    funext i
    unfold Payload.moved State.moved
    dsimp only
    split
    · rename_i hi
      obtain ⟨a, ha⟩ := h i hi
      rw [ha]
      rfl
    · rfl
  cmd h t := ⟨h.symm, rfl⟩
  zero h := h.elim
  ctl0 h := ⟨h.1, rfl⟩
  tfDue := by
    rintro b _ rfl
    unfold Sys.tfDue TfBuffer.seenFrom
    rw [Option.isSome_map]
  ctx := by
    rintro x _ P e _ b _ j _ rfl - rfl rfl rfl
    refine ⟨rfl, rfl, hg.named, hg.plane, ?_⟩
    cases (x : Option State) <;> rfl
  differ := by
    rintro x _ P _ e _ rfl rfl - rfl init now
    cases (x : Option State) <;> rfl
  odom := by
    rintro x x' P P' hx hP - t
    have hx : x' = Option.map (State.moved d) x := hx
    have hP : P' = P := hP
    subst hx hP
    cases (x : Option State) with
    | none => rfl
    | some x => exact congrArg (Sent.odom t) (odomMessage_seenFrom g.frames x P' t)
  tf := by
    rintro x x' P P' b _ hx hP - rfl t
    have hx : x' = Option.map (State.moved d) x := hx
    have hP : P' = P := hP
    subst hx hP
    cases (x : Option State) with
    | none => rfl
    | some x =>
      refine congrArg (Sent.tf t) ?_
      exact (congrArg (fun o : Option OdomMsg => o.bind fun m => broadcast g.frames (b.seenFrom g.frames.world d) g.tfOffset m)
        (odomMessage_seenFrom (d := d) g.frames x P' t)).trans (broadcast_seenFrom g.frames hg.named.2.2 b g.tfOffset rfl)
  accel := by
    rintro x _ P _ e _ rfl rfl - rfl t
    cases (x : Option State) with
    | none => rfl
    | some x => rfl

theorem origin_fineU {p : FilterPar} {llt : Llt} {k : UkfConst} {hw : ∑ s, k.w s = 1} {g : SysCfg (ukfCore p llt k)}
    (hg : g.FitsOrigin inWorld d) (hu : g.inputs.Unlimited) {P : MQueue (ukfCore p llt k)} (s : Sys (ukfCore p llt k) P)
    (es : List Sys.Ev) (hes : ∀ e ∈ es, e.FitsOrigin g inWorld) : (shiftNodesU p llt k hw inWorld d g hg hu).RunFine s es := by
  induction es generalizing s with
  | nil => trivial
  | cons e es ih =>
    refine ⟨trivial, ?_, ih _ fun e he => hes e (List.mem_cons_of_mem _ he)⟩
    have he := hes e List.mem_cons_self
    cases e with
    | odom i b j m => exact fun a b h _ => ⟨he.2 a b h, rfl, (hg.odom i a b h).2⟩
    | pose i b j m => exact fun a h => ⟨he a h, rfl, hg.pose i a h⟩
    | imu i b j m =>
      exact fun a b e h _ => ⟨fun q => ⟨fun w => (he.1 w).elim, fun w => (he.2 a b e h q w).elim⟩, rfl, he.1,
        fun j hj => (hg.imu i a b e h j hj).1⟩
    | setPose n b j m =>
      intro h
      refine he ?_
      unfold preparePose at h
      rw [show poseFrames (s.ctx (ukfView p llt k) g b j) m.frame g.frames.world false false = (g.frames.world, m.frame) by
        simp [poseFrames, hg.named.1]] at h
      change (match lookupTransformSafe b g.frames.world m.frame (poseLookupTime m.stamp) with
        | none => _
        | some t => poseWith _ _ _ t _ _ _ _ _ _ _ _ : PoseMem × Option Payload).2 = none at h
      cases hl : lookupTransformSafe b g.frames.world m.frame (poseLookupTime m.stamp) with
      | none => rfl
      | some t =>
        rw [hl] at h
        simp [poseWith] at h
    | reset => exact he
    | _ => trivial

end helpers

/-- C90 for the whole node of the unscented filter, from start-up: when everything that happens to the node is told as seen
from another origin of the world frame, it sends the same messages at the same times, with the positions it reports and the
transforms it broadcasts seen from that origin.  For every run without `reset` and without a `set_pose` that cannot be
transformed, and for inputs without rejection threshold (with one it is false: `C90_ukf_gate`). -/
theorem C90_ukf_node_partial (p : FilterPar) (llt : Llt) {alpha kappa beta : ℝ} {k : UkfConst}
    (hk : setConstants alpha kappa beta = some k) (d : V3) (inWorld : String → Prop) (g : SysCfg (ukfCore p llt k))
    (hg : g.FitsOrigin inWorld d) (hu : g.inputs.Unlimited) (u : Fin 6 → ℝ) (now : Int) (a : Differ) (es : List Sys.Ev)
    (hes : ∀ e ∈ es, e.FitsOrigin g inWorld) :
    (Sys.run (ukfView p llt k) (g.seenFromU d) (Sys.start (g.seenFromU d) (PQueue.sortedList _ _) UkfMem.init u now a)
        (es.map (Sys.Ev.seenFrom g.frames.world d))).2 =
      (Sys.run (ukfView p llt k) g (Sys.start g (PQueue.sortedList _ _) UkfMem.init u now a) es).2.map (Sent.seenFrom d) := by
  have hw := C16_weights_sum_to_one hk
  have hst : (shiftNodesU p llt k hw inWorld d g hg hu).Alike (QueueSim.sorted _) (Sys.start g (PQueue.sortedList _ _) UkfMem.init u now a)
      (Sys.start (g.seenFromU d) (PQueue.sortedList _ _) UkfMem.init u now a) := by
    refine ⟨⟨?_, ⟨fun _ => rfl, fun _ => rfl⟩⟩, rfl⟩
    have := NodeSim.start (κ := QueueSim.sorted (shiftSimU p llt k hw d)) (g := g.cfg) (g' := (g.seenFromU d).cfg)
      (shiftNodesU p llt k hw inWorld d g hg hu).cfg rfl rfl ⟨rfl, rfl⟩ (e := UkfMem.init) (e' := UkfMem.init)
      ⟨rfl, fun _ => Or.inr ⟨trivial, rfl, rfl⟩⟩ (u := u) (u' := u) ⟨rfl, rfl⟩ now
    rwa [Int.add_zero] at this
  have he : List.Forall₂ (shiftNodesU p llt k hw inWorld d g hg hu).EvSim es (es.map (Sys.Ev.seenFrom g.frames.world d)) := by
    rw [List.forall₂_map_right_iff, List.forall₂_same]
    intro e h
    have h := hes e h
    cases e with
    | odom i b j m => exact .odom i rfl rfl ⟨rfl, h.1⟩
    | pose i b j m => exact .pose i rfl rfl rfl
    | twist i b j m => exact .twist i rfl rfl ⟨rfl, h⟩
    | imu i b j m => exact .imu i rfl rfl ⟨rfl, h.1⟩
    | command now u => exact .command now rfl
    | setPose now b j m => exact .setPose now rfl rfl rfl
    | reset => exact .reset
    | toggle on => exact .toggle on
    | enable => exact .enable
    | tick now now2 b => exact .tick now now2 rfl
  have h := (hst.run he (origin_fineU hg hu _ es hes)).2
  revert h
  generalize (Sys.run (ukfView p llt k) (g.seenFromU d) _ _).2 = l'
  generalize (Sys.run (ukfView p llt k) g _ es).2 = l
  intro h
  induction h with
  | nil => rfl
  | cons hab _ ih => rw [List.map_cons, ← ih]; exact congrArg (· :: _) hab

/-- C90 for `ukf_node` with any parameters. -/
theorem C90_ukf_loaded_partial {o : Nav.Given} {c : NodeConf} (h : loadNode o = some c) {k : UkfConst} (hk : loadUkf o = some k)
    (llt : Llt) (d : V3) (inWorld : String → Prop)
    (hn : c.frames.world ≠ "" ∧ c.frames.base ≠ "" ∧ c.frames.base ≠ c.frames.world) (hp : c.sw.twoD = true → d 2 = 0)
    (ho : ∀ s ∈ c.inputs.odoms, s.par.rel = true → s.par.differential = true ∨ ¬ inWorld (s.par.name ++ "_pose"))
    (hs : ∀ s ∈ c.inputs.poses, s.par.rel = true → s.par.differential = true ∨ ¬ inWorld s.par.name)
    (hu : c.inputs.Unlimited)
    (u : Fin 6 → ℝ) (now : Int) (a : Differ) (es : List Sys.Ev) (hes : ∀ e ∈ es, e.FitsOrigin (c.ukfSys llt k) inWorld) :
    (Sys.run (ukfView c.par llt k) ((c.ukfSys llt k).seenFromU d)
        (Sys.start ((c.ukfSys llt k).seenFromU d) (PQueue.sortedList _ _) UkfMem.init u now a)
        (es.map (Sys.Ev.seenFrom c.frames.world d))).2 =
      (Sys.run (ukfView c.par llt k) (c.ukfSys llt k)
        (Sys.start (c.ukfSys llt k) (PQueue.sortedList _ _) UkfMem.init u now a) es).2.map (Sent.seenFrom d) := by
  obtain ⟨r, -, hk⟩ := Option.bind_eq_some_iff.1 hk
  have hf := loaded_fitsOrigin h d inWorld hn hp ho hs
  exact C90_ukf_node_partial c.par llt hk d inWorld (c.ukfSys llt k) ⟨hf.named, hf.plane, hf.odom, hf.pose, hf.twist, hf.imu⟩ hu u
    now a es hes

/-- The unscented filter with the inputs of the example in OriginNode. -/
noncomputable def fixCfgU (llt : Llt) (k : UkfConst) : SysCfg (ukfCore plainPar llt k) :=
  { cfg := bareCfg plainPar llt k, frames := fixCfg.frames, inputs := fixCfg.inputs, twoD := false, gravity := 9.8, tfOffset := 0 }

/-- Positions in the world frame and in another one, poses compared in the world frame, and a pose that is set. -/
example (llt : Llt) (k : UkfConst) (d : V3) (buf : TfBuffer) : (fixCfgU llt k).FitsOrigin (fun s => s = "steps") d ∧
    (fixCfgU llt k).inputs.Unlimited ∧
    ∀ e ∈ [Sys.Ev.pose 0 buf 0 (fixMsg "odom"), .pose 0 buf 0 (fixMsg "mast"), .pose 1 buf 0 (fixMsg "odom"),
      .setPose 4 buf 0 (fixMsg "odom"), .tick 5 5 buf], e.FitsOrigin (fixCfgU llt k) (fun s => s = "steps") := by
  obtain ⟨h, h'⟩ := fix_fits d buf
  refine ⟨⟨h.named, h.plane, h.odom, h.pose, h.twist, h.imu⟩, ⟨?_, ?_, ?_, ?_⟩, ?_⟩
  · intro i a b h
    simp [fixCfgU, fixCfg] at h
  · intro i a h
    rcases i with _ | _ | i
    · obtain rfl : a = fixCd := by simpa [fixCfgU, fixCfg] using h.symm
      rfl
    · obtain rfl : a = stepCd := by simpa [fixCfgU, fixCfg] using h.symm
      rfl
    · simp [fixCfgU, fixCfg] at h
  · intro i a h
    simp [fixCfgU, fixCfg] at h
  · intro i a b e h
    simp [fixCfgU, fixCfg] at h
  · intro e he
    have := h' e he
    cases e <;> exact this

end RL
