import Verif.Model.Together
import Verif.Proofs.NavsatTruth
/-! # C121: the filter and `navsat_transform` together -/

namespace RL
open Matrix Real Body
open Nav (Given)

namespace Duo
variable {C : Core} {P : MQueue C} (V : View C) (g : SysCfg C) (n : NavCfg)

/-- `ok` holds of every state and event of a run. -/
def Holds (ok : Duo C P → Ev → Prop) (s : Duo C P) : List Ev → Prop
  | [] => True
  | e :: es => ok s e ∧ Holds ok (s.step V g n e).1 es

end Duo

/-- An input that takes positions only, as they are. -/
def PlaceInput (set : SensorPar) : Prop :=
  set.config.length = 15 ∧ set.differential = false ∧ set.relative = false ∧ set.useChild = false ∧
    ∀ j : Fin 15, 3 ≤ j.val → ¬ Selects set.config j.val

/-- The world is as the messages say: those from outside tell the truth about the motion of the robot; what the nodes tell
each other is whatever it is. -/
def TrueWorld (c : NodeConf) {Q : MQueue (ekfCore c.par)} (n : NavCfg) (w : Nav.Scene) (s : Duo (ekfCore c.par) Q) : Duo.Ev → Prop
  | .filter e => TrueMessage c w.motion s.sys e
  | .nav e => ∀ t, s.nav = some t → w.Honest n.geo n.par t e
  | .toNav buf k => SaneBuf buf ∧ ∀ t m, s.nav = some t → s.odoms[k]? = some m → t.good = false → t.manual = false →
      w.Still m.stamp
  | .toFilter i buf _ k => SaneBuf buf ∧ ∀ m set, s.gps[k]? = some m → c.inputs.odoms[i]? = some set → PlaceInput set.par ∧
      Rest s.sys.hub.node (w.motion m.stamp) fun j => Selects set.par.config j.val

/-- No measurement is too late for the filter. -/
def Duo.NotTooLate (c : NodeConf) {Q : MQueue (ekfCore c.par)} (w : Nav.Scene) (s : Duo (ekfCore c.par) Q) : Duo.Ev → Prop
  | .filter e => RL.NotTooLate c w.motion s.sys e
  | _ => True

/-- What is sent is the truth. -/
def Duo.Truth (c : NodeConf) (n : NavCfg) (w : Nav.Scene) : Duo.Sent → Prop
  | .filter m => TellsTruth c w.motion m
  | .nav m => w.Tells n.geo n.par n.asParent m

section
variable {c : NodeConf} {Q : MQueue (ekfCore c.par)} {n : NavCfg} {w : Nav.Scene}

/-- All is well. -/
structure Duo.Right (hc : ∀ i, c.par.ctlUpd i = false) (hf : Follows w.motion) (n : NavCfg) (s : Duo (ekfCore c.par) Q) : Prop where
  sys : (ekfTruth c.par hc w.motion hf).Inv s.sys.hub.node
  nav : ∀ t, s.nav = some t → w.Right n.geo n.par t
  odoms : ∀ m ∈ s.odoms, m.frame = w.world ∧ m.child = w.base ∧ m.pos = (w.motion m.stamp).pos ∧ m.ori.mat = rot (w.motion m.stamp).eul
  gps : ∀ m ∈ s.gps, m.frame = w.world ∧ m.child = "" ∧ m.pos = (w.motion m.stamp).pos

theorem odomsOf_true {ms : List Sent} (h : ∀ m ∈ ms, TellsTruth c w.motion m) (hw : w.world = c.frames.world)
    (hb : w.base = c.frames.baseOut) : ∀ m ∈ odomsOf ms,
    m.frame = w.world ∧ m.child = w.base ∧ m.pos = (w.motion m.stamp).pos ∧ m.ori.mat = rot (w.motion m.stamp).eul := by
  intro m hm
  obtain ⟨a, ha, he⟩ := List.mem_filterMap.1 hm
  split at he
  · rename_i t m'
    injection he with he
    subst he
    obtain ⟨h1, h2, h3, h4, -⟩ := h _ ha
    subst h1
    injection h4 with h4 h5
    exact ⟨h2.trans hw.symm, h3.trans hb.symm, h5, h4⟩
  · cases he

theorem gpsOf_true {ms : List Nav.Out} (h : ∀ m ∈ ms, w.Tells n.geo n.par n.asParent m) : ∀ m ∈ gpsOf ms,
    m.frame = w.world ∧ m.child = "" ∧ m.pos = (w.motion m.stamp).pos := by
  intro m hm
  obtain ⟨a, ha, he⟩ := List.mem_filterMap.1 hm
  split at he
  · rename_i pos cov t f
    injection he with he
    subst he
    obtain ⟨h1, h2⟩ := h _ ha
    exact ⟨h1, rfl, h2⟩
  · cases he

theorem stepFilter_right (hin : c.inputs.Made) (hc : ∀ i, c.par.ctlUpd i = false) (hcw : c.frames.world ≠ "") (hbn : c.frames.base ≠ "")
    (hf : Follows w.motion) (hup : ∀ t, HeadUp (w.motion t)) (hlev : c.sw.twoD = true → ∀ t, InPlane (w.motion t))
    (hw : w.world = c.frames.world) (hb : w.base = c.frames.baseOut) {s : Duo (ekfCore c.par) Q} (h : s.Right hc hf n) (e : Sys.Ev)
    (he : TrueMessage c w.motion s.sys e) (hl : RL.NotTooLate c w.motion s.sys e) :
    (s.stepFilter (ekfView c.par) c.sys e).1.Right hc hf n ∧
      ∀ m ∈ (s.stepFilter (ekfView c.par) c.sys e).2, Duo.Truth c n w m := by
  obtain ⟨h1, h2⟩ := step_true hin hc hcw hbn hf hup hlev h.sys e he hl
  refine ⟨⟨h1, h.nav, fun m hm => ?_, h.gps⟩, fun m hm => ?_⟩
  · rcases List.mem_append.1 hm with hm | hm
    · exact h.odoms m hm
    · exact odomsOf_true h2 hw hb m hm
  · obtain ⟨m', hm', rfl⟩ := List.mem_map.1 hm
    exact h2 m' hm'

theorem stepNav_right (hc : ∀ i, c.par.ctlUpd i = false) (hf : Follows w.motion) (hg : n.geo.Lawful) (hr : w.Real n.geo)
    (hl : n.par.useLocal = false) (hz : n.par.zeroAlt = true → ∀ t, (w.motion t).pos 2 = 0)
    {s : Duo (ekfCore c.par) Q} (h : s.Right hc hf n) (e : Nav.Ev) (he : ∀ t, s.nav = some t → w.Honest n.geo n.par t e) :
    (s.stepNav n e).1.Right hc hf n ∧ ∀ m ∈ (s.stepNav n e).2, Duo.Truth c n w m := by
  unfold Duo.stepNav
  cases hn : s.nav with
  | none => exact ⟨h, fun m hm => by cases hm⟩
  | some t =>
    obtain ⟨h1, h2⟩ := Nav.step_right hg hr hl hz (h.nav t hn) n.broadcast n.asParent e (he t hn)
    refine ⟨⟨h.sys, h1, h.odoms, fun m hm => ?_⟩, fun m hm => ?_⟩
    · rcases List.mem_append.1 hm with hm | hm
      · exact h.gps m hm
      · exact gpsOf_true h2 m hm
    · obtain ⟨m', hm', rfl⟩ := List.mem_map.1 hm
      exact h2 m' hm'

theorem gps_message_true {s : Sys (ekfCore c.par) Q} {f : Int → Kin} {buf : TfBuffer} (hb : SaneBuf buf) (junk : State) (i : ℕ) {m : OdomMsg}
    (h1 : m.frame = c.frames.world) (h2 : m.pos = (f m.stamp).pos)
    (h : ∀ set, c.inputs.odoms[i]? = some set → PlaceInput set.par ∧ Rest s.hub.node (f m.stamp) fun j => Selects set.par.config j.val) :
    TrueMessage c f s (.odom i buf junk m) := by
  refine ⟨hb, fun set hset => ?_⟩
  obtain ⟨⟨hlen, hd, hre, huc, hsel⟩, hrest⟩ := h set hset
  refine ⟨hlen, fun j hj hs => absurd hs (hsel j (by omega)), fun _ => ⟨⟨hd, hre⟩, Or.inr ⟨fun j h3 _ => hsel j h3, ?_⟩, ?_⟩,
    fun ⟨j, h6, hs⟩ => absurd hs (hsel j (by omega))⟩
  · rw [huc, h1, if_neg (by decide)]
    refine ⟨rfl, Tf.id, ⟨IsRot.one, fun time t ht => hb.self _ _ _ ht, fun _ => rfl⟩, ?_⟩
    rw [h2]
    simp [Tf.id]
  · refine rest_weaken hrest fun j hj => ⟨h1, ?_, hj⟩
    intro h6
    exact hsel j (by omega) hj

/-- One step of the two nodes. -/
theorem pair_step (hin : c.inputs.Made) (hc : ∀ i, c.par.ctlUpd i = false) (hcw : c.frames.world ≠ "") (hbn : c.frames.base ≠ "")
    (hf : Follows w.motion) (hup : ∀ t, HeadUp (w.motion t)) (hlev : c.sw.twoD = true → ∀ t, InPlane (w.motion t))
    (hw : w.world = c.frames.world) (hb : w.base = c.frames.baseOut) (hg : n.geo.Lawful) (hr : w.Real n.geo) (hl : n.par.useLocal = false)
    (hz : n.par.zeroAlt = true → ∀ t, (w.motion t).pos 2 = 0)
    {s : Duo (ekfCore c.par) Q} (h : s.Right hc hf n) (e : Duo.Ev) (he : TrueWorld c n w s e)
    (hl' : Duo.NotTooLate c w s e) :
    (s.step (ekfView c.par) c.sys n e).1.Right hc hf n ∧ ∀ m ∈ (s.step (ekfView c.par) c.sys n e).2, Duo.Truth c n w m := by
  cases e with
  | filter e => exact stepFilter_right hin hc hcw hbn hf hup hlev hw hb h e he hl'
  | nav e => exact stepNav_right hc hf hg hr hl hz h e he
  | toNav buf k =>
    show (match s.odoms[k]? with
      | some m => s.stepNav n (.odom buf m.heard)
      | none => (s, [])).1.Right hc hf n ∧ ∀ m ∈ (match s.odoms[k]? with
      | some m => s.stepNav n (.odom buf m.heard)
      | none => (s, [])).2, Duo.Truth c n w m
    cases hk : s.odoms[k]? with
    | none => exact ⟨h, fun m hm => by cases hm⟩
    | some m =>
      obtain ⟨a, b, d, e⟩ := h.odoms m (List.mem_of_getElem? hk)
      exact stepNav_right hc hf hg hr hl hz h _ fun t ht => ⟨he.1.rot, he.1.self, a, b, d, e, he.2 t m ht hk⟩
  | toFilter i buf junk k =>
    show (match s.gps[k]? with
      | some m => s.stepFilter (ekfView c.par) c.sys (.odom i buf junk m)
      | none => (s, [])).1.Right hc hf n ∧ ∀ m ∈ (match s.gps[k]? with
      | some m => s.stepFilter (ekfView c.par) c.sys (.odom i buf junk m)
      | none => (s, [])).2, Duo.Truth c n w m
    cases hk : s.gps[k]? with
    | none => exact ⟨h, fun m hm => by cases hm⟩
    | some m =>
      obtain ⟨a, -, b⟩ := h.gps m (List.mem_of_getElem? hk)
      exact stepFilter_right hin hc hcw hbn hf hup hlev hw hb h _
        (gps_message_true he.1 junk i (a.trans hw) b fun set hset => he.2 m set hk hset) trivial

theorem pair_run (hin : c.inputs.Made) (hc : ∀ i, c.par.ctlUpd i = false) (hcw : c.frames.world ≠ "") (hbn : c.frames.base ≠ "")
    (hf : Follows w.motion) (hup : ∀ t, HeadUp (w.motion t)) (hlev : c.sw.twoD = true → ∀ t, InPlane (w.motion t))
    (hw : w.world = c.frames.world) (hb : w.base = c.frames.baseOut) (hg : n.geo.Lawful) (hr : w.Real n.geo) (hl : n.par.useLocal = false)
    (hz : n.par.zeroAlt = true → ∀ t, (w.motion t).pos 2 = 0)
    (es : List Duo.Ev) : ∀ s : Duo (ekfCore c.par) Q, s.Right hc hf n → s.Holds (ekfView c.par) c.sys n (fun s e => TrueWorld c n w s e ∧ Duo.NotTooLate c w s e) es →
    ∀ m ∈ (s.run (ekfView c.par) c.sys n es).2, Duo.Truth c n w m := by
  induction es with
  | nil => intro s _ _ m hm; cases hm
  | cons e es ih =>
    intro s h ha m hm
    obtain ⟨h1, h2⟩ := pair_step hin hc hcw hbn hf hup hlev hw hb hg hr hl hz h e ha.1.1 ha.1.2
    have hm : m ∈ (s.step (ekfView c.par) c.sys n e).2 ++ ((s.step (ekfView c.par) c.sys n e).1.run (ekfView c.par) c.sys n es).2 := hm
    rcases List.mem_append.1 hm with hm | hm
    · exact h2 m hm
    · exact ih _ h1 ha.2 m hm

end

/-- C121: two nodes that feed each other.  A filter without control and `navsat_transform` with a UTM projection get
from outside only messages that tell the truth about a motion the filter integrates exactly, and perhaps, at the start or
later, a datum that is the origin of the world; until `navsat_transform` has its transform or a datum the robot stands; each
takes any message the other has sent, in any order, any number of times, late or never.
No measurement is older than all the filter remembers.  Then everything that either of them sends is the truth. -/
theorem C121_together_partial {o : Given} {c : NodeConf} (h : loadNode o = some c) (hu : ¬ o.On "use_control")
    (hcw : c.frames.world ≠ "") (hcb : c.frames.base ≠ "") (Q : MQueue (ekfCore c.par)) (w : Nav.Scene) (hf : Follows w.motion)
    (hup : ∀ t, HeadUp (w.motion t)) (hlev : o.On "two_d_mode" → ∀ t, InPlane (w.motion t)) (hw : w.world = c.frames.world)
    (hb : w.base = c.frames.baseOut) (n : NavCfg) (hg : n.geo.Lawful) (hr : w.Real n.geo) (hl : n.par.useLocal = false)
    (hz : n.par.zeroAlt = true → ∀ t, (w.motion t).pos 2 = 0) (wd : Bool)
    (hy : wd = false → n.par.odomYaw = true → w.Bearing n.geo n.par (w.motion w.t0).eul)
    (ctl0 : Fin 6 → ℝ) (now : Int) (d : Differ) (t : Nav.St) (ht : t.Initial n.par wd)
    (hd : wd = true → w.Marks n.geo n.par t.datum) (es : List Duo.Ev)
    (ha : Duo.Holds (ekfView c.par) c.sys n (fun s e => TrueWorld c n w s e ∧ Duo.NotTooLate c w s e)
      { sys := Sys.start c.sys Q () ctl0 now d, nav := some t, odoms := [], gps := [] } es) :
    ∀ m ∈ (Duo.run (ekfView c.par) c.sys n { sys := Sys.start c.sys Q () ctl0 now d, nav := some t, odoms := [], gps := [] } es).2,
      Duo.Truth c n w m := by
  obtain ⟨h1, h2⟩ := loadNode_plain h hu
  refine pair_run h1 h2 hcw hcb hf hup (fun ht => hlev ((C102_settings_partial h).sw.twoD.1 ht)) hw hb hg hr hl hz es _
    ⟨Truth.start c.cfg Q () ctl0 now, fun t' h' => ?_, fun m hm => (by cases hm), fun m hm => (by cases hm)⟩ ha
  injection h' with h'
  subst h'
  exact Nav.Scene.Right.initial ht hd (fun _ => hup _) hy

/-- What happens to the filter in a run. -/
noncomputable def Duo.filterEvents {C : Core} {P : MQueue C} (V : View C) (g : SysCfg C) (n : NavCfg) (s : Duo C P) : List Duo.Ev → List Sys.Ev
  | [] => []
  | e :: es => (match e with
    | .filter e => [e]
    | .toFilter i buf junk k => (s.gps[k]?.map fun m => Sys.Ev.odom i buf junk m).toList
    | _ => []) ++ Duo.filterEvents V g n (s.step V g n e).1 es

theorem duo_timely {c : NodeConf} {Q : MQueue (ekfCore c.par)} {n : NavCfg} {w : Nav.Scene} (es : List Duo.Ev) :
    ∀ (s : Duo (ekfCore c.par) Q) (k : Int), 0 ≤ k → Ahead c.cfg k s.sys.hub.node → Timely k (s.filterEvents (ekfView c.par) c.sys n es) →
    s.Holds (ekfView c.par) c.sys n (TrueWorld c n w) es →
    s.Holds (ekfView c.par) c.sys n (fun s e => TrueWorld c n w s e ∧ Duo.NotTooLate c w s e) es := by
  induction es with
  | nil => intro _ _ _ _ _ _; trivial
  | cons e es ih =>
    intro s k hk h ht ha
    cases e with
    | filter e =>
      obtain ⟨k', hk', h', ht'⟩ := h.next hk e _ ht
      refine ⟨⟨ha.1, ?_⟩, ih _ k' hk' h' ht' ha.2⟩
      show RL.NotTooLate c w.motion s.sys e
      cases e <;> try trivial
      exact Or.inr ⟨h.on, fun _ m hm => Or.inl (h.queue m hm)⟩
    | nav e =>
      refine ⟨⟨ha.1, trivial⟩, ih _ k hk ?_ ht ha.2⟩
      show Ahead c.cfg k (s.stepNav n e).1.sys.hub.node
      unfold Duo.stepNav
      split <;> exact h
    | toNav buf j =>
      refine ⟨⟨ha.1, trivial⟩, ih _ k hk ?_ ht ha.2⟩
      show Ahead c.cfg k (match s.odoms[j]? with
        | some m => s.stepNav n (.odom buf m.heard)
        | none => (s, [])).1.sys.hub.node
      split
      · unfold Duo.stepNav
        split <;> exact h
      · exact h
    | toFilter i buf junk j =>
      cases hj : s.gps[j]? with
      | none =>
        have e1 : (s.step (ekfView c.par) c.sys n (.toFilter i buf junk j)) = (s, []) := by
          unfold Duo.step
          simp only [hj]
        have ht : Timely k ((s.gps[j]?.map fun m => Sys.Ev.odom i buf junk m).toList ++
          Duo.filterEvents (ekfView c.par) c.sys n (s.step (ekfView c.par) c.sys n (.toFilter i buf junk j)).1 es) := ht
        rw [hj] at ht
        refine ⟨⟨ha.1, trivial⟩, ih _ k hk ?_ ht ha.2⟩
        rw [e1]
        exact h
      | some m =>
        have e1 : (s.step (ekfView c.par) c.sys n (.toFilter i buf junk j)) = s.stepFilter (ekfView c.par) c.sys (.odom i buf junk m) := by
          unfold Duo.step
          simp only [hj]
        have ht : Timely k ((s.gps[j]?.map fun m => Sys.Ev.odom i buf junk m).toList ++
          Duo.filterEvents (ekfView c.par) c.sys n (s.step (ekfView c.par) c.sys n (.toFilter i buf junk j)).1 es) := ht
        rw [hj] at ht
        obtain ⟨k', hk', h', ht'⟩ := h.next hk _ _ ht
        refine ⟨⟨ha.1, trivial⟩, ih _ k' hk' ?_ ht' ha.2⟩
        rw [e1]
        exact h'

/-- C121: the same when the clock does not run backwards and no message reaches the filter after a cycle at a later time. -/
theorem C121_timely {o : Given} {c : NodeConf} (h : loadNode o = some c) (hu : ¬ o.On "use_control")
    (hcw : c.frames.world ≠ "") (hcb : c.frames.base ≠ "") (Q : MQueue (ekfCore c.par)) (w : Nav.Scene) (hf : Follows w.motion)
    (hup : ∀ t, HeadUp (w.motion t)) (hlev : o.On "two_d_mode" → ∀ t, InPlane (w.motion t)) (hw : w.world = c.frames.world)
    (hb : w.base = c.frames.baseOut) (n : NavCfg) (hg : n.geo.Lawful) (hr : w.Real n.geo) (hl : n.par.useLocal = false)
    (hz : n.par.zeroAlt = true → ∀ t, (w.motion t).pos 2 = 0) (wd : Bool)
    (hy : wd = false → n.par.odomYaw = true → w.Bearing n.geo n.par (w.motion w.t0).eul)
    (ctl0 : Fin 6 → ℝ) (now : Int) (hn : 0 ≤ now) (d : Differ) (t : Nav.St) (ht : t.Initial n.par wd)
    (hd : wd = true → w.Marks n.geo n.par t.datum) (es : List Duo.Ev)
    (hti : Timely now (Duo.filterEvents (ekfView c.par) c.sys n
      { sys := Sys.start c.sys Q () ctl0 now d, nav := some t, odoms := [], gps := [] } es))
    (ha : Duo.Holds (ekfView c.par) c.sys n (TrueWorld c n w)
      { sys := Sys.start c.sys Q () ctl0 now d, nav := some t, odoms := [], gps := [] } es) :
    ∀ m ∈ (Duo.run (ekfView c.par) c.sys n { sys := Sys.start c.sys Q () ctl0 now d, nav := some t, odoms := [], gps := [] } es).2,
      Duo.Truth c n w m := by
  refine C121_together_partial h hu hcw hcb Q w hf hup hlev hw hb n hg hr hl hz wd hy ctl0 now d t ht hd es (duo_timely es _ now hn
    ⟨HInv.start c.cfg Q () ctl0 now, ?_, rfl⟩ hti ha)
  intro m hm
  have hm : m ∈ Q.elems Q.empty := hm
  rw [Q.elems_empty] at hm
  exact absurd hm (Multiset.notMem_zero m)

end RL
