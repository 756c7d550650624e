import Verif.Proofs.System
/-! # What a node sends after its first measurement -/

namespace RL

variable {C : Core}

theorem PQueue.top_push_empty {M : Type} {time : M → Int} (P : PQueue M time) (m : M) : P.top (P.push P.empty m) = some m := by
  have e : P.elems (P.push P.empty m) = {m} := by
    rw [P.elems_push, P.elems_empty]
    rfl
  cases h : P.top (P.push P.empty m) with
  | none =>
    rw [(P.top_none _).1 h] at e
    exact absurd e.symm (Multiset.singleton_ne_zero m)
  | some x =>
    have hp := P.elems_pop _ _ h
    have : x ∈ P.elems (P.push P.empty m) := by
      rw [← hp]
      exact Multiset.mem_cons_self _ _
    rw [e, Multiset.mem_singleton] at this
    rw [this]

theorem PQueue.pop_push_empty {M : Type} {time : M → Int} (P : PQueue M time) (m : M) : P.top (P.pop (P.push P.empty m)) = none := by
  have hp := P.elems_pop _ _ (P.top_push_empty m)
  rw [P.elems_push, P.elems_empty] at hp
  rw [P.top_none]
  exact (Multiset.cons_inj_right m).1 hp

theorem PQueue.size_push_empty {M : Type} {time : M → Int} (P : PQueue M time) (m : M) : P.size (P.push P.empty m) = 1 := by
  unfold PQueue.size
  rw [P.elems_push, P.elems_empty]
  rfl

/-- The filter after the first measurement, and that something is sent.  `l` are the stamps of earlier messages that made no
measurement. -/
theorem Node.first_advance (cfg : Cfg C) (P : MQueue C) (ext0 : C.Ext) (fctl0 : C.Ctl) (t0 : Int) (topic : String) (stamp : Int)
    (l : String → Option Int) (hl : (l topic).getD stamp ≤ stamp) (z : C.Z) (now now2 : Int) (h0 : 0 < stamp) (hn : stamp ≤ now) (hp : cfg.predictToCurrent = false) :
    let a := (({ Node.start cfg P ext0 fctl0 t0 with lastMsg := l }.sensor topic stamp (some z)).advance cfg now now2)
    a.filt.initialized = true ∧ a.filt.x = C.initX z cfg.initialState ∧ a.filt.cov = C.initCov z cfg.initialCov ∧
      a.filt.lastTime = stamp ∧ a.lastPub = 0 := by
  have e : ({ Node.start cfg P ext0 fctl0 t0 with lastMsg := l }.sensor topic stamp (some z)) =
      { Node.start cfg P ext0 fctl0 t0 with
        queue := P.push P.empty { time := stamp, topic := topic, z := z, ctl := cfg.ctl0, ctlTime := 0 }
        lastMsg := fun t => if t = topic then some stamp else l t } := by
    unfold Node.sensor
    rw [if_neg (show ¬ (Node.start cfg P ext0 fctl0 t0).lastSetPose ≥ stamp from not_le.2 h0)]
    dsimp only
    rw [if_pos hl]
    rfl
  rw [e]
  unfold Node.advance
  rw [if_pos (show (Node.start cfg P ext0 fctl0 t0).toggledOn = true from rfl)]
  unfold Node.integrate
  dsimp only [Node.start]
  rw [P.top_push_empty]
  have hd : ∀ (n : Node C P) (r : Int), n.queue = P.push P.empty { time := stamp, topic := topic, z := z, ctl := cfg.ctl0, ctlTime := 0 } →
      n.filt.initialized = false → n.filt.x = cfg.initialState → n.filt.cov = cfg.initialCov → n.lastPub = 0 →
      let b := Node.drain cfg now (P.size n.queue) r n
      b.filt.initialized = true ∧ b.filt.x = C.initX z cfg.initialState ∧ b.filt.cov = C.initCov z cfg.initialCov ∧
        b.filt.lastTime = stamp ∧ b.lastPub = 0 := by
    intro n r hq hi hx hc hl
    dsimp only
    rw [hq, P.size_push_empty]
    unfold Node.drain
    rw [hq, P.top_push_empty]
    dsimp only
    rw [if_neg (not_lt.2 hn)]
    unfold Node.drain
    dsimp only
    have key : ∀ f : Filt C, f.initialized = false → f.x = cfg.initialState → f.cov = cfg.initialCov →
        let f' := f.processMeasurement { time := stamp, topic := topic, z := z, ctl := cfg.ctl0, ctlTime := 0 }
        f'.initialized = true ∧ f'.x = C.initX z cfg.initialState ∧ f'.cov = C.initCov z cfg.initialCov ∧ f'.lastTime = stamp := by
      intro f h1 h2 h3
      dsimp only
      unfold Filt.processMeasurement
      rw [h1]
      simp [h2, h3]
    split
    · obtain ⟨a, b, c, d⟩ := key (n.filt.setControl cfg.ctl0 0) hi hx hc
      exact ⟨a, b, c, d, hl⟩
    · obtain ⟨a, b, c, d⟩ := key n.filt hi hx hc
      exact ⟨a, b, c, d, hl⟩
  simp only [hp, Bool.and_false, Bool.false_eq_true, if_false]
  have ind : ∀ (p : Prop) [Decidable p] (a b : Node C P × Int) (X : Node C P × Int → Prop), X a → X b → X (if p then a else b) := by
    intro p _ a b X ha hb
    split
    · exact ha
    · exact hb
  refine ind _ _ _ (fun r => let b := Node.drain cfg now (P.size r.1.queue) r.2 r.1
      b.filt.initialized = true ∧ b.filt.x = C.initX z cfg.initialState ∧ b.filt.cov = C.initCov z cfg.initialCov ∧
        b.filt.lastTime = stamp ∧ b.lastPub = 0) ?_ ?_
  · exact hd _ _ rfl rfl rfl rfl rfl
  · exact hd _ _ rfl rfl rfl rfl rfl

/-- The odometry message of the first cycle. -/
theorem Node.first_out (cfg : Cfg C) (P : MQueue C) (ext0 : C.Ext) (fctl0 : C.Ctl) (t0 : Int) (topic : String) (stamp : Int)
    (l : String → Option Int) (hl : (l topic).getD stamp ≤ stamp) (z : C.Z) (now now2 : Int) (tfOk : Bool) (h0 : 0 < stamp) (hn : stamp ≤ now) (hp : cfg.predictToCurrent = false)
    (he : cfg.disabledAtStartup = false) :
    Out.odom stamp (C.initX z cfg.initialState) (C.initCov z cfg.initialCov) ∈
      (({ Node.start cfg P ext0 fctl0 t0 with lastMsg := l }.sensor topic stamp (some z)).periodic cfg now now2 tfOk).2 := by
  obtain ⟨h1, h2, h3, h4, h5⟩ := Node.first_advance cfg P ext0 fctl0 t0 topic stamp l hl z now now2 h0 hn hp
  have hen : ({ Node.start cfg P ext0 fctl0 t0 with lastMsg := l }.sensor topic stamp (some z)).enabled = true := by
    have h3 : (Node.start cfg P ext0 fctl0 t0).enabled = true := by simp [Node.start, he]
    unfold Node.sensor
    rw [if_neg (show ¬ (Node.start cfg P ext0 fctl0 t0).lastSetPose ≥ stamp from not_le.2 h0)]
    dsimp only
    rw [if_pos hl]
    exact h3
  unfold Node.periodic
  rw [hen]
  simp only [Bool.not_true, Bool.false_eq_true, if_false]
  unfold Node.publish
  rw [if_pos h1]
  simp only [h2, h3, h4, h5]
  rw [decide_eq_false (not_le.2 h0)]
  simp

/-- The odometry message of a node whose first message made the measurement `z`. -/
theorem Sys.first_sent {P : MQueue C} (V : View C) (g : SysCfg C) (ext0 : C.Ext) (fctl0 : C.Ctl) (t0 : Int) (d : Differ)
    (e : Sys.Ev) (topic : String) (stamp : Int) (z : C.Z) (now now2 : Int) (buf : TfBuffer) (h0 : 0 < stamp) (hn : stamp ≤ now)
    (hp : g.cfg.predictToCurrent = false) (hen : g.cfg.disabledAtStartup = false)
    (he : (Sys.start g P ext0 fctl0 t0 d).events V g e = [.sensor topic stamp (some z)]) :
    Sent.odom stamp ((V.state (C.initX z g.cfg.initialState)).bind fun y =>
        odomMessage g.frames true y (V.cov (C.initCov z g.cfg.initialCov)) stamp) ∈
      ((Sys.start g P ext0 fctl0 t0 d).run V g [e, .tick now now2 buf]).2 := by
  have hs := ((Sys.start g P ext0 fctl0 t0 d).step_eq V g e).1
  rw [he] at hs
  have hs' : ((Sys.start g P ext0 fctl0 t0 d).step V g e).1.hub.node = (Node.start g.cfg P ext0 fctl0 t0).sensor topic stamp (some z) := hs
  have ho : Out.odom stamp (C.initX z g.cfg.initialState) (C.initCov z g.cfg.initialCov) ∈
      (((Node.start g.cfg P ext0 fctl0 t0).sensor topic stamp (some z)).periodic g.cfg now now2 (Sys.tfDue g.frames buf)).2 :=
    Node.first_out g.cfg P ext0 fctl0 t0 topic stamp (fun _ => none) le_rfl z now now2 (Sys.tfDue g.frames buf) h0 hn hp hen
  rw [← hs'] at ho
  show _ ∈ _ ++ (_ ++ [])
  rw [List.append_nil]
  refine List.mem_append_right _ ?_
  rw [((Sys.step V g (Sys.start g P ext0 fctl0 t0 d) e).1.step_eq V g (.tick now now2 buf)).2]
  refine List.mem_map.2 ⟨.odom stamp (C.initX z g.cfg.initialState) (C.initCov z g.cfg.initialCov), ?_, rfl⟩
  show _ ∈ _ ++ []
  rw [List.append_nil]
  exact ho

end RL
