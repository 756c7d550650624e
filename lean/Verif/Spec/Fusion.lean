import Verif.Model.Node
/-!
# What "in order fusion" means

Small vocabulary for the history properties of the node: which messages are accepted, and equality of estimates.
-/

namespace RL
variable {C : Core}

/-- Two filters hold the same estimate (they may only differ in the copy of the last predicted state, which is kept
for debugging and never read by the filter). -/
structure SameEst (f g : Filt C) : Prop where
  initialized : f.initialized = g.initialized
  x : f.x = g.x
  cov : f.cov = g.cov
  ext : f.ext = g.ext
  par : f.par = g.par
  ctl : f.ctl = g.ctl
  ctlTime : f.ctlTime = g.ctlTime
  lastTime : f.lastTime = g.lastTime
  sensorTimeout : f.sensorTimeout = g.sensorTimeout

/-- The measurements accepted from a sequence of messages: newer than the last `set_pose` (`sp`), not older than the
previous message of the same topic, and transformable.  `c`, `ct` are the control and its stamp recorded with them. -/
def arrivals (sp : Int) (c : C.Ctl) (ct : Int) : (String → Option Int) → List (Node.Event C) → List (Meas C)
  | _, [] => []
  | last, .sensor topic stamp z :: es =>
    if sp < stamp ∧ (∀ l, last topic = some l → l ≤ stamp) then
      let more := arrivals sp c ct (fun t => if t = topic then some stamp else last t) es
      match z with
      | some z => { time := stamp, topic := topic, z := z, ctl := c, ctlTime := ct } :: more
      | none => more
    else arrivals sp c ct last es
  | last, _ :: es => arrivals sp c ct last es

/-- A condition on (state, event) pairs that holds at every step of a run. -/
def Along {P : MQueue C} (cfg : Cfg C) (A : Node C P → Node.Event C → Prop) : Node C P → List (Node.Event C) → Prop
  | _, [] => True
  | n, e :: es => A n e ∧ Along cfg A (n.step cfg e).1 es

end RL
