import Verif.Model.Params
import Verif.Model.Output
/-!
# Times, frames and initial state in `loadParams`, and the diagnostics of `copyCovariance`

Model of `/repo/src/ros_filter.cpp:850-960, 965-972, 1078-1091` and `2550-2604`.
-/

namespace RL

/-- `static_cast<int64_t>` of a number: truncation; undefined (`none`) outside the range. -/
noncomputable def toInt64 (v : ℝ) : Option Int :=
  let r : Int := if 0 ≤ v then ⌊v⌋ else ⌈v⌉
  if -9223372036854775808 ≤ r ∧ r ≤ 9223372036854775807 then some r else none

/-- `rclcpp::Duration::from_seconds`: nanoseconds. -/
noncomputable def fromSeconds (s : ℝ) : Option Int := toInt64 (s * 1000000000)

/-- The parameters with times: `none` for a parameter that is not set.  (A `frequency` of zero is not modelled.) -/
structure TimeParams where
  frequency : Option ℝ
  sensorTimeout : Option ℝ
  historyLength : Option ℝ
  controlTimeout : Option ℝ

structure TimeSettings where
  sensorTimeout : Int
  historyLength : Int
  controlTimeout : Int

/-- ros_filter.cpp:931-937, 944-960, 966, 973: the value computed for `control_timeout` at 966 (the sensor timeout) is
overwritten at 973 by the parameter or its default 0. -/
noncomputable def loadTimes (p : TimeParams) : Option TimeSettings := do
  let s ← fromSeconds (p.sensorTimeout.getD (1 / p.frequency.getD 30))
  let h ← fromSeconds |p.historyLength.getD 0|
  let c ← fromSeconds (p.controlTimeout.getD 0)
  return { sensorTimeout := s, historyLength := h, controlTimeout := c }

/-- ros_filter.cpp:1778-1782 and filter_base.cpp:275-291: what the filter gets to know about control. -/
def controlPar (t : TimeSettings) (useControl : Bool) (upd : Fin 6 → Bool) (accLim accGain decLim decGain : Fin 6 → ℝ)
    (dynamic : Bool) : FilterPar :=
  { useControl := useControl, ctlTimeout := t.controlTimeout, ctlUpd := upd, accLim := accLim, accGain := accGain
    decLim := decLim, decGain := decGain, dynamic := dynamic }

/-- ros_filter.cpp:1078-1091: the state of the filter after the parameter `initial_state` has been read. -/
def initialState (param : Option (List ℝ)) : State :=
  match param with
  | some l => if l.length ≠ 15 then 0 else fun i => l.getD i.val 0
  | none => 0

/-- The frame parameters. -/
structure FrameParams where
  map : Option String
  odom : Option String
  base : Option String
  baseOut : Option String
  world : Option String

/-- ros_filter.cpp:850-888 (without prefix: 900-912 change nothing, see C60). -/
def loadFrames (p : FrameParams) : Frames :=
  let odom := p.odom.getD "odom"
  let base := p.base.getD "base_link"
  { map := p.map.getD "map", odom := odom, base := base, baseOut := p.baseOut.getD base, world := p.world.getD odom }

/-- ros_filter.cpp:888-898: whether the configuration of the frames is reported as invalid.  Nothing else is done about
it. -/
def framesInvalid (fr : Frames) : Bool :=
  decide (fr.map = fr.odom ∨ fr.odom = fr.base ∨ fr.map = fr.base ∨ fr.odom = fr.baseOut ∨ fr.map = fr.baseOut)

/-- What `copyCovariance` complains about. -/
inductive CovIssue where
  | large (i j : ℕ)
  | zero (i : ℕ)
  | negative (i : ℕ)

/-- ros_filter.cpp:2560-2600, one entry.  The second and third test use the update flag of `i`, not of `offset + i`. -/
noncomputable def covIssue (upd : Fin 15 → Bool) (offset : ℕ) (i j : ℕ) (v : ℝ) : Option CovIssue :=
  let u (k : ℕ) : Bool := if h : k < 15 then upd ⟨k, h⟩ else false
  open Classical in
  if v > 1000 ∧ (u (offset + i) = true ∨ u (offset + j) = true) then some (.large i j)
  else if u i = true ∧ i = j ∧ v = 0 then some (.zero i)
  else if u i = true ∧ i = j ∧ v < 0 then some (.negative i)
  else none

/-- ros_filter.cpp:2556-2602: all complaints about the covariance of a message, in order. -/
noncomputable def covIssues (upd : Fin 15 → Bool) (offset dim : ℕ) (m : Matrix (Fin dim) (Fin dim) ℝ) : List CovIssue :=
  (List.finRange dim).flatMap fun i => (List.finRange dim).filterMap fun j => covIssue upd offset i.val j.val (m i j)

end RL
