import Verif.Model.System
import Verif.Model.Navsat
/-!
# The filter node and `navsat_transform` together

As in `/repo/launch/dual_ekf_navsat_example.launch.py:45-66` and `/repo/params/dual_ekf_navsat_example.yaml:51-150`:
`navsat_transform` takes the odometry the filter sends (navsat_transform.cpp:187-190), the filter takes the odometry
`navsat_transform` sends (203-204) at one of its inputs.

Simplified: messages between the two may be lost, overtake each other or arrive more than once.  A message of the filter with
content that is not finite does not arrive.
-/

namespace RL

/-- The two nodes and what they have sent each other.  `nav` is `none` after an exception has ended the node. -/
structure Duo (C : Core) (P : MQueue C) where
  sys : Sys C P
  nav : Option Nav.St
  odoms : List OdomMsg
  gps : List OdomMsg

/-- The settings of `navsat_transform`. -/
structure NavCfg where
  geo : Nav.Geo
  par : Nav.Par
  broadcast : Bool
  asParent : Bool

/-- What may happen: something to the filter, something to `navsat_transform`, message number `k` of the filter arrives at
`navsat_transform`, message number `k` of `navsat_transform` arrives at odometry input `i` of the filter. -/
inductive Duo.Ev where
  | filter (e : Sys.Ev)
  | nav (e : Nav.Ev)
  | toNav (buf : TfBuffer) (k : ℕ)
  | toFilter (i : ℕ) (buf : TfBuffer) (junk : State) (k : ℕ)

/-- What is sent. -/
inductive Duo.Sent where
  | filter (m : RL.Sent)
  | nav (m : Nav.Out)

/-- The odometry of the filter as `navsat_transform` reads it (navsat_transform.cpp:736-757, 915-941). -/
def OdomMsg.heard (m : OdomMsg) : Nav.OdoMsg :=
  { frame := m.frame, child := m.child, stamp := m.stamp, pos := m.pos, ori := m.ori, cov := m.poseCov }

/-- navsat_transform.cpp:499-520 and 846-856: odometry/gps.  The orientation is the identity; the child frame and the
velocities keep their default values. -/
def gpsMessage (pos : V3) (cov : M6) (stamp : Int) (frame : String) : OdomMsg :=
  { frame := frame, child := "", stamp := stamp, pos := pos, ori := ⟨0, 0, 0, 1⟩, poseCov := copyOut6 cov
    lin := fun _ => .fin 0, ang := fun _ => .fin 0, twistCov := fun _ => 0 }

/-- The odometry among what the filter sends (ros_filter.cpp:2076-2078, 2240). -/
def odomsOf (ms : List Sent) : List OdomMsg :=
  ms.filterMap fun m => match m with
    | .odom _ (some m) => some m
    | _ => none

/-- The odometry among what `navsat_transform` sends (navsat_transform.cpp:236-238). -/
def gpsOf (ms : List Nav.Out) : List OdomMsg :=
  ms.filterMap fun m => match m with
    | .gpsOdom pos cov stamp frame => some (gpsMessage pos cov stamp frame)
    | _ => none

namespace Duo
variable {C : Core} {P : MQueue C} (V : View C) (g : SysCfg C) (n : NavCfg)

/-- Something happens to the filter. -/
noncomputable def stepFilter (s : Duo C P) (e : Sys.Ev) : Duo C P × List Sent :=
  let r := s.sys.step V g e
  ({ s with sys := r.1, odoms := s.odoms ++ odomsOf r.2 }, r.2.map .filter)

/-- Something happens to `navsat_transform`. -/
noncomputable def stepNav (s : Duo C P) (e : Nav.Ev) : Duo C P × List Sent :=
  match s.nav with
  | none => (s, [])
  | some t =>
    let r := Nav.step n.geo n.par n.broadcast n.asParent t e
    ({ s with nav := r.st, gps := s.gps ++ gpsOf r.outs }, r.outs.map .nav)

/-- One step. -/
noncomputable def step (s : Duo C P) : Ev → Duo C P × List Sent
  | .filter e => s.stepFilter V g e
  | .nav e => s.stepNav n e
  | .toNav buf k =>
    match s.odoms[k]? with
    | some m => s.stepNav n (.odom buf m.heard)
    | none => (s, [])
  | .toFilter i buf junk k =>
    match s.gps[k]? with
    | some m => s.stepFilter V g (.odom i buf junk m)
    | none => (s, [])

/-- A run and what is sent. -/
noncomputable def run (s : Duo C P) : List Ev → Duo C P × List Sent
  | [] => (s, [])
  | e :: es =>
    let r := s.step V g n e
    let r' := run r.1 es
    (r'.1, r.2 ++ r'.2)

end Duo
end RL
