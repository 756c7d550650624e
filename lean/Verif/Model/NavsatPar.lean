import Verif.Model.Navsat
import Verif.Model.Settings
/-!
# The parameters of `NavSatTransform`

Model of the constructor, `/repo/src/navsat_transform.cpp:66-223`.  Parameters are read by name from the ones the user has
set.  `none`: an exception (a parameter of the wrong type, a period that cannot be represented) or undefined behaviour ends
the node before it starts.  Topics, their quality of service and the name of the node are not modelled.
-/

namespace RL.Nav

/-- A parameter value as it is written in a parameter file. -/
inductive PVal where
  | bool (b : Bool)
  | int (n : Int)
  | double (x : ℝ)
  | doubles (l : List ℝ)
  | bools (l : List Bool)
  | string (s : String)

/-- The parameters that the user has set. -/
abbrev Given := String → Option PVal

/-- `declare_parameter(name, default)` for a `bool`: the value set, or the default.  A value of another type is an
exception. -/
def Given.bool (o : Given) (name : String) (dflt : Bool) : Option Bool :=
  match o name with
  | none => some dflt
  | some (.bool b) => some b
  | some _ => none

/-- The same for a `double`. -/
def Given.double (o : Given) (name : String) (dflt : ℝ) : Option ℝ :=
  match o name with
  | none => some dflt
  | some (.double x) => some x
  | some _ => none

/-- The same for a `std::vector<double>`. -/
def Given.doubles (o : Given) (name : String) (dflt : List ℝ) : Option (List ℝ) :=
  match o name with
  | none => some dflt
  | some (.doubles l) => some l
  | some _ => none

/-- navsat_transform.cpp:118-143: a deprecated name is read first; the new one only when the value is still false. -/
def Given.renamed (o : Given) (old new : String) : Option Bool := do
  let b ← o.bool old false
  if b then return true else o.bool new b

/-- navsat_transform.cpp:159-186: the datum of the parameters; without three numbers it is at latitude and longitude
zero. -/
noncomputable def paramDatum (l : List ℝ) : GeoPose :=
  let (lat, lon, yaw) := match l with
    | [a, b, c] => (a, b, c)
    | _ => ((0 : ℝ), (0 : ℝ), (0 : ℝ))
  { lat := lat, lon := lon, alt := 0, ori := Quat.ofRPY 0 0 yaw }

/-- navsat_transform.cpp:158-187: `datumCallback` is called with the datum of the parameters when there is to be one. -/
noncomputable def Given.datum (o : Given) (wait : Bool) : Option (Option GeoPose) :=
  if wait then (o.doubles "datum" []).map (some ∘ paramDatum) else some none

/-- navsat_transform.cpp:219-220 `create_wall_timer` with `1.0 / frequency` seconds; nanoseconds. -/
noncomputable def timerPeriod (frequency : ℝ) : Option Int :=
  open Classical in
  if 0 < frequency ∧ 1000000000 / frequency ≤ 9223372036854775807 then some ⌊1000000000 / frequency⌋ else none

/-- What the constructor has found out. -/
structure Conf where
  par : Par
  broadcast : Bool
  asParent : Bool
  wait : Bool
  /-- the argument of `datumCallback`, when it is called -/
  datum : Option GeoPose
  /-- how long it sleeps, in whole seconds -/
  sleep : Int
  /-- the period of the timer in nanoseconds -/
  period : Int

/-- navsat_transform.cpp:104-220. -/
noncomputable def construct (o : Given) : Option Conf := do
  let declination ← o.double "magnetic_declination_radians" 0
  let yawOffset ← o.double "yaw_offset" 0
  let zeroAlt ← o.bool "zero_altitude" false
  let publishGps ← o.bool "publish_filtered_gps" true
  let odomYaw ← o.bool "use_odometry_yaw" false
  let wait ← o.bool "wait_for_datum" false
  let useLocal ← o.bool "use_local_cartesian" false
  let frequency ← o.double "frequency" 10
  let delay ← o.double "delay" 0
  let _timeout ← o.double "transform_timeout" 0
  let broadcast ← o.renamed "broadcast_utm_transform" "broadcast_cartesian_transform"
  let asParent ← o.renamed "broadcast_utm_transform_as_parent_frame_" "broadcast_cartesian_transform_as_parent_frame"
  let datum ← o.datum wait
  -- 215-217, `duration_cast<seconds>`
  let sleep ← toInt64 delay
  let period ← timerPeriod frequency
  return { par := { declination := declination, yawOffset := yawOffset, zeroAlt := zeroAlt, publishGps := publishGps
                    odomYaw := odomYaw, useLocal := useLocal }
           broadcast := broadcast, asParent := asParent, wait := wait, datum := datum, sleep := sleep, period := period }

/-- The state that the constructor leaves: the members as in navsat_transform.cpp:66-93, and the datum. -/
structure Constructed (c : Conf) (s : St) : Prop where
  init : s.Initial c.par c.wait
  datum : ∀ d, c.datum = some d → s.datum = d
  base : s.base = "base_link"
  world : s.world = "odom"
  gpsFrame : s.gpsFrame = ""

end RL.Nav
