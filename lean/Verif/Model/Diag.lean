import Mathlib.Data.Nat.Basic
/-! # Diagnostics, ros_filter.cpp:2474-2547 -/

namespace RL

/-- `static_diagnostics_`, `dynamic_diagnostics_` and their levels (ros_filter.hpp).  Levels are those of
diagnostic_msgs/DiagnosticStatus: OK 0, WARN 1, ERROR 2, STALE 3. -/
structure Diag where
  static : String → Option String
  dyn : String → Option String
  staticLevel : ℕ
  dynLevel : ℕ

/-- ros_filter.cpp:98-99: at start. -/
def Diag.init : Diag := { static := fun _ => none, dyn := fun _ => none, staticLevel := 0, dynLevel := 0 }

/-- ros_filter.cpp:2474-2487 `addDiagnostic`. -/
def Diag.add (d : Diag) (level : ℕ) (key msg : String) (isStatic : Bool) : Diag :=
  if isStatic then
    { d with static := fun k => if k = key then some msg else d.static k, staticLevel := max d.staticLevel level }
  else
    { d with dyn := fun k => if k = key then some msg else d.dyn k, dynLevel := max d.dynLevel level }

/-- What is reported: the level of the summary, and the messages by key. -/
structure DiagReport where
  level : ℕ
  static : String → Option String
  dyn : String → Option String

/-- ros_filter.cpp:2490-2547 `aggregateDiagnostics`. -/
def Diag.aggregate (d : Diag) : Diag × DiagReport :=
  ({ d with dyn := fun _ => none, dynLevel := 0 },
    { level := max d.staticLevel d.dynLevel, static := d.static, dyn := d.dyn })

/-- What happens to the diagnostics of a node. -/
inductive DiagEv where
  | add (level : ℕ) (key msg : String) (isStatic : Bool)
  | report

def Diag.step (d : Diag) : DiagEv → Diag
  | .add l k m s => d.add l k m s
  | .report => d.aggregate.1

def Diag.run (d : Diag) (es : List DiagEv) : Diag := es.foldl Diag.step d

end RL
