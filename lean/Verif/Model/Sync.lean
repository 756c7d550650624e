import Verif.Model.Listener
/-!
# How the listener gets its messages

Model of the subscriptions and of the synchroniser of `RosRobotLocalizationListener`
(`/repo/src/ros_robot_localization_listener.cpp:71-75, 146-149`,
`/repo/include/robot_localization/ros_robot_localization_listener.hpp:172-181`).  `message_filters::TimeSynchronizer` is
not in the repository; its policy `ExactTime` is modelled here from its published source.  A message that arrives at the
subscription is given to the synchroniser once; messages that the middleware loses do not arrive.
-/

namespace RL.Sync

/-- `ExactTime::tuples_`, a `std::map` from stamps to what has arrived with them: a list in the order of the stamps. -/
abbrev Tuples (A B : Type) := List (Int × Option A × Option B)

variable {A B : Type}

/-- `tuples_[t]` followed by an assignment to a part of the entry: a missing entry is made. -/
def put (f : Option A × Option B → Option A × Option B) (t : Int) : Tuples A B → Tuples A B
  | [] => [(t, f (none, none))]
  | e :: r =>
    if t < e.1 then (t, f (none, none)) :: e :: r
    else if t = e.1 then (t, f e.2) :: r
    else e :: put f t r

/-- `ExactTime::checkTuple`: when both messages of stamp `t` are there they are passed on, and everything up to this
stamp is removed (`clearOldTuples`); then the oldest entries are dropped until at most `size` are left. -/
def check (size : ℕ) (t : Int) (m : Tuples A B) : Tuples A B × List (A × B) :=
  match m.lookup t with
  | some (some a, some b) =>
    let m' := (m.filter fun e => decide (e.1 ≠ t)).dropWhile fun e => decide (e.1 ≤ t)
    (m'.drop (m'.length - size), [(a, b)])
  | _ => (m.drop (m.length - size), [])

/-- `ExactTime::add<0>`. -/
def addFst (size : ℕ) (t : Int) (a : A) (m : Tuples A B) : Tuples A B × List (A × B) :=
  check size t (put (fun v => (some a, v.2)) t m)

/-- `ExactTime::add<1>`. -/
def addSnd (size : ℕ) (t : Int) (b : B) (m : Tuples A B) : Tuples A B × List (A × B) :=
  check size t (put (fun v => (v.1, some b)) t m)

/-- A message that arrives at the listener. -/
inductive Arrival where
  | odom (o : OdomMsg)
  | accel (a : AccelMsg)

/-- ros_robot_localization_listener.cpp:75: the synchroniser of the listener keeps ten stamps. -/
def queueSize : ℕ := 10

/-- One message arrives. -/
def arrive (m : Tuples OdomMsg AccelMsg) : Arrival → Tuples OdomMsg AccelMsg × List (OdomMsg × AccelMsg)
  | .odom o => addFst queueSize o.stamp o m
  | .accel a => addSnd queueSize a.stamp a m

/-- Many messages arrive: what is kept, and the pairs `odomAndAccelCallback` is called with. -/
def arriveAll : Tuples OdomMsg AccelMsg → List Arrival → Tuples OdomMsg AccelMsg × List (OdomMsg × AccelMsg)
  | m, [] => (m, [])
  | m, e :: es =>
    let r := arrive m e
    let r' := arriveAll r.1 es
    (r'.1, r.2 ++ r'.2)

/-- The calls of `odomAndAccelCallback` of a new listener. -/
def calls (es : List Arrival) : List (OdomMsg × AccelMsg) := (arriveAll [] es).2

/-- A listener with a buffer of `size` states after messages have arrived (146-149). -/
noncomputable def listener (size : ℕ) (es : List Arrival) : Listen.Listener :=
  (calls es).foldl (fun l m => l.callback m.1 m.2) (Listen.Listener.new size)

/-- ros_filter.cpp:2078, 2084: the names under which a filter node publishes. -/
def nodeTopics : List String := ["odometry/filtered", "accel/filtered"]

/-- ros_robot_localization_listener.cpp:73-74: the names under which the listener subscribes. -/
def listenerTopics : List String := ["odom/filtered", "acceleration/filtered"]

/-- A relative name in a namespace (rcl, without remapping). -/
def resolve (ns name : String) : String := ns ++ "/" ++ name

end RL.Sync
