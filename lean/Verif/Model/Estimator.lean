import Mathlib.Data.Real.Basic
/-!
# The state buffer of `RobotLocalizationEstimator`

Model of `/repo/src/robot_localization_estimator.cpp`.  The buffer is a `boost::circular_buffer`, modelled by its
documented behaviour (`push_back`, `insert` and `set_capacity` on full buffers).  What a stored state holds is a
parameter `α`; stamps are real numbers (`double` without rounding and NaN).
-/

namespace RL.Est

/-- robot_localization_estimator.hpp:57-78 `EstimatorState`: stamp, and state with covariance. -/
structure Item (α : Type) where
  time : ℝ
  val : α

/-- `state_buffer_`: contents from `begin()` to `end()`, and capacity. -/
structure Buf (α : Type) where
  items : List (Item α)
  cap : ℕ

variable {α : Type}

/-- `circular_buffer::push_back`: a full buffer loses its first element; nothing is stored at capacity zero. -/
def Buf.pushBack (b : Buf α) (a : Item α) : Buf α :=
  if b.cap = 0 then b
  else if b.items.length < b.cap then { b with items := b.items ++ [a] }
  else { b with items := (b.items ++ [a]).tail }

/-- `circular_buffer::insert` before position `i`: a full buffer loses its first element, except that nothing happens
when the position is the beginning of a full buffer; nothing is stored at capacity zero. -/
def Buf.insertAt (b : Buf α) (i : ℕ) (a : Item α) : Buf α :=
  let l := b.items.take i ++ a :: b.items.drop i
  if b.items.length < b.cap then { b with items := l }
  else if i = 0 then b
  else { b with items := l.tail }

open Classical in
/-- robot_localization_estimator.cpp:75-93 `setState`. -/
noncomputable def Buf.setState (b : Buf α) (a : Item α) : Buf α :=
  match b.items.getLast? with
  | none => b.pushBack a
  | some l =>
    if a.time > l.time then b.pushBack a
    else match b.items.findIdx? (fun it => decide (a.time < it.time)) with
      | some i => b.insertAt i a
      | none => b

/-- robot_localization_estimator.cpp:151-154 `setBufferCapacity` via `circular_buffer::set_capacity`: on shrinking, the
last elements are removed.  A negative argument (converted to a huge unsigned one) makes boost throw and is not
modelled. -/
def Buf.setCapacity (b : Buf α) (n : ℕ) : Buf α := { items := b.items.take n, cap := n }

/-- robot_localization_estimator.cpp:156-159 `clearBuffer`. -/
def Buf.clear (b : Buf α) : Buf α := { b with items := [] }

/-- robot_localization_estimator.hpp:82-92 `EstimatorResult`, with the returned state. -/
inductive Result (α : Type) where
  | future (a : Item α)
  | interpolation (a : Item α)
  | past (a : Item α)
  | exact (a : Item α)
  | empty
  | failed

/-- The loop of robot_localization_estimator.cpp:114-134, over the buffer from the newest element on.  Left: exact hit;
right: last state before (if found) and next state after (if found). -/
noncomputable def scan (t : ℝ) : List (Item α) → Option (Item α) → Item α ⊕ (Option (Item α) × Option (Item α))
  | [], next => .inr (none, next)
  | it :: rest, next =>
    open Classical in
    if it.time = t then .inl it
    else if it.time ≤ t then .inr (some it, next)
    else scan t rest (some it)

/-- robot_localization_estimator.cpp:171-207: `extrapolate` and `interpolate` (which ignores its second state), for a
prediction `ext` of a stored state over a time in seconds. -/
def extrapolate (ext : α → ℝ → α) (a : Item α) (t : ℝ) : Item α := { time := t, val := ext a.val (t - a.time) }

/-- robot_localization_estimator.cpp:95-149 `getState`. -/
noncomputable def Buf.getState (b : Buf α) (ext : α → ℝ → α) (t : ℝ) : Result α :=
  if b.items.length = 0 then .empty
  else match scan t b.items.reverse none with
    | .inl it => .exact it
    | .inr (some p, some _) => .interpolation (extrapolate ext p t)
    | .inr (some p, none) => .future (extrapolate ext p t)
    | .inr (none, some n) => .past (extrapolate ext n t)
    | .inr (none, none) => .failed

/-- What can be done to the buffer. -/
inductive Op (α : Type) where
  | set (a : Item α)
  | capacity (n : ℕ)
  | clear

noncomputable def Buf.apply (b : Buf α) : Op α → Buf α
  | .set a => b.setState a
  | .capacity n => b.setCapacity n
  | .clear => b.clear

/-- The buffer of an estimator constructed with the given capacity after a sequence of operations. -/
noncomputable def Buf.run (cap : ℕ) (ops : List (Op α)) : Buf α := ops.foldl Buf.apply { items := [], cap := cap }

end RL.Est
