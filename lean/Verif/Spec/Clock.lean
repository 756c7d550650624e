import Verif.Model.Node
/-! # Runs under a clock that does not go back -/

namespace RL
variable {C : Core}

/-- The clock readings inside the events never decrease, starting from reading `k`. -/
def Clocked : Int → List (Node.Event C) → Prop
  | _, [] => True
  | k, .tick now now2 _ :: es => k ≤ now ∧ now ≤ now2 ∧ Clocked now2 es
  | k, .setPose _ now _ :: es => k ≤ now ∧ Clocked now es
  | k, _ :: es => Clocked k es

/-- The last clock reading. -/
def clockAfter : Int → List (Node.Event C) → Int
  | k, [] => k
  | _, .tick _ now2 _ :: es => clockAfter now2 es
  | _, .setPose _ now _ :: es => clockAfter now es
  | k, _ :: es => clockAfter k es

end RL
