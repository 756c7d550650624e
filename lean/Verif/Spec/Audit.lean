import Verif.Model.Node
/-!
# An audit filter

A filter whose "state" is the log of what was done to it.  Used in examples and in refutations: if two runs leave
different logs, the calls made on the filter differ.
-/

namespace RL

inductive Entry where
  | init (z : Int)
  | predict (control delta : Int)
  | correct (z : Int)
  deriving DecidableEq, Repr

/-- The audit filter; controls and measurement contents are integers. -/
def Audit : Core where
  X := List Entry
  Cov := Unit
  Ext := Unit
  Par := Unit
  Ctl := Int
  Z := Int
  predict := fun _ c _ _ d s => (s.1 ++ [.predict c d], s.2)
  correct := fun z s => (s.1 ++ [.correct z], s.2)
  initX := fun z _ => [.init z]
  initCov := fun _ c => c
  zeroX := []
  setPoseCov := ()
  resetCov := ()
  resetPar := ()

instance : Subsingleton Audit.Ext := inferInstanceAs (Subsingleton Unit)
instance : DecidableEq Audit.X := inferInstanceAs (DecidableEq (List Entry))

/-- A sorted-list queue for it. -/
def AuditQ : MQueue Audit := PQueue.sortedList (Meas Audit) Meas.time

/-- A configuration: smoothing over `hist`, the rest off. -/
def auditCfg (smooth : Bool) (hist timeout : Int) : Cfg Audit where
  smooth := smooth
  historyLength := hist
  predictToCurrent := false
  useControl := false
  permitCorrected := false
  publishTf := true
  publishAccel := true
  sensorTimeout := timeout
  processNoise := ()
  initialCov := ()
  keptNoise := ()
  keptCov := ()
  initialState := []
  disabledAtStartup := false
  ctl0 := (0 : Int)

/-- A freshly started audit node. -/
def auditNode (cfg : Cfg Audit) : Node Audit AuditQ := Node.start cfg AuditQ () (0 : Int) 0

end RL
