import Verif.Model.Ekf
import Verif.Model.Node
/-! # Concrete EKF configurations and measurements, for examples and witnesses -/

namespace RL

/-- Velocity control on all axes with unit gains and limits, constant noise. -/
noncomputable def demoPar : FilterPar :=
  { useControl := true, ctlTimeout := 200000000, ctlUpd := fun _ => true, accLim := fun _ => 1, accGain := fun _ => 1
    decLim := fun _ => 1, decGain := fun _ => 1, dynamic := false }

/-- No control. -/
noncomputable def plainPar : FilterPar := { demoPar with useControl := false, ctlUpd := fun _ => false }

noncomputable def demoCfg (p : FilterPar) : Cfg (ekfCore p) :=
  { smooth := true, historyLength := 1000, predictToCurrent := false, useControl := p.useControl, permitCorrected := false
    publishTf := true, publishAccel := true, sensorTimeout := 100, processNoise := defaultQ
    initialCov := (1e-9 : ℝ) • (1 : Mat15), keptNoise := defaultQ, keptCov := (1e-9 : ℝ) • (1 : Mat15)
    initialState := some 0, disabledAtStartup := false, ctl0 := (0 : Fin 6 → ℝ) }

/-- A measurement of the variables selected by `upd`, with the given values and unit covariance. -/
def demoZ (upd : Fin 15 → Bool) (z : Fin 15 → Dbl) : Payload := { upd := upd, z := z, R := 1, thresh := .unlimited }

noncomputable def demoQ (p : FilterPar) : MQueue (ekfCore p) := PQueue.sortedList _ _

noncomputable def demoNode (p : FilterPar) : Node (ekfCore p) (demoQ p) :=
  Node.start (demoCfg p) (demoQ p) () (0 : Fin 6 → ℝ) 0

end RL
