import Verif.Model.Params
import Verif.Model.Ekf
/-! # The control parameters the filter works with -/

namespace RL

/-- ros_filter.cpp:1776-1782 and filter_base.cpp:275-290 `setControlParams`, for the settings left after all parameters
were read (`finalControl`): `use_control_` of the filter stays false unless the node calls it (filter_base.cpp:49).  An
element that is missing reads as `0` or `false` here; `controlAccesses` says when that happens. -/
def ControlSettings.filterPar (s : ControlSettings) (timeout : Int) (dynamic : Bool) : FilterPar :=
  { useControl := s.useControl
    ctlTimeout := timeout
    ctlUpd := fun c => s.upd.getD c.val false
    accLim := fun c => s.accLimits.getD c.val 0
    accGain := fun c => s.accGains.getD c.val 0
    decLim := fun c => s.decLimits.getD c.val 0
    decGain := fun c => s.decGains.getD c.val 0
    dynamic := dynamic }

end RL
