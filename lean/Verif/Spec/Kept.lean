import Verif.Model.Ekf
import Verif.Model.Node
/-! # What a node keeps of the covariance parameters -/

namespace RL

/-- The matrices that a node restores on `reset` are the ones the filter started with, or zero (for a parameter that is
not set: ros_filter.cpp:1841).  `C102_kept` proves it of every node that starts. -/
structure Cfg.Kept {p : FilterPar} (cfg : Cfg (ekfCore p)) : Prop where
  noise : cfg.keptNoise = cfg.processNoise ∨ cfg.keptNoise = (0 : Mat15)
  cov : cfg.keptCov = cfg.initialCov ∨ cfg.keptCov = (0 : Mat15)

theorem Cfg.Kept.noise_cases {p : FilterPar} {cfg : Cfg (ekfCore p)} (h : cfg.Kept) {par : Mat15}
    (hp : par = cfg.processNoise ∨ par = cfg.keptNoise) : par = cfg.processNoise ∨ par = 0 := by
  rcases hp with h1 | h1
  · exact Or.inl h1
  · exact h.noise.imp (fun h' => h1.trans h') (fun h' => h1.trans h')

end RL
