import Verif.Model.Navsat
/-!
# The function `UTM`

Model of the series in `/repo/include/robot_localization/navsat_conversions.hpp`, with exact arithmetic.  At the poles,
where `tan` is undefined, it has no meaning.
-/

namespace RL.Nav

/-- navsat_conversions.hpp:71 `WGS84_A` -/
noncomputable def wgsA : ℝ := 6378137.0
/-- navsat_conversions.hpp:74, 82 `UTM_E2` -/
noncomputable def utmE2 : ℝ := 0.0818191908 * 0.0818191908
/-- navsat_conversions.hpp:83 `UTM_E4` -/
noncomputable def utmE4 : ℝ := utmE2 * utmE2
/-- navsat_conversions.hpp:84 `UTM_E6` -/
noncomputable def utmE6 : ℝ := utmE4 * utmE2
/-- navsat_conversions.hpp:85 `UTM_EP2` -/
noncomputable def utmEP2 : ℝ := utmE2 / (1 - utmE2)

/-- navsat_conversions.hpp:99-100 `m0` -/
noncomputable def utmM0 : ℝ := 1 - utmE2 / 4 - 3 * utmE4 / 64 - 5 * utmE6 / 256
/-- navsat_conversions.hpp:101-102 `m1` -/
noncomputable def utmM1 : ℝ := -(3 * utmE2 / 8 + 3 * utmE4 / 32 + 45 * utmE6 / 1024)
/-- navsat_conversions.hpp:103 `m2` -/
noncomputable def utmM2 : ℝ := 15 * utmE4 / 256 + 45 * utmE6 / 1024
/-- navsat_conversions.hpp:104 `m3` -/
noncomputable def utmM3 : ℝ := -(35 * utmE6 / 3072)

/-- navsat_conversions.hpp:96-142 `UTM`: easting and northing of a place given in degrees. -/
noncomputable def utm (lat lon : ℝ) : ℝ × ℝ :=
  let rlat := lat * (Real.pi / 180)
  let rlon := lon * (Real.pi / 180)
  let rlon0 := (centralMeridian lon : ℝ) * (Real.pi / 180)
  let slat := Real.sin rlat
  let clat := Real.cos rlat
  let tlat := Real.tan rlat
  let fn : ℝ := if lat > 0 then 0 else 10000000
  let T := tlat * tlat
  let C := utmEP2 * clat * clat
  let A := (rlon - rlon0) * clat
  let M := wgsA * (utmM0 * rlat + utmM1 * Real.sin (2 * rlat) + utmM2 * Real.sin (4 * rlat) + utmM3 * Real.sin (6 * rlat))
  let V := wgsA / Real.sqrt (1 - utmE2 * slat * slat)
  (500000 + 0.9996 * V * (A + (1 - T + C) * A ^ 3 / 6 + (5 - 18 * T + T * T + 72 * C - 58 * utmEP2) * A ^ 5 / 120),
   fn + 0.9996 * (M + V * tlat * (A * A / 2 + (5 - T + 9 * C + 4 * C * C) * A ^ 4 / 24 +
    (61 - 58 * T + T * T + 600 * C - 330 * utmEP2) * A ^ 6 / 720)))

end RL.Nav
