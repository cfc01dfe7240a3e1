import Mathlib.Analysis.SpecialFunctions.Complex.Arg
import Mathlib.Analysis.SpecialFunctions.Sqrt
import Mathlib.LinearAlgebra.Matrix.NonsingularInverse

/-!
# Geographic coordinates

Model of /repo/opensfm/geo.py. Numbers are reals (the code uses doubles, also arrays of them, on
which the functions act elementwise). A division by zero, an infinity or NaN in the code, has Lean's
value 0.
-/
set_option linter.unusedSectionVars false
namespace Verif.Geo

/-- `WGS84_a` (geo.py 9). -/
noncomputable def wgsA : ℝ := 6378137

/-- `WGS84_b` (geo.py 10). -/
noncomputable def wgsB : ℝ := 6356752.314245

/-- `np.radians`. -/
noncomputable def radians (d : ℝ) : ℝ := d * Real.pi / 180

/-- `np.degrees`. -/
noncomputable def degrees (r : ℝ) : ℝ := r * 180 / Real.pi

/-- `np.arctan2(y, x)`. -/
noncomputable def arctan2 (y x : ℝ) : ℝ := Complex.arg ⟨x, y⟩

/-- `L` in `ecef_from_lla` (geo.py 40), at a latitude in radians. -/
noncomputable def ecefL (lat : ℝ) : ℝ :=
  1 / Real.sqrt (wgsA ^ 2 * Real.cos lat ^ 2 + wgsB ^ 2 * Real.sin lat ^ 2)

/-- `ecef_from_lla(lat, lon, alt)` (geo.py 21-44). -/
noncomputable def ecefFromLla (lat lon alt : ℝ) : Fin 3 → ℝ :=
  let a2 := wgsA ^ 2
  let b2 := wgsB ^ 2
  let L := ecefL (radians lat)
  ![(a2 * L + alt) * Real.cos (radians lat) * Real.cos (radians lon),
    (a2 * L + alt) * Real.cos (radians lat) * Real.sin (radians lon),
    (b2 * L + alt) * Real.sin (radians lat)]

/-- A latitude (degrees), a longitude (degrees) and an altitude. -/
structure Lla where
  lat : ℝ
  lon : ℝ
  alt : ℝ

/-- `ea` in `lla_from_ecef` (geo.py 66). -/
noncomputable def ea : ℝ := Real.sqrt ((wgsA ^ 2 - wgsB ^ 2) / wgsA ^ 2)

/-- `eb` in `lla_from_ecef` (geo.py 67). -/
noncomputable def eb : ℝ := Real.sqrt ((wgsA ^ 2 - wgsB ^ 2) / wgsB ^ 2)

/-- `lat` (radians) in `lla_from_ecef` from `p` and `z` (geo.py 70-74). -/
noncomputable def latOf (p z : ℝ) : ℝ :=
  let theta := arctan2 (z * wgsA) (p * wgsB)
  arctan2 (z + eb ^ 2 * wgsB * Real.sin theta ^ 3) (p - ea ^ 2 * wgsA * Real.cos theta ^ 3)

/-- `lla_from_ecef(x, y, z)` (geo.py 55-77). -/
noncomputable def llaFromEcef (x y z : ℝ) : Lla :=
  let p := Real.sqrt (x ^ 2 + y ^ 2)
  let lon := arctan2 y x
  let lat := latOf p z
  let N := wgsA / Real.sqrt (1 - ea ^ 2 * Real.sin lat ^ 2)
  let alt := p / Real.cos lat - N
  ⟨degrees lat, degrees lon, alt⟩

/-- `ecef_from_topocentric_transform(lat, lon, alt)` (geo.py 80-104). -/
noncomputable def topoTransform (lat lon alt : ℝ) : Matrix (Fin 4) (Fin 4) ℝ :=
  let q := ecefFromLla lat lon alt
  let sa := Real.sin (radians lat)
  let ca := Real.cos (radians lat)
  let so := Real.sin (radians lon)
  let co := Real.cos (radians lon)
  !![-so, -sa * co, ca * co, q 0;
     co, -sa * so, ca * so, q 1;
     0, ca, sa, q 2;
     0, 0, 0, 1]

/-- `T[i, 0] * x + T[i, 1] * y + T[i, 2] * z + T[i, 3]` for `i < 3` (geo.py 199-201, 237-239). -/
def applyTransform (T : Matrix (Fin 4) (Fin 4) ℝ) (q : Fin 3 → ℝ) : Fin 3 → ℝ :=
  ![T 0 0 * q 0 + T 0 1 * q 1 + T 0 2 * q 2 + T 0 3,
    T 1 0 * q 0 + T 1 1 * q 1 + T 1 2 * q 2 + T 1 3,
    T 2 0 * q 0 + T 2 1 * q 1 + T 2 2 * q 2 + T 2 3]

/-- `topocentric_from_lla` (geo.py 176-202); `np.linalg.inv` is the exact inverse. -/
noncomputable def topocentricFromLla (p ref : Lla) : Fin 3 → ℝ :=
  applyTransform (topoTransform ref.lat ref.lon ref.alt)⁻¹ (ecefFromLla p.lat p.lon p.alt)

/-- The ECEF point computed by `lla_from_topocentric` (geo.py 236-239). -/
noncomputable def ecefFromTopocentric (q : Fin 3 → ℝ) (ref : Lla) : Fin 3 → ℝ :=
  applyTransform (topoTransform ref.lat ref.lon ref.alt) q

/-- `lla_from_topocentric` (geo.py 225-240). -/
noncomputable def llaFromTopocentric (q : Fin 3 → ℝ) (ref : Lla) : Lla :=
  let e := ecefFromTopocentric q ref
  llaFromEcef (e 0) (e 1) (e 2)

/-- `gps_distance` (geo.py 253-272) on `(lat, lon)` pairs. -/
noncomputable def gpsDistance (p q : ℝ × ℝ) : ℝ :=
  let u := ecefFromLla p.1 p.2 0
  let v := ecefFromLla q.1 q.2 0
  Real.sqrt ((u 0 - v 0) ^ 2 + (u 1 - v 1) ^ 2 + (u 2 - v 2) ^ 2)

end Verif.Geo
