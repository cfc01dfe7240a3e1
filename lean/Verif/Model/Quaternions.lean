import Verif.Model.Angles

/-!
Model of the quaternions of /repo/opensfm/transformations.py:1240-1600: `euler_from_quaternion`, `quaternion_from_euler`,
`quaternion_about_axis`, `quaternion_matrix`, `quaternion_from_matrix`, `quaternion_multiply`, `quaternion_conjugate`,
`quaternion_inverse`, `quaternion_real`, `quaternion_imag`, `quaternion_slerp`, `random_quaternion` and
`random_rotation_matrix`.

Simplifications: numbers are exact reals (a quotient by zero is 0 where NumPy gives `nan`); `numpy.linalg.eigh` is a
parameter; what `numpy.empty` leaves in memory is a parameter; the three random numbers are given; the angles are numbers,
not arrays.
-/
set_option linter.unusedSectionVars false
namespace Verif.Quaternions
open Matrix Verif.Superimpose Verif.AlignPrior Verif.Angles

/-- A 4x4 homogeneous matrix from its 3x3 block (transformations.py:1351-1358). -/
def homogeneous (m : Mat 3) : Mat 4 :=
  !![m 0 0, m 0 1, m 0 2, 0; m 1 0, m 1 1, m 1 2, 0; m 2 0, m 2 1, m 2 2, 0; 0, 0, 0, 1]

/-- The 3x3 block that `euler_from_matrix` reads of a 4x4 matrix (transformations.py:1211). -/
def block (M : Mat 4) : Mat 3 := fun i j => M i.castSucc j.castSucc

/-- The axis `i` as an index of a quaternion: `firstaxis + 1` (transformations.py:1276-1278). -/
def slot (i : Fin 3) : Fin 4 := i.succ

/-- The two ways to combine the half angles, in the order `0, i, j, k` (transformations.py:1286-1308). -/
noncomputable def eulerHalf (repetition : Bool) (ai aj ak : ℝ) : Vec 4 :=
  let ci := Real.cos ai
  let si := Real.sin ai
  let cj := Real.cos aj
  let sj := Real.sin aj
  let ck := Real.cos ak
  let sk := Real.sin ak
  let cc := ci * ck
  let cs := ci * sk
  let sc := si * ck
  let ss := si * sk
  if repetition then ![cj * (cc - ss), cj * (cs + sc), sj * (cc + ss), sj * (cs - sc)]
  else ![cj * cc + sj * ss, cj * sc - sj * cs, cj * ss + sj * cc, cj * cs - sj * sc]

/-- `quaternion_from_euler` (transformations.py:1267-1312). -/
noncomputable def fromEuler (ai aj ak : ℝ) (a : Axes) : Vec 4 :=
  let (ai, ak) := if a.frame then (ak, ai) else (ai, ak)
  let aj := if a.parity then -aj else aj
  let h := eulerHalf a.repetition (ai / 2) (aj / 2) (ak / 2)
  let i := slot a.first
  let j := slot a.second
  let hj := if a.parity then h 2 * (-1) else h 2
  fun x => if x = 0 then h 0 else if x = i then h 1 else if x = j then hj else h 3

open Classical in
/-- `quaternion_about_axis` (transformations.py:1315-1328). -/
noncomputable def aboutAxis (angle : ℝ) (axis : Vec 3) : Vec 4 :=
  let qlen := AlignPrior.norm axis
  let v : Vec 3 := if qlen > eps then (Real.sin (angle / 2) / qlen) • axis else axis
  ![Real.cos (angle / 2), v 0, v 1, v 2]

open Classical in
/-- `quaternion_matrix` (transformations.py:1331-1358). -/
noncomputable def quaternionMatrix (quaternion : Vec 4) : Mat 4 :=
  let n := quaternion ⬝ᵥ quaternion
  if n < eps then 1
  else
    let s : Vec 4 := Real.sqrt (2 / n) • quaternion
    let q : Mat 4 := vecMulVec s s
    homogeneous !![1 - q 2 2 - q 3 3, q 1 2 - q 3 0, q 1 3 + q 2 0;
      q 1 2 + q 3 0, 1 - q 1 1 - q 3 3, q 2 3 - q 1 0;
      q 1 3 - q 2 0, q 2 3 + q 1 0, 1 - q 1 1 - q 2 2]

/-- `euler_from_quaternion` (transformations.py:1240-1250). -/
noncomputable def eulerFromQuaternion (q : Vec 4) (a : Axes) : ℝ × ℝ × ℝ := eulerFromMatrix (block (quaternionMatrix q)) a

open Classical in
/-- The index that starts the second branch for precise matrices, as it is written (transformations.py:1403-1407). -/
noncomputable def pivot (M : Mat 4) : Fin 4 × Fin 4 × Fin 4 :=
  let p : Fin 4 × Fin 4 × Fin 4 := if M 1 1 > M 0 0 then (2, 3, 1) else (1, 2, 3)
  if M 2 2 > M p.1 p.1 then (3, 1, 2) else p

/-- `q *= 0.5 / math.sqrt(t * M[3, 3])` (transformations.py:1413); `none` is the error for a number that is not positive. -/
noncomputable def scaleRoot (q : Vec 4) (t m : ℝ) : Option (Vec 4) :=
  if 0 < t * m then some ((0.5 / Real.sqrt (t * m)) • q) else none

open Classical in
/-- The algorithm for precise matrices (transformations.py:1394-1413); `empty` is what `numpy.empty` finds in memory. -/
noncomputable def fromPrecise (empty : Vec 4) (M : Mat 4) : Option (Vec 4) :=
  let t := M.trace
  if t > M 3 3 then scaleRoot ![t, M 2 1 - M 1 2, M 0 2 - M 2 0, M 1 0 - M 0 1] t (M 3 3)
  else
    let (i, j, k) := pivot M
    let t := M i i - (M j j + M k k) + M 3 3
    let q := Function.update empty i t
    let q := Function.update q j (M i j + M j i)
    let q := Function.update q k (M k i + M i k)
    let q := Function.update q 3 (M k j - M j k)
    scaleRoot q t (M 3 3)

/-- The matrix `K`, of which `eigh` reads the lower triangle (transformations.py:1424-1434). -/
noncomputable def kMatrix (M : Mat 4) : Mat 4 :=
  (1 / 3 : ℝ) • !![M 0 0 - M 1 1 - M 2 2, 0, 0, 0;
    M 0 1 + M 1 0, M 1 1 - M 0 0 - M 2 2, 0, 0;
    M 0 2 + M 2 0, M 1 2 + M 2 1, M 2 2 - M 0 0 - M 1 1, 0;
    M 2 1 - M 1 2, M 0 2 - M 2 0, M 1 0 - M 0 1, M 0 0 + M 1 1 + M 2 2]

open Classical in
/-- `numpy.argmax(w)` (transformations.py:1436): the first of the largest. -/
noncomputable def argmax (w : Vec 4) : Fin 4 :=
  [1, 2, 3].foldl (fun (b : Fin 4) (i : Fin 4) => if w i > w b then i else b) 0

open Classical in
/-- `if q[0] < 0.0: numpy.negative(q, q)` (transformations.py:1437-1438). -/
noncomputable def positive (q : Vec 4) : Vec 4 := if q 0 < 0 then -q else q

/-- `quaternion_from_matrix` (transformations.py:1393-1439). -/
noncomputable def fromMatrix (eigh : Mat 4 → Vec 4 × Mat 4) (empty : Vec 4) (M : Mat 4) (isprecise : Bool) : Option (Vec 4) :=
  if isprecise then (fromPrecise empty M).map positive
  else
    let (w, V) := eigh (kMatrix M)
    let m := argmax w
    some (positive ![V 3 m, V 0 m, V 1 m, V 2 m])

/-- `quaternion_multiply` (transformations.py:1442-1460). -/
def multiply (q1 q0 : Vec 4) : Vec 4 :=
  ![-q1 1 * q0 1 - q1 2 * q0 2 - q1 3 * q0 3 + q1 0 * q0 0,
    q1 1 * q0 0 + q1 2 * q0 3 - q1 3 * q0 2 + q1 0 * q0 1,
    -q1 1 * q0 3 + q1 2 * q0 0 + q1 3 * q0 1 + q1 0 * q0 2,
    q1 1 * q0 2 - q1 2 * q0 1 + q1 3 * q0 0 + q1 0 * q0 3]

/-- `quaternion_conjugate` (transformations.py:1463-1474). -/
def conjugate (q : Vec 4) : Vec 4 := ![q 0, -q 1, -q 2, -q 3]

/-- `quaternion_inverse` (transformations.py:1477-1488). -/
noncomputable def inverse (q : Vec 4) : Vec 4 := (1 / (conjugate q ⬝ᵥ conjugate q)) • conjugate q

/-- `quaternion_real` (transformations.py:1491-1498). -/
def real (q : Vec 4) : ℝ := q 0

/-- `quaternion_imag` (transformations.py:1501-1508). -/
def imag (q : Vec 4) : Vec 3 := ![q 1, q 2, q 3]

/-- `unit_vector` (transformations.py:1712-1716). -/
noncomputable def unitVector (q : Vec 4) : Vec 4 := (1 / Real.sqrt (q ⬝ᵥ q)) • q

/-- The combination at the end of `quaternion_slerp` (transformations.py:1549-1555). -/
noncomputable def combine (q0 q1 : Vec 4) (fraction angle : ℝ) : Vec 4 :=
  let isin := 1 / Real.sin angle
  (Real.sin ((1 - fraction) * angle) * isin) • q0 + (Real.sin (fraction * angle) * isin) • q1

open Classical in
/-- `quaternion_slerp` (transformations.py:1511-1555). -/
noncomputable def slerp (quat0 quat1 : Vec 4) (fraction : ℝ) (spin : ℤ) (shortestpath : Bool) : Vec 4 :=
  let q0 := unitVector quat0
  let q1 := unitVector quat1
  if fraction = 0 then q0
  else if fraction = 1 then q1
  else
    let d := q0 ⬝ᵥ q1
    if |(|d| - 1)| < eps then q0
    else
      let flip := shortestpath = true ∧ d < 0
      let d := if flip then -d else d
      let q1 := if flip then -q1 else q1
      let angle := Real.arccos d + spin * Real.pi
      if |angle| < eps then q0 else combine q0 q1 fraction angle

/-- `random_quaternion` (transformations.py:1558-1584), for the three random numbers. -/
noncomputable def randomQuaternion (rand : Vec 3) : Vec 4 :=
  let r1 := Real.sqrt (1 - rand 0)
  let r2 := Real.sqrt (rand 0)
  let pi2 := Real.pi * 2
  let t1 := pi2 * rand 1
  let t2 := pi2 * rand 2
  ![Real.cos t2 * r2, Real.sin t1 * r1, Real.cos t1 * r1, Real.sin t2 * r2]

/-- `random_rotation_matrix` (transformations.py:1587-1600). -/
noncomputable def randomRotationMatrix (rand : Vec 3) : Mat 4 := quaternionMatrix (randomQuaternion rand)

end Verif.Quaternions
