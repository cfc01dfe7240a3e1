import Verif.Model.Superimpose

/-!
Model of how the three bundle adjustments are set up and written back: `BAHelpers::Bundle`, `BundleLocal`, `BundleShotPoses`,
`BundleToMap`, `AddGCPToBundle` (/repo/opensfm/src/sfm/src/ba_helpers.cc:114-315, 348-405, 407-590, 592-815) and the methods of
`BundleAdjuster` they call (/repo/opensfm/src/bundle/src/bundle_adjuster.cc:74-250, 630-690).

Simplifications: values (cameras, poses, points, ...) are abstract and the conversion of a value to its block of parameters and back is
the identity; exact reals in the averages. Hash maps and sets are lists in the order they are iterated in. The minimisation itself is an
input: `Sol` is what it puts into the blocks that are not constant (ceres leaves constant blocks alone). Which residuals there are is in
`Verif.Model.BundleErrors`; here only the observations and the position priors are kept. Triangulated positions of ground control points
are inputs.
-/
set_option linter.unusedSectionVars false
namespace Verif.BundleProblem
open Verif.Superimpose
variable {Id Cam Bias P V O E : Type} [DecidableEq Id]

/-- What is read of a shot (map/shot.h): camera, rig instance, rig camera, GPS position and accuracy, observed landmarks. -/
structure Shot (Id O : Type) where
  camera : Id
  inst : Id
  rigCamera : Id
  gps : Option (Vec 3)
  accuracy : Option ℝ
  obs : Dict Id O

/-- A map: cameras, biases, rig cameras, rig instances (pose, and the rig camera of each shot), shots, landmarks (position and
reprojection errors). -/
structure BMap (Id Cam Bias P V O E : Type) where
  cameras : Dict Id Cam
  biases : Dict Id Bias
  rigCameras : Dict Id P
  instances : Dict Id (P × Dict Id Id)
  shots : Dict Id (Shot Id O)
  points : Dict Id (V × E)

/-- A block of parameters; `const` if `SetParametersToOptimize({})` was called. -/
structure Blk (X : Type) where
  value : X
  const : Bool

/-- The state of a `BundleAdjuster`. -/
structure BA (Id Cam Bias P V O : Type) where
  cameras : Dict Id (Blk Cam)
  biases : Dict Id (Blk Bias)
  rigCameras : Dict Id (Blk P)
  instances : Dict Id (Blk P)
  priors : Dict Id (Vec 3 × ℝ)
  shots : Dict Id (Id × Id × Id)
  points : Dict Id (Blk V)
  obs : List (Id × Id × O)

/-- A new `BundleAdjuster` (bundle_adjuster.cc:24-44). -/
def BA.empty : BA Id Cam Bias P V O := ⟨[], [], [], [], [], [], [], []⟩

/-- The calls made on a `BundleAdjuster`; `need` is a lookup with `at` that raises if it fails, or an explicit test. -/
inductive Call (Id Cam Bias P V O : Type) where
  | need (b : Bool)
  | camera (id : Id) (value : Cam) (const : Bool)
  | bias (id : Id) (value : Bias)
  | rigCamera (id : Id) (value : P) (const : Bool)
  | inst (id : Id) (value : P) (shots : List (Id × Id × Id)) (fixed : Bool)
  | prior (id : Id) (position : Vec 3) (std : ℝ)
  | point (id : Id) (value : V) (const : Bool)
  | obs (shot point : Id) (o : O)

/-- `emplace(...).first->second`, then `SetParametersToOptimize({})` if constant: an existing value is kept. -/
def emplace {X : Type} (d : Dict Id (Blk X)) (id : Id) (value : X) (const : Bool) : Dict Id (Blk X) :=
  match d.get? id with
  | some b => d.set id ⟨b.value, b.const || const⟩
  | none => d.set id ⟨value, const⟩

/-- The loop over the shots in `AddRigInstance` (bundle_adjuster.cc:130-147); entries are shot, camera, rig camera. -/
def addShots (ba : BA Id Cam Bias P V O) (inst : Id) : List (Id × Id × Id) → Option (BA Id Cam Bias P V O)
  | [] => some ba
  | (s, c, r) :: rest =>
    if ba.cameras.has c && ba.rigCameras.has r then addShots { ba with shots := ba.shots.insertNew s (c, r, inst) } inst rest
    else none

/-- One call; `none`: it raises. `AddCamera` (bundle_adjuster.cc:77-102; `identity` is the bias it adds), `SetCameraBias` (104-111),
`AddRigCamera` (149-170), `AddRigInstance` (113-147), `AddRigInstancePositionPrior` (172-190), `AddPoint` (211-222),
`AddPointProjectionObservation` (238-250). -/
def BA.step (identity : Bias) (ba : BA Id Cam Bias P V O) : Call Id Cam Bias P V O → Option (BA Id Cam Bias P V O)
  | .need b => if b then some ba else none
  | .camera id v c => some { ba with cameras := emplace ba.cameras id v c, biases := emplace ba.biases id identity true }
  | .bias id b => if ba.biases.has id then some { ba with biases := ba.biases.set id ⟨b, false⟩ } else none
  | .rigCamera id p c => if ba.rigCameras.has id then none else some { ba with rigCameras := emplace ba.rigCameras id p c }
  | .inst id p shots fixed => addShots { ba with instances := emplace ba.instances id p fixed } id shots
  | .prior id x s => if ba.instances.has id then some { ba with priors := ba.priors.set id (x, s) } else none
  | .point id v c => some { ba with points := emplace ba.points id v c }
  | .obs s p o => if ba.shots.has s && ba.points.has p then some { ba with obs := ba.obs ++ [(s, p, o)] } else none

/-- A sequence of calls. -/
def BA.run (identity : Bias) : List (Call Id Cam Bias P V O) → BA Id Cam Bias P V O → Option (BA Id Cam Bias P V O)
  | [], ba => some ba
  | c :: cs, ba =>
    match ba.step identity c with
    | none => none
    | some ba' => BA.run identity cs ba'

/-- What the minimisation puts into the blocks that are not constant, and the reprojection errors it computes. -/
structure Sol (Id Cam Bias P V E : Type) where
  camera : Id → Cam
  bias : Id → Bias
  rigCamera : Id → P
  inst : Id → P
  point : Id → V
  err : Id → E

/-- A block after `Run` (bundle_adjuster.cc:598-680: constant blocks are not changed); `none`: there is no such block. -/
def after {X : Type} (d : Dict Id (Blk X)) (new : Id → X) (id : Id) : Option X :=
  (d.get? id).map (fun b => if b.const then b.value else new id)

/-- What is read of the configuration. -/
structure Cfg where
  optimizeCameras : Bool
  useGps : Bool
  useGcp : Bool
  compensateBias : Bool

/-- A ground control point: its id among the points, its position if it can be triangulated or has a measured one, its observations. -/
structure Gcp (Id V O : Type) where
  id : Id
  position : Option V
  obs : List (Id × O)

/-- `AddGCPToBundle` (ba_helpers.cc:371-403), without the prior of the points. -/
def gcpCalls (m : BMap Id Cam Bias P V O E) (gcp : List (Gcp Id V O)) : List (Call Id Cam Bias P V O) :=
  gcp.flatMap (fun g => match g.position with
    | none => []
    | some v => .point g.id v false ::
        (g.obs.filter (fun e => m.shots.has e.1)).map (fun e => .obs e.1 g.id e.2))

/-- The observations of a shot, `shot.GetLandmarkObservations()`. -/
def shotObs (m : BMap Id Cam Bias P V O E) (s : Id) : List (Id × Id × O) :=
  match m.shots.get? s with
  | none => []
  | some st => st.obs.map (fun e => (s, e.1, e.2))

/-- `shot_cameras` and `shot_rig_cameras` of an instance: shot, camera, rig camera (ba_helpers.cc:185-188, 484-486, 657-660). -/
def instShots (m : BMap Id Cam Bias P V O E) (shots : Dict Id Id) : List (Id × Id × Id) :=
  shots.filterMap (fun e => (m.shots.get? e.1).map (fun st => (e.1, st.camera, e.2)))

/-- Average GPS position and accuracy of an instance (ba_helpers.cc:661-680, 700-708); `none`: no GPS. -/
noncomputable def average (l : List (Vec 3 × ℝ)) : Option (Vec 3 × ℝ) :=
  if l.length > 0 then some ((1 / (l.length : ℝ)) • (l.map Prod.fst).sum, (l.map Prod.snd).sum / l.length) else none

/-- GPS positions with accuracies among the shots of an instance (ba_helpers.cc:662-666). -/
def gpsOf (m : BMap Id Cam Bias P V O E) (shots : Dict Id Id) : List (Vec 3 × ℝ) :=
  shots.filterMap (fun e => match m.shots.get? e.1 with
    | none => none
    | some st => match st.gps, st.accuracy with
      | some x, some a => some (x, a)
      | _, _ => none)

/-- `lock_rig_camera` (ba_helpers.cc:634-640). -/
def lockRigCameras (m : BMap Id Cam Bias P V O E) : Bool :=
  decide ((if m.rigCameras.length > 0 then m.shots.length / m.rigCameras.length else 1) ≤ 10)

open Classical in
/-- The calls of `Bundle` (ba_helpers.cc:600-745); `camPrior`, `rigPrior`: there is a prior. -/
noncomputable def bundleCalls (cfg : Cfg) (m : BMap Id Cam Bias P V O E) (camPrior rigPrior : Id → Bool) (gcp : List (Gcp Id V O)) :
    List (Call Id Cam Bias P V O) :=
  m.cameras.flatMap (fun e => [.need (camPrior e.1), .camera e.1 e.2 (!cfg.optimizeCameras)]) ++
  m.points.map (fun e => .point e.1 e.2.1 false) ++
  m.rigCameras.flatMap (fun e => [.need (rigPrior e.1), .rigCamera e.1 e.2 (m.cameras.has e.1 || lockRigCameras m)]) ++
  m.instances.flatMap (fun e =>
    let g : List (Vec 3 × ℝ) := if cfg.useGps then gpsOf m e.2.2 else []
    [.need (decide (∀ q ∈ g, 0 < q.2)), .inst e.1 e.2.1 (instShots m e.2.2) false] ++
      (match average g with
        | none => []
        | some a => [.prior e.1 a.1 a.2])) ++
  m.shots.flatMap (fun e => (shotObs m e.1).map (fun o => .obs o.1 o.2.1 o.2.2)) ++
  (if cfg.useGcp then gcpCalls m gcp else []) ++
  (if cfg.compensateBias then m.cameras.flatMap (fun e => match m.biases.get? e.1 with
    | none => [.need false]
    | some b => [.bias e.1 b]) else [])

/-- A loop that writes new values and stops with an exception at the first one that is missing or invalid. -/
def writeAll {X Y : Type} (get : Id → Option X) (ok : X → Bool) (put : Id → Y → X → Y) : Dict Id Y → Dict Id Y × Bool
  | [] => ([], true)
  | (k, y) :: rest =>
    match get k with
    | none => ((k, y) :: rest, false)
    | some x => if ok x then ((k, put k y x) :: (writeAll get ok put rest).1, (writeAll get ok put rest).2) else ((k, y) :: rest, false)

/-- Which values are finite. -/
structure Valid (Bias P V : Type) where
  bias : Bias → Bool
  pose : P → Bool
  point : V → Bool

/-- `BundleToMap` (ba_helpers.cc:765-815): the map and whether it returned. -/
def bundleToMap (ok : Valid Bias P V) (ba : BA Id Cam Bias P V O) (sol : Sol Id Cam Bias P V E) (updateCameras : Bool)
    (m : BMap Id Cam Bias P V O E) : BMap Id Cam Bias P V O E × Bool :=
  let c := if updateCameras then writeAll (after ba.cameras sol.camera) (fun _ => true) (fun _ _ x => x) m.cameras else (m.cameras, true)
  let m := { m with cameras := c.1 }
  if !c.2 then (m, false) else
  let b := writeAll (after ba.biases sol.bias) ok.bias (fun _ _ x => x) m.biases
  let m := { m with biases := b.1 }
  if !b.2 then (m, false) else
  let i := writeAll (after ba.instances sol.inst) ok.pose (fun _ y x => (x, y.2)) m.instances
  let m := { m with instances := i.1 }
  if !i.2 then (m, false) else
  let r := writeAll (after ba.rigCameras sol.rigCamera) ok.pose (fun _ _ x => x) m.rigCameras
  let m := { m with rigCameras := r.1 }
  if !r.2 then (m, false) else
  let p := writeAll (after ba.points sol.point) ok.point (fun k _ x => (x, sol.err k)) m.points
  ({ m with points := p.1 }, p.2)

/-- `Bundle` (ba_helpers.cc:592-763): the map afterwards and whether it returned. -/
noncomputable def bundle (identity : Bias) (ok : Valid Bias P V) (cfg : Cfg) (m : BMap Id Cam Bias P V O E) (camPrior rigPrior : Id → Bool)
    (gcp : List (Gcp Id V O)) (solve : BA Id Cam Bias P V O → Sol Id Cam Bias P V E) : BMap Id Cam Bias P V O E × Bool :=
  match BA.run identity (bundleCalls cfg m camPrior rigPrior gcp) .empty with
  | none => (m, false)
  | some ba => bundleToMap ok ba (solve ba) cfg.optimizeCameras m

/-! ### Local bundle -/

/-- The rig cameras and rig instances of some shots (ba_helpers.cc:153-158). -/
def rigCamerasOf (m : BMap Id Cam Bias P V O E) (shots : List Id) : List Id :=
  (shots.filterMap (fun s => (m.shots.get? s).map (·.rigCamera))).dedup

/-- See `rigCamerasOf`. -/
def instancesOf (m : BMap Id Cam Bias P V O E) (shots : List Id) : List Id :=
  (shots.filterMap (fun s => (m.shots.get? s).map (·.inst))).dedup

/-- GPS positions of an instance in a local bundle (ba_helpers.cc:190-203): a shot with a position but without an accuracy counts with
whatever is in the uninitialised accuracy, `junk`. -/
def gpsLocal (junk : ℝ) (m : BMap Id Cam Bias P V O E) (boundary : List Id) (shots : Dict Id Id) : List (Vec 3 × ℝ) :=
  shots.filterMap (fun e => if e.1 ∈ boundary then none else match m.shots.get? e.1 with
    | none => none
    | some st => st.gps.map (fun x => (x, st.accuracy.getD junk)))

/-- The loop over the observations of the interior (ba_helpers.cc:227-239): calls, and the points seen so far. -/
def interiorCalls (m : BMap Id Cam Bias P V O E) : List Id → List (Id × Id × O) → List (Call Id Cam Bias P V O) × List Id
  | seen, [] => ([], seen)
  | seen, (s, l, o) :: rest =>
    if l ∈ seen then (.obs s l o :: (interiorCalls m seen rest).1, (interiorCalls m seen rest).2)
    else
      match m.points.get? l with
      | none => ([.need false], seen)
      | some v => (.point l v.1 false :: .obs s l o :: (interiorCalls m (seen ++ [l]) rest).1, (interiorCalls m (seen ++ [l]) rest).2)

/-- The calls of `BundleLocal` (ba_helpers.cc:130-252) and the points it will write back. -/
noncomputable def localCalls (junk : ℝ) (cfg : Cfg) (m : BMap Id Cam Bias P V O E) (camPrior rigPrior : Id → Bool)
    (interior boundary : List Id) (gcp : List (Gcp Id V O)) : List (Call Id Cam Bias P V O) × List Id :=
  let both := interior ++ boundary.filter (fun s => decide (s ∉ interior))
  let ic := interiorCalls m [] (interior.flatMap (shotObs m))
  (m.cameras.flatMap (fun e => [.need (camPrior e.1), .camera e.1 e.2 true]) ++
   (rigCamerasOf m both).flatMap (fun r => match m.rigCameras.get? r with
     | none => [.need false]
     | some p => [.need (rigPrior r), .rigCamera r p true]) ++
   (instancesOf m both).flatMap (fun i => match m.instances.get? i with
     | none => [.need false]
     | some e =>
       let fixed := e.2.any (fun s => decide (s.1 ∈ boundary))
       .inst i e.1 (instShots m e.2) fixed ::
         (match average (if cfg.useGps then gpsLocal junk m boundary e.2 else []) with
           | none => []
           | some a => if fixed then [] else [.prior i a.1 a.2])) ++
   ic.1 ++
   (boundary.flatMap (shotObs m)).filterMap (fun o => if o.2.1 ∈ ic.2 then some (.obs o.1 o.2.1 o.2.2) else none) ++
   (if cfg.useGcp then gcpCalls m gcp else []),
   ic.2)

/-- A loop that writes new values of the given entries, without any test (ba_helpers.cc:279-288, 566-570). -/
def writeSome {X Y : Type} (get : Id → Option X) (put : Id → Y → X → Y) (ids : List Id) (d : Dict Id Y) : Dict Id Y :=
  d.map (fun e => (e.1, if e.1 ∈ ids then (match get e.1 with | none => e.2 | some x => put e.1 e.2 x) else e.2))

/-- `BundleLocal` (ba_helpers.cc:114-315), given the neighbourhood: the map afterwards and whether it returned. -/
noncomputable def bundleLocal (identity : Bias) (junk : ℝ) (cfg : Cfg) (m : BMap Id Cam Bias P V O E) (camPrior rigPrior : Id → Bool)
    (interior boundary : List Id) (gcp : List (Gcp Id V O)) (solve : BA Id Cam Bias P V O → Sol Id Cam Bias P V E) :
    BMap Id Cam Bias P V O E × Bool :=
  match BA.run identity (localCalls junk cfg m camPrior rigPrior interior boundary gcp).1 .empty with
  | none => (m, false)
  | some ba =>
    ({ m with
        instances := writeSome (after ba.instances (solve ba).inst) (fun _ y x => (x, y.2))
          (instancesOf m (interior ++ boundary.filter (fun s => decide (s ∉ interior)))) m.instances
        points := writeSome (after ba.points (solve ba).point) (fun k _ x => (x, (solve ba).err k))
          (localCalls junk cfg m camPrior rigPrior interior boundary gcp).2 m.points }, true)

/-! ### Poses of some shots -/

/-- The variables of the loop over the shots of one instance (ba_helpers.cc:469-481): shots so far, `average_position`, `average_std`,
`gps_count`, `fix_instance`. -/
structure PoseAcc (Id : Type) where
  shots : List (Id × Id × Id)
  position : Vec 3
  std : ℝ
  count : ℕ
  fixed : Bool

/-- Their initial values. -/
def PoseAcc.zero : PoseAcc Id := ⟨[], 0, 0, 0, false⟩

/-- The GPS position of a shot that is adjusted (ba_helpers.cc:487-497). -/
def poseGps (cfg : Cfg) (shotIds : List Id) (s : Id) (st : Shot Id O) : Option (Vec 3 × ℝ) :=
  if s ∈ shotIds ∧ cfg.useGps = true then
    match st.gps, st.accuracy with
    | some p, some q => some (p, q)
    | _, _ => none
  else none

/-- The body of the loop up to `AddRigInstance` (ba_helpers.cc:483-503). -/
def poseAdd (cfg : Cfg) (shotIds : List Id) (s r : Id) (st : Shot Id O) (q : PoseAcc Id) : PoseAcc Id :=
  match poseGps cfg shotIds s st with
  | none => ⟨q.shots ++ [(s, st.camera, r)], q.position, q.std, q.count, q.fixed || decide (s ∉ shotIds)⟩
  | some g => ⟨q.shots ++ [(s, st.camera, r)], q.position + g.1, q.std + g.2, q.count + 1, q.fixed || decide (s ∉ shotIds)⟩

/-- The division after `AddRigInstance` (ba_helpers.cc:507-510), inside of the loop over the shots. -/
noncomputable def poseDiv (q : PoseAcc Id) : PoseAcc Id :=
  if q.fixed = false ∧ q.count > 0 then { q with position := (1 / (q.count : ℝ)) • q.position, std := q.std / q.count } else q

/-- The loop over the shots of one instance in `BundleShotPoses` (ba_helpers.cc:482-515): the instance and its prior are added anew with
every shot. -/
noncomputable def poseCalls (cfg : Cfg) (m : BMap Id Cam Bias P V O E) (shotIds : List Id) (i : Id) (pose : P) :
    List (Id × Id) → PoseAcc Id → List (Call Id Cam Bias P V O)
  | [], _ => []
  | (s, r) :: rest, q =>
    match m.shots.get? s with
    | none => [.need false]
    | some st =>
      let q' := poseAdd cfg shotIds s r st q
      [.inst i pose q'.shots q'.fixed] ++
        (if q'.fixed = false ∧ q'.count > 0 then [.prior i (poseDiv q').position (poseDiv q').std] else []) ++
        poseCalls cfg m shotIds i pose rest (poseDiv q')

/-- The shots of the instances of some shots (ba_helpers.cc:427-440). -/
def matesOf (m : BMap Id Cam Bias P V O E) (shotIds : List Id) : List (Id × Id) :=
  (instancesOf m shotIds).flatMap (fun i => match m.instances.get? i with
    | none => []
    | some e => e.2)

/-- The calls of `BundleShotPoses` (ba_helpers.cc:422-525). -/
noncomputable def shotPosesCalls (cfg : Cfg) (m : BMap Id Cam Bias P V O E) (camPrior rigPrior : Id → Bool) (shotIds : List Id) :
    List (Call Id Cam Bias P V O) :=
  ((matesOf m shotIds).map (·.2)).dedup.flatMap (fun r => match m.rigCameras.get? r with
     | none => [.need false]
     | some p => [.need (rigPrior r), .rigCamera r p true]) ++
  ((matesOf m shotIds).filterMap (fun e => (m.shots.get? e.1).map (·.camera))).dedup.flatMap (fun c => match m.cameras.get? c with
     | none => [.need false]
     | some v => [.need (camPrior c), .camera c v true]) ++
  ((shotIds.flatMap (shotObs m)).map (·.2.1)).dedup.flatMap (fun l => match m.points.get? l with
     | none => [.need false]
     | some v => [.point l v.1 true]) ++
  (instancesOf m shotIds).flatMap (fun i => match m.instances.get? i with
     | none => [.need false]
     | some e => poseCalls cfg m shotIds i e.1 e.2 .zero) ++
  (shotIds.flatMap (shotObs m)).map (fun o => .obs o.1 o.2.1 o.2.2)

/-- `BundleShotPoses` (ba_helpers.cc:407-590): the map afterwards and whether it returned. A shot that does not exist raises. -/
noncomputable def bundleShotPoses (identity : Bias) (cfg : Cfg) (m : BMap Id Cam Bias P V O E) (camPrior rigPrior : Id → Bool)
    (shotIds : List Id) (solve : BA Id Cam Bias P V O → Sol Id Cam Bias P V E) : BMap Id Cam Bias P V O E × Bool :=
  if ∀ s ∈ shotIds, m.shots.has s then
    match BA.run identity (shotPosesCalls cfg m camPrior rigPrior shotIds) .empty with
    | none => (m, false)
    | some ba =>
      ({ m with instances := writeSome (after ba.instances (solve ba).inst) (fun _ y x => (x, y.2)) (instancesOf m shotIds) m.instances },
        true)
  else (m, false)

end Verif.BundleProblem
