import Verif.Base.Dict
import Verif.Base.Group
import Verif.Base.Json
import Verif.Base.PyText
import Verif.Base.Text
import Verif.Lemmas.AddShot
import Verif.Lemmas.BundleProblem
import Verif.Lemmas.CameraAD
import Verif.Lemmas.CameraJac
import Verif.Lemmas.CameraProj
import Verif.Lemmas.CameraStages
import Verif.Lemmas.Forest
import Verif.Lemmas.ForestSize
import Verif.Lemmas.MapCopy
import Verif.Lemmas.PairsSelection
import Verif.Lemmas.ReconstructionIO
import Verif.Lemmas.SfmMap
import Verif.Lemmas.SvdExists
import Verif.Lemmas.TracksManager
import Verif.Lemmas.UnionFindCpp
import Verif.Lemmas.UnionFindPy
import Verif.Model.AbsolutePose
import Verif.Model.AddShot
import Verif.Model.Align
import Verif.Model.AlignCost
import Verif.Model.AlignPrior
import Verif.Model.AlignSetup
import Verif.Model.Angles
import Verif.Model.AutoThreshold
import Verif.Model.BundleAlign
import Verif.Model.BundleErrors
import Verif.Model.BundleProblem
import Verif.Model.BundleSigma
import Verif.Model.Calibration
import Verif.Model.Camera
import Verif.Model.CameraIO
import Verif.Model.CameraIds
import Verif.Model.CloudFilters
import Verif.Model.CommonTracks
import Verif.Model.Config
import Verif.Model.ConfigDefaults
import Verif.Model.DatasetFiles
import Verif.Model.DenseNeighbors
import Verif.Model.DenseStage
import Verif.Model.Depthmap
import Verif.Model.DepthmapMerge
import Verif.Model.DetectStage
import Verif.Model.Dji
import Verif.Model.Essential
import Verif.Model.Exif
import Verif.Model.ExifOpk
import Verif.Model.ExportColmap
import Verif.Model.ExportScene
import Verif.Model.ExportText
import Verif.Model.ExtractMetadata
import Verif.Model.Factor
import Verif.Model.FeatureLoader
import Verif.Model.FeaturePlan
import Verif.Model.FeatureQueue
import Verif.Model.Features
import Verif.Model.FromPrior
import Verif.Model.Gcp
import Verif.Model.Geo
import Verif.Model.Geocoords
import Verif.Model.GpsBias
import Verif.Model.Gpx
import Verif.Model.GrowSteps
import Verif.Model.Guided
import Verif.Model.ImageCoords
import Verif.Model.ImageDescriptors
import Verif.Model.Incremental
import Verif.Model.MapCopy
import Verif.Model.Matching
import Verif.Model.Mesh
import Verif.Model.MetadataRec
import Verif.Model.NearImages
import Verif.Model.Neighborhood
import Verif.Model.Outliers
import Verif.Model.PairOrder
import Verif.Model.PairsSelection
import Verif.Model.ParallelMap
import Verif.Model.PatchMatch
import Verif.Model.PlaneMotion
import Verif.Model.Ply
import Verif.Model.Pose
import Verif.Model.Quartic
import Verif.Model.Quaternions
import Verif.Model.Ransac
import Verif.Model.RealignMaps
import Verif.Model.ReconstructionIO
import Verif.Model.Reference
import Verif.Model.RelativePose
import Verif.Model.Rig
import Verif.Model.RigCalib
import Verif.Model.RigRun
import Verif.Model.RotationPair
import Verif.Model.SfmMap
import Verif.Model.Stats
import Verif.Model.StatsErrors
import Verif.Model.SubmodelAlign
import Verif.Model.Submodels
import Verif.Model.Superimpose
import Verif.Model.ThreePoints
import Verif.Model.TrackMerge
import Verif.Model.TrackTriangulator
import Verif.Model.Tracking
import Verif.Model.TracksHelpers
import Verif.Model.TracksManager
import Verif.Model.TracksText
import Verif.Model.Triangulation
import Verif.Model.TwoView
import Verif.Model.UndistortMap
import Verif.Model.UndistortPano
import Verif.Model.UndistortRec
import Verif.Model.UnionFindCpp
import Verif.Model.UnionFindPy
import Verif.Props.AbsolutePose
import Verif.Props.AddShot
import Verif.Props.Align
import Verif.Props.AlignCost
import Verif.Props.AlignPrior
import Verif.Props.AlignSetup
import Verif.Props.Angles
import Verif.Props.AutoThreshold
import Verif.Props.BundleAlign
import Verif.Props.BundleErrors
import Verif.Props.BundlePriors
import Verif.Props.BundleProblem
import Verif.Props.BundleSigma
import Verif.Props.Calibration
import Verif.Props.CameraIO
import Verif.Props.CameraIds
import Verif.Props.CameraInverse
import Verif.Props.CameraJacobian
import Verif.Props.CameraNewton
import Verif.Props.CloudFilters
import Verif.Props.CommonTracks
import Verif.Props.Config
import Verif.Props.DatasetFiles
import Verif.Props.DenseNeighbors
import Verif.Props.DenseStage
import Verif.Props.Depthmap
import Verif.Props.DepthmapMerge
import Verif.Props.DetectStage
import Verif.Props.Dji
import Verif.Props.Essential
import Verif.Props.Exif
import Verif.Props.ExifOpk
import Verif.Props.ExportColmap
import Verif.Props.ExportScene
import Verif.Props.ExportText
import Verif.Props.ExtractMetadata
import Verif.Props.Factor
import Verif.Props.FeatureLoader
import Verif.Props.FeatureMask
import Verif.Props.FeaturePlan
import Verif.Props.FeatureQueue
import Verif.Props.Features
import Verif.Props.FromPrior
import Verif.Props.Gcp
import Verif.Props.Geo
import Verif.Props.Geocoords
import Verif.Props.GpsBias
import Verif.Props.Gpx
import Verif.Props.GrowSteps
import Verif.Props.Guided
import Verif.Props.ImageCoords
import Verif.Props.ImageDescriptors
import Verif.Props.Incremental
import Verif.Props.MapCopy
import Verif.Props.MapObservations
import Verif.Props.Matching
import Verif.Props.Mesh
import Verif.Props.MetadataIO
import Verif.Props.MetadataRec
import Verif.Props.NearImages
import Verif.Props.Neighborhood
import Verif.Props.Outliers
import Verif.Props.PairOrder
import Verif.Props.PairsSelection
import Verif.Props.ParallelMap
import Verif.Props.PatchMatch
import Verif.Props.PlaneMotion
import Verif.Props.Ply
import Verif.Props.Pose
import Verif.Props.Quartic
import Verif.Props.Quaternions
import Verif.Props.Ransac
import Verif.Props.RealignMaps
import Verif.Props.ReconstructionIO
import Verif.Props.Reference
import Verif.Props.RelativePose
import Verif.Props.Rig
import Verif.Props.RigCalib
import Verif.Props.RigRun
import Verif.Props.RotationPair
import Verif.Props.SfmMap
import Verif.Props.Stats
import Verif.Props.StatsErrors
import Verif.Props.SubmodelAlign
import Verif.Props.Submodels
import Verif.Props.Superimpose
import Verif.Props.ThreePoints
import Verif.Props.TrackMerge
import Verif.Props.TrackTriangulator
import Verif.Props.Tracking
import Verif.Props.TracksHelpers
import Verif.Props.TracksManager
import Verif.Props.TracksText
import Verif.Props.Triangulation
import Verif.Props.TwoView
import Verif.Props.UndistortMap
import Verif.Props.UndistortPano
import Verif.Props.UndistortRec
import Verif.Props.UnionFindCpp
import Verif.Props.UnionFindDepth
import Verif.Props.UnionFindPy
import Verif.Spec.AddShot
import Verif.Spec.Angles
import Verif.Spec.CameraDomain
import Verif.Spec.CameraIds
import Verif.Spec.ExportColmap
import Verif.Spec.ExportText
import Verif.Spec.Jacobian
import Verif.Spec.MapCopy
import Verif.Spec.Mesh
import Verif.Spec.MetadataRec
import Verif.Spec.NearImages
import Verif.Spec.Quaternions
