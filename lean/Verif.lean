import Verif.Lemmas.Accuracy
import Verif.Lemmas.AngleTool
import Verif.Lemmas.Balance
import Verif.Lemmas.BassExact
import Verif.Lemmas.BassOuter
import Verif.Lemmas.BeamCharge
import Verif.Lemmas.BeamFar
import Verif.Lemmas.BeamMap
import Verif.Lemmas.Checkpoint
import Verif.Lemmas.Converge
import Verif.Lemmas.ConvergeField
import Verif.Lemmas.ConvergeRun
import Verif.Lemmas.ConvergeStep
import Verif.Lemmas.ConvergeStrong
import Verif.Lemmas.CrossIon
import Verif.Lemmas.Distribution
import Verif.Lemmas.DistributionRun
import Verif.Lemmas.DrawVariance
import Verif.Lemmas.Dynamics
import Verif.Lemmas.EcRecord
import Verif.Lemmas.ErrF
import Verif.Lemmas.Faddeeva
import Verif.Lemmas.FaddeevaDeriv
import Verif.Lemmas.FaddeevaTurn
import Verif.Lemmas.FullRun
import Verif.Lemmas.FurmanPivi
import Verif.Lemmas.GaussBeam
import Verif.Lemmas.Geometry
import Verif.Lemmas.Grid
import Verif.Lemmas.Growth
import Verif.Lemmas.Hist
import Verif.Lemmas.Impact
import Verif.Lemmas.ImpactHist
import Verif.Lemmas.Liouville
import Verif.Lemmas.LiouvilleRun
import Verif.Lemmas.LoadMod
import Verif.Lemmas.MPCap
import Verif.Lemmas.MPHistory
import Verif.Lemmas.MPSources
import Verif.Lemmas.MPSystem
import Verif.Lemmas.Mirror
import Verif.Lemmas.MirrorSim
import Verif.Lemmas.Motion
import Verif.Lemmas.Np
import Verif.Lemmas.Observed
import Verif.Lemmas.OutDict
import Verif.Lemmas.Parallel
import Verif.Lemmas.Photo
import Verif.Lemmas.PolyNp
import Verif.Lemmas.Polygon
import Verif.Lemmas.Rebuild
import Verif.Lemmas.RefineTool
import Verif.Lemmas.Regen
import Verif.Lemmas.RegenCut
import Verif.Lemmas.RegenLoop
import Verif.Lemmas.RegenOk
import Verif.Lemmas.Rejection
import Verif.Lemmas.Resample
import Verif.Lemmas.SaverSteps
import Verif.Lemmas.Scale
import Verif.Lemmas.ScaleSim
import Verif.Lemmas.SegShare
import Verif.Lemmas.Sey
import Verif.Lemmas.SimStep
import Verif.Lemmas.Sources
import Verif.Lemmas.Timing
import Verif.Lemmas.Unbiased
import Verif.Lemmas.UniformDraws
import Verif.Model.AngleTool
import Verif.Model.BeamField
import Verif.Model.BeamMap
import Verif.Model.Checkpoint
import Verif.Model.Clocks
import Verif.Model.Components
import Verif.Model.Config
import Verif.Model.Coupled
import Verif.Model.CrossIon
import Verif.Model.CrossSetup
import Verif.Model.Dynamics
import Verif.Model.EcRecord
import Verif.Model.Ellipse
import Verif.Model.Emission
import Verif.Model.ErrF
import Verif.Model.Extract
import Verif.Model.FPExtract
import Verif.Model.FPHelpers
import Verif.Model.FPYield
import Verif.Model.FileMan
import Verif.Model.Files
import Verif.Model.FrozenSlices
import Verif.Model.FullRun
import Verif.Model.FurmanPivi
import Verif.Model.Geometry
import Verif.Model.Grid
import Verif.Model.Hist
import Verif.Model.ImpCounter
import Verif.Model.Impact
import Verif.Model.InitCalls
import Verif.Model.LinearPart
import Verif.Model.LoadMod
import Verif.Model.LogFile
import Verif.Model.MPHistory
import Verif.Model.MPSystem
import Verif.Model.MainOut
import Verif.Model.Np
import Verif.Model.Observed
import Verif.Model.OutDict
import Verif.Model.Parallel
import Verif.Model.ParamTables
import Verif.Model.Photo
import Verif.Model.PhotoEnergy
import Verif.Model.PhotoSetup
import Verif.Model.PolyNp
import Verif.Model.Profile
import Verif.Model.PyHT
import Verif.Model.ReadNames
import Verif.Model.RefineTool
import Verif.Model.Refs
import Verif.Model.Regen
import Verif.Model.Reload
import Verif.Model.Resample
import Verif.Model.Restore
import Verif.Model.SaveReq
import Verif.Model.SaverHist
import Verif.Model.SaverSteps
import Verif.Model.SegShare
import Verif.Model.Setup
import Verif.Model.Sey
import Verif.Model.SimStep
import Verif.Model.SliceSize
import Verif.Model.Snapshots
import Verif.Model.Sources
import Verif.Model.Timing
import Verif.Model.Twin
import Verif.Model.Yield
import Verif.Props.Accuracy
import Verif.Props.AngleLaw
import Verif.Props.AngleTool
import Verif.Props.Balance
import Verif.Props.BeamCharge
import Verif.Props.BeamFar
import Verif.Props.BeamField
import Verif.Props.BeamMap
import Verif.Props.Checkpoint
import Verif.Props.Clocks
import Verif.Props.CloudOrder
import Verif.Props.Components
import Verif.Props.Config
import Verif.Props.Converge
import Verif.Props.ConvergeStrong
import Verif.Props.Coupled
import Verif.Props.CrossIon
import Verif.Props.CrossMean
import Verif.Props.CrossSetup
import Verif.Props.CrossWhere
import Verif.Props.Distribution
import Verif.Props.Dynamics
import Verif.Props.EcRecord
import Verif.Props.Ellipse
import Verif.Props.Emission
import Verif.Props.EmitMean
import Verif.Props.Emitted
import Verif.Props.ErrF
import Verif.Props.Extract
import Verif.Props.FPAverage
import Verif.Props.FPEnergy
import Verif.Props.FPExtract
import Verif.Props.FPHelpers
import Verif.Props.FPMean
import Verif.Props.FPYield
import Verif.Props.Faddeeva
import Verif.Props.FileMan
import Verif.Props.Files
import Verif.Props.FrozenSlices
import Verif.Props.FullRun
import Verif.Props.GaussBeam
import Verif.Props.Geometry
import Verif.Props.Grid
import Verif.Props.Growth
import Verif.Props.ImpCounter
import Verif.Props.Impact
import Verif.Props.ImpactSpectra
import Verif.Props.InitCalls
import Verif.Props.Kick
import Verif.Props.LinearPart
import Verif.Props.Liouville
import Verif.Props.LoadMod
import Verif.Props.LogFile
import Verif.Props.MPSystem
import Verif.Props.MainOut
import Verif.Props.Mirror
import Verif.Props.MotionField
import Verif.Props.Observed
import Verif.Props.OutCopy
import Verif.Props.OutDict
import Verif.Props.Parallel
import Verif.Props.Photo
import Verif.Props.PhotoEnergy
import Verif.Props.PhotoSetup
import Verif.Props.PolyNp
import Verif.Props.Polygon
import Verif.Props.PrimaryMean
import Verif.Props.Profile
import Verif.Props.PyHT
import Verif.Props.Reaction
import Verif.Props.ReadNames
import Verif.Props.RefineTool
import Verif.Props.Refs
import Verif.Props.Regen
import Verif.Props.RegenNumber
import Verif.Props.RegenOk
import Verif.Props.Rejection
import Verif.Props.Reload
import Verif.Props.Resample
import Verif.Props.Restore
import Verif.Props.SaveReq
import Verif.Props.SaverHist
import Verif.Props.SaverSteps
import Verif.Props.Scale
import Verif.Props.SegShare
import Verif.Props.Setup
import Verif.Props.SimStep
import Verif.Props.SliceSize
import Verif.Props.Snapshots
import Verif.Props.Solo
import Verif.Props.Sources
import Verif.Props.Timing
import Verif.Props.Twin
import Verif.Props.Unbiased
import Verif.Props.Yield
import Verif.Props.YieldTable
import Verif.Spec.Accuracy
import Verif.Spec.AngleLaw
import Verif.Spec.AngleTool
import Verif.Spec.Balance
import Verif.Spec.BeamCharge
import Verif.Spec.BeamMap
import Verif.Spec.Beams
import Verif.Spec.Checkpoint
import Verif.Spec.Cloud
import Verif.Spec.Components
import Verif.Spec.Converge
import Verif.Spec.Coupled
import Verif.Spec.CrossMean
import Verif.Spec.Distribution
import Verif.Spec.EcRecord
import Verif.Spec.EmitMean
import Verif.Spec.FPExtract
import Verif.Spec.FPYield
import Verif.Spec.Faddeeva
import Verif.Spec.FullRun
import Verif.Spec.GaussBeam
import Verif.Spec.Geometry
import Verif.Spec.Grid
import Verif.Spec.Growth
import Verif.Spec.Hist
import Verif.Spec.History
import Verif.Spec.ImpCounter
import Verif.Spec.Impact
import Verif.Spec.InitCalls
import Verif.Spec.Ionisation
import Verif.Spec.LineField
import Verif.Spec.LinearPart
import Verif.Spec.Liouville
import Verif.Spec.LoadMod
import Verif.Spec.LogFile
import Verif.Spec.Mirror
import Verif.Spec.MirrorFields
import Verif.Spec.Motion
import Verif.Spec.OutDict
import Verif.Spec.Parallel
import Verif.Spec.Photo
import Verif.Spec.PrimaryMean
import Verif.Spec.PyHT
import Verif.Spec.Reaction
import Verif.Spec.ReadNames
import Verif.Spec.RefineTool
import Verif.Spec.Refs
import Verif.Spec.Regen
import Verif.Spec.RegenOk
import Verif.Spec.Rejection
import Verif.Spec.Reload
import Verif.Spec.Resample
import Verif.Spec.Restore
import Verif.Spec.Rounding
import Verif.Spec.Saver
import Verif.Spec.SaverHist
import Verif.Spec.Scale
import Verif.Spec.SegShare
import Verif.Spec.SimStep
import Verif.Spec.SliceSize
import Verif.Spec.Snapshots
import Verif.Spec.Solo
import Verif.Spec.Timing
import Verif.Spec.Unbiased
import Verif.Spec.YieldTable
