import Verif.Model.ArrowSession
import Verif.Model.Basic
import Verif.Model.Boundaries
import Verif.Model.ClickSession
import Verif.Model.Components
import Verif.Model.Crystal
import Verif.Model.CrystalUtils
import Verif.Model.Ctf
import Verif.Model.Datastore
import Verif.Model.Deformation
import Verif.Model.DerivedData
import Verif.Model.Dic
import Verif.Model.DicCrop
import Verif.Model.DicGrains
import Verif.Model.DicHistory
import Verif.Model.DicImages
import Verif.Model.DicNetwork
import Verif.Model.EbsdMap
import Verif.Model.Edax
import Verif.Model.Filter
import Verif.Model.FindGrains
import Verif.Model.FloodFill
import Verif.Model.Frames
import Verif.Model.GrainData
import Verif.Model.GrainMech
import Verif.Model.GrainPlot
import Verif.Model.GrainValues
import Verif.Model.Highlights
import Verif.Model.Hist
import Verif.Model.HomogTool
import Verif.Model.InspSession
import Verif.Model.InspTexts
import Verif.Model.Inspector
import Verif.Model.InspectorFile
import Verif.Model.IpfColour
import Verif.Model.LineTool
import Verif.Model.LinkedGrains
import Verif.Model.Linker
import Verif.Model.LoadData
import Verif.Model.MapFiles
import Verif.Model.MapPlot
import Verif.Model.MechSession
import Verif.Model.MisOriMap
import Verif.Model.MisoriGrains
import Verif.Model.Neighbours
import Verif.Model.Num
import Verif.Model.Oxford
import Verif.Model.PhaseBoundaryMap
import Verif.Model.PolePlot
import Verif.Model.Poles
import Verif.Model.Progress
import Verif.Model.Quat
import Verif.Model.QuatText
import Verif.Model.QuatValues
import Verif.Model.Rdr
import Verif.Model.RdrWindow
import Verif.Model.SlipBands
import Verif.Model.SlipText
import Verif.Model.SlipTexts
import Verif.Model.StatsTable
import Verif.Model.StoreHeap
import Verif.Model.StrainMaps
import Verif.Model.Text
import Verif.Model.UnitCell
import Verif.Model.WarpPoints
import Verif.Spec.AverageInvariant
import Verif.Spec.CrystalRotations
import Verif.Spec.Datastore
import Verif.Spec.DerivedData
import Verif.Spec.DicHistory
import Verif.Spec.FreeRegions
import Verif.Spec.Grains
import Verif.Spec.MisoriGrains
import Verif.Spec.Regions
import Verif.Spec.SlipText
import Verif.Spec.Touching
import Verif.Proofs.Boundaries
import Verif.Proofs.Datastore
import Verif.Proofs.DatastoreKeys
import Verif.Proofs.DatastoreOps
import Verif.Proofs.Dic
import Verif.Proofs.DicGrains
import Verif.Proofs.FillCore
import Verif.Proofs.FindGrains
import Verif.Proofs.FloodFill
import Verif.Proofs.FloodFillDic
import Verif.Proofs.GrainData
import Verif.Proofs.Inspector
import Verif.Proofs.InspectorText
import Verif.Proofs.IpfColour
import Verif.Proofs.Neighbours
import Verif.Proofs.NumText
import Verif.Proofs.Symmetry
import Verif.Proofs.Text
import Verif.Props.AffineMarks
import Verif.Props.ArrowSession
import Verif.Props.Average
import Verif.Props.AverageBest
import Verif.Props.AverageInvariant
import Verif.Props.Boundaries
import Verif.Props.ClickSession
import Verif.Props.CoarseNoise
import Verif.Props.ColourMaps
import Verif.Props.Components
import Verif.Props.CprOrder
import Verif.Props.CrcRecords
import Verif.Props.CrystalRotations
import Verif.Props.CtfRoundTrip
import Verif.Props.CutCpr
import Verif.Props.CutCtf
import Verif.Props.CutEdax
import Verif.Props.CutInspector
import Verif.Props.Datastore
import Verif.Props.DatastoreGen
import Verif.Props.DatastoreNet
import Verif.Props.Deformation
import Verif.Props.DerivedData
import Verif.Props.DicCheck
import Verif.Props.DicCrop
import Verif.Props.DicGrains
import Verif.Props.DicHistory
import Verif.Props.DicImages
import Verif.Props.DicNetwork
import Verif.Props.DicPlace
import Verif.Props.Edax
import Verif.Props.EdaxHeader
import Verif.Props.EquivIdc
import Verif.Props.Families
import Verif.Props.FamiliesHex
import Verif.Props.FamilyGroups
import Verif.Props.Filter
import Verif.Props.FindGrains
import Verif.Props.FloodFill
import Verif.Props.FloodFillDic
import Verif.Props.Frames
import Verif.Props.FundCubic
import Verif.Props.FundDirs
import Verif.Props.FundHex
import Verif.Props.FundTables
import Verif.Props.GrainBalance
import Verif.Props.GrainData
import Verif.Props.GrainMaps
import Verif.Props.GrainPlot
import Verif.Props.GrainValues
import Verif.Props.Grod
import Verif.Props.GrodErrors
import Verif.Props.GrodInvariant
import Verif.Props.Highlights
import Verif.Props.Hist
import Verif.Props.HistJoin
import Verif.Props.HomogTool
import Verif.Props.IncompleteFiles
import Verif.Props.Indices
import Verif.Props.InspSession
import Verif.Props.InspTexts
import Verif.Props.InspectorFile
import Verif.Props.IpfColour
import Verif.Props.IpfContinuous
import Verif.Props.IpfNear
import Verif.Props.Kam
import Verif.Props.KamBounds
import Verif.Props.LargestMisori
import Verif.Props.LargestSchmid
import Verif.Props.Lattice
import Verif.Props.LineFamilies
import Verif.Props.LineGroups
import Verif.Props.LineTool
import Verif.Props.LinkMargin
import Verif.Props.LinkedGrains
import Verif.Props.Linker
import Verif.Props.LoadData
import Verif.Props.MapFiles
import Verif.Props.MapPlot
import Verif.Props.MarkErrors
import Verif.Props.MechSession
import Verif.Props.MinSize
import Verif.Props.MisOriMap
import Verif.Props.MisoriAngle
import Verif.Props.MisoriDistance
import Verif.Props.MisoriGrains
import Verif.Props.MisoriInvariant
import Verif.Props.Neighbours
import Verif.Props.NetworkStability
import Verif.Props.Nye
import Verif.Props.NyeBound
import Verif.Props.NyeInvariant
import Verif.Props.OriNoise
import Verif.Props.PartMap
import Verif.Props.PercentileNoise
import Verif.Props.PhaseBoundaryMap
import Verif.Props.PoleArea
import Verif.Props.PoleDistance
import Verif.Props.PolePlot
import Verif.Props.ProfileNoise
import Verif.Props.Progress
import Verif.Props.Projections
import Verif.Props.ProxBounds
import Verif.Props.Quat
import Verif.Props.QuatEuler
import Verif.Props.QuatText
import Verif.Props.QuatValues
import Verif.Props.Rdr
import Verif.Props.RdrNoise
import Verif.Props.RdrWindow
import Verif.Props.ReadText
import Verif.Props.RotateMap
import Verif.Props.SameField
import Verif.Props.SavedGrains
import Verif.Props.Schmid
import Verif.Props.SchmidChange
import Verif.Props.SlipBands
import Verif.Props.SlipFiles
import Verif.Props.SlipLine
import Verif.Props.SlipSymmetry
import Verif.Props.SlipSystems
import Verif.Props.SlipText
import Verif.Props.SlipTexts
import Verif.Props.StatsTable
import Verif.Props.StoreHeap
import Verif.Props.StrainMaps
import Verif.Props.StrainNoise
import Verif.Props.SymTables
import Verif.Props.Symmetry
import Verif.Props.TraceChange
import Verif.Props.TurnedGrains
import Verif.Props.TurnedSample
import Verif.Props.UnitCell
import Verif.Props.WarpGrains
import Verif.Props.WarpPoints
import Verif.Props.WarpRoundTrip
