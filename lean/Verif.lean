import Verif.Model.AltAz
import Verif.Model.Arrays
import Verif.Model.BandpassTransfer
import Verif.Model.Basic
import Verif.Model.BeamBaseline
import Verif.Model.BeamImage
import Verif.Model.CalApply
import Verif.Model.CalAuto
import Verif.Model.CalChain
import Verif.Model.CalFlag
import Verif.Model.CalPoly
import Verif.Model.CalReflect
import Verif.Model.CalRun
import Verif.Model.CalSolve
import Verif.Model.CalStats
import Verif.Model.Calibrate
import Verif.Model.CalibrateFlag
import Verif.Model.CalibrateReflect
import Verif.Model.ColorScale
import Verif.Model.DataSetup
import Verif.Model.Degrid
import Verif.Model.ExportCubes
import Verif.Model.ExportFiles
import Verif.Model.ExportWeights
import Verif.Model.Filters
import Verif.Model.FlaggedRun
import Verif.Model.Flagging
import Verif.Model.FloatGrid
import Verif.Model.FloatHist
import Verif.Model.FloatSum
import Verif.Model.FreqSplit
import Verif.Model.GridOptions
import Verif.Model.Gridding
import Verif.Model.Healpix
import Verif.Model.HealpixPixels
import Verif.Model.Histogram
import Verif.Model.Imaging
import Verif.Model.LazyBeam
import Verif.Model.ModelImport
import Verif.Model.ModelVis
import Verif.Model.ObsCreate
import Verif.Model.ObsMeta
import Verif.Model.Options
import Verif.Model.OutputFiles
import Verif.Model.Pipeline
import Verif.Model.Planes
import Verif.Model.PlotCurves
import Verif.Model.PolyTrim
import Verif.Model.QUMix
import Verif.Model.QuickLayout
import Verif.Model.Quickview
import Verif.Model.Rebin
import Verif.Model.Regions
import Verif.Model.RunDir
import Verif.Model.SavImport
import Verif.Model.Setup
import Verif.Model.Sky
import Verif.Model.Storage
import Verif.Model.StorageLists
import Verif.Model.TestData
import Verif.Model.TestTools
import Verif.Model.UnitConv
import Verif.Model.UvfitsHeader
import Verif.Model.VisFlag
import Verif.Model.WholeExport
import Verif.Model.WholeRun
import Verif.Spec.Arrays
import Verif.Spec.Flagging
import Verif.Spec.Gridding
import Verif.Spec.Histogram
import Verif.Lemmas.Arrays
import Verif.Lemmas.Dedup
import Verif.Lemmas.Flagging
import Verif.Lemmas.FloatRound
import Verif.Lemmas.Gridding
import Verif.Lemmas.Histogram
import Verif.Props.AltAz
import Verif.Props.Arrays
import Verif.Props.AutoRenumber
import Verif.Props.BandpassTransfer
import Verif.Props.BeamBaseline
import Verif.Props.BeamCube
import Verif.Props.BeamImage
import Verif.Props.CalApply
import Verif.Props.CalApplyMore
import Verif.Props.CalAuto
import Verif.Props.CalChain
import Verif.Props.CalConverge
import Verif.Props.CalFew
import Verif.Props.CalFlag
import Verif.Props.CalPoly
import Verif.Props.CalReflect
import Verif.Props.CalRenumber
import Verif.Props.CalRun
import Verif.Props.CalSolve
import Verif.Props.CalStats
import Verif.Props.CalStep
import Verif.Props.Calibrate
import Verif.Props.CalibrateReflMore
import Verif.Props.CalibrateReflRelations
import Verif.Props.CalibrateReflect
import Verif.Props.CalibrateRelations
import Verif.Props.CalibrateRenumber
import Verif.Props.ColorScale
import Verif.Props.DataSetup
import Verif.Props.Degrid
import Verif.Props.EndToEnd
import Verif.Props.ExportCubes
import Verif.Props.ExportWeights
import Verif.Props.Filters
import Verif.Props.FlagRenumber
import Verif.Props.FlagTwice
import Verif.Props.FlaggedRun
import Verif.Props.FlaggedRunGains
import Verif.Props.FlaggedRunSame
import Verif.Props.FlaggedRunSum
import Verif.Props.FlaggedRunTwice
import Verif.Props.Flagging
import Verif.Props.FloatGrid
import Verif.Props.FloatHist
import Verif.Props.FloatSum
import Verif.Props.FreqSplit
import Verif.Props.GaussBeam
import Verif.Props.GridLocations
import Verif.Props.GridOptions
import Verif.Props.Healpix
import Verif.Props.HealpixPixels
import Verif.Props.HealpixSmooth
import Verif.Props.Histogram
import Verif.Props.ImageRelations
import Verif.Props.Imaging
import Verif.Props.ImagingOpts
import Verif.Props.LazyBeam
import Verif.Props.ModelImport
import Verif.Props.ModelVis
import Verif.Props.NoResidual
import Verif.Props.ObsCreate
import Verif.Props.ObsMeta
import Verif.Props.Options
import Verif.Props.OutputFiles
import Verif.Props.Pipeline
import Verif.Props.Planes
import Verif.Props.PlotCurves
import Verif.Props.PolyTrim
import Verif.Props.QUMix
import Verif.Props.QuickLayout
import Verif.Props.Quickview
import Verif.Props.Rebin
import Verif.Props.ReflectRenumber
import Verif.Props.Regions
import Verif.Props.Relations
import Verif.Props.RelationsFifth
import Verif.Props.RelationsFourth
import Verif.Props.RelationsMore
import Verif.Props.RelationsThird
import Verif.Props.RunDir
import Verif.Props.RunFiles
import Verif.Props.SavImport
import Verif.Props.Setup
import Verif.Props.SetupNames
import Verif.Props.Sky
import Verif.Props.SpectralPlane
import Verif.Props.SplitWeights
import Verif.Props.Storage
import Verif.Props.StorageLists
import Verif.Props.TestData
import Verif.Props.TestTools
import Verif.Props.Tightened
import Verif.Props.TightenedEighth
import Verif.Props.TightenedFifth
import Verif.Props.TightenedFourth
import Verif.Props.TightenedMore
import Verif.Props.TightenedNinth
import Verif.Props.TightenedSeventh
import Verif.Props.TightenedSixth
import Verif.Props.TightenedThird
import Verif.Props.UnitConv
import Verif.Props.UvfitsHeader
import Verif.Props.VisFlag
import Verif.Props.VisGrid
import Verif.Props.WeightsUpdate
import Verif.Props.WholeExport
import Verif.Props.WholeExportDirection
import Verif.Props.WholeExportNumbers
import Verif.Props.WholeExportSets
import Verif.Props.WholeExportSum
import Verif.Props.WholeExportUnits
import Verif.Props.WholeRun
import Verif.Props.WholeRunAgain
import Verif.Props.WholeRunDirection
import Verif.Props.WholeRunGains
import Verif.Props.WholeRunImages
import Verif.Props.WholeRunMore
import Verif.Props.WholeRunOrder
import Verif.Props.WholeRunRenumber
import Verif.Props.WholeRunSum
