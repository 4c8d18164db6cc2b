import Verif.Props.OneDSlicer
import Verif.Props.NDSlicer
import Verif.Props.TimeSlicers
import Verif.Props.BundleGroup
import Verif.Props.ReqCols
import Verif.Props.Stackers
import Verif.Props.Masked
import Verif.Props.ResultsDb
import Verif.Props.TrackingDb
import Verif.Props.ArchiveTags
import Verif.Props.ArchiveFiles
import Verif.Props.ArchiveSims
import Verif.Props.ChebEval
import Verif.Props.ChebFit
import Verif.Props.ChebySegs
import Verif.Props.Names
import Verif.Props.Bins
import Verif.Props.Dates
import Verif.Props.Angles
import Verif.Props.Counts
import Verif.Props.RealMetrics
import Verif.Props.TechMetrics
import Verif.Props.VisitGroups
import Verif.Props.Gaps
import Verif.Props.Cadence
import Verif.Props.VectorMetrics
import Verif.Props.AreaMetrics
import Verif.Props.Seasons
import Verif.Props.StringCount
import Verif.Props.Pairs
import Verif.Props.MoCounts
import Verif.Props.MoNights
import Verif.Props.MoColors
import Verif.Props.MoDiscovery
import Verif.Props.MoSummary
import Verif.Props.Spectres
import Verif.Props.Sed
import Verif.Props.SedObj
import Verif.Props.Snr
import Verif.Props.Noise
import Verif.Props.Dust
import Verif.Props.Bandpass
import Verif.Props.SedFiles
import Verif.Props.MoStackers
import Verif.Props.MoreStackers
import Verif.Props.Orbits
import Verif.Props.OrbitFiles
import Verif.Props.DirectObs
import Verif.Props.Ephemerides
import Verif.Props.SpatialSlicers
import Verif.Props.SpatialPoints
import Verif.Props.SlicerFiles
import Verif.Props.MoSlicer
import Verif.Props.MoBundles
import Verif.Props.StackerEq
import Verif.Props.Transient
import Verif.Props.Periodic
import Verif.Props.Astrometry
import Verif.Props.Depth
import Verif.Props.Template
import Verif.Props.Cosmology
import Verif.Props.Selfcal
import Verif.Props.Satellites
import Verif.Props.Maps
import Verif.Props.BaseMetric
import Verif.Props.GalPlane
import Verif.Props.SkyInterp
import Verif.Props.SkyModel
import Verif.Props.Comparison
import Verif.Props.Crowding
import Verif.Props.ColorSlope
import Verif.Props.Web
import Verif.Props.Opsim
import Verif.Props.Hourglass
import Verif.Props.Batches
import Verif.Props.Contrib
import Verif.Props.Grb
import Verif.Props.Stars
import Verif.Props.Lens
import Verif.Props.Kne
import Verif.Props.Xrb
import Verif.Props.Yso
import Verif.Props.PerStar
import Verif.Props.Surf
import Verif.Props.Few
import Verif.Props.SnN
import Verif.Props.SnEff
import Verif.Props.SnRates
import Verif.Props.PlotH
import Verif.Props.Plotters
import Verif.Props.Dwarf
import Verif.Props.SedT
import Verif.Props.SsPipe
import Verif.Props.Tools
import Verif.Props.SnSnr
import Verif.Props.Proto
import Verif.Props.Snapshot
import Verif.Props.VsOps
import Verif.Props.LensCmp
import Verif.Props.Small
import Verif.Props.Eso
import Verif.Props.HgPlot
import Verif.Props.BundleSet
import Verif.Props.SkyPlot
import Verif.Props.Batch2
import Verif.Props.SedCache
import Verif.Props.SkyState
import Verif.Props.Batch3
import Verif.Props.Odds
import Verif.Props.MoBatch
import Verif.Props.Meanz
import Verif.Props.SumPlots
import Verif.Props.SharedSlice
import Verif.Props.NightStats
import Verif.Props.OrbitPlots
import Verif.Props.ChebyFit
import Verif.Props.SnResult
import Verif.Props.SnPoints
import Verif.Props.TwiSpec
import Verif.Props.MoonLight
import Verif.Props.PlotNames
import Verif.Props.FracColors
import Verif.Props.HCurves
