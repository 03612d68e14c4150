import Verif.Props.Splitters
import Verif.Props.IndicesFiles
import Verif.Props.Queue
import Verif.Props.Distribution
import Verif.Props.ResultDir
import Verif.Props.Complete
import Verif.Props.Executors
import Verif.Props.Servers
import Verif.Props.Multi
import Verif.Props.ResultsFiles
import Verif.Props.JobDir
import Verif.Props.Compute
import Verif.Props.Piv
import Verif.Props.Preproc
import Verif.Props.GroupsLive
import Verif.Props.Builder
import Verif.Props.TimeFormat
import Verif.Props.Uvmat
import Verif.Props.PivGrid
import Verif.Props.Correl
import Verif.Props.CorrelDirect
import Verif.Props.LoopVectors
import Verif.Props.MeanNeighbors
import Verif.Props.Fix
import Verif.Props.Tps
import Verif.Props.Mask
import Verif.Props.PivResults
import Verif.Props.Names
import Verif.Props.PreprocSave
import Verif.Props.GridFinal
import Verif.Props.VectorField
import Verif.Props.Spectrum
import Verif.Props.CorrelFft
import Verif.Props.Calibration
import Verif.Props.Stereo
import Verif.Props.Tomo
import Verif.Props.PreprocTools
import Verif.Props.OpticalFlow
import Verif.Props.Mean
import Verif.Props.Bos
import Verif.Props.CorrectCouple
import Verif.Props.SurfaceTracking
import Verif.Props.ServersLive
import Verif.Props.Multipass
import Verif.Props.Session
import Verif.Props.Multiproc
import Verif.Props.LogFile
import Verif.Props.TpsWeights
import Verif.Props.ApplyInterp
import Verif.Props.UvmatFile
import Verif.Props.SurfaceFrame
import Verif.Props.SurfaceHeight
import Verif.Props.SurfacePhase
import Verif.Props.FieldOps
import Verif.Props.Monitor
import Verif.Props.Pipes
import Verif.Props.Im2Im
import Verif.Props.Synthetic
import Verif.Props.Launch
import Verif.Props.ServerSide
import Verif.Props.Viewer
import Verif.Props.Brightness
import Verif.Props.StopSignal
import Verif.Props.DirectCalib
import Verif.Props.Recover
import Verif.Props.CorrelScipy
import Verif.Props.Subpix
import Verif.Props.LaterPass
import Verif.Props.MultiSignal
import Verif.Props.WholePiv
import Verif.Props.WholePivFirst
import Verif.Props.WholeVectors
import Verif.Props.TryWork
import Verif.Props.Plugins
import Verif.Props.WholeRun
import Verif.Props.WholeImages
import Verif.Props.WholeReplaced
import Verif.Props.WholePreproc
import Verif.Props.WholeSeries
import Verif.Props.Threads
import Verif.Props.DisplayPiv
import Verif.Props.WholeSurface
import Verif.Props.SurfaceSubset
import Verif.Props.TomoArray
import Verif.Props.CalibCamera
import Verif.Props.WholeTomo
import Verif.Props.FieldSeries
import Verif.Props.FieldDisplay
import Verif.Props.SpatialFft
import Verif.Props.DisplayPre
import Verif.Props.SavePiv
import Verif.Props.CoupleFile
import Verif.Props.LogPlot
import Verif.Props.ComputeAgain
import Verif.Props.MonitorTimes
import Verif.Props.ViewerFiles
import Verif.Props.PreprocCv
import Verif.Props.TsaiField
import Verif.Props.OldPostproc
import Verif.Props.ExceptionFiles
import Verif.Props.TpsLoops
import Verif.Props.CorrelCuda
import Verif.Props.WholePivOne
import Verif.Props.Graphviz
import Verif.Props.WholePivTps
import Verif.Props.SubpixPeaks
import Verif.Props.MeanCommand
import Verif.Props.Together
import Verif.Props.PreprocFormat
import Verif.Props.ExampleTopology
import Verif.Props.ImageSamples
import Verif.Props.PreprocSeries
import Verif.Props.PreprocParams
import Verif.Props.DirectFiles
import Verif.Props.UvmatCalib
import Verif.Props.LauncherWindow
import Verif.Props.WorkKinds
import Verif.Props.UtilFunctions
import Verif.Props.TomoBlocks
import Verif.Props.ExitText
import Verif.Props.PgViewer
import Verif.Props.TargetDetect
import Verif.Props.LogDurations
import Verif.Props.BosReference
import Verif.Props.MonitorParams
import Verif.Props.DisplayPivImages
import Verif.Props.DisplayPivHist
import Verif.Props.TomoPlot
