import Verif.Props.Strings
import Verif.Props.Path
import Verif.Props.CharStream
import Verif.Props.PropText
import Verif.Props.PropNode
import Verif.Props.Include
import Verif.Props.PropCast
import Verif.Props.Ini
import Verif.Props.Containers
import Verif.Props.Data
import Verif.Props.Tools
import Verif.Props.Log
import Verif.Props.Profiler
import Verif.Props.Text
import Verif.Props.FileSystem
import Verif.Props.Scalar
import Verif.Props.Rotation
import Verif.Props.RotationReal
import Verif.Props.Numeric
import Verif.Props.NumericFit
import Verif.Props.Filter
import Verif.Props.Delayer
import Verif.Props.DataAlgorithms
import Verif.Props.Xml
import Verif.Props.Real
import Verif.Props.Geometry
import Verif.Props.Basics
import Verif.Props.DataText
import Verif.Props.PropList
import Verif.Props.Report
import Verif.Props.StreamInt
import Verif.Props.BoundsText
import Verif.Props.DynArray
import Verif.Props.Spline
import Verif.Props.Timer
import Verif.Props.LogFile
import Verif.Props.FloatClamp
import Verif.Props.FloatWrap
import Verif.Props.FloatSoft
import Verif.Props.FloatAngle
import Verif.Props.FloatEquals
import Verif.Props.PropDoc
import Verif.Props.FloatInterp
import Verif.Props.FloatMean
import Verif.Props.FloatPoly
import Verif.Props.StreamReal
import Verif.Props.CutXml
import Verif.Props.CutProp
import Verif.Props.CutIni
import Verif.Props.FloatLength
import Verif.Props.FloatNormalize
import Verif.Props.FloatQuatNormalize
import Verif.Props.FrameChannels
import Verif.Props.FloatProducts
import Verif.Props.Random
import Verif.Props.RandomUniform
import Verif.Props.RandomNormal
import Verif.Props.Settings
import Verif.Props.FloatRotation
import Verif.Props.Hamilton
import Verif.Props.FloatTransform
import Verif.Props.FloatBox
import Verif.Props.FloatPiecewise
import Verif.Props.DebugFile
import Verif.Props.FloatDelayer
import Verif.Props.FloatAverage
import Verif.Props.ReportText
import Verif.Props.Threads
import Verif.Props.LogThreads
import Verif.Props.ProfilerThreads
import Verif.Proofs.PrintfReal
import Verif.Props.Printf
import Verif.Props.Rewrite
import Verif.Props.FloatSpline
import Verif.Props.PropMemory
import Verif.Props.PropAlias
import Verif.Props.FloatFilter
import Verif.Props.FloatStat
import Verif.Props.FloatRegression
import Verif.Props.StreamLife
import Verif.Props.MapRefs
import Verif.Props.DataRefs
import Verif.Props.MemoRec
import Verif.Props.DequeIter
import Verif.Props.CurrentFolder
import Verif.Props.Move
import Verif.Props.LogNested
import Verif.Props.LogStatic
import Verif.Props.DataThrow
import Verif.Props.PropRefs
import Verif.Props.FileProgram
import Verif.Props.CallDepth
import Verif.Props.FloatFrames
import Verif.Props.Layers
import Verif.Props.FloatAxes
import Verif.Props.FloatEuler
import Verif.Props.FloatAxisAngle
import Verif.Props.FloatDirections
import Verif.Props.FloatHeading
import Verif.Props.FloatPolar
import Verif.Props.FloatRegressionStep
import Verif.Props.TypeName
import Verif.Props.FloatSmooth
import Verif.Props.FileThreads
import Verif.Props.FileParts
import Verif.Props.ObjectThreads
import Verif.Props.OwnArg
import Verif.Props.FrameConst
import Verif.Props.Extrema
import Verif.Props.NoAssert
import Verif.Props.ErrorMacros
import Verif.Props.FloatCompare
import Verif.Props.Temporaries
import Verif.Props.IntAngle
import Verif.Props.IntStat
import Verif.Props.IntWrap
import Verif.Props.IntVec
import Verif.Props.IntPoly
