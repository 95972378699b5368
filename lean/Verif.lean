import Verif.Props.Arith
import Verif.Props.BicubicFlt
import Verif.Props.Bilateral
import Verif.Props.BilateralByte
import Verif.Props.Bundle
import Verif.Props.Butterworth
import Verif.Props.CanvasSpecial
import Verif.Props.CliAbs
import Verif.Props.CliBasic
import Verif.Props.CliBinary
import Verif.Props.CliCompose
import Verif.Props.CliCount
import Verif.Props.CliDistance
import Verif.Props.CliFit
import Verif.Props.CliImage
import Verif.Props.CliScalar
import Verif.Props.CliSift
import Verif.Props.CliSignal
import Verif.Props.CliTransform
import Verif.Props.Color
import Verif.Props.Conv
import Verif.Props.Core
import Verif.Props.Crash
import Verif.Props.CrashSave
import Verif.Props.Cuda
import Verif.Props.CudaStitch
import Verif.Props.DctRounded
import Verif.Props.Depth
import Verif.Props.DftRounded
import Verif.Props.Distance
import Verif.Props.DogFlt
import Verif.Props.Draw
import Verif.Props.Elements
import Verif.Props.Elementwise
import Verif.Props.EmptyImage
import Verif.Props.Figure
import Verif.Props.Filter
import Verif.Props.FilterFlt
import Verif.Props.FisheyeFlt
import Verif.Props.Fit
import Verif.Props.FitSpecial
import Verif.Props.Flt
import Verif.Props.Generate
import Verif.Props.Geometry
import Verif.Props.Hist
import Verif.Props.HistClass
import Verif.Props.HistFlt
import Verif.Props.HistSpecial
import Verif.Props.Homography
import Verif.Props.HueFlt
import Verif.Props.IntElem
import Verif.Props.IntensityFlt
import Verif.Props.Interp
import Verif.Props.InvertFlt
import Verif.Props.InvokeType
import Verif.Props.Io
import Verif.Props.IoHandles
import Verif.Props.IsInteger
import Verif.Props.Jacobi
import Verif.Props.LinAlg
import Verif.Props.LoadFailure
import Verif.Props.Locks
import Verif.Props.Match
import Verif.Props.MatchSpecial
import Verif.Props.MulFlt
import Verif.Props.NormalDist
import Verif.Props.Optimizer
import Verif.Props.OtsuFlt
import Verif.Props.Parallel
import Verif.Props.Pipeline
import Verif.Props.PixelTypes
import Verif.Props.Pixelwise
import Verif.Props.Plugin
import Verif.Props.Print
import Verif.Props.PrintMat
import Verif.Props.Progress
import Verif.Props.ReadDuring
import Verif.Props.Recursive
import Verif.Props.RefineSpecial
import Verif.Props.Renumber
import Verif.Props.Resample
import Verif.Props.Rotate
import Verif.Props.Rounded
import Verif.Props.Session
import Verif.Props.SessionContainer
import Verif.Props.Sift
import Verif.Props.SiftDescriptor
import Verif.Props.SolveSpecial
import Verif.Props.Special
import Verif.Props.SpecialPix
import Verif.Props.Stitch
import Verif.Props.StitchFind
import Verif.Props.StitchSpecial
import Verif.Props.Text
import Verif.Props.Transform
import Verif.Props.TransformContainer
import Verif.Props.TurnedFilter
import Verif.Props.TwoRuns
import Verif.Props.TypeName
import Verif.Props.Variadic
import Verif.Props.Volume
import Verif.Props.VolumeVec
import Verif.Props.WarpSpecial
import Verif.Props.Workspace
import Verif.Props.Wrappers
