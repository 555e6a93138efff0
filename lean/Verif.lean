import Verif.Base.Float
import Verif.Base.Mem
import Verif.Model.Kiss
import Verif.Model.Env
import Verif.Model.Util
import Verif.Model.Methods
import Verif.Model.Analysis
import Verif.Spec.Scores
import Verif.Spec.Basic
import Verif.Spec.Bindings
import Verif.Spec.Results
import Verif.Spec.History
import Verif.Spec.Demo
import Verif.Proofs.FloatLemmas
import Verif.Proofs.Loops
import Verif.Proofs.MethodLemmas
import Verif.Proofs.Temp
import Verif.Proofs.Butterfly
import Verif.Proofs.Factor
import Verif.Proofs.KissSafe
import Verif.Proofs.AnalysisLemmas
import Verif.Proofs.Tri
import Verif.Proofs.CreateLemmas
import Verif.Proofs.ResultsLemmas
import Verif.Proofs.HistoryLemmas
import Verif.Proofs.ScoreLemmas
import Verif.Props.Results
import Verif.Proofs.EraseLemmas
import Verif.Props.History
import Verif.Spec.Plenty
import Verif.Spec.Sequential
import Verif.Proofs.DetectLemmas
import Verif.Props.Memory
import Verif.Proofs.ListLemmas
import Verif.Proofs.PointLemmas
import Verif.Props.Params
import Verif.Props.Scores
import Verif.Base.Stream
import Verif.Model.Image.File
import Verif.Model.Image.Pgm
import Verif.Model.Image.Pfm
import Verif.Model.Image.Y4m
import Verif.Model.Image.Jpeg
import Verif.Model.Image.Png
import Verif.Model.Image.Magick
import Verif.Model.Image.Ffmpeg
import Verif.Model.Image
import Verif.Spec.Image
import Verif.Spec.Reader
import Verif.Proofs.Own
import Verif.Proofs.ImageLoops
import Verif.Proofs.ReaderSound
import Verif.Proofs.ImageLemmas
import Verif.Proofs.StreamLemmas
import Verif.Proofs.Play
import Verif.Proofs.ReadAll
import Verif.Proofs.ApiLemmas
import Verif.Spec.DemoImage
import Verif.Proofs.OpenLemmas
import Verif.Props.Open
import Verif.Proofs.BulkLemmas
import Verif.Props.Bulk
import Verif.Proofs.Seek
import Verif.Spec.Formats
import Verif.Proofs.Scan
import Verif.Proofs.PgmFormat
import Verif.Proofs.Runs
import Verif.Proofs.AnyFile
import Verif.Props.Readers
import Verif.Proofs.Y4mFormat
import Verif.Proofs.PfmFormat
import Verif.Proofs.Wild
import Verif.Proofs.SeekAny
import Verif.Spec.DemoFiles
import Verif.Props.Formats
import Verif.Spec.Fourier
import Verif.Proofs.Fourier
import Verif.Proofs.KissExact
import Verif.Proofs.FactorPrime
import Verif.Proofs.KissStill
import Verif.Spec.Upscale
import Verif.Proofs.Upscale
import Verif.Proofs.FullScore
import Verif.Spec.DemoTransform
import Verif.Props.Transform
import Verif.Model.Cli
import Verif.Spec.Cli
import Verif.Proofs.CliOptions
import Verif.Proofs.CliLemmas
import Verif.Proofs.Quiet
import Verif.Proofs.CliWants
import Verif.Proofs.CliRun
import Verif.Proofs.Outlook
import Verif.Proofs.Presents
import Verif.Spec.Presents
import Verif.Proofs.Loop
import Verif.Proofs.Feed
import Verif.Proofs.CliMain
import Verif.Props.Cli
import Verif.Model.Tools
import Verif.Model.ToolsOutput
import Verif.Spec.Tools
import Verif.Spec.Profile
import Verif.Proofs.Bits
import Verif.Proofs.ImgRead
import Verif.Proofs.StatLemmas
import Verif.Proofs.Fences
import Verif.Proofs.ToolLemmas
import Verif.Proofs.ProfileLemmas
import Verif.Props.Tools
import Verif.Proofs.Profile
import Verif.Props.Profile
import Verif.Model.Bindings
import Verif.Props.Bindings
import Verif.Spec.FloatText
import Verif.Spec.Lax
import Verif.Proofs.FloatText
import Verif.Proofs.Lax
import Verif.Props.Lax
import Verif.Proofs.Rounding
import Verif.Proofs.KissError
import Verif.Proofs.DctError
import Verif.Spec.Accuracy
import Verif.Proofs.FlRounded
import Verif.Spec.DemoAccuracy
import Verif.Props.Accuracy
import Verif.Spec.External
import Verif.Proofs.Player
import Verif.Proofs.Tidy
import Verif.Proofs.JpegLemmas
import Verif.Proofs.JpegDead
import Verif.Proofs.JpegPlay
import Verif.Spec.DemoExternal
import Verif.Props.External
import Verif.Proofs.PngLemmas
import Verif.Proofs.PngRows
import Verif.Proofs.PngPlay
import Verif.Proofs.PngInterlace
import Verif.Spec.PngRow
import Verif.Proofs.PngRow
import Verif.Props.Png
import Verif.Proofs.MagickPlay
import Verif.Props.Magick
import Verif.Proofs.FfmpegPlay
import Verif.Props.Ffmpeg
import Verif.Props.Libraries
import Verif.Spec.Wrappers
import Verif.Proofs.Wrappers
import Verif.Props.Wrappers
import Verif.Proofs.Broken
import Verif.Props.Broken
import Verif.Model.CliText
import Verif.Model.CliOutput
import Verif.Spec.CliText
import Verif.Proofs.CliText
import Verif.Proofs.CliRead
import Verif.Props.CliText
import Verif.Model.PyObjects
import Verif.Spec.PyObjects
import Verif.Proofs.PyObjects
import Verif.Props.PyObjects
import Verif.Spec.Evidence
import Verif.Proofs.Evidence
import Verif.Props.Evidence
import Verif.Spec.Interpolate
import Verif.Proofs.Interpolate
import Verif.Proofs.Linear
import Verif.Props.Interpolate
import Verif.Spec.Resample
import Verif.Proofs.Resample
import Verif.Proofs.Curves
import Verif.Props.Resample
import Verif.Spec.Mirror
import Verif.Proofs.Mirror
import Verif.Props.Mirror
import Verif.Spec.EndToEnd
import Verif.Proofs.EndToEnd
import Verif.Props.EndToEnd
import Verif.Model.Getopt
import Verif.Spec.Words
import Verif.Proofs.Getopt
import Verif.Proofs.Words
import Verif.Props.Words
import Verif.Spec.Video
import Verif.Proofs.Video
import Verif.Props.Video
import Verif.Proofs.Rounded
import Verif.Props.Rounded
import Verif.Props.Library
import Verif.Props.Commands
import Verif.Model.Numpy
import Verif.Spec.Views
import Verif.Proofs.Repeat
import Verif.Proofs.Numpy
import Verif.Props.Repeat
import Verif.Props.Numpy
import Verif.Spec.Limit
import Verif.Proofs.Limit
import Verif.Props.Limit
import Verif.Model.Layout
import Verif.Spec.Layout
import Verif.Proofs.Layout
import Verif.Props.Layout
import Verif.Model.CObjects
import Verif.Spec.CObjects
import Verif.Proofs.CObjects
import Verif.Proofs.Lasting
import Verif.Props.CObjects
import Verif.Spec.AnyMethod
import Verif.Proofs.BracketList
import Verif.Proofs.AnyMethod
import Verif.Props.AnyMethod
import Verif.Spec.PyResults
import Verif.Proofs.PyResults
import Verif.Proofs.PyAmply
import Verif.Props.PyResults
import Verif.Model.JsObjects
import Verif.Spec.JsResults
import Verif.Proofs.JsResults
import Verif.Props.JsResults
import Verif.Tests.Suite
import Verif.Spec.CliOutput
import Verif.Proofs.CliOutput
import Verif.Proofs.CliTold
import Verif.Props.CliOutput
import Verif.Spec.ToolsOutput
import Verif.Proofs.ToolsText
import Verif.Proofs.ProfileOut
import Verif.Props.ToolsOutput
import Verif.Model.Configure
import Verif.Spec.Configure
import Verif.Proofs.Configure
import Verif.Props.Configure
import Verif.Spec.Heights
import Verif.Proofs.HeightLemmas
import Verif.Props.Heights
import Verif.Proofs.Order
import Verif.Props.Order
import Verif.Spec.Black
import Verif.Proofs.Black
import Verif.Props.Black
import Verif.Proofs.Flat
import Verif.Props.Flat
import Verif.Spec.Dilute
import Verif.Props.Dilute
import Verif.Spec.Join
import Verif.Props.Join
