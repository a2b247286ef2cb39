import Verif.Cluster.LoopProps
import Verif.Evaluator.Props
import Verif.Function.Props
import Verif.Parts.Residual
import Verif.Peaks.Estimate
import Verif.Covariance.Transform
import Verif.PeakList.Props
import Verif.ModelCluster.Props
import Verif.ModelCluster.Fit
import Verif.ModelCluster.Join
import Verif.ModelCluster.AugmentBest
import Verif.Baseline.Nano
import Verif.Cluster.ByCoord
import Verif.Cluster.Units
import Verif.Cluster.Display
import Verif.Extraction.Vars
import Verif.Pdf.Resample
import Verif.Pdf.Vars
import Verif.Multimodel.Rank
import Verif.DataSet.Props
import Verif.Srmiselog.Props
import Verif.Extract.Estimate
import Verif.Extract.Fitting
import Verif.Extract.Join
import Verif.App.Props
import Verif.Text.Parts
import Verif.Text.Function
import Verif.Text.ClusterProps
import Verif.Text.AloneMain
import Verif.Text.FamilyMain
import Verif.Text.ExtractionProps
import Verif.Multimodel.StateProps
import Verif.PdfExtract.Shape
import Verif.Stability.Example
import Verif.Ripples.Value
import Verif.Extract.TotalProps
import Verif.Plot.Example
import Verif.Plot.Main
import Verif.ModelCluster.Example
import Verif.Instances.Records
import Verif.Instances.Base
import Verif.Instances.Data
import Verif.Text.PwaProps
import Verif.Text.PwaGauss
import Verif.Pdf.ResetProps
import Verif.Extraction.RangeCell
import Verif.History.Main
import Verif.Pdf.QmaxExample
import Verif.ModelCluster.ValueExample
import Verif.Extract.CodeExample
import Verif.Covariance.Blocks
import Verif.Extract.CovExample
import Verif.Package.Example
import Verif.Package.MatchExample
import Verif.PdfExtract.Cov
import Verif.App.Run
import Verif.Units.Props
import Verif.Held.Props
import Verif.Units.PdfProps
import Verif.Repeat.Props
import Verif.Repeat.Stability
import Verif.Order.Props
import Verif.Order.Range
import Verif.Extract.PlotProps
import Verif.Shared.Example
import Verif.Refit.Main
import Verif.Convert.Main
import Verif.Cluster.Equal
import Verif.Print.Main
import Verif.Build.Main
import Verif.Text.FileMain
import Verif.Slice.Main
import Verif.Animate.Main
import Verif.Plot3d.Main
