import Verif.Date.Model
import Verif.Date.Spec
import Verif.Date.Lemmas
import Verif.Date.Props
import Verif.Qai.Model
import Verif.Qai.Spec
import Verif.Qai.Lemmas
import Verif.Qai.Props
import Verif.Queue.Model
import Verif.Queue.Spec
import Verif.Queue.Props
import Verif.Float
import Verif.Pipeline.Model
import Verif.Pipeline.Spec
import Verif.Pipeline.Lemmas
import Verif.Pipeline.Props
import Verif.Libc.Model
import Verif.Libc.Lemmas
import Verif.Tile.Model
import Verif.Tile.Spec
import Verif.Tile.Lemmas
import Verif.Tile.Props
import Verif.Cube.Model
import Verif.Cube.Spec
import Verif.Cube.Props
import Verif.Brick.Model
import Verif.Brick.Spec
import Verif.Brick.Lemmas
import Verif.Brick.Props
import Verif.Str.Model
import Verif.Str.Spec
import Verif.Str.Props
import Verif.Str.Props2
import Verif.Param.Model
import Verif.Param.Spec
import Verif.Param.Lemmas
import Verif.Param.Props
import Verif.Season.Model
import Verif.Season.Spec
import Verif.Season.Props
import Verif.Stats.Model
import Verif.Stats.Spec
import Verif.Stats.Props
import Verif.Interp.Model
import Verif.Interp.Spec
import Verif.Interp.Props
import Verif.FloatErr
import Verif.Fold.Model
import Verif.Fold.Spec
import Verif.Fold.Props
import Verif.Fold.Stm
import Verif.Recon.Model
import Verif.Recon.Spec
import Verif.Recon.Props
import Verif.Dist.Model
import Verif.Dist.Spec
import Verif.Dist.Props
import Verif.Buffer.Model
import Verif.Buffer.Spec
import Verif.Buffer.Props
import Verif.Buffer.Fill
import Verif.Noise.Model
import Verif.Noise.Spec
import Verif.Noise.Props
import Verif.Table.Model
import Verif.Table.Spec
import Verif.Table.Props
import Verif.Bap.Model
import Verif.Bap.Spec
import Verif.Bap.Props
import Verif.Bap.Props2
import Verif.Cso.Model
import Verif.Cso.Spec
import Verif.Cso.Props
import Verif.L2queue.Model
import Verif.L2queue.Spec
import Verif.L2queue.Props
import Verif.Sample.Model
import Verif.Sample.Spec
import Verif.Sample.Props
import Verif.Strat.Model
import Verif.Strat.Spec
import Verif.Strat.Props
import Verif.Trend.Model
import Verif.Trend.Spec
import Verif.Trend.Props
import Verif.Trend.Change
import Verif.Polar.Model
import Verif.Polar.Spec
import Verif.Polar.Lemmas
import Verif.Polar.Day
import Verif.Polar.Events
import Verif.Polar.Props
import Verif.Sensor.Model
import Verif.Sensor.Spec
import Verif.Sensor.Lemmas
import Verif.Sensor.Props
import Verif.Sensor.IndexProps
import Verif.Sensor.Examples
import Verif.Index.Model
import Verif.Index.Spec
import Verif.Index.Lemmas
import Verif.Index.DiffProps
import Verif.Index.ResProps
import Verif.Index.LinProps
import Verif.Index.KernelProps
import Verif.Index.RatioProps
import Verif.Index.SeriesProps
import Verif.Index.Examples
import Verif.Unmix.Model
import Verif.Unmix.Spec
import Verif.Unmix.Term
import Verif.Unmix.Opt
import Verif.Unmix.Props
import Verif.Halo.Model
import Verif.Halo.Spec
import Verif.Halo.Lemmas
import Verif.Halo.Props
import Verif.Halo.Examples
import Verif.Ccl.Model
import Verif.Ccl.Spec
import Verif.Ccl.Dir
import Verif.Ccl.Orbit
import Verif.Ccl.Parity
import Verif.Ccl.Separate
import Verif.Ccl.Trace
import Verif.Ccl.Scan
import Verif.Ccl.Props
import Verif.Ccl.Examples
import Verif.Lsm.Model
import Verif.Lsm.Spec
import Verif.Lsm.Lemmas
import Verif.Lsm.View
import Verif.Lsm.Threads
import Verif.Lsm.Props
import Verif.Lsm.Patches
import Verif.Lsm.Metrics
import Verif.Lsm.Stripes
import Verif.Lsm.Examples
import Verif.Ml.Model
import Verif.Ml.Spec
import Verif.Ml.Lemmas
import Verif.Ml.Props
import Verif.Ml.Prob
import Verif.Ml.Examples
import Verif.Lib.Model
import Verif.Lib.Spec
import Verif.Lib.Props
import Verif.Lib.Examples
import Verif.Ovv.Model
import Verif.Ovv.Props
import Verif.Ovv.Examples
import Verif.Imp.Model
import Verif.Imp.Spec
import Verif.Imp.Season
import Verif.Imp.Texture
import Verif.Imp.Predict
import Verif.Imp.Drive
import Verif.Imp.Examples
import Verif.Pca.Model
import Verif.Pca.Props
import Verif.Pca.Examples
import Verif.L2tile.Model
import Verif.L2tile.Spec
import Verif.L2tile.Cut
import Verif.L2tile.Written
import Verif.L2tile.Range
import Verif.L2tile.Examples
import Verif.L2tile.MultiModel
import Verif.L2tile.MultiProps
import Verif.L2tile.MultiExamples
import Verif.Sun.Model
import Verif.Sun.Spec
import Verif.Sun.Julian
import Verif.Sun.Position
import Verif.Sun.Local
import Verif.Sun.Examples
import Verif.View.Model
import Verif.View.Spec
import Verif.View.Corners
import Verif.View.Angles
import Verif.View.Cells
import Verif.View.Examples
import Verif.L1.Model
import Verif.L1.Spec
import Verif.L1.Bounds
import Verif.L1.Noise
import Verif.L1.Landsat
import Verif.L1.Sentinel
import Verif.L1.Examples
import Verif.Tools.Model
import Verif.Tools.Props
import Verif.Tools.Grid
import Verif.Tools.Examples
import Verif.Cloud.Model
import Verif.Cloud.Spec
import Verif.Cloud.Final
import Verif.Cloud.Grow
import Verif.Cloud.Shadow
import Verif.Cloud.Class
import Verif.Cloud.Examples
import Verif.Ard.Model
import Verif.Ard.Spec
import Verif.Ard.Names
import Verif.Ard.Reading
import Verif.Ard.Psf
import Verif.Ard.Examples
import Verif.Gdalopt.Model
import Verif.Gdalopt.Props
import Verif.Gdalopt.Examples
import Verif.Wvp.Days
import Verif.Wvp.DaySpec
import Verif.Wvp.DayProps
import Verif.Wvp.Granule
import Verif.Wvp.GranuleSpec
import Verif.Wvp.GranuleProps
import Verif.Wvp.AvgProps
import Verif.Wvp.Lut
import Verif.Wvp.LutProps
import Verif.Wvp.ImageProps
import Verif.Wvp.Examples
import Verif.Cite.Model
import Verif.Cite.Props
import Verif.Cite.Examples
import Verif.Prod.Equal
import Verif.Prod.Coarse
import Verif.Prod.CoarseSpec
import Verif.Prod.CoarseProps
import Verif.Prod.Boa
import Verif.Prod.BoaSpec
import Verif.Prod.BoaProps
import Verif.Prod.Level2Props
import Verif.Prod.Overview
import Verif.Prod.OverviewSpec
import Verif.Prod.OverviewProps
import Verif.Prod.Background
import Verif.Prod.BackgroundProps
import Verif.Prod.Examples
import Verif.Mix.Model
import Verif.Mix.Spec
import Verif.Mix.Props
import Verif.Mix.ClassProps
import Verif.Mix.Examples
import Verif.Assess.Model
import Verif.Assess.Spec
import Verif.Assess.Props
import Verif.Assess.ClassProps
import Verif.Assess.SizeProps
import Verif.Assess.Examples
import Verif.Magic.Model
import Verif.Magic.Spec
import Verif.Magic.Lemmas
import Verif.Magic.Props
import Verif.Magic.Examples
import Verif.Csd.Model
import Verif.Csd.Props
import Verif.Csd.Examples
import Verif.Topo.Model
import Verif.Topo.Spec
import Verif.Topo.Props
import Verif.Topo.Light
import Verif.Topo.Levels
import Verif.Topo.Grid
import Verif.Topo.Examples
import Verif.Radtran.Model
import Verif.Radtran.Spec
import Verif.Radtran.Scatter
import Verif.Radtran.Invert
import Verif.Radtran.Phase
import Verif.Radtran.Brdf
import Verif.Radtran.Factor
import Verif.Radtran.Water
import Verif.Radtran.Examples
import Verif.Meta.Model
import Verif.Meta.Spec
import Verif.Meta.Lines
import Verif.Meta.Bands
import Verif.Meta.Calib
import Verif.Meta.Accept
import Verif.Meta.Fields
import Verif.Meta.Grid
import Verif.Meta.GridProps
import Verif.Meta.Examples
import Verif.Merge.Model
import Verif.Merge.Spec
import Verif.Merge.Regression
import Verif.Merge.Improphe
import Verif.Merge.Starfm
import Verif.Merge.Exists
import Verif.Merge.Examples
import Verif.Texture.Model
import Verif.Texture.Props
import Verif.Texture.Examples
import Verif.Homo.Model
import Verif.Homo.Spec
import Verif.Homo.Select
import Verif.Homo.Props
import Verif.Homo.Cosine
import Verif.Homo.Examples
import Verif.Udf.Model
import Verif.Udf.Spec
import Verif.Udf.Lemmas
import Verif.Udf.Props
import Verif.Udf.PropsR
import Verif.Udf.Examples
import Verif.Tsa.Model
import Verif.Tsa.Spec
import Verif.Tsa.Dates
import Verif.Tsa.Harmonic
import Verif.Tsa.Props
import Verif.Tsa.Names
import Verif.Tsa.Examples
import Verif.Rules.Model
import Verif.Rules.Spec
import Verif.Rules.Props
import Verif.Aod.Model
import Verif.Aod.Spec
import Verif.Aod.Objects
import Verif.Aod.Fit
import Verif.Aod.Best
import Verif.Aod.Map
import Verif.Aod.Site
import Verif.Aod.Examples
import Verif.Coreg.Model
import Verif.Coreg.Spec
import Verif.Coreg.Solve
import Verif.Coreg.Fit
import Verif.Coreg.Shift
import Verif.Coreg.Control
import Verif.Coreg.Register
import Verif.Coreg.Pyramid
import Verif.Coreg.Examples
import Verif.Skel.Data
import Verif.Skel.Model
import Verif.Skel.Spec
import Verif.Skel.Lemmas
import Verif.Skel.Props
import Verif.Skel.Read
import Verif.Skel.Default
import Verif.Skel.Mix
import Verif.Train.Model
import Verif.Train.Spec
import Verif.Train.Props
import Verif.Train.Count
import Verif.Train.Weights
import Verif.Share.Model
import Verif.Share.Spec
import Verif.Share.Serial
import Verif.Share.Props
import Verif.Share.Live
import Verif.Ps.Model
import Verif.Ps.Props
import Verif.Coreg.More
import Verif.Gas.Model
import Verif.Gas.Table
import Verif.Gas.Map
import Verif.Share.Table
import Verif.Copy.Model
import Verif.Copy.Props
import Verif.Cprob.Model
import Verif.Cprob.Quantile
import Verif.Cprob.Props
import Verif.Pac.Model
import Verif.Pac.Spec
import Verif.Pac.Props
import Verif.Avec.Model
import Verif.Avec.Props
import Verif.Avec.Adapt
import Verif.Input.Model
import Verif.Input.Props
import Verif.Naming.Model
import Verif.Naming.Props
import Verif.Naming.Limits
import Verif.Watch.Model
import Verif.Watch.Props
import Verif.Watch.Units
import Verif.Match.Model
import Verif.Match.Props
import Verif.Match.Ties
import Verif.Modis.Model
import Verif.Modis.Props
import Verif.Csv.Model
import Verif.Csv.Props
import Verif.Dem.Model
import Verif.Dem.Props
import Verif.Args.Model
import Verif.Args.Props
import Verif.Tscore.Model
import Verif.Tscore.Props
import Verif.Plog.Model
import Verif.Plog.Props
import Verif.Poi.Model
import Verif.Poi.Props
import Verif.Poi.Detect
import Verif.Poi.Gauss
import Verif.Find.Model
import Verif.Find.Props
import Verif.Find.Scene
import Verif.Label.Model
import Verif.Label.Props
import Verif.Pyr.Model
import Verif.Pyr.Props
import Verif.Fetch.Model
import Verif.Fetch.Props
import Verif.Mdcp.Model
import Verif.Mdcp.Props
import Verif.Equi.Model
import Verif.Equi.Props
import Verif.Equi.Flush
import Verif.Metric.Model
import Verif.Metric.Props
import Verif.Side.Model
import Verif.Side.Props
import Verif.Grid.Model
import Verif.Grid.Props
import Verif.Patch.Model
import Verif.Patch.Props
import Verif.Elev.Model
import Verif.Elev.Props
import Verif.Own.Model
import Verif.Own.Props
