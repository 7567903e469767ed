import Verif.Props.Quickselect
import Verif.Props.Heap
import Verif.Props.UnionFind
import Verif.Props.VPTree
import Verif.Props.Core
import Verif.Props.Cover
import Verif.Props.Overlap
import Verif.Props.CoverHistory
import Verif.Props.CoverState
import Verif.Props.Metrics
import Verif.Props.Params
import Verif.Props.Learn
import Verif.Props.Jobs
import Verif.Props.App
import Verif.Props.Plot
import Verif.Props.PlotBackends
import Verif.Props.Repr
import Verif.Props.Reproducible
import Verif.Props.Rounding
import Verif.Props.Nerve
import Verif.Props.Depth
import Verif.Props.Nan
import Verif.Props.AppFigure
import Verif.Props.CubicalFloat
import Verif.Props.KnnInf
import Verif.Props.Library
import Verif.Props.MetricsFloat
import Verif.Props.MetricsExact
import Verif.Props.Units
import Verif.Props.InPlace
import Verif.Props.Calls
import Verif.Props.Nested
import Verif.Props.Append
import Verif.Props.PlotNan
import Verif.Props.Construct
import Verif.Props.Shuffle
import Verif.Props.Columns
import Verif.Props.Refine
import Verif.Props.Extreme
import Verif.Props.Streamlit
import Verif.Props.StreamlitData
import Verif.Props.UserHistory
import Verif.Props.AppLoad
import Verif.Props.Noise
import Verif.Props.Compare
import Verif.Props.HeapAny
import Verif.Props.Logging
import Verif.Props.AppOrder
import Verif.Props.Local
import Verif.Props.UnionFindSteps
import Verif.Props.Warnings
import Verif.Props.Invalid
import Verif.Props.PlotInvalid
import Verif.Props.Parts
import Verif.Props.Size
import Verif.Props.Gaps
import Verif.Props.StreamlitPage
import Verif.Props.Download
import Verif.Props.ParamsOrder
import Verif.Props.AppNotes
import Verif.Props.Interrupt
import Verif.Props.Threads
import Verif.Props.Isometry
import Verif.Props.BinaryUnit
import Verif.Props.Mirror
import Verif.Props.Repeat
import Verif.Props.Relabel
import Verif.Props.Watched
import Verif.Props.Coarser
import Verif.Props.Listing
import Verif.Props.Linkage
import Verif.Props.JobsFail
import Verif.Props.Levels
import Verif.Props.Paths
import Verif.Props.LevelsFloat
import Verif.Props.PathsLibrary
