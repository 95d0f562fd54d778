import Verif.Props.Chunks
import Verif.Props.Run
import Verif.Props.Engine
import Verif.Props.ChunkStore
import Verif.Props.Downwind
import Verif.Props.Numbering
import Verif.Props.Iterative
import Verif.Props.Order
import Verif.Props.Controller
import Verif.Props.Lifecycle
import Verif.Props.Sequential
import Verif.Props.Superposition
import Verif.Props.WakeModels
import Verif.Props.Circles
import Verif.Props.PartialWakes
import Verif.Props.WindDir
import Verif.Props.Frames
import Verif.Props.Rotor
import Verif.Props.Cubic
import Verif.Props.TurbineModels
import Verif.Props.PowerCurve
import Verif.Props.Abl
import Verif.Props.Geom2d
import Verif.Props.InputStates
import Verif.Props.FarmEval
import Verif.Props.Layout
import Verif.Props.TurbineObj
import Verif.Props.RandomXY
import Verif.Props.Factory
import Verif.Props.FactoryK
import Verif.Props.Mirror
import Verif.Props.DataBox
import Verif.Props.GetData
import Verif.Props.DynWakes
import Verif.Props.PointCalc
import Verif.Props.MultiHeight
import Verif.Props.FieldData
import Verif.Props.OnePoint
import Verif.Props.Timelines
import Verif.Props.CentrelineInt
import Verif.Props.Induction
import Verif.Props.Bast16
import Verif.Props.Streamlines
import Verif.Props.SeqWakes
import Verif.Props.Wrg
import Verif.Model.Lookup
import Verif.Props.Lookup
import Verif.Model.Slice
import Verif.Props.Slice
import Verif.Model.Rose
import Verif.Props.Rose
import Verif.Model.ChunkData
import Verif.Props.ChunkData
import Verif.Model.WindIO
import Verif.Props.WindIO
import Verif.Model.WioAttrs
import Verif.Props.WioAttrs
import Verif.Model.YamlRun
import Verif.Props.YamlRun
import Verif.Model.Dask
import Verif.Props.Dask
import Verif.Model.TurbineFiles
import Verif.Props.TurbineFiles
import Verif.Model.TwoTables
import Verif.Props.TwoTables
import Verif.Model.ModelLists
import Verif.Props.ModelLists
import Verif.Model.ResultFiles
import Verif.Props.ResultFiles
import Verif.Model.LayoutOut
import Verif.Props.LayoutOut
import Verif.Props.DefEng
import Verif.Props.FlowPlots
import Verif.Props.UserSteps
import Verif.Props.Shapes
import Verif.Props.Sectors
import Verif.Props.RandStates
import Verif.Props.DataKinds
import Verif.Props.Anim
import Verif.Props.Curves
import Verif.Props.CfgDict
import Verif.Props.UtilFns
import Verif.Model.StoredData
import Verif.Props.StoredData
import Verif.Model.FinalWakes
import Verif.Props.FinalWakes
import Verif.Props.SetOnce
import Verif.Props.SeqPlugins
