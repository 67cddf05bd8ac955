import Verif.Props.Card
import Verif.Props.CardState
import Verif.Props.CardText
import Verif.Props.Convert
import Verif.Props.Image
import Verif.Props.Stream
import Verif.Props.Header
import Verif.Props.HeaderAccess
import Verif.Props.Table
import Verif.Props.TableData
import Verif.Props.View
import Verif.Props.TableNames
import Verif.Props.Fits
import Verif.Props.FitsWrite
import Verif.Props.HduKind
import Verif.Props.FitsRoundTrip
import Verif.Props.FitsEmpty
import Verif.Props.FitsModes
import Verif.Props.Time
import Verif.Props.TimeDouble
import Verif.Props.Rotation
import Verif.Props.Rep
import Verif.Props.Diff
import Verif.Props.Frame
import Verif.Props.FrameBuild
import Verif.Props.Print
import Verif.Props.HourTrip
import Verif.Props.SepUnits
import Verif.Props.ForeignCard
import Verif.Props.ForeignComplex
import Verif.Props.ForeignFile
import Verif.Props.ForeignTable
import Verif.Spec.ForeignFiles
import Verif.Props.ForeignFiles
import Verif.Props.Float
import Verif.Props.Stats
import Verif.Props.VecDouble
import Verif.Props.Hdu
import Verif.Props.Cell
import Verif.Props.TableCopy
import Verif.Props.CardSet
import Verif.Props.RotDouble
import Verif.Props.Obliquity
import Verif.Props.RepDouble
import Verif.Props.SepDouble
import Verif.Props.BearingDouble
import Verif.Props.ChainDouble
import Verif.Props.Median
import Verif.Props.AngDouble
import Verif.Props.Session
import Verif.Props.QtyDouble
import Verif.Props.QtyVec
import Verif.Props.DiffDouble
import Verif.Props.FrameDouble
import Verif.Props.CosLatDouble
import Verif.Props.UnitChain
import Verif.Props.FitsCopy
import Verif.Props.SepConvert
import Verif.Props.FitsAny
import Verif.Props.Observe
import Verif.Props.Clock
import Verif.Props.Exceptions
import Verif.Props.SepDegrees
import Verif.Props.Column
import Verif.Props.FrameBuildDouble
import Verif.Props.MixedSum
import Verif.Props.CosLatSum
import Verif.Props.GalacticChain
import Verif.Props.Proxy
import Verif.Props.GalacticUnits
import Verif.Props.ForForeign
import Verif.Props.Resaved
import Verif.Props.ForeignNames
import Verif.Props.ForeignCells
import Verif.Spec.Commentary
import Verif.Props.Commentary
import Verif.Spec.Edited
import Verif.Lemmas.Edited
import Verif.Props.Edited
import Verif.Spec.Physical
import Verif.Spec.PhysicalStats
import Verif.Props.Physical
import Verif.Props.PhysicalStats
import Verif.Model.HeapProxy
import Verif.Spec.HeapProxy
import Verif.Props.HeapProxy
import Verif.Model.HeapView
import Verif.Spec.HeapView
import Verif.Props.HeapView
