import Verif.Go.F64
import Verif.Props.Box
import Verif.Props.RtreeInsert
import Verif.Props.RtreeDelete
import Verif.Props.RtreeUsable
import Verif.Props.Near
import Verif.Props.Bulk
import Verif.Props.Concurrent
import Verif.Props.Line
import Verif.Props.Measure
import Verif.Props.Relation
import Verif.Props.Relation2
import Verif.Props.Distance
import Verif.Props.Simplify
import Verif.Props.Hull
import Verif.Props.Angle
import Verif.Props.Mbr
import Verif.Props.Wkt
import Verif.Props.GeoJson
import Verif.Props.Utm
import Verif.Props.Lonlat
import Verif.Props.UtmSeries
import Verif.Props.UtmTrip
import Verif.Props.RandomId
import Verif.Props.Cells
import Verif.Props.Accessors
import Verif.Props.Rounding
import Verif.Props.RoundingArea
import Verif.Props.RoundingCentroid
import Verif.Props.Lookup
import Verif.Props.RoundingDist
import Verif.Props.RoundingSimplify
import Verif.Props.RoundingHull
import Verif.Props.Grid
import Verif.Props.GridVerify
import Verif.Go.QuickSortOk
import Verif.Rtree.Bulk64
import Verif.Spec.Math64
import Verif.Props.Bulk64
import Verif.Props.BulkFew
import Verif.Rtree.Sim
import Verif.Rtree.Sim2
import Verif.Rtree.Sim3
import Verif.Rtree.Sim4
import Verif.Rtree.Sim5
import Verif.Rtree.Sim6
import Verif.Props.BulkInsert
import Verif.Go.Strconv
import Verif.Go.StrconvOk
import Verif.Go.F64Near
import Verif.Spec.Numeral
import Verif.Props.Wkt64
import Verif.Go.StrconvE
import Verif.Go.JsonText
import Verif.Spec.JsonText
import Verif.Go.JsonTextOk
import Verif.Go.JsonTextRead
import Verif.Go.JsonTextDoc
import Verif.Go.JsonTextPrint
import Verif.Go.JsonTextRel
import Verif.Go.JsonNumber
import Verif.Spec.GeoJsonText
import Verif.GeoJson.Text
import Verif.GeoJson.TextLemmas
import Verif.Props.GeoJsonText
import Verif.Props.GeoJsonNames
import Verif.Props.GeoJsonRepeat
import Verif.Props.Meridian
import Verif.Props.Published
import Verif.Go.StrconvShort
import Verif.Props.Digits
import Verif.Props.DigitsJson
import Verif.Props.Depth
import Verif.Props.Vector
import Verif.Props.WktWords
import Verif.Props.RoundingNear
import Verif.Props.RoundingLine
import Verif.GeoJson.Share
import Verif.GeoJson.ShareLemmas
import Verif.Spec.Share
import Verif.Props.Share
import Verif.Spec.Html
import Verif.Props.GeoJsonHtml
import Verif.Props.Around
import Verif.Props.OnLine
import Verif.Props.Rings
import Verif.Props.Region
import Verif.Props.Winding
import Verif.Props.HullRegion
import Verif.Props.CentroidIn
import Verif.Props.SimplifyAgain
import Verif.Props.Buffer
import Verif.Props.WindingAngle
import Verif.Props.Jordan
import Verif.Props.JordanCurve
import Verif.Props.SimpleRegion
import Verif.Props.JordanPair
import Verif.Props.HullSimple
import Verif.Props.AreaBox
import Verif.Props.SimpleFloat
import Verif.Props.SimpleDistance
import Verif.Spec.Curve
import Verif.Props.SimplifyCurve
import Verif.Props.HullPerimeter
import Verif.Props.SimplifyTwice
import Verif.Props.HullOrder
import Verif.Props.Affine
import Verif.Props.Rigid
import Verif.Props.Stable
import Verif.Props.Direction
import Verif.Spec.SelfAvoiding
import Verif.Props.Monotone
import Verif.Props.HistoryFree
import Verif.Props.HullMono
import Verif.Props.StableArea
import Verif.Props.Isoperimetric
import Verif.Props.HullInside
import Verif.Props.Cut
import Verif.Props.WktRings
import Verif.Props.HullFar
import Verif.Props.WktHeights
import Verif.Props.WktHoles
import Verif.Props.WktPolysZ
import Verif.Props.AreaMeasure
import Verif.Props.Contained
import Verif.Props.ContainOrder
import Verif.Props.ContainFar
import Verif.Props.ContainSearch
import Verif.Props.BufferBox
import Verif.Props.DerivedBox
import Verif.Props.Districts
import Verif.Props.GeoJsonAbsent
import Verif.Props.GeoJsonAccept
import Verif.Props.GeoJsonProps
import Verif.Props.GeoJsonNested
import Verif.Props.GeoJsonPrint
import Verif.Props.GeoJsonStable
