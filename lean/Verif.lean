import Verif.Props.Search
import Verif.Props.BB
import Verif.Props.FRect
import Verif.Props.Polyline
import Verif.Props.PolyState
import Verif.Props.Homogr
import Verif.Props.Line
import Verif.Props.Segment
import Verif.Props.SegmentOps
import Verif.Props.SegmentInter
import Verif.Props.SegmentMore
import Verif.Props.Circle
import Verif.Props.RectArea
import Verif.Props.Hull
import Verif.Props.Svg
import Verif.Model.DrawParams
import Verif.Spec.DrawParams
import Verif.Lemmas.DrawParams
import Verif.Props.DrawParams
import Verif.Model.Ellipse
import Verif.Spec.Ellipse
import Verif.Lemmas.Ellipse
import Verif.Props.Ellipse
import Verif.Props.EllipseOps
import Verif.Model.Pip
import Verif.Spec.Pip
import Verif.Lemmas.Pip
import Verif.Lemmas.PipModel
import Verif.Lemmas.PipRetry
import Verif.Props.Pip
import Verif.Model.Inside
import Verif.Spec.Inside
import Verif.Lemmas.Inside
import Verif.Lemmas.InsideEx
import Verif.Lemmas.PolyInter
import Verif.Props.Inside
import Verif.Props.InsidePoly
import Verif.Props.PolyInter
import Verif.Model.RectMore
import Verif.Spec.RectMore
import Verif.Lemmas.RectMore
import Verif.Props.RectMore
import Verif.Model.Construct
import Verif.Spec.Construct
import Verif.Lemmas.Construct
import Verif.Props.Construct
import Verif.Model.Bisect
import Verif.Spec.Bisect
import Verif.Lemmas.Bisect
import Verif.Props.Bisect
import Verif.Lemmas.Tangent
import Verif.Props.Tangent
import Verif.Model.Offset
import Verif.Model.Axes
import Verif.Spec.Axes
import Verif.Lemmas.Axes
import Verif.Lemmas.Derived
import Verif.Props.Axes
import Verif.Props.Derived
import Verif.Spec.Offset
import Verif.Lemmas.Offset
import Verif.Props.Offset
import Verif.Model.SvgDoc
import Verif.Spec.SvgDoc
import Verif.Lemmas.SvgDoc
import Verif.Lemmas.SvgRound
import Verif.Lemmas.SvgMark
import Verif.Lemmas.SvgAttr
import Verif.Lemmas.SvgFile
import Verif.Props.SvgDoc
import Verif.Props.NearFlat
import Verif.Model.Edits
import Verif.Lemmas.Edits
import Verif.Props.Edits
import Verif.Model.Float
import Verif.Spec.Float
import Verif.Model.FloatGeom
import Verif.Lemmas.Float
import Verif.Lemmas.FloatErr
import Verif.Lemmas.FloatExact
import Verif.Lemmas.FloatLine
import Verif.Props.Float
import Verif.Props.FloatSign
import Verif.Props.FloatLine
import Verif.Model.FloatInter
import Verif.Lemmas.FloatHull
import Verif.Lemmas.FloatSeg
import Verif.Lemmas.FloatInter
import Verif.Lemmas.FloatAngle
import Verif.Lemmas.FloatCircle
import Verif.Props.FloatHull
import Verif.Props.FloatSeg
import Verif.Props.FloatInter
import Verif.Props.FloatAngle
import Verif.Props.FloatCircle
import Verif.Spec.EllipseLength
import Verif.Lemmas.EllipseLength
import Verif.Props.EllipseLength
import Verif.Model.FloatCross
import Verif.Spec.FloatCross
import Verif.Lemmas.FloatCross
import Verif.Lemmas.FloatSegs
import Verif.Props.FloatCross
import Verif.Model.FloatSearch
import Verif.Lemmas.FloatSearch
import Verif.Props.FloatRange
import Verif.Props.FloatSearch
import Verif.Model.Simple
import Verif.Spec.Simple
import Verif.Lemmas.Simple
import Verif.Props.Simple
import Verif.Spec.FloatSimple
import Verif.Lemmas.FloatSimple
import Verif.Props.FloatSimple
import Verif.Spec.SvgLook
import Verif.Lemmas.SvgLook
import Verif.Props.SvgLook
import Verif.Model.FloatCentroid
import Verif.Lemmas.FloatCentroid
import Verif.Props.FloatCentroid
import Verif.Spec.SvgErrors
import Verif.Lemmas.SvgErrors
import Verif.Props.SvgErrors
import Verif.Model.FloatInverse
import Verif.Spec.FloatInverse
import Verif.Lemmas.FloatInverse
import Verif.Props.FloatInverse
import Verif.Model.FloatPip
import Verif.Spec.FloatPip
import Verif.Lemmas.FloatPip
import Verif.Lemmas.FloatPipModel
import Verif.Lemmas.FloatPipGeom
import Verif.Lemmas.FloatPipLast
import Verif.Lemmas.FloatPipDemo
import Verif.Lemmas.FloatPipRetry
import Verif.Lemmas.FloatPipComb
import Verif.Props.FloatPip
import Verif.Model.Convert
import Verif.Lemmas.Convert
import Verif.Props.Convert
import Verif.Model.FloatRect
import Verif.Spec.FloatRect
import Verif.Lemmas.FloatRect
import Verif.Lemmas.FloatRectRank
import Verif.Lemmas.FloatRectFar
import Verif.Lemmas.FloatRectWit
import Verif.Props.FloatRect
import Verif.Model.FloatUnion
import Verif.Spec.FloatUnion
import Verif.Lemmas.RectUnionGen
import Verif.Lemmas.FloatUnion
import Verif.Lemmas.FloatIoU
import Verif.Props.FloatUnion
import Verif.Model.Exchange
import Verif.Spec.Exchange
import Verif.Lemmas.Exchange
import Verif.Props.Exchange
import Verif.Model.FloatHLine
import Verif.Lemmas.FloatHLine
import Verif.Props.FloatHLine
import Verif.Lemmas.FloatHullMargin
import Verif.Props.FloatHullMargin
import Verif.Lemmas.FloatSafe
import Verif.Props.FloatSafe
import Verif.Lemmas.FloatDeep
import Verif.Lemmas.FloatDeepPip
import Verif.Lemmas.FloatDeepRect
import Verif.Props.FloatDeep
import Verif.Props.FloatArea
import Verif.Model.Text
import Verif.Spec.Text
import Verif.Lemmas.Text
import Verif.Lemmas.TextFinite
import Verif.Props.Text
import Verif.Props.Threads
import Verif.Props.FloatMec
import Verif.Props.ThreadsCircle
import Verif.Model.FloatSegCirc
import Verif.Spec.FloatSegCirc
import Verif.Lemmas.FloatSegCirc
import Verif.Lemmas.FloatSegCircDemo
import Verif.Props.FloatSegCirc
import Verif.Model.FloatSegLine
import Verif.Spec.FloatSegLine
import Verif.Lemmas.FloatSegLine
import Verif.Lemmas.FloatSegLineDemo
import Verif.Props.FloatSegLine
import Verif.Props.FloatCircle3
import Verif.Model.Colors
import Verif.Lemmas.Colors
import Verif.Props.Colors
import Verif.Model.FloatInside
import Verif.Spec.FloatInside
import Verif.Lemmas.FloatInside
import Verif.Lemmas.FloatInsideDemo
import Verif.Props.FloatInside
import Verif.Spec.ExactArith
import Verif.Lemmas.ExactArith
import Verif.Lemmas.ExactArithMore
import Verif.Lemmas.ExactParallel
import Verif.Props.ExactArith
import Verif.Model.FloatParallel
import Verif.Lemmas.FloatParallel
import Verif.Props.FloatParallel
import Verif.Model.FloatMove
import Verif.Spec.FloatMove
import Verif.Lemmas.FloatMove
import Verif.Props.FloatMove
import Verif.Model.FloatOrthog
import Verif.Spec.FloatOrthog
import Verif.Lemmas.FloatOrthog
import Verif.Lemmas.FloatOrthogDemo
import Verif.Lemmas.ExactOrthog
import Verif.Props.FloatOrthog
import Verif.Model.FloatRectLine
import Verif.Spec.FloatRectLine
import Verif.Lemmas.FloatRectLine
import Verif.Lemmas.FloatRectLineDemo
import Verif.Lemmas.ExactRectLine
import Verif.Props.FloatRectLine
import Verif.Model.FloatPolyCirc
import Verif.Spec.FloatPolyCirc
import Verif.Lemmas.FloatPolyCirc
import Verif.Lemmas.FloatPolyCircDemo
import Verif.Lemmas.ExactPolyCirc
import Verif.Props.FloatPolyCirc
import Verif.Model.FloatChain
import Verif.Spec.FloatChain
import Verif.Lemmas.FloatChain
import Verif.Props.FloatChain
import Verif.Spec.FloatRotLine
import Verif.Lemmas.FloatRotLine
import Verif.Lemmas.ExactChain
import Verif.Props.FloatRotLine
import Verif.Spec.PolyMoves
import Verif.Lemmas.PolyMoves
import Verif.Props.PolyMoves
import Verif.Model.Raster
import Verif.Spec.Raster
import Verif.Lemmas.Raster
import Verif.Lemmas.RasterCalls
import Verif.Props.Raster
import Verif.Spec.Move
import Verif.Lemmas.Move
import Verif.Lemmas.MovePoly
import Verif.Lemmas.MoveMore
import Verif.Lemmas.MoveCircle
import Verif.Lemmas.MoveExample
import Verif.Lemmas.MoveRect
import Verif.Props.Move
import Verif.Props.Cycle
import Verif.Lemmas.Cycle
import Verif.Lemmas.CycleExample
import Verif.Lemmas.CycleFloat
import Verif.Spec.Cycle
import Verif.Props.Unit
import Verif.Lemmas.Unit
import Verif.Spec.Unit
