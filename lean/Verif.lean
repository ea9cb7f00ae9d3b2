import Verif.Model.Py
import Verif.Model.Real8
import Verif.Model.Gdsii
import Verif.Lemmas.Struct
import Verif.Lemmas.Real8
import Verif.Spec.Real8
import Verif.Props.C01
import Verif.Props.C02
import Verif.Spec.Records
import Verif.Lemmas.Records
import Verif.Props.C03
import Verif.Spec.Stream
import Verif.Lemmas.Stream
import Verif.Props.C05
import Verif.Props.C06
import Verif.Props.C08
import Verif.Model.Element
import Verif.Model.Read
import Verif.Spec.Grid
import Verif.Lemmas.Write
import Verif.Lemmas.Emit
import Verif.Props.C04
import Verif.Lemmas.Run
import Verif.Lemmas.EmitEl
import Verif.Lemmas.ReadsAs
import Verif.Lemmas.ReadLib
import Verif.Spec.Snap
import Verif.Lemmas.Snap
import Verif.Lemmas.Samples
import Verif.Props.C13
import Verif.Props.C21
import Verif.Props.C10
import Verif.Props.C19
import Verif.Spec.Relabel
import Verif.Lemmas.Relabel
import Verif.Props.C20
import Verif.Spec.Blocks
import Verif.Lemmas.Blocks
import Verif.Props.C18
import Verif.Lemmas.Framed
import Verif.Spec.Binary
import Verif.Props.C11
import Verif.Model.Library
import Verif.Spec.Library
import Verif.Lemmas.Library
import Verif.Props.C22
import Verif.Props.C29
import Verif.Props.C23
import Verif.Props.C26
import Verif.Model.Hier
import Verif.Spec.Hier
import Verif.Lemmas.Hier
import Verif.Lemmas.HierSamples
import Verif.Lemmas.RealTrig
import Verif.Lemmas.Box
import Verif.Props.C30
import Verif.Spec.Compose
import Verif.Spec.Flatten
import Verif.Spec.Listing
import Verif.Props.C34
import Verif.Props.C33
import Verif.Props.C41
import Verif.Props.C32
import Verif.Props.C36
import Verif.Props.C39
import Verif.Props.C37
import Verif.Model.PolygonSet
import Verif.Spec.Plane
import Verif.Spec.Fracture
import Verif.Props.C42
import Verif.Props.C43
import Verif.Props.C44
import Verif.Model.Sampling
import Verif.Model.Path
import Verif.Model.Shapes
import Verif.Model.FontData
import Verif.Spec.Path
import Verif.Lemmas.RealNum
import Verif.Props.C45
import Verif.Props.C46
import Verif.Props.C47
import Verif.Props.C48
import Verif.Props.C49
import Verif.Spec.Region
import Verif.Model.Clip
import Verif.Lemmas.Region
import Verif.Props.C54
import Verif.Props.C52
import Verif.Spec.Clip
import Verif.Lemmas.RefEngine
import Verif.Lemmas.Clip
import Verif.Props.C53
import Verif.Props.C50
import Verif.Props.C51
import Verif.Model.BBox
import Verif.Props.C35
import Verif.Model.Svg
import Verif.Spec.Svg
import Verif.Props.C62
import Verif.Props.C64
import Verif.Spec.Curve
import Verif.Model.Curve
import Verif.Spec.Pen
import Verif.Props.C58
import Verif.Props.C55
import Verif.Props.C56
import Verif.Props.C57
import Verif.Model.Flex
import Verif.Spec.Flex
import Verif.Props.C59
import Verif.Props.C60
import Verif.Model.Robust
import Verif.Props.C60Robust
import Verif.Spec.Similar
import Verif.Lemmas.Similar
import Verif.Props.C61
import Verif.Props.C61Robust
import Verif.Spec.Band
import Verif.Props.C65
import Verif.Props.C65Curve
import Verif.Props.C65Moves
import Verif.Spec.Arc
import Verif.Props.C66
import Verif.Model.Fillet
import Verif.Spec.Fillet
import Verif.Props.C67
import Verif.Model.Hobby
import Verif.Spec.Hobby
import Verif.Props.C68
import Verif.Model.HierFlex
import Verif.Props.C32Flex
import Verif.Model.HierRobust
import Verif.Props.C32Robust
import Verif.Model.Holes
import Verif.Spec.Holes
import Verif.Lemmas.Holes
import Verif.Props.C69
import Verif.Spec.Outline
import Verif.Lemmas.Outline
import Verif.Lemmas.RoundOutline
import Verif.Props.C70
import Verif.Lemmas.Chain
import Verif.Props.C70Area
import Verif.Props.C70Two
import Verif.Props.C70Defined
import Verif.Model.Deprecated
import Verif.Spec.Manhattan
import Verif.Props.C71
import Verif.Spec.Robust
import Verif.Props.C72
import Verif.Props.C72Turn
import Verif.Props.C72Meet
import Verif.Props.C72Cases
import Verif.Props.C73
import Verif.Spec.Strand
import Verif.Props.C74
import Verif.Props.C74Ends
import Verif.Props.C74Outline
import Verif.Props.C74Straight
import Verif.Props.C74Wire
import Verif.Props.C74Cases
import Verif.Props.C31Limit
import Verif.Props.C65Tolerance
import Verif.Model.PolyPath
import Verif.Spec.Ribbon
import Verif.Props.C75
import Verif.Props.C75Sides
import Verif.Props.C75Outline
import Verif.Props.C75Area
import Verif.Props.C75Segment
import Verif.Props.C75Limits
import Verif.Model.Offset
import Verif.Spec.Offset
import Verif.Lemmas.Offset
import Verif.Lemmas.Tree
import Verif.Lemmas.OffsetModel
import Verif.Lemmas.OffsetPaths
import Verif.Lemmas.OffsetRegion
import Verif.Props.C76
import Verif.Props.C76Cases
import Verif.Props.C76Rect
import Verif.Props.C76Finds
import Verif.Spec.Joins
import Verif.Props.C77
import Verif.Props.C77Offset
import Verif.Model.Copy
import Verif.Spec.Copy
import Verif.Lemmas.Copy
import Verif.Props.C78
import Verif.Model.Viewer
import Verif.Spec.Viewer
import Verif.Lemmas.Regex
import Verif.Props.C79
import Verif.Props.C80
import Verif.Props.C81
import Verif.Props.C82
import Verif.Props.C83
import Verif.Model.Global
import Verif.Props.C84
import Verif.Spec.Cut
import Verif.Props.C85
import Verif.Spec.Double
import Verif.Model.Double
import Verif.Lemmas.Double
import Verif.Props.C86
import Verif.Spec.Placed
import Verif.Model.HierFl
import Verif.Props.C87
import Verif.Props.C88
import Verif.Model.Removed
import Verif.Props.C89
import Verif.Model.Arrays
import Verif.Props.C90
import Verif.Model.FileTree
import Verif.Props.C91
import Verif.Model.Twice
import Verif.Props.C92
import Verif.Props.C93
import Verif.Model.Share
import Verif.Props.C94
import Verif.Props.C95
import Verif.Props.C96
import Verif.Props.C97
import Verif.Model.Save
import Verif.Spec.Save
import Verif.Lemmas.Save
import Verif.Props.C98
import Verif.Model.GlobalSave
import Verif.Props.C99
import Verif.Model.Settings
import Verif.Model.PropFlow
import Verif.Props.C84Settings
import Verif.Props.C98Begun
import Verif.Props.C100
import Verif.Props.C100Hier
import Verif.Props.C17Repeated
import Verif.Props.C35Removed
import Verif.Props.C35Below
import Verif.Props.C70Set
import Verif.Props.C59Offsets
