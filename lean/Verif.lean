import Verif.Matq.Props
import Verif.Bitmap.Props
import Verif.Flatten.Props
import Verif.Sweep.Props
import Verif.Sweep.PropsLoop
import Verif.Sweep.PropsReduce
import Verif.Slice.Props
import Verif.Dict.Props
import Verif.Heap.Props
import Verif.Vec.Props
import Verif.Ring.Props
import Verif.Align.Props
import Verif.Pool.Props
import Verif.VChar.Props
import Verif.Utf8.Props
import Verif.Stl.Props
import Verif.Export.Props
import Verif.Export.PropsJs
import Verif.Loc.Props
import Verif.Sieve.Props
import Verif.Color.Props
import Verif.Bbox.Props
import Verif.Stream.Props
import Verif.Scad.Props
import Verif.Layer.Props
import Verif.Whole.Props
import Verif.Range.Props
import Verif.Dedup.Props
import Verif.Xform.Props
import Verif.Rect.Props
import Verif.Hull.Props
import Verif.Poly.Props
import Verif.Poly.PropsGeo
import Verif.Syn.Props
import Verif.Solid.Props
import Verif.Solid.PropsVolume
import Verif.Args.Props
import Verif.Args.PropsDump
import Verif.Args.PropsFields
import Verif.Tri.Props
import Verif.Tri.PropsBool
import Verif.Tri.PropsFlag
import Verif.Ctx.Props
import Verif.Xml.Props
import Verif.Svg.PropsArc
import Verif.Svg.PropsElem
import Verif.Isect.Props
import Verif.Syn.PropsPrint
import Verif.Poly.PropsBool
import Verif.Deg.Props
import Verif.Ps.Props
import Verif.Opt.Props
import Verif.Opt.PropsValue
import Verif.Grid.Props
import Verif.Dump3.Props
import Verif.ScadOut.Props
import Verif.Aug.Props
import Verif.Swap.Props
import Verif.Rev.Props
import Verif.Linext.Props
import Verif.Prim.Props
import Verif.Rotext.Props
import Verif.Main.Props
import Verif.Mesh.Props
import Verif.Import.Props
import Verif.Alloc.Props
import Verif.Msg.Props
import Verif.Text.Props
import Verif.Ns.Props
