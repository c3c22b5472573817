import Verif.Base
import Verif.Ctype.Props
import Verif.Utf.Props
import Verif.Int128.Props
import Verif.Int128.FixProps
import Verif.Arith.Props
import Verif.Time.Props
import Verif.Strtol.Props
import Verif.Sort.Props
import Verif.Process.Props
import Verif.Str.Props
import Verif.Find.Props
import Verif.Stdio.Props
import Verif.Wasi.Props
import Verif.Printf.Props
import Verif.Printf.FloatProps
import Verif.Math.Props
import Verif.Quad.Props
import Verif.Decimal.Props
import Verif.Scanf.Props
import Verif.Wide.Props
import Verif.Wio.Props
import Verif.Wio.FmtProps
import Verif.Cplx.Props
import Verif.Life.Props
import Verif.Utf.Multi
import Verif.Decimal.HexProps
import Verif.Trip.Props
import Verif.Hyp.Props
import Verif.Host.Props
import Verif.Quad.SmallProps
import Verif.Wscan.Props
import Verif.Approx.Props
import Verif.Approx.PropsLog
import Verif.Approx.PropsCbrt
import Verif.Approx.PropsAtan
import Verif.Approx.PiBits
import Verif.Approx.Lattice
import Verif.Approx.ExactOps
import Verif.Approx.Reduce
import Verif.Approx.ReduceLarge
import Verif.Approx.SinCos
import Verif.Approx.Sincosf
import Verif.Approx.Tanf
import Verif.Approx.PropsTrig
import Verif.Approx.ModelPow
import Verif.Approx.Fma
import Verif.Approx.Pow
import Verif.Approx.PowFast
import Verif.Approx.PowCore
import Verif.Approx.PowMain
import Verif.Approx.SpecPow
import Verif.Approx.PowSign
import Verif.Approx.PowCases
import Verif.Approx.PowValue
import Verif.Approx.PowEval
import Verif.Approx.PowEvalTop
import Verif.Approx.PropsPow
import Verif.Approx.PropsAtan2
import Verif.Approx.PropsCplx
import Verif.Approx.PropsCtanh
import Verif.Approx.PropsInv
import Verif.Approx.PropsCsqrt
