import Verif.Props.Map
import Verif.Props.Text
import Verif.Props.Parser
import Verif.Props.Document
import Verif.Props.Write
import Verif.Props.Windows
import Verif.Props.Serial
import Verif.Props.Strings
import Verif.Props.DynString
import Verif.Props.Failure
import Verif.Props.Array
import Verif.Props.Builtin
import Verif.Props.Heap
import Verif.Props.Wide
import Verif.Props.Binary64
import Verif.Props.TextTools
import Verif.Props.FloatText
import Verif.Props.Reader64
import Verif.Props.Links
import Verif.Props.Basic
import Verif.Props.Floats
import Verif.Props.ExpLog
import Verif.Props.PrintedFloat
import Verif.Props.Handle
import Verif.Props.Stable
import Verif.Props.Stack
import Verif.Props.WriteMem
import Verif.Props.Pow
import Verif.Props.Trig
import Verif.Props.Sqrt
import Verif.Props.Arctan
import Verif.Props.Arcsin
import Verif.Props.MathConst
import Verif.Model.Simd
import Verif.Model.SimdInt
import Verif.Lemmas.Simd
import Verif.Lemmas.SimdReal
import Verif.Lemmas.RoundNearest
import Verif.Props.Simd
import Verif.Props.SimdReal
import Verif.Props.SimdInt
import Verif.Lemmas.MapKeys
import Verif.Model.Keys
import Verif.Model.StringMem
import Verif.Props.Keys
import Verif.Props.StringMem
import Verif.Model.Parser32
import Verif.Lemmas.Parser32
import Verif.Model.Write32
import Verif.Props.Size
import Verif.Spec.Faults
import Verif.Lemmas.Faults
import Verif.Props.Faults
import Verif.Model.ParserCost
import Verif.Lemmas.ParserCost
import Verif.Props.Cost
import Verif.Model.AppendCost
import Verif.Props.Append
import Verif.Props.Tables
import Verif.Props.ParserBuiltin
import Verif.Props.WriteBuiltin
import Verif.Props.StaticHash
import Verif.Props.StringNum
import Verif.Props.NumTrip
import Verif.Props.Drift
import Verif.Props.Footprint
import Verif.Model.SimdSse4
import Verif.Model.SimdNeon
import Verif.Lemmas.Neon
import Verif.Lemmas.NeonReal
import Verif.Props.NeonInt
import Verif.Props.Neon
import Verif.Props.NeonReal
import Verif.Props.Sse4
import Verif.Props.Suite
import Verif.Model.WriteCost
import Verif.Props.WriteCost
import Verif.Props.StringSizes
import Verif.Model.MapCost
import Verif.Lemmas.MapCost
import Verif.Props.MapCost
import Verif.Lemmas.Reserial
import Verif.Props.Reserial
import Verif.Model.HeapReuse
import Verif.Lemmas.HeapReuse
import Verif.Props.HeapReuse
import Verif.Spec.Evolve
import Verif.Lemmas.Evolve
import Verif.Props.Evolve
import Verif.Spec.Reload
import Verif.Lemmas.Reload
import Verif.Props.Reload
import Verif.Model.SerialMem
import Verif.Lemmas.SerialMem
import Verif.Props.SerialMem
import Verif.Spec.Workflow
import Verif.Lemmas.Workflow
import Verif.Props.Workflow
import Verif.Spec.Layers
import Verif.Lemmas.Layers
import Verif.Props.Layers
import Verif.Spec.Kept
import Verif.Spec.Meaning
import Verif.Lemmas.Kept
import Verif.Props.Kept
import Verif.Spec.Vectors
import Verif.Lemmas.Vectors
import Verif.Props.Vectors
import Verif.Model.SerialCost
import Verif.Props.SerialCost
import Verif.Spec.Filed
import Verif.Lemmas.Filed
import Verif.Props.Filed
import Verif.Props.SimdStores
import Verif.Lemmas.NotFinite
import Verif.Props.NotFinite
import Verif.Lemmas.TooLarge
import Verif.Props.TooLarge
import Verif.Spec.Numbers
import Verif.Lemmas.Numbers
import Verif.Props.Numbers
import Verif.Props.Forged
import Verif.Props.Repeated
import Verif.Lemmas.Again
import Verif.Lemmas.NoQuote
import Verif.Props.Again
import Verif.Lemmas.Counted
import Verif.Props.Elements
import Verif.Spec.Shape
import Verif.Lemmas.Shape
import Verif.Props.Shape
import Verif.Props.Resave
