import Verif.Model.Histogram
import Verif.Model.Event
/-
What C119 compares: histograms filled with events.
-/
namespace Oxsx
variable {α : Type} [Field α] [LinearOrder α]

/-- A user fills a new histogram over the axes of `c` with the values of observable `o` of the events, each with weight one. -/
def histOfEvents (c : AxisCollection α) (o : String) (es : List (Event α)) : Res (Histogram α) :=
  Res.forFold (fun h e => e.getDatumByName o >>= fun v => h.fill [v] 1) (Histogram.ofAxes c) es

end Oxsx
