import Verif.Model.Interval
import Verif.Model.Options
import Verif.Model.OrderDf

/-!
# Options of orders and of intervals as R objects: src/order.c, src/interval.c
-/

namespace Vctrs

/-- `parse_direction`, src/order.c:4647-4666. -/
def parseOrderDirection (x : OptObj) : C (List Bool) :=
  match x with
  | .chr x => parseArg parseDirectionOne x.elts
  | _ => .error .abort

/-- `parse_na_value`, src/order.c:4607-4626. -/
def parseOrderNaValue (x : OptObj) : C (List Bool) :=
  match x with
  | .chr x => parseArg parseNaValueOne x.elts
  | _ => .error .abort

/-- `parse_missing`, src/interval.c:913-925: are missing intervals to be grouped. -/
def parseIntervalMissing (x : OptObj) : C Bool := do
  match ← asRString x with
  | none => .error .abort
  | some s => strcmpReturn .abort s [("group".toList, true), ("drop".toList, false)]

end Vctrs
