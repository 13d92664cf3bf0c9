import Verif.Model.Dictionary
import Verif.Model.Match

/-!
# `vec_count()` with its sorting (R/dictionary.R)
-/

namespace Vctrs

/-- The argument `sort`, R/dictionary.R:47-48. -/
inductive CountSort
  | count
  | key
  | location
  | none

/-- The locations of an ordering as a subscript.  A location that is not positive becomes 0, which
`sliceLoc` rejects (src/slice.c:5-19). -/
def orderLocs (o : List Int) : List Nat := o.map Int.toNat

/-- `vec_count`, R/dictionary.R:47-77.  The result has the keys and the counts, the columns of `out`.
`vec_order()` (R/order.R:298-333) is R code around `base::order()`, which is outside the code
modelled: its results for the locations and for the keys are arguments.  The order by count is
`vec_order_radix(info[c("count", "loc")], direction = c("desc", "asc"))`, :60, with the default
`na_value` and `nan_distinct` of R/order.R:149-154. -/
def countSorted {α : Type} (fuel : Nat) (ops : PolyOps α) (orderLoc : List Nat → List Int)
    (orderKey : List α → List Int) (sort : CountSort) (x : List α) (tl : TL) (static : List Nat) :
    C ((List α × List Nat) × TL × List Nat) := do
  let (loc, count) ← vecCount ops x
  let (loc, count, tl, static) ← (match sort with
    | .location => do
      let o := orderLocs (orderLoc loc)
      let loc' ← sliceLoc loc o
      let count' ← sliceLoc count o
      .ok (loc', count', tl, static)
    | .count => do
      let (o, tl, static) ← vecOrder fuel
        (intDf loc.length [count.map (fun (c : Nat) => (c : Int)), loc.map (fun (l : Nat) => (l : Int))])
        [some "desc".toList, some "asc".toList] [some "largest".toList] false tl static
      let loc' ← sliceLoc loc (orderLocs o)
      let count' ← sliceLoc count (orderLocs o)
      .ok (loc', count', tl, static)
    | _ => .ok (loc, count, tl, static) : C (List Nat × List Nat × TL × List Nat))
  let key ← sliceLoc x loc
  match sort with
  | .key => do
    let o := orderLocs (orderKey key)
    let key' ← sliceLoc key o
    let count' ← sliceLoc count o
    .ok ((key', count'), tl, static)
  | _ => .ok ((key, count), tl, static)

end Vctrs
