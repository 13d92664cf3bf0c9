import Verif.Model.OrderDf
import Verif.Model.ValSlice

/-!
# Ranks: src/rank.c

Ranks are computed as `r_ssize` and stored as `int`; the sizes of vectors that can be ordered are
within `int`.
-/

namespace Vctrs

/-- `enum ties`, src/rank.c:3-8. -/
inductive Ties where
  | min
  | max
  | sequential
  | dense
  deriving DecidableEq, Repr

/-- The inner loop of `vec_rank_min` (src/rank.c:135-139), `vec_rank_max` (:157-161) and
`vec_rank_dense` (:197-201): the state is `v_rank` and `k`. -/
def rankFill (order : List Int) (rank : Int) (groupSize : Nat) (s : List (Option Int) × Nat) :
    C (List (Option Int) × Nat) :=
  forN groupSize (fun _ (s : List (Option Int) × Nat) => do
    let loc ← rd order s.2
    .ok (← wrI s.1 (loc - 1) (some rank), s.2 + 1)) s

/-- `vec_rank_min`, src/rank.c:125-143. -/
def rankMin (order : List Int) (groupSizes : List Nat) (out : List (Option Int)) :
    C (List (Option Int)) := do
  let s ← forN groupSizes.length (fun i (s : (List (Option Int) × Nat) × Int) => do
    let groupSize ← rd groupSizes i
    let t ← rankFill order s.2 groupSize s.1
    .ok (t, s.2 + groupSize)) ((out, 0), 1)
  .ok s.1.1

/-- `vec_rank_max`, src/rank.c:146-163. -/
def rankMax (order : List Int) (groupSizes : List Nat) (out : List (Option Int)) :
    C (List (Option Int)) := do
  let s ← forN groupSizes.length (fun i (s : (List (Option Int) × Nat) × Int) => do
    let groupSize ← rd groupSizes i
    let rank := s.2 + groupSize
    let t ← rankFill order rank groupSize s.1
    .ok (t, rank)) ((out, 0), 0)
  .ok s.1.1

/-- `vec_rank_sequential`, src/rank.c:166-183. -/
def rankSequential (order : List Int) (groupSizes : List Nat) (out : List (Option Int)) :
    C (List (Option Int)) := do
  let s ← forN groupSizes.length (fun i (s : (List (Option Int) × Nat) × Int) => do
    let groupSize ← rd groupSizes i
    forN groupSize (fun _ (s : (List (Option Int) × Nat) × Int) => do
      let loc ← rd order s.1.2
      .ok ((← wrI s.1.1 (loc - 1) (some s.2), s.1.2 + 1), s.2 + 1)) s) ((out, 0), 1)
  .ok s.1.1

/-- `vec_rank_dense`, src/rank.c:186-204. -/
def rankDense (order : List Int) (groupSizes : List Nat) (out : List (Option Int)) :
    C (List (Option Int)) := do
  let s ← forN groupSizes.length (fun i (s : (List (Option Int) × Nat) × Int) => do
    let groupSize ← rd groupSizes i
    let t ← rankFill order s.2 groupSize s.1
    .ok (t, s.2 + 1)) ((out, 0), 1)
  .ok s.1.1

/-- The `switch` in `vec_rank`, src/rank.c:94-99. -/
def rankSwitch (ties : Ties) (order : List Int) (groupSizes : List Nat) (out : List (Option Int)) :
    C (List (Option Int)) :=
  match ties with
  | .min => rankMin order groupSizes out
  | .max => rankMax order groupSizes out
  | .sequential => rankSequential order groupSizes out
  | .dense => rankDense order groupSizes out

/-- The loop that puts the ranks of the complete values in place, src/rank.c:108-110. -/
def rankSpread (complete : List Bool) (rank : List Int) (size : Nat) : C (List (Option Int) × Nat) :=
  forN size (fun i (s : List (Option Int) × Nat) => do
    if ← rd complete i then
      let r ← rd rank s.2
      .ok (← wr s.1 i (some r), s.2 + 1)
    else .ok (← wr s.1 i (some naInt), s.2)) (alloc Int size, 0)

/-- The ranks of all values, src/rank.c:81-99. -/
def rankAll (fuel : Nat) (x : Val) (ties : Ties) (direction naValue : List Name)
    (nanDistinct : Bool) (tl : TL) (static : List Nat) : C (List Int × TL × List Nat) := do
  let (info, tl, static) ← vecOrderInfo fuel x direction naValue nanDistinct true true tl static
  match info.groups with
  | none => .error .internal
  | some (sizes, _) =>
    let rank ← rankSwitch ties info.o sizes (alloc Int x.size)
    .ok (← initd rank, tl, static)

/-- `vec_rank`, src/rank.c:41-120; `incompleteNa` is `incomplete_type == INCOMPLETE_na`. -/
def vecRank (fuel : Nat) (x : Val) (ties : Ties) (incompleteNa : Bool)
    (direction naValue : List Name) (nanDistinct : Bool) (tl : TL) (static : List Nat) :
    C (List Int × TL × List Nat) := do
  if incompleteNa then
    let complete ← rDetectComplete x
    if complete.all (fun b => b) then
      rankAll fuel x ties direction naValue nanDistinct tl static
    else
      let size := x.size
      let x ← rSlice x (.lgl (complete.map some))
      let (rank, tl, static) ← rankAll fuel x ties direction naValue nanDistinct tl static
      let out ← rankSpread complete rank size
      .ok (← initd out.1, tl, static)
  else rankAll fuel x ties direction naValue nanDistinct tl static

end Vctrs
