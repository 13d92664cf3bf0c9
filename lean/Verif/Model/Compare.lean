import Verif.Model.Equal

/-!
# `vec_compare()` (src/compare.c)
-/

namespace Vctrs

/-- Selection of the scalar comparison, src/compare.c:47-67.  Lists abort
("Can't compare lists."); see `compareNaEqual` for complex and raw vectors.  `none` is
`NA_INTEGER`. -/
def compareScalar (naEqual : Bool) : (t : VTy) → t.El → t.El → C (Option Int)
  | .atom t, x, y =>
    if naEqual then do .ok (some (← compareNaEqual t x y)) else compareNaPropagate t x y
  | .list, _, _ => .error .abort

/-- The types `vec_compare` handles, src/compare.c:47-67; the others abort before any
element is looked at. -/
def comparable : VTy → Bool
  | .atom .lgl => true
  | .atom .int => true
  | .atom .dbl => true
  | .atom .chr => true
  | _ => false

/-- The `COMPARE` loop, src/compare.c:13-28. -/
def compareLoop {α : Type} (cmp : α → α → C (Option Int)) (size : Nat) (x y : List α) :
    C (List (Option Int)) := do
  let out ← forN size (fun i (out : List (Option (Option Int))) => do
      let e ← cmp (← rd x i) (← rd y i)
      wr out i (some e)) (alloc _ size)
  initd out

/-- `cmp != 0`, src/compare.c:140: NA decides too. -/
def compareDecides (e : Option Int) : Bool := decide (e ≠ some 0)

mutual

/-- `vec_compare_col`, src/compare.c:155-195. -/
def compareCol (naEqual : Bool) : Val → Val → Sc (Option Int) → C (Sc (Option Int))
  | .vec t xs, y, s => match y with
    | .vec u ys =>
      if !comparable t then .error .abort
      else if h : t = u then decideCol (compareScalar naEqual u) compareDecides (h ▸ xs) ys s
      else .error .ub
    | .df _ _ => .error .ub
  | .df _ xs, y, s => match y with
    | .df _ ys => if xs.length ≠ ys.length then .error .abort else compareCols naEqual xs ys s
    | .vec _ _ => .error .ub

/-- The column loop of `df_compare_impl`, src/compare.c:114-124, leaving as soon as
`remaining` is 0. -/
def compareCols (naEqual : Bool) : List Val → List Val → Sc (Option Int) → C (Sc (Option Int))
  | [], _, s => .ok s
  | x :: xs, ys, s => match ys with
    | y :: ys => do
      let s ← compareCol naEqual x y s
      if s.remaining = 0 then .ok s else compareCols naEqual xs ys s
    | [] => .error .ub

end

/-- `vec_compare`, src/compare.c:30-70, with `df_compare` (82-100) and `df_compare_impl`
(103-125) for data frames. -/
def vecCompare (naEqual : Bool) (x y : Val) : C (List (Option Int)) :=
  match x, y with
  | .vec t xs, .vec u ys =>
    if h : t = u then
      if xs.length ≠ ys.length then .error .abort
      else if !comparable u then .error .abort
      else compareLoop (compareScalar naEqual u) xs.length (h ▸ xs) ys
    else .error .abort
  | .df n xs, .df m ys =>
    if n ≠ m then .error .abort
    else if xs.length ≠ ys.length then .error .abort
    else do
      let s ← compareCols naEqual xs ys (Sc.new (some 0) n)
      .ok s.out
  | _, _ => .error .abort

end Vctrs
