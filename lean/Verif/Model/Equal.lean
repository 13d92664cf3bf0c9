import Verif.Model.Object

/-!
# `vec_equal()` and the `poly` equality and missingness functions (src/equal.c, src/poly-op.c)
-/

namespace Vctrs

/-- Element types of a non data frame proxy: the vector cases of src/equal.c:41-49. -/
inductive VTy
  | atom (t : ATy)
  | list
  deriving DecidableEq, Repr

/-- The element behind each type; a list element is an R object. -/
def VTy.El : VTy → Type
  | .atom t => t.El
  | .list => Obj

/-- A proxy as these functions see it: an atomic vector or list, or a data frame with its
row count and its columns (`vec_proxy_typeof`, src/type-info.c:64-85). -/
inductive Val
  | vec (ty : VTy) (xs : List ty.El)
  | df (size : Nat) (cols : List Val)

/-- `vec_size` of a proxy: src/size.c (`vec_raw_size`; data frames: row names). -/
def Val.size : Val → Nat
  | .vec _ xs => xs.length
  | .df n _ => n

/-- Selection of the scalar equality function, src/equal.c:83-110 and the `list` functions
of src/equal.h:40-42 and :139-145.  `none` is `NA_LOGICAL`. -/
def equalScalar (naEqual : Bool) : (t : VTy) → t.El → t.El → C (Option Bool)
  | .atom t, x, y => .ok (if naEqual then some (equalNaEqual t x y) else equalNaPropagate t x y)
  | .list, (x : Obj), (y : Obj) =>
    if naEqual then do .ok (some (← eqObj x y))
    else if objIsMissing x || objIsMissing y then .ok none
    else do .ok (some (← eqObj x y))

/-- The `EQUAL` loops, src/equal.c:62-80. -/
def equalLoop {α : Type} (eq : α → α → C (Option Bool)) (size : Nat) (x y : List α) :
    C (List (Option Bool)) := do
  let out ← forN size (fun i (out : List (Option (Option Bool))) => do
      let e ← eq (← rd x i) (← rd y i)
      wr out i (some e)) (alloc _ size)
  initd out

/-- `struct df_short_circuit_info`, src/vctrs.h:128-134, with the output `p_out` it goes
with. -/
structure Sc (β : Type) where
  out : List β
  known : List Bool
  remaining : Int
  size : Nat

/-- The output filled with its "equality" value (equal.c:134-138, compare.c:91) and
`new_df_short_circuit_info`, src/vctrs.h:142-166. -/
def Sc.new {β : Type} (init : β) (size : Nat) : Sc β :=
  ⟨List.replicate size init, List.replicate size false, size, size⟩

/-- The `EQUAL_COL` loop, src/equal.c:174-195, and the `COMPARE_COL` loop,
src/compare.c:129-152: identical up to the scalar function and the test of whether its
result decides the row (`eq <= 0`, which includes NA, resp. `cmp != 0`). -/
def decideCol {α β : Type} (f : α → α → C β) (decides : β → Bool) (x y : List α) (s : Sc β) :
    C (Sc β) :=
  forBrk s.size (fun i (s : Sc β) => do
    if ← rd s.known i then .ok (.next s)
    else
      let e ← f (← rd x i) (← rd y i)
      if decides e then
        let s := { s with out := ← wr s.out i e, known := ← wr s.known i true,
                          remaining := s.remaining - 1 }
        if s.remaining = 0 then .ok (.brk s) else .ok (.next s)
      else .ok (.next s)) s

/-- `eq <= 0`, src/equal.c:185: FALSE or NA. -/
def equalDecides (e : Option Bool) : Bool := decide (e ≠ some true)

/-- `vec_equal_col_na_equal` and `vec_equal_col_na_propagate`, src/equal.c:197-235.  A
column of another type than its counterpart would be reinterpreted (undefined). -/
def equalCol (naEqual : Bool) (x y : Val) (s : Sc (Option Bool)) : C (Sc (Option Bool)) :=
  match x, y with
  | .vec t xs, .vec u ys =>
    if h : t = u then decideCol (equalScalar naEqual u) equalDecides (h ▸ xs) ys s
    else .error .ub
  | .df _ _, _ => .error .internal
  | _, _ => .error .ub

/-- `df_equal`, src/equal.c:127-170. -/
def dfEqual (naEqual : Bool) (size : Nat) (x y : List Val) : C (List (Option Bool)) := do
  if x.length ≠ y.length then .error .abort
  else
    let s ← forBrk x.length (fun i (s : Sc (Option Bool)) => do
        let s ← equalCol naEqual (← rd x i) (← rd y i) s
        if s.remaining = 0 then .ok (.brk s) else .ok (.next s)) (Sc.new (some true) size)
    .ok s.out

/-- `vec_equal`, src/equal.c:26-58, on proxies.  The result is a logical vector, `none`
being NA. -/
def vecEqual (naEqual : Bool) (x y : Val) : C (List (Option Bool)) :=
  match x, y with
  | .vec t xs, .vec u ys =>
    if h : t = u then
      if xs.length ≠ ys.length then .error .abort
      else equalLoop (equalScalar naEqual u) xs.length (h ▸ xs) ys
    else .error .abort
  | .df n xs, .df m ys => if n ≠ m then .error .abort else dfEqual naEqual n xs ys
  | _, _ => .error .abort

/-! ## Rows, as the dictionary sees them (src/poly-op.c) -/

/-- One row of a data frame with flattened atomic columns of the given types: what
`p_df_equal_na_equal` (src/poly-op.c:21-43) reads at a row number. -/
def Row : List ATy → Type
  | [] => Unit
  | t :: ts => t.El × Row ts

/-- `p_df_equal_na_equal`, src/poly-op.c:21-43, with `p_equal_na_equal`
(src/equal.h:76-94). -/
def rowEqual : (ts : List ATy) → Row ts → Row ts → Bool
  | [], _, _ => true
  | t :: ts, (x, xs), (y, ys) => if !equalNaEqual t x y then false else rowEqual ts xs ys

/-- `p_df_is_incomplete`, src/poly-op.c:141-158. -/
def rowIsIncomplete : (ts : List ATy) → Row ts → Bool
  | [], _ => false
  | t :: ts, (x, xs) => if isMissing t x then true else rowIsIncomplete ts xs

end Vctrs
