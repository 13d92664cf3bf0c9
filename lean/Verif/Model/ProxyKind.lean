import Verif.Base

/-!
# Proxies for equality, comparison and order: src/proxy.c, R/type-bare.R

Objects are vectors, possibly arrays, and data frames, with or without a class.  The methods of
classes are arbitrary.  Names, other attributes and the shape of data frames in memory are left out.
-/

namespace Vctrs

/-- `enum vctrs_proxy_kind`, src/vctrs.h:69-73. -/
inductive PxKind where
  | equal
  | compare
  | order
  deriving DecidableEq, Repr

/-- The types of vectors that proxies treat differently. -/
inductive PxType where
  | integer
  | raw
  | list
  | other (n : Nat)
  deriving DecidableEq, Repr

/-- A vector with its elements by column, or a data frame.  Elements are `none` if missing.  The class
is empty for bare vectors and bare data frames. -/
inductive PxObj where
  | vec (ty : PxType) (cls : List Nat) (dim : List Nat) (xs : List (Option Int))
  | df (cls : List Nat) (cols : List PxObj) (rows : Nat)

/-- What R methods do.  `meth` are the methods for `vec_proxy_equal()` and so on, found by class
(`s3_class_find_method`, src/utils.c:512-530); `proxy` those for `vec_proxy()`; `asDf` is
`as.data.frame()` for arrays with a class. -/
structure PxEnv where
  meth : PxKind → List Nat → Option (PxObj → C PxObj)
  proxy : List Nat → Option (PxObj → C PxObj)
  asDf : PxObj → C PxObj

/-- The class attribute. -/
def PxObj.cls : PxObj → List Nat
  | .vec _ c _ _ => c
  | .df c _ _ => c

/-- `vec_dim_n()`, src/dim.h:27-35: one without dimensions. -/
def PxObj.dimN : PxObj → Nat
  | .vec _ _ [] _ => 1
  | .vec _ _ dim _ => dim.length
  | .df _ _ _ => 1

/-- Rows `0`, ..., `n - 1` of the elements of an array. -/
def pxRows (n : Nat) (xs : List (Option Int)) : C (List (List (Option Int))) :=
  if n = 0 then .ok []
  else (List.range n).mapM fun i => (List.range (xs.length / n)).mapM fun j => rd xs (i + j * n)

/-- Columns of the elements of an array with `n` rows. -/
def pxCols (n : Nat) (ncol : Nat) (xs : List (Option Int)) : C (List (List (Option Int))) :=
  (List.range ncol).mapM fun j => (List.range n).mapM fun i => rd xs (i + j * n)

/-- `as.data.frame()` of an array without class, as called in R/type-bare.R:374, :398 and :431: all the
dimensions after the first become columns. -/
def pxAsDf (ty : PxType) (dim : List Nat) (xs : List (Option Int)) : C PxObj :=
  match dim with
  | [] => .error .abort
  | n :: rest => do
    let cols ← pxCols n rest.prod xs
    .ok (.df [] (cols.map fun c => .vec ty [] [] c) n)

/-- The number of rows of a vector. -/
def pxSize (dim : List Nat) (xs : List (Option Int)) : Nat :=
  match dim with
  | [] => xs.length
  | n :: _ => n

/-- `vec_proxy_order.list`, R/type-bare.R:412-424: `vec_duplicate_id()` with missing values for missing
rows. -/
def pxListOrder (dim : List Nat) (xs : List (Option Int)) : C PxObj := do
  let rows ← pxRows (pxSize dim xs) xs
  .ok (.vec .integer [] [] (rows.map fun r =>
    if r.all (·.isNone) then none else some ((rows.findIdx (· == r) : Nat) + 1 : Int)))

/-- The methods for bare vectors, R/type-bare.R:379-424: `as.integer()` drops dimensions.
`vec_proxy_order.raw` calls `vec_proxy_compare()`, which is the same. -/
def pxBareMethod : PxKind → PxType → Option (List Nat → List (Option Int) → C PxObj)
  | .compare, .raw => some fun _ xs => .ok (.vec .integer [] [] xs)
  | .order, .raw => some fun _ xs => .ok (.vec .integer [] [] xs)
  | .compare, .list => some fun _ _ => .error .abort
  | .order, .list => some pxListOrder
  | _, _ => none

/-- `s3_class_find_method` at src/proxy.c:142-143 with the method applied to the object; no method is
registered for bare data frames. -/
def pxFindMethod (E : PxEnv) (k : PxKind) : PxObj → Option (C PxObj)
  | .vec ty [] dim xs => (pxBareMethod k ty).map fun f => f dim xs
  | .df [] _ _ => none
  | x => (E.meth k x.cls).map fun f => f x

/-- `as.data.frame()` of an array. -/
def pxArrayDf (E : PxEnv) : PxObj → C PxObj
  | .vec ty [] dim xs => pxAsDf ty dim xs
  | x => E.asDf x

/-- `vec_proxy` of an object whose `vec_typeof()` is S3, src/proxy.c:6-38 and :127-137. -/
def pxProxy (E : PxEnv) (x : PxObj) : C PxObj :=
  match E.proxy x.cls with
  | none => .ok x
  | some f => f x

/-- `vec_proxy_method_impl`, src/proxy.c:139-161, and `vec_proxy_invoke_impl`, :176-190, with what is done
for S3 objects without a method.  `full` is `vec_proxy_equal()` and so on, called by the methods for
arrays. -/
def pxInvoke (E : PxEnv) (full : PxKind → PxObj → C PxObj) (k : PxKind) (x : PxObj)
    (weaker : PxObj → C PxObj) : C PxObj :=
  match pxFindMethod E k x with
  | some r => r
  | none =>
    if x.dimN > 1 then do
      let d ← pxArrayDf E x
      full k d
    else if x.cls ≠ [] then weaker x
    else .ok x

/-- `vec_proxy_equal_impl`, `vec_proxy_compare_impl` and `vec_proxy_order_impl`, src/proxy.c:98-122 and
:192-203. -/
def pxImpl (E : PxEnv) (full : PxKind → PxObj → C PxObj) : PxKind → PxObj → C PxObj
  | .equal, x => pxInvoke E full .equal x (pxProxy E)
  | .compare, x => pxInvoke E full .compare x fun x => pxInvoke E full .equal x (pxProxy E)
  | .order, x => pxInvoke E full .order x fun x =>
      pxInvoke E full .compare x fun x => pxInvoke E full .equal x (pxProxy E)

mutual
/-- What `df_flatten`, src/type-data-frame.c:918-958, makes of a column; the loop that fills the list is
`flattenLoop` in Model/Proxy.lean. -/
def PxObj.leaves : PxObj → List PxObj
  | .vec t c d xs => [.vec t c d xs]
  | .df _ cols _ => leavesCols cols
/-- All the columns; see `PxObj.leaves`. -/
def leavesCols : List PxObj → List PxObj
  | [] => []
  | x :: l => x.leaves ++ leavesCols l
end

/-- `vec_proxy_unwrap`, src/proxy.c:246-251. -/
def pxUnwrap : PxObj → PxObj
  | .df _ [x] _ => pxUnwrap x
  | x => x

/-- `vec_proxy_equal`, `vec_proxy_compare` and `vec_proxy_order`, src/proxy.c:56-95, with `df_proxy`,
:206-234.  The depth of calls is bounded by the fuel. -/
def pxFull (E : PxEnv) : Nat → PxKind → PxObj → C PxObj
  | 0, _, _ => .error .diverge
  | fuel + 1, k, x => do
    match ← pxImpl E (pxFull E fuel) k x with
    | .vec t c d xs => .ok (.vec t c d xs)
    | .df cls cols rows => do
      let cols ← cols.mapM (pxFull E fuel k)
      .ok (pxUnwrap (.df cls (leavesCols cols) rows))

end Vctrs
