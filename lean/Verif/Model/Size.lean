import Verif.Model.Slice

/-!
# Common size and recycling: src/size-common.c, src/size.c, src/arg-counter.c

The argument counters only serve to name arguments in error messages and are left out.
-/

namespace Vctrs

variable {α β : Type}

/-- One element of the dots: a value or a splice box, src/arg-counter.c:151-164. -/
inductive Dot (β : Type) where
  | plain (b : β)
  | box (bs : List β)
  deriving DecidableEq, Repr

/-- `reduce_impl` on a spliced list, src/arg-counter.c:144-169 with `spliced = true`;
`reduce_splice_box`, :173-197. -/
def reduceSpliced (impl : β → β → C β) (current : β) (rest : List β) : C β :=
  forN rest.length (fun i current => do
    let next ← rd rest i
    impl current next) current

/-- `reduce`, src/arg-counter.c:104-131 and `reduce_impl`, :134-170. -/
def reduce (impl : β → β → C β) (current : β) (rest : List (Dot β)) : C β :=
  forN rest.length (fun i current => do
    match ← rd rest i with
    | .plain next => impl current next
    | .box next => reduceSpliced impl current next) current

/-- An R object as seen by the size functions. -/
inductive Arg (α : Type) where
  | null
  | vec (x : List α)
  /-- An object `obj_check_vector()` rejects, e.g. a function. -/
  | scalar
  deriving DecidableEq, Repr

/-- `obj_check_vector` in src/size-common.c:86-91. -/
def Arg.check : Arg α → C Unit
  | .scalar => .error .abort
  | _ => .ok ()

/-- `vctrs_size2_common`, src/size-common.c:80-122. -/
def size2Common (x y : Arg α) : C (Arg α) := do
  x.check
  y.check
  match x, y with
  | .null, y => .ok y
  | x, .null => .ok x
  | .vec a, .vec b =>
    let nx := a.length
    let ny := b.length
    if nx = ny then .ok x
    else if nx = 1 then .ok y
    else if ny = 1 then .ok x
    else .error .abort
  | _, _ => .error .abort

/-- `vec_size_common_opts`, src/size-common.c:56-77. -/
def vecSizeCommon (xs : List (Dot (Arg α))) (absent : Int) : C Int := do
  match ← reduce size2Common .null xs with
  | .null => .ok absent
  | .vec a => .ok a.length
  | .scalar => .error .abort

/-- `vec_size_common(..., .absent = )` without `.size`: `ffi_size_common`,
src/size-common.c:36-53; `absent = none` is `NULL`. -/
def ffiSizeCommon (xs : List (Dot (Arg α))) (absent : Option Int) : C Int := do
  let common ← vecSizeCommon xs (-1)
  if common < 0 then
    match absent with
    | none => .error .abort
    | some a => .ok a
  else .ok common

/-- `vec_check_recycle`, src/size.c:205-228. -/
def vecCheckRecycle (na : α) (x : Arg α) (size : Int) : C (Arg α) := do
  match x with
  | .null => .ok .null
  | .scalar => .error .abort
  | .vec a =>
    if (a.length : Int) = size then .ok (.vec a)
    else if a.length = 1 then do
      let i ← compactRep 1 size
      let out ← sliceBase na a i
      .ok (.vec out)
    else .error .abort

/-- `ffi_recycle`, src/size.c:231-254, i.e. `vec_recycle(x, size)`; `size` is the integer vector
after the cast, whose first element is read without checking its length. -/
def ffiRecycle (na : α) (x : Arg α) (size : List Int) : C (Arg α) := do
  if x matches .null then .ok .null
  else do
    let n ← rd size 0
    vecCheckRecycle na x n

/-- `vec_recycle_common_opts`, src/size-common.c:157-184.  The list holds plain values here
(`rlang_env_dots_list()` has spliced the boxes when called from R). -/
def vecRecycleCommonOpts (na : α) (xs : List (Arg α)) (size : Int) : C (List (Arg α)) :=
  if size < 0 then .ok xs
  else forN xs.length (fun i xs => do
    let elt ← rd xs i
    let r ← vecCheckRecycle na elt size
    wr xs i r) xs

/-- `ffi_recycle_common` without `.size`, src/size-common.c:139-155. -/
def ffiRecycleCommon (na : α) (xs : List (Arg α)) : C (List (Arg α)) := do
  let common ← vecSizeCommon (xs.map .plain) (-1)
  vecRecycleCommonOpts na xs common

end Vctrs
