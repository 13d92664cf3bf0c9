import Verif.Model.Shape
import Verif.Model.Size

/-!
# Common type of bare vectors: src/typeof2.c, src/ptype2.c, src/ptype.c, src/ptype-common.c

Objects are `NULL`, vectors of class `vctrs_unspecified`, and bare vectors of the base types with
an optional `dim` attribute.  Of the contents of a vector only those of logical vectors matter (a
vector of missing values is unspecified), and of the others only the size is kept.  Attributes
other than `dim` and the class are not modelled.  The option `vctrs.no_guessing` is not set.  The
S3 fallback of `vec_c()` and friends is off, as it is in `vec_ptype2()` and `vec_ptype_common()`.
Argument counters only serve error messages and are left out.
-/

namespace Vctrs

/-- `enum vctrs_type`, src/type-info.h:6-19, in the order of the cases of src/typeof2.c:23-217. -/
inductive VType
  | null | unspecified | logical | integer | double | complex | character | raw | list
  | dataframe | s3 | scalar
  deriving DecidableEq, Repr

/-- The base types of a bare vector other than logical. -/
inductive BareTy
  | integer | double | complex | character | raw | list
  deriving DecidableEq, Repr

/-- An R object as far as its type matters: `lgl` holds the values (`naInt` for `NA`) of a bare
logical vector, `bare` the size of a bare vector of another type, and `uns` the size of a vector of
class `vctrs_unspecified`. -/
inductive RObj
  | null
  | uns (size : Nat)
  | lgl (xs : List Int) (dim : Option (List Int))
  | bare (t : BareTy) (size : Nat) (dim : Option (List Int))
  deriving DecidableEq, Repr

/-- Body of the loop of `vec_is_unspecified()`, src/unspecified.c:68-72. -/
def isUnspecStep (xs : List Int) (i : Nat) (_ : Bool) : C (Ctl Bool) := do
  let v ← rd xs i
  if v ≠ naInt then .ok (.brk false) else .ok (.next true)

/-- `vec_is_unspecified()`, src/unspecified.c:37-75. -/
def vecIsUnspecified (x : RObj) : C Bool :=
  match x with
  | .null => .ok false
  | .uns _ => .ok true
  | .bare _ _ _ => .ok false
  | .lgl _ (some _) => .ok false
  | .lgl xs none =>
    if xs.length = 0 then .ok false
    else forBrk xs.length (isUnspecStep xs) true

/-- `vec_base_typeof()` on bare vectors, src/type-info.c:66-85 (no proxies). -/
def bareType (t : BareTy) : VType :=
  match t with
  | .integer => .integer
  | .double => .double
  | .complex => .complex
  | .character => .character
  | .raw => .raw
  | .list => .list

/-- `vec_typeof()`, src/type-info.c:166-186. -/
def vecTypeof (x : RObj) : C VType := do
  let u ← vecIsUnspecified x
  if u then .ok .unspecified
  else
    match x with
    | .null => .ok .null
    | .uns _ => .ok .s3
    | .lgl _ _ => .ok .logical
    | .bare t _ _ => .ok (bareType t)

/-- `vec_slice(x, NULL)` on the `dim` attribute, src/slice-array.c (see Model/Array.lean): the rows
are dropped, the other dimensions are kept. -/
def dimSliceNull (dim : Option (List Int)) : C (Option (List Int)) :=
  match dim with
  | none => .ok none
  | some d => do
    let d ← wr d 0 0
    .ok (some d)

/-- `vec_ptype()`, src/ptype.c:13-44.  `vec_ptype_slice()` returns the shared empty vector if there
are no attributes and slices otherwise. -/
def vecPtype (x : RObj) : C RObj := do
  let t ← vecTypeof x
  match t, x with
  | .null, _ => .ok .null
  | .unspecified, _ => .ok (.uns 0)
  | .logical, .lgl _ dim => do
    let d ← dimSliceNull dim
    .ok (.lgl [] d)
  | .dataframe, _ => .error .internal
  | .s3, _ => .error .internal
  | .scalar, _ => .error .abort
  | _, .bare b _ dim => do
    let d ← dimSliceNull dim
    .ok (.bare b 0 d)
  | _, _ => .error .internal

/-- Position of a type in the order of the cases of src/typeof2.c:23-217. -/
def VType.index (t : VType) : Nat :=
  match t with
  | .null => 0 | .unspecified => 1 | .logical => 2 | .integer => 3 | .double => 4 | .complex => 5
  | .character => 6 | .raw => 7 | .list => 8 | .dataframe => 9 | .s3 => 10 | .scalar => 11

/-- `enum vctrs_type2`, src/typeof2.h: an unordered pair of types, written with the type that comes
first in `enum vctrs_type` to the left. -/
structure VType2 where
  fst : VType
  snd : VType
  deriving DecidableEq, Repr

/-- `vec_typeof2_impl()`, src/typeof2.c:20-219: the 144 cases of the switch are regular; the pair is
returned with the earlier type first. The direction `*left` is -1 if the types are the same, 0 if
`x` comes first and 1 otherwise. -/
def vecTypeof2 (x y : VType) : VType2 × Int :=
  if x = y then (⟨x, y⟩, -1)
  else if x.index < y.index then (⟨x, y⟩, 0)
  else (⟨y, x⟩, 1)

/-- The `dim` attribute, `r_dim()` in src/shape.c:44-45. -/
def RObj.dim (x : RObj) : Option (List Int) :=
  match x with
  | .null => none
  | .uns _ => none
  | .lgl _ d => d
  | .bare _ _ d => d

/-- `vec_shaped_ptype()`, src/shape.c:9-24, for `ptype` the shared empty logical vector. -/
def shapedLgl (x y : RObj) : C RObj := do
  let d ← vecShape2 x.dim y.dim
  .ok (.lgl [] d)

/-- `vec_shaped_ptype()`, src/shape.c:9-24, for `ptype` a shared empty vector of another type. -/
def shapedBare (t : BareTy) (x y : RObj) : C RObj := do
  let d ← vecShape2 x.dim y.dim
  .ok (.bare t 0 d)

/-- `vec_ptype2_dispatch_s3()`, src/ptype2-dispatch.c:86-141, on bare vectors of different types.
The prototypes are taken first.  There is no method for the pairs of bare types that reach this
point (NAMESPACE:330-413), among them logical and complex, so that `vec_default_ptype2()`,
R/type2.R:101-171, raises an incompatible type error. -/
def ptype2DispatchS3 (x y : RObj) : C RObj := do
  let _ ← vecPtype x
  let _ ← vecPtype y
  .error .abort

/-- `vec_ptype2_switch_native()`, src/ptype2.c:100-148.  Data frames are modelled apart. -/
def ptype2SwitchNative (x y : RObj) (xt yt : VType) : C RObj :=
  match (vecTypeof2 xt yt).1 with
  | ⟨.null, .null⟩ => .ok .null
  | ⟨.logical, .logical⟩ => shapedLgl x y
  | ⟨.logical, .integer⟩ => shapedBare .integer x y
  | ⟨.integer, .integer⟩ => shapedBare .integer x y
  | ⟨.logical, .double⟩ => shapedBare .double x y
  | ⟨.integer, .double⟩ => shapedBare .double x y
  | ⟨.double, .double⟩ => shapedBare .double x y
  | ⟨.integer, .complex⟩ => shapedBare .complex x y
  | ⟨.double, .complex⟩ => shapedBare .complex x y
  | ⟨.complex, .complex⟩ => shapedBare .complex x y
  | ⟨.character, .character⟩ => shapedBare .character x y
  | ⟨.raw, .raw⟩ => shapedBare .raw x y
  | ⟨.list, .list⟩ => shapedBare .list x y
  | _ => ptype2DispatchS3 x y

/-- `vec_ptype2_opts_impl()`, src/ptype2.c:29-93, on objects that are not of S3 type.
`vec_ptype2_from_unspecified()`, src/ptype2.c:158-179, is `vec_ptype()` without the fallback. -/
def vecPtype2 (x y : RObj) : C RObj := do
  let xt ← vecTypeof x
  let yt ← vecTypeof y
  if xt = .null then vecPtype y
  else if yt = .null then vecPtype x
  else if xt = .unspecified then vecPtype y
  else if yt = .unspecified then vecPtype x
  else if xt = .scalar then .error .abort
  else if yt = .scalar then .error .abort
  else if xt ≠ .s3 ∧ yt ≠ .s3 then ptype2SwitchNative x y xt yt
  else .error .internal

/-- `vec_ptype_finalise()`, src/ptype.c:119-170. -/
def vecPtypeFinalise (x : RObj) : RObj :=
  match x with
  | .null => .null
  | .uns size => if size = 0 then .lgl [] none else .lgl (List.replicate size naInt) none
  | x => x

/-- `vec_ptype_common_opts()`, src/ptype-common.c:43-68 with `ptype2_common()`, 86-113 and
`reduce()` of Model/Size.lean.  A `.ptype`
other than `NULL` is not partial here. -/
def vecPtypeCommon (ptype : RObj) (dots : List (Dot RObj)) : C RObj :=
  match ptype with
  | .null => do
    let t ← reduce vecPtype2 .null dots
    .ok (vecPtypeFinalise t)
  | p => vecPtype p

end Vctrs
