import Verif.Model.Scalar

/-!
# Casts between logical, integer and double vectors: src/cast-bare.c, src/cast.c

Logical and integer elements are `Int`s (`naInt` for `NA`), doubles are bit patterns.  The casters
return `NULL` and set `*lossy` when an element has no counterpart; here they return `none`.
-/

namespace Vctrs

/-- The bits below the sign of the double of value `m`, for `m` below 2^53: the conversion of an
`int` to `double` in src/cast-bare.c:140, :162 and :178, and the constants of :127. -/
def natToMag (m : Nat) : Nat :=
  if m = 0 then 0 else (Nat.log2 m + 1023) * 2 ^ 52 + (m * 2 ^ (52 - Nat.log2 m) - 2 ^ 52)

/-- The C conversion of an `int` to `double` (exact), as in src/cast-bare.c:178. -/
def intToDbl (n : Int) : Dbl :=
  BitVec.ofNat 64 (natToMag n.natAbs + if n < 0 then 2 ^ 63 else 0)

/-- The C operator `<=` on doubles, as used in src/cast-bare.c:127. -/
def dblLeOp (x y : Dbl) : Bool := !isNan x && !isNan y && decide (dblVal x ≤ dblVal y)

/-- The C conversion `(int) x` of src/cast-bare.c:53 and :138: the fractional part is discarded; a
value that does not fit an `int` is undefined behaviour. -/
def dblToInt (x : Dbl) : C Int :=
  if isNan x then .error .ub
  else
    let n := (dblVal x).tdiv (2 ^ 1074)
    if n < naInt then .error .ub
    else if n > (intMax : Int) then .error .ub
    else .ok n

/-- Body of the loop of `int_as_logical()`, src/cast-bare.c:11-26.  The state is the output, or
`none` after the return in :22. -/
def intAsLglStep (x : List Int) (i : Nat) (s : Option (List (Option Int))) :
    C (Ctl (Option (List (Option Int)))) :=
  match s with
  | none => .ok (.brk none)
  | some out => do
    let elt ← rd x i
    if elt = naInt then do
      let out ← wr out i (some naInt)
      .ok (.next (some out))
    else if elt ≠ 0 ∧ elt ≠ 1 then .ok (.brk none)
    else do
      let out ← wr out i (some elt)
      .ok (.next (some out))

/-- What a caster returns: the output vector, or `NULL` after a loss. -/
def castOut {α : Type} (s : Option (List (Option α))) : C (Option (List α)) :=
  match s with
  | none => .ok none
  | some out => do
    let out ← initd out
    .ok (some out)

/-- `int_as_logical()`, src/cast-bare.c:4-30. -/
def intAsLgl (x : List Int) : C (Option (List Int)) := do
  let s ← forBrk x.length (intAsLglStep x) (some (alloc Int x.length))
  castOut s

/-- Body of the loop of `dbl_as_logical()`, src/cast-bare.c:39-54. -/
def dblAsLglStep (x : List Dbl) (i : Nat) (s : Option (List (Option Int))) :
    C (Ctl (Option (List (Option Int)))) :=
  match s with
  | none => .ok (.brk none)
  | some out => do
    let elt ← rd x i
    if isNan elt then do
      let out ← wr out i (some naInt)
      .ok (.next (some out))
    else if !dblEqOp elt (intToDbl 0) ∧ !dblEqOp elt (intToDbl 1) then .ok (.brk none)
    else do
      let value ← dblToInt elt
      let out ← wr out i (some value)
      .ok (.next (some out))

/-- `dbl_as_logical()`, src/cast-bare.c:32-58. -/
def dblAsLgl (x : List Dbl) : C (Option (List Int)) := do
  let s ← forBrk x.length (dblAsLglStep x) (some (alloc Int x.length))
  castOut s

/-- The switch of `chr_as_logical()`, src/cast-bare.c:74-102: the value of a string, or `none`.
`elt[0]` and `elt[1]` read the terminating zero of a shorter string. -/
def strAsLgl (elt : List Char) : Option Int :=
  match elt with
  | [] => none
  | 'T' :: rest =>
    if rest = [] ∨ strcmp elt "TRUE".toList = 0 then some 1 else none
  | 'F' :: rest =>
    if rest = [] ∨ strcmp elt "FALSE".toList = 0 then some 0 else none
  | 't' :: _ => if strcmp elt "true".toList = 0 then some 1 else none
  | 'f' :: _ => if strcmp elt "false".toList = 0 then some 0 else none
  | _ => none

/-- Body of the loop of `chr_as_logical()`, src/cast-bare.c:67-107. -/
def chrAsLglStep (x : List Name) (i : Nat) (s : Option (List (Option Int))) :
    C (Ctl (Option (List (Option Int)))) :=
  match s with
  | none => .ok (.brk none)
  | some out => do
    let str ← rd x i
    match str with
    | none => do
      let out ← wr out i (some naInt)
      .ok (.next (some out))
    | some elt =>
      match strAsLgl elt with
      | none => .ok (.brk none)
      | some v => do
        let out ← wr out i (some v)
        .ok (.next (some out))

/-- `chr_as_logical()`, src/cast-bare.c:60-111. -/
def chrAsLgl (x : List Name) : C (Option (List Int)) := do
  let s ← forBrk x.length (chrAsLglStep x) (some (alloc Int x.length))
  castOut s

/-- `lgl_as_integer()`, src/cast-bare.c:113-115: `Rf_coerceVector()` copies the elements. -/
def lglAsInt (x : List Int) : C (Option (List Int)) := .ok (some x)

/-- Body of the loop of `dbl_as_integer()`, src/cast-bare.c:124-147. -/
def dblAsIntStep (x : List Dbl) (i : Nat) (s : Option (List (Option Int))) :
    C (Ctl (Option (List (Option Int)))) :=
  match s with
  | none => .ok (.brk none)
  | some out => do
    let elt ← rd x i
    if dblLeOp elt (intToDbl naInt) ∨ dblLeOp (intToDbl ((intMax : Int) + 1)) elt then
      .ok (.brk none)
    else if isNan elt then do
      let out ← wr out i (some naInt)
      .ok (.next (some out))
    else do
      let value ← dblToInt elt
      if !dblEqOp (intToDbl value) elt then .ok (.brk none)
      else do
        let out ← wr out i (some value)
        .ok (.next (some out))

/-- `dbl_as_integer()`, src/cast-bare.c:117-151. -/
def dblAsInt (x : List Dbl) : C (Option (List Int)) := do
  let s ← forBrk x.length (dblAsIntStep x) (some (alloc Int x.length))
  castOut s

/-- `lgl_as_double()`, src/cast-bare.c:153-167, and `int_as_double()`, src/cast-bare.c:169-183,
which have the same body. -/
def intAsDbl (x : List Int) : C (Option (List Dbl)) := do
  let out ← forN x.length (fun i out => do
    let elt ← rd x i
    wr out i (some (if elt = naInt then naReal else intToDbl elt))) (alloc Dbl x.length)
  castOut (some out)

/-- A bare logical, integer or double vector without dimensions, as far as src/cast.c:76-116 is
concerned. -/
inductive NumVec
  | lgl (x : List Int)
  | int (x : List Int)
  | dbl (x : List Dbl)
  deriving DecidableEq, Repr

/-- The type to cast to. -/
inductive NumTy
  | lgl | int | dbl
  deriving DecidableEq, Repr

/-- `vec_init()` of a bare vector, src/slice.c:427-441 with the default element of the type, for a
vector of `n` missing values. -/
def numInit (to : NumTy) (n : Nat) : NumVec :=
  match to with
  | .lgl => .lgl (List.replicate n naInt)
  | .int => .int (List.replicate n naInt)
  | .dbl => .dbl (List.replicate n naReal)

/-- `vec_cast_switch_native()`, src/cast.c:76-126, for the numeric types. -/
def numCastNative (x : NumVec) (to : NumTy) : C (Option NumVec) :=
  match x, to with
  | .lgl x, .lgl => .ok (some (.lgl x))
  | .int x, .int => .ok (some (.int x))
  | .dbl x, .dbl => .ok (some (.dbl x))
  | .lgl x, .int => do .ok ((← lglAsInt x).map .int)
  | .int x, .lgl => do .ok ((← intAsLgl x).map .lgl)
  | .lgl x, .dbl => do .ok ((← intAsDbl x).map .dbl)
  | .dbl x, .lgl => do .ok ((← dblAsLgl x).map .lgl)
  | .int x, .dbl => do .ok ((← intAsDbl x).map .dbl)
  | .dbl x, .int => do .ok ((← dblAsInt x).map .int)

/-- `vec_is_unspecified()` on these vectors (src/unspecified.c:37-75): a logical vector with
elements all of which are missing. -/
def numUnspecified (x : NumVec) : Bool :=
  match x with
  | .lgl x => x.length ≠ 0 && x.all (fun v => decide (v = naInt))
  | _ => false

/-- `vec_size()`, src/cast.c:43. -/
def numSize (x : NumVec) : Nat :=
  match x with
  | .lgl x => x.length
  | .int x => x.length
  | .dbl x => x.length

/-- `vec_cast_opts()`, src/cast.c:20-74, for the numeric types; the prototype is a vector of size
zero.  After a loss the S3 method (R/type-bare.R:168-281) raises a lossy cast error. -/
def numCast (x : NumVec) (to : NumTy) : C NumVec :=
  if numUnspecified x then .ok (numInit to (numSize x))
  else do
    let out ← numCastNative x to
    match out with
    | none => .error .abort
    | some out => .ok out

end Vctrs
