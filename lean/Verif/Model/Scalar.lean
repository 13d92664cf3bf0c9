import Verif.Model.Names
import Verif.Model.Dict

/-!
# Element level operations: equality, order, missingness and hashing

The static inline functions of `src/equal.h`, `src/compare.h`, `src/missing.h` and the
scalar hashers of `src/hash.c`.  A double is its 64 bit pattern; a `CHARSXP` is its byte
string (`none` is `NA_STRING`): R interns strings in a global cache and
`vec_normalize_encoding` (equal.c:30-31, compare.c:38-39) has made encodings uniform, so
pointer equality is equality of the byte strings.
-/

namespace Vctrs

/-! ## Doubles -/

/-- A C `double`: its IEEE 754 binary64 bit pattern (vctrs-core.h:55-58). -/
abbrev Dbl := BitVec 64

/-- The bits below the sign: exponent and significand (layout in vctrs-core.h:55-58). -/
def dblMagBits (x : Dbl) : Nat := x.toNat % 2 ^ 63

/-- The sign bit (layout in vctrs-core.h:55-58). -/
def dblNeg (x : Dbl) : Bool := decide (2 ^ 63 ≤ x.toNat)

/-- `isnan`, as called in src/vctrs-core.c:4: all-ones exponent and nonzero significand. -/
def isNan (x : Dbl) : Bool := decide (2047 * 2 ^ 52 < dblMagBits x)

/-- Magnitude of a non-NaN double, in units of 2^-1074 (the layout of vctrs-core.h:55-58):
`m` holds the exponent and significand bits; exponent 0 is a subnormal, infinity
is the value the formula gives for exponent 2047, above every finite magnitude. -/
def dblMagOf (m : Nat) : Nat :=
  let e := m / 2 ^ 52
  let f := m % 2 ^ 52
  if e = 0 then f else (2 ^ 52 + f) * 2 ^ (e - 1)

/-- Numeric value of a non-NaN double in units of 2^-1074. -/
def dblVal (x : Dbl) : Int :=
  if dblNeg x then -(dblMagOf (dblMagBits x) : Int) else dblMagOf (dblMagBits x)

/-- The C operator `==` on doubles, as used in src/equal.h:31 and :121. -/
def dblEqOp (x y : Dbl) : Bool := !isNan x && !isNan y && decide (dblVal x = dblVal y)

/-- The C operator `<` on doubles, as used in src/compare.h:23. -/
def dblLtOp (x y : Dbl) : Bool := !isNan x && !isNan y && decide (dblVal x < dblVal y)

/-- `enum vctrs_dbl`, src/vctrs-core.h. -/
inductive DblClass
  | number | missing | nan
  deriving DecidableEq, Repr

/-- `dbl_classify`, src/vctrs-core.c:3-16.  The low word (vctrs-core.h:68-78) is compared
with 1954. -/
def dblClassify (x : Dbl) : DblClass :=
  if !isNan x then .number
  else if x.toNat % 2 ^ 32 = 1954 then .missing
  else .nan

/-- `NA_REAL`: a NaN whose low word is 1954 (R's arithmetic.c; payload described in
vctrs-core.h:60-61). -/
def naReal : Dbl := 0x7FF00000000007A2#64

/-- `R_NaN`, the quiet NaN used in src/hash.c:75. -/
def rNaN : Dbl := 0x7FF8000000000000#64

/-! ## Types -/

/-- The atomic vector types: the cases of src/equal.c:42-47. -/
inductive ATy
  | lgl | int | dbl | cpl | chr | raw
  deriving DecidableEq, Repr

/-- The C element type behind each atomic type (`CTYPE` in src/equal.c:83-110).
`lgl` and `int` are a C `int`, with `naInt` for NA. -/
def ATy.El : ATy → Type
  | .lgl => Int
  | .int => Int
  | .dbl => Dbl
  | .cpl => Dbl × Dbl
  | .chr => Name
  | .raw => BitVec 8

/-! ## Missingness (src/missing.h) -/

/-- `lgl_is_missing`, `int_is_missing`, `dbl_is_missing`, `cpl_is_missing`,
`chr_is_missing`, `raw_is_missing`: src/missing.h:16-42. -/
def isMissing : (t : ATy) → t.El → Bool
  | .lgl, (x : Int) => decide (x = naInt)
  | .int, (x : Int) => decide (x = naInt)
  | .dbl, (x : Dbl) => isNan x
  | .cpl, (x : Dbl × Dbl) => isNan x.1 || isNan x.2
  | .chr, (x : Name) => x.isNone
  | .raw, _ => false

/-! ## Equality (src/equal.h) -/

/-- `dbl_equal_na_equal`, src/equal.h:22-32. -/
def dblEqualNaEqual (x y : Dbl) : Bool :=
  match dblClassify x with
  | .missing => dblClassify y == .missing
  | .nan => dblClassify y == .nan
  | .number => if isNan y then false else dblEqOp x y

/-- The `*_equal_na_equal` scalar functions, src/equal.h:16-39. -/
def equalNaEqual : (t : ATy) → t.El → t.El → Bool
  | .lgl, (x : Int), (y : Int) => decide (x = y)
  | .int, (x : Int), (y : Int) => decide (x = y)
  | .dbl, (x : Dbl), (y : Dbl) => dblEqualNaEqual x y
  | .cpl, (x : Dbl × Dbl), (y : Dbl × Dbl) =>
      dblEqualNaEqual x.1 y.1 && dblEqualNaEqual x.2 y.2
  | .chr, (x : Name), (y : Name) => decide (x = y)
  | .raw, (x : BitVec 8), (y : BitVec 8) => decide (x = y)

/-- `dbl_equal_na_propagate`, src/equal.h:115-123.  `none` is `NA_LOGICAL`. -/
def dblEqualNaPropagate (x y : Dbl) : Option Bool :=
  if isNan x || isNan y then none else some (dblEqOp x y)

/-- The `*_equal_na_propagate` scalar functions, src/equal.h:99-146. -/
def equalNaPropagate : (t : ATy) → t.El → t.El → Option Bool
  | .lgl, x, y => if isMissing .lgl x || isMissing .lgl y then none
      else some (equalNaEqual .lgl x y)
  | .int, x, y => if isMissing .int x || isMissing .int y then none
      else some (equalNaEqual .int x y)
  | .dbl, (x : Dbl), (y : Dbl) => dblEqualNaPropagate x y
  | .cpl, (x : Dbl × Dbl), (y : Dbl × Dbl) =>
      match dblEqualNaPropagate x.1 y.1, dblEqualNaPropagate x.2 y.2 with
      | some r, some i => some (r && i)
      | _, _ => none
  | .chr, x, y => if isMissing .chr x || isMissing .chr y then none
      else some (equalNaEqual .chr x y)
  | .raw, x, y => some (equalNaEqual .raw x y)

/-! ## Order (src/compare.h) -/

/-- `int_compare_scalar`, src/compare.h:16-19. -/
def intCompareScalar (x y : Int) : Int :=
  (if y < x then 1 else 0) - (if x < y then 1 else 0)

/-- `dbl_compare_scalar`, src/compare.h:20-23. -/
def dblCompareScalar (x y : Dbl) : Int :=
  (if dblLtOp y x then 1 else 0) - (if dblLtOp x y then 1 else 0)

/-- libc `strcmp`, called at src/compare.h:27, on byte strings without embedded NUL: the
difference of the first differing bytes (as `unsigned char`), with the terminator below
every byte.  The C standard fixes only the sign; the size is removed by the caller. -/
def strcmp : List Char → List Char → Int
  | [], [] => 0
  | [], _ :: _ => -1
  | _ :: _, [] => 1
  | c :: s, d :: t => if c = d then strcmp s t else (c.toNat : Int) - d.toNat

/-- `chr_compare_scalar`, src/compare.h:24-29: `cmp / abs(cmp)`, a division by zero for
equal strings. -/
def chrCompareScalar (x y : List Char) : C Int :=
  let cmp := strcmp x y
  if cmp = 0 then .error .ub else .ok (cmp / (cmp.natAbs : Int))

/-- `dbl_compare_na_equal`, src/compare.h:52-82. -/
def dblCompareNaEqual (x y : Dbl) : Int :=
  match dblClassify x, dblClassify y with
  | .number, .number => dblCompareScalar x y
  | .number, .missing => 1
  | .number, .nan => 1
  | .missing, .number => -1
  | .missing, .missing => 0
  | .missing, .nan => 1
  | .nan, .number => -1
  | .nan, .missing => -1
  | .nan, .nan => 0

/-- `chr_compare_na_equal`, src/compare.h:87-98. -/
def chrCompareNaEqual (x y : Name) : C Int :=
  if x = y then .ok 0
  else match x, y with
    | none, _ => .ok (-1)
    | some _, none => .ok 1
    | some s, some t => chrCompareScalar s t

/-- The `*_compare_na_equal` scalar functions, src/compare.h:44-102, as selected by
`vec_compare` (compare.c:47-57): complex vectors abort with "Can't compare complexes.",
raw ones with the "unimplemented type" error. -/
def compareNaEqual : (t : ATy) → t.El → t.El → C Int
  | .lgl, (x : Int), (y : Int) => .ok (intCompareScalar x y)
  | .int, (x : Int), (y : Int) => .ok (intCompareScalar x y)
  | .dbl, (x : Dbl), (y : Dbl) => .ok (dblCompareNaEqual x y)
  | .cpl, _, _ => .error .abort
  | .chr, (x : Name), (y : Name) => chrCompareNaEqual x y
  | .raw, _, _ => .error .abort

/-- `chr_compare_na_propagate`, src/compare.h:199-208. -/
def chrCompareNaPropagate (x y : Name) : C (Option Int) :=
  match x, y with
  | none, _ => .ok none
  | some _, none => .ok none
  | some s, some t => if s = t then .ok (some 0) else do .ok (some (← chrCompareScalar s t))

/-- The `*_compare_na_propagate` scalar functions, src/compare.h:170-216.  `none` is
`NA_INTEGER`. -/
def compareNaPropagate : (t : ATy) → t.El → t.El → C (Option Int)
  | .lgl, (x : Int), (y : Int) => .ok (if isMissing .lgl x || isMissing .lgl y then none
      else some (intCompareScalar x y))
  | .int, (x : Int), (y : Int) => .ok (if isMissing .int x || isMissing .int y then none
      else some (intCompareScalar x y))
  | .dbl, (x : Dbl), (y : Dbl) => .ok (if isMissing .dbl x || isMissing .dbl y then none
      else some (dblCompareScalar x y))
  | .cpl, _, _ => .error .abort
  | .chr, (x : Name), (y : Name) => chrCompareNaPropagate x y
  | .raw, _, _ => .error .abort

/-! ## Hashing (src/hash.c) -/

/-- `hash_combine`, src/hash.c:4-6. -/
def hashCombine (x y : BitVec 32) : BitVec 32 :=
  x ^^^ (y + 0x9e3779b9#32 + (x <<< 6) + (x >>> 2))

/-- `hash_uint32`, src/hash.c:10-18. -/
def hashU32 (x : BitVec 32) : BitVec 32 :=
  let x := x ^^^ (x >>> 16)
  let x := x * 0x85ebca6b#32
  let x := x ^^^ (x >>> 13)
  let x := x * 0xc2b2ae35#32
  x ^^^ (x >>> 16)

/-- `hash_uint64`, src/hash.c:22-29; the result is truncated to `uint32_t`. -/
def hashU64 (x : BitVec 64) : BitVec 32 :=
  let x := x ^^^ (x >>> 33)
  let x := x * 0xff51afd7ed558ccd#64
  let x := x ^^^ (x >>> 33)
  let x := x * 0xc4ceb9fe1a85ec53#64
  let x := x ^^^ (x >>> 33)
  x.setWidth 32

/-- `hash_double`, src/hash.c:33-46. -/
def hashDouble (x : Dbl) : BitVec 32 := hashU64 (if dblEqOp x 0#64 then 0#64 else x)

/-- `dbl_hash_scalar`, src/hash.c:68-79. -/
def dblHashScalar (x : Dbl) : BitVec 32 :=
  hashDouble (match dblClassify x with
    | .number => x
    | .missing => naReal
    | .nan => rNaN)

/-- `lgl_hash_scalar` … `raw_hash_scalar`, src/hash.c:62-91.  `addr` is the address of a
`CHARSXP` in R's string cache (one per distinct string), which `hash_char`
(hash.c:48-50) hashes. -/
def hashScalar (addr : Name → BitVec 64) : (t : ATy) → t.El → BitVec 32
  | .lgl, (x : Int) => hashU32 (BitVec.ofInt 32 x)
  | .int, (x : Int) => hashU32 (BitVec.ofInt 32 x)
  | .dbl, (x : Dbl) => dblHashScalar x
  | .cpl, (x : Dbl × Dbl) => hashCombine (hashCombine 0 (dblHashScalar x.1)) (dblHashScalar x.2)
  | .chr, (x : Name) => hashU64 (addr x)
  | .raw, (x : BitVec 8) => hashU32 (x.setWidth 32)

/-- `HASH_MISSING`, src/hash.h:4: the marker used by the `na_propagate` fills. -/
def hashMissing : BitVec 32 := 1#32

end Vctrs
