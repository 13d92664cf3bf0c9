import Verif.Model.Cast
import Verif.Model.Equal

/-!
# Proxies of 64-bit integers: src/type-integer64.c

An integer64 vector is a double vector whose bit patterns are the 64-bit integers (package bit64).
-/

namespace Vctrs

/-- `r_na_llong`, src/type-integer64.c:4: `LLONG_MIN`. -/
def naLlong : BitVec 64 := BitVec.ofNat 64 (2 ^ 63)

/-- The C conversion `(uint32_t) x` of src/type-integer64.c:151-152: the fractional part is
discarded; a value that does not fit is undefined behaviour. -/
def dblToU32 (x : Dbl) : C (BitVec 32) :=
  if isNan x then .error .ub
  else
    let n := (dblVal x).tdiv (2 ^ 1074)
    if n < 0 then .error .ub
    else if n ≥ 2 ^ 32 then .error .ub
    else .ok (BitVec.ofNat 32 n.toNat)

/-- `int64_unpack()`, src/type-integer64.c:137-147, returning the two values it stores.  The
subtraction is done on unsigned numbers modulo 2^64. -/
def int64Unpack (x : BitVec 64) : Dbl × Dbl :=
  let u := x - BitVec.ofNat 64 (2 ^ 63)
  let left : BitVec 32 := (u >>> 32).truncate 32
  let right : BitVec 32 := u.truncate 32
  (intToDbl left.toNat, intToDbl right.toNat)

/-- `int64_pack()`, src/type-integer64.c:149-159.  The conversion of the unsigned sum to `int64_t`
keeps the bits. -/
def int64Pack (left right : Dbl) : C (BitVec 64) := do
  let l ← dblToU32 left
  let r ← dblToU32 right
  let u : BitVec 64 := (l.zeroExtend 64 <<< 32) ||| r.zeroExtend 64
  .ok (u + BitVec.ofNat 64 (2 ^ 63))

/-- Loop of `vctrs_integer64_proxy()`, src/type-integer64.c:56-69, storing to `v_left[i]` and
`v_right[i]`. -/
def int64ProxyStep (x : List Dbl) (i : Nat) (s : List (Option Dbl) × List (Option Dbl)) :
    C (List (Option Dbl) × List (Option Dbl)) := do
  let elt ← rd x i
  if elt = naLlong then do
    let l ← wr s.1 i (some naReal)
    let r ← wr s.2 i (some naReal)
    .ok (l, r)
  else do
    let u := int64Unpack elt
    let l ← wr s.1 i (some u.1)
    let r ← wr s.2 i (some u.2)
    .ok (l, r)

/-- `vctrs_integer64_proxy()`, src/type-integer64.c:25-73, for a double vector without dimensions:
the columns `left` and `right` of the data frame. -/
def int64Proxy (x : List Dbl) : C (List Dbl × List Dbl) := do
  let s ← forN x.length (int64ProxyStep x) (alloc Dbl x.length, alloc Dbl x.length)
  let l ← initd s.1
  let r ← initd s.2
  .ok (l, r)

/-- The proxy as a data frame, as the comparison code sees it. -/
def int64Df (p : List Dbl × List Dbl) : Val :=
  .df p.1.length [.vec (.atom .dbl) p.1, .vec (.atom .dbl) p.2]

/-- Loop of `vctrs_integer64_restore()`, src/type-integer64.c:99-110. -/
def int64RestoreStep (left right : List Dbl) (i : Nat) (out : List (Option Dbl)) :
    C (List (Option Dbl)) := do
  let l ← rd left i
  let r ← rd right i
  if isNan l then wr out i (some naLlong)
  else do
    let v ← int64Pack l r
    wr out i (some v)

/-- `vctrs_integer64_restore()`, src/type-integer64.c:76-114, for a data frame of two columns. -/
def int64Restore (p : List Dbl × List Dbl) : C (List Dbl) := do
  let out ← forN p.1.length (int64RestoreStep p.1 p.2) (alloc Dbl p.1.length)
  initd out

end Vctrs
