import Verif.Model.Proxy

/-!
# Slicing of vectors and data frames: src/slice.c

`sliceBase` (Slice.lean) for the columns of a value.  Names, row names, shapes and classes are not
part of `Val`.
-/

namespace Vctrs

/-- The `NA_VALUE` of `lgl_slice` to `list_slice`, src/slice.c:76-95 and :159-170: the missing
value of the type, for raw 0. -/
def naElt : (t : VTy) → t.El
  | .atom .lgl => naInt
  | .atom .int => naInt
  | .atom .dbl => naReal
  | .atom .cpl => (naReal, naReal)
  | .atom .chr => (none : Name)
  | .atom .raw => (0#8 : BitVec 8)
  | .list => Obj.nil

mutual

/-- `vec_slice_unsafe`, src/slice.c:280-402, of bare vectors and data frames with `df_slice`,
:174-208. -/
def valSlice (subscript : Subscript) : Val → C Val
  | .vec t xs => do .ok (.vec t (← sliceBase (naElt t) xs subscript))
  | .df n cols => do
    let cols ← valSliceCols subscript n cols
    .ok (.df (subscriptSize subscript).toNat cols)

/-- The loop of `df_slice`, src/slice.c:184-196: a column of another size is an internal error. -/
def valSliceCols (subscript : Subscript) (size : Nat) : List Val → C (List Val)
  | [] => .ok []
  | x :: xs =>
    if x.size ≠ size then .error .internal
    else do
      let y ← valSlice subscript x
      let ys ← valSliceCols subscript size xs
      .ok (y :: ys)

end

/-- `vec_slice`, src/slice.c:409-425, without names. -/
def rSlice (x : Val) (i : RSubscript) : C Val := do
  let loc ← vecAsLocation i x.size none {}
  valSlice (.locs loc) x

end Vctrs
