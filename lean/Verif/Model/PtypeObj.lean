import Verif.Model.Kinds

/-!
# `vec_ptype()` and `vec_ptype_finalise()`: src/ptype.c

Objects are those of Model/Kinds.lean: types, lengths, columns and attributes.  Dimension names are not
modelled.
-/

namespace Vctrs

/-- The methods that `vec_ptype()` calls.  `proxy` is as in `proxyInfo`; `ptype x` the outcome of a method
for `vec_ptype()`, if there is one; `slice x` is `vec_slice(x, NULL)` of an object; `restore x to` is
`vec_restore_dispatch()`; `finalise` is `vec_ptype_finalise_dispatch()`. -/
structure PtypeMethods where
  proxy : KObj → Option (C KObj)
  ptype : KObj → Option (C KObj)
  slice : KObj → C KObj
  restore : KObj → KObj → C KObj
  finalise : KObj → C KObj

/-- The shared unspecified vector of size zero, src/unspecified.c:82-97. -/
def emptyUns : KObj := .mk .logical 0 [] [] [(.class_, .chr [some "vctrs_unspecified"])] true

/-- The attributes that `vec_restore_default` does not copy, src/proxy-restore.c:93-97. -/
def specialTag : KTag → Bool
  | .names | .dim | .class_ | .rowNames => true
  | .other _ => false

/-- A node if there is a value. -/
def attrNode (t : KTag) : Option KVal → List (KTag × KVal)
  | none => []
  | some v => [(t, v)]

/-- `vec_restore_default`, src/proxy-restore.c:64-150, on the attributes: those of `to` in their order
except the special ones, then names and row names, or the dimensions, of `x`, then the class of `to`.
C78 is about the references. -/
def restoreKind (x dest : KObj) (destIsDf : Bool) : KObj :=
  match dest.attrs with
  | [] => x
  | _ =>
    let base := dest.attrs.filter fun a => !specialTag a.1
    let kept := match kindGet x.attrs .dim with
      | none => attrNode .names (kindGet x.attrs .names) ++
          (if destIsDf then attrNode .rowNames (kindGet x.attrs .rowNames) else [])
      | some d => [(.dim, d)]
    let cls := kindGet dest.attrs .class_
    .mk x.ty x.length x.nas x.cols (base ++ kept ++ attrNode .class_ cls) cls.isSome

/-- The dimensions of `vec_slice(x, NULL)`: the first is zero, `vec_slice_shaped`, src/slice-array.c:290-300.  R
refuses other dimensions. -/
def zeroRows : KVal → C KVal
  | .int (_ :: ds) => .ok (.int (0 :: ds))
  | _ => .error .internal

/-- `vec_slice_unsafe`, src/slice.c:284-368, with an empty subscript, of a vector without a class. -/
def sliceEmptyBase (x : KObj) : C KObj :=
  match kindGet x.attrs .dim with
  | some d => do
    let d ← zeroRows d
    .ok (restoreKind (.mk x.ty 0 [] [] [(.dim, d)] false) x false)
  | none =>
    let nms := (kindGet x.attrs .names).map fun _ => KVal.chr []
    .ok (restoreKind (.mk x.ty 0 [] [] (attrNode .names nms) false) x false)

/-- `vec_ptype_slice`, src/ptype.c:36-44. -/
def ptypeSlice (m : PtypeMethods) (x : KObj) : C KObj :=
  if x.attrs = [] then .ok (.mk x.ty 0 [] [] [] false)
  else if x.obj then m.slice x
  else sliceEmptyBase x

/-- `r_attrib_poke()` of a value, src/rlang/attrib.h: the node with the tag is overwritten, or a node is
added at the end. -/
def kindPoke : List (KTag × KVal) → KTag → KVal → List (KTag × KVal)
  | [], t, v => [(t, v)]
  | (u, w) :: l, t, v => if u = t then (u, v) :: l else (u, w) :: kindPoke l t v

/-- Replace the attributes. -/
def KObj.withAttrs (x : KObj) (a : List (KTag × KVal)) : KObj :=
  .mk x.ty x.length x.nas x.cols a x.obj

/-- `map`, src/utils.c:320-333, after the columns have been computed: a list with the names of `x`. -/
def mapObj (x : KObj) (cols : List KObj) : KObj :=
  .mk .list cols.length [] cols (attrNode .names (kindGet x.attrs .names)) false

/-- `vec_bare_df_restore` without recursion, src/proxy-restore.c:174-229, of a fresh list `x` without row
names: names are added if there are none, and compact row names. -/
def restoreBareDf (m : PtypeMethods) (x dest : KObj) : C KObj := do
  let x := restoreKind x dest true
  let x := match kindGet x.attrs .names with
    | none => x.withAttrs (kindPoke x.attrs .names (.chr (List.replicate x.length (some ""))))
    | some _ => x
  let size ← dfObjRawSize m.proxy x
  .ok (x.withAttrs (kindPoke x.attrs .rowNames (newCompactRownames size)))

/-- `bare_df_map` and `df_map`, src/utils.c:351-378, after the columns have been computed. -/
def dfMapObj (m : PtypeMethods) (bare : Bool) (x : KObj) (cols : List KObj) : C KObj := do
  let out ← restoreBareDf m (mapObj x cols) x
  if bare then .ok out else m.restore out x

/-- Whether row names are a character vector, src/ptype.c:109. -/
def chrRowNames (x : KObj) : Bool :=
  match kindGet x.attrs .rowNames with
  | some (.chr _) => true
  | _ => false

/-- `df_ptype`, src/ptype.c:98-115, after the columns have been computed. -/
def dfPtypeObj (m : PtypeMethods) (bare : Bool) (x : KObj) (cols : List KObj) : C KObj := do
  let p ← dfMapObj m bare x cols
  if chrRowNames x then .ok (p.withAttrs (kindPoke p.attrs .rowNames (.chr []))) else .ok p

/-- `vec_is_partial`, src/utils-dispatch.c:114-116. -/
def isPartialObj (x : KObj) : C Bool :=
  if x.ty = .null then .ok true
  else if x.ty = .list then kindInherits x "vctrs_partial"
  else .ok false

/-- The end of `s3_ptype`, src/ptype.c:66-82. -/
def s3PtypeOther (m : PtypeMethods) (x : KObj) : C KObj := do
  let partial_ ← isPartialObj x
  if partial_ then .ok x
  else match m.ptype x with
    | some p => p
    | none => do
      let v ← objIsVector m.proxy x
      if !v then .error .abort else m.slice x

/-- How `vec_ptype()` goes on, src/ptype.c:13-30, and `s3_ptype`, src/ptype.c:46-65: with the columns of a
data frame (`bare` or not), or with the result.  A class of data frames on another type than a list is an
error of `VECTOR_ELT()` or of the restoration. -/
inductive PtypeStep where
  | done (p : C KObj)
  | cols (bare : Bool)

/-- `s3_ptype`, src/ptype.c:46-82. -/
def s3PtypeStep (m : PtypeMethods) (x : KObj) (c : VClass) : PtypeStep :=
  match c with
  | .bareTibble => .cols true
  | .dataFrame => .cols false
  | .bareDataFrame | .noClass => .done (.error .internal)
  | _ => .done (s3PtypeOther m x)

/-- The switch of `vec_ptype`, src/ptype.c:13-30. -/
def ptypeStep (m : PtypeMethods) (x : KObj) : C PtypeStep := do
  match ← typeofObj x with
  | .null => .ok (.done (.ok x))
  | .unspecified => .ok (.done (.ok emptyUns))
  | .dataframe => .ok (.cols true)
  | .s3 => do
    let c ← classTypeOf x
    .ok (s3PtypeStep m x c)
  | .scalar => .ok (.done (.error .abort))
  | _ => .ok (.done (ptypeSlice m x))

mutual
/-- `vec_ptype`, src/ptype.c:13-30. -/
def ptypeObj (m : PtypeMethods) : KObj → C KObj
  | .mk ty len nas cols attrs obj => do
    match ← ptypeStep m (.mk ty len nas cols attrs obj) with
    | .done p => p
    | .cols bare =>
      if ty ≠ .list then .error .abort
      else do
        let ps ← ptypeCols m cols
        dfPtypeObj m bare (.mk ty len nas cols attrs obj) ps

/-- The loop of `map` with `col_ptype`, src/utils.c:324-326 and src/ptype.c:32-35. -/
def ptypeCols (m : PtypeMethods) : List KObj → C (List KObj)
  | [] => .ok []
  | c :: cs => do
    let p ← ptypeObj m c
    let ps ← ptypeCols m cs
    .ok (p :: ps)
end

/-- `vec_ptype_finalise_unspecified`, src/ptype.c:157-169. -/
def finaliseUns (x : KObj) : KObj :=
  .mk .logical 0 (List.replicate x.length true) [] [] false

/-- `vec_ptype_finalise`, src/ptype.c:119-154, up to the columns of data frames. -/
def finaliseStep (m : PtypeMethods) (x : KObj) : C PtypeStep :=
  if x.ty = .null then .ok (.done (.ok x))
  else if !x.obj then do
    let v ← objIsVector m.proxy x
    .ok (.done (if v then .ok x else .error .abort))
  else do
    let u ← isUnspecified x
    if u then .ok (.done (.ok (finaliseUns x)))
    else do
      let partial_ ← isPartialObj x
      if partial_ then .ok (.done (m.finalise x))
      else do
        let v ← objIsVector m.proxy x
        if !v then .ok (.done (.error .abort))
        else do
          match ← classTypeOf x with
          | .bareTibble | .bareDataFrame => .ok (.cols true)
          | .dataFrame => .ok (.cols false)
          | .noClass => .ok (.done (.error .internal))
          | _ => .ok (.done (m.finalise x))

mutual
/-- `vec_ptype_finalise`, src/ptype.c:119-154. -/
def finaliseObj (m : PtypeMethods) : KObj → C KObj
  | .mk ty len nas cols attrs obj => do
    match ← finaliseStep m (.mk ty len nas cols attrs obj) with
    | .done p => p
    | .cols bare =>
      if ty ≠ .list then .error .abort
      else do
        let ps ← finaliseCols m cols
        dfMapObj m bare (.mk ty len nas cols attrs obj) ps

/-- The loop of `map` with `vec_ptype_finalise`, src/utils.c:324-326. -/
def finaliseCols (m : PtypeMethods) : List KObj → C (List KObj)
  | [] => .ok []
  | c :: cs => do
    let p ← finaliseObj m c
    let ps ← finaliseCols m cs
    .ok (p :: ps)
end

end Vctrs
