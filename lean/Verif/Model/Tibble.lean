import Verif.Model.DfType
import Verif.Model.Typeof2S3

/-!
# Data frames and tibbles: src/type-tibble.c

A data frame with its class.  Row names and other attributes are not modelled, as in `Verif.Model.DfType`.
-/

namespace Vctrs

/-- A data frame and its class attribute. -/
structure DfObj (β : Type) where
  frame : Df β
  cls : List (Option String)
  deriving DecidableEq, Repr

variable {β : Type}

/-- `classes_data_frame`, src/utils.c:1743-1745. -/
def classesDataFrame : List (Option String) := [some "data.frame"]

/-- `classes_tibble`, src/utils.c:1789-1796. -/
def classesTibble : List (Option String) := [some "tbl_df", some "tbl", some "data.frame"]

/-- `df_ptype2()` with the class that `init_data_frame()` sets at the end, src/type-data-frame.c:436-439, :607, :645. -/
def dfPtype2Obj (hash : Name → BitVec 32) (ops : ColOps β) (x y : DfObj β) : C (DfObj β) := do
  let out ← dfPtype2 hash ops x.frame y.frame
  .ok ⟨out, classesDataFrame⟩

/-- `tib_ptype2()`, src/type-tibble.c:5-12. -/
def tibPtype2 (hash : Name → BitVec 32) (ops : ColOps β) (x y : DfObj β) : C (DfObj β) := do
  let out ← dfPtype2Obj hash ops x y
  .ok { out with cls := classesTibble }

/-- `df_cast_opts()` with the class that `init_data_frame()` sets, src/type-data-frame.c:436-439, :760, :817. -/
def dfCastObj (hash : Name → BitVec 32) (ops : ColOps β) (x ty : DfObj β) : C (DfObj β) := do
  let out ← dfCast hash ops x.frame ty.frame
  .ok ⟨out, classesDataFrame⟩

/-- `tib_cast()`, src/type-tibble.c:35-42. -/
def tibCast (hash : Name → BitVec 32) (ops : ColOps β) (x ty : DfObj β) : C (DfObj β) := do
  let out ← dfCastObj hash ops x ty
  .ok { out with cls := classesTibble }

/-- `vec_typeof()` and `class_type()` of an object with a class, src/type-info.c:179-187 and src/utils-dispatch.c:10-26. -/
def frameType (cls : List (Option String)) : C (KType × VClass) := do
  let t ← classTypeImpl cls
  .ok (if t = .bareDataFrame then .dataframe else .s3, t)

/-- `vec_ptype2_opts_impl()` on data frames, src/ptype2.c:63-93: `s3` is what is done without a native method (:78-92).
`vec_shaped_ptype()` returns its first argument, as there are no dimensions. -/
def framePtype2 (hash : Name → BitVec 32) (ops : ColOps β) (s3 : DfObj β → DfObj β → C (DfObj β)) (x y : DfObj β) :
    C (DfObj β) := do
  let tx ← frameType x.cls
  let ty ← frameType y.cls
  if tx.1 ≠ .s3 ∧ ty.1 ≠ .s3 then dfPtype2Obj hash ops x y
  else
    match (ptype2Native tx.1 ty.1 tx.2 ty.2).1 with
    | some .tibPtype2 => tibPtype2 hash ops x y
    | _ => s3 x y

/-- `vec_cast_opts()` on data frames, src/cast.c:54-65: `s3` is `vec_cast_dispatch_s3()`. -/
def frameCast (hash : Name → BitVec 32) (ops : ColOps β) (s3 : DfObj β → DfObj β → C (DfObj β)) (x ty : DfObj β) :
    C (DfObj β) := do
  let tx ← frameType x.cls
  let tto ← frameType ty.cls
  if tto.1 = .s3 ∨ tx.1 = .s3 then
    match castNative tx.1 tto.1 tx.2 tto.2 with
    | some .tibCast => tibCast hash ops x ty
    | some .dfCast => dfCastObj hash ops x ty
    | _ => s3 x ty
  else
    match castSwitch tx.1 tto.1 with
    | some .dfCast => dfCastObj hash ops x ty
    | _ => s3 x ty

end Vctrs
