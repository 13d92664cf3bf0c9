import Verif.Base

/-!
# Lookup of methods: src/utils.c, src/ptype2-dispatch.c, src/cast.c

Strings are lists of bytes without the terminating zero.  The names of symbols are pasted in the
static buffer `s3_buf`, whose contents from earlier calls are part of the state.  An environment maps
names to values, of which some are functions.
-/

namespace Vctrs

/-- A byte string without its terminating zero. -/
abbrev Bytes := List Nat

/-- A value bound in an environment; `r_is_function()` tells them apart. -/
inductive EnvVal where
  | fn (id : Nat)
  | other (id : Nat)
  deriving DecidableEq, Repr

/-- An environment as `r_env_get()` sees it; `none` is an unbound symbol. -/
abbrev SymEnv := Bytes → Option EnvVal

/-- `memcpy(buf + off, src, n)` with `n` the length of `src`, as in src/utils.c:454 and :456. -/
def memcpyAt (buf : List Nat) (src : Bytes) (off : Nat) : C (List Nat) :=
  forN src.length (fun i b => do
    let v ← rd src i
    wr b (off + i) v) buf

/-- The C string at the start of a buffer, as read by `Rf_install(s3_buf)`, src/utils.c:459. -/
def s3BufString (buf : List Nat) : C Bytes :=
  if 0 ∈ buf then .ok (buf.takeWhile (· ≠ 0)) else .error .ub

/-- `sizeof(s3_buf)`, src/utils.c:441. -/
def s3BufSize : Nat := 200

/-- `s3_paste_method_sym`, src/utils.c:443-460: the new contents of `s3_buf` and the name of the
symbol.  The sum of lengths is computed with type `int`. -/
def pasteMethodSym (buf : List Nat) (generic cls : Bytes) : C (List Nat × Bytes) := do
  let genLen := generic.length
  let clsLen := cls.length
  if ((genLen + clsLen + 1 : Nat) : Int) > intMax then .error .ub else
  if genLen + clsLen + 1 ≥ s3BufSize then .error .internal else do
  let b1 ← memcpyAt buf generic 0
  let b2 ← wr b1 genLen 46
  let b3 ← memcpyAt b2 cls (genLen + 1)
  let b4 ← wr b3 (genLen + 1 + clsLen) 0
  let sym ← s3BufString b4
  .ok (b4, sym)

/-- `s3_sym_get_method`, src/utils.c:467-479: first the global environment, then the table. -/
def symGetMethod (glob table : SymEnv) (sym : Bytes) : Option Nat :=
  match glob sym with
  | some (.fn id) => some id
  | _ =>
    match table sym with
    | some (.fn id) => some id
    | _ => none

/-- `s3_get_method`, src/utils.c:463-466. -/
def getMethod (glob table : SymEnv) (buf : List Nat) (generic cls : Bytes) :
    C (List Nat × Option Nat) := do
  let (b, sym) ← pasteMethodSym buf generic cls
  .ok (b, symGetMethod glob table sym)

/-- Body of the loop of `s3_class_find_method`, src/utils.c:522-527. -/
def findMethodStep (glob table : SymEnv) (generic : Bytes) (cls : List Bytes) (i : Nat)
    (st : List Nat × Option Nat) : C (Ctl (List Nat × Option Nat)) := do
  let c ← rd cls i
  let (b, m) ← getMethod glob table st.1 generic c
  match m with
  | some id => .ok (.brk (b, some id))
  | none => .ok (.next (b, none))

/-- `s3_class_find_method`, src/utils.c:512-530; `none` is the class `NULL` of a corrupt object. -/
def classFindMethod (glob table : SymEnv) (buf : List Nat) (generic : Bytes)
    (cls : Option (List Bytes)) : C (List Nat × Option Nat) :=
  match cls with
  | none => .ok (buf, none)
  | some cls => forBrk cls.length (findMethodStep glob table generic cls) (buf, none)

/-- What dispatch knows of an object: its object bit, its class attribute, and the implicit class
given by `s3_bare_class()` for its type, src/utils.c:609-626 (`none` where that is an error). -/
structure DispObj where
  obj : Bool
  cls : Option (List Bytes)
  bare : Option (List Bytes)
  deriving DecidableEq, Repr

/-- `s3_find_method`, src/utils.c:499-509. -/
def findMethod (glob table : SymEnv) (buf : List Nat) (generic : Bytes) (x : DispObj) :
    C (List Nat × Option Nat) :=
  if x.obj then classFindMethod glob table buf generic x.cls else .ok (buf, none)

/-- `s3_get_class`, src/utils.c:533-551. -/
def getClass (x : DispObj) : C (List Bytes) := do
  let attr := if x.obj then x.cls else none
  let cls ← match attr with
    | some c => Except.ok c
    | none =>
      match x.bare with
      | some c => Except.ok c
      | none => Except.error Err.abort
  if cls.length = 0 then .error .internal else .ok cls

/-- `s3_get_class0`, src/utils.c:553-558. -/
def getClass0 (x : DispObj) : C Bytes := do
  let cls ← getClass x
  rd cls 0

/-- `s3_find_method_xy`, src/utils.c:561-583: the symbol is returned if there is a method. -/
def findMethodXY (glob table : SymEnv) (buf : List Nat) (generic : Bytes) (x y : DispObj) :
    C (List Nat × Option (Bytes × Nat)) := do
  let xc ← getClass0 x
  let yc ← getClass0 y
  let (b1, s1) ← pasteMethodSym buf generic xc
  let (b2, s2) ← pasteMethodSym b1 s1 yc
  .ok (b2, (symGetMethod glob table s2).map fun m => (s2, m))

/-- `s3_find_method2`, src/utils.c:586-604. -/
def findMethod2 (glob table : SymEnv) (buf : List Nat) (generic : Bytes) (x : DispObj) :
    C (List Nat × Option (Bytes × Nat)) := do
  let xc ← getClass0 x
  let (b, s) ← pasteMethodSym buf generic xc
  .ok (b, (symGetMethod glob table s).map fun m => (s, m))

/-- Which method `vec_ptype2_dispatch_s3` invokes, src/ptype2-dispatch.c:90-114, and likewise
`vec_cast_dispatch_s3`, src/cast.c:168-192, with `to` for `x` and `x` for `y`; `none` is the default
method.  `tableOf` gives the S3 table of the environment of a function (`s3_get_table`); it is an
error for a primitive, which has no environment (`CLOENV`). -/
def dispatchXY (glob table : SymEnv) (tableOf : Nat → C SymEnv) (buf : List Nat) (generic : Bytes)
    (x y : DispObj) : C (Option (Bytes × Nat)) := do
  let (b, m) ← findMethodXY glob table buf generic x y
  match m with
  | some r => .ok (some r)
  | none => do
    let (b2, xm) ← findMethod2 glob table b generic x
    match xm with
    | none => .ok none
    | some (xs, id) => do
      let t ← tableOf id
      let (_, m2) ← findMethod2 glob t b2 xs y
      .ok m2

end Vctrs
