import Verif.Model.Table

/-!
# Binding rows and combining with names: src/bind.c, src/c.c, src/slice-assign.c, src/names.c

Inputs have been cast to the common type `ptype`, a value without rows; values are those of
Table.lean.
-/

namespace Vctrs

/-! ## Name specifications -/

/-- The `inner` argument of a name specification: names or the integers from 1 to `n`,
src/names.c:578. -/
inductive InnerNames
  | names (l : List Name)
  | iota (n : Nat)

/-- `.name_spec`: `zap()`, `NULL` or a function, which returns a character vector or `NULL` or fails.
A glue string is first turned into a function (`glue_as_name_spec()`). -/
inductive NameSpec
  | zap
  | null
  | fn (f : List Char → InnerNames → C (Option (List Name)))

/-- `r_inherits(name_spec, "rlang_zap")`. -/
def NameSpec.isZap : NameSpec → Bool
  | .zap => true
  | _ => false

/-- What `apply_name_spec()` returns: `NULL`, the shared vector `chrs_empty`, which holds one `""`, or
another character vector. -/
inductive SpecNames
  | null
  | chrsEmpty
  | chr (l : List Name)
  deriving DecidableEq

/-- `r_is_empty_names`, src/utils.c:1274-1294. -/
def isEmptyNames (nms : Option (List Name)) : C Bool :=
  match nms with
  | none => .ok true
  | some l => forBrk l.length (fun i b => do
      let e ← rd l i
      .ok (if e ≠ none ∧ e ≠ some [] then .brk false else .next b)) true

/-- The names `inner` as they are. -/
def innerAsIs (inner : Option (List Name)) : SpecNames :=
  match inner with
  | none => .null
  | some l => .chr l

/-- `vec_recycle(out, n)` and the checks of the result, src/names.c:611-620. -/
def recycleSpec (out : Option (List Name)) (n : Nat) : C SpecNames :=
  match out with
  | none => .ok .null
  | some l => do
    match ← vecCheckRecycle none (.vec l) n with
    | .vec l => .ok (.chr l)
    | _ => .error .internal

/-- The call of the specification, src/names.c:583-620. -/
def callSpec (spec : NameSpec) (outer : List Char) (inner : InnerNames) (n : Nat) : C SpecNames :=
  match spec with
  | .fn f => do
    let out ← f outer inner
    recycleSpec out n
  | _ => .error .abort

/-- `apply_name_spec` with an outer name that is neither missing nor empty, src/names.c:571-620. -/
def mergeNames (spec : NameSpec) (outer : List Char) (inner : Option (List Name)) (n : Nat) :
    C SpecNames := do
  if ← isEmptyNames inner then
    if n = 0 then .ok (.chr [])
    else if n = 1 then .ok (.chr [some outer])
    else callSpec spec outer (.iota n) n
  else match inner with
    | none => .error .internal
    | some l => callSpec spec outer (.names l) n

/-- `apply_name_spec`, src/names.c:551-624. -/
def applyNameSpec (spec : NameSpec) (outer : Option Name) (inner : Option (List Name)) (n : Nat) :
    C SpecNames :=
  if spec.isZap then .ok .null
  else match outer with
    | none => .ok (innerAsIs inner)
    | some none => .ok (if inner = none then .chrsEmpty else innerAsIs inner)
    | some (some []) => .ok (if inner = none then .chrsEmpty else innerAsIs inner)
    | some (some (c :: cs)) => mergeNames spec (c :: cs) inner n

/-! ## Assignment -/

/-- `vec_proxy_assign_names`, src/slice-assign.c:391-415; `size` is the size of the proxy.
`r_alloc_character()` is filled with `""`. -/
def assignNames (size : Nat) (names : Option (List Name)) (index : Subscript) (value : Option (List Name)) :
    C (Option (List Name)) :=
  match value with
  | none => .ok names
  | some v => do
    let nms := match names with
      | none => List.replicate size (some [])
      | some l => l
    let nms ← assignBase nms index v
    .ok (some nms)

/-- The names part of `vec_proxy_assign_opts`, src/slice-assign.c:180-182. -/
def assignNamesIf (keep : Bool) (size : Nat) (names : Option (List Name)) (index : Subscript)
    (value : Option (List Name)) : C (Option (List Name)) :=
  if keep then assignNames size names index value else .ok names

mutual

/-- `vec_proxy_assign_opts`, src/slice-assign.c:140-187, with `vec_assign_switch`, :75-93, for
`recursive = true` and `ignore_outer_names = false`.  A list and a data frame have the same R type and
pass the check of types in the code; here they are an internal error too. -/
def nvalAssign (keep : Bool) (index : Subscript) : NVal → NVal → C NVal
  | .vec t xs nms, .vec t' ys nms' =>
    if e : t' = t then do
      let xs ← assignBase xs index (e ▸ ys)
      let nms ← assignNamesIf keep xs.length nms index nms'
      .ok (.vec t xs nms)
    else .error .internal
  | .df n cn cols rn, .df _ _ cols' rn' =>
    if cols'.length ≠ cols.length then .error .internal
    else do
      let cols ← nvalAssignCols keep index cols cols'
      let rn ← assignNamesIf keep n rn index rn'
      .ok (.df n cn cols rn)
  | _, _ => .error .internal

/-- The loop of `df_assign`, src/slice-assign.c:353-376. -/
def nvalAssignCols (keep : Bool) (index : Subscript) : List NVal → List NVal → C (List NVal)
  | x :: xs, v :: vs => do
    let y ← nvalAssign keep index x v
    let ys ← nvalAssignCols keep index xs vs
    .ok (y :: ys)
  | [], _ => .ok []
  | _ :: _, [] => .error .internal

end

mutual

/-- `vec_restore_recurse` with `vec_bare_df_restore`, src/proxy-restore.c:176-227: only row names
change. -/
def nvalRestore (h : Name → BitVec 32) : NVal → C NVal
  | .null => .ok .null
  | .vec t xs nms => .ok (.vec t xs nms)
  | .df n cn cols rn => do
    let cols ← nvalRestoreCols h cols
    let rn ← restoreRownames h rn
    .ok (.df n cn cols rn)

/-- The loop over columns, src/proxy-restore.c:201-204. -/
def nvalRestoreCols (h : Name → BitVec 32) : List NVal → C (List NVal)
  | [] => .ok []
  | x :: xs => do
    let y ← nvalRestore h x
    let ys ← nvalRestoreCols h xs
    .ok (y :: ys)

end

/-- The sizes of the inputs and their sum, src/bind.c:123-134 and src/c.c:50-64; `NULL` has size 0.  The
memory of the sizes starts uninitialised. -/
def inputSizes (xs : List NVal) : C (List (Option Nat) × Nat) :=
  forN xs.length (fun i (s : List (Option Nat) × Nat) => do
    let x ← rd xs i
    let ns ← wr s.1 i (some x.size)
    .ok (ns, s.2 + x.size)) (alloc Nat xs.length, 0)

/-- `R_LAZY_ALLOC(names, pi, R_TYPE_character, n)`. -/
def lazyNames (names : Option (List Name)) (n : Nat) : List Name :=
  match names with
  | none => List.replicate n (some [])
  | some l => l

/-- `xs_is_named ? p_xs_names[i] : r_null`. -/
def outerOf (names : Option (List Name)) (i : Nat) : C (Option Name) :=
  match names with
  | none => .ok none
  | some l => do .ok (some (← rd l i))

/-! ## vec_rbind -/

/-- Row names of an input, src/bind.c:208-228.  The test `inner != chrs_empty` always holds: `inner` is
the row names of the input and never the shared vector. -/
def rbindNames (rowNames : Option (List Name)) (nRows : Nat) (loc : Subscript) (nms : SpecNames) :
    C (Option (List Name)) :=
  match nms with
  | .null => .ok rowNames
  | .chrsEmpty => do .ok (some (← assignBase (lazyNames rowNames nRows) loc [some []]))
  | .chr l => do .ok (some (← assignBase (lazyNames rowNames nRows) loc l))

/-- `FILL` and `FILL_BARRIER`, src/utils.c:1010-1040: `n` times the element `i` of `src`. -/
def vecFill {α : Type} (dest : List (Option α)) (at_ : Nat) (src : List α) (i n : Nat) :
    C (List (Option α)) :=
  forN n (fun k dest => do
    let v ← rd src i
    wr dest (at_ + k) (some v)) dest

/-- State of the loop of `vec_rbind`. -/
structure RbindState (α : Type) where
  cols : List NVal
  rowNames : Option (List Name)
  namesTo : List (Option α)
  counter : Nat

/-- The columns of an input. -/
def NVal.columns : NVal → C (List NVal)
  | .df _ _ cols _ => .ok cols
  | _ => .error .internal

/-- The `names_to` column of an input, src/bind.c:231-234. -/
def rbindFill {α : Type} (index : Option (List α)) (buf : List (Option α)) (counter i size : Nat) :
    C (List (Option α)) :=
  match index with
  | none => .ok buf
  | some index => vecFill buf counter index i size

/-- Assignment of the columns: `df_assign`, src/slice-assign.c:340-380. -/
def dfAssignCols (keep : Bool) (index : Subscript) (cols value : List NVal) : C (List NVal) :=
  if value.length ≠ cols.length then .error .internal
  else nvalAssignCols keep index cols value

/-- A turn of the loop of `vec_rbind`, src/bind.c:189-237. -/
def rbindTurn {α : Type} (spec : NameSpec) (xs : List NVal) (ns : List (Option Nat)) (nRows : Nat)
    (names : Option (List Name)) (index : Option (List α)) (i : Nat) (s : RbindState α) :
    C (RbindState α) := do
  let size ← rdU ns i
  if size = 0 then .ok s
  else do
    let x ← rd xs i
    let loc ← compactSeq s.counter size true
    let value ← x.columns
    let cols ← dfAssignCols (!spec.isZap) loc s.cols value
    let rowNames ← (if !spec.isZap then do
        let outer ← outerOf names i
        let nms ← applyNameSpec spec outer x.vnames size
        rbindNames s.rowNames nRows loc nms
      else .ok s.rowNames : C (Option (List Name)))
    let namesTo ← rbindFill index s.namesTo s.counter i size
    .ok ⟨cols, rowNames, namesTo, s.counter + size⟩

/-- The `names_to` column is poked at its place, src/bind.c:247-250. -/
def rbindPoke (ty : VTy) (namesTo : Option Nat) (buf : List (Option ty.El)) (cols : List NVal) :
    C (List NVal) :=
  match namesTo with
  | none => .ok cols
  | some k => do
    let col ← initd buf
    wr cols k (.vec ty col none)

/-- The output after the loop, src/bind.c:239-251. -/
def rbindFinish (h : Name → BitVec 32) (ty : VTy) (n : Nat) (cn : List Name) (rn : Option (List Name))
    (namesTo : Option Nat) (s : RbindState ty.El) : C NVal := do
  let cols ← nvalRestoreCols h s.cols
  let rn ← restoreRownames h (if s.rowNames = none then rn else s.rowNames)
  let cols ← rbindPoke ty namesTo s.namesTo cols
  .ok (.df n cn cols rn)

/-- The loop of `vec_rbind` for an index of type `ty`, src/bind.c:136-253. -/
def rbindWith (h : Name → BitVec 32) (ty : VTy) (spec : NameSpec) (xs : List NVal)
    (names : Option (List Name)) (ptype : NVal) (index : Option (List ty.El)) (namesTo : Option Nat) :
    C NVal := do
  let (ns, nRows) ← inputSizes xs
  match ← nvalInit h ptype nRows with
  | .df n cn cols rn => do
    let s ← forN xs.length (rbindTurn spec xs ns nRows names index)
      ⟨cols, none, if index.isNone then [] else alloc ty.El nRows, 0⟩
    rbindFinish h ty n cn rn namesTo s
  | _ => .error .abort

/-- `vec_rbind`, src/bind.c:46-254, from line 99 on: `ptype` has the `names_to` column at the place
`namesTo` and the inputs have been cast.  The column is the names of the inputs, or their positions. -/
def vecRbind (h : Name → BitVec 32) (xs : List NVal) (names : Option (List Name)) (ptype : NVal)
    (spec : NameSpec) (namesTo : Option Nat) : C NVal :=
  match namesTo with
  | none => rbindWith h (.atom .int) spec xs names ptype none none
  | some k =>
    if spec.isZap then .error .abort
    else match names with
      | some nms => rbindWith h (.atom .chr) spec xs none ptype (some nms) (some k)
      | none => rbindWith h (.atom .int) spec xs none ptype
          (some (show List Int from (List.range xs.length).map (fun (i : Nat) => (i : Int) + 1))) (some k)

/-! ## vec_c -/

/-- Names of an input, src/c.c:115-133. -/
def cNames (outNames : Option (List Name)) (nOut : Nat) (loc : Subscript) (nms : SpecNames) :
    C (Option (List Name)) :=
  match nms with
  | .null => .ok outNames
  | .chrsEmpty => .ok (some (lazyNames outNames nOut))
  | .chr l => do .ok (some (← assignBase (lazyNames outNames nOut) loc l))

/-- `vec_proxy_assign_opts` with `ignore_outer_names = true`, src/slice-assign.c:140-187. -/
def nvalAssignBody (keep : Bool) (index : Subscript) (out value : NVal) : C NVal :=
  match out, value with
  | .vec t xs nms, .vec t' ys _ =>
    if e : t' = t then do
      let xs ← assignBase xs index (e ▸ ys)
      .ok (.vec t xs nms)
    else .error .internal
  | .df n cn cols rn, .df _ _ cols' _ => do
    let cols ← dfAssignCols keep index cols cols'
    .ok (.df n cn cols rn)
  | _, _ => .error .internal

/-- State of the loop of `vec_c`. -/
structure CState where
  out : NVal
  outNames : Option (List Name)
  counter : Nat

/-- A turn of the loop of `vec_c`, src/c.c:108-146; inputs have been cast to the type of the output, and
the names are those before the cast. -/
def cTurn (spec : NameSpec) (xs : List NVal) (ns : List (Option Nat)) (nOut : Nat)
    (names : Option (List Name)) (i : Nat) (s : CState) : C CState := do
  let x ← rd xs i
  let size ← rdU ns i
  let loc ← compactSeq s.counter size true
  let outNames ← (if !spec.isZap then do
      let outer ← outerOf names i
      let nms ← applyNameSpec spec outer x.vnames size
      cNames s.outNames nOut loc nms
    else .ok s.outNames : C (Option (List Name)))
  if size = 0 then .ok { s with outNames := outNames }
  else do
    let out ← nvalAssignBody (!spec.isZap) loc s.out x
    .ok ⟨out, outNames, s.counter + size⟩

/-- `vec_set_names`, src/names.c:772-841. -/
def nvalSetNames (h : Name → BitVec 32) (x : NVal) (names : Option (List Name)) : C NVal :=
  match x with
  | .null => .error .internal
  | .vec t xs _ => .ok (.vec t xs names)
  | .df n cn cols _ => do
    let rn ← restoreRownames h names
    .ok (.df n cn cols rn)

/-- The names of the output, src/c.c:153-163. -/
def cFinish (h : Name → BitVec 32) (spec : NameSpec) (repair : NameRepair) (out : NVal)
    (outNames : Option (List Name)) : C NVal := do
  let out ← nvalRestore h out
  match outNames with
  | some nms => do
    let nms ← vecAsNames h nms repair
    nvalSetNames h out (some nms)
  | none => if spec.isZap then nvalSetNames h out none else .ok out

/-- `vec_c_opts`, src/c.c:18-168, from line 50 on: `ptype` is the common type, not `NULL`.  Names of the
inputs are not used for data frames. -/
def vecCNames (h : Name → BitVec 32) (xs : List NVal) (names : Option (List Name)) (ptype : NVal)
    (spec : NameSpec) (repair : NameRepair) : C NVal := do
  let (ns, nOut) ← inputSizes xs
  let out ← nvalInit h ptype nOut
  let s ← forN xs.length (cTurn spec xs ns nOut (if ptype.isDf then none else names)) ⟨out, none, 0⟩
  cFinish h spec repair s.out s.outNames

end Vctrs
