import Verif.Model.Names

/-!
# Strategies of name repair (src/names.c, R/names.R)

Functions of the user and the functions as_universal_names() and as_function() of R are
parameters.  Arguments and calls of error messages are not modelled: every error shown to the user
is `Err.abort`.  The messages silenced by `quiet` are not modelled, but the flag is.
-/

namespace Vctrs

/-- What a function of the user may return: `NULL`, a character vector or something else. -/
inductive NamesObj where
  | null
  | chr (l : List Name)
  | other
deriving DecidableEq

/-- A function repairing names; it may fail. -/
abbrev RepFn := List Name → C NamesObj

/-- The types of a `repair` argument distinguished by the switch of src/names.c:879-926: a
character vector, a call (with the result of `r_as_function`), a closure, or something else. -/
inductive RepairArg where
  | chr (l : List Name)
  | call (asFunction : C RepFn)
  | closure (f : RepFn)
  | other

/-- `enum name_repair_type`, src/names.h:18-25, with the function of custom repair. -/
inductive RepairType where
  | none | minimal | unique | universal | checkUnique
  | custom (f : RepFn)

/-- The fields `type`, `fn` and `quiet` of `struct name_repair_opts`, src/names.h:27-34. -/
structure RepairOpts where
  type : RepairType
  quiet : Bool

/-- `new_name_repair_opts`, src/names.c:866-928.  The comparisons with strings of the cache are
comparisons of their bytes. -/
def newNameRepairOpts (arg : RepairArg) (quiet : Bool) : C RepairOpts :=
  match arg with
  | .chr l =>
    if l.length = 0 then .error .abort
    else do
      let c ← rd l 0
      if c = some "none".toList then .ok ⟨.none, quiet⟩
      else if c = some "minimal".toList then .ok ⟨.minimal, quiet⟩
      else if c = some "unique".toList then .ok ⟨.unique, quiet⟩
      else if c = some "universal".toList then .ok ⟨.universal, quiet⟩
      else if c = some "check_unique".toList then .ok ⟨.checkUnique, quiet⟩
      else if c = some "unique_quiet".toList then .ok ⟨.unique, true⟩
      else if c = some "universal_quiet".toList then .ok ⟨.universal, true⟩
      else .error .abort
  | .call asFunction => do
    let f ← asFunction
    .ok ⟨.custom f, quiet⟩
  | .closure f => .ok ⟨.custom f, quiet⟩
  | .other => .error .abort

/-- `name_repair_arg_as_c_string`, src/names.c:930-940. -/
def repairTypeString : RepairType → List Char
  | .none => "none".toList
  | .minimal => "minimal".toList
  | .unique => "unique".toList
  | .universal => "universal".toList
  | .checkUnique => "check_unique".toList
  | .custom _ => "custom".toList

/-- `vctrs_validate_name_repair_arg`, src/names.c:843-858.  `r_length(arg)` is only reached for
character vectors, the other types being custom or an error. -/
def validateNameRepairArg (arg : RepairArg) : C RepairArg := do
  let opts ← newNameRepairOpts arg true
  match opts.type with
  | .custom f => .ok (.closure f)
  | type =>
    match arg with
    | .chr l => if l.length ≠ 1 then .ok (.chr [some (repairTypeString type)]) else .ok arg
    | _ => .error .internal

/-- `r_chr_has_string(x, NA_STRING)`, src/utils.c:1334-1345. -/
def chrHasNa (x : List Name) : C Bool :=
  forBrk x.length (fun i _ => do
    let s ← rd x i
    .ok (if s = none then .brk true else .next false)) false

/-- `vec_validate_minimal_names`, src/names.c:943-965. -/
def validateMinimalImpl (names : NamesObj) (n : Int) : C Unit :=
  match names with
  | .null => .error .abort
  | .other => .error .abort
  | .chr l =>
    if n ≥ 0 ∧ (l.length : Int) ≠ n then .error .abort
    else do
      if ← chrHasNa l then .error .abort else .ok ()

/-- `vctrs_validate_minimal_names`, src/names.c:966-978; `n` is the content of an integer vector,
`none` an object of another type. -/
def validateMinimalNames (names : NamesObj) (n : Option (List Int)) : C NamesObj := do
  let n ← match n with
    | none => (.ok (-1) : C Int)
    | some v => if v.length ≠ 1 then .error .internal else rd v 0
  validateMinimalImpl names n
  .ok names

/-- `vec_as_custom_names`, src/names.c:120-134. -/
def vecAsCustomNames (names : List Name) (f : RepFn) : C NamesObj := do
  let names ← asMinimalNames names
  let out ← f names
  validateMinimalImpl out names.length
  .ok out

/-- `detect_dot_dot`, R/names.R:209-211, for one name: the regular expression
`^[.][.](?:[.]|[1-9][0-9]*)$`. -/
def isDotDot : List Char → Bool
  | '.' :: '.' :: '.' :: [] => true
  | '.' :: '.' :: c :: d => c.isDigit && c ≠ '0' && d.all Char.isDigit
  | _ => false

/-- `validate_unique`, R/names.R:184-205, with `n = NULL`; `which(names == "")`, `grep()` and
`anyDuplicated()` of base R are searches of the list. -/
def validateUnique (names : List Name) : C NamesObj := do
  let _ ← validateMinimalNames (.chr names) none
  if names.any (fun n => n = some []) then .error .abort
  else if names.any (fun n => match n with | some s => isDotDot s | none => false) then .error .abort
  else if ¬ names.Nodup then .error .abort
  else .ok (.chr names)

/-- `vec_as_names`, src/names.c:10-24; `universal` is the function as_universal_names() of R
(R/names.R:316-334). -/
def vecAsNamesOpts (h : Name → BitVec 32) (universal : Bool → RepFn) (names : List Name)
    (opts : RepairOpts) : C NamesObj :=
  match opts.type with
  | .none => .ok (.chr names)
  | .minimal => do
    let out ← asMinimalNames names
    .ok (.chr out)
  | .unique => do
    let out ← vecAsUniqueNames h names
    .ok (.chr out)
  | .universal => universal opts.quiet names
  | .checkUnique => validateUnique names
  | .custom f => vecAsCustomNames names f

/-- `ffi_vec_as_names`, src/names.c:26-47; `quiet` is the content of a logical vector (`none` is
`NA`), or `none` for another type. -/
def ffiVecAsNames (h : Name → BitVec 32) (universal : Bool → RepFn) (names : List Name)
    (repair : RepairArg) (quiet : Option (List (Option Bool))) : C NamesObj :=
  match quiet with
  | some [some q] => do
    let opts ← newNameRepairOpts repair q
    vecAsNamesOpts h universal names opts
  | _ => .error .abort

end Vctrs
