import Verif.Model.Kinds

/-!
# When vectors are combined with `c()`: src/c.c and src/utils.c

The tables of methods are given by which classes have a method; C82 is about the lookup itself.
-/

namespace Vctrs

/-- The methods that the decision looks up.  `proxy` is as in `proxyInfo`; `ptype2Self c` and
`ptype2 c` say whether `vec_ptype2.c.c` and `vec_ptype2.c` exist; `s3C` and `s4C` whether the tables of
base methods have a method of `c()`, src/c.c:245-265; `s4` is `IS_S4_OBJECT()`. -/
structure CMethods where
  proxy : KObj → Option (C KObj)
  ptype2Self : Option String → Bool
  ptype2 : Option String → Bool
  s3C : Option String → Bool
  s4C : Option String → Bool
  s4 : KObj → Bool

/-- `vec_implements_ptype2`, src/utils.c:665-684.  `s3_get_class()` fails on an empty class,
src/utils.c:533-551. -/
def implementsPtype2 (m : CMethods) (x : KObj) : C Bool := do
  match ← typeofObj x with
  | .scalar => .ok false
  | .s3 => do
    match ← kindClass x with
    | none => .error .internal
    | some cls =>
      if cls.length = 0 then .error .internal
      else do
        let c ← rd cls 0
        if m.ptype2Self c then .ok true else .ok (m.ptype2 c)
  | _ => .ok true

/-- `list_first_non_null`, src/utils.c:692-709: the element and its position; `null` stands for
`R_NilValue` before the first element. -/
def listFirstNonNull (null : KObj) (xs : List KObj) : C (KObj × Nat) :=
  forBrk xs.length (fun i st => do
    let x ← rd xs i
    if x.ty ≠ .null then .ok (.brk (x, st.2)) else .ok (.next (x, st.2 + 1))) (null, 0)

/-- Body of the loop of `list_is_homogeneously_classed`, src/utils.c:722-735. -/
def homogeneousStep (xs : List KObj) (first : Option (List (Option String))) (i : Nat) (out : Bool) :
    C (Ctl Bool) := do
  let this ← rd xs i
  if this.ty = .null then .ok (.next out)
  else do
    let cls ← kindClass this
    if first ≠ cls then .ok (.brk false) else .ok (.next out)

/-- `list_is_homogeneously_classed`, src/utils.c:711-739. -/
def homogeneouslyClassed (null : KObj) (xs : List KObj) : C Bool := do
  let n := xs.length
  if n = 0 ∨ n = 1 then .ok true
  else do
    let (first, i) ← listFirstNonNull null xs
    let cls ← kindClass first
    forBrkFrom (homogeneousStep xs cls) i (n - i) true

/-- Search of a class for a method: `s3_class_find_method`, src/utils.c:512-530, and
`s4_class_find_method`, src/utils.c:647-664. -/
def classHasMethod (has : Option String → Bool) : Option (List (Option String)) → C Bool
  | none => .ok false
  | some cls => forBrk cls.length (fun i out => do
      let c ← rd cls i
      if has c then .ok (.brk true) else .ok (.next out)) false

/-- `vec_implements_base_c`, src/c.c:244-255. -/
def implementsBaseC (m : CMethods) (x : KObj) : C Bool :=
  if !x.obj then .ok false
  else do
    let cls ← kindClass x
    if m.s4 x then classHasMethod m.s4C cls else classHasMethod m.s3C cls

/-- `class_implements_base_c`, src/c.c:257-266. -/
def classImplementsBaseC (m : CMethods) (cls : Option (List (Option String))) : C Bool := do
  let a ← classHasMethod m.s3C cls
  if a then .ok true
  else do
    let b ← classHasMethod m.s4C cls
    if b then .ok true else .ok false

/-- The test of the class of `ptype` in `needs_vec_c_homogeneous_fallback`, src/c.c:227-236. -/
def ptypeClassEqual (x ptype : KObj) : C Bool :=
  if ptype.ty ≠ .null then do
    let a ← kindClass x
    let b ← kindClass ptype
    .ok (decide (a = b))
  else .ok true

/-- `needs_vec_c_homogeneous_fallback`, src/c.c:211-242. -/
def needsHomogeneousFallback (m : CMethods) (null : KObj) (xs : List KObj) (ptype : KObj) : C Bool :=
  if xs.length = 0 then .ok false
  else do
    let (x, _) ← listFirstNonNull null xs
    let v ← objIsVector m.proxy x
    if !v then .ok false
    else do
      let inh ← kindInherits x "vctrs_vctr"
      if inh then .ok false
      else do
        let eq ← ptypeClassEqual x ptype
        if !eq then .ok false
        else do
          let p ← implementsPtype2 m x
          if p then .ok false
          else do
            let h ← homogeneouslyClassed null xs
            if !h then .ok false else implementsBaseC m x

/-- `needs_vec_c_fallback`, src/c.c:199-209.  `fallback` is the attribute of the fallback class of a
`ptype` that is a sentinel of the common class fallback. -/
def needsFallback (fallback : Option (List (Option String))) : C Bool :=
  match fallback with
  | none => .ok false
  | some cls => do
    let c ← rdI cls ((cls.length : Int) - 1)
    .ok (c != some "vctrs_vctr")

end Vctrs
