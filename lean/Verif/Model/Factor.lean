import Verif.Model.Dictionary
import Verif.Model.Chop
import Verif.Model.Subscript
import Verif.Model.Names

/-!
# Factors: src/type-factor.c

Levels are strings, `none` for `NA`.  Strings are identified with their contents (R's string cache),
so that comparing `CHARSXP` pointers compares contents.
-/

namespace Vctrs

/-- A factor or ordered factor as far as src/type-factor.c is concerned: integer codes and the
levels.  Classes and other attributes are not modelled. -/
structure Factor where
  codes : List Int
  levels : List Name
  deriving DecidableEq, Repr

/-- Equality (`chr_equal_na_equal`, src/equal.h) and hash (`chr_hash_scalar`, src/hash.c: of the
string's address, hence any function) of strings in the dictionary. -/
def chrOps (hash : Name → BitVec 32) : PolyOps Name := ⟨fun a b => decide (a = b), hash⟩

/-- The integer vector that `vec_match()` returns, `NA_INTEGER` for no match (src/dictionary.c:426-440). -/
def matchInts (l : List (Option Nat)) : List Int :=
  l.map (fun r => match r with
    | none => naInt
    | some i => (i : Int))

/-- `vec_match()`, src/dictionary.c:343-351 and 362-440 with `na_equal = true`, on strings. -/
def chrMatch (hash : Name → BitVec 32) (needles haystack : List Name) : C (List Int) := do
  let m ← vecMatch (chrOps hash) (fun s => s.isNone) true needles haystack
  .ok (matchInts m)

/-- `levels_union()`, src/type-factor.c:65-90.  Both arguments are vectors, so that `vec_c()` cannot give
`NULL`. -/
def levelsUnion (hash : Name → BitVec 32) (x y : List Name) : C (List Name) := do
  match ← vecC none [some x, some y] with
  | none => .error .internal
  | some xy => vecUnique (chrOps hash) xy

/-- `fct_ptype2()`, src/type-factor.c:6-32, for factors whose levels are character vectors.
`same` says whether the two factors share the levels object (:22). -/
def fctPtype2 (hash : Name → BitVec 32) (same : Bool) (x y : Factor) : C Factor :=
  if same then .ok ⟨[], x.levels⟩
  else do
    let levels ← levelsUnion hash x.levels y.levels
    .ok ⟨[], levels⟩

/-- `ord_ptype2()`, src/type-factor.c:49-63 with `ord_ptype2_validate()` (:35-46): the levels must be equal, otherwise
`vec_ptype2_default()` raises an incompatible type error. -/
def ordPtype2 (x y : Factor) : C Factor :=
  if x.levels = y.levels then .ok ⟨[], x.levels⟩ else .error .abort

/-- `ord_as_ordered()`, src/type-factor.c:259-275: the levels must be equal, otherwise
`vec_cast_default()` raises an incompatible type error. -/
def ordAsOrdered (x : Factor) (toLevels : List Name) : C Factor :=
  if x.levels = toLevels then .ok x else .error .abort

/-- Loop of `chr_as_factor_impl()`, src/type-factor.c:171-177: was a string lost. -/
def chrLossyStep (x : List Name) (out : List Int) (i : Nat) (_ : Bool) : C (Ctl Bool) := do
  let o ← rd out i
  if o = naInt then do
    let s ← rd x i
    if s ≠ none then .ok (.brk true) else .ok (.next false)
  else .ok (.next false)

/-- `chr_as_factor_impl()`, src/type-factor.c:163-187; `none` is a lossy cast. -/
def chrAsFactorImpl (hash : Name → BitVec 32) (x levels : List Name) : C (Option Factor) := do
  let out ← chrMatch hash x levels
  let lossy ← forBrk x.length (chrLossyStep x out) false
  if lossy then .ok none else .ok (some ⟨out, levels⟩)

/-- Loop of `remove_na_levels()`, src/type-factor.c:216-226: the location of the `NA` level. -/
def naLevelStep (levels : List Name) (i : Nat) (_ : Option Nat) : C (Ctl (Option Nat)) := do
  let s ← rd levels i
  if s = none then .ok (.brk (some i)) else .ok (.next none)

/-- `remove_na_levels()`, src/type-factor.c:210-229. -/
def removeNaLevels (levels : List Name) : C (List Name) := do
  match ← forBrk levels.length (naLevelStep levels) none with
  | none => .ok levels
  | some i => do
    let loc ← vecAsLocation (.int [((i : Int) + 1) * -1]) levels.length none {}
    sliceBase none levels (.locs loc)

/-- `chr_as_factor_from_self()`, src/type-factor.c:193-208. -/
def chrAsFactorFromSelf (hash : Name → BitVec 32) (x : List Name) : C Factor := do
  let levels ← vecUnique (chrOps hash) x
  let levels ← removeNaLevels levels
  let out ← chrMatch hash x levels
  .ok ⟨out, levels⟩

/-- `chr_as_factor()` and `chr_as_ordered()`, src/type-factor.c:120-161. -/
def chrAsFactor (hash : Name → BitVec 32) (x toLevels : List Name) : C (Option Factor) :=
  if toLevels.length = 0 then do .ok (some (← chrAsFactorFromSelf hash x))
  else chrAsFactorImpl hash x toLevels

/-- Loop of src/type-factor.c:305-310: do the levels of `x` begin those of `to`. -/
def contiguousStep (xl tl : List Name) (i : Nat) (_ : Bool) : C (Ctl Bool) := do
  let a ← rd xl i
  let b ← rd tl i
  if a ≠ b then .ok (.brk false) else .ok (.next true)

/-- Loop of src/type-factor.c:344-350: is a level of `x` absent. -/
def recodeLossyStep (recode : List Int) (i : Nat) (_ : Bool) : C (Ctl Bool) := do
  let r ← rd recode i
  if r = naInt then .ok (.brk true) else .ok (.next false)

/-- Loop of src/type-factor.c:353-362. -/
def recodeStep (x recode : List Int) (i : Nat) (out : List (Option Int)) : C (List (Option Int)) := do
  let elt ← rd x i
  if elt = naInt then wr out i (some naInt)
  else do
    let r ← rdI recode (elt - 1)
    wr out i (some r)

/-- `fct_as_factor_impl()`, src/type-factor.c:277-366; `none` is a lossy cast.  `same` says whether
the factors share the levels object. -/
def fctAsFactorImpl (hash : Name → BitVec 32) (same : Bool) (x : Factor) (toLevels : List Name) :
    C (Option Factor) := do
  if same then .ok (some x)
  else if toLevels.length = 0 then .ok (some x)
  else if x.levels.length > toLevels.length then .ok none
  else do
    let contiguous ← forBrk x.levels.length (contiguousStep x.levels toLevels) true
    if contiguous then .ok (some ⟨x.codes, toLevels⟩)
    else do
      let recode ← chrMatch hash x.levels toLevels
      let lossy ← forBrk x.levels.length (recodeLossyStep recode) false
      if lossy then .ok none
      else do
        let out ← forN x.codes.length (recodeStep x.codes recode) (alloc Int x.codes.length)
        let out ← initd out
        .ok (some ⟨out, toLevels⟩)

/-- `Rf_asCharacterFactor()` called in src/type-factor.c:107: the string of every code; a code
without level is the error "malformed factor". -/
def fctAsCharacter (x : Factor) : C (List Name) := do
  let out ← forN x.codes.length (fun i out => do
    let c ← rd x.codes i
    if c = naInt then wr out i (some none)
    else if c < 1 then .error .abort
    else match x.levels[(c - 1).toNat]? with
      | none => .error .abort
      | some s => wr out i (some s)) (alloc Name x.codes.length)
  initd out

/-- `factor(x, levels = levels, exclude = NULL)` in R/type-factor.R:169-174: the location of every
string among the levels. -/
def rFactorCodes (strings levels : List Name) : List Int :=
  strings.map (fun s => match levels.findIdx? (fun l => decide (l = s)) with
    | none => naInt
    | some i => (i : Int) + 1)

/-- The R method after a loss, R/type-factor.R:145-185 with `maybe_lossy_cast()`,
R/conditions.R:441-480: it fails if an element is neither missing nor among the levels.  It is only
reached with levels in `to`.  `factor()` refuses duplicated levels. -/
def rFctCast (x : Factor) (toLevels : List Name) : C Factor := do
  let strings ← fctAsCharacter x
  if ¬ toLevels.Nodup then .error .abort
  else if (List.zip x.codes strings).any (fun p => !toLevels.contains p.2 && p.1 ≠ naInt) then .error .abort
  else .ok ⟨rFactorCodes strings toLevels, toLevels⟩

/-- `vec_cast()` of a factor to a factor: src/cast.c:56-66 with src/cast-dispatch.c:34-35. -/
def fctCast (hash : Name → BitVec 32) (same : Bool) (x : Factor) (toLevels : List Name) : C Factor := do
  match ← fctAsFactorImpl hash same x toLevels with
  | some y => .ok y
  | none => rFctCast x toLevels

/-- `vec_cast()` of strings to a factor: src/cast.c:56-66 with src/cast-dispatch.c:20-22.  After a
loss the R method (R/type-factor.R:168) finds the same strings absent and raises the error. -/
def chrCast (hash : Name → BitVec 32) (x toLevels : List Name) : C Factor := do
  match ← chrAsFactor hash x toLevels with
  | some y => .ok y
  | none => .error .abort

end Vctrs
