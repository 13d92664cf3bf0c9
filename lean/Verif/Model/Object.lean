import Verif.Model.Scalar

/-!
# Deep equality and hashing of R objects (src/equal.c:271-414, src/hash.c:116-237)

List elements are compared with `equal_object_normalized` and hashed with `hash_object`.
-/

namespace Vctrs

/-- Object types compared by pointer, src/equal.c:280-288 (other than `NILSXP`). -/
inductive RefTy
  | sym | special | builtin | char | env | extptr
  deriving DecidableEq, Repr

/-- The pairlist-like types of src/equal.c:308-311. -/
inductive NodeTy
  | dots | lang | pairlist | bcode
  deriving DecidableEq, Repr

mutual

/-- R objects, by the type cases of `equal_object_normalized` (src/equal.c:271-378).
`ref` and `other` carry their address; `other` are the types that end in
`stop_unimplemented_type` (equal.c:351-352), e.g. S4 objects and weak references.
`list true` is an `EXPRSXP`. -/
inductive Obj
  | nil
  | ref (ty : RefTy) (addr : BitVec 64)
  | vec (ty : ATy) (xs : List ty.El) (attr : Attrs)
  | list (expr : Bool) (xs : List Obj) (attr : Attrs)
  | node (ty : NodeTy) (tag : Nat) (car cdr : Obj) (attr : Attrs)
  | clo (body env formals : Obj) (attr : Attrs)
  | other (ty : Nat) (addr : BitVec 64)

/-- `ATTRIB(x)`: the attribute pairlist, tags being symbols. -/
inductive Attrs
  | nil
  | cons (tag : Nat) (val : Obj) (rest : Attrs)

end

/-- `EQUAL_ALL` on an atomic vector, src/equal.c:242-256, with `n` the common length
(checked before, equal.c:355-358): stops at the first difference. -/
def equalAllAtom (t : ATy) : List t.El → List t.El → C Bool
  | [], [] => .ok true
  | x :: xs, y :: ys => if !equalNaEqual t x y then .ok false else equalAllAtom t xs ys
  | _, _ => .error .ub

mutual

/-- `equal_object_normalized`, src/equal.c:271-378.  The shortcut `x == y`
(equal.c:292-296) is left out: it answers `true` for an object compared with itself, and
so does the deep comparison (theorem `eqObj_refl`).  `TAG`s are not looked at. -/
def eqObj : Obj → Obj → C Bool
  | .nil, y => match y with
    | .nil => .ok true
    | _ => .ok false
  | .ref t a, y => match y with
    | .ref u b => .ok (decide (t = u) && decide (a = b))
    | _ => .ok false
  | .vec t xs ax, y => match y with
    | .vec u ys ay =>
      if h : t = u then
        if xs.length ≠ ys.length then .ok false
        else do
          if !(← eqAttrib ax ay) then .ok false
          else equalAllAtom u (h ▸ xs) ys
      else .ok false
    | _ => .ok false
  | .list e xs ax, y => match y with
    | .list f ys ay =>
      if e = f then
        if xs.length ≠ ys.length then .ok false
        else do
          if !(← eqAttrib ax ay) then .ok false
          else eqElts xs ys
      else .ok false
    | _ => .ok false
  | .node t _ cx dx ax, y => match y with
    | .node u _ cy dy ay =>
      if t = u then do
        if !(← eqPairs ax ay) then .ok false
        else if !(← eqObj cx cy) then .ok false
        else if !(← eqObj dx dy) then .ok false
        else .ok true
      else .ok false
    | _ => .ok false
  | .clo bx ex fx ax, y => match y with
    | .clo by' ey fy ay => do
        if !(← eqPairs ax ay) then .ok false
        else if !(← eqObj bx by') then .ok false
        else if !(← eqObj ex ey) then .ok false
        else if !(← eqObj fx fy) then .ok false
        else .ok true
    | _ => .ok false
  | .other t a, y => match y with
    | .other u b => if t = u then (if a = b then .ok true else .error .abort) else .ok false
    | _ => .ok false

/-- `EQUAL_ALL` on a list, src/equal.c:242-256 and :374-375; as `equalAllAtom`. -/
def eqElts : List Obj → List Obj → C Bool
  | [], ys => match ys with
    | [] => .ok true
    | _ :: _ => .error .ub
  | x :: xs, ys => match ys with
    | y :: ys => do
      if !(← eqObj x y) then .ok false else eqElts xs ys
    | [] => .error .ub

/-- `vec_equal_attrib`, src/equal.c:389-414.  `y_tag` is read from `x_attrs`
(equal.c:399), so the tag test never fails and is left out; leftover attributes of `y` are
not looked at. -/
def eqAttrib : Attrs → Attrs → C Bool
  | .nil, _ => .ok true
  | .cons _ vx rx, y => match y with
    | .nil => .ok false
    | .cons _ vy ry => do
      if !(← eqObj vx vy) then .ok false else eqAttrib rx ry

/-- `equal_object_normalized(ATTRIB(x), ATTRIB(y))`, src/equal.c:312 and :332: the
attribute pairlists are compared as `LISTSXP` objects (equal.c:308-329) that have no
attributes of their own. -/
def eqPairs : Attrs → Attrs → C Bool
  | .nil, y => match y with
    | .nil => .ok true
    | .cons _ _ _ => .ok false
  | .cons _ vx rx, y => match y with
    | .nil => .ok false
    | .cons _ vy ry => do
      if !(← eqObj vx vy) then .ok false
      else if !(← eqPairs rx ry) then .ok false
      else .ok true

end

/-- `lgl_hash`, `int_hash`, `dbl_hash`, `chr_hash`: the `HASH` loop of
src/hash.c:161-184. -/
def hashAtoms (addr : Name → BitVec 64) (t : ATy) (xs : List t.El) : BitVec 32 :=
  xs.foldl (fun h x => hashCombine h (hashScalar addr t x)) 0

mutual

/-- `hash_object` and `sexp_hash`, src/hash.c:116-125, 138-159.  Complex and raw vectors,
`CHARSXP`s and the remaining types fall in the `default` case, which raises an error. -/
def hashObj (addr : Name → BitVec 64) : Obj → C (BitVec 32)
  | .nil => .ok 0
  | .ref t a => if t = .char then .error .abort else .ok (hashU64 a)
  | .vec t xs ax =>
    if t = .cpl ∨ t = .raw then .error .abort
    else hashAttr addr ax (hashAtoms addr t xs)
  | .list _ xs ax => do hashAttr addr ax (← hashElts addr xs 0)
  | .node _ _ car cdr ax => do
      let h := hashCombine 0 (← hashObj addr car)
      let h := hashCombine h (← hashObj addr cdr)
      hashAttr addr ax h
  | .clo body env formals ax => do
      let h := hashCombine 0 (← hashObj addr body)
      let h := hashCombine h (← hashObj addr env)
      let h := hashCombine h (← hashObj addr formals)
      hashAttr addr ax h
  | .other _ _ => .error .abort

/-- `list_hash`, src/hash.c:189-203, from the accumulator `h`. -/
def hashElts (addr : Name → BitVec 64) : List Obj → BitVec 32 → C (BitVec 32)
  | [], h => .ok h
  | x :: xs, h => do hashElts addr xs (hashCombine h (← hashObj addr x))

/-- The attribute part of `hash_object`, src/hash.c:119-122. -/
def hashAttr (addr : Name → BitVec 64) : Attrs → BitVec 32 → C (BitVec 32)
  | .nil, h => .ok h
  | .cons _ v r, h => do
      let ha := hashCombine 0 (← hashObj addr v)
      let ha := hashCombine ha (← hashPairs addr r)
      .ok (hashCombine h ha)

/-- `hash_object` of an attribute pairlist: `node_hash`, src/hash.c:210-215, on nodes
without attributes of their own. -/
def hashPairs (addr : Name → BitVec 64) : Attrs → C (BitVec 32)
  | .nil => .ok 0
  | .cons _ v r => do
      let h := hashCombine 0 (← hashObj addr v)
      .ok (hashCombine h (← hashPairs addr r))

end

/-- `list_is_missing`, src/missing.h:40-42. -/
def objIsMissing : Obj → Bool
  | .nil => true
  | _ => false

end Vctrs
