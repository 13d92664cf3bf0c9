import Verif.Model.Missing

/-!
# Filling the hash array of a dictionary (src/hash.c:243-403)
-/

namespace Vctrs

/-- The `HASH_FILL` and `HASH_FILL_BARRIER` loops, src/hash.c:282-287 and :366-369. -/
def hashFillLoop {α : Type} (hash : α → C (BitVec 32)) (size : Nat) (x : List α)
    (p : List (BitVec 32)) : C (List (BitVec 32)) :=
  forN size (fun i (p : List (BitVec 32)) => do
    wr p i (hashCombine (← rd p i) (← hash (← rd x i)))) p

/-- The `HASH_FILL_NA_PROPAGATE` and `HASH_FILL_NA_PROPAGATE_CMP` loops,
src/hash.c:289-317. -/
def hashFillPropagate {α : Type} (hash : α → BitVec 32) (missing : α → Bool) (size : Nat)
    (x : List α) (p : List (BitVec 32)) : C (List (BitVec 32)) :=
  forN size (fun i (p : List (BitVec 32)) => do
    let h ← rd p i
    if h = hashMissing then .ok p
    else
      let e ← rd x i
      if missing e then wr p i hashMissing else wr p i (hashCombine h (hash e))) p

/-- `list_hash_scalar_na_propagate`, src/hash.c:96-103. -/
def listHashScalarPropagate (addr : Name → BitVec 64) (x : Obj) : C (BitVec 32) :=
  match x with
  | .nil => .ok hashMissing
  | x => hashObj addr x

/-- `HASH_FILL_BARRIER_NA_PROPAGATE`, src/hash.c:371-383. -/
def hashFillListPropagate (addr : Name → BitVec 64) (size : Nat) (x : List Obj)
    (p : List (BitVec 32)) : C (List (BitVec 32)) :=
  forN size (fun i (p : List (BitVec 32)) => do
    let h ← rd p i
    if h = hashMissing then .ok p
    else
      let e ← listHashScalarPropagate addr (← rd x i)
      if e = hashMissing then wr p i hashMissing
      else wr p i (hashCombine (← rd p i) e)) p

/-- The cases of `hash_fill` for vectors, src/hash.c:253-276, with the functions of
src/hash.c:319-391.  The raw `na_propagate` function is the plain `HASH_FILL` loop
(hash.c:357-359). -/
def hashFillVec (addr : Name → BitVec 64) (naEqual : Bool) (size : Nat)
    (p : List (BitVec 32)) : (t : VTy) → List t.El → C (List (BitVec 32))
  | .atom t, (x : List t.El) =>
    if naEqual || decide (t = .raw) then
      hashFillLoop (fun e => .ok (hashScalar addr t e)) size x p
    else hashFillPropagate (hashScalar addr t) (isMissing t) size x p
  | .list, (x : List Obj) =>
    if naEqual then hashFillLoop (hashObj addr) size x p
    else hashFillListPropagate addr size x p

mutual

/-- `hash_fill`, src/hash.c:243-280.  Arrays have been turned into data frames
(hash.c:244-251). -/
def hashFill (addr : Name → BitVec 64) (naEqual : Bool) (size : Nat)
    (p : List (BitVec 32)) : Val → C (List (BitVec 32))
  | .vec t x => hashFillVec addr naEqual size p t x
  | .df _ cols => dfHashFill addr naEqual size p cols

/-- `df_hash_fill`, src/hash.c:396-403: the loop over the columns. -/
def dfHashFill (addr : Name → BitVec 64) (naEqual : Bool) (size : Nat)
    (p : List (BitVec 32)) : List Val → C (List (BitVec 32))
  | [] => .ok p
  | col :: cols => do
    let p ← hashFill addr naEqual size p col
    dfHashFill addr naEqual size p cols

end

/-- The hash array of `new_dictionary_opts`, src/dictionary.c:96-108: zeroed, then
filled. -/
def dictHashes (addr : Name → BitVec 64) (naEqual : Bool) (x : Val) : C (List (BitVec 32)) :=
  hashFill addr naEqual x.size (List.replicate x.size 0) x

/-- `poly_p_is_incomplete`, src/poly-op.c:125-139, with `p_df_is_incomplete` (:141-158). -/
def pIsIncomplete (x : Val) (i : Nat) : C Bool :=
  match x with
  | .vec t xs => do .ok (missingScalar t (← rd xs i))
  | .df _ cols => forBrk cols.length (fun c (out : Bool) => do
      if ← pIsMissing (← rd cols c) i then .ok (.brk true) else .ok (.next out)) false

/-- `dict_is_incomplete`, src/dictionary.c:157-160, for the dictionary `new_dictionary_params`
(:55-60) builds with `na_equal = false`, as asked at row `i` by `vec_match` and `vec_in`
(:446, :526). -/
def dictIncomplete (addr : Name → BitVec 64) (x : Val) (i : Nat) : C Bool := do
  let hash ← dictHashes addr false x
  let h ← rd hash i
  if h = hashMissing then pIsIncomplete x i else .ok false

/-- What `df_hash_fill` (src/hash.c:396-403) with `na_equal = true` leaves in one slot of
the hash array for a row of atomic columns, from the value `h` the slot starts with. -/
def rowHash (addr : Name → BitVec 64) : (ts : List ATy) → Row ts → BitVec 32 → BitVec 32
  | [], _, h => h
  | t :: ts, (x, xs), h => rowHash addr ts xs (hashCombine h (hashScalar addr t x))

/-- The same with `na_equal = false` (src/hash.c:267-276): a marked slot stays marked,
except that a raw column overwrites the mark. -/
def rowHashPropagate (addr : Name → BitVec 64) :
    (ts : List ATy) → Row ts → BitVec 32 → BitVec 32
  | [], _, h => h
  | t :: ts, (x, xs), h => rowHashPropagate addr ts xs
      (if t = .raw then hashCombine h (hashScalar addr t x)
       else if h = hashMissing then h
       else if isMissing t x then hashMissing else hashCombine h (hashScalar addr t x))

/-- The operations of a dictionary on a data frame with atomic columns of types `ts`:
src/dictionary.c:76 and :104-105. -/
def rowOps (addr : Name → BitVec 64) (naEqual : Bool) (ts : List ATy) : PolyOps (Row ts) :=
  ⟨rowEqual ts, fun r => if naEqual then rowHash addr ts r 0 else rowHashPropagate addr ts r 0⟩

/-- The operations of a dictionary on an atomic vector: src/dictionary.c:76 and
:104-105. -/
def atomOps (addr : Name → BitVec 64) (naEqual : Bool) (t : ATy) : PolyOps t.El :=
  ⟨equalNaEqual t, fun x =>
    if naEqual || decide (t = .raw) then hashCombine 0 (hashScalar addr t x)
    else if isMissing t x then hashMissing else hashCombine 0 (hashScalar addr t x)⟩

end Vctrs
