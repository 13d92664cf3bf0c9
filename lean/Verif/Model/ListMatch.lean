import Verif.Model.Dictionary
import Verif.Model.MatchExpand

/-!
# Ordering and matching lists: src/match-joint.c, R/type-bare.R

A list has elements of any type `α`, with the equality and the hash of src/equal.c and src/hash.c, and a test for
`NULL`.
-/

namespace Vctrs

variable {α : Type}

/-- `vec_any_missing`, src/missing.c:267-276, on a list. -/
def listAnyMissing (missing : α → Bool) (x : List α) : C Bool := do
  let first ← firstMissing missing x
  .ok (first != x.length)

/-- `vec_assign(out, missing, NA_integer_)` of R/type-bare.R:419-421: the logical subscript is that of
`vec_detect_missing()`, src/missing.c:83. -/
def listAssignNa (missing : α → Bool) (x : List α) (out : List Int) : C (List Int) :=
  forN x.length (fun i out => do
    let e ← rd x i
    if missing e then wr out i naInt else .ok out) out

/-- `vec_proxy_order.list`, R/type-bare.R:412-424. -/
def listProxyOrder (ops : PolyOps α) (missing : α → Bool) (x : List α) : C (List Int) := do
  let ids ← duplicateId ops x
  let out := ids.map (fun (id : Nat) => (id : Int))
  if ← listAnyMissing missing x then listAssignNa missing x out else .ok out

/-- `vec_slice_unsafe()` of integers with `compact_seq(start, size, true)`, src/slice.c:40-55. -/
def sliceSeq (x : List Int) (start size : Nat) : C (List Int) := do
  initd (← forN size (fun i out => do
    let v ← rd x (start + i)
    wr out i (some v)) (alloc Int size))

/-- `vec_joint_proxy_order_dependent`, src/match-joint.c:280-317; `vec_c()` of two lists puts the elements one after
the other and is an error if they are too many. -/
def jointProxyLists (ops : PolyOps α) (missing : α → Bool) (x y : List α) : C (List Int × List Int) := do
  if x.length + y.length > intMax then .error .abort
  else do
    let proxy ← listProxyOrder ops missing (x ++ y)
    let p ← sliceSeq proxy 0 x.length
    let q ← sliceSeq proxy x.length y.length
    .ok (p, q)

/-- `vec_joint_xtfrm`, src/match-joint.c:76-197, on lists: from the proxies on it is that of integer vectors, which are
their own proxies. -/
def listJointXtfrm (ops : PolyOps α) (missing : α → Bool) (fuel : Nat) (x y : List α) (nanDistinct : Bool) (tl : TL)
    (static : List Nat) : C ((List Int × List Int) × TL × List Nat) := do
  let (p, q) ← jointProxyLists ops missing x y
  vecJointXtfrm fuel (.vec (.atom .int) p) (.vec (.atom .int) q) nanDistinct tl static

/-- `vec_detect_complete()` on a list, src/complete.c:51-70, with `list_detect_complete`, :128-138 and :164-167. -/
def listDetectComplete (missing : α → Bool) (x : List α) : C (List Bool) :=
  detectCompleteLoop missing x x.length (List.replicate x.length true)

/-- `vec_locate_matches`, src/match.c:131-257, on two lists, which are one column. -/
def listLocateMatches (ops : PolyOps α) (missing : α → Bool) (fuel : Nat) (needles haystack : List α)
    (condition filter : List Name) (incomplete : MIncomplete) (noMatch remaining : MUnmatched) (multiple : MMultiple)
    (relationship : MRelationship) (nanDistinct : Bool) (tl : TL) (static : List Nat) :
    C (Matches × TL × List Nat) := do
  let conds ← parseByColumn parseConditionOne condition 1
  let filters ← parseByColumn parseFilterOne filter 1
  let anyFilters := filters.any (fun f => f != .all)
  let xc ← listDetectComplete missing needles
  let yc ← listDetectComplete missing haystack
  let ((p, q), tl, static) ← listJointXtfrm ops missing fuel needles haystack nanDistinct tl static
  dfLocateMatches fuel [p] [q] [xc] [yc] needles.length haystack.length incomplete noMatch remaining multiple
    relationship anyFilters filters conds tl static

/-- `vec_order`, src/order.c:201-210, on a list: the order of its proxy. -/
def listOrder (ops : PolyOps α) (missing : α → Bool) (x : List α) (direction naValue : List Name) (nanDistinct : Bool)
    (tl : TL) (static : List Nat) : C (List Int × TL × List Nat) := do
  let p ← listProxyOrder ops missing x
  vecOrder 1 (.vec (.atom .int) p) direction naValue nanDistinct tl static

end Vctrs
