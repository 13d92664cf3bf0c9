import Verif.Model.Interval
import Verif.Model.Rank

/-!
# Joint ranks of two vectors: src/match-joint.c, src/match-compare.h

The collation function `chr_proxy_collate` is `NULL` (strings are compared as they are); strings
are in one encoding.  Order proxies of lists and of classes are made by R functions: lists are
refused.
-/

namespace Vctrs

/-! ## Comparison -/

/-- `dbl_order_compare_na_equal`, src/match-compare.h:32-62. -/
def dblOrderCompare (nanDistinct : Bool) (x y : Dbl) : Int :=
  match dblClassify x, dblClassify y with
  | .number, .number => dblCompareScalar x y
  | .number, .missing => 1
  | .number, .nan => 1
  | .missing, .number => -1
  | .missing, .missing => 0
  | .missing, .nan => if nanDistinct then -1 else 0
  | .nan, .number => -1
  | .nan, .missing => if nanDistinct then 1 else 0
  | .nan, .nan => 0

/-- `cpl_order_compare_na_equal`, src/match-compare.h:63-75. -/
def cplOrderCompare (nanDistinct : Bool) (x y : Dbl × Dbl) : Int :=
  let x := cplNormaliseMissing x
  let y := cplNormaliseMissing y
  let cmp := dblOrderCompare nanDistinct x.1 y.1
  if cmp = 0 then dblOrderCompare nanDistinct x.2 y.2 else cmp

/-- The `*_order_compare_na_equal` functions, src/match-compare.h:24-79, as selected in :120-127:
raw vectors are not implemented. -/
def orderCompare (nanDistinct : Bool) : (t : ATy) → t.El → t.El → C Int
  | .lgl, (x : Int), (y : Int) => .ok (intCompareScalar x y)
  | .int, (x : Int), (y : Int) => .ok (intCompareScalar x y)
  | .dbl, (x : Dbl), (y : Dbl) => .ok (dblOrderCompare nanDistinct x y)
  | .cpl, (x : Dbl × Dbl), (y : Dbl × Dbl) => .ok (cplOrderCompare nanDistinct x y)
  | .chr, (x : Name), (y : Name) => chrCompareNaEqual x y
  | .raw, _, _ => .error .abort

/-- `p_order_compare_na_equal`, src/match-compare.h:113-128: element `i` of a column with element
`j` of another.  The type is that of the first; a column of another type would be reinterpreted
(undefined). -/
def pOrderCompare (nanDistinct : Bool) : Val → Int → Val → Int → C Int
  | .vec (.atom t) xs, i, y, j => match y with
    | .vec (.atom u) ys =>
      if h : t = u then do
        let a ← rdI xs i
        let b ← rdI ys j
        orderCompare nanDistinct u (h ▸ a) b
      else .error .ub
    | _ => .error .ub
  | .vec .list _, _, _, _ => .error .abort
  | .df _ _, _, _, _ => .error .abort

/-- `p_df_order_compare_na_equal`, src/match-compare.h:130-165. -/
def pDfOrderCompare (nanDistinct : Bool) (xs : List Val) (i : Int) (ys : List Val) (j : Int) :
    C Int :=
  forBrk xs.length (fun col (out : Int) => do
    let cmp ← pOrderCompare nanDistinct (← rd xs col) i (← rd ys col) j
    if cmp = 0 then .ok (.next out) else .ok (.brk cmp)) 0

/-- The comparison selected by the `switch` of `vec_joint_xtfrm`, src/match-joint.c:159-167. -/
def jointCompare (nanDistinct : Bool) (x : Val) (i : Int) (y : Val) (j : Int) : C Int :=
  match x, y with
  | .df _ xs, .df _ ys => pDfOrderCompare nanDistinct xs i ys j
  | .df _ _, .vec _ _ => .error .ub
  | .vec t xs, y => pOrderCompare nanDistinct (.vec t xs) i y j

/-! ## Proxies -/

mutual

/-- `vec_joint_proxy_order`, src/match-joint.c:236-268, with `vec_joint_proxy_order_independent`
(:270-279) and `df_joint_proxy_order` (:356-387).  A type that differs from that of the other
argument is an internal error; that of a data frame is `list`, so that a data frame and a list
would be taken for one another (undefined).  Lists have a model of their own, `jointProxyLists` in
Model/ListMatch.lean; here they are an error. -/
def jointProxy : Val → Val → C (Val × Val)
  | .vec (.atom t) xs, y => match y with
    | .vec (.atom u) ys =>
      if t = u then do
        let p ← proxyVal (.vec (.atom t) xs)
        let q ← proxyVal (.vec (.atom u) ys)
        .ok (p, q)
      else .error .internal
    | _ => .error .internal
  | .vec .list _, _ => .error .abort
  | .df n xs, y => match y with
    | .df m ys =>
      if xs.length ≠ ys.length then .error .internal
      else do
        let (ps, qs) ← jointProxyCols xs ys
        let p ← dfFlatten n ps
        let q ← dfFlatten m qs
        .ok (proxyUnwrap p, proxyUnwrap q)
    | .vec (.atom _) _ => .error .internal
    | .vec .list _ => .error .ub

/-- The loop of `df_joint_proxy_order`, src/match-joint.c:369-373; the lengths were compared. -/
def jointProxyCols : List Val → List Val → C (List Val × List Val)
  | [], _ => .ok ([], [])
  | x :: xs, ys => match ys with
    | y :: ys => do
      let (p, q) ← jointProxy x y
      let (ps, qs) ← jointProxyCols xs ys
      .ok (p :: ps, q :: qs)
    | [] => .error .ub

end

/-! ## Ranks -/

/-- One of the two vectors in `vec_joint_xtfrm`, src/match-joint.c:86-93 and :148-151: the ranks,
the location in the order, and the group. -/
structure JointSide where
  ranks : List (Option Int)
  oLoc : Nat
  group : Nat

/-- A group of ties gets the rank, src/match-joint.c:21-25, :27-31, :33-42, :173-178 and
:186-191. -/
def jointTake (o : List Int) (rank : Int) (groupSize : Nat) (s : JointSide) : C JointSide := do
  let (ranks, oLoc) ← rankFill o rank groupSize (s.ranks, s.oLoc)
  .ok ⟨ranks, oLoc, s.group + 1⟩

/-- The order of a vector and the sizes of the groups of ties, src/match-joint.c:130-136. -/
structure JointOrder where
  o : List Int
  sizes : List Nat

/-- State of the loops of `vec_joint_xtfrm`, src/match-joint.c:148-155. -/
structure JointState where
  x : JointSide
  y : JointSide
  rank : Int

/-- One round of `VEC_JOINT_XTFRM_LOOP`, src/match-joint.c:7-46. -/
def jointStep (nanDistinct : Bool) (xv yv : Val) (xo yo : JointOrder) (_ : Nat) (s : JointState) :
    C (Ctl JointState) :=
  if s.x.group < xo.sizes.length ∧ s.y.group < yo.sizes.length then do
    let xSize ← rd xo.sizes s.x.group
    let ySize ← rd yo.sizes s.y.group
    let xLoc ← rd xo.o s.x.oLoc
    let yLoc ← rd yo.o s.y.oLoc
    let cmp ← jointCompare nanDistinct xv (xLoc - 1) yv (yLoc - 1)
    let s ← (if cmp = -1 then do
        let x ← jointTake xo.o s.rank xSize s.x
        .ok { s with x := x }
      else if cmp = 1 then do
        let y ← jointTake yo.o s.rank ySize s.y
        .ok { s with y := y }
      else do
        let x ← jointTake xo.o s.rank xSize s.x
        let y ← jointTake yo.o s.rank ySize s.y
        .ok { s with x := x, y := y } : C JointState)
    let rank ← chkInt (s.rank + 1)
    .ok (.next { s with rank := rank })
  else .ok (.brk s)

/-- The two loops over the remaining groups of one vector, src/match-joint.c:169-180 and
:182-193. -/
def jointRest (o : JointOrder) (s : JointSide × Int) : C (JointSide × Int) :=
  forFrom (fun i (s : JointSide × Int) => do
    let size ← rd o.sizes i
    let t ← jointTake o.o s.2 size s.1
    let rank ← chkInt (s.2 + 1)
    .ok (t, rank)) s.1.group (o.sizes.length - s.1.group) s

/-- `vec_joint_xtfrm` from the orders on, src/match-joint.c:148-193.  Every round of the first
loop moves to the next group of at least one vector, so that the number of groups bounds the
rounds. -/
def jointMerge (nanDistinct : Bool) (xv yv : Val) (xo yo : JointOrder) (xSize ySize : Nat) :
    C (List Int × List Int) := do
  let s ← forBrk (xo.sizes.length + yo.sizes.length) (jointStep nanDistinct xv yv xo yo)
    ⟨⟨alloc Int xSize, 0, 0⟩, ⟨alloc Int ySize, 0, 0⟩, naInt + 1⟩
  let (x, rank) ← jointRest xo (s.x, s.rank)
  let (y, _) ← jointRest yo (s.y, rank)
  .ok (← initd x.ranks, ← initd y.ranks)

/-- `vec_joint_xtfrm`, src/match-joint.c:76-197. -/
def vecJointXtfrm (fuel : Nat) (x y : Val) (nanDistinct : Bool) (tl : TL) (static : List Nat) :
    C ((List Int × List Int) × TL × List Nat) := do
  let (xp, yp) ← jointProxy x y
  let (xi, tl, static) ← vecOrderInfo fuel xp chrsAsc chrsSmallest nanDistinct true true tl static
  let (yi, tl, static) ← vecOrderInfo fuel yp chrsAsc chrsSmallest nanDistinct true true tl static
  match xi.groups, yi.groups with
  | some (xs, _), some (ys, _) =>
    let out ← jointMerge nanDistinct xp yp ⟨xi.o, xs⟩ ⟨yi.o, ys⟩ x.size y.size
    .ok (out, tl, static)
  | _, _ => .error .internal

end Vctrs
