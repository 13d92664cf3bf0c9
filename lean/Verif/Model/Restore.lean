import Verif.Model.Names

/-!
# Restoring attributes: src/proxy-restore.c

Objects and the nodes of their attribute lists live in a heap; a pointer is a position there and
`none` is `NULL`.  Functions of R which walk a list of attributes are given fuel, the number of
nodes.  Attributes never have the value `NULL`.
-/

namespace Vctrs

/-- The tags which `vec_restore_default` treats specially, src/proxy-restore.c:91-93, and all others. -/
inductive AttrTag where
  | names
  | dim
  | dimNames
  | class_
  | rowNames
  | other (n : Nat)
  deriving DecidableEq

/-- Values of attributes: character vectors, integer vectors and all others. -/
inductive AttrVal where
  | chr (l : List Name)
  | int (l : List Int)
  | other (n : Nat)
  deriving DecidableEq

/-- A node of a pairlist. -/
structure PNode where
  tag : AttrTag
  car : AttrVal
  cdr : Option Nat

/-- An object: whether it is a list, the sizes of its elements if it is one, its attributes, whether
it is an S4 object and whether it is shared (`r_is_shared`, src/rlang/obj.h:38). -/
structure VObj where
  isList : Bool
  sizes : List Nat
  attrib : Option Nat
  s4 : Bool
  shared : Bool

/-- The heap. -/
structure OHeap where
  nodes : List PNode
  objs : List VObj

/-- The tags and values of a list of attributes. -/
def readAttribs : Nat → List PNode → Option Nat → C (List (AttrTag × AttrVal))
  | _, _, none => .ok []
  | 0, _, some _ => .error .diverge
  | fuel + 1, nodes, some p => do
    let nd ← rd nodes p
    let rest ← readAttribs fuel nodes nd.cdr
    .ok ((nd.tag, nd.car) :: rest)

/-- New nodes for the elements of a list. -/
def allocAttribs (nodes : List PNode) : List (AttrTag × AttrVal) → List PNode × Option Nat
  | [] => (nodes, none)
  | (t, v) :: rest =>
    let r := allocAttribs nodes rest
    (r.1 ++ [⟨t, v, r.2⟩], some r.1.length)

/-- `r_clone` of a pairlist. -/
def cloneAttribs (nodes : List PNode) (p : Option Nat) : C (List PNode × Option Nat) := do
  let l ← readAttribs nodes.length nodes p
  .ok (allocAttribs nodes l)

/-- `r_attrib_get` and `df_rownames`: the value with a tag. -/
def pairlistGet : Nat → List PNode → Option Nat → AttrTag → C (Option AttrVal)
  | _, _, none, _ => .ok none
  | 0, _, some _, _ => .error .diverge
  | fuel + 1, nodes, some p, tag => do
    let nd ← rd nodes p
    if nd.tag = tag then .ok (some nd.car) else pairlistGet fuel nodes nd.cdr tag

/-- `Rf_setAttrib` with a value: it is replaced in its node, or a node is added at the end. -/
def pairlistSet : Nat → List PNode → Nat → AttrTag → AttrVal → C (List PNode)
  | 0, _, _, _, _ => .error .diverge
  | fuel + 1, nodes, p, tag, v => do
    let nd ← rd nodes p
    if nd.tag = tag then wr nodes p { nd with car := v }
    else match nd.cdr with
      | some q => pairlistSet fuel nodes q tag v
      | none => wr (nodes ++ [⟨tag, v, none⟩]) p { nd with cdr := some nodes.length }

/-- `Rf_setAttrib` with `NULL`: the nodes with the tag are unlinked. -/
def attribRemove : Nat → List PNode → Option Nat → AttrTag → C (List PNode × Option Nat)
  | _, nodes, none, _ => .ok (nodes, none)
  | 0, _, some _, _ => .error .diverge
  | fuel + 1, nodes, some p, tag => do
    let nd ← rd nodes p
    if nd.tag = tag then attribRemove fuel nodes nd.cdr tag
    else do
      let r ← attribRemove fuel nodes nd.cdr tag
      let nodes ← wr r.1 p { nd with cdr := r.2 }
      .ok (nodes, some p)

/-- `r_attrib_poke`, src/rlang/attrib.h:25-27; `none` is `NULL`.  Special treatment of values by R
(checks of dimensions, compaction of row names) is left out. -/
def attribPoke (σ : OHeap) (x : Nat) (tag : AttrTag) (v : Option AttrVal) : C OHeap := do
  let o ← rd σ.objs x
  match v with
  | none => do
    let r ← attribRemove σ.nodes.length σ.nodes o.attrib tag
    let objs ← wr σ.objs x { o with attrib := r.2 }
    .ok ⟨r.1, objs⟩
  | some v =>
    match o.attrib with
    | none => do
      let objs ← wr σ.objs x { o with attrib := some σ.nodes.length }
      .ok ⟨σ.nodes ++ [⟨tag, v, none⟩], objs⟩
    | some p => do
      let nodes ← pairlistSet σ.nodes.length σ.nodes p tag v
      .ok ⟨nodes, σ.objs⟩

/-- `r_poke_attrib`. -/
def pokeAttribs (σ : OHeap) (x : Nat) (p : Option Nat) : C OHeap := do
  let o ← rd σ.objs x
  let objs ← wr σ.objs x { o with attrib := p }
  .ok ⟨σ.nodes, objs⟩

/-- `vec_clone_referenced`, src/owned.h:15-21. -/
def cloneObj (σ : OHeap) (x : Nat) (owned : Bool) : C (OHeap × Nat) := do
  let o ← rd σ.objs x
  if owned || !o.shared then .ok (σ, x)
  else do
    let r ← cloneAttribs σ.nodes o.attrib
    .ok (⟨r.1, σ.objs ++ [{ o with attrib := r.2, shared := false }]⟩, σ.objs.length)

/-- Tags skipped at src/proxy-restore.c:91-93. -/
def isSpecialTag : AttrTag → Bool
  | .names | .dim | .dimNames | .class_ | .rowNames => true
  | .other _ => false

/-- The loop of src/proxy-restore.c:83-112, which unlinks nodes with special tags and remembers the
class. -/
def dropSpecial : Nat → List PNode → Option Nat → Option Nat → Option Nat → Option AttrVal →
    C (List PNode × Option Nat × Option AttrVal)
  | _, nodes, attrib, _, none, cls => .ok (nodes, attrib, cls)
  | 0, _, _, _, some _, _ => .error .diverge
  | fuel + 1, nodes, attrib, prev, some node, cls => do
    let nd ← rd nodes node
    if isSpecialTag nd.tag then do
      let cls := if nd.tag = .class_ then some nd.car else cls
      match prev with
      | none =>
        match attrib with
        | none => .error .ub
        | some a => do
          let na ← rd nodes a
          dropSpecial fuel nodes na.cdr prev nd.cdr cls
      | some q => do
        let nq ← rd nodes q
        let nodes ← wr nodes q { nq with cdr := nd.cdr }
        dropSpecial fuel nodes attrib prev nd.cdr cls
    else dropSpecial fuel nodes attrib (some node) nd.cdr cls

/-- `is_data_frame`, src/type-data-frame.c:6-10; `dfClass` tells which classes are those of data
frames. -/
def isDataFrameObj (dfClass : AttrVal → Bool) (σ : OHeap) (x : Nat) : C Bool := do
  let o ← rd σ.objs x
  match ← pairlistGet σ.nodes.length σ.nodes o.attrib .class_ with
  | none => .ok false
  | some c => .ok (o.isList && dfClass c)

/-- `vec_restore_default`, src/proxy-restore.c:63-157. -/
def restoreDefault (dfClass : AttrVal → Bool) (σ : OHeap) (x dest : Nat) (owned : Bool) :
    C (OHeap × Nat) := do
  let t ← rd σ.objs dest
  if t.attrib = none && !t.s4 then .ok (σ, x)
  else do
    let a ← cloneAttribs σ.nodes t.attrib
    let c ← cloneObj ⟨a.1, σ.objs⟩ x owned
    let σ := c.1
    let x := c.2
    let d ← dropSpecial σ.nodes.length σ.nodes a.2 none a.2 none
    let σ : OHeap := ⟨d.1, σ.objs⟩
    let attrib := d.2.1
    let cls := d.2.2
    let o ← rd σ.objs x
    let dim ← pairlistGet σ.nodes.length σ.nodes o.attrib .dim
    let σ ← (match dim with
      | none => do
        let nms ← pairlistGet σ.nodes.length σ.nodes o.attrib .names
        let rownms ← pairlistGet σ.nodes.length σ.nodes o.attrib .rowNames
        let df ← isDataFrameObj dfClass σ dest
        let restoreRownms := rownms.isSome && df
        let σ ← pokeAttribs σ x attrib
        let σ ← attribPoke σ x .names nms
        if restoreRownms then attribPoke σ x .rowNames rownms else .ok σ
      | some dim => do
        let dimnames ← pairlistGet σ.nodes.length σ.nodes o.attrib .dimNames
        let σ ← pokeAttribs σ x attrib
        let σ ← attribPoke σ x .dim (some dim)
        attribPoke σ x .dimNames dimnames : C OHeap)
    let σ ← (if cls.isSome then attribPoke σ x .class_ cls else .ok σ : C OHeap)
    if t.s4 then do
      let o ← rd σ.objs x
      let objs ← wr σ.objs x { o with s4 := true }
      .ok (⟨σ.nodes, objs⟩, x)
    else .ok (σ, x)

/-- `new_compact_rownames`, src/type-data-frame.c:462-472. -/
def compactRownames (n : Nat) : AttrVal :=
  if n = 0 then .int [] else .int [naInt, -(n : Int)]

/-- `vec_bare_df_restore` without recursion, src/proxy-restore.c:174-228; `dest` is a data frame or
its proxy.  `df_raw_size`, src/size.c:183-198, is the size of the first column, since there are no
row names.  The row names are set in the object itself: it is not shared any more, or owned. -/
def bareDfRestore (h : Name → BitVec 32) (dfClass : AttrVal → Bool) (σ : OHeap) (x dest : Nat) (owned : Bool) :
    C (OHeap × Nat) := do
  let o ← rd σ.objs x
  if !o.isList then .error .internal
  else do
    let df ← isDataFrameObj dfClass σ dest
    if !df then .error .internal
    else do
      let r ← restoreDefault dfClass σ x dest owned
      let σ := r.1
      let x := r.2
      let o ← rd σ.objs x
      let nms ← pairlistGet σ.nodes.length σ.nodes o.attrib .names
      let σ ← (match nms with
        | none => attribPoke σ x .names (some (.chr (List.replicate o.sizes.length (some []))))
        | some _ => .ok σ : C OHeap)
      let o ← rd σ.objs x
      let rn ← pairlistGet σ.nodes.length σ.nodes o.attrib .rowNames
      match rn with
      | none => do
        let size ← (match o.sizes with
          | [] => .ok 0
          | n :: _ => .ok n : C Nat)
        let σ ← attribPoke σ x .rowNames (some (compactRownames size))
        .ok (σ, x)
      | some (.chr l) => do
        let l ← vecAsUniqueNames h l
        let σ ← attribPoke σ x .rowNames (some (.chr l))
        .ok (σ, x)
      | some (.int _) => .ok (σ, x)
      | some (.other _) => .error .internal

end Vctrs
