import Verif.Base

/-!
# Group tracking while ordering (src/order-groups.c, src/order-groups.h)

Group sizes are `r_ssize` values stored in an R integer vector; they are natural numbers here.
-/

namespace Vctrs

/-- `GROUP_DATA_SIZE_DEFAULT`, src/order-groups.h:23. -/
def groupDataSizeDefault : Nat := 100000

/-- `struct group_info`, src/order-groups.h:40-50.  `data_size` is `data.length`. -/
structure GroupInfo where
  data : List (Option Nat)
  nGroups : Nat
  maxGroupSize : Nat
  deriving DecidableEq, Repr

/-- `new_group_info`, src/order-groups.c:17-29. -/
def GroupInfo.new : GroupInfo := ⟨[], 0, 0⟩

/-- `struct group_infos`, src/order-groups.h:86-94.  `second` is `current == 1`. -/
structure GroupInfos where
  info0 : GroupInfo
  info1 : GroupInfo
  maxDataSize : Nat
  second : Bool
  force : Bool
  ignore : Bool
  deriving DecidableEq, Repr

/-- `new_group_infos`, src/order-groups.c:33-59, on two fresh `group_info`. -/
def GroupInfos.new (maxDataSize : Nat) (force ignore : Bool) : GroupInfos :=
  ⟨.new, .new, maxDataSize, false, force, ignore⟩

/-- `groups_current`, src/order-groups.h:122-124. -/
def GroupInfos.current (g : GroupInfos) : GroupInfo := if g.second then g.info1 else g.info0

/-- Assignment through the pointer returned by `groups_current`,
src/order-groups.h:122-124. -/
def GroupInfos.setCurrent (g : GroupInfos) (i : GroupInfo) : GroupInfos :=
  if g.second then { g with info1 := i } else { g with info0 := i }

/-- `int_resize`, src/utils.c:379-396 and :420-422: the first elements are kept, the others
are uninitialised. -/
def intResize {α : Type} (x : List (Option α)) (size : Nat) : List (Option α) :=
  if x.length = size then x else x.take size ++ alloc α (size - x.length)

/-- `group_realloc`, src/order-groups.c:107-123. -/
def groupRealloc (size : Nat) (i : GroupInfo) : GroupInfo :=
  { i with data := intResize i.data size }

/-- `groups_realloc_size`, src/order-groups.c:127-147. -/
def groupsReallocSize (dataSize maxDataSize : Nat) : Nat :=
  let n := if dataSize = 0 then groupDataSizeDefault else dataSize * 2
  if n > maxDataSize then maxDataSize else n

/-- `groups_size_push`, src/order-groups.c:73-100. -/
def groupsSizePush (size : Nat) (g : GroupInfos) : C GroupInfos :=
  if size = 0 then .error .internal
  else
    let i := g.current
    let i := if i.data.length = i.nGroups then
      groupRealloc (groupsReallocSize i.data.length g.maxDataSize) i else i
    do
      let data ← wr i.data i.nGroups (some size)
      .ok (g.setCurrent ⟨data, i.nGroups + 1,
        if i.maxGroupSize < size then size else i.maxGroupSize⟩)

/-- `groups_size_maybe_push`, src/order-groups.h:136-142. -/
def groupsSizeMaybePush (size : Nat) (g : GroupInfos) : C GroupInfos :=
  if g.ignore then .ok g else groupsSizePush size g

/-- `groups_swap`, src/order-groups.c:160-181. -/
def groupsSwap (g : GroupInfos) : GroupInfos :=
  if g.ignore then g
  else
    let pre := g.current
    let g := { g with second := !g.second }
    let post := { g.current with maxGroupSize := 0, nGroups := 0 }
    let post := if post.data.length < pre.data.length then groupRealloc pre.data.length post
      else post
    g.setCurrent post

/-- `p_group_info->n_groups = original_n_groups`, src/order-sortedness.c:122, :271 and :413. -/
def GroupInfos.resetGroups (g : GroupInfos) (n : Nat) : GroupInfos :=
  g.setCurrent { g.current with nGroups := n }

end Vctrs
