import Verif.Base

/-!
# Recursive proxies and their restoration: src/proxy.c:6-54, src/proxy-restore.c:12-53 and :162-230

`vec_c()`, `list_unchop()` and `vec_rbind()` work on the recursive proxy of the result (src/c.c:71 and :155,
src/c-unchop.c:90 and :169, src/bind.c:138 and :244) and restore it recursively.  The methods `vec_proxy()` and
`vec_restore()` of classes are arbitrary functions.
-/

namespace Vctrs

/-- An object: a number for its attributes (0 if there are none) and one for its data; or a list, with a number
for its names and row names, which are not restored (src/proxy-restore.c:86-91, C78). -/
inductive RTree
  | atom (attrs data : Nat)
  | list (attrs info : Nat) (cols : List RTree)

/-- The attributes. -/
def RTree.attrs : RTree → Nat
  | .atom a _ => a
  | .list a _ _ => a

/-- Results of `class_type`, src/utils-dispatch.c:10-91, which `vec_restore_4` tells apart,
src/proxy-restore.c:33-44.  `bare` is `VCTRS_CLASS_none`; `factor` also stands for ordered factors, and `date`
for the three classes of dates and times. -/
inductive RKind
  | bare | factor | date | bareDf | tibble | df | other
  deriving DecidableEq

/-- Classes: the result of `class_type` for lists and for other objects (it looks at the class only; as a function of
both, so that one can say that only lists have the class of data frames), the methods for `vec_proxy()` (`s3_find_method`, src/proxy.c:127-129) and
`vec_restore()` (src/proxy-restore.c:55-60), and the checks of dates and times (src/type-date-time.c:240-262). -/
structure RecEnv where
  kind : Bool → Nat → RKind
  proxyM : Nat → Option (RTree → C RTree)
  restoreM : RTree → RTree → C RTree
  validate : RTree → C RTree

/-- `class_type`, src/utils-dispatch.c:10-28, of an object. -/
def RTree.kind (E : RecEnv) : RTree → RKind
  | .atom a _ => E.kind false a
  | .list a _ _ => E.kind true a

/-- `is_data_frame`, src/type-data-frame.c:6-10: a list that inherits from `data.frame`.  (Here, with `data.frame` as
its last class, as `class_type` requires at src/utils-dispatch.c:84-85.) -/
def isDfTree (E : RecEnv) : RTree → Bool
  | .atom _ _ => false
  | .list a _ _ => match E.kind true a with
    | .bareDf | .tibble | .df => true
    | _ => false

/-- `vec_proxy_invoke`, src/proxy.c:132-139. -/
def proxyInvoke (E : RecEnv) (x : RTree) : C RTree :=
  match E.proxyM x.attrs with
  | none => .ok x
  | some m => m x

/-- `vec_proxy_2` without recursion, src/proxy.c:13-38: bare vectors and bare data frames are their own proxies. -/
def proxyOnce (E : RecEnv) (x : RTree) : C RTree :=
  match x.kind E with
  | .bare | .bareDf => .ok x
  | _ => proxyInvoke E x

/-- The loop of `df_proxy_recurse`, src/proxy.c:48-50. -/
def proxyColumns (f : RTree → C RTree) : List RTree → C (List RTree)
  | [] => .ok []
  | x :: xs => do
    let y ← f x
    let ys ← proxyColumns f xs
    .ok (y :: ys)

/-- `df_proxy_recurse`, src/proxy.c:41-54, which is called for lists. -/
def dfProxyRec (f : RTree → C RTree) : RTree → C RTree
  | .atom _ _ => .error .ub
  | .list a i cols => do
    let cols ← proxyColumns f cols
    .ok (.list a i cols)

/-- `vec_proxy_2` with recursion, src/proxy.c:13-38; `fuel` bounds the depth. -/
def proxyRec (E : RecEnv) : Nat → RTree → C RTree
  | 0, _ => .error .diverge
  | fuel + 1, x =>
    match x.kind E with
    | .bare => .ok x
    | .bareDf => dfProxyRec (proxyRec E fuel) x
    | _ => do
      let p ← proxyInvoke E x
      if isDfTree E p then dfProxyRec (proxyRec E fuel) p else .ok p

/-- `vec_restore_default`, src/proxy-restore.c:63-157: nothing is restored if there are no attributes.  (Names and
row names stay; what it does in memory is in Model/Restore.) -/
def restoreTree (x dest : RTree) : RTree :=
  if dest.attrs = 0 then x
  else match x with
    | .atom _ d => .atom dest.attrs d
    | .list _ i cols => .list dest.attrs i cols

/-- The loop of src/proxy-restore.c:198-204. -/
def restoreColumns (f : RTree → RTree → C RTree) : List RTree → List RTree → C (List RTree)
  | [], _ => .ok []
  | _ :: _, [] => .error .ub
  | x :: xs, t :: ts => do
    let y ← f x t
    let ys ← restoreColumns f xs ts
    .ok (y :: ys)

/-- `vec_bare_df_restore`, src/proxy-restore.c:174-228, with the restoration of columns in it; none if `recurse`
is false.  Names and row names for lists without them (:208-224) are in Model/Restore. -/
def dfRestoreTree (E : RecEnv) (recurse : Bool) (f : RTree → RTree → C RTree) (x dest : RTree) : C RTree :=
  match x with
  | .atom _ _ => .error .internal
  | .list a i cols => do
    let dest ← (if isDfTree E dest then .ok dest else do
      let p ← proxyOnce E dest
      if isDfTree E p then .ok p else .error .internal : C RTree)
    match dest with
    | .atom _ _ => .error .ub
    | .list ta ti tcols =>
      if recurse then
        if cols.length ≠ tcols.length then .error .internal
        else do
          let cols ← restoreColumns f cols tcols
          .ok (restoreTree (.list a i cols) (.list ta ti tcols))
      else .ok (restoreTree (.list a i cols) (.list ta ti tcols))

/-- `vec_restore_4`, src/proxy-restore.c:26-53, and `vec_df_restore`, :162-172; `f` restores columns. -/
def restoreStep (E : RecEnv) (recurse : Bool) (f : RTree → RTree → C RTree) (x dest : RTree) : C RTree :=
  match dest.kind E with
  | .bare | .factor => .ok (restoreTree x dest)
  | .date => E.validate (restoreTree x dest)
  | .bareDf | .tibble => dfRestoreTree E recurse f x dest
  | .df => do
    let out ← dfRestoreTree E recurse f x dest
    E.restoreM out dest
  | .other =>
    if recurse && isDfTree E x then do
      let out ← dfRestoreTree E recurse f x dest
      E.restoreM out dest
    else E.restoreM x dest

/-- `vec_restore`, src/proxy-restore.c:12-14. -/
def restoreOnce (E : RecEnv) (x dest : RTree) : C RTree :=
  restoreStep E false (fun _ _ => .error .ub) x dest

/-- `vec_restore_recurse`, src/proxy-restore.c:15-17; `fuel` bounds the depth. -/
def restoreRec (E : RecEnv) : Nat → RTree → RTree → C RTree
  | 0, _, _ => .error .diverge
  | fuel + 1, x, dest => restoreStep E true (restoreRec E fuel) x dest

end Vctrs
