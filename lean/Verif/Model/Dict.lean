import Verif.Base

/-!
# The hash table of `src/dictionary.c`

Element comparison and hashing are function pointers in C (`p_equal_na_equal`,
`hash_fill`); here they are the fields of `PolyOps`.  Proxies, casts and encoding
normalisation are assumed done (dictionary.c:218-219 etc. call them first).
-/

namespace Vctrs

/-- The element operations a dictionary is created with: `d->p_equal_na_equal`
(dictionary.h:18, set in dictionary.c:76) and the per-element result of `hash_fill`
(dictionary.c:105, hash.c:243-280).  `hash_fill` treats element `i` of every column
independently of the other elements (hash.c:282-317, 366-383), hence a function of the
element. -/
structure PolyOps (α : Type _) where
  eq : α → α → Bool
  hash : α → BitVec 32

/-- `u32_safe_ceil2`, src/dictionary.c:12-32.  `x` is a `uint32_t` held in a `Nat`
below 2^32; only the final `x++` can wrap. -/
def u32SafeCeil2 (x : Nat) : C Nat :=
  let x := x + (if x = 0 then 1 else 0)
  let x := x - 1
  let x := x ||| (x >>> 1)
  let x := x ||| (x >>> 2)
  let x := x ||| (x >>> 4)
  let x := x ||| (x >>> 8)
  let x := x ||| (x >>> 16)
  let x := (x + 1) % 2 ^ 32
  if x = 0 then .error .internal else .ok x

/-- `dict_key_size`, src/dictionary.c:178-207.  `x_size / 0.50` is an exact double
computation for 32-bit sizes, so it is `2 * n`. -/
def dictKeySize (n : Nat) : C Nat := do
  if n > intMax then .error .internal
  else
    let load := 2 * n
    if load > 2 ^ 32 - 1 then .error .internal
    else
      let size := if load > 2147483647 then 2147483647 else load
      let size ← u32SafeCeil2 size
      let size := if size < 16 then 16 else size
      if n > size then .error .internal else .ok size

/-- `struct dictionary`, src/dictionary.h:15-27.  `key[i] = none` is `DICT_EMPTY`
(dictionary.h:7); `size` is the length of `key`. -/
structure Dict (α : Type _) where
  vec : List α
  hash : List Nat
  key : List (Option Nat)
  used : Nat

/-- `new_dictionary_opts`, src/dictionary.c:62-112.  `partial` dictionaries have no key
array (size 0). -/
def newDict {α : Type _} (ops : PolyOps α) (isPartial : Bool) (x : List α) : C (Dict α) := do
  let key ← if isPartial then .ok []
            else do
              let size ← dictKeySize x.length
              .ok (List.replicate size none)
  .ok { vec := x, hash := x.map (fun a => (ops.hash a).toNat), key := key, used := 0 }

/-- The slot tried at step `k`, src/dictionary.c:127:
`(hash + k * (k + 1) / 2) & (d->size - 1)` in `uint32_t` arithmetic. -/
def probe (hash k size : Nat) : Nat :=
  ((hash + ((k * ((k + 1) % 2 ^ 32)) % 2 ^ 32) / 2) % 2 ^ 32) &&& (size - 1)

/-- The loop of `dict_hash_with`, src/dictionary.c:126-150; `rem` iterations are left. -/
def probeLoop {α : Type _} (ops : PolyOps α) (d : Dict α) (y : α) (hash : Nat) :
    Nat → Nat → C Nat
  | 0, _ => .error .internal
  | rem + 1, k => do
    let p := probe hash k d.key.length
    if k > 1 ∧ p = hash then .error .internal
    else
      match ← rd d.key p with
      | none => .ok p
      | some idx => do
        let a ← rd d.vec idx
        if ops.eq a y then .ok p
        else probeLoop ops d y hash rem (k + 1)

/-- `dict_hash_with`, src/dictionary.c:118-151. -/
def dictHashWith {α : Type _} (ops : PolyOps α) (d x : Dict α) (i : Nat) : C Nat := do
  let hash ← rd x.hash i
  let y ← rd x.vec i
  probeLoop ops d y hash d.key.length 0

/-- `dict_hash_scalar`, src/dictionary.c:153-155. -/
def dictHashScalar {α : Type _} (ops : PolyOps α) (d : Dict α) (i : Nat) : C Nat :=
  dictHashWith ops d d i

/-- `dict_put`, src/dictionary.c:163-166. -/
def dictPut {α : Type _} (d : Dict α) (slot i : Nat) : C (Dict α) := do
  let key ← wr d.key slot (some i)
  .ok { d with key := key, used := d.used + 1 }

end Vctrs
