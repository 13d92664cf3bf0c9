import Verif.Model.Names

/-!
# Tags of arguments in error messages: src/arg.c

A tag is a linked list of `struct vctrs_arg`, here the list of its nodes from the last one (`arg`)
to its outermost parent.  A byte is a `Char`; strings of R have no NUL inside.  `r_ssize` is wide
enough for sizes of objects in memory.
-/

namespace Vctrs

/-- What `r_lazy_eval` gives in `lazy_arg_fill`, src/arg.c:130-137: a string (`r_is_string`), `NULL`
or something else. -/
inductive LazyVal where
  | str (s : List Char)
  | null
  | other
  deriving DecidableEq

/-- The kinds of `struct vctrs_arg`: `new_wrapper_arg`, src/arg.c:101-108, `new_lazy_arg`, :118-124,
`new_subscript_arg`, :148-188, and `new_counter_arg`, :233-252, with what their data point to. -/
inductive ArgNode where
  | wrapper (s : List Char)
  | lazy (v : C LazyVal)
  | subscript (names : Option (List Name)) (n i : Nat)
  | counter (names : Option (List Name)) (i namesI : Nat)

/-- A buffer of bytes; `none` is uninitialised. -/
abbrev ByteBuf := List (Option Char)

/-- Copy bytes to `buf + pos`. -/
def writeBytes (buf : ByteBuf) (pos : Nat) (s : List Char) : C ByteBuf :=
  forN s.length (fun k buf => do
    let c ← rd s k
    wr buf (pos + k) (some c)) buf

/-- `snprintf(buf + pos, remaining, ...)` for the formatted text: at most `remaining - 1` bytes and a
NUL are written, the length of the whole text is returned, or a negative number if it is no `int`. -/
def snprintf (buf : ByteBuf) (pos : Nat) (remaining : Int) (text : List Char) : C (Int × ByteBuf) :=
  if remaining < 0 then .error .ub
  else if text.length > intMax then .ok (-1, buf)
  else if remaining = 0 then .ok ((text.length : Int), buf)
  else do
    let buf ← writeBytes buf pos (text.take (remaining.toNat - 1) ++ ['\x00'])
    .ok ((text.length : Int), buf)

/-- `str_arg_fill`, src/arg.c:82-94. -/
def strArgFill (data : List Char) (buf : ByteBuf) (pos : Nat) (remaining : Int) : C (Int × ByteBuf) :=
  let len := data.length
  if (len : Int) ≥ remaining then .ok (-1, buf)
  else do
    let buf ← writeBytes buf pos data
    let buf ← wr buf (pos + len) (some '\x00')
    .ok ((len : Int), buf)

/-- `r_has_name_at`, src/utils.c:1242-1254; `none` are `NULL` names. -/
def hasNameAt (names : Option (List Name)) (i : Nat) : C Bool :=
  match names with
  | none => .ok false
  | some l =>
    if l.length ≤ i then .error .internal
    else do
      let elt ← rd l i
      .ok (elt ≠ none && elt ≠ some [])

/-- `r_chr_get_c_string(names, i)`. -/
def nameBytes (names : Option (List Name)) (i : Nat) : C (List Char) :=
  match names with
  | none => .error .ub
  | some l => do
    let elt ← rd l i
    .ok (cString elt)

/-- The formats of `subscript_arg_fill`, src/arg.c:206-220, and `counter_arg_fill`, :262-278. -/
def positionText (child : Bool) (names : Option (List Name)) (i namesI : Nat) : C (List Char) := do
  if child then
    if ← hasNameAt names namesI then do
      let s ← nameBytes names namesI
      .ok (['$'] ++ s)
    else .ok (['[', '['] ++ Nat.toDigits 10 (i + 1) ++ [']', ']'])
  else
    if ← hasNameAt names namesI then nameBytes names namesI
    else .ok (['.', '.'] ++ Nat.toDigits 10 (i + 1))

/-- The end of `subscript_arg_fill`, src/arg.c:222-226, and `counter_arg_fill`, :280-284. -/
def checkLen (r : Int × ByteBuf) (remaining : Int) : C (Int × ByteBuf) :=
  if r.1 ≥ remaining then .ok (-1, r.2) else .ok r

/-- The call `arg->fill(arg->data, buf, remaining)`: `wrapper_arg_fill`, src/arg.c:110-113,
`lazy_arg_fill`, :126-143, `subscript_arg_fill`, :190-227, `counter_arg_fill`, :254-285.  The parent is asked whether
it is empty by `is_empty_arg`, :288-295. -/
def fillArg : List ArgNode → ByteBuf → Nat → Int → C (Int × ByteBuf)
  | [], _, _, _ => .error .ub
  | node :: parents, buf, pos, remaining =>
    match node with
    | .wrapper s => strArgFill s buf pos remaining
    | .lazy v => do
      match ← v with
      | .str s => strArgFill s buf pos remaining
      | .null => strArgFill [] buf pos remaining
      | .other => .error .abort
    | .subscript names n i =>
      if i ≥ n then .error .internal
      else do
        let child ← (if parents.isEmpty then .ok false else do
          let r ← fillArg parents (alloc Char 1) 0 1
          .ok (!decide (r.1 = 0)) : C Bool)
        let text ← positionText child names i i
        let r ← snprintf buf pos remaining text
        checkLen r remaining
    | .counter names i namesI => do
      let child ← (if parents.isEmpty then .ok false else do
        let r ← fillArg parents (alloc Char 1) 0 1
        .ok (!decide (r.1 = 0)) : C Bool)
      let text ← positionText child names i namesI
      let r ← snprintf buf pos remaining text
      checkLen r remaining

/-- `fill_arg_buffer`, src/arg.c:60-80; the sizes written are returned as `int`. -/
def fillArgBuffer : List ArgNode → ByteBuf → Int → Int → C (Int × ByteBuf)
  | [], _, _, _ => .error .ub
  | node :: parents, buf, cur, tot => do
    let r ← (if parents.isEmpty then .ok (cur, buf) else fillArgBuffer parents buf cur tot :
      C (Int × ByteBuf))
    if r.1 < 0 then .ok r
    else do
      let w ← fillArg (node :: parents) r.2 r.1.toNat (tot - r.1)
      if w.1 < 0 then .ok w
      else do
        let k ← chkInt (r.1 + w.1)
        .ok (k, w.2)

/-- `r_chr(buf)`: the string up to the first NUL. -/
def cBytes : ByteBuf → C (List Char)
  | [] => .error .ub
  | none :: _ => .error .ub
  | some c :: rest => if c = '\x00' then .ok [] else do
    let s ← cBytes rest
    .ok (c :: s)

/-- The loop of `vctrs_arg`, src/arg.c:27-37: the buffer grows by half until the tag fits;
`next_size *= 1.5` is exact for sizes of objects.  `fuel` bounds the number of rounds. -/
def vctrsArgLoop (arg : List ArgNode) : Nat → Nat → C (List Char)
  | 0, _ => .error .diverge
  | fuel + 1, size => do
    let r ← fillArgBuffer arg (alloc Char size) 0 size
    if r.1 < 0 then vctrsArgLoop arg fuel (size * 3 / 2)
    else cBytes r.2

/-- `vctrs_arg`, src/arg.c:16-43; `[]` is `NULL`. -/
def vctrsArg (fuel : Nat) (arg : List ArgNode) : C (List Char) :=
  if arg.isEmpty then .ok [] else vctrsArgLoop arg fuel 100

end Vctrs
