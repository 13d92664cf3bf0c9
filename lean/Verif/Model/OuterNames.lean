import Verif.Model.Rbind

/-!
# Pasting outer names: src/names.c, src/utils.c

Strings are lists of bytes without the final NUL; buffers hold bytes that may not have been written.
-/

namespace Vctrs

/-- The NUL byte. -/
def nul : Char := '\x00'

/-- The string at the start of a buffer, as `Rf_mkChar()` reads it. -/
def bufString : List (Option Char) → C (List Char)
  | [] => .error .ub
  | none :: _ => .error .ub
  | some c :: r => if c = nul then .ok [] else do
    let s ← bufString r
    .ok (c :: s)

/-- `r_chr_max_len`, src/utils.c:1129-1140; `strlen()` is converted to `int`. -/
def chrMaxLen (x : List Name) : C Nat :=
  forN x.length (fun i max => do
    let s ← rd x i
    let len ← chkNat (cString s).length
    .ok (if len > max then len else max)) 0

/-- `memcpy()` of a string to the offset `pos` and the loop over `sep`, src/names.c:661-665. -/
def copyTo (buf : List (Option Char)) (pos : Nat) (s : List Char) : C (List (Option Char)) :=
  forN s.length (fun i buf => do
    let c ← rd s i
    wr buf (pos + i) (some c)) buf

/-- A turn of the loop of `r_chr_paste_prefix`, src/names.c:669-677; `off` is the offset of `bufp`. -/
def pasteTurn (off : Nat) (i : Nat) (s : List (Option Char) × List Name) : C (List (Option Char) × List Name) := do
  let inner ← rd s.2 i
  let inner := cString inner
  let buf ← copyTo s.1 off inner
  let buf ← wr buf (off + inner.length) (some nul)
  let text ← bufString buf
  let names ← wr s.2 i (some text)
  .ok (buf, names)

/-- `r_chr_paste_prefix`, src/names.c:639-681.  `static` is `vctrs_paste_buffer` as earlier calls left it. -/
def chrPastePrefix (static : List (Option Char)) (names : List Name) (pre sep : List Char) : C (List Name) := do
  let outerLen ← chkNat pre.length
  let namesLen ← chrMaxLen names
  let sepLen ← chkNat sep.length
  let n ← chkNat (outerLen + namesLen)
  let n ← chkNat (n + sepLen)
  let total ← chkNat (n + 1)
  let buf := if total > 4096 then alloc Char total else static
  let buf ← wr buf (total - 1) (some nul)
  let buf ← copyTo buf 0 pre
  let buf ← copyTo buf outerLen sep
  let (_, names) ← forN names.length (pasteTurn (outerLen + sepLen)) (buf, names)
  .ok names

/-- `r_seq_chr`, src/names.c:691-698; `none` is `NULL`. -/
def seqChr (pre : List Char) (n : Nat) : C (Option (List Name)) := do
  let len ← chkNat (24 + pre.length + 1)
  chrIota n len pre

/-- `outer_names`, src/names.c:524-545; `outer` is `none` for `NULL`. -/
def outerNames (static : List (Option Char)) (names : Option (List Name)) (outer : Option Name) (n : Nat) :
    C (Option (List Name)) :=
  match outer with
  | none => .ok names
  | some none => .ok names
  | some (some []) => .ok names
  | some (some o) => do
    if ← isEmptyNames names then
      if n = 1 then .ok (some [some o])
      else seqChr o n
    else
      match names with
      | none => .error .internal
      | some names => do
        let names ← chrPastePrefix static names o ['.', '.']
        .ok (some names)

end Vctrs
