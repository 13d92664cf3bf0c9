import Verif.Model.Dictionary

/-!
# Names repair (src/names.c, src/utils.c)

A CHARSXP is `Option (List Char)`: `none` is `NA_STRING`, otherwise the bytes of the string,
one `Char` each.  Only one encoding is modelled, so that two strings are the same CHARSXP iff
their bytes are the same.  The messages emitted by `describe_repair()` are not modelled.
-/

namespace Vctrs

/-- A CHARSXP. -/
abbrev Name := Option (List Char)

/-- `strings_dots`, src/utils.c:1667. -/
def dots : List Char := ['.', '.', '.']

/-- `isspace` of the C locale, as used by `strtol`. -/
def isSpace (c : Char) : Bool :=
  c == ' ' || c == '\t' || c == '\n' || c == '\x0b' || c == '\x0c' || c == '\r'

/-- The digits at the start of a string as a number. -/
def leadingInt (s : List Char) : Nat := Nat.ofDigitChars 10 (s.takeWhile Char.isDigit) 0

/-- `strtol(s, NULL, 10)` from libc: white space, an optional sign, digits; out-of-range values
give `LONG_MAX` or `LONG_MIN`. -/
def strtol (s : List Char) : Int :=
  match s.dropWhile isSpace with
  | '-' :: t => max (-(leadingInt t : Int)) (-(2 ^ 63))
  | '+' :: t => min (leadingInt t : Int) (2 ^ 63 - 1)
  | t => min (leadingInt t : Int) (2 ^ 63 - 1)

/-- `is_dotdotint`, src/names.c:356-374. -/
def isDotDotInt (name : List Char) : Bool :=
  match name with
  | c0 :: c1 :: c2 :: t =>
    if c0 ≠ '.' || c1 ≠ '.' then false
    else if c2 = '.' then strtol t ≠ 0
    else strtol (c2 :: t) ≠ 0
  | _ => false

/-- The loop of `suffix_pos`, src/names.c:384-427.  The pointer walks from the last byte to the
first, so the argument holds the bytes still to be visited in reverse order; at `c :: r` the
pointer is at offset `r.length`.  `e` is `suffix_end - name`. -/
def suffixScan : List Char → Option Nat → Nat → Bool → C (Option Nat)
  | [], e, _, _ => .ok e
  | c :: r, e, inDots, true =>
    if c = '.' then suffixScan r e 1 false
    else if c.isDigit then suffixScan r e inDots true
    else .ok e
  | c :: r, e, 0, false => if c.isDigit then suffixScan r e 0 true else .ok e
  | c :: r, e, 1, false => if c = '.' then suffixScan r e 2 false else .ok e
  | c :: r, e, 2, false => if c = '.' then suffixScan r e 3 false else .ok e
  | c :: r, _, 3, false =>
    if c.isDigit then suffixScan r (some (r.length + 1)) 0 true else .ok (some (r.length + 1))
  | _ :: _, _, _ + 4, false => .error .internal

/-- `suffix_pos`, src/names.c:376-434; `none` is -1. -/
def suffixPos (name : List Char) : C (Option Nat) := suffixScan name.reverse none 0 false

/-- `needs_suffix`, src/names.c:440-446. -/
def needsSuffix (str : Name) : Bool :=
  match str with
  | none => true
  | some s => s = dots || s = [] || isDotDotInt s

/-- `r_str_c_string`: the bytes of a CHARSXP, `"NA"` for `NA_STRING`. -/
def cString : Name → List Char
  | none => ['N', 'A']
  | some s => s

/-- Comparison and hash of CHARSXPs, src/equal.h:97-99 and src/hash.c:86-88: both use the
address of the string in the global string cache.  `h` gives the hash. -/
def nameOps (h : Name → BitVec 32) : PolyOps Name := ⟨fun a b => decide (a = b), h⟩

/-- `is_unique_names`, src/names.c:244-263. -/
def isUniqueNames (h : Name → BitVec 32) (names : List Name) : C Bool := do
  if ← duplicatedAny (nameOps h) names then .ok false
  else forBrk names.length (fun i _ => do
    let s ← rd names i
    .ok (if needsSuffix s then .brk false else .next true)) true

/-- `any_has_suffix`, src/names.c:265-276. -/
def anyHasSuffix (names : List Name) : C Bool :=
  forBrk names.length (fun i _ => do
    let s ← rd names i
    let pos ← suffixPos (cString s)
    .ok (if pos.isSome then .brk true else .next false)) false

/-- The first loop of `as_unique_names_impl`, src/names.c:284-303. -/
def stripName (s : Name) : C Name :=
  if needsSuffix s then .ok (some [])
  else do
    match ← suffixPos (cString s) with
    | some pos => .ok (some ((cString s).take pos))
    | none => .ok s

/-- The buffer handling of `as_unique_names_impl`, src/names.c:317-334: append `...<i + 1>` with
`snprintf` into a buffer of `size + MAX_IOTA_SIZE` bytes. -/
def appendSuffix (s : Name) (i : Nat) : C Name := do
  let size := (cString s).length
  let bufSize ← chkNat (size + 28)
  let remaining := bufSize - size
  let k ← chkNat (i + 1)
  let text := dots ++ Nat.toDigits 10 k
  if text.length ≥ remaining then .error .abort
  else .ok (some (cString s ++ text))

/-- `as_unique_names_impl`, src/names.c:278-343. -/
def asUniqueNamesImpl (h : Name → BitVec 32) (names : List Name) : C (List Name) := do
  let newNames ← forN names.length (fun i (v : List Name) => do
    let s ← rd v i
    let s ← stripName s
    wr v i s) names
  let dups ← duplicatedDetect (nameOps h) newNames
  forN names.length (fun i (v : List Name) => do
    let s ← rd v i
    let d ← rd dups i
    if s ≠ some [] && !d then .ok v
    else do
      let s ← appendSuffix s i
      wr v i s) newNames

/-- `vec_as_unique_names`, src/names.c:235-241. -/
def vecAsUniqueNames (h : Name → BitVec 32) (names : List Name) : C (List Name) := do
  let u ← isUniqueNames h names
  if u then
    if ← anyHasSuffix names then asUniqueNamesImpl h names else .ok names
  else asUniqueNamesImpl h names

/-- `ffi_as_minimal_names`, src/names.c:187-215.  The scan for the first missing name and the
replacement of the remaining ones share the counter. -/
def asMinimalNames (names : List Name) : C (List Name) := do
  let i ← forBrk names.length (fun i _ => do
    let s ← rd names i
    .ok (if s = none then .brk i else .next (i + 1))) 0
  if i = names.length then .ok names
  else forFrom (fun i (v : List Name) => do
    let s ← rd names i
    if s = none then wr v i (some []) else .ok v) i (names.length - i) names

/-- An iteration of `r_chr_iota`, src/utils.c:1162-1171; the state `none` stands for the early
return of `NULL`. -/
def iotaStep (len : Nat) (pre : List Char) (i : Nat) :
    Option (List (Option Name)) → C (Ctl (Option (List (Option Name))))
  | none => .ok (.brk none)
  | some v => do
    let k ← chkNat (i + 1)
    let text := Nat.toDigits 10 k
    if text.length ≥ len - pre.length then .ok (.brk none)
    else do
      let v ← wr v i (some (some (pre ++ text)))
      .ok (.next (some v))

/-- `r_chr_iota`, src/utils.c:1150-1175; `none` is `NULL`. -/
def chrIota (n len : Nat) (pre : List Char) : C (Option (List Name)) := do
  if len - 1 < pre.length then .error .internal
  else do
    match ← forBrk n (iotaStep len pre) (some (alloc Name n)) with
    | none => .ok none
    | some v => do
      let v ← initd v
      .ok (some v)

/-- `names_iota`, src/names.c:482-491. -/
def namesIota (n : Nat) : C (List Name) := do
  match ← chrIota n 28 dots with
  | none => .error .abort
  | some v => .ok v

/-- `vec_unique_names_impl`, src/names.c:466-479; `none` are `NULL` names. -/
def vecUniqueNames (h : Name → BitVec 32) (names : Option (List Name)) (n : Nat) : C (List Name) :=
  match names with
  | none => namesIota n
  | some names => vecAsUniqueNames h names

/-- `vec_as_names`, src/names.c:10-24, for the repair strategies implemented in C. -/
inductive NameRepair where
  | none | minimal | unique

/-- `vec_as_names`, src/names.c:10-24; `"universal"`, `"check_unique"` and functions call back
into R and are left out. -/
def vecAsNames (h : Name → BitVec 32) (names : List Name) : NameRepair → C (List Name)
  | .none => .ok names
  | .minimal => asMinimalNames names
  | .unique => vecAsUniqueNames h names

end Vctrs
