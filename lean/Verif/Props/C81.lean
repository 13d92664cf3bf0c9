import Verif.Model.Typeof2S3

/-!
# C81: native dispatch on pairs of classes

The specification knows eighteen sides: the eleven base types and the seven groups of S3 classes.  A
pair of objects is identified by the unordered pair of their sides.
-/

namespace Vctrs.Spec

/-- What native dispatch can tell about one object. -/
inductive Side where
  | null | unspecified | logical | integer | double | complex | character | raw | list | dataframe
  | scalar | factor | ordered | date | posixct | posixlt | tibble | unknown
  deriving DecidableEq, Repr

/-- The side of an object: the class counts for S3 objects only. -/
def side (t : KType) (c : VClass) : Side :=
  match t, c with
  | .null, _ => .null
  | .unspecified, _ => .unspecified
  | .logical, _ => .logical
  | .integer, _ => .integer
  | .double, _ => .double
  | .complex, _ => .complex
  | .character, _ => .character
  | .raw, _ => .raw
  | .list, _ => .list
  | .dataframe, _ => .dataframe
  | .scalar, _ => .scalar
  | .s3, .bareFactor => .factor
  | .s3, .bareOrdered => .ordered
  | .s3, .bareDate => .date
  | .s3, .barePosixct => .posixct
  | .s3, .barePosixlt => .posixlt
  | .s3, .bareTibble => .tibble
  | .s3, _ => .unknown

/-- The order of the sides. -/
def Side.rank : Side → Nat
  | .null => 0 | .unspecified => 1 | .logical => 2 | .integer => 3 | .double => 4 | .complex => 5
  | .character => 6 | .raw => 7 | .list => 8 | .dataframe => 9 | .scalar => 10 | .factor => 11
  | .ordered => 12 | .date => 13 | .posixct => 14 | .posixlt => 15 | .tibble => 16 | .unknown => 17

/-- How a side is called. -/
def Side.name : Side → String
  | .null => "null" | .unspecified => "unspecified" | .logical => "logical"
  | .integer => "integer" | .double => "double" | .complex => "complex"
  | .character => "character" | .raw => "raw" | .list => "list" | .dataframe => "dataframe"
  | .scalar => "scalar" | .factor => "bare_factor" | .ordered => "bare_ordered"
  | .date => "bare_date" | .posixct => "bare_posixct" | .posixlt => "bare_posixlt"
  | .tibble => "bare_tibble" | .unknown => "unknown"

/-- The pairs of sides that have a common type, with that type. -/
def commonSides : List (Side × Side × Side) :=
  [(.character, .factor, .character), (.character, .ordered, .character),
   (.factor, .factor, .factor), (.ordered, .ordered, .ordered),
   (.date, .date, .date), (.date, .posixct, .posixct), (.date, .posixlt, .posixct),
   (.posixct, .posixct, .posixct), (.posixct, .posixlt, .posixct), (.posixlt, .posixlt, .posixct),
   (.dataframe, .tibble, .tibble), (.tibble, .tibble, .tibble)]

/-- `r` is the common type of `a` and `b`, in any order. -/
def IsCommon (a b r : Side) : Prop := (a, b, r) ∈ commonSides ∨ (b, a, r) ∈ commonSides

instance (a b r : Side) : Decidable (IsCommon a b r) := by unfold IsCommon; infer_instance

/-- The type a native function computes. -/
def ptypeSide : NativePtype2 → Side
  | .emptyChr => .character
  | .fctPtype2 => .factor
  | .ordPtype2 => .ordered
  | .emptyDate => .date
  | .dateDatetime | .datetimeDatetime => .posixct
  | .tibPtype2 => .tibble

/-- What a native cast is made for: inputs and output. -/
def castSides : NativeCast → List Side × Side
  | .chrAsFactor => ([.character], .factor)
  | .fctAsCharacter => ([.factor], .character)
  | .chrAsOrdered => ([.character], .ordered)
  | .ordAsCharacter => ([.ordered], .character)
  | .fctAsFactor => ([.factor], .factor)
  | .ordAsOrdered => ([.ordered], .ordered)
  | .dateAsPosixct => ([.date], .posixct)
  | .posixctAsDate => ([.posixct], .date)
  | .dateAsPosixlt => ([.date], .posixlt)
  | .posixltAsDate => ([.posixlt], .date)
  | .posixctAsPosixlt => ([.posixct], .posixlt)
  | .posixltAsPosixct => ([.posixlt], .posixct)
  | .dateAsDate => ([.date], .date)
  | .posixctAsPosixct => ([.posixct], .posixct)
  | .posixltAsPosixlt => ([.posixlt], .posixlt)
  | .tibCast => ([.dataframe, .tibble], .tibble)
  | .dfCast => ([.dataframe, .tibble], .dataframe)

end Vctrs.Spec

namespace Vctrs
open Spec

/-- All types. -/
def allKTypes : List KType :=
  [.null, .unspecified, .logical, .integer, .double, .complex, .character, .raw, .list, .dataframe,
   .scalar, .s3]

/-- All classes. -/
def allVClasses : List VClass :=
  [.list, .dataFrame, .bareAsis, .bareDataFrame, .bareTibble, .bareFactor, .bareOrdered, .bareDate,
   .barePosixct, .barePosixlt, .unknown, .noClass]

theorem mem_allKTypes (t : KType) : t ∈ allKTypes := by cases t <;> decide
theorem mem_allVClasses (c : VClass) : c ∈ allVClasses := by cases c <;> decide

/-- A decidable statement about two objects holds if it holds in the whole table. -/
theorem forall_table {P : KType → KType → VClass → VClass → Prop}
    (h : ∀ tx ∈ allKTypes, ∀ ty ∈ allKTypes, ∀ cx ∈ allVClasses, ∀ cy ∈ allVClasses, P tx ty cx cy) :
    ∀ tx ty cx cy, P tx ty cx cy :=
  fun tx ty cx cy =>
    h tx (mem_allKTypes tx) ty (mem_allKTypes ty) cx (mem_allVClasses cx) cy (mem_allVClasses cy)

/-- The pair of types is identified by the sides of the two objects, the one of lower rank first, and
`left` tells which one that is. -/
theorem C81_table : ∀ (tx ty : KType) (cx cy : VClass), tx = .s3 ∨ ty = .s3 →
    (typeof2S3Impl tx ty cx cy).1.asStr =
      (if (side tx cx).rank ≤ (side ty cy).rank then ((side tx cx).name, (side ty cy).name)
        else ((side ty cy).name, (side tx cx).name)) ∧
    (typeof2S3Impl tx ty cx cy).2 =
      (if side tx cx = side ty cy then -1
        else if (side tx cx).rank < (side ty cy).rank then 0 else 1) := by
  apply forall_table
  decide +kernel

example : typeof2S3Impl .s3 .character .bareFactor .noClass = (.characterBareFactor, 1) := rfl
example : side .s3 .bareFactor = .factor ∧ side .character .noClass = .character := ⟨rfl, rfl⟩

/-- Swapping the objects changes nothing but the direction. -/
theorem C81_sym : ∀ (tx ty : KType) (cx cy : VClass), tx = .s3 ∨ ty = .s3 →
    (typeof2S3Impl ty tx cy cx).1 = (typeof2S3Impl tx ty cx cy).1 ∧
    (typeof2S3Impl ty tx cy cx).2 =
      (if (typeof2S3Impl tx ty cx cy).2 = -1 then -1 else 1 - (typeof2S3Impl tx ty cx cy).2) := by
  apply forall_table
  decide +kernel

example : typeof2S3Impl .character .s3 .noClass .bareFactor = (.characterBareFactor, 0) := rfl

/-- A common type is found natively exactly for the pairs of the specification, and the function
called computes that type. -/
theorem C81_common : ∀ (tx ty : KType) (cx cy : VClass), tx = .s3 ∨ ty = .s3 → ∀ f,
    (ptype2Native tx ty cx cy).1 = some f → IsCommon (side tx cx) (side ty cy) (ptypeSide f) := by
  have h : ∀ (tx ty : KType) (cx cy : VClass), tx = .s3 ∨ ty = .s3 →
      ((ptype2Native tx ty cx cy).1.all
        fun f => decide (IsCommon (side tx cx) (side ty cy) (ptypeSide f))) = true := by
    apply forall_table
    decide +kernel
  intro tx ty cx cy hs f hf
  have := h tx ty cx cy hs
  rw [hf] at this
  simpa using this

example : (ptype2Native .s3 .s3 .barePosixlt .bareDate).1 = some .dateDatetime := rfl
example : IsCommon .posixlt .date .posixct := by decide

/-- Every common type of the specification is found natively. -/
theorem C81_common_complete : ∀ (tx ty : KType) (cx cy : VClass), tx = .s3 ∨ ty = .s3 → ∀ r,
    IsCommon (side tx cx) (side ty cy) r → ∃ f, (ptype2Native tx ty cx cy).1 = some f ∧ ptypeSide f = r := by
  have h : ∀ (tx ty : KType) (cx cy : VClass), tx = .s3 ∨ ty = .s3 →
      ((commonSides.filter fun e => decide ((side tx cx, side ty cy) = (e.1, e.2.1) ∨
          (side ty cy, side tx cx) = (e.1, e.2.1))).all
        fun e => (ptype2Native tx ty cx cy).1.map ptypeSide == some e.2.2) = true := by
    apply forall_table
    decide +kernel
  intro tx ty cx cy hs r hr
  have := h tx ty cx cy hs
  rw [List.all_eq_true] at this
  have key : ∀ e ∈ commonSides, ((side tx cx, side ty cy) = (e.1, e.2.1) ∨
      (side ty cy, side tx cx) = (e.1, e.2.1)) → (ptype2Native tx ty cx cy).1.map ptypeSide = some e.2.2 := by
    intro e he h'
    have := this e (List.mem_filter.2 ⟨he, by simpa using h'⟩)
    simpa using this
  rcases hr with hr | hr
  · obtain ⟨f, hf, e⟩ := Option.map_eq_some_iff.1 (key _ hr (Or.inl rfl))
    exact ⟨f, hf, e⟩
  · obtain ⟨f, hf, e⟩ := Option.map_eq_some_iff.1 (key _ hr (Or.inr rfl))
    exact ⟨f, hf, e⟩

example : IsCommon (side .s3 .bareTibble) (side .dataframe .bareDataFrame) .tibble := by decide

/-- A native cast takes an object like `x` and gives one like `to`. -/
theorem C81_cast : ∀ (tx tto : KType) (cx cto : VClass), tx = .s3 ∨ tto = .s3 → ∀ f,
    castNative tx tto cx cto = some f →
    side tx cx ∈ (castSides f).1 ∧ (castSides f).2 = side tto cto := by
  have h : ∀ (tx tto : KType) (cx cto : VClass), tx = .s3 ∨ tto = .s3 →
      ((castNative tx tto cx cto).all
        fun f => decide (side tx cx ∈ (castSides f).1 ∧ (castSides f).2 = side tto cto)) = true := by
    apply forall_table
    decide +kernel
  intro tx ty cx cy hs f hf
  have := h tx ty cx cy hs
  rw [hf] at this
  simpa using this

example : castNative .s3 .dataframe .bareTibble .bareDataFrame = some .dfCast := rfl

/-- Casts exist natively exactly where common types do. -/
theorem C81_cast_iff : ∀ (tx tto : KType) (cx cto : VClass), tx = .s3 ∨ tto = .s3 →
    ((castNative tx tto cx cto).isSome ↔ (ptype2Native tx tto cx cto).1.isSome) := by
  apply forall_table
  decide +kernel

example : (castNative .s3 .s3 .bareFactor .bareOrdered).isSome = false := rfl

/-- Once a common type is found natively, both objects can be cast to it natively. -/
theorem C81_complete : ∀ (tx ty : KType) (cx cy : VClass), tx = .s3 ∨ ty = .s3 → ∀ f,
    (ptype2Native tx ty cx cy).1 = some f →
    ∀ tr cr, side tr cr = ptypeSide f →
      castFound tx tr cx cr = true ∧ castFound ty tr cy cr = true := by
  have h : ∀ (tx ty : KType) (cx cy : VClass), tx = .s3 ∨ ty = .s3 →
      ((ptype2Native tx ty cx cy).1.all fun f => allKTypes.all fun tr => allVClasses.all fun cr =>
        side tr cr != ptypeSide f || (castFound tx tr cx cr && castFound ty tr cy cr)) = true := by
    apply forall_table
    decide +kernel
  intro tx ty cx cy hs f hf tr cr hr
  have := h tx ty cx cy hs
  rw [hf] at this
  have h1 := List.all_eq_true.1 (List.all_eq_true.1 this tr (mem_allKTypes tr)) cr (mem_allVClasses cr)
  simpa [hr] using h1

example : (ptype2Native .s3 .s3 .barePosixlt .barePosixlt).1 = some .datetimeDatetime := rfl
example : side .s3 .barePosixct = ptypeSide .datetimeDatetime := rfl

/-- The type that a conversion between base types starts from and the one it ends with. -/
def Spec.conversion : BaseCast → Option (KType × KType)
  | .lglAsInteger => some (.logical, .integer)
  | .lglAsDouble => some (.logical, .double)
  | .intAsLogical => some (.integer, .logical)
  | .intAsDouble => some (.integer, .double)
  | .dblAsLogical => some (.double, .logical)
  | .dblAsInteger => some (.double, .integer)
  | .self | .dfCast => none

/-- The numeric base types. -/
def Spec.numericTypes : List KType := [.logical, .integer, .double]

/-- All casts. -/
def allCasts : List BaseCast := [.self, .lglAsInteger, .intAsLogical, .lglAsDouble, .dblAsLogical, .intAsDouble, .dblAsInteger,
  .dfCast]

/-- **C81** (casts between base types): a conversion is chosen exactly for two numeric types, and it is the one from the type
of `x` to the type of `to`; the same base type needs none; two data frames are cast as such; there is nothing else. -/
theorem C81_base (tx tto : KType) (c : BaseCast) : castSwitch tx tto = some c ↔
    (conversion c = some (tx, tto)) ∨
    (c = .self ∧ tx = tto ∧ (tx ∈ numericTypes ∨ tx = .complex ∨ tx = .raw ∨ tx = .character ∨ tx = .list)) ∨
    (c = .dfCast ∧ tx = .dataframe ∧ tto = .dataframe) := by
  have h : ∀ tx ∈ allKTypes, ∀ tto ∈ allKTypes, ∀ c ∈ allCasts, castSwitch tx tto = some c ↔
    (conversion c = some (tx, tto)) ∨
    (c = .self ∧ tx = tto ∧ (tx ∈ numericTypes ∨ tx = .complex ∨ tx = .raw ∨ tx = .character ∨ tx = .list)) ∨
    (c = .dfCast ∧ tx = .dataframe ∧ tto = .dataframe) := by decide +kernel
  exact h tx (mem_allKTypes tx) tto (mem_allKTypes tto) c (by cases c <;> decide)

/-- **C81** (casts between base types): all pairs of numeric types have a conversion. -/
theorem C81_base_numeric {tx tto : KType} (hx : tx ∈ numericTypes) (ht : tto ∈ numericTypes) :
    ∃ c, castSwitch tx tto = some c := by
  cases tx <;> cases tto <;> first | exact ⟨_, rfl⟩ | (exact absurd hx (by decide)) | (exact absurd ht (by decide))

example : castSwitch .double .integer = some .dblAsInteger := rfl
example : (.integer : KType) ∈ numericTypes := by decide

/-- `left = 0` should mean that the common type is the one of `y` (src/ptype-common.c:106-110).  It
does not: for a character vector and a factor the common type is the one of `x`. -/
theorem C77_left_wrong : ¬ ∀ (tx ty : KType) (cx cy : VClass) (f : NativePtype2),
    ptype2Native tx ty cx cy = (some f, 0) → ptypeSide f = side ty cy := by
  intro h
  exact absurd (h .character .s3 .noClass .bareFactor .emptyChr rfl) (by decide)

/-- Apart from a factor that meets a character vector, and from `POSIXlt`, whose common type is
always `POSIXct`, `left = 0` does mean that. -/
theorem C77_left_partial : ∀ (tx ty : KType) (cx cy : VClass), tx = .s3 ∨ ty = .s3 → ∀ f,
    ptype2Native tx ty cx cy = (some f, 0) → tx ≠ .character → side ty cy ≠ .posixlt →
    ptypeSide f = side ty cy := by
  have h : ∀ (tx ty : KType) (cx cy : VClass), tx = .s3 ∨ ty = .s3 →
      ((ptype2Native tx ty cx cy).2 ≠ 0 ∨ tx = .character ∨ side ty cy = .posixlt ∨
        (ptype2Native tx ty cx cy).1.all (fun f => ptypeSide f == side ty cy) = true) := by
    apply forall_table
    decide +kernel
  intro tx ty cx cy hs f hf h1 h2
  have := h tx ty cx cy hs
  rw [hf] at this
  simpa [h1, h2] using this

example : ptype2Native .s3 .s3 .bareDate .barePosixct = (some .dateDatetime, 0) := rfl

end Vctrs
