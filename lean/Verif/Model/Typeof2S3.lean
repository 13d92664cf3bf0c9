import Verif.Model.Kinds

/-!
# Native dispatch on pairs of classes: src/typeof2-s3.c, src/ptype2-dispatch.c, src/cast-dispatch.c

The tables of src/typeof2-s3.c are transcribed entry by entry.  Objects enter by their
`enum vctrs_type` (`KType`) and their `class_type()` (`VClass`), which are modelled in
`Verif.Model.Kinds`.
-/

namespace Vctrs

/-- `enum vctrs_type2_s3`, src/typeof2-s3.h:7-130. -/
inductive Type2S3 where
  | nullBareFactor | nullBareOrdered | nullBareDate | nullBarePosixct | nullBarePosixlt
  | nullBareTibble | nullUnknown | unspecifiedBareFactor | unspecifiedBareOrdered
  | unspecifiedBareDate | unspecifiedBarePosixct | unspecifiedBarePosixlt | unspecifiedBareTibble
  | unspecifiedUnknown | logicalBareFactor | logicalBareOrdered | logicalBareDate
  | logicalBarePosixct | logicalBarePosixlt | logicalBareTibble | logicalUnknown
  | integerBareFactor | integerBareOrdered | integerBareDate | integerBarePosixct
  | integerBarePosixlt | integerBareTibble | integerUnknown | doubleBareFactor
  | doubleBareOrdered | doubleBareDate | doubleBarePosixct | doubleBarePosixlt | doubleBareTibble
  | doubleUnknown | complexBareFactor | complexBareOrdered | complexBareDate | complexBarePosixct
  | complexBarePosixlt | complexBareTibble | complexUnknown | characterBareFactor
  | characterBareOrdered | characterBareDate | characterBarePosixct | characterBarePosixlt
  | characterBareTibble | characterUnknown | rawBareFactor | rawBareOrdered | rawBareDate
  | rawBarePosixct | rawBarePosixlt | rawBareTibble | rawUnknown | listBareFactor
  | listBareOrdered | listBareDate | listBarePosixct | listBarePosixlt | listBareTibble
  | listUnknown | dataframeBareFactor | dataframeBareOrdered | dataframeBareDate
  | dataframeBarePosixct | dataframeBarePosixlt | dataframeBareTibble | dataframeUnknown
  | scalarBareFactor | scalarBareOrdered | scalarBareDate | scalarBarePosixct | scalarBarePosixlt
  | scalarBareTibble | scalarUnknown | bareFactorBareFactor | bareFactorBareOrdered
  | bareFactorBareDate | bareFactorBarePosixct | bareFactorBarePosixlt | bareFactorBareTibble
  | bareFactorUnknown | bareOrderedBareOrdered | bareOrderedBareDate | bareOrderedBarePosixct
  | bareOrderedBarePosixlt | bareOrderedBareTibble | bareOrderedUnknown | bareDateBareDate
  | bareDateBarePosixct | bareDateBarePosixlt | bareDateBareTibble | bareDateUnknown
  | barePosixctBarePosixct | barePosixctBarePosixlt | barePosixctBareTibble | barePosixctUnknown
  | barePosixltBarePosixlt | barePosixltBareTibble | barePosixltUnknown | bareTibbleBareTibble
  | bareTibbleUnknown | unknownUnknown
  deriving DecidableEq, Repr

/-- `vec_typeof2_s3_impl2`, src/typeof2-s3.c:139-322: `x` is an S3 object of class `cx`.  The second
component is `*left`. -/
def typeof2S3Impl2 (cx : VClass) (ty : KType) (cy : VClass) : Type2S3 × Int :=
  match cx with
  | .bareFactor =>
    match ty with
    | .null => (.nullBareFactor, 1)
    | .unspecified => (.unspecifiedBareFactor, 1)
    | .logical => (.logicalBareFactor, 1)
    | .integer => (.integerBareFactor, 1)
    | .double => (.doubleBareFactor, 1)
    | .complex => (.complexBareFactor, 1)
    | .character => (.characterBareFactor, 1)
    | .raw => (.rawBareFactor, 1)
    | .list => (.listBareFactor, 1)
    | .dataframe => (.dataframeBareFactor, 1)
    | .scalar => (.scalarBareFactor, 1)
    | .s3 =>
      match cy with
      | .bareFactor => (.bareFactorBareFactor, -1)
      | .bareOrdered => (.bareFactorBareOrdered, 0)
      | .bareDate => (.bareFactorBareDate, 0)
      | .barePosixct => (.bareFactorBarePosixct, 0)
      | .barePosixlt => (.bareFactorBarePosixlt, 0)
      | .bareTibble => (.bareFactorBareTibble, 0)
      | _ => (.bareFactorUnknown, 0)
  | .bareOrdered =>
    match ty with
    | .null => (.nullBareOrdered, 1)
    | .unspecified => (.unspecifiedBareOrdered, 1)
    | .logical => (.logicalBareOrdered, 1)
    | .integer => (.integerBareOrdered, 1)
    | .double => (.doubleBareOrdered, 1)
    | .complex => (.complexBareOrdered, 1)
    | .character => (.characterBareOrdered, 1)
    | .raw => (.rawBareOrdered, 1)
    | .list => (.listBareOrdered, 1)
    | .dataframe => (.dataframeBareOrdered, 1)
    | .scalar => (.scalarBareOrdered, 1)
    | .s3 =>
      match cy with
      | .bareFactor => (.bareFactorBareOrdered, 1)
      | .bareOrdered => (.bareOrderedBareOrdered, -1)
      | .bareDate => (.bareOrderedBareDate, 0)
      | .barePosixct => (.bareOrderedBarePosixct, 0)
      | .barePosixlt => (.bareOrderedBarePosixlt, 0)
      | .bareTibble => (.bareOrderedBareTibble, 0)
      | _ => (.bareOrderedUnknown, 0)
  | .bareDate =>
    match ty with
    | .null => (.nullBareDate, 1)
    | .unspecified => (.unspecifiedBareDate, 1)
    | .logical => (.logicalBareDate, 1)
    | .integer => (.integerBareDate, 1)
    | .double => (.doubleBareDate, 1)
    | .complex => (.complexBareDate, 1)
    | .character => (.characterBareDate, 1)
    | .raw => (.rawBareDate, 1)
    | .list => (.listBareDate, 1)
    | .dataframe => (.dataframeBareDate, 1)
    | .scalar => (.scalarBareDate, 1)
    | .s3 =>
      match cy with
      | .bareFactor => (.bareFactorBareDate, 1)
      | .bareOrdered => (.bareOrderedBareDate, 1)
      | .bareDate => (.bareDateBareDate, -1)
      | .barePosixct => (.bareDateBarePosixct, 0)
      | .barePosixlt => (.bareDateBarePosixlt, 0)
      | .bareTibble => (.bareDateBareTibble, 0)
      | _ => (.bareDateUnknown, 0)
  | .barePosixct =>
    match ty with
    | .null => (.nullBarePosixct, 1)
    | .unspecified => (.unspecifiedBarePosixct, 1)
    | .logical => (.logicalBarePosixct, 1)
    | .integer => (.integerBarePosixct, 1)
    | .double => (.doubleBarePosixct, 1)
    | .complex => (.complexBarePosixct, 1)
    | .character => (.characterBarePosixct, 1)
    | .raw => (.rawBarePosixct, 1)
    | .list => (.listBarePosixct, 1)
    | .dataframe => (.dataframeBarePosixct, 1)
    | .scalar => (.scalarBarePosixct, 1)
    | .s3 =>
      match cy with
      | .bareFactor => (.bareFactorBarePosixct, 1)
      | .bareOrdered => (.bareOrderedBarePosixct, 1)
      | .bareDate => (.bareDateBarePosixct, 1)
      | .barePosixct => (.barePosixctBarePosixct, -1)
      | .barePosixlt => (.barePosixctBarePosixlt, 0)
      | .bareTibble => (.barePosixctBareTibble, 0)
      | _ => (.barePosixctUnknown, 0)
  | .barePosixlt =>
    match ty with
    | .null => (.nullBarePosixlt, 1)
    | .unspecified => (.unspecifiedBarePosixlt, 1)
    | .logical => (.logicalBarePosixlt, 1)
    | .integer => (.integerBarePosixlt, 1)
    | .double => (.doubleBarePosixlt, 1)
    | .complex => (.complexBarePosixlt, 1)
    | .character => (.characterBarePosixlt, 1)
    | .raw => (.rawBarePosixlt, 1)
    | .list => (.listBarePosixlt, 1)
    | .dataframe => (.dataframeBarePosixlt, 1)
    | .scalar => (.scalarBarePosixlt, 1)
    | .s3 =>
      match cy with
      | .bareFactor => (.bareFactorBarePosixlt, 1)
      | .bareOrdered => (.bareOrderedBarePosixlt, 1)
      | .bareDate => (.bareDateBarePosixlt, 1)
      | .barePosixct => (.barePosixctBarePosixlt, 1)
      | .barePosixlt => (.barePosixltBarePosixlt, -1)
      | .bareTibble => (.barePosixltBareTibble, 0)
      | _ => (.barePosixltUnknown, 0)
  | .bareTibble =>
    match ty with
    | .null => (.nullBareTibble, 1)
    | .unspecified => (.unspecifiedBareTibble, 1)
    | .logical => (.logicalBareTibble, 1)
    | .integer => (.integerBareTibble, 1)
    | .double => (.doubleBareTibble, 1)
    | .complex => (.complexBareTibble, 1)
    | .character => (.characterBareTibble, 1)
    | .raw => (.rawBareTibble, 1)
    | .list => (.listBareTibble, 1)
    | .dataframe => (.dataframeBareTibble, 1)
    | .scalar => (.scalarBareTibble, 1)
    | .s3 =>
      match cy with
      | .bareFactor => (.bareFactorBareTibble, 1)
      | .bareOrdered => (.bareOrderedBareTibble, 1)
      | .bareDate => (.bareDateBareTibble, 1)
      | .barePosixct => (.barePosixctBareTibble, 1)
      | .barePosixlt => (.barePosixltBareTibble, 1)
      | .bareTibble => (.bareTibbleBareTibble, -1)
      | _ => (.bareTibbleUnknown, 0)
  | _ =>
    match ty with
    | .null => (.nullUnknown, 1)
    | .unspecified => (.unspecifiedUnknown, 1)
    | .logical => (.logicalUnknown, 1)
    | .integer => (.integerUnknown, 1)
    | .double => (.doubleUnknown, 1)
    | .complex => (.complexUnknown, 1)
    | .character => (.characterUnknown, 1)
    | .raw => (.rawUnknown, 1)
    | .list => (.listUnknown, 1)
    | .dataframe => (.dataframeUnknown, 1)
    | .scalar => (.scalarUnknown, 1)
    | .s3 =>
      match cy with
      | .bareFactor => (.bareFactorUnknown, 1)
      | .bareOrdered => (.bareOrderedUnknown, 1)
      | .bareDate => (.bareDateUnknown, 1)
      | .barePosixct => (.barePosixctUnknown, 1)
      | .barePosixlt => (.barePosixltUnknown, 1)
      | .bareTibble => (.bareTibbleUnknown, 1)
      | _ => (.unknownUnknown, -1)

/-- `vec_typeof2_s3_impl`, src/typeof2-s3.c:4-136: the type and the class of both objects. -/
def typeof2S3Impl (tx ty : KType) (cx cy : VClass) : Type2S3 × Int :=
  match tx with
  | .null =>
    match cy with
    | .bareFactor => (.nullBareFactor, 0)
    | .bareOrdered => (.nullBareOrdered, 0)
    | .bareDate => (.nullBareDate, 0)
    | .barePosixct => (.nullBarePosixct, 0)
    | .barePosixlt => (.nullBarePosixlt, 0)
    | .bareTibble => (.nullBareTibble, 0)
    | _ => (.nullUnknown, 0)
  | .unspecified =>
    match cy with
    | .bareFactor => (.unspecifiedBareFactor, 0)
    | .bareOrdered => (.unspecifiedBareOrdered, 0)
    | .bareDate => (.unspecifiedBareDate, 0)
    | .barePosixct => (.unspecifiedBarePosixct, 0)
    | .barePosixlt => (.unspecifiedBarePosixlt, 0)
    | .bareTibble => (.unspecifiedBareTibble, 0)
    | _ => (.unspecifiedUnknown, 0)
  | .logical =>
    match cy with
    | .bareFactor => (.logicalBareFactor, 0)
    | .bareOrdered => (.logicalBareOrdered, 0)
    | .bareDate => (.logicalBareDate, 0)
    | .barePosixct => (.logicalBarePosixct, 0)
    | .barePosixlt => (.logicalBarePosixlt, 0)
    | .bareTibble => (.logicalBareTibble, 0)
    | _ => (.logicalUnknown, 0)
  | .integer =>
    match cy with
    | .bareFactor => (.integerBareFactor, 0)
    | .bareOrdered => (.integerBareOrdered, 0)
    | .bareDate => (.integerBareDate, 0)
    | .barePosixct => (.integerBarePosixct, 0)
    | .barePosixlt => (.integerBarePosixlt, 0)
    | .bareTibble => (.integerBareTibble, 0)
    | _ => (.integerUnknown, 0)
  | .double =>
    match cy with
    | .bareFactor => (.doubleBareFactor, 0)
    | .bareOrdered => (.doubleBareOrdered, 0)
    | .bareDate => (.doubleBareDate, 0)
    | .barePosixct => (.doubleBarePosixct, 0)
    | .barePosixlt => (.doubleBarePosixlt, 0)
    | .bareTibble => (.doubleBareTibble, 0)
    | _ => (.doubleUnknown, 0)
  | .complex =>
    match cy with
    | .bareFactor => (.complexBareFactor, 0)
    | .bareOrdered => (.complexBareOrdered, 0)
    | .bareDate => (.complexBareDate, 0)
    | .barePosixct => (.complexBarePosixct, 0)
    | .barePosixlt => (.complexBarePosixlt, 0)
    | .bareTibble => (.complexBareTibble, 0)
    | _ => (.complexUnknown, 0)
  | .character =>
    match cy with
    | .bareFactor => (.characterBareFactor, 0)
    | .bareOrdered => (.characterBareOrdered, 0)
    | .bareDate => (.characterBareDate, 0)
    | .barePosixct => (.characterBarePosixct, 0)
    | .barePosixlt => (.characterBarePosixlt, 0)
    | .bareTibble => (.characterBareTibble, 0)
    | _ => (.characterUnknown, 0)
  | .raw =>
    match cy with
    | .bareFactor => (.rawBareFactor, 0)
    | .bareOrdered => (.rawBareOrdered, 0)
    | .bareDate => (.rawBareDate, 0)
    | .barePosixct => (.rawBarePosixct, 0)
    | .barePosixlt => (.rawBarePosixlt, 0)
    | .bareTibble => (.rawBareTibble, 0)
    | _ => (.rawUnknown, 0)
  | .list =>
    match cy with
    | .bareFactor => (.listBareFactor, 0)
    | .bareOrdered => (.listBareOrdered, 0)
    | .bareDate => (.listBareDate, 0)
    | .barePosixct => (.listBarePosixct, 0)
    | .barePosixlt => (.listBarePosixlt, 0)
    | .bareTibble => (.listBareTibble, 0)
    | _ => (.listUnknown, 0)
  | .dataframe =>
    match cy with
    | .bareFactor => (.dataframeBareFactor, 0)
    | .bareOrdered => (.dataframeBareOrdered, 0)
    | .bareDate => (.dataframeBareDate, 0)
    | .barePosixct => (.dataframeBarePosixct, 0)
    | .barePosixlt => (.dataframeBarePosixlt, 0)
    | .bareTibble => (.dataframeBareTibble, 0)
    | _ => (.dataframeUnknown, 0)
  | .scalar =>
    match cy with
    | .bareFactor => (.scalarBareFactor, 0)
    | .bareOrdered => (.scalarBareOrdered, 0)
    | .bareDate => (.scalarBareDate, 0)
    | .barePosixct => (.scalarBarePosixct, 0)
    | .barePosixlt => (.scalarBarePosixlt, 0)
    | .bareTibble => (.scalarBareTibble, 0)
    | _ => (.scalarUnknown, 0)
  | .s3 => typeof2S3Impl2 cx ty cy

/-- `vctrs_type2_s3_as_str`, src/typeof2-s3.c:331-458.  The prefix `VCTRS_TYPE2_S3_`, which is
common to all strings, and the underscore between the two halves are left out. -/
def Type2S3.asStr : Type2S3 → String × String
  | .nullBareFactor => ("null", "bare_factor")
  | .nullBareOrdered => ("null", "bare_ordered")
  | .nullBareDate => ("null", "bare_date")
  | .nullBarePosixct => ("null", "bare_posixct")
  | .nullBarePosixlt => ("null", "bare_posixlt")
  | .nullBareTibble => ("null", "bare_tibble")
  | .nullUnknown => ("null", "unknown")
  | .unspecifiedBareFactor => ("unspecified", "bare_factor")
  | .unspecifiedBareOrdered => ("unspecified", "bare_ordered")
  | .unspecifiedBareDate => ("unspecified", "bare_date")
  | .unspecifiedBarePosixct => ("unspecified", "bare_posixct")
  | .unspecifiedBarePosixlt => ("unspecified", "bare_posixlt")
  | .unspecifiedBareTibble => ("unspecified", "bare_tibble")
  | .unspecifiedUnknown => ("unspecified", "unknown")
  | .logicalBareFactor => ("logical", "bare_factor")
  | .logicalBareOrdered => ("logical", "bare_ordered")
  | .logicalBareDate => ("logical", "bare_date")
  | .logicalBarePosixct => ("logical", "bare_posixct")
  | .logicalBarePosixlt => ("logical", "bare_posixlt")
  | .logicalBareTibble => ("logical", "bare_tibble")
  | .logicalUnknown => ("logical", "unknown")
  | .integerBareFactor => ("integer", "bare_factor")
  | .integerBareOrdered => ("integer", "bare_ordered")
  | .integerBareDate => ("integer", "bare_date")
  | .integerBarePosixct => ("integer", "bare_posixct")
  | .integerBarePosixlt => ("integer", "bare_posixlt")
  | .integerBareTibble => ("integer", "bare_tibble")
  | .integerUnknown => ("integer", "unknown")
  | .doubleBareFactor => ("double", "bare_factor")
  | .doubleBareOrdered => ("double", "bare_ordered")
  | .doubleBareDate => ("double", "bare_date")
  | .doubleBarePosixct => ("double", "bare_posixct")
  | .doubleBarePosixlt => ("double", "bare_posixlt")
  | .doubleBareTibble => ("double", "bare_tibble")
  | .doubleUnknown => ("double", "unknown")
  | .complexBareFactor => ("complex", "bare_factor")
  | .complexBareOrdered => ("complex", "bare_ordered")
  | .complexBareDate => ("complex", "bare_date")
  | .complexBarePosixct => ("complex", "bare_posixct")
  | .complexBarePosixlt => ("complex", "bare_posixlt")
  | .complexBareTibble => ("complex", "bare_tibble")
  | .complexUnknown => ("complex", "unknown")
  | .characterBareFactor => ("character", "bare_factor")
  | .characterBareOrdered => ("character", "bare_ordered")
  | .characterBareDate => ("character", "bare_date")
  | .characterBarePosixct => ("character", "bare_posixct")
  | .characterBarePosixlt => ("character", "bare_posixlt")
  | .characterBareTibble => ("character", "bare_tibble")
  | .characterUnknown => ("character", "unknown")
  | .rawBareFactor => ("raw", "bare_factor")
  | .rawBareOrdered => ("raw", "bare_ordered")
  | .rawBareDate => ("raw", "bare_date")
  | .rawBarePosixct => ("raw", "bare_posixct")
  | .rawBarePosixlt => ("raw", "bare_posixlt")
  | .rawBareTibble => ("raw", "bare_tibble")
  | .rawUnknown => ("raw", "unknown")
  | .listBareFactor => ("list", "bare_factor")
  | .listBareOrdered => ("list", "bare_ordered")
  | .listBareDate => ("list", "bare_date")
  | .listBarePosixct => ("list", "bare_posixct")
  | .listBarePosixlt => ("list", "bare_posixlt")
  | .listBareTibble => ("list", "bare_tibble")
  | .listUnknown => ("list", "unknown")
  | .dataframeBareFactor => ("dataframe", "bare_factor")
  | .dataframeBareOrdered => ("dataframe", "bare_ordered")
  | .dataframeBareDate => ("dataframe", "bare_date")
  | .dataframeBarePosixct => ("dataframe", "bare_posixct")
  | .dataframeBarePosixlt => ("dataframe", "bare_posixlt")
  | .dataframeBareTibble => ("dataframe", "bare_tibble")
  | .dataframeUnknown => ("dataframe", "unknown")
  | .scalarBareFactor => ("scalar", "bare_factor")
  | .scalarBareOrdered => ("scalar", "bare_ordered")
  | .scalarBareDate => ("scalar", "bare_date")
  | .scalarBarePosixct => ("scalar", "bare_posixct")
  | .scalarBarePosixlt => ("scalar", "bare_posixlt")
  | .scalarBareTibble => ("scalar", "bare_tibble")
  | .scalarUnknown => ("scalar", "unknown")
  | .bareFactorBareFactor => ("bare_factor", "bare_factor")
  | .bareFactorBareOrdered => ("bare_factor", "bare_ordered")
  | .bareFactorBareDate => ("bare_factor", "bare_date")
  | .bareFactorBarePosixct => ("bare_factor", "bare_posixct")
  | .bareFactorBarePosixlt => ("bare_factor", "bare_posixlt")
  | .bareFactorBareTibble => ("bare_factor", "bare_tibble")
  | .bareFactorUnknown => ("bare_factor", "unknown")
  | .bareOrderedBareOrdered => ("bare_ordered", "bare_ordered")
  | .bareOrderedBareDate => ("bare_ordered", "bare_date")
  | .bareOrderedBarePosixct => ("bare_ordered", "bare_posixct")
  | .bareOrderedBarePosixlt => ("bare_ordered", "bare_posixlt")
  | .bareOrderedBareTibble => ("bare_ordered", "bare_tibble")
  | .bareOrderedUnknown => ("bare_ordered", "unknown")
  | .bareDateBareDate => ("bare_date", "bare_date")
  | .bareDateBarePosixct => ("bare_date", "bare_posixct")
  | .bareDateBarePosixlt => ("bare_date", "bare_posixlt")
  | .bareDateBareTibble => ("bare_date", "bare_tibble")
  | .bareDateUnknown => ("bare_date", "unknown")
  | .barePosixctBarePosixct => ("bare_posixct", "bare_posixct")
  | .barePosixctBarePosixlt => ("bare_posixct", "bare_posixlt")
  | .barePosixctBareTibble => ("bare_posixct", "bare_tibble")
  | .barePosixctUnknown => ("bare_posixct", "unknown")
  | .barePosixltBarePosixlt => ("bare_posixlt", "bare_posixlt")
  | .barePosixltBareTibble => ("bare_posixlt", "bare_tibble")
  | .barePosixltUnknown => ("bare_posixlt", "unknown")
  | .bareTibbleBareTibble => ("bare_tibble", "bare_tibble")
  | .bareTibbleUnknown => ("bare_tibble", "unknown")
  | .unknownUnknown => ("unknown", "unknown")

/-- The functions `vec_ptype2_dispatch_native` may call, src/ptype2-dispatch.c:16-40.  `emptyChr` and
`emptyDate` stand for returning `r_globals.empty_chr` and `vctrs_shared_empty_date`. -/
inductive NativePtype2 where
  | emptyChr | fctPtype2 | ordPtype2 | emptyDate | dateDatetime | datetimeDatetime | tibPtype2
  deriving DecidableEq, Repr

/-- `vec_ptype2_dispatch_native`, src/ptype2-dispatch.c:7-44: the function that computes the common
type, `none` for `r_null`. -/
def ptype2Native (tx ty : KType) (cx cy : VClass) : Option NativePtype2 × Int :=
  let (t, left) := typeof2S3Impl tx ty cx cy
  let f : Option NativePtype2 :=
    match t with
    | .characterBareFactor | .characterBareOrdered => some .emptyChr
    | .bareFactorBareFactor => some .fctPtype2
    | .bareOrderedBareOrdered => some .ordPtype2
    | .bareDateBareDate => some .emptyDate
    | .bareDateBarePosixct | .bareDateBarePosixlt => some .dateDatetime
    | .barePosixctBarePosixct | .barePosixctBarePosixlt | .barePosixltBarePosixlt =>
      some .datetimeDatetime
    | .dataframeBareTibble | .bareTibbleBareTibble => some .tibPtype2
    | _ => none
  (f, left)

/-- The functions `vec_cast_dispatch_native` may call, src/cast-dispatch.c:20-78. -/
inductive NativeCast where
  | chrAsFactor | fctAsCharacter | chrAsOrdered | ordAsCharacter | fctAsFactor | ordAsOrdered
  | dateAsPosixct | posixctAsDate | dateAsPosixlt | posixltAsDate | posixctAsPosixlt
  | posixltAsPosixct | dateAsDate | posixctAsPosixct | posixltAsPosixlt | tibCast | dfCast
  deriving DecidableEq, Repr

/-- `vec_cast_dispatch_native`, src/cast-dispatch.c:6-83: the function that does the cast, `none` for
`r_null`. -/
def castNative (tx tto : KType) (cx cto : VClass) : Option NativeCast :=
  let (t, dir) := typeof2S3Impl tx tto cx cto
  match t with
  | .characterBareFactor => if dir = 0 then some .chrAsFactor else some .fctAsCharacter
  | .characterBareOrdered => if dir = 0 then some .chrAsOrdered else some .ordAsCharacter
  | .bareFactorBareFactor => some .fctAsFactor
  | .bareOrderedBareOrdered => some .ordAsOrdered
  | .bareDateBarePosixct => if dir = 0 then some .dateAsPosixct else some .posixctAsDate
  | .bareDateBarePosixlt => if dir = 0 then some .dateAsPosixlt else some .posixltAsDate
  | .barePosixctBarePosixlt => if dir = 0 then some .posixctAsPosixlt else some .posixltAsPosixct
  | .bareDateBareDate => some .dateAsDate
  | .barePosixctBarePosixct => some .posixctAsPosixct
  | .barePosixltBarePosixlt => some .posixltAsPosixlt
  | .dataframeBareTibble => if dir = 0 then some .tibCast else some .dfCast
  | .bareTibbleBareTibble => some .tibCast
  | _ => none

/-- The functions `vec_cast_switch_native` may call on base types, src/cast.c:83-124; `self` stands
for returning `x`. -/
inductive BaseCast where
  | self | lglAsInteger | intAsLogical | lglAsDouble | dblAsLogical | intAsDouble | dblAsInteger
  | dfCast
  deriving DecidableEq, Repr

/-- `vec_cast_switch_native`, src/cast.c:72-127, by the types of `x` and `to`; the order of the types
is the one of `vec_typeof2_impl` (`vecTypeof2` in `Verif.Model.Ptype`). -/
def castSwitch (tx tto : KType) : Option BaseCast :=
  match tx, tto with
  | .logical, .logical | .integer, .integer | .double, .double | .complex, .complex
  | .raw, .raw | .character, .character | .list, .list => some .self
  | .logical, .integer => some .lglAsInteger
  | .integer, .logical => some .intAsLogical
  | .logical, .double => some .lglAsDouble
  | .double, .logical => some .dblAsLogical
  | .integer, .double => some .intAsDouble
  | .double, .integer => some .dblAsInteger
  | .dataframe, .dataframe => some .dfCast
  | _, _ => none

/-- The choice in `vec_cast_opts`, src/cast.c:54-58: whether a native cast exists for the types. -/
def castFound (tx tto : KType) (cx cto : VClass) : Bool :=
  if tto = .s3 ∨ tx = .s3 then (castNative tx tto cx cto).isSome else (castSwitch tx tto).isSome

end Vctrs
