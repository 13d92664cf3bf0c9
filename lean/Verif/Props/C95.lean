import Verif.Model.AsDfRow
import Verif.SpecRepair
import Verif.Props.C74
import Verif.Props.C84
import Verif.Props.C93

/-!
# C95: a vector given to `vec_rbind()` is one row, and its names are the names of columns
-/

namespace Vctrs.Spec

variable {α β : Type}

/-- The names of the elements of a vector: those of the first dimension if it has dimensions. -/
def elementNames (x : AObj α β) : Option (List Name) :=
  match x.dim with
  | none => x.names.map (·.elts)
  | some _ => rowNamesOf x

/-- The names that are repaired: empty ones if the vector has none. -/
def NamesToRepair (n : Nat) (x : AObj α β) (nms : List Name) : Prop :=
  elementNames x = some nms ∨ elementNames x = none ∧ nms = List.replicate n (some [])

/-- A vector of `n` elements without a class, either without dimensions or with one. -/
structure IsVector (n : Nat) (x : AObj α β) : Prop where
  size : x.data.length = n
  noClass : x.isObject = false
  noRow : x.rowNames = none
  named : ∀ nms, elementNames x = some nms → nms.length = n
  shape : x.dim = none ∧ x.dimNames = none ∨ x.dim = some [n] ∧ x.names = none ∧
    ∀ dn, x.dimNames = some dn → dn.length = 1

/-- `b` are the names `a` repaired as `.name_repair` says; `univ` is as_universal_names(). -/
inductive BindRepaired (univ : Bool → RepFn) : RepairOpts → List Name → List Name → Prop
  | unique {q : Bool} {a b : List Name} : UniqueRepair a b → BindRepaired univ ⟨.unique, q⟩ a b
  | check {q : Bool} {a : List Name} : UniqueNames a → BindRepaired univ ⟨.checkUnique, q⟩ a a
  | universal {q : Bool} {a b : List Name} : univ q a = .ok (.chr b) → BindRepaired univ ⟨.universal, q⟩ a b
  | custom {q : Bool} {f : RepFn} {a m b : List Name} : Minimal a m → f m = .ok (.chr b) → b.length = a.length → none ∉ b →
      BindRepaired univ ⟨.custom f, q⟩ a b

/-- The strategies of `.name_repair` that `vec_rbind()` takes. -/
def RbindStrategy : RepairType → Prop
  | .unique => True
  | .checkUnique => True
  | .universal => True
  | .custom _ => True
  | _ => False

/-- as_universal_names() gives as many names as it is given. -/
def KeepsLength (univ : Bool → RepFn) : Prop :=
  ∀ q a r, univ q a = .ok r → ∃ b, r = .chr b ∧ b.length = a.length

/-- Names that are not too long for the buffers of `as_unique_names()`. -/
def ShortStrings (a : List Name) : Prop := ∀ s, some s ∈ a → s.length ≤ 2147483619

/-- The row of a vector: column `j` is element `j` alone, without names or dimensions, and with the other attributes. -/
structure RowOf (x : AObj α β) (cols : List (AObj α β)) : Prop where
  size : cols.length = x.data.length
  cell : ∀ (j : Nat) v, x.data[j]? = some v → cols[j]? = some ⟨[v], none, none, none, none, false, x.rest⟩

end Vctrs.Spec

namespace Vctrs
open Spec

variable {α β : Type}

/-! ## Names -/

theorem baseOf_short {a : List Name} (h : ShortStrings a) : ∀ n ∈ a, (baseOf n).length ≤ 2147483619 := by
  exact fun n hn => baseOf_length n _ (fun s hs => h s (hs ▸ hn))

theorem minimal_unique {a m m' : List Name} (h : Minimal a m) (h' : Minimal a m') : m = m' := by
  refine List.ext_getElem? fun i => ?_
  cases hi : a[i]? with
  | none =>
    have := h.1
    have := h'.1
    rw [List.getElem?_eq_none_iff] at hi
    rw [List.getElem?_eq_none (by omega), List.getElem?_eq_none (by omega)]
  | some v =>
    cases v with
    | none => rw [h.2.2 i hi, h'.2.2 i hi]
    | some s => rw [h.2.1 i s hi, h'.2.1 i s hi]

theorem bindRepaired_length {univ : Bool → RepFn} (hu : KeepsLength univ) {opts : RepairOpts} {a b : List Name}
    (h : BindRepaired univ opts a b) : b.length = a.length := by
  cases h with
  | unique h => exact h.size
  | check _ => rfl
  | universal h =>
    obtain ⟨b', h1, h2⟩ := hu _ _ _ h
    injection h1 with h1
    rw [h1, h2]
  | custom _ _ h _ => exact h

/-- Repair of names as `vec_rbind()` asks for it. -/
theorem repair_bind (h : Name → BitVec 32) {univ : Bool → RepFn} (hu : KeepsLength univ) {opts : RepairOpts}
    (ho : RbindStrategy opts.type) {a : List Name} (hn : a.length ≤ 2147483647) (hs : ShortStrings a) :
    (∀ b, BindRepaired univ opts a b → vecAsNamesOpts h univ a opts = .ok (.chr b)) ∧
    ((¬ ∃ b, BindRepaired univ opts a b) → ∃ e, vecAsNamesOpts h univ a opts = .error e) := by
  obtain ⟨t, q⟩ := opts
  cases t with
  | none => exact absurd ho id
  | minimal => exact absurd ho id
  | unique =>
    obtain ⟨out, h1, h2⟩ := vecAsUniqueNames_ok h a hn (baseOf_short hs)
    have h3 : vecAsNamesOpts h univ a ⟨.unique, q⟩ = .ok (.chr out) := by
      unfold vecAsNamesOpts
      dsimp only
      rw [h1]
      rfl
    refine ⟨fun b hb => ?_, fun hno => absurd ⟨out, .unique h2⟩ hno⟩
    cases hb with
    | unique hb => rw [h3, h2.unique hb]
  | universal =>
    refine ⟨fun b hb => ?_, fun hno => ?_⟩
    · cases hb with
      | universal hb => exact hb
    · cases hc : univ q a with
      | error e => exact ⟨e, hc⟩
      | ok r =>
        obtain ⟨b, rfl, -⟩ := hu _ _ _ hc
        exact absurd ⟨b, .universal hc⟩ hno
  | checkUnique =>
    obtain ⟨h1, h2⟩ := C74_check_unique h univ a q
    refine ⟨fun b hb => ?_, fun hno => ⟨_, h2 fun hc => hno ⟨a, .check hc⟩⟩⟩
    cases hb with
    | check hb => exact h1 hb
  | custom f =>
    obtain ⟨m, hm, h1, h2, h3⟩ := C74_custom h univ a f q
    refine ⟨fun b hb => ?_, fun hno => ?_⟩
    · cases hb with
      | custom k1 k2 k3 k4 =>
        rw [minimal_unique k1 hm] at k2
        exact (h1 _).2 ⟨k2, b, rfl, k3, k4⟩
    · cases hf : f m with
      | error e => exact ⟨e, h2 e hf⟩
      | ok r =>
        refine ⟨_, h3 r hf ?_⟩
        rintro ⟨l, rfl, k3, k4⟩
        exact hno ⟨l, .custom hm hf k3 k4⟩

theorem pokeColNames_ok {n : Nat} {l : List Name} (h : l.length = n) : pokeColNames n (.chr l) = .ok l := by
  unfold pokeColNames
  dsimp only
  rw [if_neg (by omega), h, Nat.sub_self]
  simp

/-! ## Vectors -/

theorem isVector_size {n : Nat} {x : AObj α β} (hx : IsVector n x) : x.size = .ok n := by
  unfold AObj.size
  rw [hx.noRow]
  rcases hx.shape with ⟨h, -⟩ | ⟨h, -⟩
  · rw [h]
    exact congrArg _ hx.size
  · rw [h]

theorem vecNames2_ok (ms : NameMethods α β) {n : Nat} {x : AObj α β} (hx : IsVector n x) {nms : List Name}
    (hn : NamesToRepair n x nms) : vecNames2 ms x = .ok nms := by
  have key : ∃ o, namesImpl ms x false = .ok o ∧ o.map (·.elts) = elementNames x := by
    unfold namesImpl elementNames
    rw [hx.noRow]
    dsimp only
    rcases hx.shape with ⟨h, -⟩ | ⟨h, -, h3⟩
    · rw [h, hx.noClass]
      exact ⟨_, rfl, rfl⟩
    · rw [h]
      unfold rowNamesOf
      dsimp only
      cases hd : x.dimNames with
      | none => exact ⟨_, rfl, rfl⟩
      | some dn =>
        have := h3 dn hd
        match dn, this with
        | [r], _ =>
          refine ⟨r, rfl, ?_⟩
          cases r <;> rfl
  obtain ⟨o, h1, h2⟩ := key
  unfold vecNames2
  rw [h1, ok_bind]
  rcases hn with hn | ⟨hn, rfl⟩
  · rw [hn] at h2
    cases o with
    | none => cases h2
    | some c =>
      injection h2 with h2
      dsimp only
      rw [← h2]
  · rw [hn] at h2
    cases o with
    | some c => cases h2
    | none =>
      dsimp only
      rw [isVector_size hx]
      rfl

/-- The vector without dimensions and names. -/
theorem dropNames_ok (hs : List Name → BitVec 32) (ms : NameMethods α β) {n : Nat} {x : AObj α β} (hx : IsVector n x) :
    ∃ y, setNamesImpl hs ms true (dropDims x) none false false true =
      .ok (⟨x.data, none, none, none, none, false, x.rest⟩, y) := by
  obtain ⟨data, names, dim, dimNames, rowNames, isObject, rest⟩ := x
  have h1 := hx.noClass
  have h2 := hx.noRow
  dsimp only at h1 h2
  subst h1 h2
  rcases hx.shape with ⟨h, h'⟩ | ⟨h, h', -⟩
  · dsimp only at h h'
    subst h h'
    cases names with
    | none => exact ⟨_, rfl⟩
    | some _ => exact ⟨_, rfl⟩
  · dsimp only at h h'
    subst h h'
    exact ⟨_, rfl⟩

theorem each_get (m : SliceMethods α β) (na : α) (x : AObj α β) {j : Nat} {v : α} (hn : x.data.length ≤ 2147483647)
    (hv : x.data[j]? = some v) (h1 : x.isObject = false) (h2 : x.dim = none) (h3 : x.names = none) :
    sliceObj m na x (.locs [(j : Int) + 1]) = .ok ⟨[v], none, none, none, none, false, x.rest⟩ := by
  have hj := (List.getElem?_eq_some_iff.1 hv).1
  have hne : (j : Int) + 1 ≠ naInt := by
    simp only [naInt]
    omega
  rw [sliceObj_plain m na h1 h2]
  unfold plainSlice
  obtain ⟨out, h4, h5, h6⟩ := sliceBase_ok na (x := x.data) (s := .locs [(j : Int) + 1]) (by
    intro w hw
    rw [List.mem_singleton.1 hw]
    exact Or.inr ⟨by omega, by omega⟩)
  obtain ⟨loc, h7, h8⟩ := h6 0 Nat.zero_lt_one
  have hloc : loc = (j : Int) + 1 := by
    injection h7 with h7
    exact h7.symm
  rw [hloc, if_neg hne, show ((j : Int) + 1 - 1).toNat = j by omega, hv] at h8
  have hout : out = [v] := by
    match out, h5, h8 with
    | [w], _, h8 =>
      injection h8 with h8
      rw [h8]
    | [], h5, _ => cases h5
    | _ :: _ :: _, h5, _ =>
      have : (subscriptSize (.locs [(j : Int) + 1])).toNat = 1 := rfl
      rw [this] at h5
      simp at h5
  rw [h4, ok_bind, h3, hout]
  rfl

theorem rowCells_ok (m : SliceMethods α β) (na : α) (d : List α) (r : β) (hn : d.length ≤ 2147483647) :
    ∃ cols, chopObj m na ⟨d, none, none, none, none, false, r⟩ .each = .ok cols ∧ cols.length = d.length ∧
      ∀ (j : Nat) v, d[j]? = some v → cols[j]? = some ⟨[v], none, none, none, none, false, r⟩ := by
  rw [C93_chop m na (n := d.length) rfl .each (fun _ h => by cases h) (fun h => by cases h)]
  have hm : ((List.range d.length).map fun (i : Nat) => Subscript.locs [(i : Int) + 1]).mapM
      (sliceObj m na (⟨d, none, none, none, none, false, r⟩ : AObj α β)) =
      .ok (d.map fun v => ⟨[v], none, none, none, none, false, r⟩) := by
    refine mapM_of_forall₂ ?_
    rw [List.forall₂_iff_get]
    refine ⟨by simp, fun j h1 h2 => ?_⟩
    have hj : j < d.length := by simpa using h1
    simp only [List.get_eq_getElem, List.getElem_map, List.getElem_range]
    exact each_get m na _ hn (List.getElem?_eq_getElem hj) rfl rfl rfl
  refine ⟨_, hm, by simp, fun j v hv => ?_⟩
  rw [List.getElem?_map, hv]
  rfl

/-- **C95** (vectors): a vector without a class becomes a data frame of one row.  There is one column for each element, the
names are the repaired names of the elements, and it is an error exactly if they cannot be repaired. -/
theorem C95_vector (h : Name → BitVec 32) (hs : List Name → BitVec 32) (m : RowMethods α β) (na : α) {opts : RepairOpts}
    (hu : KeepsLength m.universal) (ho : RbindStrategy opts.type) {n : Nat} {x : AObj α β} (hx : IsVector n x)
    (hn : n ≤ 2147483647) (hspec : m.isUnspecified x = true → x.names ≠ none) {a : List Name} (ha : NamesToRepair n x a)
    (hl : ShortStrings a) :
    (∀ b, BindRepaired m.universal opts a b →
      ∃ cols, asDfRow h hs m na opts (.vec x) = .ok (.df ⟨b, cols, 1, m.dfAttrs⟩) ∧ RowOf x cols) ∧
    ((¬ ∃ b, BindRepaired m.universal opts a b) → ∃ e, asDfRow h hs m na opts (.vec x) = .error e) := by
  have hal : a.length = n := by
    rcases ha with ha | ⟨-, rfl⟩
    · exact hx.named a ha
    · simp
  have hrun : asDfRow h hs m na opts (.vec x) = (do .ok (.df (← vectorRow h hs m na opts x))) := by
    have hc : (m.isUnspecified x && x.names.isNone) = false := by
      cases hq : m.isUnspecified x with
      | false => rfl
      | true =>
        have := hspec hq
        cases hx' : x.names with
        | none => exact absurd hx' this
        | some _ => rfl
    unfold asDfRow
    dsimp only
    rw [hc, if_neg (by decide)]
    unfold vecAsDfRow
    rcases hx.shape with ⟨h1, -⟩ | ⟨h1, -⟩
    · rw [h1]
    · rw [h1]
      rfl
  obtain ⟨hr1, hr2⟩ := repair_bind h hu ho (a := a) (by omega) hl
  obtain ⟨y, hy⟩ := dropNames_ok hs m.names hx
  obtain ⟨cols, hc1, hc2, hc3⟩ := rowCells_ok m.slice na x.data x.rest (by rw [hx.size]; exact hn)
  constructor
  · intro b hb
    refine ⟨cols, ?_, hc2, hc3⟩
    rw [hrun]
    unfold vectorRow
    rw [vecNames2_ok m.names hx ha, ok_bind, hr1 b hb, ok_bind, hy, ok_bind]
    dsimp only
    rw [hc1, ok_bind, pokeColNames_ok (by rw [bindRepaired_length hu hb, hal, hc2, hx.size])]
    rfl
  · intro hno
    obtain ⟨e, he⟩ := hr2 hno
    refine ⟨e, ?_⟩
    rw [hrun]
    unfold vectorRow
    rw [vecNames2_ok m.names hx ha, ok_bind, he]
    rfl

/-- **C95** (the default `.name_repair = "unique"`): every vector has a row, and the names of its columns are distinct. -/
theorem C95_unique (h : Name → BitVec 32) (hs : List Name → BitVec 32) (m : RowMethods α β) (na : α) {q : Bool}
    (hu : KeepsLength m.universal) {n : Nat} {x : AObj α β} (hx : IsVector n x) (hn : n ≤ 2147483647)
    (hspec : m.isUnspecified x = true → x.names ≠ none) {a : List Name} (ha : NamesToRepair n x a) (hl : ShortStrings a) :
    ∃ b cols, asDfRow h hs m na ⟨.unique, q⟩ (.vec x) = .ok (.df ⟨b, cols, 1, m.dfAttrs⟩) ∧ UniqueRepair a b ∧ b.Nodup ∧
      RowOf x cols := by
  have hal : a.length = n := by
    rcases ha with ha | ⟨-, rfl⟩
    · exact hx.named a ha
    · simp
  obtain ⟨b, -, hb⟩ := vecAsUniqueNames_ok h a (by omega) (baseOf_short hl)
  obtain ⟨cols, h1, h2⟩ := (C95_vector h hs m na (opts := ⟨.unique, q⟩) hu trivial hx hn hspec ha hl).1 b (.unique hb)
  refine ⟨b, cols, h1, hb, ?_, h2⟩
  rw [nodup_iff_inj]
  intro i j s hi hj
  have := hb.inj hi hj
  exact this

/-- **C95** (a vector of a class, without dimensions): names are taken and removed by the methods of the class, and column `j` is
the slice of element `j` by `[`. -/
theorem C95_class (h : Name → BitVec 32) (hs : List Name → BitVec 32) (m : RowMethods α β) (na : α) {opts : RepairOpts}
    (hu : KeepsLength m.universal) (ho : RbindStrategy opts.type) {x y : AObj α β} (hx : x.isObject = true)
    (hd : x.dim = none) (hr : x.rowNames = none) (hspec : m.isUnspecified x = true → x.names ≠ none) {nms : Option ChrObj}
    (hnms : m.names.names x = .ok nms) (hy : m.names.setNames x none = .ok y) (hyd : y.dim = none) (hyr : y.rowNames = none)
    (hyn : y.dimNames = none) (hlen : y.data.length = x.data.length) (hyo : y.isObject = true) {a : List Name}
    (ha : nms.map (·.elts) = some a ∨ nms = none ∧ a = List.replicate x.data.length (some []))
    (hal : a.length = x.data.length) (hn : x.data.length ≤ 2147483647) (hl : ShortStrings a) {cols : List (AObj α β)}
    (hc : List.Forall₂ (fun (j : Nat) c => ∃ s, m.slice.bracket y [(j : Int) + 1] = .ok s ∧
      (m.slice.isRestored s y = true ∧ c = s ∨ m.slice.isRestored s y = false ∧ m.slice.restore s y = .ok c))
      (List.range x.data.length) cols) {b : List Name} (hb : BindRepaired m.universal opts a b) :
    asDfRow h hs m na opts (.vec x) = .ok (.df ⟨b, cols, 1, m.dfAttrs⟩) := by
  have hq : (m.isUnspecified x && x.names.isNone) = false := by
    cases hq : m.isUnspecified x with
    | false => rfl
    | true =>
      have := hspec hq
      cases hx' : x.names with
      | none => exact absurd hx' this
      | some _ => rfl
  unfold asDfRow
  dsimp only
  rw [hq, if_neg (by decide)]
  unfold vecAsDfRow
  rw [hd]
  dsimp only
  unfold vectorRow
  have h1 : vecNames2 m.names x = .ok a := by
    unfold vecNames2 namesImpl
    rw [hr, hd]
    dsimp only
    rw [hx, if_pos (by rfl), hnms, ok_bind]
    rcases ha with ha | ⟨rfl, rfl⟩
    · cases nms with
      | none => cases ha
      | some c =>
        injection ha with ha
        dsimp only
        rw [← ha]
    · dsimp only
      unfold AObj.size
      rw [hr, hd]
      rfl
  have h2 : setNamesImpl hs m.names true (dropDims x) none false false true = .ok (y, x) := by
    unfold setNamesImpl dropDims
    rw [hd]
    dsimp only
    unfold checkNames
    dsimp only
    rw [ok_bind, hr]
    dsimp only
    rw [hd, if_neg (by decide), hx, if_pos (by rfl), hy]
    rfl
  have h3 : chopObj m.slice na y .each = .ok cols := by
    rw [C93_chop m.slice na (n := x.data.length) (by unfold AObj.size; rw [hyr, hyd]; exact congrArg _ hlen) .each
      (fun _ h => by rw [hyn] at h; cases h) (fun _ h => absurd hyd h)]
    refine mapM_of_forall₂ ?_
    show List.Forall₂ _ ((List.range x.data.length).map _) cols
    rw [List.forall₂_map_left_iff]
    refine hc.imp fun j c hjc => ?_
    obtain ⟨s, h4, h5⟩ := hjc
    rw [sliceObj_class m.slice na hyo hyd]
    rw [show compactMaterialize (.locs [(j : Int) + 1]) = .ok [(j : Int) + 1] from rfl, ok_bind, h4, ok_bind]
    rcases h5 with ⟨h5, rfl⟩ | ⟨h5, h6⟩
    · rw [h5]; rfl
    · rw [h5]; exact h6
  have hcl : cols.length = x.data.length := by
    have := hc.length_eq
    simpa using this.symm
  rw [h1, ok_bind, (repair_bind h hu ho (by omega) hl).1 b hb, ok_bind, h2, ok_bind]
  dsimp only
  rw [h3, ok_bind, pokeColNames_ok (by rw [bindRepaired_length hu hb, hal, hcl])]
  rfl

/-! ## Other inputs -/

/-- **C95** (`NULL`, and `NA` without names): left for later. -/
theorem C95_untouched (h : Name → BitVec 32) (hs : List Name → BitVec 32) (m : RowMethods α β) (na : α) (opts : RepairOpts) :
    asDfRow h hs m na opts .null = .ok .null ∧
    ∀ x, m.isUnspecified x = true → x.names = none → asDfRow h hs m na opts (.vec x) = .ok (.vec x) := by
  refine ⟨rfl, fun x h1 h2 => ?_⟩
  unfold asDfRow
  dsimp only
  rw [h1, h2]
  rfl

/-- **C95** (data frames): only the names change, and it is an error exactly if they cannot be repaired. -/
theorem C95_df (h : Name → BitVec 32) (hs : List Name → BitVec 32) (m : RowMethods α β) (na : α) {opts : RepairOpts}
    (hu : KeepsLength m.universal) (ho : RbindStrategy opts.type) {x : BindDf α β} (hx : x.names.length = x.cols.length)
    (hn : x.cols.length ≤ 2147483647) (hl : ShortStrings x.names) :
    (∀ b, BindRepaired m.universal opts x.names b →
      asDfRow h hs m na opts (.df x) = .ok (.df ⟨b, x.cols, x.rows, x.attrs⟩)) ∧
    ((¬ ∃ b, BindRepaired m.universal opts x.names b) → ∃ e, asDfRow h hs m na opts (.df x) = .error e) := by
  obtain ⟨hr1, hr2⟩ := repair_bind h hu ho (a := x.names) (by omega) hl
  constructor
  · intro b hb
    unfold asDfRow dfRepairNames
    dsimp only
    rw [hr1 b hb, ok_bind, pokeColNames_ok (by rw [bindRepaired_length hu hb, hx])]
    rfl
  · intro hno
    obtain ⟨e, he⟩ := hr2 hno
    refine ⟨e, ?_⟩
    unfold asDfRow dfRepairNames
    dsimp only
    rw [he]
    rfl

/-- **C95** (matrices): the data frame that as.data.frame() makes, with the repaired names of the columns of the matrix. -/
theorem C95_matrix (h : Name → BitVec 32) (hs : List Name → BitVec 32) (m : RowMethods α β) (na : α) {opts : RepairOpts}
    (hu : KeepsLength m.universal) (ho : RbindStrategy opts.type) {x : AObj α β} {d k : Nat} (hd : x.dim = some [d, k])
    (hdn : ∀ dn, x.dimNames = some dn → dn.length = 2) (hspec : m.isUnspecified x = true → x.names ≠ none)
    {y : BindDf α β} (hy : m.asDf x = .ok y) (hk : y.cols.length = k) (hn : k ≤ 2147483647) {a b : List Name}
    (ha : (∃ nms, dimNamesOf x 1 = some nms ∧ a = nms.elts) ∨ dimNamesOf x 1 = none ∧ a = List.replicate k (some []))
    (hal : a.length = k) (hl : ShortStrings a) (hb : BindRepaired m.universal opts a b) :
    asDfRow h hs m na opts (.vec x) = .ok (.df ⟨b, y.cols, y.rows, y.attrs⟩) := by
  have hq : (m.isUnspecified x && x.names.isNone) = false := by
    cases hq : m.isUnspecified x with
    | false => rfl
    | true =>
      have := hspec hq
      cases hx' : x.names with
      | none => exact absurd hx' this
      | some _ => rfl
  have hc : colnames2 k x.dimNames = .ok a := by
    unfold colnames2
    unfold dimNamesOf at ha
    cases hx : x.dimNames with
    | none =>
      rw [hx] at ha
      rcases ha with ⟨_, ha, -⟩ | ⟨-, rfl⟩
      · cases ha
      · rfl
    | some dn =>
      rw [hx] at ha
      match dn, hdn dn hx with
      | [r, c], _ =>
        cases c with
        | none =>
          rcases ha with ⟨_, ha, -⟩ | ⟨-, rfl⟩
          · cases ha
          · rfl
        | some c =>
          rcases ha with ⟨_, ha, rfl⟩ | ⟨ha, -⟩
          · injection ha with ha
            subst ha
            rfl
          · cases ha
  unfold asDfRow
  dsimp only
  rw [hq, if_neg (by decide)]
  unfold vecAsDfRow
  rw [hd]
  dsimp only
  rw [if_neg (by simp), if_pos (by rfl), show rd [d, k] 1 = .ok k from rfl, ok_bind]
  unfold matrixRows
  rw [hy, ok_bind, hc, ok_bind, (repair_bind h hu ho (by omega) hl).1 b hb, ok_bind,
    pokeColNames_ok (by rw [bindRepaired_length hu hb, hal, hk])]
  rfl

/-- **C95** (arrays of three or more dimensions): an error. -/
theorem C95_array (h : Name → BitVec 32) (hs : List Name → BitVec 32) (m : RowMethods α β) (na : α) (opts : RepairOpts)
    {x : AObj α β} {dim : List Nat} (hd : x.dim = some dim) (h2 : 2 < dim.length) (hspec : m.isUnspecified x = false) :
    asDfRow h hs m na opts (.vec x) = .error .abort := by
  unfold asDfRow
  dsimp only
  rw [hspec]
  unfold vecAsDfRow
  rw [hd]
  dsimp only
  rw [if_pos h2]
  rfl

/-! ## All inputs -/

/-- **C95** (`.name_repair`): `vec_rbind()` takes `"unique"`, `"universal"`, `"check_unique"` and functions, `vec_cbind()` takes
`"minimal"` too, and nothing else is accepted. -/
theorem C95_options (arg : RepairArg) (allow : Bool) (opts : RepairOpts) :
    validateBindRepair arg allow = .ok opts ↔
      Denotes arg false opts ∧ (RbindStrategy opts.type ∨ allow = true ∧ opts.type = .minimal) := by
  unfold validateBindRepair
  cases hc : newNameRepairOpts arg false with
  | error e =>
    constructor
    · intro h; cases h
    · rintro ⟨h, -⟩
      rw [← C74_options, hc] at h
      cases h
  | ok o =>
    rw [ok_bind]
    have hden : ∀ o', Denotes arg false o' ↔ o = o' := by
      intro o'
      rw [← C74_options, hc]
      exact ⟨fun h => by injection h, fun h => by rw [h]⟩
    rw [hden]
    obtain ⟨t, q⟩ := o
    cases t with
    | custom f => exact ⟨fun h => by injection h with h; subst h; exact ⟨rfl, Or.inl trivial⟩, fun h => by rw [← h.1]⟩
    | unique => exact ⟨fun h => by injection h with h; subst h; exact ⟨rfl, Or.inl trivial⟩, fun h => by rw [← h.1]⟩
    | universal => exact ⟨fun h => by injection h with h; subst h; exact ⟨rfl, Or.inl trivial⟩, fun h => by rw [← h.1]⟩
    | checkUnique => exact ⟨fun h => by injection h with h; subst h; exact ⟨rfl, Or.inl trivial⟩, fun h => by rw [← h.1]⟩
    | none =>
      refine ⟨fun h => (by cases h), ?_⟩
      rintro ⟨rfl, h | ⟨-, h⟩⟩
      · exact absurd h id
      · cases h
    | minimal =>
      cases allow with
      | true => exact ⟨fun h => by injection h with h; subst h; exact ⟨rfl, Or.inr ⟨rfl, rfl⟩⟩, fun h => by rw [← h.1]; rfl⟩
      | false =>
        refine ⟨fun h => (by cases h), ?_⟩
        rintro ⟨rfl, h | ⟨h, -⟩⟩
        · exact absurd h id
        · cases h

theorem forN_inplaceM {γ : Type} (f : γ → C γ) (xs : List γ) :
    forN xs.length (fun i (l : List γ) => do
      let x ← rd l i
      let x ← f x
      wr l i x) xs = xs.mapM f := by
  suffices key : ∀ (done todo : List γ), forFrom (fun i (l : List γ) => do
      let x ← rd l i
      let x ← f x
      wr l i x) done.length todo.length (done ++ todo) = (do .ok (done ++ (← todo.mapM f))) by
    have := key [] xs
    rw [List.length_nil, List.nil_append] at this
    refine this.trans ?_
    cases xs.mapM f <;> rfl
  intro done todo
  induction todo generalizing done with
  | nil => simp [forFrom]
  | cons x xs ih =>
    rw [List.length_cons, forFrom, rd_of_getElem? (show (done ++ x :: xs)[done.length]? = some x by simp), ok_bind, List.mapM_cons]
    cases hf : f x with
    | error e => rfl
    | ok y =>
      rw [ok_bind, ok_bind, wr_ok (by simp), ok_bind]
      have h1 : (done ++ x :: xs).set done.length y = done ++ [y] ++ xs := by simp
      rw [h1]
      have := ih (done ++ [y])
      rw [List.length_append, List.length_singleton] at this
      rw [this]
      cases xs.mapM f with
      | error e => rfl
      | ok ys => simp [ok_bind]

/-- **C95** (all inputs): every input is treated on its own, in order; the first error is the result. -/
theorem C95_inputs (h : Name → BitVec 32) (hs : List Name → BitVec 32) (m : RowMethods α β) (na : α) {repair : RepairArg}
    {opts : RepairOpts} (hd : Denotes repair false opts) (ho : RbindStrategy opts.type) (xs : List (BindIn α β)) :
    (∀ ys, List.Forall₂ (fun x y => asDfRow h hs m na opts x = .ok y) xs ys → rbindInputs h hs m na repair xs = .ok ys) ∧
    ∀ l x r e, xs = l ++ x :: r → (∀ z ∈ l, ∃ y, asDfRow h hs m na opts z = .ok y) → asDfRow h hs m na opts x = .error e →
      rbindInputs h hs m na repair xs = .error e := by
  have hrun : rbindInputs h hs m na repair xs = xs.mapM (asDfRow h hs m na opts) := by
    unfold rbindInputs
    rw [(C95_options repair false opts).2 ⟨hd, Or.inl ho⟩, ok_bind]
    exact forN_inplaceM _ xs
  rw [hrun]
  refine ⟨fun ys hys => mapM_of_forall₂ hys, ?_⟩
  rintro l x r e rfl hl he
  induction l with
  | nil =>
    rw [List.nil_append, List.mapM_cons, he]
    rfl
  | cons z l ih =>
    obtain ⟨y, hy⟩ := hl z List.mem_cons_self
    rw [List.cons_append, List.mapM_cons, hy, ok_bind]
    have := ih (by
      unfold rbindInputs
      rw [(C95_options repair false opts).2 ⟨hd, Or.inl ho⟩, ok_bind]
      exact forN_inplaceM _ _) (fun z hz => hl z (List.mem_cons_of_mem _ hz))
    rw [this]
    rfl

/-! ## Examples -/

/-- Classes without methods; `NA` is `0`, and a matrix becomes its columns. -/
def exRow : RowMethods Nat Unit where
  isUnspecified x := x.data.all (· == 0)
  asDf x := match x.dim with
    | some [d, k] => do
      let cols ← (List.range k).mapM fun j => do
        .ok ⟨(x.data.drop (j * d)).take d, none, none, none, none, false, ()⟩
      .ok ⟨List.replicate k (some []), cols, d, ()⟩
    | _ => .error .abort
  universal _ l := .ok (.chr l)
  slice := ⟨fun x _ => .ok x, fun x _ => .ok x, fun _ _ => true, fun x _ => .ok x, fun x _ _ => .ok x⟩
  names := ⟨fun x _ => .ok x, fun x _ => .ok x, fun x => .ok x.names⟩
  dfAttrs := ()

/-- `c(a = 1, 2, a = 3)`. -/
def exRowVec : AObj Nat Unit := ⟨[1, 2, 3], some ⟨[some ['a'], some [], some ['a']], none⟩, none, none, none, false, ()⟩

/-- `array(1:2, dimnames = list(c("x", "y")))`. -/
def exRowArr : AObj Nat Unit := ⟨[1, 2], none, some [2], some [some ⟨[some ['x'], some ['y']], none⟩], none, false, ()⟩

theorem exRow_universal : KeepsLength exRow.universal := by
  intro q a r h
  injection h with h
  exact ⟨a, h.symm, rfl⟩

theorem exRowVec_isVector : IsVector 3 exRowVec :=
  ⟨rfl, rfl, rfl, fun nms h => by injection h with h; subst h; rfl, Or.inl ⟨rfl, rfl⟩⟩

theorem exRowArr_isVector : IsVector 2 exRowArr :=
  ⟨rfl, rfl, rfl, fun nms h => by injection h with h; subst h; rfl,
    Or.inr ⟨rfl, rfl, fun dn h => by injection h with h; subst h; rfl⟩⟩

/-- `C95_unique` applies to `c(a = 1, 2, a = 3)`. -/
example : ∃ b cols, asDfRow (fun _ => 0) (fun _ => 0) exRow 0 ⟨.unique, true⟩ (.vec exRowVec) = .ok (.df ⟨b, cols, 1, ()⟩) ∧
    UniqueRepair [some ['a'], some [], some ['a']] b ∧ b.Nodup ∧ RowOf exRowVec cols :=
  C95_unique (fun _ => 0) (fun _ => 0) exRow 0 exRow_universal exRowVec_isVector (by decide) (by intro h; cases h)
    (Or.inl rfl) (by
      intro s hs
      simp at hs
      rcases hs with rfl | rfl | rfl <;> decide)

/-- Names of a one-dimensional array become names of columns, and `check_unique` keeps them. -/
example : ∃ cols, asDfRow (fun _ => 0) (fun _ => 0) exRow 0 ⟨.checkUnique, true⟩ (.vec exRowArr) =
    .ok (.df ⟨[some ['x'], some ['y']], cols, 1, ()⟩) ∧ RowOf exRowArr cols :=
  (C95_vector (fun _ => 0) (fun _ => 0) exRow 0 (opts := ⟨.checkUnique, true⟩) exRow_universal trivial exRowArr_isVector
    (by decide) (by intro h; cases h) (a := [some ['x'], some ['y']]) (Or.inl rfl) (by
      intro s hs
      simp at hs
      rcases hs with rfl | rfl <;> decide)).1 _ (.check ⟨(nodup_iff_inj _).1 (by decide), by
        intro n hn
        simp at hn
        rcases hn with rfl | rfl
        · exact ⟨_, rfl, by decide, by rw [← isDotDot_iff]; decide⟩
        · exact ⟨_, rfl, by decide, by rw [← isDotDot_iff]; decide⟩⟩)

/-- The columns of a vector. -/
example : (vectorRow (fun _ => 0) (fun _ => 0) exRow 0 ⟨.checkUnique, true⟩ exRowArr).map (fun d => (d.names, d.cols.map (·.data))) =
    .ok ([some ['x'], some ['y']], [[1], [2]]) := by decide +kernel

/-- A matrix of two rows and two columns without names. -/
example : (vecAsDfRow (fun _ => 0) (fun _ => 0) exRow 0 ⟨.universal, true⟩
    ⟨[1, 2, 3, 4], none, some [2, 2], none, none, false, ()⟩).map (fun d => (d.names, d.cols.map (·.data), d.rows)) =
    .ok ([some [], some []], [[1, 2], [3, 4]], 2) := by decide +kernel

/-- `.name_repair = "minimal"` is for `vec_cbind()` only. -/
example : validateBindRepair (.chr [some "minimal".toList]) false = .error .abort ∧
    ∃ o, validateBindRepair (.chr [some "minimal".toList]) true = .ok o ∧ o.type = .minimal := by
  refine ⟨rfl, _, rfl, rfl⟩

/-- A class whose `[` takes elements, with names that are kept elsewhere. -/
def exRowCls : RowMethods Nat Unit :=
  { exRow with
    slice := ⟨fun x i => do .ok { x with data := ← i.mapM fun k => rd x.data (k - 1).toNat }, fun x _ => .ok x,
      fun _ _ => true, fun x _ => .ok x, fun x _ _ => .ok x⟩
    names := ⟨fun x _ => .ok { x with names := none }, fun x _ => .ok x, fun x => .ok x.names⟩ }

def exRowObj (l : List Nat) : AObj Nat Unit := ⟨l, none, none, none, none, true, ()⟩

/-- The same with names. -/
def exRowNamed : AObj Nat Unit := ⟨[7, 8], some ⟨[some ['a'], some ['b']], none⟩, none, none, none, true, ()⟩

/-- `C95_class` applies to an object of a class. -/
example : asDfRow (fun _ => 0) (fun _ => 0) exRowCls 0 ⟨.universal, true⟩
    (.vec exRowNamed) =
    .ok (.df ⟨[some ['a'], some ['b']], [exRowObj [7], exRowObj [8]], 1, ()⟩) :=
  C95_class (fun _ => 0) (fun _ => 0) exRowCls 0 (opts := ⟨.universal, true⟩) exRow_universal trivial (x := exRowNamed) (y := exRowObj [7, 8])
    rfl rfl rfl (by intro h; cases h) (nms := some ⟨[some ['a'], some ['b']], none⟩) rfl rfl rfl rfl rfl rfl rfl
    (a := [some ['a'], some ['b']]) (Or.inl rfl) rfl (by decide) (by
      intro s hs
      simp at hs
      rcases hs with rfl | rfl <;> decide)
    (.cons ⟨_, rfl, Or.inl ⟨rfl, rfl⟩⟩ (.cons ⟨_, rfl, Or.inl ⟨rfl, rfl⟩⟩ .nil)) (.universal rfl)

/-- A data frame with two columns of the same name is an error with `check_unique`. -/
example : ∃ e, asDfRow (fun _ => 0) (fun _ => 0) exRow 0 ⟨.checkUnique, true⟩
    (.df ⟨[some ['a'], some ['a']], [exRowObj [7], exRowObj [8]], 1, ()⟩) = .error e :=
  (C95_df (fun _ => 0) (fun _ => 0) exRow 0 (opts := ⟨.checkUnique, true⟩) exRow_universal trivial (by rfl) (by decide) (by
    intro s hs
    simp at hs
    subst hs
    decide)).2 (by
      rintro ⟨b, hb⟩
      cases hb with
      | check hb =>
        have := hb.distinct 0 1 (some ['a']) rfl rfl
        omega)

/-- Three inputs: `NULL`, `NA` and an array. -/
example : rbindInputs (fun _ => 0) (fun _ => 0) exRow 0 (.chr [some "universal".toList])
    [.null, .vec ⟨[0], none, none, none, none, false, ()⟩, .vec ⟨[1], none, some [1, 1, 1], none, none, false, ()⟩] =
    .error .abort :=
  (C95_inputs (fun _ => 0) (fun _ => 0) exRow 0 (.chr .universal) trivial _).2 [_, _] _ [] .abort rfl
    (by
      intro z hz
      simp at hz
      rcases hz with rfl | rfl
      · exact ⟨_, rfl⟩
      · exact ⟨_, rfl⟩)
    (C95_array _ _ exRow 0 _ rfl (by decide) rfl)

end Vctrs
