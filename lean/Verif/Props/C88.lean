import Verif.Model.SetNames
import Verif.Props.C23
import Verif.Lemmas.Proxy

/-!
# C88: names are set and read back
-/

namespace Vctrs.Spec

/-- `x` has one string per row: no dimensions, one, or one column. -/
def OnePerRow (x : ChrObj) : Prop := x.size = .ok x.elts.length

/-- A vector as R makes them: an array has as many elements as its dimensions say, as many names of
dimensions as dimensions, and a data frame has no dimensions. -/
structure ArrayOk {α β : Type} (x : AObj α β) : Prop where
  dims : ∀ d, x.dim = some d → 0 < d.length
  dimNames : ∀ d dn, x.dim = some d → x.dimNames = some dn → dn.length = d.length ∧
    ∀ (j : Nat) (e : Nat) (nms : ChrObj), d[j]? = some e → dn[j]? = some (some nms) →
      nms.elts.length = e ∧ 0 < e ∧ nms.dim = none
  noDim : x.rowNames ≠ none → x.dim = none

/-- `y` is `x` with other names of elements or rows. -/
structure SameButNames {α β : Type} (x y : AObj α β) : Prop where
  data : y.data = x.data
  dim : y.dim = x.dim
  isObject : y.isObject = x.isObject
  rest : y.rest = x.rest
  size : y.size = x.size
  isDf : y.rowNames = none ↔ x.rowNames = none
  columns : (x.rowNames ≠ none ∨ x.dim ≠ none) → y.names = x.names
  otherDims : ∀ (j : Nat) (nms : ChrObj), 0 < j →
    ((∃ dn, x.dimNames = some dn ∧ dn[j]? = some (some nms)) ↔
      (∃ dn, y.dimNames = some dn ∧ dn[j]? = some (some nms)))

end Vctrs.Spec

namespace Vctrs
open Spec

variable {α β : Type}

/-! ## Names that may be an array -/

theorem keyOps_eqv (h : List Name → BitVec 32) : EqvHash (keyOps h) where
  refl := by intro a; simp [keyOps]
  symm := by intro a b; simp [keyOps]; exact Eq.symm
  trans := by intro a b c; simp [keyOps]; exact Eq.trans
  hash_eq := by intro a b; simp [keyOps]; intro h; rw [h]

theorem keys_plain {x : ChrObj} (h : OnePerRow x) : x.keys = .ok (x.elts.map (fun s => [s])) := by
  unfold OnePerRow ChrObj.size at h
  unfold ChrObj.keys
  split
  · rename_i d e ds hd
    rw [hd] at h
    injection h with h
    subst h
    have hrow : ∀ i, i < x.elts.length → x.row x.elts.length i = .ok ((x.elts[i]?.map (fun s => [s])).elim [] id) := by
      intro i hi
      unfold ChrObj.row
      rw [Nat.div_self (by omega)]
      rw [show List.range 1 = [0] from rfl, List.mapM_cons, List.mapM_nil, Nat.zero_mul, Nat.zero_add, rd_ok hi, ok_bind, List.getElem?_eq_getElem hi]
      rfl
    have hmap : ∀ l : List Nat, (∀ i ∈ l, i < x.elts.length) →
        l.mapM (x.row x.elts.length) = .ok (l.map (fun i => (x.elts[i]?.map (fun s => [s])).elim [] id)) := by
      intro l
      induction l with
      | nil => intro _; rfl
      | cons i l ih =>
        intro hl
        rw [List.mapM_cons, hrow i (hl i (by simp)), ok_bind, ih (fun j hj => hl j (by simp [hj]))]
        rfl
    rw [hmap _ (fun i hi => by simpa using hi)]
    congr 1
    refine List.ext_getElem? (fun i => ?_)
    simp only [List.getElem?_map]
    by_cases hi : i < x.elts.length
    · rw [List.getElem?_range hi, List.getElem?_eq_getElem hi]
      simp [List.getElem?_eq_getElem hi]
    · rw [List.getElem?_eq_none (by simp; omega), List.getElem?_eq_none (by omega)]
      rfl
  · rfl

theorem singletons_inj {a b : Name} : (keyOps h).eq [a] [b] = (nameOps g).eq a b := by
  simp [keyOps, nameOps]

theorem duplicatedAny_singletons (h : List Name → BitVec 32) (xs : List Name) (hn : xs.length ≤ intMax) :
    duplicatedAny (keyOps h) (xs.map (fun s => [s])) = duplicatedAny (nameOps (fun s => h [s])) xs := by
  obtain ⟨a, ha, hai⟩ := duplicatedAny_ok (keyOps_eqv h) (xs.map (fun s => [s])) (by simpa using hn)
  obtain ⟨b, hb, hbi⟩ := duplicatedAny_ok (nameOps_eqv (fun s => h [s])) xs hn
  rw [ha, hb]
  have hfirst : ∀ i, IsFirst (keyOps h).eq (xs.map (fun s => [s])) i ↔ IsFirst (nameOps (fun s => h [s])).eq xs i := by
    intro i
    unfold IsFirst
    simp only [List.getElem?_map, Option.map_eq_some_iff]
    constructor
    · rintro ⟨_, ⟨c, hc, rfl⟩, hall⟩
      exact ⟨c, hc, fun j d hj hd => by rw [← singletons_inj (h := h)]; exact hall j _ hj ⟨d, hd, rfl⟩⟩
    · rintro ⟨c, hc, hall⟩
      refine ⟨_, ⟨c, hc, rfl⟩, ?_⟩
      rintro j _ hj ⟨d, hd, rfl⟩
      rw [singletons_inj (g := fun s => h [s])]
      exact hall j d hj hd
  have : a = true ↔ b = true := by
    rw [hai, hbi]
    simp only [List.length_map, hfirst]
  congr 1
  cases a <;> cases b <;> simp_all

theorem duplicatedDetect_singletons (h : List Name → BitVec 32) (xs : List Name) (hn : xs.length ≤ intMax) :
    duplicatedDetect (keyOps h) (xs.map (fun s => [s])) = duplicatedDetect (nameOps (fun s => h [s])) xs := by
  obtain ⟨a, ha, hal, hai⟩ := duplicatedDetect_ok (keyOps_eqv h) (xs.map (fun s => [s])) (by simpa using hn)
  obtain ⟨b, hb, hbl, hbi⟩ := duplicatedDetect_ok (nameOps_eqv (fun s => h [s])) xs hn
  rw [ha, hb]
  congr 1
  rw [List.length_map] at hal hai
  refine List.ext_getElem? (fun i => ?_)
  by_cases hi : i < xs.length
  · obtain ⟨c, hc, hci⟩ := hai i hi
    obtain ⟨d, hd, hdi⟩ := hbi i hi
    rw [hc, hd]
    have : c = true ↔ d = true := by
      rw [hci, hdi]
      simp only [List.getElem?_map, Option.map_eq_some_iff]
      constructor
      · rintro ⟨j, _, _, hj, ⟨y, hy, rfl⟩, ⟨z, hz, rfl⟩, he⟩
        exact ⟨j, y, z, hj, hy, hz, by rw [← singletons_inj (h := h)]; exact he⟩
      · rintro ⟨j, y, z, hj, hy, hz, he⟩
        exact ⟨j, _, _, hj, ⟨y, hy, rfl⟩, ⟨z, hz, rfl⟩, by rw [singletons_inj (g := fun s => h [s])]; exact he⟩
    congr 1
    cases c <;> cases d <;> simp_all
  · rw [List.getElem?_eq_none (by omega), List.getElem?_eq_none (by omega)]

/-- With one string per row the repair is that of the strings. -/
theorem uniqueObj_plain (h : List Name → BitVec 32) {x : ChrObj} (hx : OnePerRow x) (hn : x.elts.length ≤ 2147483647) :
    uniqueObj h x = (do .ok ⟨← vecAsUniqueNames (fun s => h [s]) x.elts, x.dim⟩) := by
  have himpl : asUniqueObj h x = (do .ok ⟨← asUniqueNamesImpl (fun s => h [s]) x.elts, x.dim⟩) := by
    unfold asUniqueObj asUniqueNamesImpl
    cases h1 : forN x.elts.length (fun i (v : List Name) => do
        let s ← rd v i
        let s ← stripName s
        wr v i s) x.elts with
    | error e => rfl
    | ok new =>
      have hlen : new.length = x.elts.length := by
        have : Ret (forN x.elts.length (fun i (v : List Name) => do
            let s ← rd v i
            let s ← stripName s
            wr v i s) x.elts) (fun v => v.length = x.elts.length) := by
          refine Ret.forN (fun _ (v : List Name) => v.length = x.elts.length) rfl ?_
          intro i v hi hv
          refine Ret.bind_eq (rd_ok (by omega)) ?_
          refine Ret.bind_eq (stripName_ok _) ?_
          refine Ret.of_eq (wr_ok (by omega)) ?_
          simpa using hv
        obtain ⟨v, hv, hl⟩ := this
        rw [h1] at hv
        injection hv with hv
        rw [hv]
        exact hl
      have hplain : OnePerRow ⟨new, x.dim⟩ := by
        unfold OnePerRow ChrObj.size at hx ⊢
        dsimp only
        rw [hlen]
        exact hx
      rw [ok_bind, ok_bind, keys_plain hplain, ok_bind]
      dsimp only
      rw [duplicatedDetect_singletons h new (by simp only [intMax]; omega)]
      obtain ⟨dups, hd, hdl, -⟩ := duplicatedDetect_ok (nameOps_eqv (fun s => h [s])) new (by simp only [intMax]; omega)
      rw [hd, ok_bind, ok_bind]
      congr 1
      refine forN_congr ?_
      intro i v hi
      cases hr : rd v i with
      | error e => rfl
      | ok s =>
        rw [ok_bind, ok_bind, rd_ok (by omega : i < dups.length), ok_bind]
        by_cases hs : s = some []
        · subst hs
          simp [ok_bind]
        · rw [if_neg hs]
          simp [ok_bind, hs]
  unfold uniqueObj vecAsUniqueNames isUniqueObj isUniqueNames
  rw [keys_plain hx, ok_bind, duplicatedAny_singletons h x.elts (by simp only [intMax]; omega), himpl]
  simp only [bind_assoc]
  cases duplicatedAny (nameOps fun s => h [s]) x.elts with
  | error e => rfl
  | ok b =>
    cases b with
    | true => rfl
    | false =>
      simp only [ok_bind, Bool.false_eq_true, if_false]
      cases forBrk x.elts.length (fun i (_ : Bool) => do
          let s ← rd x.elts i
          .ok (if needsSuffix s then .brk false else .next true)) true with
      | error e => rfl
      | ok u =>
        cases u with
        | false => rfl
        | true =>
          simp only [ok_bind, if_true, bind_assoc]
          cases anyHasSuffix x.elts with
          | error e => rfl
          | ok a => cases a <;> rfl

/-- **C88**: unique repair of names with one string per row: unique names, the same dimensions. -/
theorem C88_unique_partial (h : List Name → BitVec 32) (x : ChrObj) (hx : OnePerRow x)
    (hn : x.elts.length ≤ 2147483647) (hl : ∀ s, some s ∈ x.elts → s.length ≤ 2147483619) :
    ∃ out, uniqueObj h x = .ok ⟨out, x.dim⟩ ∧ UniqueRepair x.elts out := by
  obtain ⟨out, h1, h2⟩ := C23_rule (fun s => h [s]) x.elts hn hl
  refine ⟨out, ?_, h2⟩
  rw [uniqueObj_plain h hx hn]
  have : vecAsUniqueNames (fun s => h [s]) x.elts = .ok out := h1
  rw [this]
  rfl

/-- For a matrix of names rows are compared: duplicated names are taken for unique ones. -/
theorem C88_unique_wrong (h : List Name → BitVec 32) :
    uniqueObj h ⟨[some ['a'], some ['b'], some ['b'], some ['a']], some [2, 2]⟩ =
      .ok ⟨[some ['a'], some ['b'], some ['b'], some ['a']], some [2, 2]⟩ := by
  have hk : ChrObj.keys ⟨[some ['a'], some ['b'], some ['b'], some ['a']], some [2, 2]⟩ =
      .ok [[some ['a'], some ['b']], [some ['b'], some ['a']]] := by decide +kernel
  obtain ⟨b, hb, hbi⟩ := duplicatedAny_ok (keyOps_eqv h)
    ([[some ['a'], some ['b']], [some ['b'], some ['a']]] : List (List Name)) (by decide)
  have hbf : b = false := by
    cases b with
    | false => rfl
    | true =>
      obtain ⟨i, hi, hf⟩ := hbi.1 rfl
      exfalso
      apply hf
      match i, hi with
      | 0, _ => exact ⟨_, rfl, fun j a hj _ => by omega⟩
      | 1, _ =>
        refine ⟨_, rfl, fun j a hj ha => ?_⟩
        have : j = 0 := by omega
        subst this
        injection ha with ha
        subst ha
        simp [keyOps]
  subst hbf
  unfold uniqueObj isUniqueObj
  have h1 : forBrk 4 (fun i (_ : Bool) => do
      let s ← rd ([some ['a'], some ['b'], some ['b'], some ['a']] : List Name) i
      .ok (if needsSuffix s then .brk false else .next true)) true = .ok true := by decide +kernel
  have h2 : anyHasSuffix [some ['a'], some ['b'], some ['b'], some ['a']] = .ok false := by decide +kernel
  rw [hk, ok_bind, hb, ok_bind, if_neg (by decide)]
  show (do let u ← forBrk 4 _ true; _ : C ChrObj) = _
  rw [h1, ok_bind, if_pos rfl]
  dsimp only
  rw [h2]
  rfl

/-- For a matrix of names that need a repair, the marks of duplicated rows are read as if there were one per string. -/
theorem C88_unique_out_of_bounds (h : List Name → BitVec 32) :
    uniqueObj h ⟨[some ['a'], some ['b'], some [], some ['c']], some [2, 2]⟩ = .error .ub := by
  have hk : ChrObj.keys ⟨[some ['a'], some ['b'], some [], some ['c']], some [2, 2]⟩ =
      .ok [[some ['a'], some []], [some ['b'], some ['c']]] := by decide +kernel
  obtain ⟨b, hb, -⟩ := duplicatedAny_ok (keyOps_eqv h)
    ([[some ['a'], some []], [some ['b'], some ['c']]] : List (List Name)) (by decide)
  obtain ⟨d, hd, hdl, hdi⟩ := duplicatedDetect_ok (keyOps_eqv h)
    ([[some ['a'], some []], [some ['b'], some ['c']]] : List (List Name)) (by decide)
  have himpl : asUniqueObj h ⟨[some ['a'], some ['b'], some [], some ['c']], some [2, 2]⟩ = .error .ub := by
    have hs : forN 4 (fun i (v : List Name) => do
        let s ← rd v i
        let s ← stripName s
        wr v i s) [some ['a'], some ['b'], some [], some ['c']] = .ok [some ['a'], some ['b'], some [], some ['c']] := by
      decide +kernel
    unfold asUniqueObj
    show (do let new ← forN 4 _ _; _ : C ChrObj) = _
    rw [hs, ok_bind]
    dsimp only
    rw [hk, ok_bind, hd, ok_bind]
    match d, hdl with
    | [d0, d1], _ => cases d0 <;> cases d1 <;> decide +kernel
  unfold uniqueObj
  have hu : isUniqueObj h ⟨[some ['a'], some ['b'], some [], some ['c']], some [2, 2]⟩ = .ok false := by
    unfold isUniqueObj
    rw [hk, ok_bind, hb, ok_bind]
    cases b <;> decide +kernel
  rw [hu, ok_bind]
  exact himpl

/-! ## Setting names -/

theorem checkNames_ok {x : AObj α β} {nms : ChrObj} {n : Nat} (hs : x.size = .ok n) (hd : nms.size = .ok n) :
    checkNames true x (some nms) = .ok () := by
  unfold checkNames
  dsimp only
  rw [hs, ok_bind, hd, ok_bind, if_neg (by omega)]

/-- Names without elements are no names. -/
def dropEmpty : Option ChrObj → Option ChrObj
  | none => none
  | some nms => if nms.elts.length = 0 then none else some nms

theorem dropEmpty_some {nms : ChrObj} (h : nms.elts.length ≠ 0) : dropEmpty (some nms) = some nms := if_neg h

theorem rDimNames_ok : ∀ (d : List Nat) (dn : List (Option ChrObj)), d.length = dn.length →
    (∀ (j : Nat) e v, d[j]? = some e → dn[j]? = some v → rDimName e v = .ok (dropEmpty v)) →
    (d.zip dn).mapM (fun p => rDimName p.1 p.2) = .ok (dn.map dropEmpty)
  | [], [], _, _ => rfl
  | e :: d, v :: dn, hl, h => by
    rw [List.zip_cons_cons, List.mapM_cons, h 0 e v rfl rfl, ok_bind,
      rDimNames_ok d dn (by simpa using hl) (fun j e v hj hv => h (j + 1) e v hj hv)]
    rfl
  | [], _ :: _, hl, _ => by cases hl
  | _ :: _, [], hl, _ => by cases hl

theorem rDimName_ok {e : Nat} {v : Option ChrObj} (h : ∀ nms, v = some nms → nms.elts.length = e ∧ nms.dim = none) :
    rDimName e v = .ok (dropEmpty v) := by
  cases v with
  | none => rfl
  | some nms =>
    obtain ⟨h1, h2⟩ := h nms rfl
    unfold rDimName dropEmpty
    dsimp only
    by_cases h0 : nms.elts.length = 0
    · rw [if_pos h0, if_pos h0]
    · rw [if_neg h0, if_neg h0, if_neg (by omega), ← h2]

/-- The names of the dimensions before the first one is set. -/
def baseDimNames (x : AObj α β) (d : List Nat) : List (Option ChrObj) :=
  match x.dimNames with
  | some dn => dn
  | none => List.replicate d.length none

/-- `Rf_setAttrib()` with new names of the rows. -/
theorem rSetDimNames_ok {x : AObj α β} (hx : ArrayOk x) {d : List Nat} {n : Nat} (hd : x.dim = some d)
    (hn : d[0]? = some n) {names : Option ChrObj}
    (hnames : ∀ nms, names = some nms → nms.elts.length = n ∧ nms.dim = none) :
    ∃ v tl, baseDimNames x d = v :: tl ∧
      rSetDimNames x ((baseDimNames x d).set 0 names) = .ok { x with dimNames := some (dropEmpty names :: tl) } ∧
      ∀ v ∈ tl, dropEmpty v = v := by
  have hpos := hx.dims d hd
  have hlen : (baseDimNames x d).length = d.length := by
    unfold baseDimNames
    split
    · rename_i dn h; exact (hx.dimNames d dn hd h).1
    · simp
  have hbase : ∀ (j : Nat) (e : Nat) (nms : ChrObj), d[j]? = some e → (baseDimNames x d)[j]? = some (some nms) →
      nms.elts.length = e ∧ 0 < e ∧ nms.dim = none := by
    intro j e nms he hv
    unfold baseDimNames at hv
    split at hv
    · rename_i dn h; exact (hx.dimNames d dn hd h).2 j e nms he hv
    · rw [List.getElem?_replicate] at hv
      split at hv <;> simp at hv
  generalize baseDimNames x d = base at hlen hbase ⊢
  match base, hlen with
  | [], hlen => rw [List.length_nil] at hlen; omega
  | v :: tl, hlen =>
    refine ⟨v, tl, rfl, ?_, ?_⟩
    · unfold rSetDimNames
      rw [hd]
      dsimp only
      rw [if_neg (by simpa using hlen), List.set_cons_zero, rDimNames_ok d (names :: tl) (by simpa using hlen.symm)]
      · rw [ok_bind, List.map_cons]
        have : tl.map dropEmpty = tl := by
          refine List.ext_getElem? (fun j => ?_)
          rw [List.getElem?_map]
          cases hj : tl[j]? with
          | none => rfl
          | some w =>
            cases w with
            | none => rfl
            | some nms =>
              have hjl : j + 1 < d.length := by
                have := (List.getElem?_eq_some_iff.1 hj).1
                simp at hlen
                omega
              have := hbase (j + 1) _ nms (List.getElem?_eq_getElem hjl) hj
              rw [Option.map_some, dropEmpty_some (by omega)]
        rw [this]
      · intro j e w hj hw
        refine rDimName_ok (fun nms hnms => ?_)
        subst hnms
        cases j with
        | zero =>
          rw [hn] at hj
          injection hj with hj
          subst hj
          injection hw with hw
          exact hnames nms hw
        | succ j =>
          have := hbase (j + 1) e nms hj hw
          exact ⟨this.1, this.2.2⟩
    · intro w hw
      obtain ⟨j, hj, rfl⟩ := List.getElem_of_mem hw
      cases hv : tl[j] with
      | none => rfl
      | some nms =>
        have hjl : j + 1 < d.length := by
          simp at hlen
          omega
        have := hbase (j + 1) _ nms (List.getElem?_eq_getElem hjl) (by
          rw [List.getElem?_cons_succ, List.getElem?_eq_getElem hj, hv])
        exact dropEmpty_some (by omega)

theorem size_dim {x : AObj α β} {d : List Nat} {n : Nat} (hr : x.rowNames = none) (hd : x.dim = some d)
    (hp : 0 < d.length) (hs : x.size = .ok n) : d[0]? = some n := by
  unfold AObj.size at hs
  rw [hr, hd] at hs
  match d, hp with
  | e :: d, _ =>
    injection hs with hs
    subst hs
    rfl

/-- What `vec_set_names()` leaves of an array. -/
theorem sameBut_dimNames {x : AObj α β} (hx : ArrayOk x) {d : List Nat} (hd : x.dim = some d)
    (hr : x.rowNames = none) {w : Option ChrObj} {tl : List (Option ChrObj)} {v : Option ChrObj}
    (hb : baseDimNames x d = v :: tl) :
    SameButNames x { x with dimNames := some (w :: tl) } where
  data := rfl
  dim := rfl
  isObject := rfl
  rest := rfl
  size := by unfold AObj.size; rfl
  isDf := Iff.rfl
  columns := fun _ => rfl
  otherDims := by
    intro j nms hj
    obtain ⟨j, rfl⟩ : ∃ k, j = k + 1 := ⟨j - 1, by omega⟩
    unfold baseDimNames at hb
    cases hdn : x.dimNames with
    | some dn =>
      rw [hdn] at hb
      dsimp only at hb
      subst hb
      simp
    | none =>
      rw [hdn] at hb
      dsimp only at hb
      constructor
      · rintro ⟨dn, h, _⟩; cases h
      · rintro ⟨dn, h, h2⟩
        exfalso
        simp only [Option.some.injEq] at h
        subst h
        rw [List.getElem?_cons_succ] at h2
        have : some nms ∈ List.replicate d.length (none : Option ChrObj) := by
          rw [hb]
          exact List.mem_cons_of_mem _ (List.mem_of_getElem? h2)
        simp at this

/-- Is a method for a class called? -/
def Spec.Dispatches {α β : Type} (x : AObj α β) (proxy : Bool) : Prop :=
  proxy = false ∧ x.isObject = true ∧ x.rowNames = none

/-- The names that are found after `nms` have been set. -/
def Spec.NamesAfter {α β : Type} (x : AObj α β) (proxy : Bool) (nms : ChrObj) (found : Option ChrObj) : Prop :=
  if x.rowNames ≠ none ∧ proxy = false then ∃ r, UniqueRepair nms.elts r ∧ found = some ⟨r, none⟩
  else if x.dim ≠ none ∧ nms.elts = [] then found = none
  else found = some nms

/-- **C88**: names without dimensions, as many as the size of `x`, are set: they are what `vec_names()` gives afterwards
(unique ones for a data frame), nothing else of `x` changes, and `x` itself is left alone when it is not owned. -/
theorem C88_set_partial (h : List Name → BitVec 32) (ms : NameMethods α β) {x : AObj α β} (hx : ArrayOk x)
    {nms : ChrObj} {n : Nat} (hs : x.size = .ok n) (hd : nms.dim = none) (hl : nms.elts.length = n)
    {proxy owned : Bool} (hp : ¬ Dispatches x proxy) (hn : n ≤ 2147483647)
    (hlen : ∀ s, some s ∈ nms.elts → s.length ≤ 2147483619) :
    ∃ out, setNamesImpl h ms true x (some nms) proxy owned true = .ok (out, if owned then out else x) ∧
      SameButNames x out ∧ ∃ found, namesImpl ms out proxy = .ok found ∧ NamesAfter x proxy nms found := by
  have hsz : nms.size = .ok n := by unfold ChrObj.size; rw [hd, hl]
  obtain ⟨elts, dim⟩ := nms
  subst hd
  dsimp only at hl hlen hsz
  unfold setNamesImpl
  rw [checkNames_ok hs hsz, ok_bind]
  cases hr : x.rowNames with
  | some rn =>
    have hsr : rn.size = n := by
      unfold AObj.size at hs
      rw [hr] at hs
      injection hs
    dsimp only
    unfold setDfRownames
    dsimp only
    have hok : ∃ out, (if proxy = true then .ok ⟨elts, none⟩ else uniqueObj h ⟨elts, none⟩ : C ChrObj) =
        .ok ⟨out, none⟩ ∧ out.length = n ∧ (if proxy = true then out = elts else UniqueRepair elts out) := by
      cases proxy with
      | true => exact ⟨elts, rfl, hl, rfl⟩
      | false =>
        obtain ⟨out, h1, h2⟩ := C88_unique_partial h ⟨elts, none⟩ (by unfold OnePerRow ChrObj.size; rfl)
          (by dsimp only; omega) hlen
        exact ⟨out, h1, by rw [h2.size]; exact hl, h2⟩
    obtain ⟨out, h1, h2, h3⟩ := hok
    rw [h1, ok_bind]
    refine ⟨{ x with rowNames := some (.chr ⟨out, none⟩) }, ?_, ?_, some ⟨out, none⟩, ?_, ?_⟩
    · unfold afterClone
      cases owned <;> rfl
    · refine ⟨rfl, rfl, rfl, rfl, ?_, ?_, fun _ => rfl, fun j nms hj => Iff.rfl⟩
      · unfold AObj.size
        rw [hr]
        refine congrArg Except.ok ?_
        rw [hsr]
        exact h2
      · rw [hr]; simp
    · rfl
    · unfold NamesAfter
      rw [hr]
      cases proxy with
      | true =>
        rw [if_neg (by simp)]
        have : x.dim = none := hx.noDim (by rw [hr]; simp)
        rw [if_neg (by rw [this]; simp)]
        rw [if_pos rfl] at h3
        rw [h3]
      | false =>
        rw [if_pos (by simp)]
        exact ⟨out, by simpa using h3, rfl⟩
  | none =>
    have hobj : (!proxy && x.isObject) = false := by
      cases hpp : proxy with
      | true => rfl
      | false =>
        cases ho : x.isObject with
        | false => rfl
        | true => exact absurd ⟨hpp, ho, hr⟩ hp
    dsimp only
    cases hdim : x.dim with
    | some d =>
      rw [if_pos (show (some d).isSome = true from rfl)]
      unfold setRownames
      rw [hobj, if_neg (by decide)]
      have hbase : copyDimNames x = baseDimNames x d := by
        unfold copyDimNames baseDimNames
        rw [hdim]
        cases x.dimNames <;> rfl
      have h0 := size_dim hr hdim (hx.dims d hdim) hs
      obtain ⟨v, tl, hb, hset, -⟩ := rSetDimNames_ok hx hdim h0 (names := some ⟨elts, none⟩)
        (by intro nms hnms; injection hnms with hnms; subst hnms; exact ⟨hl, rfl⟩)
      dsimp only
      rw [ok_bind, if_neg (by decide), hbase, wr_ok (by rw [hb]; simp), ok_bind, hset, ok_bind]
      refine ⟨{ x with dimNames := some (dropEmpty (some ⟨elts, none⟩) :: tl) }, ?_,
        sameBut_dimNames hx hdim hr hb, dropEmpty (some ⟨elts, none⟩), ?_, ?_⟩
      · unfold afterClone
        cases owned <;> rfl
      · unfold namesImpl
        dsimp only
        rw [hr, hdim]
        rfl
      · unfold NamesAfter
        rw [hr, if_neg (by simp), hdim]
        dsimp only
        unfold dropEmpty
        dsimp only
        by_cases he : elts = []
        · rw [if_pos ⟨by simp, he⟩, if_pos (by simp [he])]
        · rw [if_neg (by simp [he]), if_neg (by simpa using he)]
    | none =>
      have hdl : x.data.length = n := by
        unfold AObj.size at hs
        rw [hr, hdim] at hs
        injection hs
      rw [if_neg (by simp), hobj, if_neg (by decide), if_neg (by simp)]
      have hset : rSetNames x (some ⟨elts, none⟩) = .ok { x with names := some ⟨elts, none⟩ } := by
        unfold rSetNames
        dsimp only
        rw [if_neg (by omega), hdl, hl, Nat.sub_self]
        simp
      refine ⟨{ x with names := some ⟨elts, none⟩ }, ?_, ?_, some ⟨elts, none⟩, ?_, ?_⟩
      · rw [hset]
        cases owned <;> rfl
      · refine ⟨rfl, rfl, rfl, rfl, by unfold AObj.size; rfl, Iff.rfl, ?_, fun j nms hj => Iff.rfl⟩
        rw [hr, hdim]
        simp
      · unfold namesImpl
        dsimp only
        rw [hr, hdim]
        dsimp only
        rw [hobj]
        rfl
      · unfold NamesAfter
        rw [hr, if_neg (by simp), hdim, if_neg (by simp)]

/-- **C88**: `NULL` removes the names and nothing else. -/
theorem C88_remove (h : List Name → BitVec 32) (ms : NameMethods α β) {x : AObj α β} (hx : ArrayOk x) {n : Nat}
    (hs : x.size = .ok n) {proxy owned : Bool} (hp : ¬ Dispatches x proxy) :
    ∃ out, setNamesImpl h ms true x none proxy owned true = .ok (out, if owned then out else x) ∧
      SameButNames x out ∧ namesImpl ms out proxy = .ok none := by
  have hself : SameButNames x x :=
    ⟨rfl, rfl, rfl, rfl, rfl, Iff.rfl, fun _ => rfl, fun _ _ _ => Iff.rfl⟩
  unfold setNamesImpl
  rw [show checkNames true x none = .ok () from rfl, ok_bind]
  cases hr : x.rowNames with
  | some rn =>
    dsimp only
    unfold setDfRownames
    dsimp only
    cases rn with
    | chr rn =>
      refine ⟨{ x with rowNames := some (.compact rn.elts.length) }, ?_, ?_, rfl⟩
      · unfold afterClone
        cases owned <;> rfl
      · refine ⟨rfl, rfl, rfl, rfl, ?_, ?_, fun _ => rfl, fun _ _ _ => Iff.rfl⟩
        · unfold AObj.size
          rw [hr]
          rfl
        · rw [hr]; simp
    | automatic m =>
      exact ⟨x, by cases owned <;> rfl, hself, by unfold namesImpl; rw [hr]⟩
    | compact m =>
      exact ⟨x, by cases owned <;> rfl, hself, by unfold namesImpl; rw [hr]⟩
  | none =>
    have hobj : (!proxy && x.isObject) = false := by
      cases hpp : proxy with
      | true => rfl
      | false =>
        cases ho : x.isObject with
        | false => rfl
        | true => exact absurd ⟨hpp, ho, hr⟩ hp
    dsimp only
    cases hdim : x.dim with
    | some d =>
      rw [if_pos (show (some d).isSome = true from rfl)]
      unfold setRownames
      rw [hobj, if_neg (by decide)]
      dsimp only
      cases hdn : x.dimNames with
      | none =>
        refine ⟨x, ?_, hself, ?_⟩
        · cases owned <;> rfl
        · unfold namesImpl
          rw [hr, hdim, hdn]
      | some dn =>
        have hdl := (hx.dimNames d dn hdim hdn).1
        have hpos := hx.dims d hdim
        dsimp only
        rw [rd_ok (by omega : 0 < dn.length), ok_bind, ok_bind]
        cases hv : dn[0] with
        | none =>
          refine ⟨x, ?_, hself, ?_⟩
          · cases owned <;> rfl
          · unfold namesImpl
            rw [hr, hdim, hdn]
            dsimp only
            rw [if_neg (by omega), rd_ok (by omega), hv]
        | some nms =>
          have h0 := size_dim hr hdim hpos hs
          obtain ⟨v, tl, hb, hset, -⟩ := rSetDimNames_ok hx hdim h0 (names := none) (by intro nms hnms; cases hnms)
          have hbase : baseDimNames x d = dn := by unfold baseDimNames; rw [hdn]
          rw [hbase] at hset
          rw [Option.isNone_some, if_neg (by decide)]
          have hcopy : copyDimNames x = dn := by unfold copyDimNames; rw [hdn]
          rw [hcopy, wr_ok (by omega), ok_bind, hset, ok_bind]
          refine ⟨{ x with dimNames := some (none :: tl) }, ?_, sameBut_dimNames hx hdim hr hb, ?_⟩
          · unfold afterClone
            cases owned <;> rfl
          · unfold namesImpl
            dsimp only
            rw [hr, hdim]
            rfl
    | none =>
      rw [if_neg (by simp), hobj, if_neg (by decide)]
      cases hnm : x.names with
      | none =>
        refine ⟨x, ?_, hself, ?_⟩
        · cases owned <;> rfl
        · unfold namesImpl
          rw [hr, hdim]
          dsimp only
          rw [hobj, hnm]
          rfl
      | some nms =>
        refine ⟨{ x with names := none }, ?_, ?_, ?_⟩
        · cases owned <;> rfl
        · refine ⟨rfl, rfl, rfl, rfl, by unfold AObj.size; rfl, Iff.rfl, ?_, fun _ _ _ => Iff.rfl⟩
          rw [hr, hdim]
          simp
        · unfold namesImpl
          dsimp only
          rw [hr, hdim]
          dsimp only
          rw [hobj]
          rfl

/-- **C88**: names that are not a character vector or not of the size of `x` are an error. -/
theorem C88_error (h : List Name → BitVec 32) (ms : NameMethods α β) {x : AObj α β} {names : Option ChrObj}
    {typeOk proxy owned referenced : Bool} {n : Nat} (hs : x.size = .ok n)
    (hbad : typeOk = false ∨ ∃ nms, names = some nms ∧ nms.size ≠ .ok n) :
    setNamesImpl h ms typeOk x names proxy owned referenced = .error .abort := by
  have hc : checkNames typeOk x names = .error .abort := by
    unfold checkNames
    cases typeOk with
    | false => rfl
    | true =>
      rcases hbad with hb | ⟨nms, rfl, hne⟩
      · cases hb
      · dsimp only
        rw [hs, ok_bind]
        have : ∃ m, nms.size = .ok m := by
          unfold ChrObj.size
          split <;> exact ⟨_, rfl⟩
        obtain ⟨m, hm⟩ := this
        rw [hm, ok_bind, if_pos]
        rintro rfl
        exact hne hm
  unfold setNamesImpl
  rw [hc]
  rfl

/-- `names<-` of R, used for vectors without dimensions: names are filled up with missing ones to the length of
the vector; more names than elements are an error. -/
theorem C88_pad (x : AObj α β) (elts : List Name) (d : Option (List Nat)) :
    (x.data.length < elts.length → rSetNames x (some ⟨elts, d⟩) = .error .abort) ∧
    ∀ k, elts.length + k = x.data.length →
      rSetNames x (some ⟨elts, d⟩) = .ok { x with names := some ⟨elts ++ List.replicate k none, none⟩ } := by
  refine ⟨fun h => ?_, fun k hk => ?_⟩
  · rw [rSetNames, if_pos h]
  · rw [rSetNames, if_neg (by simp only; omega), show x.data.length - elts.length = k by omega]

/-! ## Examples -/

/-- A matrix of two rows and three columns with names of the columns. -/
def C88_matrix : AObj Int Unit :=
  ⟨[1, 2, 3, 4, 5, 6], none, some [2, 3], some [none, some ⟨[some ['x'], some ['y'], some ['z']], none⟩], none, false, ()⟩

/-- A data frame of two rows. -/
def C88_df : AObj (List Int) Unit :=
  ⟨[[1, 2]], some ⟨[some ['x']], none⟩, none, none, some (.compact 2), true, ()⟩

/-- No methods. -/
def C88_ms {α : Type} : NameMethods α Unit := ⟨fun _ _ => .error .abort, fun _ _ => .error .abort, fun _ => .error .abort⟩

example : ArrayOk C88_matrix := by
  refine ⟨?_, ?_, ?_⟩
  · intro d hd; injection hd with hd; subst hd; decide
  · intro d dn hd hdn
    injection hd with hd
    injection hdn with hdn
    subst hd hdn
    refine ⟨rfl, ?_⟩
    intro j e nms he hv
    match j with
    | 0 => simp at hv
    | 1 => cases he; cases hv; exact ⟨rfl, by decide, rfl⟩
    | j + 2 => simp at he
  · intro h; exact absurd rfl h

example : ¬ Dispatches C88_matrix false := fun h => by cases h.2.1

example : setNamesImpl (fun _ => 0) C88_ms true C88_matrix (some ⟨[some ['a'], some ['b']], none⟩) false false true =
    .ok ({ C88_matrix with dimNames := some [some ⟨[some ['a'], some ['b']], none⟩,
      some ⟨[some ['x'], some ['y'], some ['z']], none⟩] }, C88_matrix) := by decide +kernel

example : setNamesImpl (fun _ => 0) C88_ms true C88_df (some ⟨[some ['a'], some ['a']], none⟩) false false true =
    .ok ({ C88_df with rowNames := some (.chr ⟨[some "a...1".toList, some "a...2".toList], none⟩) }, C88_df) := by
  decide +kernel

-- a matrix of one column
example : OnePerRow ⟨[some ['a'], some ['a']], some [2, 1]⟩ := rfl

example : uniqueObj (fun _ => 0) ⟨[some ['a'], some ['a']], some [2, 1]⟩ =
    .ok ⟨[some "a...1".toList, some "a...2".toList], some [2, 1]⟩ := by decide +kernel

/-- A matrix of four strings has the size of a data frame of two rows and becomes its row names: the data frame has
four rows then, and columns of two. -/
theorem C88_df_wrong (h : List Name → BitVec 32) :
    ∃ out, setNamesImpl h C88_ms true C88_df (some ⟨[some ['a'], some ['b'], some ['b'], some ['a']], some [2, 2]⟩)
      false false true = .ok (out, C88_df) ∧ out.size = .ok 4 ∧ C88_df.size = .ok 2 ∧ out.data = C88_df.data := by
  refine ⟨{ C88_df with rowNames := some (.chr ⟨[some ['a'], some ['b'], some ['b'], some ['a']], some [2, 2]⟩) }, ?_,
    rfl, rfl, rfl⟩
  unfold setNamesImpl
  rw [show checkNames true C88_df (some ⟨[some ['a'], some ['b'], some ['b'], some ['a']], some [2, 2]⟩) = .ok () from rfl,
    ok_bind]
  show setDfRownames h C88_df (.compact 2) _ false false true = _
  unfold setDfRownames
  dsimp only
  rw [if_neg (by decide), C88_unique_wrong]
  rfl

end Vctrs
