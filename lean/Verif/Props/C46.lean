import Verif.Lemmas.Assign
import Verif.Props.C49

/-!
# C46: assignment then slicing reads back the last value written
-/

namespace Vctrs

open Spec

variable {α : Type}

/-- `i` is the last of the locations `loc 0 … loc (m-1)` that names position `p` (0-based). -/
def LastOccurrence (loc : Nat → Option Int) (m p i : Nat) : Prop :=
  i < m ∧ loc i = some ((p : Int) + 1) ∧ ∀ j, i < j → j < m → loc j ≠ some ((p : Int) + 1)

/-- A location vector or a compact sequence; assignment has no compact repetitions. -/
def NotRep : Subscript → Prop
  | .rep _ _ => False
  | _ => True

theorem assignBase_ret {x : List α} {s : Subscript} {value : List α} (hs : SubscriptOk x.length s)
    (hr : NotRep s) (hlen : (value.length : Int) = subscriptSize s) :
    Ret (assignBase x s value) (fun out => out.length = x.length ∧
      ∀ p, p < x.length → Written x (subscriptAt s) (fun i => value[i]?) (subscriptSize s).toNat p p out) := by
  cases s with
  | rep i n => exact hr.elim
  | seq start n step =>
    obtain ⟨h0, h1, h2, h3, h4⟩ := hs
    obtain ⟨m, rfl⟩ := Int.eq_ofNat_of_zero_le h0
    simp only [subscriptSize] at hlen
    exact assignCompact_ok (by omega) (fun j hj => h4 j (by omega))
  | locs l =>
    simp only [subscriptSize] at hlen
    exact assignIndex_ok (by omega) hs

/-- **C46** (`vec_assign()`, bare vectors): positions hold the value of their last occurrence among
the locations, positions not mentioned keep their element (missing locations name no position), and
the size is unchanged. -/
theorem C46_assign {x : List α} {s : Subscript} {value : List α} (hs : SubscriptOk x.length s)
    (hr : NotRep s) (hlen : (value.length : Int) = subscriptSize s) :
    ∃ out, assignBase x s value = .ok out ∧ out.length = x.length ∧
      (∀ p i, LastOccurrence (subscriptAt s) value.length p i → out[p]? = value[i]?) ∧
      (∀ p : Nat, (∀ i, i < value.length → subscriptAt s i ≠ some ((p : Int) + 1)) → out[p]? = x[p]?) := by
  obtain ⟨out, ho, h1, h2⟩ := assignBase_ret hs hr hlen
  have hm : (subscriptSize s).toNat = value.length := by omega
  rw [hm] at h2
  refine ⟨out, ho, h1, fun p i hi => ?_, fun p hp => ?_⟩
  · have hpx : p < x.length := by
      obtain ⟨h3, h4, _⟩ := hi
      cases s with
      | rep i n => exact hr.elim
      | seq start n step =>
        simp only [subscriptAt] at h4
        split at h4
        · rename_i hc
          have := hs.2.2.2.2 i hc
          injection h4; omega
        · cases h4
      | locs l =>
        have := hs _ (List.mem_of_getElem? h4)
        simp only [naInt] at this
        omega
    exact (h2 p hpx).1 i hi
  · by_cases hpx : p < x.length
    · exact (h2 p hpx).2 hp
    · rw [List.getElem?_eq_none (by omega), List.getElem?_eq_none (by omega)]

/-- Location 2 occurs twice, one location is missing, positions 1 and 4 are not mentioned. -/
example : assignBase [10, 20, 30, 40] (.locs [2, naInt, 3, 2]) [1, 2, 3, 4] = .ok [10, 4, 3, 40] := by
  decide +kernel

example : SubscriptOk 4 (.locs [2, naInt, 3, 2]) ∧ NotRep (.locs [2, naInt, 3, 2]) ∧
    LastOccurrence (subscriptAt (.locs [2, naInt, 3, 2])) 4 1 3 := by
  refine ⟨?_, trivial, by omega, rfl, fun j h1 h2 => by omega⟩
  intro v hv; simp at hv; rcases hv with rfl | rfl | rfl | rfl <;> simp [naInt]

/-- Values of the wrong size never reach the buffer. -/
theorem C46_assign_size {x : List α} {l : List Int} {value : List α} (h : value.length ≠ l.length) :
    assignBase x (.locs l) value = .error .internal := by
  simp only [assignBase, assignIndex]
  rw [if_pos (by omega)]

/-- **C46** (slicing): element `i` of a slice is the element at the `i`-th location, or missing. -/
theorem C46_slice (na : α) {x : List α} {s : Subscript} (hs : SubscriptOk x.length s) :
    ∃ out, sliceBase na x s = .ok out ∧ out.length = (subscriptSize s).toNat ∧
      ∀ i, i < (subscriptSize s).toNat → ∃ loc, subscriptAt s i = some loc ∧
        out[i]? = if loc = naInt then some na else x[(loc - 1).toNat]? := by
  obtain ⟨out, h1, h2, h3⟩ := sliceBase_ok na hs
  exact ⟨out, h1, h2, h3⟩

/-- **C46** (read back): slicing the result at the assigned locations gives, for every location, the
value of that location's last occurrence. -/
theorem C46_read_back (na : α) {x : List α} {s : Subscript} {value : List α} (hs : SubscriptOk x.length s)
    (hr : NotRep s) (hlen : (value.length : Int) = subscriptSize s) :
    ∃ out back, assignBase x s value = .ok out ∧ sliceBase na out s = .ok back ∧
      back.length = value.length ∧
      ∀ i, i < value.length → ∃ loc, subscriptAt s i = some loc ∧ (loc = naInt → back[i]? = some na) ∧
        ∀ j, LastOccurrence (subscriptAt s) value.length (loc - 1).toNat j → loc ≠ naInt →
          back[i]? = value[j]? := by
  obtain ⟨out, ho, h1, h2, h3⟩ := C46_assign hs hr hlen
  obtain ⟨back, hb, h4, h5⟩ := C46_slice na (x := out) (s := s) (by rw [h1]; exact hs)
  have hm : (subscriptSize s).toNat = value.length := by omega
  rw [hm] at h4 h5
  refine ⟨out, back, ho, hb, h4, fun i hi => ?_⟩
  obtain ⟨loc, hl, hbk⟩ := h5 i hi
  refine ⟨loc, hl, fun hna => by rw [hbk, if_pos hna], fun j hj hna => ?_⟩
  rw [hbk, if_neg hna]
  exact h2 _ j hj

/-- **C46** (read back, distinct locations): the values come back unchanged. -/
theorem C46_round_trip (na : α) {x : List α} {l : List Int} {value : List α}
    (hs : ∀ v ∈ l, 1 ≤ v ∧ v ≤ (x.length : Int)) (hd : l.Nodup) (hlen : value.length = l.length) :
    ∃ out, assignBase x (.locs l) value = .ok out ∧ sliceBase na out (.locs l) = .ok value := by
  obtain ⟨out, back, ho, hb, h1, h2⟩ := C46_read_back na (x := x) (s := .locs l) (value := value)
    (fun v hv => Or.inr (hs v hv)) trivial (by simp [subscriptSize, hlen])
  refine ⟨out, ho, ?_⟩
  rw [hb]
  congr 1
  refine List.ext_getElem? (fun i => ?_)
  by_cases hi : i < value.length
  · obtain ⟨loc, hl, _, h3⟩ := h2 i hi
    have hr := hs loc (List.mem_of_getElem? hl)
    refine h3 i ⟨hi, by rw [hl]; congr 1; omega, ?_⟩ (by simp only [naInt]; omega)
    intro j h4 h5 h6
    simp only [subscriptAt] at hl h6
    have h7 : l[j]? = l[i]? := by rw [h6, hl]; congr 1; omega
    have hil : i < l.length := by omega
    have hjl : j < l.length := by omega
    rw [List.getElem?_eq_getElem hil, List.getElem?_eq_getElem hjl] at h7
    have := (List.getElem_inj (h₀ := hjl) (h₁ := hil) hd).1 (Option.some.inj h7)
    omega
  · rw [List.getElem?_eq_none (by omega), List.getElem?_eq_none (by omega)]

example : assignBase [10, 20, 30] (.locs [3, 1]) [1, 2] = .ok [2, 20, 1] ∧
    sliceBase 0 [2, 20, 1] (.locs [3, 1]) = .ok [1, 2] := by decide +kernel

/-- **C46** (no aliasing): `vec_assign()` changes no existing object except `x` itself, and that
only when `x` has no references.  A referenced `x` gets a fresh result. -/
theorem C46_unshared {heap heap' : List (HeapVec α)} {x out : Nat} {s : Subscript} {value : List α}
    (h : assignHeap heap x s value = .ok (heap', out)) :
    (∃ o data, heap[x]? = some o ∧ assignBase o.data s value = .ok data ∧
      (∃ refs, heap'[out]? = some ⟨data, refs⟩) ∧
      (0 < o.refs → heap.length ≤ out ∧ heap'[x]? = some o)) ∧
    ∀ a, a < heap.length → a ≠ x → heap'[a]? = heap[a]? := by
  unfold assignHeap at h
  cases hx : heap[x]? with
  | none => simp [rd, hx] at h
  | some o =>
    have hlt : x < heap.length := (List.getElem?_eq_some_iff.1 hx).1
    simp only [rd_of_getElem? hx, ok_bind, cloneReferenced] at h
    by_cases href : 0 < o.refs
    · have e1 : decide (o.refs = 0) = false := by simp; omega
      have e2 : decide (0 < o.refs) = true := by simpa using href
      rw [e1, e2] at h
      simp only [Bool.not_false, Bool.true_and, if_true, ok_bind] at h
      have hget : (heap ++ [(⟨o.data, 0⟩ : HeapVec α)])[heap.length]? = some ⟨o.data, 0⟩ := by simp
      rw [rd_of_getElem? hget] at h
      simp only [ok_bind] at h
      cases ha : assignBase o.data s value with
      | error e => rw [ha] at h; cases h
      | ok data =>
        rw [ha] at h
        simp only [ok_bind] at h
        rw [wr_ok (by simp)] at h
        simp only [ok_bind] at h
        injection h with h
        injection h with h1 h2
        subst h1 h2
        refine ⟨⟨o, data, rfl, ha, ⟨0, by simp⟩, fun _ => ⟨by omega, ?_⟩⟩, fun a ha' _ => ?_⟩
        · rw [List.getElem?_set_ne (by omega), List.getElem?_append_left hlt, hx]
        · rw [List.getElem?_set_ne (by omega), List.getElem?_append_left ha']
    · have e1 : decide (o.refs = 0) = true := by simp; omega
      rw [e1] at h
      simp only [Bool.not_true, Bool.false_and] at h
      rw [if_neg (by decide)] at h
      simp only [ok_bind] at h
      rw [rd_of_getElem? hx] at h
      simp only [ok_bind] at h
      cases ha : assignBase o.data s value with
      | error e => rw [ha] at h; cases h
      | ok data =>
        rw [ha] at h
        simp only [ok_bind] at h
        rw [wr_ok hlt] at h
        simp only [ok_bind] at h
        injection h with h
        injection h with h1 h2
        subst h1 h2
        refine ⟨⟨o, data, rfl, ha, ⟨o.refs, by simp [hlt]⟩, fun hc => absurd hc href⟩, fun a _ hne => ?_⟩
        rw [List.getElem?_set_ne (by omega)]

example : assignHeap [⟨[1, 2, 3], 2⟩, ⟨[7], 1⟩] 0 (.locs [2]) [9] =
    .ok ([⟨[1, 2, 3], 2⟩, ⟨[7], 1⟩, ⟨[1, 9, 3], 0⟩], 2) := by decide +kernel

/-- **C46** (arrays): the same in every column; `value` is an array with the same shape and one row
per location.  Products of dimensions have to fit `int`, see C49. -/
theorem C46_assign_array {d : Nat} {ds : List Nat} {x : List α} {value : List α} {l : List Int}
    (hfit : DimsFit (d :: ds)) (hx : x.length = (d :: ds).prod) (hs : SubscriptOk d (.locs l))
    (hval : value.length = (l.length :: ds).prod) :
    ∃ out, assignShapedIndex (d :: ds) x l value = .ok out ∧ out.length = x.length ∧
      ∀ p js, p < d → ValidIndex ds js →
        (∀ i, LastOccurrence (fun i => l[i]?) l.length p i →
          out[arrayOffset (d :: ds) (p :: js)]? = value[arrayOffset (l.length :: ds) (i :: js)]?) ∧
        ((∀ i, i < l.length → l[i]? ≠ some ((p : Int) + 1)) →
          out[arrayOffset (d :: ds) (p :: js)]? = x[arrayOffset (d :: ds) (p :: js)]?) := by
  have hok := dimOk_of_fit hfit
  rw [List.prod_cons] at hx hval
  have hd : d ≤ intMax := by simpa using (hfit.2 1 (by simp)).1
  obtain ⟨out, ho, h1, h2⟩ := assignShapedIndex_ok hok hx hd hs hval
  refine ⟨out, ho, h1, fun p js hp hjs => ?_⟩
  have := h2 _ (offset_lt hjs) p hp
  rw [if_pos (offset_lt hjs)] at this
  simp only [arrayOffset]
  rw [Nat.add_comm p]
  refine ⟨fun i hi => ?_, this.2⟩
  rw [Nat.add_comm i]
  exact this.1 i hi

/-- A 2 × 3 matrix; row 2 is assigned twice. -/
example : assignShapedIndex [2, 3] [1, 2, 3, 4, 5, 6] [2, naInt, 2] [10, 20, 30, 40, 50, 60, 70, 80, 90] =
    .ok [1, 30, 3, 60, 5, 90] := by decide +kernel

/-- **C46** (data frames): every column is assigned by the rule for vectors. -/
theorem C46_assign_df {x : List (List α)} {s : Subscript} {value : List (List α)} {n : Nat}
    (hcols : ∀ c ∈ x, c.length = n) (hv : value.length = x.length)
    (hvcols : ∀ c ∈ value, (c.length : Int) = subscriptSize s) (hs : SubscriptOk n s) (hr : NotRep s) :
    ∃ out, dfAssign x s value = .ok out ∧ out.length = x.length ∧
      ∀ (j : Nat) xc vc, x[j]? = some xc → value[j]? = some vc →
        ∃ oc, out[j]? = some oc ∧ assignBase xc s vc = .ok oc := by
  suffices h : Ret (dfAssign x s value) (fun out => out.length = x.length ∧
      ∀ (j : Nat) xc vc, x[j]? = some xc → value[j]? = some vc →
        ∃ oc, out[j]? = some oc ∧ assignBase xc s vc = .ok oc) by
    obtain ⟨out, h1, h2, h3⟩ := h
    exact ⟨out, h1, h2, h3⟩
  unfold dfAssign
  rw [if_neg (by omega)]
  refine Ret.mono (Ret.forN (fun t (out : List (List α)) => out.length = x.length ∧
    (∀ j : Nat, t ≤ j → out[j]? = x[j]?) ∧
    ∀ (j : Nat) xc vc, j < t → x[j]? = some xc → value[j]? = some vc →
        ∃ oc, out[j]? = some oc ∧ assignBase xc s vc = .ok oc) ⟨rfl, fun _ _ => rfl, fun j _ _ h => by omega⟩ ?_) ?_
  · rintro t out ht ⟨h1, h2, h3⟩
    have hto : out[t]? = some x[t] := by rw [h2 t (Nat.le_refl _), List.getElem?_eq_getElem ht]
    have htv : t < value.length := by omega
    refine Ret.bind_eq (rd_of_getElem? hto) ?_
    refine Ret.bind_eq (rd_ok htv) ?_
    have hxl : x[t].length = n := hcols _ (List.getElem_mem ht)
    obtain ⟨oc, ha, _⟩ := C46_assign (x := x[t]) (value := value[t]) (by rw [hxl]; exact hs) hr
      (hvcols _ (List.getElem_mem htv))
    refine Ret.bind_eq ha ?_
    have hlt : t < out.length := by omega
    refine Ret.of_eq (wr_ok hlt) ⟨by simpa using h1, fun j hj => ?_, fun j xc vc hj hxc hvc => ?_⟩
    · rw [List.getElem?_set_ne (by omega)]; exact h2 j (by omega)
    · by_cases hjt : j = t
      · subst hjt
        rw [List.getElem?_eq_getElem ht] at hxc
        rw [List.getElem?_eq_getElem htv] at hvc
        cases hxc; cases hvc
        exact ⟨oc, by simp [hlt], ha⟩
      · rw [List.getElem?_set_ne (by omega)]; exact h3 j xc vc (by omega) hxc hvc
  · rintro out ⟨h1, _, h3⟩
    exact ⟨h1, fun j xc vc hxc hvc => h3 j xc vc (List.getElem?_eq_some_iff.1 hxc).1 hxc hvc⟩

example : dfAssign [[1, 2, 3], [4, 5, 6]] (.locs [2, 2]) [[8, 9], [10, 11]] =
    .ok [[1, 9, 3], [4, 11, 6]] := by decide +kernel

end Vctrs
