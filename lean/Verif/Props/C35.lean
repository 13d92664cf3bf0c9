import Verif.Lemmas.OrderRestore
import Verif.Props.ExOrder

/-! # C35: ordering leaves every string's shared metadata as it found it

Full statement: ordering in sorted order or in order of appearance, and grouping, of any columns
with any TRUELENGTHs before the call, leaves the TRUELENGTH of every string as it was.
`C35_negative` shows that it does not hold for the order of appearance if a TRUELENGTH is negative
before.  An error or interrupt while ordering is not part of the model. -/

namespace Vctrs

open Spec

/-- Any columns, any TRUELENGTHs before, a sorted order: when the ordering returns, every string
has its TRUELENGTH from before. -/
theorem C35_restored (x : Val) (hz : ∀ v ∈ leaves x, v.size = x.size)
    (hb : ∀ xs : List Name, .vec (.atom .chr) xs ∈ leaves x → ∀ s, some s ∈ xs → ByteString s)
    (direction naValue : List Name) (nanDistinct groupSizes : Bool) (tl : TL) (static : List Nat)
    (fuel : Nat) (info : OrderInfo) (tl' : TL) (static' : List Nat)
    (h : vecOrderInfo fuel x direction naValue nanDistinct true groupSizes tl static =
      .ok (info, tl', static')) : tl' = tl := by
  refine vecOrderInfo_restores (fun h => by cases h) hz (fun v hv => ?_) _ h
  intro xs hxs
  match v, hv, hxs with
  | .vec (.atom .chr) (ys : List Name), hv, hxs =>
    cases hxs
    exact ⟨Nat.le_of_eq (hz _ hv), hb _ hv⟩

/-- The same for `vec_locate_sorted_groups()`. -/
theorem C35_groups (x : Val) (hz : ∀ v ∈ leaves x, v.size = x.size)
    (hb : ∀ xs : List Name, .vec (.atom .chr) xs ∈ leaves x → ∀ s, some s ∈ xs → ByteString s)
    (direction naValue : List Name) (nanDistinct : Bool) (tl : TL) (static : List Nat)
    (fuel : Nat) (g : List Int × List (List Int)) (tl' : TL) (static' : List Nat)
    (h : vecLocateSortedGroups fuel x direction naValue nanDistinct tl static =
      .ok (g, tl', static')) : tl' = tl := by
  suffices H : Post (vecLocateSortedGroups fuel x direction naValue nanDistinct tl static)
      (fun r => r.2.1 = tl) from H _ h
  unfold vecLocateSortedGroups
  refine Post.bind (P := fun r => r.2.1 = tl)
    (fun r hr => C35_restored x hz hb _ _ _ _ _ _ _ r.1 r.2.1 r.2.2 hr) ?_
  rintro ⟨info, tl1, st1⟩ h1
  dsimp only
  split
  · exact Post.error
  · exact Post.seq (fun a => Post.seq (fun b => Post.seq (fun c => Post.ok h1)))

/-- TRUELENGTHs that are not negative before, order of appearance: when the ordering returns, every
string has its TRUELENGTH from before.  Missing: negative ones. -/
theorem C35_appearance_partial (x : Val) (hz : ∀ v ∈ leaves x, v.size = x.size)
    (hb : ∀ xs : List Name, .vec (.atom .chr) xs ∈ leaves x → ∀ s, some s ∈ xs → ByteString s)
    (direction naValue : List Name) (nanDistinct groupSizes : Bool) (tl : TL)
    (h0 : ∀ u, 0 ≤ tl u) (static : List Nat)
    (fuel : Nat) (info : OrderInfo) (tl' : TL) (static' : List Nat)
    (h : vecOrderInfo fuel x direction naValue nanDistinct false groupSizes tl static =
      .ok (info, tl', static')) : tl' = tl := by
  refine vecOrderInfo_restores (fun _ => h0) hz (fun v hv => ?_) _ h
  intro xs hxs
  match v, hv, hxs with
  | .vec (.atom .chr) (ys : List Name), hv, hxs =>
    cases hxs
    exact ⟨Nat.le_of_eq (hz _ hv), hb _ hv⟩

/-- TRUELENGTHs that are not negative before, no complex column but the first: the ordering does
return. -/
theorem C35_returns (x : Val) (hn : x.size ≤ intMax) (hs : ∀ p ∈ leaves x, Sortable x.size p)
    (hc : ∀ (i : Nat) (p : Val), 0 < i → (leaves x)[i]? = some p → ¬ IsComplex p)
    (direction naValue : List Name) (ds ns : List Bool)
    (hd : ForColumns IsDirection direction (columns x).length ds)
    (hna : ForColumns IsNaValue naValue (columns x).length ns) (nanDistinct groupSizes : Bool)
    (tl : TL) (h0 : ∀ u, 0 ≤ tl u) (fuel : Nat) (hf : (leaves x).length ≤ fuel) :
    ∃ info, vecOrderInfo fuel x direction naValue nanDistinct true groupSizes tl
      (List.replicate 100001 0) = .ok (info, tl, List.replicate 100001 0) := by
  obtain ⟨⟨info, tl', st'⟩, h, h1, h2, _⟩ :=
    vecOrderInfo_ok nanDistinct groupSizes hn hs hc hd hna h0 (static := List.replicate 100001 0)
      rfl (fun _ => hf)
  dsimp only at h1 h2
  subst h1 h2
  exact ⟨info, h⟩

/-- The string `"a"` has a TRUELENGTH of -1. -/
def C35_tl : TL := fun u => if u = some ['a'] then -1 else 0

/-- A TRUELENGTH that is negative before makes the ordering by appearance write out of bounds. -/
theorem C35_negative : vecOrderInfo 0 (.vec (.atom .chr) [some ['a']]) exAsc exSmallest true false
    true C35_tl exStatic = .error .ub := exErr_eq (by decide +kernel)

/-- The TRUELENGTHs before: 7 for `"b"`, -3 for `"a"`, 2 for `NA`, 0 for others. -/
def C35_tl' : TL := fun u =>
  if u = some ['b'] then 7 else if u = some ['a'] then -3 else if u = none then 2 else 0

/-- The TRUELENGTHs after an ordering. -/
def C35_after (r : C (OrderInfo × TL × List Nat)) (u : Name) : Option Int :=
  match r with
  | .ok (_, tl, _) => some (tl u)
  | .error _ => none

/-- `"b"`, `"c"`, `"a"`, NA, `"b"`, `"a"` are marked while they are ordered. -/
def C35_x : List Name := [some ['b'], some ['c'], some ['a'], none, some ['b'], some ['a']]

example : (chrMarkSortedUniques 6 C35_x ⟨C35_tl', TlInfo.new 6⟩).toOption.map
    (fun s => C35_x.map s.tl) = some [-1, -2, -3, 2, -1, -3] := by decide +kernel

example : C35_x.map (C35_after (vecOrderInfo 0 (.vec (.atom .chr) C35_x) exAsc exSmallest true true
    true C35_tl' exStatic)) = [some 7, some 0, some (-3), some 2, some 7, some (-3)] := by
  decide +kernel

example : exRun (vecOrderInfo 0 (.vec (.atom .chr) C35_x) exAsc exSmallest true false true exTl
    exStatic) = some ⟨[1, 5, 2, 3, 6, 4], some ([2, 1, 2, 1], 2)⟩ := by decide +kernel

end Vctrs
