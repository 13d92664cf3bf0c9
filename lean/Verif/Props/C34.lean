import Verif.Props.ExOrder

/-! # C34: data frame ordering is lexicographic, stable, and terminates without out-of-bounds access

Full statement: as `C34_partial`, without the hypothesis that only the first of the vectors to
order by is complex.  `C34_out_of_bounds` and `C34_never_ends` are data frames for which it does
not hold. -/

namespace Vctrs

open Spec

/-- `vec_order_info_impl()` of a data frame, of which only the first column may be complex
(data frame columns are taken apart into their columns): the rows are ordered by the first column,
ties by the second and so on, each in its direction and with its place for missing values; rows
tied in all columns stay in order.  It ends and makes no access out of bounds. -/
theorem C34_partial (x : Val) (hn : x.size ≤ intMax) (hs : ∀ p ∈ leaves x, Sortable x.size p)
    (hc : ∀ (i : Nat) (p : Val), 0 < i → (leaves x)[i]? = some p → ¬ IsComplex p)
    (direction naValue : List Name) (ds ns : List Bool)
    (hd : ForColumns IsDirection direction (columns x).length ds)
    (hna : ForColumns IsNaValue naValue (columns x).length ns) (nanDistinct : Bool) (tl : TL)
    (h0 : ∀ u, 0 ≤ tl u) (fuel : Nat) (hf : (leaves x).length ≤ fuel) :
    ∃ (o : List Int) (sizes : List Nat) (m : Nat),
      vecOrderInfo fuel x direction naValue nanDistinct true true tl (List.replicate 100001 0) =
        .ok (⟨o, some (sizes, m)⟩, tl, List.replicate 100001 0) ∧
      StableOrder (RowBefore nanDistinct (sortKeys x ds ns)) x.size o ∧
      GroupSizes (RowBefore nanDistinct (sortKeys x ds ns)) x.size o sizes m :=
  OrderInfoOk.groups (vecOrderInfo_ok nanDistinct true hn hs hc hd hna h0 rfl (fun _ => hf))

/-- `vec_order()` gives the order alone. -/
theorem C34_order_only_partial (x : Val) (hn : x.size ≤ intMax)
    (hs : ∀ p ∈ leaves x, Sortable x.size p)
    (hc : ∀ (i : Nat) (p : Val), 0 < i → (leaves x)[i]? = some p → ¬ IsComplex p)
    (direction naValue : List Name) (ds ns : List Bool)
    (hd : ForColumns IsDirection direction (columns x).length ds)
    (hna : ForColumns IsNaValue naValue (columns x).length ns) (nanDistinct : Bool) (tl : TL)
    (h0 : ∀ u, 0 ≤ tl u) (fuel : Nat) (hf : (leaves x).length ≤ fuel) :
    ∃ o : List Int, vecOrder fuel x direction naValue nanDistinct tl (List.replicate 100001 0) =
        .ok (o, tl, List.replicate 100001 0) ∧
      StableOrder (RowBefore nanDistinct (sortKeys x ds ns)) x.size o :=
  OrderInfoOk.alone (vecOrderInfo_ok nanDistinct false hn hs hc hd hna h0 rfl (fun _ => hf))

/-! ## Where complex columns follow -/

/-- 0 as a complex number. -/
def cpl0 : Dbl × Dbl := (0#64, 0#64)

/-- The smallest positive number as a complex number. -/
def cpl1 : Dbl × Dbl := (1#64, 0#64)

/-- Six rows: 1, 1, 2, 2, 3, 3 and complex zeros. -/
def C34_three : Val := .df 6 [.vec (.atom .int) ([1, 1, 2, 2, 3, 3] : List Int),
  .vec (.atom .cpl) (List.replicate 6 cpl0)]

/-- Three groups of ties before a complex column: the column at index -1 is read. -/
theorem C34_out_of_bounds : (∀ p ∈ leaves C34_three, Sortable 6 p) ∧
    vecOrderInfo 10 C34_three exAsc exSmallest true true true exTl exStatic = .error .ub := by
  constructor
  · intro p hp
    simp only [C34_three, leaves, leavesAll, List.append_nil, List.mem_cons, List.not_mem_nil,
      or_false, List.singleton_append] at hp
    rcases hp with rfl | rfl
    · refine ⟨rfl, ?_⟩
      unfold IsInt
      decide
    · rfl
  · exact exErr_eq (by decide +kernel)

/-- Two complex columns of four rows: zero, zero, and twice the smallest positive
number; and zeros. -/
def C34_cols : List Val := [.vec (.atom .cpl) [cpl0, cpl0, cpl1, cpl1],
  .vec (.atom .cpl) (List.replicate 4 cpl0)]

/-- The groups while the two columns are processed. -/
def C34_groups (second : Bool) : GroupInfos :=
  ⟨⟨[some 2, some 2, none, none], 2, 2⟩, ⟨[some 2, some 2, none, none], 2, 2⟩, 4, second, false,
    false⟩

/-- After the second column comes the first. -/
theorem C34_back (ts : TlState) (static : List Nat) :
    dfColumn true true 4 2048 C34_cols [false] [false] 1
      ⟨[1, 2, 3, 4], ts, ⟨static, C34_groups true⟩, false, false, false⟩ =
    .ok (⟨[1, 2, 3, 4], ts, ⟨static, C34_groups false⟩, true, false, false⟩, -1) := by cbv

/-- After the first column comes the second. -/
theorem C34_forth (ts : TlState) (static : List Nat) :
    dfColumn true true 4 2048 C34_cols [false] [false] 0
      ⟨[1, 2, 3, 4], ts, ⟨static, C34_groups false⟩, true, false, false⟩ =
    .ok (⟨[1, 2, 3, 4], ts, ⟨static, C34_groups true⟩, false, false, false⟩, 0) := by cbv

theorem C34_loop (ts : TlState) (static : List Nat) : ∀ fuel : Nat,
    dfLoop true true 4 2048 C34_cols [false] [false] fuel 1
      ⟨[1, 2, 3, 4], ts, ⟨static, C34_groups true⟩, false, false, false⟩ = .error .diverge
  | 0 => rfl
  | 1 => by
    rw [dfLoop, if_pos (by decide), if_neg (by show ¬ (2 = 4); decide), C34_back]
    rfl
  | fuel + 2 => by
    rw [dfLoop, if_pos (by decide), if_neg (by show ¬ (2 = 4); decide), C34_back, ok_bind]
    dsimp only
    rw [dfLoop, if_pos (by decide), if_neg (by show ¬ (2 = 4); decide)]
    have e : (-1 : Int) + 1 = 0 := rfl
    rw [e, C34_forth, ok_bind]
    exact C34_loop ts static fuel

/-- Two groups of ties in a complex column before a complex column: however many rounds the loop
over the columns gets, it does not end. -/
theorem C34_never_ends (tl : TL) (static : List Nat) (fuel : Nat) :
    vecOrderInfo fuel (.df 4 C34_cols) exAsc exSmallest true true false tl static =
      .error .diverge := by
  have h : ∀ c : C DfLoop, c = .error .diverge → (c >>= fun s => .ok (s.o, s.ts, s.st) :
      C (List Int × TlState × OrdState)) = .error .diverge := by
    rintro _ rfl; rfl
  have h1 : parseArg parseDirectionOne exAsc = .ok [false] := by cbv
  have h2 : parseArg parseNaValueOne exSmallest = .ok [false] := by cbv
  have h3 : orderExpandArgs (.df 4 C34_cols) [false] [false] = .ok ([false], [false]) := by cbv
  have h4 : orderRecycleArgs [false] [false] = .ok ([false], [false]) := by cbv
  have h5 : computeNaLast [false] [false] = .ok [false] := by cbv
  have h6 : proxyVal (.df 4 C34_cols) = .ok (.df 4 C34_cols) := by cbv
  have h7 : nBytesCountsAll (.df 4 C34_cols) = .ok 8 := by cbv
  have h8 : orderBaseSwitch false false true true 2048 (.vec (.atom .cpl) [cpl0, cpl0, cpl1, cpl1])
      ⟨tl, TlInfo.new 4⟩ ⟨static, GroupInfos.new 4 false false⟩ =
      .ok ([1, 2, 3, 4], ⟨tl, TlInfo.new 4⟩, ⟨static, C34_groups true⟩) := by cbv
  have h9 : orderSwitch fuel true true 4 2048 (.df 4 C34_cols) [false] [false]
      ⟨tl, TlInfo.new 4⟩ ⟨static, GroupInfos.new 4 false false⟩ = .error .diverge := by
    unfold orderSwitch dfOrder dfOrderInternal
    dsimp only
    rw [if_neg (by simp), if_neg (by simp), if_neg (by simp [C34_cols])]
    have r0 : rd C34_cols 0 = .ok (.vec (.atom .cpl) [cpl0, cpl0, cpl1, cpl1]) := rfl
    have r1 : rd [false] 0 = .ok false := rfl
    rw [r0, ok_bind, r1, ok_bind, ok_bind, h8, ok_bind]
    dsimp only
    rw [C34_loop]
    rfl
  unfold vecOrderInfo
  rw [h1, ok_bind, h2, ok_bind, h3, ok_bind]
  dsimp only
  rw [h4, ok_bind]
  dsimp only
  rw [h5, ok_bind, h6, ok_bind, h7, ok_bind]
  show (orderSwitch fuel true true 4 2048 (.df 4 C34_cols) [false] [false]
      ⟨tl, TlInfo.new 4⟩ ⟨static, GroupInfos.new 4 false false⟩ >>= _) = _
  rw [h9]
  rfl

/-- The columns that are never ordered are of a type that can be. -/
example : ∀ p ∈ leaves (.df 4 C34_cols), Sortable 4 p := by
  intro p hp
  simp only [C34_cols, leaves, leavesAll, List.append_nil, List.mem_cons, List.not_mem_nil,
      or_false, List.singleton_append] at hp
  rcases hp with rfl | rfl <;> rfl

/-! ## Example -/

/-- A complex column, a data frame of two columns and a column of strings. -/
def C34_x : Val := .df 6 [.vec (.atom .cpl) [cpl1, cpl0, cpl0, cpl1, cpl0, cpl0],
  .df 6 [.vec (.atom .int) ([1, 2, naInt, 1, 2, 2] : List Int),
    .vec (.atom .dbl) ([0#64, naReal, 0#64, 0#64, rNaN, naReal] : List Dbl)],
  .vec (.atom .chr) [some ['b'], some ['a'], none, some ['a'], some ['b'], some ['b']]]

example : leaves C34_x = [.vec (.atom .cpl) [cpl1, cpl0, cpl0, cpl1, cpl0, cpl0],
    .vec (.atom .int) ([1, 2, naInt, 1, 2, 2] : List Int),
    .vec (.atom .dbl) ([0#64, naReal, 0#64, 0#64, rNaN, naReal] : List Dbl),
    .vec (.atom .chr) [some ['b'], some ['a'], none, some ['a'], some ['b'], some ['b']]] := rfl

example : ForColumns IsDirection [some "asc".toList, some "desc".toList, some "asc".toList]
    (columns C34_x).length [false, true, false] := by
  refine ⟨rfl, Or.inr ⟨rfl, ?_⟩⟩
  intro i a v h1 h2
  match i with
  | 0 => cases h1; cases h2; rfl
  | 1 => cases h1; cases h2; rfl
  | 2 => cases h1; cases h2; rfl
  | i + 3 => simp at h1

example : ForColumns IsNaValue exLargest (columns C34_x).length [true, true, true] :=
  ⟨rfl, Or.inl ⟨_, true, rfl, rfl, by simp⟩⟩

example : exRun (vecOrderInfo 4 C34_x [some "asc".toList, some "desc".toList, some "asc".toList]
    exLargest true true true exTl exStatic) =
    some ⟨[3, 2, 6, 5, 4, 1], some ([1, 1, 1, 1, 1, 1], 1)⟩ := by decide +kernel

end Vctrs
