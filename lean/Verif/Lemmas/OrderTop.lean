import Verif.Lemmas.OrderSpec
import Verif.Lemmas.Proxy

/-!
# The arguments and the entry points of ordering
-/

namespace Vctrs

open Spec

/-! ## Arguments -/

theorem parseArg_ok {f : Name → C Bool} {x : List Name} {v : List Bool} (hl : x.length = v.length)
    (h : ∀ (i : Nat) (a : Name) (b : Bool), x[i]? = some a → v[i]? = some b → f a = .ok b) :
    parseArg f x = .ok v := by
  unfold parseArg
  suffices H : Ret _ (fun r => r = v) by
    obtain ⟨r, hr, rfl⟩ := H
    exact hr
  refine Ret.bind (Ret.forN (fun i (out : List (Option Bool)) => out.length = x.length ∧
    ∀ (j : Nat) (b : Bool), j < i → v[j]? = some b → out[j]? = some (some b)) ?_ ?_) ?_
  · exact ⟨by simp, fun j a hj => by omega⟩
  · rintro i out hi ⟨h1, h2⟩
    have hxi : x[i]? = some x[i] := List.getElem?_eq_getElem hi
    have hvi : v[i]? = some (v[i]'(by omega)) := List.getElem?_eq_getElem (by omega)
    refine Ret.bind_eq (rd_of_getElem? hxi) ?_
    refine Ret.bind_eq (h i _ _ hxi hvi) ?_
    refine Ret.of_eq (wr_ok (by omega)) ⟨by simpa using h1, ?_⟩
    intro j b hj hjb
    rw [getElem?_set' (by omega)]
    split
    · rename_i hji
      subst hji
      rw [hvi] at hjb
      cases hjb
      rfl
    · exact h2 j b (by omega) hjb
  · rintro out ⟨h1, h2⟩
    refine Ret.of_eq (initd_ok (r := v) (by omega) ?_) rfl
    intro i hi
    exact h2 i v[i] (by omega) (List.getElem?_eq_getElem hi)

theorem parseDirectionOne_ok {s : Name} {d : Bool} (h : IsDirection s d) :
    parseDirectionOne s = .ok d := by
  unfold IsDirection at h
  subst h
  cases d <;> decide +kernel

theorem parseNaValueOne_ok {s : Name} {d : Bool} (h : IsNaValue s d) :
    parseNaValueOne s = .ok d := by
  unfold IsNaValue at h
  subst h
  cases d <;> decide +kernel

/-- A parsed argument: one value for all columns or one for each. -/
def ParsedFor (arg : List Bool) (vals : List Bool) : Prop :=
  (∃ d, arg = [d] ∧ ∀ v ∈ vals, v = d) ∨ arg = vals

theorem parse_forColumns {R : Name → Bool → Prop} {f : Name → C Bool}
    (hR : ∀ s d, R s d → f s = .ok d) {arg : List Name} {m : Nat} {vals : List Bool}
    (h : ForColumns R arg m vals) :
    ∃ p, parseArg f arg = .ok p ∧ ParsedFor p vals ∧ (p.length = 1 ∨ p.length = m) := by
  obtain ⟨hm, ⟨a, d, rfl, hd1, hd2⟩ | ⟨hl, ha⟩⟩ := h
  · refine ⟨[d], parseArg_ok rfl ?_, Or.inl ⟨d, rfl, hd2⟩, Or.inl rfl⟩
    intro i s b hs hb
    cases i with
    | zero => simp at hs hb; subst hs; subst hb; exact hR _ _ hd1
    | succ i => simp at hs
  · exact ⟨vals, parseArg_ok (by omega) (fun i a v h1 h2 => hR _ _ (ha i a v h1 h2)), Or.inr rfl,
      Or.inr hm⟩

mutual

theorem decreasingExpansion_ok : (x : Val) → decreasingExpansion x = (leaves x).length
  | .vec _ _ => by simp [decreasingExpansion, leaves]
  | .df _ cols => by
      simp only [decreasingExpansion, leaves]
      exact decreasingExpansions_ok cols

theorem decreasingExpansions_ok : (xs : List Val) → decreasingExpansions xs = (leavesAll xs).length
  | [] => by simp [decreasingExpansions, leavesAll]
  | x :: xs => by
      simp only [decreasingExpansions, leavesAll, List.length_append]
      rw [decreasingExpansion_ok x, decreasingExpansions_ok xs]

end

/-- Each value repeated. -/
def expandTo (arg : List Bool) (es : List Nat) : List Bool :=
  (arg.zip es).flatMap (fun p => List.replicate p.2 p.1)

theorem expandTo_length : (arg : List Bool) → (es : List Nat) → arg.length = es.length →
    (expandTo arg es).length = es.sum
  | [], [], _ => rfl
  | a :: arg, e :: es, h => by
      have := expandTo_length arg es (by simpa using h)
      unfold expandTo at *
      rw [List.zip_cons_cons, List.flatMap_cons, List.length_append, this]
      simp

theorem expandTo_ones : (arg : List Bool) → (es : List Nat) → arg.length = es.length →
    (∀ e ∈ es, e = 1) → expandTo arg es = arg
  | [], [], _, _ => rfl
  | a :: arg, e :: es, h, h1 => by
      have := expandTo_ones arg es (by simpa using h) (fun e' he => h1 e' (by simp [he]))
      unfold expandTo at *
      rw [List.zip_cons_cons, List.flatMap_cons, this, h1 e (by simp)]
      rfl

theorem fillRun_ok (a : Bool) (pre : List Bool) (m e : Nat) (he : e ≤ m) :
    forN e (fun _ (s : List (Option Bool) × Nat) => do
      .ok (← wr s.1 s.2 (some a), s.2 + 1)) (pre.map some ++ alloc Bool m, pre.length) =
      .ok ((pre ++ List.replicate e a).map some ++ alloc Bool (m - e), pre.length + e) := by
  suffices H : Ret _ (fun r => r = ((pre ++ List.replicate e a).map some ++ alloc Bool (m - e),
      pre.length + e)) by
    obtain ⟨r, hr, rfl⟩ := H
    exact hr
  refine Ret.forN (fun i (s : List (Option Bool) × Nat) => s =
    ((pre ++ List.replicate i a).map some ++ alloc Bool (m - i), pre.length + i)) ?_ ?_
  · simp
  · rintro i s hi rfl
    dsimp only
    have hal : alloc Bool (m - i) = none :: alloc Bool (m - (i + 1)) := by
      unfold alloc
      rw [show m - i = (m - (i + 1)) + 1 by omega]
      rfl
    rw [hal]
    have hlen : pre.length + i = ((pre ++ List.replicate i a).map some).length := by simp
    have hw := wr_append_mid (v := some a) (h := (none : Option Bool))
      (B := alloc Bool (m - (i + 1))) hlen
    refine Ret.bind_eq hw (Ret.ok ?_)
    rw [List.replicate_succ']
    simp [Nat.add_assoc]

theorem expandArg_ok {arg : List Bool} {es : List Nat} (h1 : arg.length ≠ 1)
    (hl : arg.length = es.length) : expandArg arg es es.sum = .ok (expandTo arg es) := by
  unfold expandArg
  rw [if_neg h1]
  suffices H : Ret _ (fun r => r = expandTo arg es) by
    obtain ⟨r, hr, rfl⟩ := H
    exact hr
  have htot := expandTo_length arg es hl
  refine Ret.bind (Ret.forN (fun i (s : List (Option Bool) × Nat) =>
    s = ((expandTo (arg.take i) (es.take i)).map some ++ alloc Bool (es.sum - (es.take i).sum),
      (es.take i).sum)) ?_ ?_) ?_
  · simp [expandTo]
  · rintro i s hi rfl
    have hie : i < es.length := by omega
    refine Ret.bind_eq (rd_ok hi) ?_
    refine Ret.bind_eq (rd_ok hie) ?_
    have hlen := expandTo_length (arg.take i) (es.take i) (by simp [hl])
    have hsum : (es.take (i + 1)).sum = (es.take i).sum + es[i] := by
      rw [List.take_succ_eq_append_getElem hie, List.sum_append]; simp
    have hle : (es.take (i + 1)).sum ≤ es.sum := by
      conv_rhs => rw [← List.take_append_drop (i + 1) es, List.sum_append]
      omega
    have := fillRun_ok arg[i] (expandTo (arg.take i) (es.take i)) (es.sum - (es.take i).sum) es[i]
      (by omega)
    rw [hlen] at this
    refine Ret.of_eq this ?_
    have he : expandTo (arg.take (i + 1)) (es.take (i + 1)) =
        expandTo (arg.take i) (es.take i) ++ List.replicate es[i] arg[i] := by
      unfold expandTo
      rw [List.take_succ_eq_append_getElem hie, List.take_succ_eq_append_getElem hi,
        List.zip_append (by simp [hl]), List.flatMap_append]
      simp
    rw [he, hsum, Nat.sub_add_eq]
  · rintro ⟨s, p⟩ hs
    cases hs
    rw [List.take_of_length_le (Nat.le_refl _), List.take_of_length_le (by omega)]
    refine Ret.of_eq ?_ rfl
    rw [Nat.sub_self]
    unfold alloc
    rw [List.replicate_zero, List.append_nil]
    exact initd_map_some _

theorem sortKeys_dec : (cs : List Val) → (ds ns : List Bool) → ds.length = cs.length →
    ns.length = cs.length →
    (((cs.zip (ds.zip ns)).flatMap (fun c => (leaves c.1).map (fun p => (c.2.1, c.2.2, p)))) :
      List SortKey).map (·.1) = expandTo ds (cs.map decreasingExpansion)
  | [], [], [], _, _ => rfl
  | c :: cs, d :: ds, n :: ns, h1, h2 => by
      have ih := sortKeys_dec cs ds ns (by simpa using h1) (by simpa using h2)
      unfold expandTo at *
      simp only [List.zip_cons_cons, List.flatMap_cons, List.map_append, List.map_cons, ih,
        decreasingExpansion_ok]
      congr 1
      rw [List.map_map, List.eq_replicate_iff]
      simp

theorem sortKeys_na : (cs : List Val) → (ds ns : List Bool) → ds.length = cs.length →
    ns.length = cs.length →
    (((cs.zip (ds.zip ns)).flatMap (fun c => (leaves c.1).map (fun p => (c.2.1, c.2.2, p)))) :
      List SortKey).map (·.2.1) = expandTo ns (cs.map decreasingExpansion)
  | [], [], [], _, _ => rfl
  | c :: cs, d :: ds, n :: ns, h1, h2 => by
      have ih := sortKeys_na cs ds ns (by simpa using h1) (by simpa using h2)
      unfold expandTo at *
      simp only [List.zip_cons_cons, List.flatMap_cons, List.map_append, List.map_cons, ih,
        decreasingExpansion_ok]
      congr 1
      rw [List.map_map, List.eq_replicate_iff]
      simp

theorem sortKeys_leaves : (cs : List Val) → (ds ns : List Bool) → ds.length = cs.length →
    ns.length = cs.length →
    (((cs.zip (ds.zip ns)).flatMap (fun c => (leaves c.1).map (fun p => (c.2.1, c.2.2, p)))) :
      List SortKey).map (·.2.2) = leavesAll cs
  | [], [], [], _, _ => by simp [leavesAll]
  | c :: cs, d :: ds, n :: ns, h1, h2 => by
      have ih := sortKeys_leaves cs ds ns (by simpa using h1) (by simpa using h2)
      simp only [List.zip_cons_cons, List.flatMap_cons, List.map_append, ih, leavesAll]
      congr 1
      rw [List.map_map]
      conv_rhs => rw [← List.map_id (leaves c)]
      rfl

theorem expandTo_mem {ds : List Bool} {es : List Nat} {b : Bool} (h : b ∈ expandTo ds es) :
    b ∈ ds := by
  unfold expandTo at h
  obtain ⟨p, hp, hb⟩ := List.mem_flatMap.1 h
  rw [(List.mem_replicate.1 hb).2]
  exact (List.of_mem_zip hp).1

/-- The arguments as they are passed on. -/
def ArgsFor (d n : List Bool) (ks : List SortKey) : Prop :=
  (∃ a b, d = [a] ∧ n = [b] ∧ ∀ k ∈ ks, k.1 = a ∧ k.2.1 = b) ∨
    (d = ks.map (·.1) ∧ n = ks.map (·.2.1))

/-- Arguments after expansion and recycling. -/
theorem orderArgs_ok {x : Val} {ds ns d n : List Bool} (hds : ds.length = (columns x).length)
    (hns : ns.length = (columns x).length) (hd : ParsedFor d ds) (hn : ParsedFor n ns)
    (hd1 : d.length = 1 ∨ d.length = (columns x).length)
    (hn1 : n.length = 1 ∨ n.length = (columns x).length) :
    ∃ d1 n1 d2 n2, orderExpandArgs x d n = .ok (d1, n1) ∧ orderRecycleArgs d1 n1 = .ok (d2, n2) ∧
      ArgsFor d2 n2 (sortKeys x ds ns) := by
  match x with
  | .vec t xs =>
    have hc : (columns (.vec t xs)).length = 1 := rfl
    rw [hc] at hds hns hd1 hn1
    have hdl : d.length = 1 := by omega
    have hnl : n.length = 1 := by omega
    obtain ⟨a, rfl⟩ := List.length_eq_one_iff.1 hdl
    obtain ⟨b, rfl⟩ := List.length_eq_one_iff.1 hnl
    obtain ⟨a', rfl⟩ := List.length_eq_one_iff.1 hds
    obtain ⟨b', rfl⟩ := List.length_eq_one_iff.1 hns
    have ha : a' = a := by
      rcases hd with ⟨d, h1, h2⟩ | h
      · cases h1; exact h2 _ (by simp)
      · cases h; rfl
    have hb : b' = b := by
      rcases hn with ⟨d, h1, h2⟩ | h
      · cases h1; exact h2 _ (by simp)
      · cases h; rfl
    subst ha
    subst hb
    exact ⟨[a'], [b'], [a'], [b'], rfl, rfl, Or.inr ⟨rfl, rfl⟩⟩
  | .df sz cols =>
    have hc : columns (.df sz cols) = cols := rfl
    rw [hc] at hds hns hd1 hn1
    have hkd : (sortKeys (.df sz cols) ds ns).map (·.1) = expandTo ds (cols.map decreasingExpansion) :=
      sortKeys_dec cols ds ns hds hns
    have hkn : (sortKeys (.df sz cols) ds ns).map (·.2.1) =
        expandTo ns (cols.map decreasingExpansion) := sortKeys_na cols ds ns hds hns
    have hall : ∀ k ∈ sortKeys (.df sz cols) ds ns, k.1 ∈ ds ∧ k.2.1 ∈ ns := by
      intro k hk
      constructor
      · have : k.1 ∈ (sortKeys (.df sz cols) ds ns).map (·.1) := List.mem_map_of_mem hk
        rw [hkd] at this
        exact expandTo_mem this
      · have : k.2.1 ∈ (sortKeys (.df sz cols) ds ns).map (·.2.1) :=
          List.mem_map_of_mem (f := fun k : SortKey => k.2.1) hk
        rw [hkn] at this
        exact expandTo_mem this
    have one : ∀ {p v : List Bool}, ParsedFor p v → p.length = 1 →
        ∃ c, p = [c] ∧ ∀ w ∈ v, w = c := by
      rintro p v (⟨c, rfl, h⟩ | rfl) hl
      · exact ⟨c, rfl, h⟩
      · obtain ⟨c, rfl⟩ := List.length_eq_one_iff.1 hl
        exact ⟨c, rfl, by simp⟩
    have many : ∀ {p v : List Bool}, ParsedFor p v → p.length ≠ 1 → p = v := by
      rintro p v (⟨c, rfl, h⟩ | rfl) hl
      · exact absurd rfl hl
      · rfl
    unfold orderExpandArgs dfExpandArgs
    by_cases h11 : d.length = 1 ∧ n.length = 1
    · obtain ⟨a, rfl, ha⟩ := one hd h11.1
      obtain ⟨b, rfl, hb⟩ := one hn h11.2
      refine ⟨[a], [b], [a], [b], if_pos ⟨rfl, rfl⟩, rfl, Or.inl ⟨a, b, rfl, rfl, ?_⟩⟩
      intro k hk
      exact ⟨ha _ (hall k hk).1, hb _ (hall k hk).2⟩
    · -- expanded, or already one value for each column
      have hexp : ∀ {p v : List Bool}, ParsedFor p v → v.length = cols.length → p.length ≠ 1 →
          p.length = (cols.map decreasingExpansion).length := by
        intro p v hp hv hl
        rw [many hp hl, List.length_map, hv]
      have step : ∃ d1 n1, (if (cols.map decreasingExpansion).all (· == 1) = true then
            (.ok (d, n) : C (List Bool × List Bool))
          else do
            let d ← expandArg d (cols.map decreasingExpansion) (cols.map decreasingExpansion).sum
            let n ← expandArg n (cols.map decreasingExpansion) (cols.map decreasingExpansion).sum
            .ok (d, n)) = .ok (d1, n1) ∧
          (if d.length = 1 then d1 = d else d1 = (sortKeys (.df sz cols) ds ns).map (·.1)) ∧
          (if n.length = 1 then n1 = n else n1 = (sortKeys (.df sz cols) ds ns).map (·.2.1)) := by
        by_cases ho : (cols.map decreasingExpansion).all (· == 1) = true
        · have ho' : ∀ e ∈ cols.map decreasingExpansion, e = 1 := by
            intro e he
            have := List.all_eq_true.1 ho e he
            simpa using this
          refine ⟨d, n, if_pos ho, ?_, ?_⟩
          · split
            · rfl
            · rename_i h
              rw [hkd, many hd h, expandTo_ones _ _ (by rw [List.length_map, hds]) ho']
          · split
            · rfl
            · rename_i h
              rw [hkn, many hn h, expandTo_ones _ _ (by rw [List.length_map, hns]) ho']
        · have ed : ∃ d1, expandArg d (cols.map decreasingExpansion)
              (cols.map decreasingExpansion).sum = .ok d1 ∧
              (if d.length = 1 then d1 = d else d1 = (sortKeys (.df sz cols) ds ns).map (·.1)) := by
            by_cases h : d.length = 1
            · exact ⟨d, by unfold expandArg; rw [if_pos h], by rw [if_pos h]⟩
            · refine ⟨_, expandArg_ok h (hexp hd hds h), ?_⟩
              rw [if_neg h, hkd, many hd h]
          have en : ∃ n1, expandArg n (cols.map decreasingExpansion)
              (cols.map decreasingExpansion).sum = .ok n1 ∧
              (if n.length = 1 then n1 = n else n1 = (sortKeys (.df sz cols) ds ns).map (·.2.1)) := by
            by_cases h : n.length = 1
            · exact ⟨n, by unfold expandArg; rw [if_pos h], by rw [if_pos h]⟩
            · refine ⟨_, expandArg_ok h (hexp hn hns h), ?_⟩
              rw [if_neg h, hkn, many hn h]
          obtain ⟨d1, e1, e2⟩ := ed
          obtain ⟨n1, e3, e4⟩ := en
          refine ⟨d1, n1, ?_, e2, e4⟩
          rw [if_neg ho, e1, ok_bind, e3, ok_bind]
      obtain ⟨d1, n1, hs, hsd, hsn⟩ := step
      have hres : ∃ d2 n2, orderRecycleArgs d1 n1 = .ok (d2, n2) ∧
          ArgsFor d2 n2 (sortKeys (.df sz cols) ds ns) := by
        by_cases hd' : d.length = 1
        · have hn' : n.length ≠ 1 := fun h => h11 ⟨hd', h⟩
          rw [if_pos hd'] at hsd
          rw [if_neg hn'] at hsn
          obtain ⟨a, rfl, ha⟩ := one hd hd'
          subst hsd
          unfold orderRecycleArgs
          have hk : List.replicate n1.length a = (sortKeys (.df sz cols) ds ns).map (·.1) := by
            symm
            rw [List.eq_replicate_iff]
            refine ⟨by rw [hsn]; simp, ?_⟩
            intro b hb
            obtain ⟨k, hk, rfl⟩ := List.mem_map.1 hb
            exact ha _ (hall k hk).1
          by_cases hl : [a].length = n1.length
          · rw [if_pos hl]
            refine ⟨[a], n1, rfl, Or.inr ⟨?_, hsn⟩⟩
            rw [← hk, ← hl]
            rfl
          · rw [if_neg hl]
            exact ⟨_, _, rfl, Or.inr ⟨hk, hsn⟩⟩
        · rw [if_neg hd'] at hsd
          by_cases hn' : n.length = 1
          · rw [if_pos hn'] at hsn
            obtain ⟨b, rfl, hb⟩ := one hn hn'
            subst hsn
            unfold orderRecycleArgs
            have hk : List.replicate d1.length b = (sortKeys (.df sz cols) ds ns).map (·.2.1) := by
              symm
              rw [List.eq_replicate_iff]
              refine ⟨by rw [hsd]; simp, ?_⟩
              intro c hc
              obtain ⟨k, hk, rfl⟩ := List.mem_map.1 hc
              exact hb _ (hall k hk).2
            by_cases hl : d1.length = [b].length
            · rw [if_pos hl]
              refine ⟨d1, [b], rfl, Or.inr ⟨hsd, ?_⟩⟩
              rw [← hk, hl]
              rfl
            · rw [if_neg hl]
              match d1, hl, hsd, hk with
              | [], _, hsd, hk => exact ⟨_, _, rfl, Or.inr ⟨hsd, hk⟩⟩
              | [c], hl, _, _ => exact absurd rfl hl
              | c :: c' :: l, _, hsd, hk => exact ⟨_, _, rfl, Or.inr ⟨hsd, hk⟩⟩
          · rw [if_neg hn'] at hsn
            unfold orderRecycleArgs
            rw [if_pos (by rw [hsd, hsn]; simp)]
            exact ⟨_, _, rfl, Or.inr ⟨hsd, hsn⟩⟩
      obtain ⟨d2, n2, hr, hA⟩ := hres
      refine ⟨d1, n1, d2, n2, ?_, hr, hA⟩
      dsimp only
      rw [if_neg h11, if_neg (by omega), if_neg (by omega)]
      exact hs

theorem computeNaLast_ok {d n : List Bool} (h : n.length = d.length) :
    computeNaLast n d = .ok (List.zipWith naLastOf d n) := by
  unfold computeNaLast
  rw [if_neg (by omega)]
  suffices H : Ret _ (fun r => r = List.zipWith naLastOf d n) by
    obtain ⟨r, hr, rfl⟩ := H
    exact hr
  have hz : (List.zipWith naLastOf d n).length = n.length := by simp [h]
  refine Ret.bind (Ret.forN (fun i (out : List (Option Bool)) => out.length = n.length ∧
    ∀ (j : Nat), j < i → out[j]? = ((List.zipWith naLastOf d n)[j]?).map some) ?_ ?_) ?_
  · exact ⟨by simp, fun j hj => by omega⟩
  · rintro i out hi ⟨h1, h2⟩
    refine Ret.bind_eq (rd_ok (by omega)) ?_
    refine Ret.bind_eq (rd_ok hi) ?_
    refine Ret.of_eq (wr_ok (by omega)) ⟨by simpa using h1, ?_⟩
    intro j hj
    rw [getElem?_set' (by omega)]
    split
    · rename_i hji
      subst hji
      rw [List.getElem?_eq_getElem (by omega)]
      simp [naLastOf]
    · exact h2 j (by omega)
  · rintro out ⟨h1, h2⟩
    refine Ret.of_eq (initd_ok (r := List.zipWith naLastOf d n) (by omega) ?_) rfl
    intro i hi
    rw [h2 i (by omega), List.getElem?_eq_getElem hi]
    rfl

theorem ArgsFor.naLast {d n : List Bool} {ks : List SortKey} (h : ArgsFor d n ks) :
    ∃ nl, computeNaLast n d = .ok nl ∧ ArgFor d ((ks.map toDfCol).map (·.1)) ∧
      ArgFor nl ((ks.map toDfCol).map (·.2.1)) ∧ d.length = nl.length := by
  rcases h with ⟨a, b, rfl, rfl, h⟩ | ⟨rfl, rfl⟩
  · refine ⟨[naLastOf a b], computeNaLast_ok rfl, Or.inr ⟨a, rfl, ?_⟩, Or.inr ⟨_, rfl, ?_⟩, rfl⟩
    · intro v hv
      simp only [List.map_map, List.mem_map] at hv
      obtain ⟨k, hk, rfl⟩ := hv
      exact (h k hk).1
    · intro v hv
      simp only [List.map_map, List.mem_map] at hv
      obtain ⟨k, hk, rfl⟩ := hv
      obtain ⟨h1, h2⟩ := h k hk
      simp only [Function.comp, toDfCol, h1, h2]
  · refine ⟨_, computeNaLast_ok (by simp), Or.inl ?_, Or.inl ?_, by simp⟩
    · rw [List.map_map]; rfl
    · rw [List.map_map, List.zipWith_map]
      induction ks with
      | nil => rfl
      | cons k ks ih => simp only [List.zipWith_cons_cons, List.map_cons, ih]; rfl

/-! ## Entry points -/

theorem Spec.Sortable.colOk {n : Nat} {v : Val} (h : Sortable n v) : ColOk n v := by
  match v, h with
  | .vec (.atom .int) (x : List Int), h => exact h
  | .vec (.atom .lgl) (x : List Int), h => exact h
  | .vec (.atom .dbl) (x : List Dbl), h => exact h
  | .vec (.atom .cpl) (x : List (Dbl × Dbl)), h => exact h
  | .vec (.atom .chr) (x : List Name), h => exact h

theorem isCpl_false {v : Val} (h : ¬ IsComplex v) : v.isCpl = false := by
  match v with
  | .vec (.atom .cpl) _ => exact absurd trivial h
  | .vec (.atom .int) _ => rfl
  | .vec (.atom .lgl) _ => rfl
  | .vec (.atom .dbl) _ => rfl
  | .vec (.atom .chr) _ => rfl
  | .vec (.atom .raw) _ => rfl
  | .vec .list _ => rfl
  | .df _ _ => rfl

theorem nBytesCounts_ok {n : Nat} {v : Val} (h : ColOk n v) : ∃ b, nBytesCounts v = .ok b := by
  match v, h with
  | .vec (.atom .int) (x : List Int), h => exact ⟨4, rfl⟩
  | .vec (.atom .lgl) (x : List Int), h => exact ⟨4, rfl⟩
  | .vec (.atom .dbl) (x : List Dbl), h => exact ⟨8, rfl⟩
  | .vec (.atom .cpl) (x : List (Dbl × Dbl)), h => exact ⟨8, rfl⟩
  | .vec (.atom .chr) (x : List Name), h => exact ⟨4, rfl⟩

theorem nBytesCountsAll_df {n sz : Nat} {cols : List Val} (h : ∀ p ∈ cols, ColOk n p) :
    Ret (nBytesCountsAll (.df sz cols)) (fun b => ∀ p ∈ cols, CountsOk (256 * b) p) := by
  unfold nBytesCountsAll
  refine (Ret.forN (fun i (m : Nat) => ∀ (j : Nat) (p : Val), j < i → cols[j]? = some p →
    CountsOk (256 * m) p) (fun j p hj => by omega) ?_).mono ?_
  · intro i m hi hm
    have hp := List.getElem?_eq_getElem hi
    refine Ret.bind_eq (rd_of_getElem? hp) ?_
    obtain ⟨b, hb⟩ := nBytesCounts_ok (h _ (List.getElem_mem hi))
    refine Ret.bind_eq hb (Ret.ok ?_)
    intro j p hj hjp c hc
    by_cases hji : j = i
    · subst hji
      rw [hp] at hjp
      cases hjp
      rw [hb] at hc
      cases hc
      split <;> omega
    · have := hm j p (by omega) hjp c hc
      split <;> omega
  · intro m hm p hp
    obtain ⟨j, hj, rfl⟩ := List.getElem_of_mem hp
    exact hm j _ hj (List.getElem?_eq_getElem hj)

theorem resize_ghas {gi : GroupInfos} {gs : List Nat} (h : GHas gi gs) :
    initd (intResize gi.current.data gi.current.nGroups) = .ok gs := by
  obtain ⟨h1, h2⟩ := h
  have hl : gs.length ≤ gi.current.data.length := by
    have := congrArg List.length h2
    rw [List.length_take, List.length_map] at this
    omega
  have : intResize gi.current.data gi.current.nGroups = gs.map some := by
    unfold intResize
    rw [h1, h2]
    split
    · rename_i he
      rw [← h2, ← he, List.take_length]
    · rw [Nat.sub_eq_zero_of_le hl]
      simp [alloc]
  rw [this, initd_map_some]

theorem leavesAll_columns (x : Val) : leavesAll (columns x) = leaves x := by
  cases x with
  | vec t xs => simp [columns, leavesAll, leaves]
  | df n cols => simp [columns, leaves]

/-- What `vec_order_info_impl()` gives. -/
structure OrderInfoOk (before : Nat → Nat → Prop) (n : Nat) (groupSizes : Bool) (tl : TL)
    (static : List Nat) (r : OrderInfo × TL × List Nat) : Prop where
  tl : r.2.1 = tl
  static : r.2.2 = static
  order : ∃ B : List (List Nat), TieGroups before n B ∧
    r.1.o = B.flatten.map (fun (i : Nat) => (i : Int) + 1) ∧
    r.1.groups = if groupSizes then some (B.map List.length, maxOf (B.map List.length)) else none

theorem vecOrderInfo_ok {x : Val} {direction naValue : List Name} {ds ns : List Bool}
    (nanDistinct groupSizes : Bool) (hn : x.size ≤ intMax)
    (hs : ∀ p ∈ leaves x, Sortable x.size p)
    (hc : ∀ (i : Nat) (p : Val), 0 < i → (leaves x)[i]? = some p → ¬ IsComplex p)
    (hd : ForColumns IsDirection direction (columns x).length ds)
    (hna : ForColumns IsNaValue naValue (columns x).length ns) {tl : TL} (h0 : ∀ u, 0 ≤ tl u)
    {static : List Nat} (hst : StaticOk static) {fuel : Nat}
    (hf : 1 < (leaves x).length → (leaves x).length ≤ fuel) :
    Ret (vecOrderInfo fuel x direction naValue nanDistinct true groupSizes tl static)
      (OrderInfoOk (RowBefore nanDistinct (sortKeys x ds ns)) x.size groupSizes tl static) := by
  obtain ⟨d, hd1, hd2, hd3⟩ := parse_forColumns (fun s d h => parseDirectionOne_ok h) hd
  obtain ⟨nl, hn1, hn2, hn3⟩ := parse_forColumns (fun s d h => parseNaValueOne_ok h) hna
  obtain ⟨d1, n1, d2, n2, ha1, ha2, hA⟩ := orderArgs_ok hd.1 hna.1 hd2 hn2 hd3 hn3
  obtain ⟨na, hl1, hl2, hl3, hl4⟩ := hA.naLast
  have hleaf : (sortKeys x ds ns).map (·.2.2) = leaves x := by
    unfold sortKeys
    rw [sortKeys_leaves _ _ _ hd.1 hna.1, leavesAll_columns]
  generalize sortKeys x ds ns = ks at *
  have hkc : ∀ k ∈ ks, ColOk x.size k.2.2 := by
    intro k hk
    refine (hs _ ?_).colOk
    rw [← hleaf]
    exact List.mem_map_of_mem (f := fun k : SortKey => k.2.2) hk
  have hps : (ks.map toDfCol).map (·.2.2) = leaves x := by
    rw [List.map_map, ← hleaf]; rfl
  have hpc : ∀ p ∈ ks.map toDfCol, ColOk x.size p.2.2 := by
    intro p hp
    obtain ⟨k, hk, rfl⟩ := List.mem_map.1 hp
    exact hkc k hk
  unfold vecOrderInfo
  refine Ret.bind_eq hd1 ?_
  refine Ret.bind_eq hn1 ?_
  refine Ret.bind_eq ha1 ?_
  dsimp only
  refine Ret.bind_eq ha2 ?_
  dsimp only
  refine Ret.bind_eq hl1 ?_
  refine Ret.bind_eq (proxyVal_ok x) ?_
  -- the common end
  have hend : ∀ (o : List Int) (ts : TlState) (st : OrdState), TlClean tl x.size ts →
      st.static = static → (groupSizes = true → st.gi.ignore = false) →
      (∃ gs, LexOrdered (dfKeys nanDistinct (ks.map toDfCol)) (oneTo x.size) o gs ∧
        Tracked x.size groupSizes gs st.gi) →
      Ret (do
        if groupSizes then
          let g := st.gi.current
          let sizes ← initd (intResize g.data g.nGroups)
          .ok (⟨o, some (sizes, g.maxGroupSize)⟩, ts.tl, st.static)
        else .ok (⟨o, none⟩, ts.tl, st.static) : C (OrderInfo × TL × List Nat))
        (OrderInfoOk (RowBefore nanDistinct ks) x.size groupSizes tl static) := by
    rintro o ts st hts hss hig ⟨gs, hL, htr⟩
    obtain ⟨B, hB1, hB2, hB3⟩ := tieGroups_of_ordered (before := RowBefore nanDistinct ks) hL
      (fun i j hi hj => dfKeys_before ks hkc hi hj)
    cases hgs : groupSizes with
    | true =>
      subst hgs
      rw [if_pos rfl]
      obtain ⟨h1, h2⟩ := htr.has (hig rfl)
      refine Ret.bind_eq (resize_ghas h1) (Ret.ok ⟨hts.tl, hss, B, hB1, hB2, ?_⟩)
      dsimp only
      rw [if_pos rfl, h2, hB3]
    | false =>
      rw [if_neg (by simp)]
      exact Ret.ok ⟨hts.tl, hss, B, hB1, hB2, rfl⟩
  have hclean := tlClean_new tl x.size
  match hlv : leaves x, hps with
  | [], hps =>
    have hz : (packLeaves x.size ([] : List Val)).size = x.size := rfl
    rw [hz]
    obtain ⟨nb, hnb, hcn⟩ := nBytesCountsAll_df (n := x.size) (sz := x.size) (cols := [])
      (by simp)
    refine Ret.bind_eq hnb ?_
    have hks : ks = [] := by simpa using hps
    subst hks
    have htr := tracked_new x.size groupSizes false
    have := dfOrder_ok (n := x.size) (countsLen := 256 * nb) (nanDistinct := nanDistinct)
      (ps := []) (fuel := fuel) hn h0 hl2 hl3 (by simp) (by simp) (by simp) hclean
      (st := ⟨static, GroupInfos.new x.size groupSizes false⟩) hst htr rfl (by simp)
    have hi : (if groupSizes = true then false else !(packLeaves x.size ([] : List Val)).isDf) =
        false := by cases groupSizes <;> rfl
    rw [hi]
    refine Ret.bind this ?_
    rintro ⟨o, ts, st⟩ ⟨h1, h2, h3, h4⟩
    exact hend o ts st h1 h2 h3 h4
  | [p], hps =>
    obtain ⟨k, hk⟩ : ∃ k, ks = [k] := by
      have := congrArg List.length hps
      simp at this
      exact List.length_eq_one_iff.1 this
    subst hk
    have hkp : k.2.2 = p := by simpa [toDfCol] using hps
    have hpk : ColOk x.size p := hkp ▸ hkc k (by simp)
    have hd2 : d2 = [k.1] ∧ na = [naLastOf k.1 k.2.1] := by
      constructor
      · rcases hl2 with h | ⟨c, rfl, h⟩
        · exact h
        · rw [← h k.1 (by simp [toDfCol])]
      · rcases hl3 with h | ⟨c, rfl, h⟩
        · exact h
        · rw [← h (naLastOf k.1 k.2.1) (by simp [toDfCol])]
    obtain ⟨rfl, rfl⟩ := hd2
    obtain ⟨t, xs, rfl⟩ : ∃ t xs, p = .vec t xs := by
      cases p with
      | vec t xs => exact ⟨t, xs, rfl⟩
      | df a b => exact absurd hpk (by simp [ColOk])
    have hsz : (packLeaves x.size [Val.vec t xs]).size = x.size := by
      have : xs.length = x.size := by
        match t, xs, hpk with
        | .atom .int, xs, h => exact h.1
        | .atom .lgl, xs, h => exact h.1
        | .atom .dbl, xs, h => exact h
        | .atom .cpl, xs, h => exact h
        | .atom .chr, xs, h => exact h.1
      exact this
    rw [hsz]
    obtain ⟨b, hb⟩ := nBytesCounts_ok hpk
    have hb' : nBytesCountsAll (packLeaves x.size [Val.vec t xs]) = .ok b := hb
    refine Ret.bind_eq hb' ?_
    have hcl : CountsOk (256 * b) (.vec t xs) := by
      intro c hc
      rw [hb] at hc
      cases hc
      omega
    have hi : (if groupSizes = true then false else !(packLeaves x.size [Val.vec t xs]).isDf) =
        !groupSizes := by cases groupSizes <;> rfl
    rw [hi]
    have htr := tracked_new x.size groupSizes (!groupSizes)
    have := orderBaseSwitch_ok k.1 (naLastOf k.1 k.2.1) nanDistinct hpk hcl hn hclean h0
      (st := ⟨static, GroupInfos.new x.size groupSizes (!groupSizes)⟩) hst htr ⟨⟨rfl, rfl⟩, rfl⟩
    refine Ret.bind this ?_
    rintro ⟨o, ts, st⟩ ⟨h1, h2, h3, gs, h4, h5⟩
    refine hend o ts st h1 h2 (fun hg => ?_) ⟨gs, ?_, h5⟩
    · have : st.gi.ignore = !groupSizes := h3
      rw [this, hg]; rfl
    · unfold dfKeys
      simp only [List.map_cons, List.map_nil, List.flatMap_cons, List.flatMap_nil, List.append_nil,
        toDfCol, hkp]
      exact h4
  | p :: q :: l, hps =>
    have hz : (packLeaves x.size (p :: q :: l)).size = x.size := rfl
    rw [hz]
    have hall : ∀ v ∈ p :: q :: l, ColOk x.size v := by
      intro v hv
      exact (hs v (by rw [hlv]; exact hv)).colOk
    obtain ⟨nb, hnb, hcn⟩ := nBytesCountsAll_df (n := x.size) (sz := x.size) (cols := p :: q :: l) hall
    refine Ret.bind_eq hnb ?_
    have htr := tracked_new x.size groupSizes false
    have hlen : (ks.map toDfCol).length = (leaves x).length := by
      have := congrArg List.length hps
      rw [List.length_map] at this
      rw [this, hlv]
    have := dfOrder_ok (n := x.size) (countsLen := 256 * nb) (nanDistinct := nanDistinct)
      (ps := ks.map toDfCol) (fuel := fuel) hn h0 hl2 hl3 hpc (by
        intro r hr
        refine hcn _ ?_
        rw [← hps]
        exact List.mem_map_of_mem (f := fun k : DfCol => k.2.2) hr) (by
        intro i r hi hr
        refine isCpl_false (hc i _ hi ?_)
        rw [hlv, ← hps, List.getElem?_map, hr]
        rfl) hclean
      (st := ⟨static, GroupInfos.new x.size groupSizes false⟩) hst htr rfl (by
        rw [hlen]
        exact hf (by rw [hlv]; simp))
    rw [hps] at this
    have hi : (if groupSizes = true then false else !(packLeaves x.size (p :: q :: l)).isDf) =
        false := by cases groupSizes <;> rfl
    rw [hi]
    refine Ret.bind this ?_
    rintro ⟨o, ts, st⟩ ⟨h1, h2, h3, h4⟩
    exact hend o ts st h1 h2 h3 h4

/-! ## Sorted groups -/

theorem copyRun_ok (pre q post : List Int) :
    forN q.length (fun j (t : List (Option Int) × Nat) => do
      let l ← rd (pre ++ q ++ post) t.2
      .ok (← wr t.1 j (some l), t.2 + 1)) (alloc Int q.length, pre.length) =
      .ok (q.map some, pre.length + q.length) := by
  suffices H : Ret _ (fun r => r = (q.map some, pre.length + q.length)) by
    obtain ⟨r, hr, rfl⟩ := H
    exact hr
  refine (Ret.forN (fun j (t : List (Option Int) × Nat) => t.1.length = q.length ∧
    t.2 = pre.length + j ∧ ∀ k, k < j → t.1[k]? = (q[k]?).map some) ?_ ?_).mono ?_
  · exact ⟨by simp, rfl, fun k hk => by omega⟩
  · rintro j ⟨t, p⟩ hj ⟨h1, h2, h3⟩
    dsimp only at h1 h2 h3 ⊢
    subst h2
    have hr : rd (pre ++ q ++ post) (pre.length + j) = .ok q[j] := by
      refine rd_of_getElem? ?_
      rw [List.append_assoc, List.getElem?_append_right (by omega), Nat.add_sub_cancel_left,
        List.getElem?_append_left hj, List.getElem?_eq_getElem hj]
    refine Ret.bind_eq hr ?_
    refine Ret.bind_eq (wr_ok (by omega)) (Ret.ok ⟨by simpa using h1, by omega, ?_⟩)
    intro k hk
    rw [getElem?_set' (by omega)]
    split
    · rename_i hkj
      subst hkj
      rw [List.getElem?_eq_getElem hj]
      rfl
    · exact h3 k (by omega)
  · rintro ⟨t, p⟩ ⟨h1, h2, h3⟩
    dsimp only at h1 h2 h3
    subst h2
    congr 1
    apply List.ext_getElem?
    intro k
    rw [List.getElem?_map]
    by_cases hk : k < q.length
    · exact h3 k hk
    · rw [List.getElem?_eq_none (by omega), List.getElem?_eq_none (by omega)]
      rfl

theorem sortedGroups_ok (Q : List (List Int)) (hne : ∀ q ∈ Q, q ≠ []) :
    forN Q.length (sortedGroup Q.flatten (Q.map List.length))
      (alloc (List Int) Q.length, alloc Int Q.length, 0) =
      .ok (Q.map some, Q.map List.head?, Q.flatten.length) := by
  suffices H : Ret _ (fun r => r = (Q.map some, Q.map List.head?, Q.flatten.length)) by
    obtain ⟨r, hr, rfl⟩ := H
    exact hr
  refine (Ret.forN (fun i (s : List (Option (List Int)) × List (Option Int) × Nat) =>
    s.1.length = Q.length ∧ s.2.1.length = Q.length ∧ s.2.2 = (Q.take i).flatten.length ∧
    (∀ k, k < i → s.1[k]? = (Q[k]?).map some) ∧
    ∀ k, k < i → s.2.1[k]? = (Q[k]?).map List.head?) ?_ ?_).mono ?_
  · exact ⟨by simp, by simp, rfl, fun k hk => by omega, fun k hk => by omega⟩
  · rintro i ⟨loc, keys, p⟩ hi ⟨h1, h2, h3, h4, h5⟩
    dsimp only at h1 h2 h3 h4 h5
    have hq := List.getElem?_eq_getElem hi
    have hsplit : Q.flatten = (Q.take i).flatten ++ Q[i] ++ (Q.drop (i + 1)).flatten := by
      conv_lhs => rw [← List.take_append_drop i Q, List.drop_eq_getElem_cons hi]
      rw [List.flatten_append, List.flatten_cons, List.append_assoc]
    obtain ⟨a, t, hat⟩ := List.exists_cons_of_ne_nil (hne Q[i] (List.getElem_mem hi))
    unfold sortedGroup
    dsimp only
    have hr : rd Q.flatten p = .ok a := by
      refine rd_of_getElem? ?_
      rw [hsplit, h3, List.append_assoc, List.getElem?_append_right (by omega), Nat.sub_self, hat]
      rfl
    refine Ret.bind_eq hr ?_
    refine Ret.bind_eq (wr_ok (by omega)) ?_
    have hsz : rd (Q.map List.length) i = .ok Q[i].length := by
      refine rd_of_getElem? ?_
      rw [List.getElem?_map, hq]
      rfl
    refine Ret.bind_eq hsz ?_
    have hcopy := copyRun_ok (Q.take i).flatten Q[i] (Q.drop (i + 1)).flatten
    rw [← hsplit, ← h3] at hcopy
    refine Ret.bind_eq hcopy ?_
    dsimp only
    refine Ret.bind_eq (initd_map_some _) ?_
    refine Ret.bind_eq (wr_ok (by omega)) (Ret.ok ⟨by simpa using h1, by simpa using h2, ?_, ?_, ?_⟩)
    · dsimp only
      rw [h3, List.take_succ_eq_append_getElem hi, List.flatten_append, List.length_append]
      simp
    · intro k hk
      dsimp only
      rw [getElem?_set' (by omega)]
      split
      · rename_i hkj
        subst hkj
        rw [hq]
        rfl
      · exact h4 k (by omega)
    · intro k hk
      dsimp only
      rw [getElem?_set' (by omega)]
      split
      · rename_i hkj
        subst hkj
        rw [hq, hat]
        rfl
      · exact h5 k (by omega)
  · rintro ⟨loc, keys, p⟩ ⟨h1, h2, h3, h4, h5⟩
    dsimp only at h1 h2 h3 h4 h5
    rw [List.take_length] at h3
    subst h3
    have e1 : loc = Q.map some := by
      apply List.ext_getElem?
      intro k
      rw [List.getElem?_map]
      by_cases hk : k < Q.length
      · exact h4 k hk
      · rw [List.getElem?_eq_none (by omega), List.getElem?_eq_none (by omega)]
        rfl
    have e2 : keys = Q.map List.head? := by
      apply List.ext_getElem?
      intro k
      rw [List.getElem?_map]
      by_cases hk : k < Q.length
      · exact h5 k hk
      · rw [List.getElem?_eq_none (by omega), List.getElem?_eq_none (by omega)]
        rfl
    rw [e1, e2]

theorem Spec.TieGroups.congr {before before' : Nat → Nat → Prop} {n : Nat} {B : List (List Nat)}
    (h : TieGroups before n B) (he : ∀ i j, before i j ↔ before' i j) : TieGroups before' n B :=
  ⟨h.perm, h.nonempty, h.increasing, fun b hb i hi j hj hij => h.tied b hb i hi j hj ((he i j).2 hij),
    h.sorted.imp (fun hbc i hi j hj => (he i j).1 (hbc i hi j hj))⟩

theorem rowBefore_single {nanDistinct : Bool} {k : SortKey} {i j : Nat} :
    RowBefore nanDistinct [k] i j ↔ KeyBefore nanDistinct k i j := by
  rw [rowBefore_cons]
  constructor
  · rintro (h | ⟨_, m, k', h, _⟩)
    · exact h
    · simp at h
  · exact Or.inl

theorem vecLocateSortedGroups_ok {x : Val} {direction naValue : List Name} {ds ns : List Bool}
    (nanDistinct : Bool) (hn : x.size ≤ intMax)
    (hs : ∀ p ∈ leaves x, Sortable x.size p)
    (hc : ∀ (i : Nat) (p : Val), 0 < i → (leaves x)[i]? = some p → ¬ IsComplex p)
    (hd : ForColumns IsDirection direction (columns x).length ds)
    (hna : ForColumns IsNaValue naValue (columns x).length ns) {tl : TL} (h0 : ∀ u, 0 ≤ tl u)
    {static : List Nat} (hst : StaticOk static) {fuel : Nat}
    (hf : 1 < (leaves x).length → (leaves x).length ≤ fuel) :
    Ret (vecLocateSortedGroups fuel x direction naValue nanDistinct tl static) (fun r =>
      r.2.1 = tl ∧ r.2.2 = static ∧
      ∃ B : List (List Nat), TieGroups (RowBefore nanDistinct (sortKeys x ds ns)) x.size B ∧
        r.1.2 = B.map (fun b => b.map (fun (i : Nat) => (i : Int) + 1)) ∧
        r.1.1.map some = B.map (fun b => b.head?.map (fun (i : Nat) => (i : Int) + 1))) := by
  unfold vecLocateSortedGroups
  refine Ret.bind (vecOrderInfo_ok nanDistinct true hn hs hc hd hna h0 hst hf) ?_
  rintro ⟨⟨o, groups⟩, tl', static'⟩ ⟨h1, h2, B, hB, h3, h4⟩
  dsimp only at h1 h2 h3 h4 ⊢
  rw [if_pos rfl] at h4
  subst h4
  dsimp only
  have hQ := sortedGroups_ok (B.map (fun b => b.map (fun (i : Nat) => (i : Int) + 1))) (by
    intro q hq
    obtain ⟨b, hb, rfl⟩ := List.mem_map.1 hq
    have := hB.nonempty b hb
    simpa using this)
  have hfl : (B.map (fun b => b.map (fun (i : Nat) => (i : Int) + 1))).flatten = o := by
    rw [h3, List.map_flatten]
  have hsz : (B.map (fun b => b.map (fun (i : Nat) => (i : Int) + 1))).map List.length =
      B.map List.length := by
    rw [List.map_map]
    apply List.map_congr_left
    intro b _
    simp
  rw [hfl, hsz, List.length_map] at hQ
  rw [List.length_map]
  refine Ret.bind_eq hQ ?_
  dsimp only
  obtain ⟨kl, hkl⟩ : ∃ kl : List Int, (B.map (fun b => b.map (fun (i : Nat) => (i : Int) + 1))).map
      List.head? = kl.map some := by
    refine ⟨(B.flatMap (fun b => (b.map (fun (i : Nat) => (i : Int) + 1)).take 1)), ?_⟩
    have hne := hB.nonempty
    clear hQ hfl hsz h3 hB
    induction B with
    | nil => rfl
    | cons b B ih =>
      obtain ⟨a, t, rfl⟩ := List.exists_cons_of_ne_nil (hne b (by simp))
      simp only [List.map_cons, List.flatMap_cons, List.map_append]
      rw [ih (fun c hc => hne c (by simp [hc]))]
      rfl
  rw [hkl]
  refine Ret.bind_eq (initd_map_some _) ?_
  refine Ret.bind_eq (initd_map_some _) (Ret.ok ⟨h1, h2, B, hB, rfl, ?_⟩)
  dsimp only
  rw [← hkl, List.map_map]
  apply List.map_congr_left
  intro b _
  cases b <;> rfl

/-! ## Single vectors -/

theorem ForColumns.one {R : Name → Bool → Prop} {s : Name} {d : Bool} (h : R s d) :
    ForColumns R [s] 1 [d] := ⟨rfl, Or.inl ⟨s, d, rfl, h, by simp⟩⟩

theorem vecOrderInfo_vec {t : ATy} {xs : List t.El}
    (hs : Sortable xs.length (.vec (.atom t) xs)) (hn : xs.length ≤ intMax)
    {direction naValue : Name} {desc naLargest : Bool} (hd : IsDirection direction desc)
    (hna : IsNaValue naValue naLargest) (nanDistinct groupSizes : Bool) {tl : TL}
    (h0 : ∀ u, 0 ≤ tl u) {static : List Nat} (hst : StaticOk static) (fuel : Nat) :
    Ret (vecOrderInfo fuel (.vec (.atom t) xs) [direction] [naValue] nanDistinct true groupSizes tl
      static) (OrderInfoOk (fun i j => ∃ a b, xs[i]? = some a ∧ xs[j]? = some b ∧
        Before desc naLargest nanDistinct t a b) xs.length groupSizes tl static) := by
  refine (vecOrderInfo_ok (x := .vec (.atom t) xs) (fuel := fuel) nanDistinct groupSizes hn (by
      intro p hp
      simp only [leaves, List.mem_singleton] at hp
      subst hp
      exact hs) (by
      intro i p hi hp
      cases i with
      | zero => omega
      | succ i => simp [leaves] at hp) (ForColumns.one hd) (ForColumns.one hna) h0 hst
      (by simp [leaves])).mono ?_
  rintro r ⟨h1, h2, B, hB, h3, h4⟩
  refine ⟨h1, h2, B, hB.congr (fun i j => rowBefore_single.trans ?_), h3, h4⟩
  constructor
  · rintro ⟨t', xs', a, b, he, ha, hb, h⟩
    cases he
    exact ⟨a, b, ha, hb, h⟩
  · rintro ⟨a, b, ha, hb, h⟩
    exact ⟨t, xs, a, b, rfl, ha, hb, h⟩

theorem OrderInfoOk.groups {before : Nat → Nat → Prop} {n : Nat} {tl : TL} {static : List Nat}
    {c : C (OrderInfo × TL × List Nat)} (h : Ret c (OrderInfoOk before n true tl static)) :
    ∃ (o : List Int) (sizes : List Nat) (m : Nat), c = .ok (⟨o, some (sizes, m)⟩, tl, static) ∧
      StableOrder before n o ∧ GroupSizes before n o sizes m := by
  obtain ⟨⟨⟨o, g⟩, tl', st'⟩, hr, h1, h2, B, hB, h3, h4⟩ := h
  dsimp only at h1 h2 h3 h4
  rw [if_pos rfl] at h4
  subst h1 h2 h4
  exact ⟨o, _, _, hr, h3 ▸ hB.stable, B, hB, h3, rfl, isMax_maxOf _⟩

theorem OrderInfoOk.alone {before : Nat → Nat → Prop} {n : Nat} {tl : TL} {static : List Nat}
    {fuel : Nat} {x : Val} {direction naValue : List Name} {nanDistinct : Bool}
    (h : Ret (vecOrderInfo fuel x direction naValue nanDistinct true false tl static)
      (OrderInfoOk before n false tl static)) :
    ∃ o : List Int, vecOrder fuel x direction naValue nanDistinct tl static = .ok (o, tl, static) ∧
      StableOrder before n o := by
  obtain ⟨⟨⟨o, g⟩, tl', st'⟩, hr, h1, h2, B, hB, h3, h4⟩ := h
  dsimp only at h1 h2 h3
  subst h1 h2
  exact ⟨o, by unfold vecOrder; rw [hr]; rfl, h3 ▸ hB.stable⟩

end Vctrs
