import Verif.SpecDfType
import Verif.Lemmas.Factor
import Verif.Lemmas.RetOr

namespace Vctrs
open Spec
variable {β : Type}

/-- Names of the common type. -/
def unionNames (x y : List Name) : List Name := x ++ y.filter (fun s => decide (s ∉ x))

/-- The columns written so far are those of the common type. -/
def PtCol (ops : ColOps β) (x y : Df β) (zn : List Name) (i : Nat) (c : β) : Prop :=
  ∃ s, zn[i]? = some s ∧ CommonCol ops x y s (.ok c)

theorem getElem?_filter_take {α : Type _} {l : List α} {P : α → Bool} {j : Nat} {a : α} (h : l[j]? = some a)
    (hP : P a = true) : (l.filter P)[((l.take j).filter P).length]? = some a := by
  obtain ⟨hj, rfl⟩ := List.getElem?_eq_some_iff.1 h
  have e : l.filter P = (l.take j).filter P ++ l[j] :: (l.drop (j + 1)).filter P := by
    have : l.filter P = (l.take j ++ l.drop j).filter P := by rw [List.take_append_drop]
    rw [this, List.drop_eq_getElem_cons hj, List.filter_append, List.filter_cons_of_pos hP]
  rw [e, List.getElem?_append_right (Nat.le_refl _), Nat.sub_self]
  rfl

theorem length_filter_take_succ {α : Type _} {l : List α} (P : α → Bool) {j : Nat} {a : α} (h : l[j]? = some a) :
    ((l.take (j + 1)).filter P).length = ((l.take j).filter P).length + (if P a then 1 else 0) := by
  obtain ⟨hj, rfl⟩ := List.getElem?_eq_some_iff.1 h
  rw [List.take_succ_eq_append_getElem hj, List.filter_append, List.length_append]
  by_cases hP : P l[j] <;> simp [hP]

theorem filter_take_le {α : Type _} (l : List α) (P : α → Bool) (j : Nat) :
    ((l.take j).filter P).length ≤ (l.filter P).length :=
  ((List.take_sublist j l).filter P).length_le

theorem dfPtype2Loop_ok (ops : ColOps β) {x y : Df β} (hx : Named x) (hy : Named y) (h : x.names = y.names) :
    RetOr (dfPtype2Loop ops x y) (fun z => z.names = unionNames x.names y.names ∧ z.cols.length = z.names.length ∧
      z.size = 0 ∧ ∀ (i : Nat) (c : β), z.cols[i]? = some c → PtCol ops x y z.names i c)
      (fun e => ∃ s, CommonCol ops x y s (.error e)) := by
  have hu : unionNames x.names y.names = x.names := by
    unfold unionNames
    rw [List.filter_eq_nil_iff.2 (by rw [h]; simp), List.append_nil]
  unfold dfPtype2Loop
  refine RetOr.bind (RetOr.forN (fun i out => Filled (PtCol ops x y x.names) x.names.length i out)
    (Filled.start _ _) ?_) ?_
  · intro i out hi hF
    have hn := List.getElem?_eq_getElem hi
    have ha : x.cols[i]? = some (x.cols[i]'(by rw [← hx.1]; exact hi)) := List.getElem?_eq_getElem _
    have hb : y.cols[i]? = some (y.cols[i]'(by rw [← hy.1, ← h]; exact hi)) := List.getElem?_eq_getElem _
    have hcx : ColAt x x.names[i] _ := ⟨i, hn, ha⟩
    have hcy : ColAt y x.names[i] _ := ⟨i, by rw [← h]; exact hn, hb⟩
    unfold dfPtype2LoopStep
    refine RetOr.bind_eq (rd_of_getElem? ha) (RetOr.bind_eq (rd_of_getElem? hb) ?_)
    cases hc : ops.ptype2 (x.cols[i]'(by rw [← hx.1]; exact hi)) (y.cols[i]'(by rw [← hy.1, ← h]; exact hi)) with
    | error e => exact Or.inr ⟨e, rfl, _, Or.inl ⟨_, _, hcx, hcy, hc⟩⟩
    | ok c =>
      obtain ⟨h1, h2⟩ := hF.step (r := c) hi ⟨_, hn, Or.inl ⟨_, _, hcx, hcy, hc⟩⟩
      exact Or.inl ⟨_, h1, h2⟩
  · intro buf hF
    refine RetOr.bind (hF.done.orErr) ?_
    rintro cols ⟨h1, h2⟩
    exact RetOr.ok ⟨hu.symm, h1, rfl, h2⟩

theorem restLen_ok {x y : List Name} {yDups : List Int}
    (h : ∀ (i : Nat) (s : Name), y[i]? = some s → ∃ c, yDups[i]? = some c ∧ FoundAt x s c) :
    Ret (forN y.length (restLenStep yDups) 0) (fun n => n = (y.filter (fun s => decide (s ∉ x))).length) := by
  refine (Ret.forN (fun i n => n = ((y.take i).filter (fun s => decide (s ∉ x))).length) (by simp) ?_).mono ?_
  · rintro i n hi rfl
    have hn := List.getElem?_eq_getElem hi
    obtain ⟨c, hc, hf⟩ := h i _ hn
    unfold restLenStep
    refine Ret.bind_eq (rd_of_getElem? hc) (Ret.ok ?_)
    rw [length_filter_take_succ _ hn]
    by_cases hm : y[i] ∈ x
    · rw [if_neg (by rw [hf.na]; simpa using hm)]; simp [hm]
    · rw [if_pos (hf.na.2 hm)]; simp [hm]
  · rintro n rfl
    rw [List.take_length]

theorem FoundAt.col {d : Df β} {s : Name} {c : Int} (hd : Named d) (h : FoundAt d.names s c) (hc : c ≠ naInt) :
    ∃ b, rdI d.cols (c - 1) = .ok b ∧ ColAt d s b := by
  rcases h with ⟨_, h⟩ | ⟨k, rfl, hk⟩
  · exact absurd h hc
  · have hl : k < d.cols.length := by rw [← hd.1]; exact (List.getElem?_eq_some_iff.1 hk).1
    refine ⟨d.cols[k], rdI_ok (by omega) ?_, k, hk, List.getElem?_eq_getElem hl⟩
    rw [show ((k : Int) + 1 - 1).toNat = k by omega]
    exact List.getElem?_eq_getElem hl

theorem dfPtype2Match_ok (hash : Name → BitVec 32) (ops : ColOps β) {x y : Df β} (hx : Named x) (hy : Named y) :
    RetOr (dfPtype2Match hash ops x y) (fun z => z.names = unionNames x.names y.names ∧
      z.cols.length = z.names.length ∧ z.size = 0 ∧ ∀ (i : Nat) (c : β), z.cols[i]? = some c → PtCol ops x y z.names i c)
      (fun e => ∃ s, CommonCol ops x y s (.error e)) := by
  unfold dfPtype2Match
  refine RetOr.bind (chrMatch_ok hash x.names y.names hy.2).orErr ?_
  rintro xDups ⟨_, hxd⟩
  refine RetOr.bind (chrMatch_ok hash y.names x.names hx.2).orErr ?_
  rintro yDups ⟨hyl, hyd⟩
  dsimp only
  refine RetOr.bind (restLen_ok hyd).orErr ?_
  rintro n rfl
  generalize hZ : unionNames x.names y.names = zn
  have hzl : x.names.length + (y.names.filter (fun s => decide (s ∉ x.names))).length = zn.length := by
    rw [← hZ]; unfold unionNames; rw [List.length_append]
  rw [hzl]
  have hzx : ∀ i, i < x.names.length → zn[i]? = x.names[i]? := by
    intro i hi
    rw [← hZ]; unfold unionNames; rw [List.getElem?_append_left hi]
  refine RetOr.bind (RetOr.forN (fun i (s : List (Option β) × List (Option Name)) =>
      Filled (PtCol ops x y zn) zn.length i s.1 ∧ Filled (fun i s => zn[i]? = some s) zn.length i s.2)
    ⟨Filled.start _ _, Filled.start _ _⟩ ?_) ?_
  · rintro i ⟨out, nms⟩ hi ⟨hF, hG⟩
    have hiz : i < zn.length := by omega
    have hn := List.getElem?_eq_getElem hi
    have hzn := (hzx i hi).trans hn
    have ha : x.cols[i]? = some (x.cols[i]'(by rw [← hx.1]; exact hi)) := List.getElem?_eq_getElem _
    obtain ⟨d, hd, hf⟩ := hxd i _ hn
    unfold dfMatchXStep
    refine RetOr.bind_eq (rd_of_getElem? hd) (RetOr.bind_eq (rd_of_getElem? ha) ?_)
    refine RetOr.bind (P := fun c => CommonCol ops x y x.names[i] (.ok c)) ?_ ?_
    · by_cases hna : d = naInt
      · rw [if_pos hna]
        rcases RetOr.self (ops.ptype (x.cols[i]'(by rw [← hx.1]; exact hi))) with ⟨c, h1, h2⟩ | ⟨e, h1, h2⟩
        · exact Or.inl ⟨c, h1, Or.inr (Or.inl ⟨_, ⟨i, hn, ha⟩, hf.na.1 hna, h2⟩)⟩
        · exact Or.inr ⟨e, h1, _, Or.inr (Or.inl ⟨_, ⟨i, hn, ha⟩, hf.na.1 hna, h2⟩)⟩
      · rw [if_neg hna]
        obtain ⟨b, hb, hcb⟩ := hf.col hy hna
        refine RetOr.bind_eq hb ?_
        rcases RetOr.self (ops.ptype2 (x.cols[i]'(by rw [← hx.1]; exact hi)) b) with ⟨c, h1, h2⟩ | ⟨e, h1, h2⟩
        · exact Or.inl ⟨c, h1, Or.inl ⟨_, _, ⟨i, hn, ha⟩, hcb, h2⟩⟩
        · exact Or.inr ⟨e, h1, _, Or.inl ⟨_, _, ⟨i, hn, ha⟩, hcb, h2⟩⟩
    · intro c hc
      obtain ⟨h1, h2⟩ := hF.step (r := c) hiz ⟨_, hzn, hc⟩
      obtain ⟨h3, h4⟩ := hG.step (r := x.names[i]) hiz hzn
      exact RetOr.bind_eq h1 (RetOr.bind_eq (rd_of_getElem? hn) (RetOr.bind_eq h3 (RetOr.ok ⟨h2, h4⟩)))
  · rintro ⟨out, nms⟩ ⟨hF, hG⟩
    refine RetOr.bind (RetOr.forBrk (fun j (s : Nat × List (Option β) × List (Option Name)) =>
        j ≤ y.names.length ∧
        s.1 = x.names.length + ((y.names.take j).filter (fun s => decide (s ∉ x.names))).length ∧
        Filled (PtCol ops x y zn) zn.length s.1 s.2.1 ∧ Filled (fun i s => zn[i]? = some s) zn.length s.1 s.2.2)
      (fun s => Filled (PtCol ops x y zn) zn.length zn.length s.2.1 ∧
        Filled (fun i s => zn[i]? = some s) zn.length zn.length s.2.2)
      ⟨Nat.zero_le _, by simp, hF, hG⟩ ?_ ?_) ?_
    · rintro j ⟨i, out, nms⟩ _ ⟨hj, hi, hF, hG⟩
      dsimp only at hi hF hG
      have hle := filter_take_le y.names (fun s => decide (s ∉ x.names)) j
      unfold dfMatchYStep
      dsimp only
      by_cases hlt : i < zn.length
      · rw [if_pos hlt]
        have hjl : j < y.names.length := by
          by_contra hge
          have : j = y.names.length := by omega
          rw [this, List.take_length] at hi
          omega
        have hn := List.getElem?_eq_getElem hjl
        obtain ⟨d, hd, hf⟩ := hyd j _ hn
        refine RetOr.bind_eq (rd_of_getElem? hd) ?_
        have hsucc := length_filter_take_succ (fun s => decide (s ∉ x.names)) hn
        by_cases hna : d = naInt
        · have hnm := hf.na.1 hna
          rw [if_pos hna]
          have hb : y.cols[j]? = some (y.cols[j]'(by rw [← hy.1]; exact hjl)) := List.getElem?_eq_getElem _
          have hzn : zn[i]? = some y.names[j] := by
            rw [← hZ]; unfold unionNames
            rw [List.getElem?_append_right (by omega), hi, Nat.add_sub_cancel_left]
            exact getElem?_filter_take hn (by simpa using hnm)
          refine RetOr.bind_eq (rd_of_getElem? hb) ?_
          refine RetOr.bind (P := fun c => CommonCol ops x y y.names[j] (.ok c)) ?_ ?_
          · rcases RetOr.self (ops.ptype (y.cols[j]'(by rw [← hy.1]; exact hjl))) with ⟨c, h1, h2⟩ | ⟨e, h1, h2⟩
            · exact Or.inl ⟨c, h1, Or.inr (Or.inr ⟨_, hnm, ⟨j, hn, hb⟩, h2⟩)⟩
            · exact Or.inr ⟨e, h1, _, Or.inr (Or.inr ⟨_, hnm, ⟨j, hn, hb⟩, h2⟩)⟩
          · intro c hc
            obtain ⟨h1, h2⟩ := hF.step (r := c) hlt ⟨_, hzn, hc⟩
            obtain ⟨h3, h4⟩ := hG.step (r := y.names[j]) hlt hzn
            refine RetOr.bind_eq h1 (RetOr.bind_eq (rd_of_getElem? hn) (RetOr.bind_eq h3 (RetOr.ok ?_)))
            refine ⟨by omega, ?_, h2, h4⟩
            dsimp only
            rw [hsucc, if_pos (by simpa using hnm)]; omega
        · rw [if_neg hna]
          refine RetOr.ok ⟨by omega, ?_, hF, hG⟩
          dsimp only
          rw [hsucc, if_neg (by simpa using fun h => hna (hf.na.2 h))]; omega
      · rw [if_neg hlt]
        have : i = zn.length := by omega
        subst this
        exact RetOr.ok ⟨hF, hG⟩
    · rintro s ⟨h, _⟩; omega
    · rintro ⟨i, out, nms⟩ ⟨hF, hG⟩
      refine RetOr.bind hF.done.orErr ?_
      rintro cols ⟨h1, h2⟩
      refine RetOr.bind hG.done.orErr ?_
      rintro names ⟨h3, h4⟩
      have hne : names = zn := by
        refine List.ext_getElem? (fun i => ?_)
        by_cases hi : i < zn.length
        · have hg := List.getElem?_eq_getElem (l := names) (i := i) (by omega)
          rw [hg]; exact (h4 i _ hg).symm
        · rw [List.getElem?_eq_none (by omega), List.getElem?_eq_none (by omega)]
      subst hne
      exact RetOr.ok ⟨rfl, h1, rfl, h2⟩

theorem dfPtype2_ok (hash : Name → BitVec 32) (ops : ColOps β) {x y : Df β} (hx : Named x) (hy : Named y) :
    RetOr (dfPtype2 hash ops x y) (fun z => z.names = unionNames x.names y.names ∧
      z.cols.length = z.names.length ∧ z.size = 0 ∧ ∀ (i : Nat) (c : β), z.cols[i]? = some c → PtCol ops x y z.names i c)
      (fun e => ∃ s, CommonCol ops x y s (.error e)) := by
  unfold dfPtype2
  by_cases h : x.names = y.names
  · rw [if_pos h]; exact dfPtype2Loop_ok ops hx hy h
  · rw [if_neg h]; exact dfPtype2Match_ok hash ops hx hy

/-! ## Casts -/

/-- The column at position `i` of the cast. -/
def CaCol (ops : ColOps β) (x ty : Df β) (i : Nat) (c : β) : Prop :=
  ∃ s, ty.names[i]? = some s ∧ CastCol ops x ty s (.ok c)

theorem dfCastLoop_ok (ops : ColOps β) {x ty : Df β} (hx : Tidy x) (ht : Tidy ty) (h : x.names = ty.names) :
    RetOr (dfCastLoop ops x ty) (fun z => z.names = ty.names ∧ z.cols.length = z.names.length ∧
      z.size = x.size ∧ ∀ (i : Nat) (c : β), z.cols[i]? = some c → CaCol ops x ty i c)
      (fun e => ∃ s, CastCol ops x ty s (.error e)) := by
  unfold dfCastLoop
  refine RetOr.bind (RetOr.forN (fun i out => Filled (CaCol ops x ty) x.names.length i out)
    (Filled.start _ _) ?_) ?_
  · intro i out hi hF
    have hn := List.getElem?_eq_getElem hi
    have ha : x.cols[i]? = some (x.cols[i]'(by rw [← hx.1.1]; exact hi)) := List.getElem?_eq_getElem _
    have hb : ty.cols[i]? = some (ty.cols[i]'(by rw [← ht.1.1, ← h]; exact hi)) := List.getElem?_eq_getElem _
    have hcx : ColAt x x.names[i] _ := ⟨i, hn, ha⟩
    have hcy : ColAt ty x.names[i] _ := ⟨i, by rw [← h]; exact hn, hb⟩
    unfold dfCastLoopStep
    refine RetOr.bind_eq (rd_of_getElem? ha) (RetOr.bind_eq (rd_of_getElem? hb) ?_)
    cases hc : ops.cast (x.cols[i]'(by rw [← hx.1.1]; exact hi)) (ty.cols[i]'(by rw [← ht.1.1, ← h]; exact hi)) with
    | error e => exact Or.inr ⟨e, rfl, _, Or.inl ⟨_, _, hcx, hcy, hc⟩⟩
    | ok c =>
      obtain ⟨h1, h2⟩ := hF.step (r := c) hi ⟨_, by rw [← h]; exact hn, Or.inl ⟨_, _, hcx, hcy, hc⟩⟩
      exact Or.inl ⟨_, h1, h2⟩
  · intro buf hF
    refine RetOr.bind (hF.done.orErr) ?_
    rintro cols ⟨h1, h2⟩
    exact RetOr.ok ⟨h, h1, rfl, h2⟩

theorem dfCastMatch_ok (hash : Name → BitVec 32) (ops : ColOps β) {x ty : Df β} (hx : Tidy x) (ht : Tidy ty) :
    RetOr (dfCastMatch hash ops x ty) (fun z => (∀ s ∈ x.names, s ∈ ty.names) ∧ z.names = ty.names ∧
      z.cols.length = z.names.length ∧ z.size = x.size ∧ ∀ (i : Nat) (c : β), z.cols[i]? = some c → CaCol ops x ty i c)
      (fun e => (∃ s, CastCol ops x ty s (.error e)) ∨ ((∃ s ∈ x.names, s ∉ ty.names) ∧ e = .abort)) := by
  unfold dfCastMatch
  refine RetOr.bind (chrMatch_ok hash ty.names x.names hx.1.2).orErr ?_
  rintro dups ⟨hdl, hd⟩
  dsimp only
  rw [hdl]
  refine RetOr.bind (RetOr.forN (fun i (s : Nat × List (Option β)) =>
      s.1 = ((ty.names.take i).filter (fun s => decide (s ∈ x.names))).length ∧
      Filled (CaCol ops x ty) ty.names.length i s.2) ⟨by simp, Filled.start _ _⟩ ?_) ?_
  · rintro i ⟨n, out⟩ hi ⟨hN, hF⟩
    dsimp only at hN hF
    have hn := List.getElem?_eq_getElem hi
    have hb : ty.cols[i]? = some (ty.cols[i]'(by rw [← ht.1.1]; exact hi)) := List.getElem?_eq_getElem _
    have hcy : ColAt ty ty.names[i] _ := ⟨i, hn, hb⟩
    obtain ⟨d, hdi, hf⟩ := hd i _ hn
    have hsucc := length_filter_take_succ (fun s => decide (s ∈ x.names)) hn
    unfold dfCastMatchStep
    refine RetOr.bind_eq (rd_of_getElem? hdi) ?_
    by_cases hna : d = naInt
    · have hnm := hf.na.1 hna
      rw [if_pos hna]
      refine RetOr.bind_eq (rd_of_getElem? hb) ?_
      refine RetOr.bind (P := fun c => CastCol ops x ty ty.names[i] (.ok c)) ?_ ?_
      · rcases RetOr.self (ops.init (ty.cols[i]'(by rw [← ht.1.1]; exact hi)) x.size) with ⟨c, h1, h2⟩ | ⟨e, h1, h2⟩
        · exact Or.inl ⟨c, h1, Or.inr ⟨_, hnm, hcy, h2⟩⟩
        · exact Or.inr ⟨e, h1, Or.inl ⟨_, Or.inr ⟨_, hnm, hcy, h2⟩⟩⟩
      · intro c hc
        obtain ⟨h1, h2⟩ := hF.step (r := c) hi ⟨_, hn, hc⟩
        refine RetOr.bind_eq h1 (RetOr.ok ⟨?_, h2⟩)
        dsimp only
        rw [hsucc, if_neg (by simpa using hnm)]; omega
    · rw [if_neg hna]
      have hm : ty.names[i] ∈ x.names := by by_contra h; exact hna (hf.na.2 h)
      obtain ⟨a, ha, hca⟩ := hf.col hx.1 hna
      refine RetOr.bind_eq ha (RetOr.bind_eq (rd_of_getElem? hb) ?_)
      refine RetOr.bind (P := fun c => CastCol ops x ty ty.names[i] (.ok c)) ?_ ?_
      · rcases RetOr.self (ops.cast a (ty.cols[i]'(by rw [← ht.1.1]; exact hi))) with ⟨c, h1, h2⟩ | ⟨e, h1, h2⟩
        · exact Or.inl ⟨c, h1, Or.inl ⟨_, _, hca, hcy, h2⟩⟩
        · exact Or.inr ⟨e, h1, Or.inl ⟨_, Or.inl ⟨_, _, hca, hcy, h2⟩⟩⟩
      · intro c hc
        obtain ⟨h1, h2⟩ := hF.step (r := c) hi ⟨_, hn, hc⟩
        refine RetOr.bind_eq h1 (RetOr.ok ⟨?_, h2⟩)
        dsimp only
        rw [hsucc, if_pos (by simpa using hm)]; omega
  · rintro ⟨n, buf⟩ ⟨hN, hF⟩
    dsimp only at hN hF ⊢
    rw [List.take_length] at hN
    refine RetOr.bind (hF.done.orErr) ?_
    rintro cols ⟨h1, h2⟩
    have hcount : n = (x.names.filter (fun s => decide (s ∈ ty.names))).length := by
      rw [hN]
      refine List.Perm.length_eq ?_
      rw [List.perm_ext_iff_of_nodup (ht.2.filter _) (hx.2.filter _)]
      intro s
      simp only [List.mem_filter, decide_eq_true_eq]
      exact And.comm
    unfold dfLossyCast
    by_cases hall : ∀ s ∈ x.names, s ∈ ty.names
    · have : n = x.cols.length := by
        rw [hcount, List.filter_eq_self.2 (by simpa using hall), hx.1.1]
      rw [if_neg (by omega)]
      exact RetOr.ok ⟨hall, rfl, h1, rfl, h2⟩
    · have hex : ∃ s ∈ x.names, s ∉ ty.names := by simpa using hall
      have : n < x.cols.length := by
        rw [hcount, ← hx.1.1]
        have hle := List.length_filter_le (fun s => decide (s ∈ ty.names)) x.names
        rcases Nat.lt_or_eq_of_le hle with h | h
        · exact h
        · exfalso
          have := List.length_filter_eq_length_iff.1 h
          obtain ⟨s, hs, hm⟩ := hex
          exact hm (by simpa using this s hs)
      rw [if_pos (by omega), if_pos ?_]
      · exact Or.inr ⟨_, rfl, Or.inr ⟨hex, rfl⟩⟩
      · rw [List.any_eq_true]
        obtain ⟨s, hs, hm⟩ := hex
        exact ⟨s, hs, by simpa using hm⟩

theorem dfCast_ok (hash : Name → BitVec 32) (ops : ColOps β) {x ty : Df β} (hx : Tidy x) (ht : Tidy ty) :
    RetOr (dfCast hash ops x ty) (fun z => (∀ s ∈ x.names, s ∈ ty.names) ∧ z.names = ty.names ∧
      z.cols.length = z.names.length ∧ z.size = x.size ∧ ∀ (i : Nat) (c : β), z.cols[i]? = some c → CaCol ops x ty i c)
      (fun e => (∃ s, CastCol ops x ty s (.error e)) ∨ ((∃ s ∈ x.names, s ∉ ty.names) ∧ e = .abort)) := by
  unfold dfCast
  by_cases h : x.names = ty.names
  · rw [if_pos h]
    rcases dfCastLoop_ok ops hx ht h with ⟨z, h1, h2⟩ | ⟨e, h1, h2⟩
    · exact Or.inl ⟨z, h1, by rw [h]; exact fun _ h => h, h2⟩
    · exact Or.inr ⟨e, h1, Or.inl h2⟩
  · rw [if_neg h]; exact dfCastMatch_ok hash ops hx ht

end Vctrs
