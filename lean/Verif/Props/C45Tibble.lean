import Verif.Model.Tibble
import Verif.Props.C45Laws

/-!
# C45: data frames and tibbles

The common type of data frames and tibbles has the columns of the common type of the data frames and is a tibble if
one of them is; casts give the class of the target.
-/

namespace Vctrs.Spec

/-- The class of a bare data frame. -/
def PlainClass (cls : List (Option String)) : Prop := cls = [some "data.frame"]

/-- The class of a bare tibble. -/
def TibbleClass (cls : List (Option String)) : Prop := cls = [some "tbl_df", some "tbl", some "data.frame"]

end Vctrs.Spec

namespace Vctrs

open Spec

variable {β : Type}

theorem frameType_plain {cls : List (Option String)} (h : PlainClass cls) :
    frameType cls = .ok (.dataframe, .bareDataFrame) := by
  unfold PlainClass at h; subst h; rfl

theorem frameType_tibble {cls : List (Option String)} (h : TibbleClass cls) :
    frameType cls = .ok (.s3, .bareTibble) := by
  unfold TibbleClass at h; subst h; rfl

/-- The common type: the columns of `df_ptype2()`, and a tibble unless both are bare data frames. Other methods are not
looked for. -/
theorem C45_tibble (hash : Name → BitVec 32) (ops : ColOps β) (s3 : DfObj β → DfObj β → C (DfObj β)) {x y : DfObj β}
    (hx : PlainClass x.cls ∨ TibbleClass x.cls) (hy : PlainClass y.cls ∨ TibbleClass y.cls) :
    (∀ e, dfPtype2 hash ops x.frame y.frame = .error e → framePtype2 hash ops s3 x y = .error e) ∧
    ∀ f, dfPtype2 hash ops x.frame y.frame = .ok f → ∃ z, framePtype2 hash ops s3 x y = .ok z ∧ z.frame = f ∧
      (PlainClass z.cls ∨ TibbleClass z.cls) ∧ (TibbleClass z.cls ↔ TibbleClass x.cls ∨ TibbleClass y.cls) := by
  have ht : TibbleClass classesTibble := rfl
  have hp : PlainClass classesDataFrame := rfl
  have hn : ∀ {c}, PlainClass c → ¬ TibbleClass c := by
    intro c h1 h2
    unfold PlainClass at h1; unfold TibbleClass at h2
    rw [h1] at h2; simp at h2
  unfold framePtype2
  rcases hx with hx | hx <;> rcases hy with hy | hy
  · rw [frameType_plain hx, frameType_plain hy]
    simp only [ok_bind, dfPtype2Obj]
    refine ⟨fun e h => by rw [h]; rfl, fun f h => ⟨⟨f, _⟩, by rw [h]; rfl, rfl, .inl hp, ?_⟩⟩
    exact ⟨fun h => absurd h (hn hp), fun h => h.elim (fun h => absurd h (hn hx)) (fun h => absurd h (hn hy))⟩
  · rw [frameType_plain hx, frameType_tibble hy]
    simp only [ok_bind, tibPtype2, dfPtype2Obj]
    exact ⟨fun e h => by rw [h]; rfl, fun f h => ⟨⟨f, _⟩, by rw [h]; rfl, rfl, .inr ht, fun _ => .inr hy, fun _ => ht⟩⟩
  · rw [frameType_tibble hx, frameType_plain hy]
    simp only [ok_bind, tibPtype2, dfPtype2Obj]
    exact ⟨fun e h => by rw [h]; rfl, fun f h => ⟨⟨f, _⟩, by rw [h]; rfl, rfl, .inr ht, fun _ => .inl hx, fun _ => ht⟩⟩
  · rw [frameType_tibble hx, frameType_tibble hy]
    simp only [ok_bind, tibPtype2, dfPtype2Obj]
    exact ⟨fun e h => by rw [h]; rfl, fun f h => ⟨⟨f, _⟩, by rw [h]; rfl, rfl, .inr ht, fun _ => .inl hx, fun _ => ht⟩⟩

/-- Casts: the columns and the size of `df_cast()`, and the class of the target. -/
theorem C45_tibble_cast (hash : Name → BitVec 32) (ops : ColOps β) (s3 : DfObj β → DfObj β → C (DfObj β))
    {x ty : DfObj β} (hx : PlainClass x.cls ∨ TibbleClass x.cls) (ht : PlainClass ty.cls ∨ TibbleClass ty.cls) :
    (∀ e, dfCast hash ops x.frame ty.frame = .error e → frameCast hash ops s3 x ty = .error e) ∧
    ∀ f, dfCast hash ops x.frame ty.frame = .ok f → frameCast hash ops s3 x ty = .ok ⟨f, ty.cls⟩ := by
  have h1 : ∀ {c}, TibbleClass c → classesTibble = c := fun h => h.symm
  have h2 : ∀ {c}, PlainClass c → classesDataFrame = c := fun h => h.symm
  unfold frameCast
  rcases hx with hx | hx <;> rcases ht with ht | ht
  · rw [frameType_plain hx, frameType_plain ht]
    simp only [ok_bind, dfCastObj, ← h2 ht]
    exact ⟨fun e h => by rw [h]; rfl, fun f h => by rw [h]; rfl⟩
  · rw [frameType_plain hx, frameType_tibble ht]
    simp only [ok_bind, tibCast, dfCastObj, ← h1 ht]
    exact ⟨fun e h => by rw [h]; rfl, fun f h => by rw [h]; rfl⟩
  · rw [frameType_tibble hx, frameType_plain ht]
    simp only [ok_bind, dfCastObj, ← h2 ht]
    exact ⟨fun e h => by rw [h]; rfl, fun f h => by rw [h]; rfl⟩
  · rw [frameType_tibble hx, frameType_tibble ht]
    simp only [ok_bind, tibCast, dfCastObj, ← h1 ht]
    exact ⟨fun e h => by rw [h]; rfl, fun f h => by rw [h]; rfl⟩

theorem framePtype2_iff {hash : Name → BitVec 32} {ops : ColOps β} {s3 : DfObj β → DfObj β → C (DfObj β)}
    {x y z : DfObj β} (hx : PlainClass x.cls ∨ TibbleClass x.cls) (hy : PlainClass y.cls ∨ TibbleClass y.cls) :
    framePtype2 hash ops s3 x y = .ok z ↔ dfPtype2 hash ops x.frame y.frame = .ok z.frame ∧
      (PlainClass z.cls ∨ TibbleClass z.cls) ∧ (TibbleClass z.cls ↔ TibbleClass x.cls ∨ TibbleClass y.cls) := by
  obtain ⟨h1, h2⟩ := C45_tibble hash ops s3 hx hy
  constructor
  · intro h
    cases hf : dfPtype2 hash ops x.frame y.frame with
    | error e => rw [h1 e hf] at h; cases h
    | ok f =>
      obtain ⟨z', e1, e2, e3, e4⟩ := h2 f hf
      rw [h] at e1; cases e1
      exact ⟨by rw [e2], e3, e4⟩
  · rintro ⟨h, h3, h4⟩
    obtain ⟨z', e1, e2, e3, e4⟩ := h2 _ h
    rw [e1]
    obtain ⟨f, c⟩ := z
    obtain ⟨f', c'⟩ := z'
    have hc : c' = c := by
      have ht := e4.trans h4.symm
      unfold PlainClass TibbleClass at *
      dsimp only at *
      rcases e3 with e3 | e3 <;> rcases h3 with h3 | h3
      · rw [e3, h3]
      · have := ht.2 h3; rw [this, h3]
      · have := ht.1 e3; rw [this, e3]
      · rw [e3, h3]
    dsimp only at e2
    rw [hc, e2]

/-- It does not matter which of three data frames or tibbles are combined first. -/
theorem C45_tibble_assoc (hash : Name → BitVec 32) {ops : ColOps β} (s3 : DfObj β → DfObj β → C (DfObj β))
    (L : TypeLaws ops) {x y z w : DfObj β} (cx : PlainClass x.cls ∨ TibbleClass x.cls)
    (cy : PlainClass y.cls ∨ TibbleClass y.cls) (cz : PlainClass z.cls ∨ TibbleClass z.cls) (hx : Tidy x.frame)
    (hy : Tidy y.frame) (hz : Tidy z.frame)
    (hlen : x.frame.names.length + y.frame.names.length + z.frame.names.length ≤ 2147483647) :
    (∃ u, framePtype2 hash ops s3 x y = .ok u ∧ framePtype2 hash ops s3 u z = .ok w) ↔
      ∃ u, framePtype2 hash ops s3 y z = .ok u ∧ framePtype2 hash ops s3 x u = .ok w := by
  have ha := C45_assoc hash L (w := w.frame) hx hy hz hlen
  constructor
  · rintro ⟨u, h1, h2⟩
    obtain ⟨a1, a2, a3⟩ := (framePtype2_iff cx cy).1 h1
    obtain ⟨b1, b2, b3⟩ := (framePtype2_iff a2 cz).1 h2
    obtain ⟨f, e1, e2⟩ := ha.1 ⟨_, a1, b1⟩
    obtain ⟨v, g1, g2, g3, g4⟩ := (C45_tibble hash ops s3 cy cz).2 f e1
    refine ⟨v, g1, (framePtype2_iff cx g3).2 ⟨by rw [g2]; exact e2, b2, ?_⟩⟩
    rw [b3, a3, g4, or_assoc]
  · rintro ⟨u, h1, h2⟩
    obtain ⟨a1, a2, a3⟩ := (framePtype2_iff cy cz).1 h1
    obtain ⟨b1, b2, b3⟩ := (framePtype2_iff cx a2).1 h2
    obtain ⟨f, e1, e2⟩ := ha.2 ⟨_, a1, b1⟩
    obtain ⟨v, g1, g2, g3, g4⟩ := (C45_tibble hash ops s3 cx cy).2 f e1
    refine ⟨v, g1, (framePtype2_iff g3 cz).2 ⟨by rw [g2]; exact e2, b2, ?_⟩⟩
    rw [b3, a3, g4, or_assoc]

/-- Data frames and tibbles can be cast to their common type; the results have its columns and class, and their own
number of rows. -/
theorem C45_tibble_common (hash : Name → BitVec 32) {ops : ColOps β} (s3 : DfObj β → DfObj β → C (DfObj β))
    (L : CastLaws ops) {x y z : DfObj β} (cx : PlainClass x.cls ∨ TibbleClass x.cls)
    (cy : PlainClass y.cls ∨ TibbleClass y.cls) (hx : Tidy x.frame) (hy : Tidy y.frame)
    (hlen : x.frame.names.length + y.frame.names.length ≤ 2147483647) (h : framePtype2 hash ops s3 x y = .ok z) :
    (∃ v, frameCast hash ops s3 x z = .ok v ∧ v.frame.names = z.frame.names ∧ v.cls = z.cls ∧
      v.frame.size = x.frame.size) ∧
    ∃ w, frameCast hash ops s3 y z = .ok w ∧ w.frame.names = z.frame.names ∧ w.cls = z.cls ∧
      w.frame.size = y.frame.size := by
  obtain ⟨a1, a2, _⟩ := (framePtype2_iff cx cy).1 h
  obtain ⟨⟨v, e1, e2, e3⟩, w, g1, g2, g3⟩ := C45_cast_common hash L hx hy hlen a1
  exact ⟨⟨_, (C45_tibble_cast hash ops s3 cx a2).2 v e1, e2, rfl, e3⟩,
    ⟨_, (C45_tibble_cast hash ops s3 cy a2).2 w g1, g2, rfl, g3⟩⟩

/-- A data frame and a tibble; the common type is a tibble, to which both can be cast, and from which back. -/
example : framePtype2 (fun _ => 7#32) exNatOps (fun _ _ => .error .internal)
      ⟨⟨[some ['a'], some ['b']], [1, 6], 3⟩, [some "data.frame"]⟩
      ⟨⟨[some ['c'], some ['b']], [2, 7], 4⟩, [some "tbl_df", some "tbl", some "data.frame"]⟩ =
    .ok ⟨⟨[some ['a'], some ['b'], some ['c']], [1, 7, 2], 0⟩, [some "tbl_df", some "tbl", some "data.frame"]⟩ ∧
    frameCast (fun _ => 7#32) exNatOps (fun _ _ => .error .internal)
      ⟨⟨[some ['a'], some ['b']], [1, 6], 3⟩, [some "data.frame"]⟩
      ⟨⟨[some ['a'], some ['b'], some ['c']], [1, 7, 2], 0⟩, [some "tbl_df", some "tbl", some "data.frame"]⟩ =
    .ok ⟨⟨[some ['a'], some ['b'], some ['c']], [1, 7, 2], 3⟩, [some "tbl_df", some "tbl", some "data.frame"]⟩ ∧
    frameCast (fun _ => 7#32) exNatOps (fun _ _ => .error .internal)
      ⟨⟨[some ['a'], some ['b'], some ['c']], [1, 7, 2], 3⟩, [some "tbl_df", some "tbl", some "data.frame"]⟩
      ⟨⟨[some ['a'], some ['b'], some ['c']], [1, 7, 2], 0⟩, [some "data.frame"]⟩ =
    .ok ⟨⟨[some ['a'], some ['b'], some ['c']], [1, 7, 2], 3⟩, [some "data.frame"]⟩ := by decide +kernel

end Vctrs
