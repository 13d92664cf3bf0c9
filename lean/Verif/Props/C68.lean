import Verif.Model.DateTime
import Verif.Lemmas.Base
import Mathlib.Data.List.Forall2
import Mathlib.Tactic.Push

/-!
# C68: common types and casts of dates and date-times
-/

namespace Vctrs

namespace Spec

/-- The time zone of a date-time: the first string of its attribute; without one it is local, `""`. -/
def Zone (tzone : Option (List Name)) (z : Name) : Prop :=
  (tzone = none ∧ z = some []) ∨ ∃ r, tzone = some (z :: r)

/-- Date-times have a time zone. -/
def Zoned (t : TimeType) : Prop := t.cls ≠ .date → t.tzone ≠ some []

/-- The time zone that several dates and date-times share: the first that is not local. -/
def CommonZone (ts : List TimeType) (z : Name) : Prop :=
  (∃ pre t post, ts = pre ++ t :: post ∧ t.cls ≠ .date ∧ Zone t.tzone z ∧ z ≠ some [] ∧
    ∀ u ∈ pre, u.cls ≠ .date → Zone u.tzone (some [])) ∨
  (z = some [] ∧ ∀ u ∈ ts, u.cls ≠ .date → Zone u.tzone (some []))

/-- The common type: dates if all are, otherwise `POSIXct`. -/
def CommonTime (ts : List TimeType) (t : TimeType) : Prop :=
  ((∀ u ∈ ts, u.cls = .date) ∧ t = ⟨.date, none⟩) ∨
  ((∃ u ∈ ts, u.cls ≠ .date) ∧ ∃ z, t = ⟨.ct, some [z]⟩ ∧ CommonZone ts z)

/-- The numbers of a date-time as doubles. -/
def Numbers : TimeElts → List Dbl → Prop
  | .dbl l, r => r = l
  | .int l, r => List.Forall₂ (fun i d => (i = naInt ∧ d = naReal) ∨ (i ≠ naInt ∧ d = intToDbl i)) l r
  | .other, _ => False

/-- The value of an attribute: the first with that name. -/
inductive Attr : List (String × List Name) → String → Option (List Name) → Prop
  | nil {k : String} : Attr [] k none
  | here {k : String} {v : List Name} {a : List (String × List Name)} : Attr ((k, v) :: a) k (some v)
  | there {k k' : String} {v : List Name} {a : List (String × List Name)} {r : Option (List Name)} :
      k' ≠ k → Attr a k r → Attr ((k', v) :: a) k r

end Spec

open Spec

/-! ## Time zones -/

theorem zone_unique {t : Option (List Name)} {y z : Name} (h : Zone t y) (h' : Zone t z) : y = z := by
  rcases h with ⟨h1, h2⟩ | ⟨r, h1⟩ <;> rcases h' with ⟨g1, g2⟩ | ⟨r', g1⟩
  · rw [h2, g2]
  · rw [h1] at g1; cases g1
  · rw [h1] at g1; cases g1
  · rw [h1] at g1; cases g1; rfl

theorem tzoneGet_ok {t : Option (List Name)} (h : t ≠ some []) : ∃ z, tzoneGet t = .ok z ∧ Zone t z := by
  match t with
  | none => exact ⟨_, rfl, Or.inl ⟨rfl, rfl⟩⟩
  | some [] => exact absurd rfl h
  | some (z :: r) => exact ⟨z, rfl, Or.inr ⟨r, rfl⟩⟩

theorem tzoneGet_of {t : Option (List Name)} {z : Name} (h : Zone t z) : tzoneGet t = .ok z := by
  rcases h with ⟨rfl, rfl⟩ | ⟨r, rfl⟩ <;> rfl

theorem timePtype2_date {x y : TimeType} (hx : x.cls = .date) (hy : y.cls = .date) :
    timePtype2 x y = .ok ⟨.date, none⟩ := by
  unfold timePtype2; rw [hx, hy]

theorem timePtype2_left {x y : TimeType} {z : Name} (hx : x.cls = .date) (hy : y.cls ≠ .date) (hz : Zone y.tzone z) :
    timePtype2 x y = .ok ⟨.ct, some [z]⟩ := by
  have : timePtype2 x y = dateDatetimePtype2 x y := by
    unfold timePtype2; rw [hx]; cases h : y.cls <;> first | rfl | exact absurd h hy
  rw [this, dateDatetimePtype2, if_pos hx, tzoneGet_of hz]; rfl

theorem timePtype2_right {x y : TimeType} {z : Name} (hx : x.cls ≠ .date) (hy : y.cls = .date) (hz : Zone x.tzone z) :
    timePtype2 x y = .ok ⟨.ct, some [z]⟩ := by
  have : timePtype2 x y = dateDatetimePtype2 x y := by
    unfold timePtype2; rw [hy]; cases h : x.cls <;> first | rfl | exact absurd h hx
  rw [this, dateDatetimePtype2, if_neg hx, tzoneGet_of hz]; rfl

theorem timePtype2_both {x y : TimeType} (hx : x.cls ≠ .date) (hy : y.cls ≠ .date) :
    timePtype2 x y = datetimeDatetimePtype2 x y := by
  unfold timePtype2
  cases h : x.cls <;> cases h' : y.cls <;> first | rfl | exact absurd h hx | exact absurd h' hy

theorem timePtype2_zones {x y : TimeType} {a b : Name} (hx : x.cls ≠ .date) (hy : y.cls ≠ .date) (ha : Zone x.tzone a)
    (hb : Zone y.tzone b) : timePtype2 x y = .ok ⟨.ct, some [if a = some [] then b else a]⟩ := by
  rw [timePtype2_both hx hy, datetimeDatetimePtype2, tzoneGet_of ha, tzoneGet_of hb]
  simp only [ok_bind, tzoneUnion, tzoneIsLocal, newEmptyDatetime, beq_iff_eq]

theorem zoned_zone {t : TimeType} (h : Zoned t) (hc : t.cls ≠ .date) : ∃ z, Zone t.tzone z :=
  (tzoneGet_ok (h hc)).imp (fun _ h => h.2)

/-- One more input. -/
theorem commonTime_snoc {ts : List TimeType} {s t : TimeType} (h : CommonTime ts s) (ht : Zoned t) :
    ∃ r, timePtype2 s t = .ok r ∧ CommonTime (ts ++ [t]) r := by
  have hsnoc : ∀ z, CommonZone ts z → z ≠ some [] → CommonZone (ts ++ [t]) z := by
    intro z hz hne
    rcases hz with ⟨pre, u, post, e, h1, h2, h3, h4⟩ | ⟨h1, _⟩
    · exact Or.inl ⟨pre, u, post ++ [t], by rw [e]; simp, h1, h2, h3, h4⟩
    · exact absurd h1 hne
  have hloc : CommonZone ts (some []) → ∀ u ∈ ts, u.cls ≠ .date → Zone u.tzone (some []) := by
    intro hz
    rcases hz with ⟨pre, u, post, e, h1, h2, h3, h4⟩ | ⟨_, h⟩
    · exact absurd rfl h3
    · exact h
  rcases h with ⟨h1, rfl⟩ | ⟨⟨u, hu1, hu2⟩, z, rfl, hz⟩
  · by_cases hd : t.cls = .date
    · refine ⟨_, timePtype2_date rfl hd, Or.inl ⟨?_, rfl⟩⟩
      intro u hu
      rcases List.mem_append.1 hu with hu | hu
      · exact h1 u hu
      · rw [List.mem_singleton] at hu; rw [hu]; exact hd
    · obtain ⟨z, hz⟩ := zoned_zone ht hd
      refine ⟨_, timePtype2_left rfl hd hz, Or.inr ⟨⟨t, by simp, hd⟩, z, rfl, ?_⟩⟩
      by_cases hl : z = some []
      · refine Or.inr ⟨hl, ?_⟩
        intro u hu hud
        rcases List.mem_append.1 hu with hu | hu
        · exact absurd (h1 u hu) hud
        · rw [List.mem_singleton] at hu; rw [hu, ← hl]; exact hz
      · exact Or.inl ⟨ts, t, [], rfl, hd, hz, hl, fun u hu hud => absurd (h1 u hu) hud⟩
  · have hzs : Zone (⟨.ct, some [z]⟩ : TimeType).tzone z := Or.inr ⟨[], rfl⟩
    by_cases hd : t.cls = .date
    · refine ⟨_, timePtype2_right nofun hd hzs, Or.inr ⟨⟨u, by simp [hu1], hu2⟩, z, rfl, ?_⟩⟩
      by_cases hl : z = some []
      · subst hl
        refine Or.inr ⟨rfl, ?_⟩
        intro u hu hud
        rcases List.mem_append.1 hu with hu | hu
        · exact hloc hz u hu hud
        · rw [List.mem_singleton] at hu; rw [hu] at hud; exact absurd hd hud
      · exact hsnoc z hz hl
    · obtain ⟨b, hb⟩ := zoned_zone ht hd
      refine ⟨_, timePtype2_zones nofun hd hzs hb, Or.inr ⟨⟨u, by simp [hu1], hu2⟩, _, rfl, ?_⟩⟩
      by_cases hl : z = some []
      · subst hl
        rw [if_pos rfl]
        by_cases hbl : b = some []
        · refine Or.inr ⟨hbl, ?_⟩
          intro u hu hud
          rcases List.mem_append.1 hu with hu | hu
          · exact hloc hz u hu hud
          · rw [List.mem_singleton] at hu; rw [hu, ← hbl]; exact hb
        · exact Or.inl ⟨ts, t, [], rfl, hd, hb, hbl, hloc hz⟩
      · rw [if_neg hl]
        exact hsnoc z hz hl

/-- The first two inputs. -/
theorem commonTime_two {a b : TimeType} (ha : Zoned a) (hb : Zoned b) :
    ∃ r, timePtype2 a b = .ok r ∧ CommonTime [a, b] r := by
  by_cases hd : a.cls = .date
  · obtain ⟨r, h1, h2⟩ := commonTime_snoc (ts := [a]) (s := ⟨.date, none⟩) (Or.inl ⟨by simpa using hd, rfl⟩) hb
    refine ⟨r, ?_, h2⟩
    rw [← h1]
    unfold timePtype2
    rw [hd]
    cases h : b.cls <;> first | rfl | (simp only [dateDatetimePtype2, hd]; rfl)
  · obtain ⟨z, hz⟩ := zoned_zone ha hd
    obtain ⟨r, h1, h2⟩ := commonTime_snoc (ts := [a]) (s := ⟨.ct, some [z]⟩)
      (Or.inr ⟨⟨a, by simp, hd⟩, z, rfl, by
        by_cases hl : z = some []
        · exact Or.inr ⟨hl, by rw [← hl]; simpa using fun _ => hz⟩
        · exact Or.inl ⟨[], a, [], rfl, hd, hz, hl, nofun⟩⟩) hb
    refine ⟨r, ?_, h2⟩
    rw [← h1]
    have hz' : Zone (⟨.ct, some [z]⟩ : TimeType).tzone z := Or.inr ⟨[], rfl⟩
    by_cases hbd : b.cls = .date
    · rw [timePtype2_right hd hbd hz, timePtype2_right (fun h => by cases h) hbd hz']
    · obtain ⟨y, hy⟩ := zoned_zone hb hbd
      rw [timePtype2_zones hd hbd hz hy, timePtype2_zones (fun h => by cases h) hbd hz' hy]

theorem foldlM_commonTime {ts : List TimeType} : ∀ {pre : List TimeType} {s : TimeType}, CommonTime pre s →
    (∀ t ∈ ts, Zoned t) → ∃ r, ts.foldlM timePtype2 s = .ok r ∧ CommonTime (pre ++ ts) r := by
  induction ts with
  | nil => intro pre s h _; exact ⟨s, rfl, by rw [List.append_nil]; exact h⟩
  | cons t ts ih =>
    intro pre s h hz
    obtain ⟨r, h1, h2⟩ := commonTime_snoc h (hz t List.mem_cons_self)
    obtain ⟨r', h3, h4⟩ := ih h2 (fun u hu => hz u (List.mem_cons_of_mem _ hu))
    refine ⟨r', ?_, by simpa using h4⟩
    rw [List.foldlM_cons, h1]
    exact h3

/-- **C68** (common type): of two or more dates and date-times it is `Date` if all are dates and otherwise `POSIXct`
with the first time zone that is not local. -/
theorem C68_common {a b : TimeType} {ts : List TimeType} (hz : ∀ t ∈ a :: b :: ts, Zoned t) :
    ∃ r, timeCommon (a :: b :: ts) = .ok (some r) ∧ CommonTime (a :: b :: ts) r := by
  obtain ⟨s, h1, h2⟩ := commonTime_two (hz a (by simp)) (hz b (by simp))
  obtain ⟨r, h3, h4⟩ := foldlM_commonTime (ts := ts) h2 (fun t ht => hz t (by simp [ht]))
  refine ⟨r, ?_, h4⟩
  simp only [timeCommon, List.foldlM_cons, h1, ok_bind, h3]

theorem timePtype2_abort {x y : TimeType} (h : (x.cls ≠ .date ∧ x.tzone = some []) ∨ (y.cls ≠ .date ∧ y.tzone = some [])) :
    timePtype2 x y = .error .abort := by
  by_cases hx : x.cls = .date
  · rcases h with ⟨h, _⟩ | ⟨hy, h⟩
    · exact absurd hx h
    · have : timePtype2 x y = dateDatetimePtype2 x y := by
        unfold timePtype2; rw [hx]; cases h : y.cls <;> first | rfl | exact absurd h hy
      rw [this, dateDatetimePtype2, if_pos hx, h]; rfl
  · by_cases hy : y.cls = .date
    · rcases h with ⟨_, h⟩ | ⟨h, _⟩
      · have : timePtype2 x y = dateDatetimePtype2 x y := by
          unfold timePtype2; rw [hy]; cases h : x.cls <;> first | rfl | exact absurd h hx
        rw [this, dateDatetimePtype2, if_neg hx, h]; rfl
      · exact absurd hy h
    · rw [timePtype2_both hx hy, datetimeDatetimePtype2]
      rcases h with ⟨_, h⟩ | ⟨_, h⟩
      · rw [h]; rfl
      · by_cases h' : x.tzone = some []
        · rw [h']; rfl
        · obtain ⟨z, hz, _⟩ := tzoneGet_ok h'
          rw [hz, h]; rfl

theorem timePtype2_cases (x y : TimeType) : timePtype2 x y = .error .abort ∨ ∃ r, timePtype2 x y = .ok r := by
  by_cases h : (x.cls ≠ .date ∧ x.tzone = some []) ∨ (y.cls ≠ .date ∧ y.tzone = some [])
  · exact Or.inl (timePtype2_abort h)
  · push Not at h
    obtain ⟨r, h1, _⟩ := commonTime_two (a := x) (b := y) h.1 h.2
    exact Or.inr ⟨r, h1⟩

theorem foldlM_abort {ts : List TimeType} : ∀ {s : TimeType}, (∃ t ∈ ts, t.cls ≠ .date ∧ t.tzone = some []) →
    ts.foldlM timePtype2 s = .error .abort := by
  induction ts with
  | nil => intro s h; obtain ⟨t, h, _⟩ := h; cases h
  | cons a ts ih =>
    rintro s ⟨t, ht, hb⟩
    rw [List.foldlM_cons]
    rcases List.mem_cons.1 ht with rfl | ht
    · rw [timePtype2_abort (Or.inr hb)]; rfl
    · rcases timePtype2_cases s a with h | ⟨r, h⟩
      · rw [h]; rfl
      · rw [h]; exact ih ⟨t, ht, hb⟩

/-- **C68** (errors): a date-time with an empty `tzone` is an error among several inputs. -/
theorem C68_corrupt {a b : TimeType} {ts : List TimeType}
    (h : ∃ t ∈ a :: b :: ts, t.cls ≠ .date ∧ t.tzone = some []) : timeCommon (a :: b :: ts) = .error .abort := by
  obtain ⟨t, ht, hb⟩ := h
  rw [timeCommon]
  rcases List.mem_cons.1 ht with rfl | ht
  · rw [List.foldlM_cons, timePtype2_abort (Or.inl hb)]; rfl
  · rw [foldlM_abort ⟨t, ht, hb⟩]; rfl

theorem commonZone_unique {ts : List TimeType} {y z : Name} (h : CommonZone ts y) (h' : CommonZone ts z) : y = z := by
  induction ts with
  | nil =>
    rcases h with ⟨pre, _, _, e, _⟩ | ⟨h, _⟩
    · cases pre <;> cases e
    · rcases h' with ⟨pre, _, _, e, _⟩ | ⟨h', _⟩
      · cases pre <;> cases e
      · rw [h, h']
  | cons t ts ih =>
    have key : ∀ w, CommonZone (t :: ts) w → (t.cls ≠ .date ∧ Zone t.tzone w ∧ w ≠ some []) ∨
        ((t.cls ≠ .date → Zone t.tzone (some [])) ∧ CommonZone ts w) := by
      intro w hw
      rcases hw with ⟨pre, u, post, e, h1, h2, h3, h4⟩ | ⟨h1, h2⟩
      · cases pre with
        | nil => cases e; exact Or.inl ⟨h1, h2, h3⟩
        | cons p pre =>
          cases e
          exact Or.inr ⟨h4 _ List.mem_cons_self, Or.inl ⟨pre, u, post, rfl, h1, h2, h3,
            fun v hv => h4 v (List.mem_cons_of_mem _ hv)⟩⟩
      · exact Or.inr ⟨h2 t List.mem_cons_self, Or.inr ⟨h1, fun u hu => h2 u (List.mem_cons_of_mem _ hu)⟩⟩
    rcases key y h with ⟨h1, h2, h3⟩ | ⟨h1, h2⟩ <;> rcases key z h' with ⟨g1, g2, g3⟩ | ⟨g1, g2⟩
    · exact zone_unique h2 g2
    · exact absurd (zone_unique h2 (g1 h1)) h3
    · exact absurd (zone_unique g2 (h1 g1)) g3
    · exact ih h2 g2

/-- If the time zones that are not local agree, the order does not matter. -/
theorem commonZone_perm {ts us : List TimeType} {y : Name} (hp : ts.Perm us)
    (ha : ∀ t ∈ ts, ∀ u ∈ ts, t.cls ≠ .date → u.cls ≠ .date → ∀ a b, Zone t.tzone a → Zone u.tzone b →
      a = some [] ∨ b = some [] ∨ a = b) (hz : ∀ t ∈ ts, Zoned t) (h : CommonZone ts y) : CommonZone us y := by
  have hall : ∀ t ∈ us, t.cls ≠ .date → ∀ a, Zone t.tzone a → a = some [] ∨ a = y := by
    intro t ht hd a hza
    have ht' := hp.mem_iff.2 ht
    rcases h with ⟨pre, u, post, e, h1, h2, h3, _⟩ | ⟨_, h2⟩
    · rcases ha t ht' u (by rw [e]; simp) hd h1 a y hza h2 with h | h | h
      · exact Or.inl h
      · exact absurd h h3
      · exact Or.inr h
    · exact Or.inl (zone_unique hza (h2 t ht' hd))
  have hex : y ≠ some [] → ∃ t ∈ us, t.cls ≠ .date ∧ Zone t.tzone y := by
    intro hy
    rcases h with ⟨pre, u, post, e, h1, h2, h3, _⟩ | ⟨h1, _⟩
    · exact ⟨u, hp.mem_iff.1 (by rw [e]; simp), h1, h2⟩
    · exact absurd h1 hy
  by_cases hy : y = some []
  · refine Or.inr ⟨hy, ?_⟩
    intro u hu hud
    obtain ⟨z, hzz⟩ := zoned_zone (hz u (hp.mem_iff.2 hu)) hud
    rcases hall u hu hud z hzz with h | h
    · rw [← h]; exact hzz
    · rw [← hy, ← h]; exact hzz
  · refine Or.inl ?_
    replace hex := hex hy
    have hz' : ∀ t ∈ us, Zoned t := fun t ht => hz t (hp.mem_iff.2 ht)
    clear hp ha hz h
    induction us with
    | nil => obtain ⟨t, h, _⟩ := hex; cases h
    | cons u us ih =>
      by_cases hu : u.cls ≠ .date ∧ Zone u.tzone y
      · exact ⟨[], u, us, rfl, hu.1, hu.2, hy, nofun⟩
      · obtain ⟨pre, v, post, e, h1, h2, h3, h4⟩ := ih (fun t ht => hall t (List.mem_cons_of_mem _ ht))
          (by
            obtain ⟨t, ht, h1⟩ := hex
            rcases List.mem_cons.1 ht with rfl | ht
            · exact absurd h1 hu
            · exact ⟨t, ht, h1⟩)
          (fun t ht => hz' t (List.mem_cons_of_mem _ ht))
        refine ⟨u :: pre, v, post, by rw [e]; rfl, h1, h2, h3, ?_⟩
        intro w hw hwd
        rcases List.mem_cons.1 hw with rfl | hw
        · obtain ⟨z, hzz⟩ := zoned_zone (hz' _ List.mem_cons_self) hwd
          rcases hall _ List.mem_cons_self hwd z hzz with h | h
          · rw [← h]; exact hzz
          · rw [h] at hzz; exact absurd ⟨hwd, hzz⟩ hu
        · exact h4 w hw hwd

/-- **C68** (order): with a single time zone that is not local the common type of several inputs is the same in every
order. -/
theorem C68_perm {ts us : List TimeType} (hp : ts.Perm us) (hl : 2 ≤ ts.length) (hz : ∀ t ∈ ts, Zoned t)
    (ha : ∀ t ∈ ts, ∀ u ∈ ts, t.cls ≠ .date → u.cls ≠ .date → ∀ a b, Zone t.tzone a → Zone u.tzone b →
      a = some [] ∨ b = some [] ∨ a = b) : timeCommon ts = timeCommon us := by
  have hl' := hp.length_eq
  match ts, us with
  | a :: b :: ts, c :: d :: us =>
    obtain ⟨r, h1, h2⟩ := C68_common hz
    obtain ⟨s, h3, h4⟩ := C68_common (fun t ht => hz t (hp.mem_iff.2 ht))
    rw [h1, h3]
    congr 2
    rcases h2 with ⟨h5, h6⟩ | ⟨⟨u, h5, h5'⟩, z, h6, h7⟩ <;> rcases h4 with ⟨g5, g6⟩ | ⟨⟨u', g5, g5'⟩, z', g6, g7⟩
    · rw [h6, g6]
    · exact absurd (h5 u' (hp.mem_iff.2 g5)) g5'
    · exact absurd (g5 u (hp.mem_iff.1 h5)) h5'
    · rw [h6, g6, commonZone_unique (commonZone_perm hp ha hz h7) g7]

/-- **C68** (order): otherwise it is not. -/
theorem C68_order : ∃ a b : TimeType, timeCommon [a, b] ≠ timeCommon [b, a] :=
  ⟨⟨.ct, some [some "UTC".toList]⟩, ⟨.ct, some [some "EST".toList]⟩, by decide +kernel⟩

/-- **C68** (one input): its type is kept, so for `POSIXlt` it differs from that of two such inputs. -/
theorem C68_one (t : TimeType) : timeCommon [t] = .ok (some t) := rfl

/-- **C68** (grouping): joining three inputs from the left or from the right gives the same type. -/
theorem C68_associative {a b c : TimeType} (ha : Zoned a) (hb : Zoned b) (hc : Zoned c) :
    (do timePtype2 (← timePtype2 a b) c) = (do timePtype2 a (← timePtype2 b c)) := by
  obtain ⟨ab, h1, k1⟩ := commonTime_two ha hb
  obtain ⟨bc, h2, k2⟩ := commonTime_two hb hc
  have hz : ∀ {l : List TimeType} {t : TimeType}, CommonTime l t → Zoned t := by
    rintro l t (⟨_, rfl⟩ | ⟨_, z, rfl, _⟩)
    · intro h; exact absurd rfl h
    · intro _; exact nofun
  obtain ⟨r, h3, k3⟩ := commonTime_snoc k1 hc
  obtain ⟨s, h4, k4⟩ := commonTime_two ha (hz k2)
  rw [h1, h2, ok_bind, ok_bind, h3, h4]
  congr 1
  -- the result on the right as a common type of all three
  have k4' : CommonTime [a, b, c] s := by
    rcases k4 with ⟨h5, rfl⟩ | ⟨h5, z, rfl, h7⟩
    · have had : a.cls = .date := h5 a (by simp)
      rcases k2 with ⟨h6, rfl⟩ | ⟨_, z, rfl, _⟩
      · refine Or.inl ⟨?_, rfl⟩
        intro u hu
        rcases List.mem_cons.1 hu with rfl | hu
        · exact had
        · exact h6 u hu
      · have := h5 ⟨.ct, some [z]⟩ (by simp)
        cases this
    · have hcase : ∀ w, CommonZone [b, c] w → (a.cls ≠ .date → Zone a.tzone (some [])) → CommonZone [a, b, c] w := by
        intro w hw hal
        rcases hw with ⟨pre, u, post, e, g1, g2, g3, g4⟩ | ⟨g1, g2⟩
        · refine Or.inl ⟨a :: pre, u, post, by rw [e]; rfl, g1, g2, g3, ?_⟩
          intro v hv
          rcases List.mem_cons.1 hv with rfl | hv
          · exact hal
          · exact g4 v hv
        · refine Or.inr ⟨g1, ?_⟩
          intro v hv
          rcases List.mem_cons.1 hv with rfl | hv
          · exact hal
          · exact g2 v hv
      refine Or.inr ⟨?_, z, rfl, ?_⟩
      · by_cases had : a.cls = .date
        · rcases k2 with ⟨_, rfl⟩ | ⟨⟨u, g1, g2⟩, _⟩
          · obtain ⟨u, g1, g2⟩ := h5
            simp only [List.mem_cons, List.not_mem_nil, or_false] at g1
            rcases g1 with rfl | rfl
            · exact absurd had g2
            · exact absurd rfl g2
          · exact ⟨u, List.mem_cons_of_mem _ g1, g2⟩
        · exact ⟨a, by simp, had⟩
      · rcases h7 with ⟨pre, u, post, e, g1, g2, g3, g4⟩ | ⟨rfl, g2⟩
        · cases pre with
          | nil =>
            cases e
            exact Or.inl ⟨[], a, [b, c], rfl, g1, g2, g3, nofun⟩
          | cons p pre =>
            cases pre with
            | cons q pre => cases pre <;> simp at e
            | nil =>
              cases e
              rcases k2 with ⟨_, rfl⟩ | ⟨_, w, rfl, g7⟩
              · exact absurd rfl g1
              · have : z = w := zone_unique g2 (Or.inr ⟨[], rfl⟩)
                subst this
                exact hcase z g7 (g4 _ (by simp))
        · rcases k2 with ⟨g6, rfl⟩ | ⟨_, w, rfl, g7⟩
          · refine Or.inr ⟨rfl, ?_⟩
            intro v hv hvd
            rcases List.mem_cons.1 hv with rfl | hv
            · exact g2 _ (by simp) hvd
            · exact absurd (g6 v hv) hvd
          · have : w = some [] := zone_unique (Or.inr ⟨[], rfl⟩) (g2 ⟨.ct, some [w]⟩ (by simp) nofun)
            subst this
            exact hcase _ g7 (g2 a (by simp))
  rcases k3 with ⟨h5, h6⟩ | ⟨⟨u, h5, h5'⟩, z, h6, h7⟩ <;> rcases k4' with ⟨g5, g6⟩ | ⟨⟨u', g5, g5'⟩, z', g6, g7⟩
  · rw [h6, g6]
  · exact absurd (h5 u' g5) g5'
  · exact absurd (g5 u h5) h5'
  · rw [h6, g6, commonZone_unique h7 g7]

/-! ## Casts -/

/-- A `tzone` attribute in which a missing one is the local time zone. -/
def zoneFilled : Option (List Name) → List Name
  | none => [some []]
  | some l => l

theorem attribGet_iff {a : List (String × List Name)} {k : String} {r : Option (List Name)} :
    Attr a k r ↔ attribGet a k = r := by
  constructor
  · intro h
    induction h with
    | nil => rfl
    | here => rw [attribGet, if_pos rfl]
    | there h1 _ ih => rw [attribGet, if_neg h1, ih]
  · rintro rfl
    induction a with
    | nil => exact .nil
    | cons p a ih =>
      obtain ⟨k', v⟩ := p
      rw [attribGet]
      split
      · rename_i h
        cases h
        exact .here
      · rename_i h
        exact .there h ih

theorem attribGet_set {a : List (String × List Name)} {k k' : String} {v : List Name} :
    attribGet (attribSet a k v) k' = if k' = k then some v else attribGet a k' := by
  induction a with
  | nil =>
    by_cases h : k' = k
    · subst h; simp [attribSet, attribGet]
    · simp [attribSet, attribGet, Ne.symm h, h]
  | cons p a ih =>
    rw [attribSet]
    by_cases hp : p.1 = k
    · rw [if_pos hp, attribGet]
      by_cases h : k' = k
      · subst h; simp
      · rw [if_neg (by dsimp only; exact fun e => h e.symm), if_neg h, attribGet, if_neg (by rw [hp]; exact fun e => h e.symm)]
    · rw [if_neg hp, attribGet, attribGet]
      by_cases h : p.1 = k'
      · rw [if_pos h, if_pos h, if_neg (by rw [← h]; exact hp)]
      · rw [if_neg h, if_neg h, ih]

theorem validateType_ok {x : TimeVec} (h : x.elts ≠ .other) :
    ∃ l, validateType x = .ok ⟨.dbl l, x.attribs⟩ ∧ Numbers x.elts l := by
  obtain ⟨e, a⟩ := x
  cases e with
  | dbl l => exact ⟨l, rfl, rfl⟩
  | int l =>
    refine ⟨coerceReal l, rfl, ?_⟩
    show List.Forall₂ _ l (coerceReal l)
    unfold coerceReal
    rw [List.forall₂_map_right_iff]
    refine List.forall₂_same.2 (fun i _ => ?_)
    by_cases hi : i = naInt
    · exact Or.inl ⟨hi, if_pos hi⟩
    · exact Or.inr ⟨hi, if_neg hi⟩
  | other => exact absurd rfl h

/-- The attributes after validation. -/
theorem datetimeValidate_ok {x : TimeVec} {t : Option (List Name)} (h : x.elts ≠ .other) (ht : Attr x.attribs "tzone" t) :
    ∃ l a, datetimeValidate x = .ok ⟨.dbl l, a⟩ ∧ Numbers x.elts l ∧
      (∀ k r, k ≠ "tzone" → (Attr a k r ↔ Attr x.attribs k r)) ∧
      Attr a "tzone" (some (zoneFilled t)) := by
  have ht' := attribGet_iff.1 ht
  unfold datetimeValidate datetimeValidateTzone
  rw [ht']
  cases t with
  | some v =>
    dsimp only
    obtain ⟨l, h1, h2⟩ := validateType_ok h
    exact ⟨l, x.attribs, h1, h2, fun _ _ _ => Iff.rfl, attribGet_iff.2 ht'⟩
  | none =>
    dsimp only
    obtain ⟨l, h1, h2⟩ := validateType_ok (x := ⟨x.elts, attribSet x.attribs "tzone" [some []]⟩) h
    refine ⟨l, _, h1, h2, ?_, ?_⟩
    · intro k r hk
      rw [attribGet_iff, attribGet_iff, attribGet_set, if_neg hk]
    · rw [attribGet_iff, attribGet_set, if_pos rfl]; rfl

/-- **C68** (`POSIXct` to `POSIXct`): the numbers and the other attributes are kept and the time zone is that of
`to`; it reads the same, as `NA` and `"NA"` do. -/
theorem C68_posixct {x target : TimeVec} {t u : Option (List Name)} {z : Name} (hx : x.elts ≠ .other)
    (ht : Attr x.attribs "tzone" t) (htz : t ≠ some []) (hu : Attr target.attribs "tzone" u) (hz : Zone u z) :
    ∃ l a y, posixctAsPosixct x target = .ok ⟨.dbl l, a⟩ ∧ Numbers x.elts l ∧
      (∀ k r, k ≠ "tzone" → (Attr a k r ↔ Attr x.attribs k r)) ∧
      (∃ v, Attr a "tzone" (some v) ∧ Zone (some v) y) ∧ cString y = cString z := by
  obtain ⟨l, a, h1, h2, h3, h4⟩ := datetimeValidate_ok hx ht
  have hne : (some (zoneFilled t) : Option (List Name)) ≠ some [] := by
    cases t with
    | none => exact nofun
    | some v => exact htz
  obtain ⟨w, hw1, hw2⟩ := tzoneGet_ok hne
  unfold posixctAsPosixct
  rw [attribGet_iff.1 hu, tzoneGet_of hz, ok_bind, h1, ok_bind]
  unfold datetimeRezone
  dsimp only
  rw [attribGet_iff.1 h4, hw1, ok_bind]
  by_cases he : tzoneEqual w z = true
  · rw [if_pos he]
    refine ⟨l, a, w, rfl, h2, h3, ⟨_, h4, hw2⟩, ?_⟩
    simpa [tzoneEqual] using he
  · rw [if_neg he]
    refine ⟨l, _, z, rfl, h2, ?_, ⟨[z], ?_, Or.inr ⟨[], rfl⟩⟩, rfl⟩
    · intro k r hk
      rw [← h3 k r hk, attribGet_iff, attribGet_iff, attribGet_set, if_neg hk]
    · rw [attribGet_iff, attribGet_set, if_pos rfl]

/-- **C68** (errors of that cast): an empty `tzone`, and numbers of no known type. -/
theorem C68_posixct_error {x target : TimeVec} :
    (Attr target.attribs "tzone" (some []) → posixctAsPosixct x target = .error .abort) ∧
    (∀ u, Attr target.attribs "tzone" u → u ≠ some [] → x.elts = .other → posixctAsPosixct x target = .error .internal) ∧
    (∀ u, Attr target.attribs "tzone" u → u ≠ some [] → x.elts ≠ .other → Attr x.attribs "tzone" (some []) →
      posixctAsPosixct x target = .error .abort) := by
  refine ⟨?_, ?_, ?_⟩
  · intro h
    unfold posixctAsPosixct
    rw [attribGet_iff.1 h]; rfl
  · intro u hu hne hx
    obtain ⟨z, hz, _⟩ := tzoneGet_ok hne
    unfold posixctAsPosixct
    rw [attribGet_iff.1 hu, hz, ok_bind]
    have : datetimeValidate x = .error .internal := by
      unfold datetimeValidate datetimeValidateTzone validateType
      cases attribGet x.attribs "tzone" <;> dsimp only <;> rw [hx]
    rw [this]; rfl
  · intro u hu hne hx ht
    obtain ⟨z, hz, _⟩ := tzoneGet_ok hne
    obtain ⟨l, a, h1, _, _, h4⟩ := datetimeValidate_ok hx ht
    unfold posixctAsPosixct
    rw [attribGet_iff.1 hu, hz, ok_bind, h1, ok_bind]
    unfold datetimeRezone
    dsimp only
    rw [attribGet_iff.1 h4]; rfl

theorem asDateLossy_ok {ct rt : List Dbl} (hl : rt.length = ct.length) :
    Ret (asDateLossy ct rt ct.length) (fun b => (b = true ↔ ∃ (i : Nat) (c r : Dbl), ct[i]? = some c ∧ rt[i]? = some r ∧
      isNan c = false ∧ dblEqOp c r = false)) := by
  unfold asDateLossy
  refine Ret.forBrk (fun (i : Nat) (b : Bool) => b = false ∧ ∀ (j : Nat) (c r : Dbl), j < i → ct[j]? = some c →
    rt[j]? = some r → isNan c = true ∨ dblEqOp c r = true) _ ⟨rfl, nofun⟩ ?_ ?_
  · rintro i b hi ⟨rfl, hI⟩
    have hc := List.getElem?_eq_getElem hi
    have hr := List.getElem?_eq_getElem (l := rt) (i := i) (by omega)
    generalize ct[i] = c at hc
    generalize rt[i] = r at hr
    refine Ret.bind_eq (rd_of_getElem? hc) ?_
    by_cases hn : isNan c = true
    · rw [if_pos hn]
      refine Ret.ok ⟨rfl, ?_⟩
      intro j c' r' hj h1 h2
      by_cases hji : j = i
      · subst hji; rw [hc] at h1; cases h1; exact Or.inl hn
      · exact hI j c' r' (by omega) h1 h2
    · rw [if_neg hn]
      refine Ret.bind_eq (rd_of_getElem? hr) ?_
      by_cases he : dblEqOp c r = true
      · rw [if_neg (by simp [he])]
        refine Ret.ok ⟨rfl, ?_⟩
        intro j c' r' hj h1 h2
        by_cases hji : j = i
        · subst hji; rw [hc] at h1; cases h1; rw [hr] at h2; cases h2; exact Or.inr he
        · exact hI j c' r' (by omega) h1 h2
      · rw [if_pos (by simp [he])]
        exact Ret.ok ⟨fun _ => ⟨i, c, r, hc, hr, by simpa using hn, by simpa using he⟩, fun _ => rfl⟩
  · rintro b ⟨rfl, hI⟩
    refine ⟨nofun, ?_⟩
    rintro ⟨i, c, r, h1, h2, h3, h4⟩
    have := (List.getElem?_eq_some_iff.1 h1).1
    rcases hI i c r this h1 h2 with h | h
    · rw [h] at h3; cases h3
    · rw [h] at h4; cases h4

/-- **C68** (`POSIXct` to `Date`): the dates are given if every instant that is not missing is the first of its day
in the time zone, otherwise the cast is lossy. -/
theorem C68_as_date (cal : Calendar) {x : TimeVec} {t : Option (List Name)} {z : Name} (hx : x.elts ≠ .other)
    (ht : Attr x.attribs "tzone" t) (hz : Zone t z) :
    ∃ l r, Numbers x.elts l ∧ posixctAsDate cal x = .ok r ∧
      ((∀ d ∈ l, isNan d = true ∨ dblEqOp d (cal.midnight z (cal.day z d)) = true) → r = some (l.map (cal.day z))) ∧
      ((∃ d ∈ l, isNan d = false ∧ dblEqOp d (cal.midnight z (cal.day z d)) = false) → r = none) := by
  obtain ⟨l, a, h1, h2, h3, h4⟩ := datetimeValidate_ok hx ht
  have hzz : Zone (some (zoneFilled t)) z := by
    rcases hz with ⟨rfl, rfl⟩ | ⟨r, rfl⟩
    · exact Or.inr ⟨[], rfl⟩
    · exact Or.inr ⟨r, rfl⟩
  obtain ⟨b, hb1, hb2⟩ := asDateLossy_ok (ct := l) (rt := (l.map (cal.day z)).map (cal.midnight z)) (by simp)
  refine ⟨l, if b then none else some (l.map (cal.day z)), h2, ?_, ?_, ?_⟩
  · unfold posixctAsDate
    rw [h1, ok_bind]
    dsimp only
    rw [attribGet_iff.1 h4, tzoneGet_of hzz, ok_bind, List.length_map, hb1]
    rfl
  · intro h
    rw [if_neg]
    intro hb
    obtain ⟨i, c, r, g1, g2, g3, g4⟩ := hb2.1 hb
    rw [List.map_map, List.getElem?_map, g1] at g2
    cases g2
    rcases h c (List.mem_of_getElem? g1) with h | h
    · rw [h] at g3; cases g3
    · rw [Function.comp] at g4; rw [h] at g4; cases g4
  · rintro ⟨d, hd, g3, g4⟩
    rw [if_pos]
    obtain ⟨i, hi⟩ := List.mem_iff_getElem?.1 hd
    refine hb2.2 ⟨i, d, _, hi, ?_, g3, g4⟩
    rw [List.map_map, List.getElem?_map, hi]
    rfl

/-- **C68** (constructors): `new_date()` and `new_datetime()` take doubles, keep the names and drop other
attributes; a `NULL` time zone is local. -/
theorem C68_new {l : List Dbl} {a : List (String × List Name)} {nms : Option (List Name)} (hn : Attr a "names" nms) :
    (∃ b, newDate ⟨.dbl l, a⟩ = .ok ⟨.dbl l, b⟩ ∧ Attr b "names" nms ∧ Attr b "class" (some [some "Date".toList]) ∧
      ∀ k, k ≠ "names" → k ≠ "class" → Attr b k none) ∧
    ∀ t, ∃ b, newDatetime ⟨.dbl l, a⟩ t = .ok ⟨.dbl l, b⟩ ∧ Attr b "names" nms ∧
      Attr b "class" (some [some "POSIXct".toList, some "POSIXt".toList]) ∧
      Attr b "tzone" (some (zoneFilled t)) ∧
      ∀ k, k ≠ "names" → k ≠ "class" → k ≠ "tzone" → Attr b k none := by
  have hg := attribGet_iff.1 hn
  have hN : ∀ k, attribGet (namesOnly a) k = if k = "names" then nms else none := by
    intro k
    unfold namesOnly
    rw [hg]
    cases nms with
    | none => simp [attribGet]
    | some v =>
      dsimp only
      rw [attribGet]
      by_cases hk : k = "names"
      · subst hk; simp
      · rw [if_neg (by dsimp only; exact fun e => hk e.symm), if_neg hk]; rfl
  refine ⟨⟨_, rfl, ?_, ?_, ?_⟩, fun t => ⟨_, rfl, ?_, ?_, ?_, ?_⟩⟩ <;>
    simp only [attribGet_iff, attribGet_set, hN]
  · simp
  · simp
  · intro k h1 h2; simp [h1, h2]
  · simp
  · simp
  · cases t <;> simp [zoneFilled]
  · intro k h1 h2 h3; simp [h1, h2, h3]

/-- **C68** (constructors): only doubles will do. -/
theorem C68_new_error {x : TimeVec} (h : ∀ l, x.elts ≠ .dbl l) (t : Option (List Name)) :
    newDate x = .error .abort ∧ newDatetime x t = .error .abort := by
  obtain ⟨e, a⟩ := x
  cases e with
  | dbl l => exact absurd rfl (h l)
  | int l => exact ⟨rfl, rfl⟩
  | other => exact ⟨rfl, rfl⟩

/-! ## Examples -/

def tyDate : TimeType := ⟨.date, none⟩
def tyLocal : TimeType := ⟨.ct, none⟩
def tyUtc : TimeType := ⟨.lt, some [some "UTC".toList]⟩
def tyEst : TimeType := ⟨.ct, some [some "EST".toList, some "EST".toList, some "EDT".toList]⟩

theorem ty_zoned : ∀ t ∈ [tyDate, tyLocal, tyUtc, tyEst], Zoned t := by
  intro t ht
  simp only [List.mem_cons, List.not_mem_nil, or_false] at ht
  rcases ht with rfl | rfl | rfl | rfl <;> intro _ <;> exact nofun

example : ∃ r, timeCommon [tyDate, tyLocal, tyUtc, tyEst] = .ok (some r) ∧
    CommonTime [tyDate, tyLocal, tyUtc, tyEst] r := C68_common ty_zoned

example : timeCommon [tyDate, tyLocal, tyUtc, tyEst] = .ok (some ⟨.ct, some [some "UTC".toList]⟩) := by decide +kernel

example : timeCommon [tyDate, tyLocal, tyEst] = timeCommon [tyEst, tyDate, tyLocal] := by
  refine C68_perm ?_ (by decide) ?_ ?_
  · decide
  · intro t ht
    exact ty_zoned t (by simp only [List.mem_cons, List.not_mem_nil, or_false] at ht ⊢; tauto)
  · intro t ht u hu hd hd' a b ha hb
    simp only [List.mem_cons, List.not_mem_nil, or_false] at ht hu
    rcases ht with rfl | rfl | rfl
    · exact absurd rfl hd
    · exact Or.inl (zone_unique ha (Or.inl ⟨rfl, rfl⟩))
    · rcases hu with rfl | rfl | rfl
      · exact absurd rfl hd'
      · exact Or.inr (Or.inl (zone_unique hb (Or.inl ⟨rfl, rfl⟩)))
      · exact Or.inr (Or.inr (zone_unique ha hb))

example : timeCommon [tyDate, ⟨.ct, some []⟩, tyEst] = .error .abort :=
  C68_corrupt ⟨⟨.ct, some []⟩, by simp, nofun, rfl⟩

example : timeCommon [tyUtc] ≠ timeCommon [tyUtc, tyUtc] := by decide +kernel

example : (do timePtype2 (← timePtype2 tyDate tyLocal) tyEst) = (do timePtype2 tyDate (← timePtype2 tyLocal tyEst)) :=
  C68_associative (ty_zoned _ (by simp)) (ty_zoned _ (by simp)) (ty_zoned _ (by simp))

/-- An instant as an integer, with names and without a time zone. -/
def tmX : TimeVec := ⟨.int [86400, naInt], [("names", [some ['a'], some ['b']]), ("class", [some "POSIXct".toList])]⟩

theorem tmX_zone : Attr tmX.attribs "tzone" none := .there (by decide) (.there (by decide) .nil)

example : ∃ l a y, posixctAsPosixct tmX ⟨.dbl [], [("tzone", [some "UTC".toList])]⟩ = .ok ⟨.dbl l, a⟩ ∧
    Numbers tmX.elts l ∧ (∀ k r, k ≠ "tzone" → (Attr a k r ↔ Attr tmX.attribs k r)) ∧
    (∃ v, Attr a "tzone" (some v) ∧ Zone (some v) y) ∧ cString y = cString (some "UTC".toList) :=
  C68_posixct nofun tmX_zone nofun .here (Or.inr ⟨[], rfl⟩)

example : posixctAsPosixct tmX ⟨.dbl [], [("tzone", [])]⟩ = .error .abort := C68_posixct_error.1 .here

/-- A day is a second long. -/
def tmCal : Calendar := ⟨fun _ d => d, fun _ d => if isNan d then d else intToDbl 86400⟩

example : ∃ l r, Numbers tmX.elts l ∧ posixctAsDate tmCal tmX = .ok r ∧
    ((∀ d ∈ l, isNan d = true ∨ dblEqOp d (tmCal.midnight (some []) (tmCal.day (some []) d)) = true) →
      r = some (l.map (tmCal.day (some [])))) ∧
    ((∃ d ∈ l, isNan d = false ∧ dblEqOp d (tmCal.midnight (some []) (tmCal.day (some []) d)) = false) → r = none) :=
  C68_as_date tmCal nofun tmX_zone (Or.inl ⟨rfl, rfl⟩)

example : posixctAsDate tmCal tmX = .ok (some [intToDbl 86400, naReal]) := by decide +kernel
example : posixctAsDate tmCal ⟨.int [86400, 86401], []⟩ = .ok none := by decide +kernel

example : ∃ b, newDate ⟨.dbl [0#64], [("names", [some ['a']]), ("dim", [])]⟩ = .ok ⟨.dbl [0#64], b⟩ ∧
    Attr b "names" (some [some ['a']]) ∧ Attr b "class" (some [some "Date".toList]) ∧
    ∀ k, k ≠ "names" → k ≠ "class" → Attr b k none := (C68_new .here).1

example : newDate tmX = .error .abort ∧ newDatetime tmX none = .error .abort := C68_new_error (fun _ h => by cases h) none

end Vctrs
