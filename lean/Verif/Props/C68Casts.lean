import Verif.Model.DateCast
import Verif.Props.C68

/-!
# C68: casts between `Date`, `POSIXct` and `POSIXlt`
-/

namespace Vctrs

open Spec

variable {L : Type}

/-- Rezoning instants that are doubles. -/
theorem rezone_ok {l : List Dbl} {x z : Name} :
    ∃ y, posixctAsPosixctImpl ⟨.dbl l, [("tzone", [x])]⟩ z = .ok ⟨.dbl l, [("tzone", [y])]⟩ ∧ cString y = cString z := by
  unfold posixctAsPosixctImpl datetimeValidate datetimeValidateTzone
  simp only [attribGet, if_true, validateType, ok_bind, datetimeRezone, tzoneGet]
  by_cases h : tzoneEqual x z = true
  · rw [if_pos h]
    exact ⟨x, rfl, by simpa [tzoneEqual] using h⟩
  · rw [if_neg h]
    exact ⟨z, by simp [attribSet], rfl⟩

theorem rezone_same (l : List Dbl) (z : Name) :
    posixctAsPosixctImpl ⟨.dbl l, [("tzone", [z])]⟩ z = .ok ⟨.dbl l, [("tzone", [z])]⟩ := by
  unfold posixctAsPosixctImpl datetimeValidate datetimeValidateTzone
  simp only [attribGet, if_true, validateType, ok_bind, datetimeRezone, tzoneGet]
  rw [if_pos (by simp [tzoneEqual])]

/-- **C68** (`POSIXlt` to `POSIXct`): the instants are those of the clock in the time zone of `x`; the time zone
is that of `to`. -/
theorem C68_lt_ct (k : Clock L) {x : LtVec L} {u : Option (List Name)} {xz z : Name} (hx : Zone x.tzone xz)
    (hz : Zone u z) :
    ∃ a y, posixltAsPosixct k x u = .ok ⟨.dbl (x.rows.map (k.instant xz)), a⟩ ∧ Attr a "tzone" (some [y]) ∧
      cString y = cString z := by
  unfold posixltAsPosixct posixltAsPosixctImpl
  rw [tzoneGet_of hz, ok_bind, tzoneGet_of hx, ok_bind]
  obtain ⟨y, h1, h2⟩ := rezone_ok (l := x.rows.map (k.instant xz)) (x := xz) (z := z)
  exact ⟨_, y, h1, .here, h2⟩

/-- **C68** (`POSIXct` to `POSIXlt`): the clock in the time zone of `to`. -/
theorem C68_ct_lt (k : Clock L) {x : TimeVec} {u : Option (List Name)} {z : Name} (hx : x.elts ≠ .other)
    (hz : Zone u z) :
    ∃ l, Numbers x.elts l ∧ posixctAsPosixlt k x u = .ok ⟨l.map (k.broken z), some [z]⟩ := by
  unfold posixctAsPosixlt
  rw [tzoneGet_of hz, ok_bind]
  obtain ⟨l, h1, h2⟩ := validateType_ok hx
  refine ⟨l, h2, ?_⟩
  unfold posixctAsPosixltImpl
  obtain ⟨e, a⟩ := x
  cases e with
  | dbl l' => cases h1; rfl
  | int l' => cases h1; rfl
  | other => exact absurd rfl hx

/-- **C68** (`POSIXlt` to `POSIXlt`): all rows keep their instants, and the time zone is that of `to`, if a clock
that is set to an instant shows it.  With the same time zone, nothing changes. -/
theorem C68_lt_lt (k : Clock L) (hk : ∀ z d, k.instant z (k.broken z d) = d) {x : LtVec L} {u : Option (List Name)}
    {xz z : Name} (hx : Zone x.tzone xz) (hz : Zone u z) :
    ∃ r y, posixltAsPosixlt k x u = .ok r ∧ Zone r.tzone y ∧ cString y = cString z ∧
      r.rows.map (k.instant y) = x.rows.map (k.instant xz) ∧ (cString xz = cString z → r = x) := by
  unfold posixltAsPosixlt
  rw [tzoneGet_of hx, ok_bind, tzoneGet_of hz, ok_bind]
  by_cases h : tzoneEqual xz z = true
  · rw [if_pos h]
    exact ⟨x, xz, rfl, hx, by simpa [tzoneEqual] using h, rfl, fun _ => rfl⟩
  · rw [if_neg h]
    unfold posixltAsPosixctImpl
    rw [tzoneGet_of hx, ok_bind]
    obtain ⟨y, h1, _⟩ := rezone_ok (l := x.rows.map (k.instant xz)) (x := xz) (z := xz)
    obtain ⟨w, h2, _⟩ := rezone_ok (l := x.rows.map (k.instant xz)) (x := y) (z := z)
    rw [show rAsPosixct k x xz = ⟨.dbl (x.rows.map (k.instant xz)), [("tzone", [xz])]⟩ from rfl, h1, ok_bind, h2, ok_bind]
    refine ⟨_, z, rfl, Or.inr ⟨[], rfl⟩, rfl, ?_, fun he => absurd (by simpa [tzoneEqual] using he) h⟩
    rw [List.map_map, List.map_map]
    exact List.map_congr_left fun r _ => hk z _

/-- **C68** (`Date` to date-times): midnight on the clock of the time zone of `to`. -/
theorem C68_date_time (k : Clock L) {x : TimeVec} {u : Option (List Name)} {z : Name} (hx : x.elts ≠ .other)
    (hz : Zone u z) :
    ∃ l, Numbers x.elts l ∧ dateAsPosixlt k x u = .ok ⟨l.map (k.midnight z), some [z]⟩ ∧
      ∃ a, dateAsPosixct k x u = .ok ⟨.dbl (l.map (fun d => k.instant z (k.midnight z d))), a⟩ ∧
        Attr a "tzone" (some [z]) := by
  obtain ⟨l, h1, h2⟩ := validateType_ok hx
  have h3 : dateNumbers x = .ok l := by
    obtain ⟨e, a⟩ := x
    cases e with
    | dbl l' => cases h1; rfl
    | int l' => cases h1; rfl
    | other => exact absurd rfl hx
  refine ⟨l, h2, ?_, [("tzone", [z])], ?_, .here⟩
  · unfold dateAsPosixlt
    rw [tzoneGet_of hz, ok_bind, h3]
    rfl
  · unfold dateAsPosixct
    rw [tzoneGet_of hz, ok_bind, h3]
    rfl

/-- **C68** (`Date` to `Date`): doubles. -/
theorem C68_date_date {x : TimeVec} (hx : x.elts ≠ .other) :
    ∃ l, dateAsDate x = .ok ⟨.dbl l, x.attribs⟩ ∧ Numbers x.elts l := validateType_ok hx

/-- **C68** (`POSIXlt` to `Date`): the dates on the clock, if all rows that are not missing are the first instant of
that date; otherwise the cast is lossy. -/
theorem C68_lt_date (k : Clock L) {x : LtVec L} {z : Name} (hz : Zone x.tzone z) :
    ∃ r, posixltAsDate k x = .ok r ∧
      ((∀ s ∈ x.rows, isNan (k.instant z s) = true ∨
        dblEqOp (k.instant z s) (k.instant z (k.midnight z (k.day s))) = true) → r = some (x.rows.map k.day)) ∧
      ((∃ s ∈ x.rows, isNan (k.instant z s) = false ∧
        dblEqOp (k.instant z s) (k.instant z (k.midnight z (k.day s))) = false) → r = none) := by
  have h1 := rezone_same (x.rows.map (k.instant z)) z
  obtain ⟨b, hb1, hb2⟩ := asDateLossy_ok (ct := x.rows.map (k.instant z))
    (rt := (x.rows.map k.day).map (fun d => k.instant z (k.midnight z d))) (by simp)
  rw [List.length_map] at hb1
  refine ⟨if b then none else some (x.rows.map k.day), ?_, ?_, ?_⟩
  · unfold posixltAsDate posixltAsPosixctImpl
    rw [tzoneGet_of hz, ok_bind, ok_bind,
      show rAsPosixct k x z = ⟨.dbl (x.rows.map (k.instant z)), [("tzone", [z])]⟩ from rfl, h1, ok_bind]
    simp only [datetimeValidate, datetimeValidateTzone, attribGet, if_true, validateType, ok_bind, dateAsPosixct,
      tzoneGet, dateNumbers, List.length_map, hb1]
  · intro h
    rw [if_neg]
    intro hb
    obtain ⟨i, c, r, g1, g2, g3, g4⟩ := hb2.1 hb
    rw [List.getElem?_map, Option.map_eq_some_iff] at g1
    obtain ⟨s, g1, rfl⟩ := g1
    rw [List.map_map, List.getElem?_map, g1] at g2
    cases g2
    rcases h s (List.mem_of_getElem? g1) with h | h
    · rw [h] at g3; cases g3
    · rw [Function.comp] at g4; rw [h] at g4; cases g4
  · rintro ⟨s, hs, g3, g4⟩
    rw [if_pos]
    obtain ⟨i, hi⟩ := List.mem_iff_getElem?.1 hs
    refine hb2.2 ⟨i, _, _, by rw [List.getElem?_map, hi]; rfl, ?_, g3, g4⟩
    rw [List.map_map, List.getElem?_map, hi]
    rfl

/-- **C68** (there and back): dates that are cast to `POSIXct` and back are the same, if midnight of these days
can be read from the clock of the time zone. -/
theorem C68_date_back (k : Clock L) {l : List Dbl} {a : List (String × List Name)} {u : Option (List Name)} {z : Name}
    (hz : Zone u z) (hk : ∀ d ∈ l, k.day (k.broken z (k.instant z (k.midnight z d))) = d) :
    ∃ c, dateAsPosixct k ⟨.dbl l, a⟩ u = .ok c ∧ posixctAsDate k.calendar c = .ok (some l) := by
  obtain ⟨l', h1, _, b, h2, h3⟩ := C68_date_time k (x := ⟨.dbl l, a⟩) nofun hz
  obtain rfl : l' = l := h1
  refine ⟨_, h2, ?_⟩
  obtain ⟨m, r, g1, g2, g3, _⟩ := C68_as_date k.calendar
    (x := ⟨.dbl (l'.map (fun d => k.instant z (k.midnight z d))), b⟩) nofun h3 (Or.inr ⟨[], rfl⟩)
  obtain rfl : m = l'.map (fun d => k.instant z (k.midnight z d)) := g1
  rw [g2, g3]
  · rw [List.map_map]
    congr 2
    conv => rhs; rw [← List.map_id l']
    exact List.map_congr_left fun d hd => hk d hd
  · intro d hd
    obtain ⟨e, he, rfl⟩ := List.mem_map.1 hd
    by_cases hn : isNan (k.instant z (k.midnight z e)) = true
    · exact Or.inl hn
    · right
      show dblEqOp _ (k.instant z (k.midnight z (k.day (k.broken z (k.instant z (k.midnight z e)))))) = true
      rw [hk e he]
      simp only [dblEqOp]
      simp [hn]

/-- **C68** (errors): an empty `tzone` attribute. -/
theorem C68_casts_error (k : Clock L) (x : TimeVec) (t : LtVec L) (u : Option (List Name)) :
    dateAsPosixct k x (some []) = .error .abort ∧ dateAsPosixlt k x (some []) = .error .abort ∧
    posixctAsPosixlt k x (some []) = .error .abort ∧ posixltAsPosixct k t (some []) = .error .abort ∧
    (t.tzone = some [] → posixltAsPosixlt k t u = .error .abort ∧ posixltAsDate k t = .error .abort) := by
  refine ⟨rfl, rfl, rfl, rfl, fun h => ?_⟩
  unfold posixltAsPosixlt posixltAsDate
  rw [h]
  exact ⟨rfl, rfl⟩

/-! ## Examples -/

/-- Clocks outside of UTC show another instant; every instant begins a day of its own, except for 3. -/
def tmClock : Clock Dbl where
  day r := r
  instant z r := if z = some "UTC".toList then r else r ^^^ 1#64
  broken z d := if z = some "UTC".toList then d else d ^^^ 1#64
  midnight _ d := if d = 3#64 then 2#64 else d

theorem tmClock_shows (z : Name) (d : Dbl) : tmClock.instant z (tmClock.broken z d) = d := by
  simp only [tmClock]
  split
  · rfl
  · rw [BitVec.xor_assoc, BitVec.xor_self, BitVec.xor_zero]

def tmLt : LtVec Dbl := ⟨[4#64, 6#64], some [some "UTC".toList, some "UTC".toList]⟩

theorem tmLt_zone : Zone tmLt.tzone (some "UTC".toList) := Or.inr ⟨_, rfl⟩

example : ∃ a y, posixltAsPosixct tmClock tmLt none = .ok ⟨.dbl (tmLt.rows.map (tmClock.instant (some "UTC".toList))), a⟩ ∧
    Attr a "tzone" (some [y]) ∧ cString y = cString (some []) := C68_lt_ct tmClock tmLt_zone (Or.inl ⟨rfl, rfl⟩)

example : posixltAsPosixlt tmClock tmLt none = .ok ⟨[5#64, 7#64], some [some []]⟩ := by decide +kernel

example : ∃ r y, posixltAsPosixlt tmClock tmLt none = .ok r ∧ Zone r.tzone y ∧ cString y = cString (some []) ∧
    r.rows.map (tmClock.instant y) = tmLt.rows.map (tmClock.instant (some "UTC".toList)) ∧
    (cString (some "UTC".toList) = cString (some []) → r = tmLt) :=
  C68_lt_lt tmClock tmClock_shows tmLt_zone (Or.inl ⟨rfl, rfl⟩)

example : posixctAsPosixlt tmClock ⟨.dbl [4#64], []⟩ none = .ok ⟨[5#64], some [some []]⟩ := by decide +kernel

example : posixltAsDate tmClock tmLt = .ok (some [4#64, 6#64]) ∧
    posixltAsDate tmClock ⟨[4#64, 3#64], none⟩ = .ok none := by decide +kernel

example : ∃ c, dateAsPosixct tmClock ⟨.dbl [0#64, 4#64], []⟩ none = .ok c ∧
    posixctAsDate tmClock.calendar c = .ok (some [0#64, 4#64]) :=
  C68_date_back tmClock (Or.inl ⟨rfl, rfl⟩) (by
    intro d hd
    rw [List.mem_cons, List.mem_singleton] at hd
    rcases hd with rfl | rfl <;> rfl)

end Vctrs
