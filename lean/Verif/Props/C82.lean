import Verif.Model.Method
import Verif.Lemmas.Base

/-!
# C82: lookup of methods
-/

namespace Vctrs.Spec

/-- The function bound to a name in the first of several environments that binds it to one. -/
def lookup (envs : List SymEnv) (name : Bytes) : Option Nat :=
  envs.findSome? fun e =>
    match e name with
    | some (.fn id) => some id
    | _ => none

/-- The name of a method: generic, dot, class. -/
def methodName (generic cls : Bytes) : Bytes := generic ++ 46 :: cls

/-- The class that dispatch uses: the attribute of an object, else the implicit class. -/
def FirstClass (x : DispObj) (c : Bytes) : Prop :=
  (x.obj = true ∧ ∃ l, x.cls = some (c :: l)) ∨
    ((x.obj = false ∨ x.cls = none) ∧ ∃ l, x.bare = some (c :: l))

end Vctrs.Spec

namespace Vctrs
open Spec

/-- Writing the element after a prefix. -/
theorem wr_split {pre post : List Nat} {x v k : Nat} (hk : k = pre.length) :
    wr (pre ++ x :: post) k v = .ok (pre ++ v :: post) := by
  subst hk
  rw [wr_ok (by simp)]
  simp

/-- Copying `src` over `old`. -/
theorem memcpyAt_ok {pre old post : List Nat} {src : Bytes} {off : Nat} (ho : off = pre.length)
    (h : old.length = src.length) :
    memcpyAt (pre ++ old ++ post) src off = .ok (pre ++ src ++ post) := by
  have : Ret (memcpyAt (pre ++ old ++ post) src off) fun b =>
      b = pre ++ src.take src.length ++ (old.drop src.length ++ post) := by
    unfold memcpyAt
    refine Ret.forN (fun i b => b = pre ++ src.take i ++ (old.drop i ++ post)) (by simp) ?_
    intro i b hi hb
    subst hb
    rw [rd_ok hi, ok_bind, List.drop_eq_getElem_cons (show i < old.length by omega), List.cons_append,
      wr_split (by simp [ho]; omega)]
    refine Ret.ok ?_
    rw [List.take_succ_eq_append_getElem hi]
    simp only [List.append_assoc, List.singleton_append]
  obtain ⟨b, hb, e⟩ := this
  rw [hb, e, ← h]
  simp [h]

/-- Pasting succeeds if there is room. -/
theorem paste_ok {buf : List Nat} {generic cls : Bytes} (hb : buf.length = s3BufSize)
    (hg : 0 ∉ generic) (hc : 0 ∉ cls) (hs : generic.length + cls.length + 1 < s3BufSize) :
    ∃ b, pasteMethodSym buf generic cls = .ok (b, methodName generic cls) ∧ b.length = s3BufSize := by
  have h200 : s3BufSize = 200 := rfl
  have hmax : intMax = 2147483647 := rfl
  obtain ⟨o1, x, o2, y, post, rfl, h1, h2⟩ : ∃ (o1 : List Nat) (x : Nat) (o2 : List Nat) (y : Nat)
      (post : List Nat), buf = o1 ++ x :: (o2 ++ y :: post) ∧ o1.length = generic.length ∧
        o2.length = cls.length := by
    refine ⟨buf.take generic.length, buf[generic.length]'(by omega),
      (buf.drop (generic.length + 1)).take cls.length,
      (buf.drop (generic.length + 1))[cls.length]'(by simp; omega),
      (buf.drop (generic.length + 1)).drop (cls.length + 1), ?_, ?_, ?_⟩
    · rw [← List.drop_eq_getElem_cons, List.take_append_drop, ← List.drop_eq_getElem_cons,
        List.take_append_drop]
    · simp; omega
    · simp; omega
  refine ⟨generic ++ 46 :: cls ++ 0 :: post, ?_, ?_⟩
  · unfold pasteMethodSym
    dsimp only
    rw [if_neg (by omega), if_neg (by omega)]
    have e1 := memcpyAt_ok (pre := []) (old := o1) (post := x :: (o2 ++ y :: post)) (src := generic)
      (off := 0) rfl h1
    have e2 := memcpyAt_ok (pre := generic ++ [46]) (old := o2) (post := y :: post) (src := cls)
      (off := generic.length + 1) (by simp) h2
    rw [List.nil_append, List.nil_append] at e1
    rw [e1, ok_bind, wr_split rfl, ok_bind]
    rw [show generic ++ 46 :: (o2 ++ y :: post) = generic ++ [46] ++ o2 ++ y :: post by simp, e2,
      ok_bind, wr_split (by simp; omega), ok_bind]
    unfold s3BufString
    rw [if_pos (by simp), ok_bind]
    unfold methodName
    congr 2
    · simp
    · rw [show generic ++ [46] ++ cls ++ 0 :: post = (generic ++ 46 :: cls) ++ 0 :: post by simp,
        List.takeWhile_append_of_pos]
      · simp
      · intro a ha
        simp only [List.mem_append, List.mem_cons] at ha
        have : a ≠ 0 := by
          rintro rfl
          rcases ha with h | h | h
          · exact hg h
          · exact absurd h (by decide)
          · exact hc h
        simpa using this
  · simp at hb ⊢
    omega

/-- Pasting fails cleanly if there is no room, before anything is written. -/
theorem paste_long {buf : List Nat} {generic cls : Bytes}
    (hm : generic.length + cls.length + 1 ≤ intMax)
    (hs : s3BufSize ≤ generic.length + cls.length + 1) :
    pasteMethodSym buf generic cls = .error .internal := by
  unfold pasteMethodSym
  dsimp only
  rw [if_neg (by omega), if_pos (by omega)]

theorem symGetMethod_eq (glob table : SymEnv) (s : Bytes) :
    symGetMethod glob table s = lookup [glob, table] s := by
  unfold symGetMethod lookup
  simp only [List.findSome?_cons, List.findSome?_nil]
  cases hg : glob s with
  | none =>
    dsimp only
    cases ht : table s with
    | none => rfl
    | some v => cases v <;> rfl
  | some v =>
    cases v with
    | fn id => rfl
    | other id =>
      dsimp only
      cases ht : table s with
      | none => rfl
      | some v => cases v <;> rfl

/-- The names of methods that are built keep within the static buffer of 200 bytes and are the
generic, a dot and the class; longer ones are an error. -/
theorem C82_name {buf : List Nat} {generic cls : Bytes} (hb : buf.length = s3BufSize)
    (hg : 0 ∉ generic) (hc : 0 ∉ cls) (hm : generic.length + cls.length + 1 ≤ intMax) :
    (generic.length + cls.length + 1 < 200 ∧
      ∃ b, pasteMethodSym buf generic cls = .ok (b, methodName generic cls) ∧ b.length = 200) ∨
    (200 ≤ generic.length + cls.length + 1 ∧ pasteMethodSym buf generic cls = .error .internal) := by
  by_cases h : generic.length + cls.length + 1 < 200
  · exact Or.inl ⟨h, paste_ok hb hg hc h⟩
  · exact Or.inr ⟨by omega, paste_long hm (Nat.le_of_not_lt h)⟩

example : (0 : Nat) ∉ ([99] : Bytes) ∧ (List.replicate 200 7).length = s3BufSize :=
  ⟨by decide, List.length_replicate⟩
example : (pasteMethodSym (List.replicate 200 7) [99] [97, 98]).map (·.2) = .ok [99, 46, 97, 98] := by
  decide +kernel
example : (pasteMethodSym (List.replicate 200 7) [99] (List.replicate 198 97)).map (·.2) = .error .internal := by
  decide +kernel

/-- A class name of about two gigabytes overflows the sum of lengths, which has type `int`. -/
theorem C82_overflow {buf : List Nat} {generic cls : Bytes}
    (h : intMax < generic.length + cls.length + 1) : pasteMethodSym buf generic cls = .error .ub := by
  unfold pasteMethodSym
  dsimp only
  rw [if_pos (by omega)]

example : intMax < ([99] : Bytes).length + (List.replicate (intMax - 1) 97).length + 1 := by
  rw [List.length_replicate]; decide

/-- Single dispatch: the method of the first class that has one, in the global environment or else in
the table, provided the names up to it fit in the buffer. -/
theorem C82_find {glob table : SymEnv} {buf : List Nat} {generic : Bytes} {cls : List Bytes}
    {bare : Option (List Bytes)} (hb : buf.length = s3BufSize) (hg : 0 ∉ generic)
    (hc : ∀ c ∈ cls, 0 ∉ c)
    {i : Nat} (hi : i < cls.length) (hs : ∀ j (hj : j < cls.length), j ≤ i → generic.length + cls[j].length + 1 < 200)
    (hn : ∀ j (hj : j < cls.length), j < i → lookup [glob, table] (methodName generic cls[j]) = none)
    {m : Nat} (hm : lookup [glob, table] (methodName generic cls[i]) = some m) :
    (findMethod glob table buf generic ⟨true, some cls, bare⟩).map (·.2) = .ok (some m) := by
  have : Ret (findMethod glob table buf generic ⟨true, some cls, bare⟩) fun r => r.2 = some m := by
    unfold findMethod classFindMethod
    rw [if_pos rfl]
    dsimp only
    refine Ret.forBrk (fun k st => k ≤ i ∧ st.1.length = s3BufSize) _ ⟨Nat.zero_le _, hb⟩ ?_
      (fun s h => absurd h.1 (by omega))
    rintro k ⟨b, m0⟩ hk ⟨hki, hbl⟩
    dsimp only at hbl
    unfold findMethodStep getMethod
    rw [rd_ok hk, ok_bind]
    obtain ⟨b', e, hb'⟩ := paste_ok hbl hg (hc _ (List.getElem_mem hk)) (hs k hk hki)
    dsimp only
    rw [e, ok_bind, ok_bind]
    dsimp only
    rw [symGetMethod_eq]
    by_cases h : k = i
    · subst h
      rw [hm]
      exact Ret.ok rfl
    · rw [hn k hk (by omega)]
      exact Ret.ok ⟨by omega, hb'⟩
  obtain ⟨r, hr, e⟩ := this
  rw [hr]
  exact congrArg Except.ok e

/-- No method if no class has one. -/
theorem C82_none {glob table : SymEnv} {buf : List Nat} {generic : Bytes} {cls : List Bytes}
    {bare : Option (List Bytes)} (hb : buf.length = s3BufSize) (hg : 0 ∉ generic)
    (hc : ∀ c ∈ cls, 0 ∉ c) (hs : ∀ c ∈ cls, generic.length + c.length + 1 < 200)
    (hn : ∀ c ∈ cls, lookup [glob, table] (methodName generic c) = none) :
    (findMethod glob table buf generic ⟨true, some cls, bare⟩).map (·.2) = .ok none := by
  have : Ret (findMethod glob table buf generic ⟨true, some cls, bare⟩) fun r => r.2 = none := by
    unfold findMethod classFindMethod
    rw [if_pos rfl]
    dsimp only
    refine Ret.forBrk (fun k st => st.2 = none ∧ st.1.length = s3BufSize) _ ⟨rfl, hb⟩ ?_
      (fun s h => h.1)
    rintro k ⟨b, m0⟩ hk ⟨_, hbl⟩
    dsimp only at hbl
    unfold findMethodStep getMethod
    rw [rd_ok hk, ok_bind]
    have hmem := List.getElem_mem hk
    obtain ⟨b', e, hb'⟩ := paste_ok hbl hg (hc _ hmem) (hs _ hmem)
    dsimp only
    rw [e, ok_bind, ok_bind]
    dsimp only
    rw [symGetMethod_eq, hn _ hmem]
    exact Ret.ok ⟨rfl, hb'⟩
  obtain ⟨r, hr, e⟩ := this
  rw [hr]
  exact congrArg Except.ok e

/-- If a name that does not fit in the buffer comes before any method, the lookup is an error. -/
theorem C82_long {glob table : SymEnv} {buf : List Nat} {generic : Bytes} {cls : List Bytes}
    {bare : Option (List Bytes)} (hb : buf.length = s3BufSize) (hg : 0 ∉ generic)
    (hc : ∀ c ∈ cls, 0 ∉ c)
    {i : Nat} (hi : i < cls.length)
    (hs : ∀ j (hj : j < cls.length), j < i → generic.length + cls[j].length + 1 < 200 ∧
      lookup [glob, table] (methodName generic cls[j]) = none)
    (hl : 200 ≤ generic.length + cls[i].length + 1) (hm : generic.length + cls[i].length + 1 ≤ intMax) :
    findMethod glob table buf generic ⟨true, some cls, bare⟩ = .error .internal := by
  unfold findMethod classFindMethod
  rw [if_pos rfl]
  dsimp only
  have key : ∀ n k (st : List Nat × Option Nat), k ≤ i → i < k + n → k + n = cls.length →
      st.1.length = s3BufSize →
      forBrkFrom (findMethodStep glob table generic cls) k n st = .error .internal := by
    intro n
    induction n with
    | zero => intro k st h1 h2; omega
    | succ n ih =>
      intro k st h1 h2 h3 h4
      unfold forBrkFrom findMethodStep getMethod
      have hk : k < cls.length := by omega
      rw [rd_ok hk, ok_bind]
      dsimp only
      by_cases h : k = i
      · subst h
        rw [paste_long hm hl, error_bind, error_bind, error_bind]
      · obtain ⟨hs1, hs2⟩ := hs k hk (by omega)
        obtain ⟨b', e, hb'⟩ := paste_ok h4 hg (hc _ (List.getElem_mem hk)) hs1
        rw [e, ok_bind, ok_bind]
        dsimp only
        rw [symGetMethod_eq, hs2, ok_bind]
        exact ih (k + 1) _ (by omega) (by omega) (by omega) hb'
  exact key cls.length 0 (buf, none) (Nat.zero_le _) (by omega) (by omega) hb

/-- Objects without a class have no methods. -/
theorem C82_bare (glob table : SymEnv) (buf : List Nat) (generic : Bytes) (x : DispObj)
    (h : x.obj = false ∨ x.cls = none) :
    findMethod glob table buf generic x = .ok (buf, none) := by
  unfold findMethod
  split
  · rcases h with h | h
    · simp_all
    · rw [h]; rfl
  · rfl

/-- A global environment and a table for examples: `c.b` is a number in the first, and a function in
the second. -/
def exGlob : SymEnv := fun s => if s = [99, 46, 98] then some (.other 3) else none
/-- See `exGlob`. -/
def exTable : SymEnv := fun s => if s = [99, 46, 98] then some (.fn 5) else none

example : lookup [exGlob, exTable] (methodName [99] [97]) = none ∧
    lookup [exGlob, exTable] (methodName [99] [98]) = some 5 := by decide
example : (findMethod exGlob exTable (List.replicate 200 7) [99] ⟨true, some [[97], [98]], none⟩).map (·.2) =
    .ok (some 5) := by decide +kernel
example : (findMethod exGlob exTable (List.replicate 200 7) [99] ⟨true, some [[97]], none⟩).map (·.2) =
    .ok none := by decide +kernel
example : (findMethod exGlob exTable (List.replicate 200 7) [99]
    ⟨true, some [[97], List.replicate 198 97, [98]], none⟩).map (·.2) = .error .internal := by
  decide +kernel

theorem getClass0_ok {x : DispObj} {c : Bytes} (h : FirstClass x c) : getClass0 x = .ok c := by
  unfold getClass0 getClass
  rcases h with ⟨h1, l, h2⟩ | ⟨h1, l, h2⟩
  · simp [h1, h2, rd, ok_bind]
  · have : (if x.obj = true then x.cls else none) = none := by
      rcases h1 with h1 | h1 <;> simp [h1]
    rw [this]
    simp [h2, rd, ok_bind]

/-- The tables in which double dispatch looks for a method: the global environment, the table of
vctrs, and the table that goes with the single-dispatch method of the first class. -/
def dispatchEnvs (glob table : SymEnv) (tableOf : Nat → C SymEnv) (single : Bytes) : C (List SymEnv) :=
  match lookup [glob, table] single with
  | none => .ok [glob, table]
  | some id =>
    match tableOf id with
    | .ok t => .ok [glob, table, t]
    | .error e => .error e

theorem methodName_no_zero {g c : Bytes} (hg : 0 ∉ g) (hc : 0 ∉ c) : 0 ∉ methodName g c := by
  unfold methodName
  simp [hg, hc]

theorem lookup_snoc (a b t : SymEnv) (s : Bytes) (h : lookup [a, b] s = none) :
    lookup [a, b, t] s = lookup [a, t] s := by
  unfold lookup at h ⊢
  simp only [List.findSome?_cons, List.findSome?_nil] at h ⊢
  split at h
  · cases h
  · split at h
    · cases h
    · rfl

theorem lookup_more (a b t : SymEnv) (s : Bytes) {m : Nat} (h : lookup [a, b] s = some m) :
    lookup [a, b, t] s = some m := by
  unfold lookup at h ⊢
  simp only [List.findSome?_cons, List.findSome?_nil] at h ⊢
  split at h
  · exact h
  · split at h
    · exact h
    · cases h

/-- Double dispatch uses the first class of both inputs, and nothing else: the method is the one
called generic, class of `x`, class of `y`, in the first table that has it. -/
theorem C82_double {glob table : SymEnv} {tableOf : Nat → C SymEnv} {buf : List Nat} {generic : Bytes}
    {x y : DispObj} {cx cy : Bytes} (hb : buf.length = s3BufSize) (hg : 0 ∉ generic)
    (hx : FirstClass x cx) (hy : FirstClass y cy) (hx0 : 0 ∉ cx) (hy0 : 0 ∉ cy)
    (hs : generic.length + cx.length + cy.length + 2 < 200)
    {envs : List SymEnv} (he : dispatchEnvs glob table tableOf (methodName generic cx) = .ok envs) :
    dispatchXY glob table tableOf buf generic x y =
      .ok ((lookup envs (methodName (methodName generic cx) cy)).map
        fun m => (methodName (methodName generic cx) cy, m)) := by
  have h200 : s3BufSize = 200 := rfl
  have hl : (methodName generic cx).length = generic.length + cx.length + 1 := by
    simp [methodName]; omega
  obtain ⟨b1, e1, hb1⟩ := paste_ok hb hg hx0 (by omega)
  obtain ⟨b2, e2, hb2⟩ := paste_ok hb1 (methodName_no_zero hg hx0) hy0 (by omega)
  obtain ⟨b3, e3, hb3⟩ := paste_ok hb2 hg hx0 (by omega)
  obtain ⟨b4, e4, hb4⟩ := paste_ok hb3 (methodName_no_zero hg hx0) hy0 (by omega)
  have f1 : findMethodXY glob table buf generic x y =
      .ok (b2, (symGetMethod glob table (methodName (methodName generic cx) cy)).map
        fun m => (methodName (methodName generic cx) cy, m)) := by
    unfold findMethodXY
    rw [getClass0_ok hx, ok_bind, getClass0_ok hy, ok_bind, e1, ok_bind]
    dsimp only
    rw [e2, ok_bind]
  have f2 : findMethod2 glob table b2 generic x =
      .ok (b3, (symGetMethod glob table (methodName generic cx)).map
        fun m => (methodName generic cx, m)) := by
    unfold findMethod2
    rw [getClass0_ok hx, ok_bind, e3, ok_bind]
  have f3 : ∀ t, findMethod2 glob t b3 (methodName generic cx) y =
      .ok (b4, (symGetMethod glob t (methodName (methodName generic cx) cy)).map
        fun m => (methodName (methodName generic cx) cy, m)) := by
    intro t
    unfold findMethod2
    rw [getClass0_ok hy, ok_bind, e4, ok_bind]
  unfold dispatchXY
  rw [f1, ok_bind]
  dsimp only
  rw [symGetMethod_eq]
  unfold dispatchEnvs at he
  cases hm : lookup [glob, table] (methodName (methodName generic cx) cy) with
  | some m =>
    simp only [Option.map_some]
    cases hmx : lookup [glob, table] (methodName generic cx) with
    | none =>
      rw [hmx] at he
      dsimp only at he
      injection he with he
      rw [← he, hm]; rfl
    | some id =>
      rw [hmx] at he
      dsimp only at he
      cases ht : tableOf id with
      | error e => rw [ht] at he; cases he
      | ok t =>
        rw [ht] at he
        injection he with he
        rw [← he, lookup_more _ _ _ _ hm]; rfl
  | none =>
    simp only [Option.map_none]
    rw [f2, ok_bind]
    dsimp only
    rw [symGetMethod_eq]
    cases hmx : lookup [glob, table] (methodName generic cx) with
    | none =>
      rw [hmx] at he
      dsimp only at he
      injection he with he
      simp only [Option.map_none]
      rw [← he, hm]; rfl
    | some id =>
      rw [hmx] at he
      dsimp only at he
      simp only [Option.map_some]
      cases ht : tableOf id with
      | error e => rw [ht] at he; cases he
      | ok t =>
        rw [ht] at he
        injection he with he
        rw [ok_bind, f3, ok_bind, symGetMethod_eq, ← he, lookup_snoc _ _ _ _ hm]

/-- A class table that only knows `c.a.b` as a function, and `c.a` in the table of vctrs. -/
def exTable2 : SymEnv := fun s => if s = [99, 46, 97] then some (.fn 8) else none
/-- See `exTable2`. -/
def exOwn : SymEnv := fun s => if s = [99, 46, 97, 46, 98] then some (.fn 9) else none

example : FirstClass ⟨true, some [[97], [98]], none⟩ [97] ∧ FirstClass ⟨false, none, some [[98]]⟩ [98] :=
  ⟨Or.inl ⟨rfl, _, rfl⟩, Or.inr ⟨Or.inl rfl, _, rfl⟩⟩
example : dispatchEnvs exGlob exTable2 (fun _ => .ok exOwn) (methodName [99] [97]) =
    .ok [exGlob, exTable2, exOwn] := rfl
example : dispatchXY exGlob exTable2 (fun _ => .ok exOwn) (List.replicate 200 7) [99]
    ⟨true, some [[97], [98]], none⟩ ⟨false, none, some [[98]]⟩ = .ok (some ([99, 46, 97, 46, 98], 9)) := by
  decide +kernel

theorem append_dot_inj : ∀ {a b c d : Bytes}, 46 ∉ a → 46 ∉ c → a ++ 46 :: b = c ++ 46 :: d → a = c ∧ b = d
  | [], b, [], d, _, _, h => ⟨rfl, by simpa using h⟩
  | [], b, x :: c, d, _, hc, h => by
    simp only [List.nil_append, List.cons_append, List.cons.injEq] at h
    exact absurd (by rw [← h.1]; exact List.mem_cons_self) hc
  | x :: a, b, [], d, ha, _, h => by
    simp only [List.nil_append, List.cons_append, List.cons.injEq] at h
    exact absurd (by rw [h.1]; exact List.mem_cons_self) ha
  | x :: a, b, y :: c, d, ha, hc, h => by
    simp only [List.cons_append, List.cons.injEq] at h
    obtain ⟨h1, h2⟩ := append_dot_inj (fun h => ha (List.mem_cons_of_mem _ h))
      (fun h => hc (List.mem_cons_of_mem _ h)) h.2
    exact ⟨by rw [h.1, h1], h2⟩

/-- Two pairs of classes share a method only if they are the same, provided the first classes have no
dot in their names. -/
theorem C82_distinct {generic a b c d : Bytes} (ha : 46 ∉ a) (hc : 46 ∉ c)
    (h : methodName (methodName generic a) b = methodName (methodName generic c) d) : a = c ∧ b = d := by
  unfold methodName at h
  simp only [List.append_assoc, List.cons_append] at h
  have := List.append_cancel_left h
  injection this with _ h
  exact append_dot_inj ha hc h

example : methodName (methodName [99] [97]) [98] ≠ methodName (methodName [99] [98]) [97] := by decide

/-- With dots they need not be: the pair `a.b`, `c` and the pair `a`, `b.c` have the same method. -/
theorem C82_ambiguous (generic a b c : Bytes) :
    methodName (methodName generic (a ++ 46 :: b)) c = methodName (methodName generic a) (b ++ 46 :: c) := by
  simp [methodName]

end Vctrs
