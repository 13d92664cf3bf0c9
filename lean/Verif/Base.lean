/-!
# Conventions shared by all models

C functions are modelled in `C α := Except Err α`.  Nothing in this file models a
particular function of vctrs: it fixes the reading of C memory accesses and loops.
-/

namespace Vctrs

/-- Ways a C function can fail to return normally.
* `ub`: undefined behaviour (out-of-bounds access, read of uninitialised memory,
  signed overflow, division by zero, ...);
* `abort`: an R error raised for the user (`r_abort`, `stop_*`);
* `internal`: `r_stop_internal` / `r_stop_unreachable`;
* `diverge`: the fuel given to an unbounded loop ran out. -/
inductive Err where
  | ub | abort | internal | diverge
  deriving DecidableEq, Repr

/-- Result of a C function. -/
abbrev C (α : Type _) := Except Err α

instance {α : Type _} [DecidableEq α] : DecidableEq (C α) := fun a b =>
  match a, b with
  | .ok x, .ok y => if h : x = y then isTrue (by rw [h]) else isFalse (by simpa using h)
  | .error x, .error y => if h : x = y then isTrue (by rw [h]) else isFalse (by simpa using h)
  | .ok _, .error _ => isFalse (by simp)
  | .error _, .ok _ => isFalse (by simp)

@[simp] theorem ok_bind {α β : Type _} (a : α) (f : α → C β) :
    ((Except.ok a : C α) >>= f) = f a := rfl
@[simp] theorem error_bind {α β : Type _} (e : Err) (f : α → C β) :
    ((Except.error e : C α) >>= f) = .error e := rfl
@[simp] theorem pure_eq_ok {α : Type _} (a : α) : (pure a : C α) = .ok a := rfl
@[simp] theorem map_ok {α β : Type _} (f : α → β) (a : α) :
    (f <$> (Except.ok a : C α)) = .ok (f a) := rfl
@[simp] theorem map_error {α β : Type _} (f : α → β) (e : Err) :
    (f <$> (Except.error e : C α)) = .error e := rfl

/-- `p[i]` where `p` points to `l.length` initialised elements. -/
def rd {α : Type _} (l : List α) (i : Nat) : C α :=
  match l[i]? with
  | some a => .ok a
  | none => .error .ub

/-- `p[i] = a`. -/
def wr {α : Type _} (l : List α) (i : Nat) (a : α) : C (List α) :=
  if i < l.length then .ok (l.set i a) else .error .ub

/-- `p[i]` with a signed index. -/
def rdI {α : Type _} (l : List α) (i : Int) : C α :=
  if i < 0 then .error .ub else rd l i.toNat

/-- `p[i] = a` with a signed index. -/
def wrI {α : Type _} (l : List α) (i : Int) (a : α) : C (List α) :=
  if i < 0 then .error .ub else wr l i.toNat a

/-- Uninitialised memory for `n` elements (`r_alloc_*`, `R_alloc`). -/
def alloc (α : Type _) (n : Nat) : List (Option α) := List.replicate n none

/-- `p[i]` where the memory may be uninitialised. -/
def rdU {α : Type _} (l : List (Option α)) (i : Nat) : C α :=
  match l[i]? with
  | some (some a) => .ok a
  | _ => .error .ub

/-- Hand a buffer over as an R vector: every element must have been written. -/
def initd {α : Type _} : List (Option α) → C (List α)
  | [] => .ok []
  | none :: _ => .error .ub
  | some a :: l => do
    let r ← initd l
    .ok (a :: r)

/-- `for (; i < i + rem; ++i) s = f(i, s)`. -/
def forFrom {S : Type _} (f : Nat → S → C S) : Nat → Nat → S → C S
  | _, 0, s => .ok s
  | i, r + 1, s => do
    let s' ← f i s
    forFrom f (i + 1) r s'

/-- `for (i = 0; i < n; ++i) s = f(i, s)`. -/
def forN {S : Type _} (n : Nat) (f : Nat → S → C S) (s : S) : C S := forFrom f 0 n s

/-- Loop body result for loops containing `break`. -/
inductive Ctl (S : Type _) where
  | next (s : S)
  | brk (s : S)

/-- `for (; i < i + rem; ++i) { ... }` whose body may `break`. -/
def forBrkFrom {S : Type _} (f : Nat → S → C (Ctl S)) : Nat → Nat → S → C S
  | _, 0, s => .ok s
  | i, r + 1, s => do
    match ← f i s with
    | .next s' => forBrkFrom f (i + 1) r s'
    | .brk s' => .ok s'

/-- `for (i = 0; i < n; ++i) { ... }` whose body may `break`. -/
def forBrk {S : Type _} (n : Nat) (f : Nat → S → C (Ctl S)) (s : S) : C S :=
  forBrkFrom f 0 n s

/-- `for (i = n - 1; i >= 0; --i) s = f(i, s)`. -/
def forDown {S : Type _} (f : Nat → S → C S) : Nat → S → C S
  | 0, s => .ok s
  | n + 1, s => do
    let s' ← f n s
    forDown f n s'

/-- `INT_MAX` / `R_LEN_T_MAX`. -/
def intMax : Nat := 2147483647

/-- `NA_INTEGER`, i.e. `INT_MIN`. -/
def naInt : Int := -2147483648

end Vctrs

namespace Vctrs

/-- The result of a C `int` computation on non-negative values: overflow is undefined. -/
def chkNat (n : Nat) : C Nat := if n > intMax then .error .ub else .ok n

/-- The result of a C `int` computation: overflow is undefined. -/
def chkInt (n : Int) : C Int :=
  if n > (intMax : Int) then .error .ub else if n < naInt then .error .ub else .ok n

end Vctrs
