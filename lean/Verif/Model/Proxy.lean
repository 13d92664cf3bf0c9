import Verif.Model.Missing
import Verif.Model.Compare
import Verif.Model.Subscript

/-!
# Proxies of bare vectors and data frames (src/proxy.c, src/type-data-frame.c)

A vector without class is its own equality, comparison and ordering proxy.  A data frame is
flattened, so that `vec_equal()` and the others only see columns that are vectors.  Column names
are not kept.
-/

namespace Vctrs

mutual

/-- `df_flat_width`, src/type-data-frame.c:860-874, for one column: what it adds to the
width on top of the 1 it is counted with. -/
def flatWidthCol : Val → Int
  | .vec _ _ => 0
  | .df _ cols => flatWidthCols cols cols.length - 1

/-- The loop of `df_flat_width`, src/type-data-frame.c:866-871, from the running value. -/
def flatWidthCols : List Val → Int → Int
  | [], out => out
  | x :: xs, out => flatWidthCols xs (out + flatWidthCol x)

end

/-- `is_data_frame`, as tested in src/type-data-frame.c:868, :892 and :947. -/
def Val.isDf : Val → Bool
  | .vec _ _ => false
  | .df _ _ => true

/-- `df_flatten_info`, src/type-data-frame.c:882-899: is there a column to flatten, and how
many columns will there be. -/
def dfFlattenInfo (cols : List Val) : Bool × Int :=
  (cols.any Val.isDf, flatWidthCols cols cols.length)

mutual

/-- One column in `df_flatten_loop`, src/type-data-frame.c:945-953. -/
def flattenCol : Val → List (Option Val) × Nat → C (List (Option Val) × Nat)
  | .vec t xs, s => do .ok (← wr s.1 s.2 (some (.vec t xs)), s.2 + 1)
  | .df _ cols, s => flattenLoop cols s

/-- `df_flatten_loop`, src/type-data-frame.c:937-958. -/
def flattenLoop : List Val → List (Option Val) × Nat → C (List (Option Val) × Nat)
  | [], s => .ok s
  | x :: xs, s => do flattenLoop xs (← flattenCol x s)

end

/-- `df_flatten`, src/type-data-frame.c:918-934.  Allocating a list of negative size is an
error in R. -/
def dfFlatten (size : Nat) (cols : List Val) : C Val :=
  let info := dfFlattenInfo cols
  if !info.1 then .ok (.df size cols)
  else if info.2 < 0 then .error .abort
  else do
    let s ← flattenLoop cols (alloc Val info.2.toNat, 0)
    .ok (.df size (← initd s.1))

/-- `vec_proxy_unwrap`, src/proxy.c:246-251. -/
def proxyUnwrap : Val → Val
  | .df _ [x] => proxyUnwrap x
  | x => x

mutual

/-- `vec_proxy_equal` (src/proxy.c:56-67), `vec_proxy_compare` (:70-81) and `vec_proxy_order`
(:84-95) with `df_proxy` (:217-234). -/
def proxyVal : Val → C Val
  | .vec t xs => .ok (.vec t xs)
  | .df n cols => do
    let cols ← proxyCols cols
    .ok (proxyUnwrap (← dfFlatten n cols))

/-- The `DF_PROXY` loop, src/proxy.c:206-214. -/
def proxyCols : List Val → C (List Val)
  | [] => .ok []
  | x :: xs => do
    let y ← proxyVal x
    let ys ← proxyCols xs
    .ok (y :: ys)

end

/-- `vec_detect_missing()` with its proxy, src/missing.c:11-16. -/
def rDetectMissing (x : Val) : C (List Bool) := do vecDetectMissing (← proxyVal x)

/-- `vec_first_missing` with its proxy, src/missing.c:271-276. -/
def rFirstMissing (x : Val) : C Nat := do vecFirstMissing (← proxyVal x)

/-- `vec_any_missing()`, src/missing.c:267-269. -/
def rAnyMissing (x : Val) : C Bool := do
  let i ← rFirstMissing x
  .ok (decide (i ≠ x.size))

/-- `vec_detect_complete()` with its proxy, src/complete.c:51-68. -/
def rDetectComplete (x : Val) : C (List Bool) := do vecDetectComplete (← proxyVal x)

/-- `vec_locate_complete()`, src/complete.c:33-39. -/
def rLocateComplete (x : Val) : C (List Int) := do
  let w ← rDetectComplete x
  let (out, _) ← lglWhich (ν := Unit) (w.map some) none false
  .ok out

/-- `vec_equal()` with its proxies, src/equal.c:26-34. -/
def rEqual (naEqual : Bool) (x y : Val) : C (List (Option Bool)) := do
  vecEqual naEqual (← proxyVal x) (← proxyVal y)

/-- `vec_compare()` with its proxies, src/compare.c:30-42; the proxies are taken in
R/compare.R:122. -/
def rCompare (naEqual : Bool) (x y : Val) : C (List (Option Int)) := do
  vecCompare naEqual (← proxyVal x) (← proxyVal y)

end Vctrs
