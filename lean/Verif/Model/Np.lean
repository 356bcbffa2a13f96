import Mathlib.Algebra.Order.Field.Basic
import Mathlib.Algebra.Order.Floor.Ring
import Mathlib.Algebra.BigOperators.Group.List.Basic
import Mathlib.Algebra.Field.Rat
import Mathlib.Data.Rat.Floor

/-!
# The fragment of Python / numpy semantics used by PyECLOUD

Exceptions are values, arrays are lists of fixed length.
-/

namespace PyECLOUD

/-- Python exceptions raised by the modelled code. -/
inductive PyErr where
  | valueError
  | indexError
  | typeError
  | keyError
  | zeroDivision
  | assertion
  | config
  | unbound
  | custom
  /-- not a Python exception: a `while` loop has not ended within the supplied rounds of draws -/
  | stillRunning
  deriving DecidableEq, Repr

/-- Right-hand side of a numpy slice assignment: a Python scalar or an array. -/
inductive Src (α : Type) where
  | scalar (v : α)
  | array (l : List α)

/-- `a[lo:hi] = src` for a one-dimensional numpy array.
Slice bounds are clipped to the array length; a scalar and an array of length one are broadcast
to the (possibly empty) region; any other length mismatch raises `ValueError`. -/
def sliceAssign {α : Type} (a : List α) (lo hi : ℕ) (src : Src α) : Except PyErr (List α) :=
  let lo' := min lo a.length
  let hi' := min hi a.length
  let n := hi' - lo'
  match src with
  | .scalar v => .ok (a.take lo' ++ List.replicate n v ++ a.drop (lo' + n))
  | .array l =>
    if l.length = n then .ok (a.take lo' ++ l ++ a.drop (lo' + n))
    else match l with
      | [v] => .ok (a.take lo' ++ List.replicate n v ++ a.drop (lo' + n))
      | _ => .error .valueError

/-- `a[mask]` for a boolean mask of the same length. -/
def maskSel {α : Type} : List α → List Bool → List α
  | a :: as, true :: ms => a :: maskSel as ms
  | _ :: as, false :: ms => maskSel as ms
  | _, _ => []

/-- `a[mask] = vals` for a boolean mask of the same length and as many values as `True` entries. -/
def maskPut {α : Type} : List α → List Bool → List α → List α
  | _ :: as, true :: ms, v :: vs => v :: maskPut as ms vs
  | a :: as, true :: ms, [] => a :: maskPut as ms []
  | a :: as, false :: ms, vs => a :: maskPut as ms vs
  | as, [], _ => as
  | [], _, _ => []

/-- `np.sum(mask)`. -/
def countTrue (m : List Bool) : ℕ := m.count true

/-- `a[0:len(src)] = src` when `len(src) <= len(a)`. -/
def setPrefix {α : Type} (a src : List α) : List α := src ++ a.drop src.length

/-- `a[n:] = 0.0`. -/
def zeroTail {α : Type} [Zero α] (a : List α) (n : ℕ) : List α :=
  a.take n ++ List.replicate (a.length - n) 0

/-- `np.repeat(a, counts)`. -/
def npRepeat {α : Type} : List α → List ℕ → List α
  | a :: as, n :: ns => List.replicate n a ++ npRepeat as ns
  | _, _ => []

/-- `np.around(x)`: round to nearest, ties to even. -/
def roundHE {K : Type} [Field K] [LinearOrder K] [FloorRing K] (x : K) : ℤ :=
  let f := ⌊x⌋
  let r := x - (f : K)
  if r < 1 / 2 then f
  else if 1 / 2 < r then f + 1
  else if f % 2 = 0 then f else f + 1

/-- Stochastic rounding used by all sources of macroparticles:
`n = floor(x); n += int(rand() < x - n)` (negative results clip to 0 since they only enter `if n > 0`). -/
def stochRound {K : Type} [Field K] [LinearOrder K] [FloorRing K] (x u : K) : ℤ :=
  ⌊x⌋ + (if u < x - (⌊x⌋ : K) then 1 else 0)

/-- `a[i]` and `np.take(a, i)` of a numpy array: negative indices count from the end. -/
def pyGet {α : Type} (l : List α) (i : ℤ) : Except PyErr α :=
  let j : ℤ := if i < 0 then i + l.length else i
  if j < 0 then .error .indexError
  else match l[j.toNat]? with
    | some a => .ok a
    | none => .error .indexError

end PyECLOUD
