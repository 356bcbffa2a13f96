import Mathlib.Analysis.SpecialFunctions.Trigonometric.Basic
import Mathlib.Analysis.SpecialFunctions.Sqrt
import Mathlib.Algebra.Order.Floor.Ring
import Mathlib.Data.Real.Sign

/-!
Model of `errfff.f` (`ERRF`) and of `BassErsk.py` (`wfun`, `BassErsk`, guards of `ImageTerms`).

Work arrays are partial functions of the index: an index outside 1..33 and a read of an element that has not been
written are errors, and so is a division by zero. Numbers are reals (no rounding).
-/

namespace PyECLOUD

open Real

/-- What can go wrong in the compiled routine (memory, division) or in the numpy expressions around it (`nan`). -/
inductive NumErr
  | outOfBounds
  | uninitialised
  | divByZero
  | nan
  deriving DecidableEq

/-- A Fortran array `DIMENSION RX(33)` (errfff.f:42): the elements that have been written. -/
abbrev Arr33 := ℕ → Option ℝ

/-- Read of `RX(n)`. -/
def rd (a : Arr33) (n : ℕ) : Except NumErr ℝ :=
  if n = 0 ∨ 33 < n then .error .outOfBounds
  else match a n with
    | some v => .ok v
    | none => .error .uninitialised

/-- Assignment `RX(n) = v`. -/
def wr (a : Arr33) (n : ℕ) (v : ℝ) : Except NumErr Arr33 :=
  if n = 0 ∨ 33 < n then .error .outOfBounds
  else .ok (fun m => if m = n then some v else a m)

/-- A division of the routine. -/
noncomputable def dv (a b : ℝ) : Except NumErr ℝ := if b = 0 then .error .divByZero else .ok (a / b)

/-- Loop 10 (errfff.f:58-64): `DO N = n, 1, -1` fills `RX(N)`, `RY(N)` from `RX(N+1)`, `RY(N+1)`. -/
noncomputable def errLoop10 (xh yh : ℝ) : ℕ → Arr33 → Arr33 → Except NumErr (Arr33 × Arr33)
  | 0, ax, ay => .ok (ax, ay)
  | n + 1, ax, ay => do
    let rx ← rd ax (n + 2)
    let ry ← rd ay (n + 2)
    let tx := xh + (n + 1 : ℝ) * rx
    let ty := yh - (n + 1 : ℝ) * ry
    let tn := tx * tx + ty * ty
    let vx ← dv (0.5 * tx) tn
    let vy ← dv (0.5 * ty) tn
    let ax' ← wr ax (n + 1) vx
    let ay' ← wr ay (n + 1) vy
    errLoop10 xh yh n ax' ay'

/-- Loop 20 (errfff.f:69-74): Horner-like summation over `N = n, .., 1` with the running power `XL`. -/
noncomputable def errLoop20 (h : ℝ) (ax ay : Arr33) : ℕ → ℝ → ℝ → ℝ → Except NumErr (ℝ × ℝ)
  | 0, sx, sy, _ => .ok (sx, sy)
  | n + 1, sx, sy, xl => do
    let rx ← rd ax (n + 1)
    let ry ← rd ay (n + 1)
    let saux := sx + xl
    errLoop20 h ax ay n (rx * saux - ry * sy) (rx * sy + ry * saux) (h * xl)

/-- Loop 30 (errfff.f:84-90): the continued fraction far from the origin, in `RX(1)`, `RY(1)` only. -/
noncomputable def errLoop30 (xh yh : ℝ) : ℕ → Arr33 → Arr33 → Except NumErr (Arr33 × Arr33)
  | 0, ax, ay => .ok (ax, ay)
  | n + 1, ax, ay => do
    let rx ← rd ax 1
    let ry ← rd ay 1
    let tx := xh + (n + 1 : ℝ) * rx
    let ty := yh - (n + 1 : ℝ) * ry
    let tn := tx * tx + ty * ty
    let vx ← dv (0.5 * tx) tn
    let vy ← dv (0.5 * ty) tn
    let ax' ← wr ax 1 vx
    let ay' ← wr ay 1 vy
    errLoop30 xh yh n ax' ay'

/-- The constant `CC` (errfff.f:37). -/
noncomputable def errCC : ℝ := 1.12837916709551

/-- `Q` (errfff.f:48). -/
noncomputable def errQ (x y : ℝ) : ℝ := (1 - y / 4.29) * √(1 - (x / 5.33) ^ 2)

/-- The part for the first quadrant (errfff.f:47-94): `x = |XX|`, `y = |YY|`. `INT` truncates; its arguments
are not negative, so it is the natural-number floor. -/
noncomputable def errQuadrant (x y : ℝ) : Except NumErr (ℝ × ℝ) :=
  if y < 4.29 ∧ x < 5.33 then do
    let q := errQ x y
    let h ← dv 1 (3.2 * q)
    let nc := 7 + ⌊23 * q⌋₊
    let xl := h ^ (1 - (nc : ℤ))
    let half ← dv 0.5 h
    let xh := y + half
    let nu := 10 + ⌊21 * q⌋₊
    let ax ← wr (fun _ => none) (nu + 1) 0
    let ay ← wr (fun _ => none) (nu + 1) 0
    let r ← errLoop10 xh x nu ax ay
    let s ← errLoop20 h r.1 r.2 nc 0 0 xl
    .ok (errCC * s.1, errCC * s.2)
  else do
    let ax ← wr (fun _ => none) 1 0
    let ay ← wr (fun _ => none) 1 0
    let r ← errLoop30 y x 9 ax ay
    let rx ← rd r.1 1
    let ry ← rd r.2 1
    .ok (errCC * rx, errCC * ry)

/-- `ERRF(XX, YY, WX, WY)` (errfff.f:15-105): first quadrant, then the reflections (lines 96-103). -/
noncomputable def errf (xx yy : ℝ) : Except NumErr (ℝ × ℝ) := do
  let x := |xx|
  let y := |yy|
  let w ← errQuadrant x y
  let wx := if y = 0 then exp (-x ^ 2) else w.1
  let wy := w.2
  if yy < 0 then
    let wx' := 2 * exp (y * y - x * x) * cos (2 * x * y) - wx
    let wy' := -2 * exp (y * y - x * x) * sin (2 * x * y) - wy
    .ok (wx', if 0 < xx then -wy' else wy')
  else .ok (wx, if xx < 0 then -wy else wy)

/-- `BassErsk` for one sign of the aspect ratio (BassErsk.py:22-30; lines 34-42 are the same with the planes exchanged):
`u` is the plane of the larger size. A vanishing `S` makes every following number `nan`.
Result: the unsigned components in the planes `u`, `v`. -/
noncomputable def bassHalf (eps0 u v su sv : ℝ) : Except NumErr (ℝ × ℝ) :=
  let s := √(2 * (su * su - sv * sv))
  if s = 0 then .error .nan
  else do
    let fact := 1 / (2 * eps0 * √π * s)
    let w1 ← errf (u / s) (v / s)
    let w2 ← errf (sv / su * u / s) (su / sv * v / s)
    let g := exp (-u * u / (2 * su * su) - v * v / (2 * sv * sv))
    let re := fact * (w1.1 - g * w2.1)
    let im := fact * (w1.2 - g * w2.2)
    .ok (|im|, |re|)

/-- `BassErsk(xin, yin, sigmax, sigmay)` (BassErsk.py:13-44). -/
noncomputable def bassErsk (eps0 xin yin sx sy : ℝ) : Except NumErr (ℝ × ℝ) :=
  let x := |xin|
  let y := |yin|
  if sy < sx then do
    let e ← bassHalf eps0 x y sx sy
    .ok (e.1 * Real.sign xin, e.2 * Real.sign yin)
  else do
    let e ← bassHalf eps0 y x sy sx
    .ok (e.2 * Real.sign xin, e.1 * Real.sign yin)

end PyECLOUD
