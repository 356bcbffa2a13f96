import Verif.Model.Np

/-!
# Model of the Fortran deposition and interpolation kernels

`compute_hist.f`, `update_seg_impact.f`, `compute_rho.f`, `interp_field_for.f`, `vectsum.f`.
Grids are lists; Fortran indices are 1-based, the lists 0-based.
-/

namespace PyECLOUD

variable {K : Type} [Field K] [LinearOrder K]

section Floor

variable [FloorRing K]

/-- Fortran `int(x)`: truncation towards zero. -/
def truncZ (x : K) : ℤ := if 0 ≤ x then ⌊x⌋ else ⌈x⌉

/-- `h(i) = h(i) + v` with the 1-based Fortran index `i`. -/
def addAt (h : List K) (i : ℕ) (v : K) : List K := h.modify (i - 1) (· + v)

/-- Loop body of `compute_hist` (compute_hist.f:27-48). Writing below the first entry (`i < 1`, or an
empty histogram) is undefined behaviour in Fortran and is modelled as `IndexError`. -/
def histStep (bias dx : K) (h : List K) (x w : K) : Except PyErr (List K) :=
  let fi := 1 + (x - bias) / dx
  let i := truncZ fi
  let hx := fi - (i : K)
  if i < 1 ∨ h.length = 0 then .error .indexError
  else if i < (h.length : ℤ) then
    .ok (addAt (addAt h i.toNat (w * (1 - hx))) (i.toNat + 1) (w * hx))
  else .ok (addAt h h.length w)

/-- `compute_hist` (compute_hist.f:5-51): loop over the particles `(x, wei)`. -/
def computeHist (bias dx : K) : List K → List (K × K) → Except PyErr (List K)
  | h, [] => .ok h
  | h, p :: ps =>
    match histStep bias dx h p.1 p.2 with
    | .error e => .error e
    | .ok h' => computeHist bias dx h' ps

end Floor

end PyECLOUD
