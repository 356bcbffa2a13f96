import Verif.Model.Hist

/-!
# Model of the 2D deposition and interpolation kernels

`compute_rho.f` and `interp_field_for.f`. A grid is a function of the two 1-based Fortran indices.
-/

namespace PyECLOUD

variable {K : Type} [Field K] [LinearOrder K] [FloorRing K]

/-- `fi = 1 + (x - bias)/D` (compute_rho.f, interp_field_for.f: "real i index of particle's cell"). -/
def fIdx (bias d x : K) : K := 1 + (x - bias) / d

/-- `i = int(fi)` -/
def iIdx (bias d x : K) : ℤ := truncZ (fIdx bias d x)

/-- `hx = fi - dble(i)` -/
def hIdx (bias d x : K) : K := fIdx bias d x - (iIdx bias d x : K)

/-- the guard `i>0 .and. j>0 .and. i<Nxg .and. j<Nyg` -/
def gridGuard (nx ny : ℕ) (i j : ℤ) : Bool := decide (i > 0 ∧ j > 0 ∧ i < nx ∧ j < ny)

/-- `rho(i,j) = rho(i,j) + v` -/
def rhoAdd (rho : ℕ → ℕ → K) (i j : ℕ) (v : K) : ℕ → ℕ → K :=
  fun a b => if a = i ∧ b = j then rho a b + v else rho a b

/-- Loop body of `compute_sc_rho` (compute_rho.f, "loop over particles"). -/
def rhoStep (nx ny : ℕ) (bx yb dh : K) (rho : ℕ → ℕ → K) (x y w : K) : ℕ → ℕ → K :=
  let i := iIdx bx dh x
  let hx := hIdx bx dh x
  let j := iIdx yb dh y
  let hy := hIdx yb dh y
  if gridGuard nx ny i j then
    let a := i.toNat
    let b := j.toNat
    rhoAdd (rhoAdd (rhoAdd (rhoAdd rho a b (w * (1 - hx) * (1 - hy))) (a + 1) b (w * hx * (1 - hy)))
      a (b + 1) (w * (1 - hx) * hy)) (a + 1) (b + 1) (w * hx * hy)
  else rho

/-- `compute_sc_rho` (compute_rho.f): zero the grid, then loop over the particles `(x, y, nel)`. -/
def computeRho (nx ny : ℕ) (bx yb dh : K) (ps : List (K × K × K)) : ℕ → ℕ → K :=
  ps.foldl (fun rho p => rhoStep nx ny bx yb dh rho p.1 p.2.1 p.2.2) (fun _ _ => 0)

/-- One component of `int_field` for one particle (interp_field_for.f). The output arrays are created
zero-filled by f2py and only written when the guard holds. -/
def intField (nx ny : ℕ) (bx yb dx dy : K) (ef : ℕ → ℕ → K) (x y : K) : K :=
  let i := iIdx bx dx x
  let hx := hIdx bx dx x
  let j := iIdx yb dy y
  let hy := hIdx yb dy y
  if gridGuard nx ny i j then
    let a := i.toNat
    let b := j.toNat
    ef a b * (1 - hx) * (1 - hy) + ef (a + 1) b * hx * (1 - hy) + ef a (b + 1) * (1 - hx) * hy
      + ef (a + 1) (b + 1) * hx * hy
  else 0

/-- `update_seg_impact` (update_seg_impact.f): `hist(i_seg+1) += wei` when the index is in range. -/
def updateSeg (hist : List K) (ps : List (ℤ × K)) : List K :=
  ps.foldl (fun h p =>
    let i := p.1 + 1
    if i ≤ (h.length : ℤ) ∧ i ≥ 1 then addAt h i.toNat p.2 else h) hist

/-- `vectsum` (vectsum.f). -/
def vectSum (l : List K) : K := l.foldl (· + ·) 0

end PyECLOUD
