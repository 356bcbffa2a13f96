import Verif.Model.ErrF
import Verif.Model.BeamField
import Verif.Spec.FPYield
import Mathlib.Analysis.SpecialFunctions.Complex.Log
import Mathlib.Analysis.Complex.Trigonometric

/-!
Model of the construction of the beam field map (`beam_and_timing.py`, `ImageTerms` of `BassErsk.py`) and of the electric energy of
`space_charge_class.py`.
-/

namespace PyECLOUD

/-! ## Image terms of the Bassetti-Erskine map -/

/-- `ImageTerms(x, y, a, b, x0, y0, nimag)` (BassErsk.py:47-82) as the complex number `Ex + 1j*Ey`. `acosh` is the complex inverse
hyperbolic cosine of the library; `sqrt` and `log` are numpy's real ones, which give `nan` for `b > a`; a vanishing `sinh(q)` is a
division `0/0`. In a round chamber with a displaced beam the function stops because nothing is assigned. -/
noncomputable def imageTerms (acosh : ℂ → ℂ) (eps0 x y a b x0 y0 : ℝ) (nimag : ℕ) : Except NumErr ℂ :=
  if |(a - b) / a| > 1e-3 then
    if a < b then .error .nan
    else
      let g := √(a * a - b * b)
      let q := acosh (⟨x, y⟩ / g)
      let q0 := acosh (⟨x0, y0⟩ / g)
      let mu0 := q0.re
      let phi0 := q0.im
      let mu1 := 0.5 * Real.log ((a + b) / (a - b))
      let qc := (starRingEnd ℂ) q
      if Complex.sinh qc = 0 then .error .nan
      else
        let e := ((List.range nimag).map (fun k => (k + 1 : ℕ))).foldl (fun (acc : ℂ) (n : ℕ) =>
          acc + (Real.exp (-(n : ℝ) * mu1) : ℂ) *
            (((Real.cosh (n * mu0) * Real.cos (n * phi0) / Real.cosh (n * mu1) : ℝ) : ℂ) +
              Complex.I * ((Real.sinh (n * mu0) * Real.sin (n * phi0) / Real.sinh (n * mu1) : ℝ) : ℂ)) *
            (Complex.sinh (n * qc) / Complex.sinh qc)) 0
        .ok (e / ((4 * Real.pi * eps0 : ℝ) : ℂ) * 4 / (g : ℂ))
  else if x0 = 0 ∧ y0 = 0 then .ok 0
  else .error .uninitialised

/-- `np.linspace(-m, m, n)` (beam_and_timing.py:221-222). -/
noncomputable def linspaceSym (m : ℝ) (n : ℕ) : List ℝ := (List.range n).map (fun k : ℕ => -m + (k : ℝ) * (2 * m / ((n : ℝ) - 1)))

/-- One entry of the Bassetti-Erskine map (beam_and_timing.py:238-243): beam and images; the real parts are kept. -/
noncomputable def beEntry (acosh : ℂ → ℂ) (eps0 a b sx sy : ℝ) (nimag : ℕ) (x y : ℝ) : Except NumErr (ℝ × ℝ) :=
  match imageTerms acosh eps0 x y a b 0 0 nimag with
  | .error e => .error e
  | .ok im => match bassErsk eps0 x y sx sy with
    | .error e => .error e
    | .ok e => .ok (e.1 + im.re, e.2 + im.im)

/-- The map `Ex[ii, jj], Ey[ii, jj]` (beam_and_timing.py:211-247) with its axes; `nan` entries stay in it. -/
noncomputable def beMap (acosh : ℂ → ℂ) (eps0 a b sx sy : ℝ) (nx ny nimag : ℕ) :
    List ℝ × List ℝ × List (List (Except NumErr (ℝ × ℝ))) :=
  let xx := linspaceSym (a * 1.02) nx
  let yy := linspaceSym (b * 1.02) ny
  (xx, yy, xx.map (fun x => yy.map (fun y => beEntry acosh eps0 a b sx sy nimag x y)))

/-! ## Charge density of the finite difference map -/

/-- The factor of one plane (beam_and_timing.py:182-185): difference of error functions over the cell of size `dh` around the node. -/
noncomputable def cellFactor (erf : ℝ → ℝ) (pos sigma dh node : ℝ) : ℝ :=
  erf ((node - pos) / (√2 * sigma) + dh / (2 * √2 * sigma)) - erf ((node - pos) / (√2 * sigma) - dh / (2 * √2 * sigma))

/-- `rho` at a node (beam_and_timing.py:182-185, 275-278 and 283-286 with `dh` of the grid). -/
noncomputable def cellRho (erf : ℝ → ℝ) (px py sx sy dh xn yn : ℝ) : ℝ :=
  1 / (4 * dh ^ 2) * cellFactor erf px sx dh xn * cellFactor erf py sy dh yn

/-! ## Choice of the map -/

/-- `beam_field_file` (beam_and_timing.py:168-305). -/
inductive FieldSel where
  | fd
  | be
  | multigrid
  | file (name : String)
  deriving DecidableEq

/-- The settings that matter for the map (arguments of `beam_and_timing.__init__`, beam_and_timing.py:85-93); `saveAs` is
`save_beam_field_file_as`. -/
structure MapSet (K : Type) where
  sel : FieldSel
  dh : Option K
  fTel : Option K
  target : Bool
  nDiscard : Option K
  nMin : Option K
  nx : Option ℕ
  ny : Option ℕ
  nimag : Option ℕ
  xPos : K
  yPos : K
  saveAs : Option String

/-- The map kept in the beam (beam_and_timing.py:290-291, 314-328), or the state of the multigrid solver. -/
inductive BeamObj (M S : Type) where
  | map (m : M)
  | state (s : S)

/-- Maps with axes (beam_and_timing.py:307-312). -/
structure AxMap (K : Type) where
  xx : List K
  yy : List K
  ex : List (List K)
  ey : List (List K)
  deriving DecidableEq

/-- Outcome of the field part of `beam_and_timing.__init__`: the object and the file that is written. -/
structure MapOut (K S : Type) where
  obj : BeamObj (AxMap K) S
  saved : Option (String × AxMap K)

/-- The checks and the choice (beam_and_timing.py:95-96, 168-312) in the order of the code. `outside`: the beam position is outside the
chamber; `ellip`: the chamber is elliptical; the three computations and the loading are parameters. -/
def buildMap {K S : Type} [Zero K] [DecidableEq K] (outside ellip : Bool) (fd : K → AxMap K) (be : ℕ → ℕ → ℕ → AxMap K)
    (mg : K → K → K → K → S) (load : String → Except PyErr (AxMap K)) (c : MapSet K) : Except PyErr (MapOut K S) :=
  if outside then .error .valueError
  else
    let r : Except PyErr (BeamObj (AxMap K) S) :=
      match c.sel with
      | .fd => match c.dh with
        | none => .error .valueError
        | some dh => .ok (.map (fd dh))
      | .be =>
        if ellip = false then .error .valueError
        else match c.nx, c.ny, c.nimag with
          | some nx, some ny, some ni => if c.xPos ≠ 0 ∨ c.yPos ≠ 0 then .error .valueError else .ok (.map (be nx ny ni))
          | _, _, _ => .error .valueError
      | .multigrid => match c.dh, c.fTel, c.target, c.nDiscard, c.nMin with
        | some dh, some f, true, some nd, some nm => .ok (.state (mg dh f nd nm))
        | _, _, _, _, _ => .error .valueError
      | .file name => match load name with
        | .error e => .error e
        | .ok m => .ok (.map m)
    match r with
    | .error e => .error e
    | .ok (.state s) => if c.saveAs.isSome then .error .valueError else .ok ⟨.state s, none⟩
    | .ok (.map m) => .ok ⟨.map m, c.saveAs.map (fun n => (n, m))⟩

/-- The numpy array as the Fortran routine sees it: indices from 1. -/
def nodeVal {K : Type} [Zero K] (m : List (List K)) (i j : ℕ) : K := (m.getD (i - 1) []).getD (j - 1) 0

/-- The map kept for the interpolation (beam_and_timing.py:314-328): smallest coordinates, first differences, and the arrays with their
shape. -/
def AxMap.grid {K : Type} [Field K] [LinearOrder K] (m : AxMap K) : Except PyErr (BeamMap K) :=
  match m.xx, m.yy with
  | x0 :: x1 :: xs, y0 :: y1 :: ys =>
    .ok ⟨m.ex.length, (m.ex.headD []).length, (x1 :: xs).foldl min x0, (y1 :: ys).foldl min y0, x1 - x0, y1 - y0,
      nodeVal m.ex, nodeVal m.ey⟩
  | _, _ => .error .indexError

/-! ## Electric energy -/

/-- `get_potential_electric_energy` (space_charge_class.py:209-216) on the grid of lines 131-139: `ex`, `ey` the interpolated fields at
the points `np.arange(-1.01 aper, 1.01 aper, Dh_U_eV)` of the two axes. -/
def potEnergy {K : Type} [Field K] [LinearOrder K] [FloorRing K] (ex ey : K → K → K) (xAper yAper eps0 qe : K) (dhU : Option K) :
    Except PyErr K :=
  match dhU with
  | none => .error .valueError
  | some dh =>
    let ax := fun (m : K) => (arange (m * 1.01 - -m * 1.01) dh).map (fun t => -m * 1.01 + t)
    let pts := (ax xAper).flatMap (fun x => (ax yAper).map (fun y => (x, y)))
    .ok (1 / 2 * (pts.map (fun p => ex p.1 p.2 ^ 2 + ey p.1 p.2 ^ 2)).sum * dh ^ 2 * eps0 / qe)

/-- The record `U_sc_eV` of the main output (pyecloud_saver.py:283-285): at every field solution the attribute `U_sc_eV_stp` is appended,
which is set once at the construction (space_charge_class.py:123). `solved`: whether the step solves the field. -/
def uscRecord {K : Type} [Zero K] (solved : List Bool) : List K := (solved.filter (fun b => b)).map (fun _ => 0)

end PyECLOUD
