import Verif.Model.Impact
import Mathlib.Analysis.SpecialFunctions.Complex.Arg
import Mathlib.Analysis.SpecialFunctions.Trigonometric.Basic
import Mathlib.Analysis.Real.Sqrt

/-!
# Model of the elliptical chamber

geom_impact_ellip.py over the real numbers, one trajectory at a time (the code works on arrays element by element; the
shared trial counter of the correction loop starts with every element at once, so it acts like one counter per
element). Not a number is modelled by the branches that produce it; counters and the error file are not modelled.
-/

noncomputable section

namespace PyECLOUD

/-- The ellipse level `(x/x_aper)**2 + (y/y_aper)**2` (geom_impact_ellip.py:76, 134, 148, 172). -/
def ellLevel (a b x y : ℝ) : ℝ := (x / a) ^ 2 + (y / b) ^ 2

open Classical in
/-- `is_outside` (geom_impact_ellip.py:75-76). -/
def ellOutside (a b x y : ℝ) : Bool := decide (1 ≤ ellLevel a b x y)

/-- Argument of the square root (geom_impact_ellip.py:96-101). -/
def ellDisc (a b xi yi xo yo : ℝ) : ℝ :=
  a ^ 4 * b ^ 2 * (yi * yi) - 2 * a ^ 4 * b ^ 2 * (yi * yo) + a ^ 4 * b ^ 2 * (yo * yo) +
    a ^ 2 * b ^ 4 * (xi * xi) - 2 * a ^ 2 * b ^ 4 * (xi * xo) + a ^ 2 * b ^ 4 * (xo * xo) -
    a ^ 2 * b ^ 2 * (xi * xi) * (yo * yo) + 2 * a ^ 2 * b ^ 2 * (xi * xo) * (yi * yo) -
    a ^ 2 * b ^ 2 * (xo * xo) * (yi * yi)

/-- Denominator (geom_impact_ellip.py:102-104). -/
def ellDen (a b xi yi xo yo : ℝ) : ℝ :=
  a ^ 2 * (yi * yi) - 2 * a ^ 2 * (yi * yo) + a ^ 2 * (yo * yo) + b ^ 2 * (xi * xi) - 2 * b ^ 2 * (xi * xo) +
    b ^ 2 * (xo * xo)

open Classical in
/-- `t0` before rescaling, with not-a-number replaced by 0 (geom_impact_ellip.py:95-109): a negative root argument, or
a zero denominator, which only occurs with a zero numerator. -/
def ellRoot (a b xi yi xo yo : ℝ) : ℝ :=
  if ellDisc a b xi yi xo yo < 0 ∨ ellDen a b xi yi xo yo = 0 then 0
  else (a ^ 2 * (yi * yi) - a ^ 2 * (yi * yo) + Real.sqrt (ellDisc a b xi yi xo yo) + b ^ 2 * (xi * xi) -
    b ^ 2 * (xi * xo)) / ellDen a b xi yi xo yo

open Classical in
/-- `t0` used for the impact point (geom_impact_ellip.py:118-123). With `x_out = y_out = 0` the quotient of line 122 is
infinite or not a number and the comparison is false. -/
def ellT0 (a b resc xi yi xo yo : ℝ) : ℝ :=
  let t := resc * ellRoot a b xi yi xo yo
  let t := if t < 1 / 100 then 0 else t
  if xo * xo + yo * yo ≠ 0 ∧
    ((xi - xo) * (xi - xo) + (yi - yo) * (yi - yo)) / (xo * xo + yo * yo) < 1 / 10 ^ 8 then 0 else t

/-- Point at `t0` (geom_impact_ellip.py:129-131). -/
def ellMix (t vi vo : ℝ) : ℝ := t * vo + (1 - t) * vi

open Classical in
/-- Correction loop of the robust mode (geom_impact_ellip.py:134-146) with `n` trials left. -/
def ellBack (a b xi yi xo yo : ℝ) : ℕ → ℝ → ℝ
  | 0, t => t
  | n + 1, t => if 1 < ellLevel a b (ellMix t xi xo) (ellMix t yi yo) then ellBack a b xi yi xo yo n (9 / 10 * t) else t

/-- Projection of a point that is still not inside (geom_impact_ellip.py:161-170). -/
def ellProj (a b x y : ℝ) : ℝ × ℝ :=
  let r := Real.sqrt ((x / a) ^ 2 + (y / b) ^ 2)
  (99 / 100 * (x / a) / r * a, 99 / 100 * (y / b) / r * b)

open Classical in
/-- Normal at a point (geom_impact_ellip.py:177-193). `arctan2` is the argument of a complex number. -/
def ellNormal (a b x y : ℝ) : ℝ × ℝ :=
  let par := Complex.arg ⟨b * x, a * y⟩
  let nx := -(b * Real.cos par)
  let ny := -a * Real.sin par
  let nx' := if 0 < nx * x + ny * y then -nx else nx
  let ny' := if 0 < nx * x + ny * y then -ny else ny
  let nor := Real.sqrt (nx' * nx' + ny' * ny')
  (nx' / nor, ny' / nor)

open Classical in
/-- `impact_point_and_normal` (geom_impact_ellip.py:81-197). `i_found` is `None`, here 0. -/
def ellHit (a b resc : ℝ) (robust : Bool) (p q : ℝ × ℝ × ℝ) : Except PyErr (Hit ℝ) :=
  let t0 := ellT0 a b resc p.1 p.2.1 q.1 q.2.1
  let t := if robust then ellBack a b p.1 p.2.1 q.1 q.2.1 10 t0 else t0
  let x := ellMix t p.1 q.1
  let y := ellMix t p.2.1 q.2.1
  let z := ellMix t p.2.2 q.2.2
  let w := if robust && ellOutside a b x y then ellProj a b x y else (x, y)
  if robust && ellOutside a b w.1 w.2 then .error .valueError
  else .ok ⟨w.1, w.2, z, (ellNormal a b w.1 w.2).1, (ellNormal a b w.1 w.2).2, 0⟩

/-- The elliptical chamber seen by the impact step. -/
def ellChamber (a b resc : ℝ) (robust : Bool) : Chamber ℝ := ⟨ellOutside a b, ellHit a b resc robust⟩

end PyECLOUD
