import Verif.Model.Photo

/-!
# Model of the script that prepares the table of photon angles
(other/photoemission_angular_distribution/000_generate_pyecloud_photoem_input.py)

Its file is what `photoemission_from_file` reads.
-/

namespace PyECLOUD

variable {K : Type} [Field K] [LinearOrder K]

/-- `np.linspace(a, b, n)`. -/
def npLinspace (a b : K) (n : ℕ) : List K := (List.range n).map (fun i : ℕ => a + (i : K) * ((b - a) / ((n : K) - 1)))

/-- `np.cumsum`, starting from `a`. -/
def cumSum : K → List K → List K
  | _, [] => []
  | a, d :: l => (a + d) :: cumSum (a + d) l

/-- `scipy.integrate.cumtrapz(y, x)`; the points are the pairs of `x` and `y`. -/
def cumtrapz (pts : List (K × K)) : List K :=
  cumSum 0 ((pairs pts).map (fun q => (q.2.1 - q.1.1) * (q.2.2 + q.1.2) / 2))

/-- The script (000_generate_pyecloud_photoem_input.py:9-31): the measured density is interpolated at `n` angles from `lo` to `hi`,
integrated, normalised and inverted at `nu` numbers from 0 to 1. The result are the pairs of `u_sam` and `angles`. In the script
`lo = -pi`, `hi = pi`, `n = nu = 10000`. The maximum of an empty array raises. -/
def angleTable (theta distr : List K) (lo hi : K) (n nu : ℕ) : Except PyErr (List (K × K)) := do
  if theta.length ≠ distr.length then .error .valueError
  let thU := npLinspace lo hi n
  let dU ← thU.mapM (npInterp (theta.zip distr))
  match cumtrapz (thU.zip dU) with
  | [] => .error .valueError
  | a :: l =>
    let cdf := (0 :: a :: l).map (fun v => v / l.foldl max a)
    let us := npLinspace 0 1 nu
    let ang ← us.mapM (npInterp (cdf.zip thU))
    .ok (us.zip ang)

end PyECLOUD
