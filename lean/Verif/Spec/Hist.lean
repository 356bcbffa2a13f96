import Verif.Model.Np

/-! # Specification vocabulary for histogram deposition -/

namespace PyECLOUD

variable {K : Type} [Field K] [LinearOrder K]

/-- Cloud-in-cell weight of node `k` (0-based) for a particle at grid coordinate `t`:
the hat function, with coordinates beyond the last node treated as on it. -/
def cicWeight (n : ℕ) (t : K) (k : ℕ) : K := max 0 (1 - |min t ((n : K) - 1) - (k : K)|)

/-- What weighted values `(value, weight)` add to node `k` of a histogram with `n` nodes starting at `bias` with
spacing `dx`. -/
def binned (bias dx : K) (n : ℕ) (data : List (K × K)) (k : ℕ) : K :=
  (data.map (fun p => p.2 * cicWeight n ((p.1 - bias) / dx) k)).sum

end PyECLOUD
