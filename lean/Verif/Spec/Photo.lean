import Verif.Spec.Geometry

/-!
# Cumulative distribution over the segments of a chamber

The photoelectrons of segment `k` are those whose random number is at least `phem_cdf[k-1]` (0 for the first segment) and less
than `phem_cdf[k]`.
-/

namespace PyECLOUD

variable {K : Type} [Field K] [LinearOrder K]

/-- Lower end of the interval of segment `k`. -/
def cdfLo (cdf : List K) (k : ℕ) : K := if k = 0 then 0 else cdf.getD (k - 1) 0

/-- Upper end of the interval of segment `k`. -/
def cdfHi (cdf : List K) (k : ℕ) : K := cdf.getD k 0

/-- `sq` gives the lengths of the edges: its square is the sum of the squared differences. -/
def EdgeRoots (sq : K → K) (vs : List (K × K)) : Prop := ∀ i < vs.length,
  let d2 := ((vtx vs (i + 1)).1 - (vtx vs i).1) * ((vtx vs (i + 1)).1 - (vtx vs i).1) +
    ((vtx vs (i + 1)).2 - (vtx vs i).2) * ((vtx vs (i + 1)).2 - (vtx vs i).2)
  sq d2 * sq d2 = d2

end PyECLOUD
