import Verif.Model.Sources
import Verif.Model.Geometry

/-!
# Where photoelectrons are emitted

`polyg_cham_photoemission` (geom_impact_poly_fast_impact.py:355-483), the tables of the inverse distribution functions
(gen_photoemission_class.py:111-115, 187, 250), and the two numpy functions they use.
-/

namespace PyECLOUD

variable {K : Type} [Field K] [LinearOrder K]

/-- `np.interp` beyond the node `p`: the last node not above `x` is searched. -/
def npInterpFrom : K × K → List (K × K) → K → K
  | p, [], _ => p.2
  | p, q :: l, x => if q.1 ≤ x then npInterpFrom q l x else (q.2 - p.2) / (q.1 - p.1) * (x - p.1) + p.2

/-- `np.interp(x, u_sam, angles)` (gen_photoemission_class.py:192, 252); the table is the list of pairs. -/
def npInterp : List (K × K) → K → Except PyErr K
  | [], _ => .error .valueError
  | p :: l, x => .ok (if x < p.1 then p.2 else npInterpFrom p l x)

/-- `cum_n` of `np.histogram`: the number of values below every edge, or not above it for the last one. -/
def histCum (a : List K) : List K → List ℕ
  | [] => []
  | [e] => [a.countP (fun r => decide (r ≤ e))]
  | e :: l => a.countP (fun r => decide (r < e)) :: histCum a l

/-- `np.diff` of the counts. -/
def diffN : List ℕ → List ℕ
  | a :: b :: l => (b - a) :: diffN (b :: l)
  | _ => []

/-- `np.histogram(a, edges)`: numbers of values in the bins. Edges that decrease are refused. -/
def npHistogram (a edges : List K) : Except PyErr (List ℕ) :=
  if (pairs edges).any (fun q => decide (q.2 < q.1)) then .error .valueError else .ok (diffN (histCum a edges))

/-- One segment of the photoemission chamber (geom_impact_poly_fast_impact.py:402-415); `distance_new_phem` is 1e-14. -/
def mkPhSeg (sq : K → K) (a b : K × K) : PhSeg K :=
  let dx := b.1 - a.1
  let dy := b.2 - a.2
  let len := sq (dx * dx + dy * dy)
  ⟨a.1 + 1 / 10 ^ 14 * (-dy / len), a.2 + 1 / 10 ^ 14 * (dx / len), dx, dy, -dy / len, dx / len⟩

/-- `polyg_cham_photoemission.__init__` (geom_impact_poly_fast_impact.py:368-422): vertices and `phem_cdf`. A single entry is
made a number by `np.squeeze` and cannot be indexed. -/
def loadPhem (sq : K → K) (vs : List (K × K)) (cdf : List K) : Except PyErr (List (PhSeg K)) :=
  if cdf.length ≤ 1 then .error .indexError
  else if cdf.getLastD 0 ≠ 1 then .error .custom
  else if (pairs cdf).any (fun q => decide (q.2 - q.1 < 0)) then .error .custom
  else if polyArea vs < 0 then .error .custom
  else if (pairs (closeList vs)).any (fun q => decide (sq ((q.2.1 - q.1.1) * (q.2.1 - q.1.1) + (q.2.2 - q.1.2) * (q.2.2 - q.1.2))
      < 1 / 10 ^ 9)) then .error .custom
  else .ok ((pairs (closeList vs)).map (fun q => mkPhSeg sq q.1 q.2))

/-- The numbers of photoelectrons on the segments (geom_impact_poly_fast_impact.py:404, 440): `cdf_bins` is `phem_cdf` after a 0. -/
def segHistogram (cdf draws : List K) : Except PyErr (List ℕ) := npHistogram draws (0 :: cdf)

/-- The segment of every photoelectron in the order of the loop (geom_impact_poly_fast_impact.py:443-451). -/
def expandCounts (c : List ℕ) : List ℕ := (c.mapIdx (fun i n => List.replicate n i)).flatten

end PyECLOUD
