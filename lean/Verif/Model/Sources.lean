import Verif.Model.MPSystem
import Verif.Model.Hist
import Verif.Model.Impact
import Mathlib.Analysis.SpecialFunctions.Trigonometric.Basic

/-!
# Model of the primary sources: gas_ionization_class.py and gen_photoemission_class.py
-/

namespace PyECLOUD

variable {K : Type} [Field K] [LinearOrder K]

/-- Ionisations per unit of line density and time: `k_ion` (gas_ionization_class.py:88-93). `kB`, `c` are the
Boltzmann constant and the speed of light. -/
def gasIonRate (kB c pnTorr sigmaMBarn tempK : K) : K :=
  pnTorr * (13332 / 100000000000) / (kB * tempK) * (sigmaMBarn * (1 / 10 ^ 22)) * c

/-- Draws of one call of `residual_gas_ionization.generate`. For each new macroparticle the code draws both a
normal and a uniform number per coordinate and multiplies one of them by zero; the streams contain the one
that counts. -/
structure GasDraws (K : Type) where
  u : K
  kind : ℕ → K
  x0 : ℕ → K
  y0 : ℕ → K
  rounds : List ((ℕ → K) × (ℕ → K))
  rvx : K
  rvy : K
  rvz : K

/-- A new position (gas_ionization_class.py:105-106, 113-114): uniform in the aperture rectangle or Gaussian
around the beam. -/
def gasGen (xAper yAper sx sy xb yb : K) (unif : Bool) (u v : K) : K × K :=
  if unif then (xAper * (2 * (u - 1 / 2)), yAper * (2 * (v - 1 / 2))) else (sx * u + xb, sy * v + yb)

/-- Values written by `residual_gas_ionization.generate` (gas_ionization_class.py:118-127). -/
def gasSrc (s : MPs K) (v0 : K) (d : GasDraws K) (pts : List (Bool × K × K)) : Fld → Src K
  | .x => .array (pts.map (·.2.1))
  | .y => .array (pts.map (·.2.2))
  | .z => .scalar 0
  | .vx => .scalar (v0 * (d.rvx - 1 / 2))
  | .vy => .scalar (v0 * (d.rvy - 1 / 2))
  | .vz => .scalar (v0 * (d.rvz - 1 / 2))
  | .nel => .scalar s.ref
  | .tl => .scalar (-1)

section Floor

variable [FloorRing K]

/-- `residual_gas_ionization.generate` (gas_ionization_class.py:82-131). `v0` is the value of line 86. The
lifetime flag of the source is the one of the cloud (init.py:311, 422). -/
def gasGenerate (outside : K → K → Bool) (unifFrac xAper yAper kIon v0 : K) (lam dt sx sy xb yb : K)
    (d : GasDraws K) (s : MPs K) : Except PyErr (MPs K) :=
  let nInt := (stochRound (kIon * lam * dt / s.ref) d.u).toNat
  if 0 < nInt then
    let gen := gasGen xAper yAper sx sy xb yb
    match rejectLoop outside gen d.rounds
        ((List.range nInt).map (fun i =>
          (decide (d.kind i < unifFrac), gen (decide (d.kind i < unifFrac)) (d.x0 i) (d.y0 i)))) with
    | .error e => .error e
    | .ok pts => s.addNew nInt (gasSrc s v0 d pts)
  else .ok s

/-- `photoemission_base.get_number_new_mps` (gen_photoemission_class.py:69-77): `mean = some lam` for continuous
emission, `kc = k_pe_st * c`. -/
def photoCount (kc : K) (mean : Option K) (lam dt ref u : K) : ℤ :=
  let x := kc * (mean.getD lam) * dt / ref
  truncZ x + (if u < x - (truncZ x : K) then 1 else 0)

/-- Values passed to `add_new_MPs` (gen_photoemission_class.py:94-95, 285-286). -/
def photoSrc (ref : K) (hits : List (Hit K)) (vel : List (K × K × K)) : Fld → Src K
  | .x => .array (hits.map (·.x))
  | .y => .array (hits.map (·.y))
  | .z => .scalar 0
  | .vx => .array (vel.map (·.1))
  | .vy => .array (vel.map (·.2.1))
  | .vz => .array (vel.map (·.2.2))
  | .nel => .scalar ref
  | .tl => .scalar (-1)

/-- `gen_energy_and_set_MPs` (gen_photoemission_class.py:79-95). `ends` are the start and end points of the
photon trajectories, `vel` the velocity generator (energy and angle) with its draws. -/
def photoSet (ch : Chamber K) (vel : ℕ → Hit K → K × K × K) (ends : List ((K × K) × (K × K))) (s : MPs K) :
    Except PyErr (MPs K) :=
  match ends.mapM (fun q => ch.hit (q.1.1, q.1.2, 0) (q.2.1, q.2.2, 0)) with
  | .error e => .error e
  | .ok hits => s.addNew ends.length (photoSrc s.ref hits (hits.mapIdx vel))

/-- The common part of the three `generate` methods with a chamber search (gen_photoemission_class.py:168-206,
243-260): `ends i` is the trajectory of the `i`-th photon. -/
def photoGenerate (ch : Chamber K) (vel : ℕ → Hit K → K × K × K) (ends : ℕ → (K × K) × (K × K)) (kc : K)
    (mean : Option K) (lam dt u : K) (s : MPs K) : Except PyErr (MPs K) :=
  let n := photoCount kc mean lam dt s.ref u
  if 0 < n then photoSet ch vel ((List.range n.toNat).map ends) s else .ok s

end Floor

/-- One segment of a `polyg_cham_photoemission` chamber (geom_impact_poly_fast_impact.py:402-415): shifted first
vertex, edge vector, normal. -/
structure PhSeg (K : Type) where
  x0 : K
  y0 : K
  dx : K
  dy : K
  nx : K
  ny : K

/-- The segment of a uniform number: bin of `np.histogram(rand, cdf_bins)` (geom_impact_poly_fast_impact.py:440).
`cdf` is `phem_cdf`; bins are closed on the left, the last one on both sides. -/
def cdfBin (cdf : List K) (r : K) : ℕ := (cdf.dropLast.filter (fun v => decide (v ≤ r))).length

/-- Positions along the segments (geom_impact_poly_fast_impact.py:442-478). `segOf i` is the segment of the
`i`-th macroparticle in the order in which the code fills the arrays (segment by segment). The recursion over the
points generated outside is the rejection loop. -/
def phPoints (outside : K → K → Bool) (segOf : ℕ → PhSeg K) (n : ℕ) (r0 : ℕ → K) (rounds : List (ℕ → K)) :
    Except PyErr (List (PhSeg K × K × K)) :=
  let gen : PhSeg K → K → K → K × K := fun g r _ => (g.x0 + r * g.dx, g.y0 + r * g.dy)
  rejectLoop outside gen (rounds.map (fun r => (r, r)))
    ((List.range n).map (fun i => (segOf i, gen (segOf i) (r0 i) (r0 i))))

section Floor

variable [FloorRing K]

/-- `photoemission_per_segment.generate` (gen_photoemission_class.py:277-288). The segments of the new
macroparticles are the sorted bins of the draws `seg`. -/
def photoSegGenerate (outside : K → K → Bool) (segs : List (PhSeg K)) (cdf : List K) (vel : ℕ → PhSeg K → K × K × K)
    (kc : K) (mean : Option K) (lam dt u : K) (seg r0 : ℕ → K) (rounds : List (ℕ → K)) (s : MPs K) :
    Except PyErr (MPs K) :=
  let n := photoCount kc mean lam dt s.ref u
  if 0 < n then
    let bins := ((List.range n.toNat).map (fun i => cdfBin cdf (seg i))).insertionSort (· ≤ ·)
    match bins.mapM (fun b => match segs[b]? with | some g => Except.ok g | none => Except.error PyErr.indexError) with
    | .error e => .error e
    | .ok gs =>
      match phPoints outside (fun i => gs.getD i ⟨0, 0, 0, 0, 0, 0⟩) n.toNat r0 rounds with
      | .error e => .error e
      | .ok pts => s.addNew pts.length (fun f => photoSrc s.ref
          (pts.map (fun p => (⟨p.2.1, p.2.2, 0, p.1.nx, p.1.ny, 0⟩ : Hit K))) (pts.mapIdx (fun i p => vel i p.1)) f)
  else .ok s

end Floor

open Real in
/-- Photon trajectory of `photoemission.generate` for one macroparticle (gen_photoemission_class.py:179-202):
reflected or not, uniform or from the inverse CDF `icdf` (np.interp, a parameter); `g` is the normal draw times
`alimit`. -/
noncomputable def photoEnds (refl unif : Bool) (rad x0 : ℝ) (icdf : ℝ → ℝ) (u g : ℝ) : (ℝ × ℝ) × (ℝ × ℝ) :=
  if refl then
    if unif then ((0, 0), (rad * cos (2 * π * u), rad * sin (2 * π * u)))
    else ((x0, 0), (-2 * rad * cos (icdf u) + x0, 2 * rad * sin (icdf u)))
  else ((0, 0), (rad * cos g, rad * sin g))

open Real in
/-- Photon trajectory of `photoemission_from_file.generate` (gen_photoemission_class.py:248-257). -/
noncomputable def photoFileEnds (unif : Bool) (rad : ℝ) (icdf : ℝ → ℝ) (u : ℝ) : (ℝ × ℝ) × (ℝ × ℝ) :=
  let th := if unif then u * 2 * π else icdf u
  ((0, 0), (rad * cos th, rad * sin th))

end PyECLOUD
