import Verif.Model.Yield
import Verif.Model.Impact

/-!
# The test of the surface model at start-up

`extract_sey_curves` and `extract_energy_distributions` (impact_management_class.py:361-474), called by
`pyecloud_saver.start_observing` (pyecloud_saver.py:224-245). The two event types are those of the ECLOUD-type models
(sec_emission_model_ECLOUD.py:86-87); the flag says whether the event is elastic.
-/

namespace PyECLOUD

section general

variable {K : Type} [Field K] [LinearOrder K]

/-- One test impact (impact_management_class.py:375-395): charge 1, at the origin, normal along x, segment 1. -/
def testImpact (sq : K → K) (qe mass ene ct : K) : Impact K :=
  let v := sq (2 * ene * qe / mass) * 1
  { nel := 1, x := 1 * 0, y := 1 * 0, z := 1 * 0, vx := v * ct * 1, vy := v * sq (1 - ct * ct) * 1, vz := 1 * 0, nx := 1, ny := 0,
    seg := 1, vn := v * ct * 1, en := ene * 1, cth := ct * 1 }

/-- One entry of the extracted curve of an event type (impact_management_class.py:400-401). -/
def curvePoint (imps : List (Impact K)) (out : List (K × Bool)) (elast : Bool) : K :=
  ((out.filter (fun q => q.2 == elast)).map (fun q => q.1)).sum / (imps.map (fun i => i.nel)).sum

/-- The points of the double loop, angles outside (impact_management_class.py:369-371). -/
def sweep (cts enes : List K) : List (K × K) := cts.flatMap (fun ct => enes.map (fun e => (ct, e)))

/-- `extract_sey_curves` over a list of points (impact_management_class.py:361-406): the elastic and the true secondary curve.
`proc n s imps` is call number `n` of `SEY_process` in the surface state `s`, `mk` makes the test impact. -/
def extractSey {σ : Type} (proc : ℕ → σ → List (Impact K) → Except PyErr (List (K × Bool) × σ)) (mk : K → K → Impact K) (nRep : ℕ) :
    ℕ → List (K × K) → σ → Except PyErr (List (K × K) × σ)
  | _, [], s => .ok ([], s)
  | n, (ct, e) :: l, s =>
    match proc n s (List.replicate nRep (mk e ct)) with
    | .error x => .error x
    | .ok r =>
      match extractSey proc mk nRep (n + 1) l r.2 with
      | .error x => .error x
      | .ok q => .ok ((curvePoint (List.replicate nRep (mk e ct)) r.1 true,
          curvePoint (List.replicate nRep (mk e ct)) r.1 false) :: q.1, q.2)

variable [FloorRing K]

/-- `extended_event_type` of the ECLOUD-type models (sec_emission_model_ECLOUD.py:212-217), as elastic flags: those of the events,
then those of the added macroparticles. -/
def ecloudTypes (th : K) (evs : List (Impact K × K × Bool)) : List Bool :=
  evs.map (fun e => e.2.2) ++ npRepeat (evs.map (fun e => e.2.2)) (evs.map (fun e => nAdd th e.2.1 e.2.2))

/-- The step of the energy grid `linspace(0, E * factor, n)` (impact_management_class.py:410-412); `[1]` of one point raises. -/
def extractStep (ene factor : K) (n : ℕ) : Except PyErr K :=
  if n < 2 then .error .indexError else .ok (ene * factor / ((n : K) - 1))

/-- One histogram of `extract_energy_distributions` (impact_management_class.py:446-468): the emitted macroparticles of one event
type, each counted once. -/
def extractEne (sq : K → K) (ke ene factor : K) (n : ℕ) (out : SeyOut K) (types : List Bool) (elast : Bool) : Except PyErr (List K) :=
  match extractStep ene factor n with
  | .error x => .error x
  | .ok dE => computeHist 0 dE (List.replicate n 0)
      ((maskSel (out.replace ++ out.new) (types.map (fun t => t == elast))).map (fun e => (e.energy sq ke, 1)))

end general

/-- `SEY_process` of the models with one yield for the whole chamber, as a process without state. -/
noncomputable def uniformProc (yld : ℝ → ℝ → ℝ × ℝ) (u : ℕ → ℕ → ℝ) (n : ℕ) (_ : Unit) (imps : List (Impact ℝ)) :
    Except PyErr (List (ℝ × Bool) × Unit) :=
  .ok (imps.mapIdx (fun k i => seyProcess (yld i.en i.cth) i.nel (u n k)), ())

/-- `SEY_process` of the model with a yield per segment. -/
noncomputable def nunifProc (e0 : ℝ) (segs : List Segment) (u : ℕ → ℕ → ℝ) (n : ℕ) (_ : Unit) (imps : List (Impact ℝ)) :
    Except PyErr (List (ℝ × Bool) × Unit) :=
  match nunifProcess e0 segs (u n) imps with
  | .error x => .error x
  | .ok r => .ok (r, ())

/-- `SEY_process` of the charging model; the state is the charge per area of the segments. -/
noncomputable def chargingProc (qe e0 : ℝ) (segs : List Segment) (u : ℕ → ℕ → ℝ) (n : ℕ) (qs : List ℝ) (imps : List (Impact ℝ)) :
    Except PyErr (List (ℝ × Bool) × List ℝ) := chargingProcess qe e0 segs qs (u n) imps

end PyECLOUD
