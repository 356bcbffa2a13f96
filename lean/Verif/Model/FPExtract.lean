import Verif.Model.Extract
import Verif.Model.FurmanPivi

/-!
# The yield curves of the Furman-Pivi surface at start-up

`extract_sey_curves` (impact_management_class.py:361-406) for a surface with numbered event types
(sec_emission_model_furman_pivi.py:93-98: 0 elastic, 1 true, 2 rediffused, 3 absorbed).
-/

namespace PyECLOUD

variable {K : Type} [Field K] [LinearOrder K]

/-- One entry of the curve of an event type (impact_management_class.py:400-401); `nel`, `codes` are `nel_emit_tot_events`, `event_type`. -/
def typeCurve (imps : List (Impact K)) (nel : List K) (codes : List ℕ) (ty : ℕ) : K :=
  (maskSel nel (codes.map (fun t => t == ty))).sum / (imps.map (fun i => i.nel)).sum

/-- `extract_sey_curves` (impact_management_class.py:361-406) over the points of the double loop, one entry per event type; `proc n`
is call number `n` of `impacts_on_surface`. -/
def extractTypes (proc : ℕ → List (Impact K) → Except PyErr (SeyOut K × List ℕ)) (mk : K → K → Impact K) (nRep : ℕ) (types : List ℕ) :
    ℕ → List (K × K) → Except PyErr (List (List K))
  | _, [] => .ok []
  | n, (ct, e) :: l =>
    match proc n (List.replicate nRep (mk e ct)) with
    | .error x => .error x
    | .ok r =>
      match extractTypes proc mk nRep types (n + 1) l with
      | .error x => .error x
      | .ok q => .ok (types.map (typeCurve (List.replicate nRep (mk e ct)) r.1.nelEmit r.2) :: q)

/-- `extended_event_type` (sec_emission_model_furman_pivi.py:531-536): the types of the events, then those of the added macroparticles. -/
def fpTypes (excl : Bool) (evs : List (FPEvent K)) : List ℕ :=
  evs.map (FPEvent.code excl) ++ npRepeat (evs.map (FPEvent.code excl)) (evs.map FPEvent.nAdd)

/-- One histogram of `extract_energy_distributions` (impact_management_class.py:408-474) for an event type. The selection of no
macroparticles leaves the histogram empty. -/
def extractEneType [FloorRing K] (sq : K → K) (ke ene factor : K) (n : ℕ) (out : SeyOut K) (types : List ℕ) (ty : ℕ) : Except PyErr (List K) :=
  match extractStep ene factor n with
  | .error x => .error x
  | .ok dE =>
    match (maskSel (out.replace ++ out.new) (types.map (fun t => t == ty))).map (fun e => (e.energy sq ke, (1 : K))) with
    | [] => .ok (List.replicate n 0)
    | p :: l => computeHist 0 dE (List.replicate n 0) (p :: l)

end PyECLOUD
