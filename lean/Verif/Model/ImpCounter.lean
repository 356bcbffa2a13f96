import Verif.Model.SimStep

/-!
# Model of the impact counter of the chamber

`chamb.N_mp_impact` is set to zero when the chamber is built and increased by the number of trajectories in every call of
`impact_point_and_normal`. There is one chamber for all clouds; its method is called for the macroparticles of a cloud that are
found outside and for the photoelectrons generated from photon directions. The saver of every cloud appends the value of the counter
at every passage.
-/

namespace PyECLOUD

variable {K : Type} [Field K] [LinearOrder K] [FloorRing K]

/-- Number of trajectories handed to `chamb.impact_point_and_normal` by one operation (impact_management_class.py:216-238,
gen_photoemission_class.py:80-85; the counting is geom_impact_poly_fast_impact.py:171, geom_impact_poly.py:154,
geom_impact_ellip.py:83). The photoemission from segments generates its points without such a search. -/
def SimOp.searches (S : SimCfg K) (st : SimSt K) : SimOp K → ℕ
  | .track i step _ _ =>
    match st.clouds[i]? with
    | none => 0
    | some c => countTrue ((c.mps.push step).impactMask S.ch.outside)
  | .rays i lam dt u _ _ =>
    match S.photo i, st.clouds[i]? with
    | .rays kc mean, some c => (photoCount kc mean lam dt c.mps.ref u).toNat
    | _, _ => 0
  | _ => 0

/-- `simRun` together with the counter. -/
def simRunN (S : SimCfg K) : List (SimOp K) → SimSt K × ℕ → Except PyErr (SimSt K × ℕ)
  | [], p => .ok p
  | op :: ops, p =>
    match op.apply S p.1 with
    | .error e => .error e
    | .ok st' => simRunN S ops (st', p.2 + op.searches S p.1)

/-- The time steps with the counter and what the saver of every cloud appends to `N_mp_impact_pass` at the passages
(pyecloud_saver.py:407; buildup_simulation.py:215-225). Cleaning and regeneration, which come after the saving, make no searches, so
the value at the end of the step is the value saved. -/
def countRun (S : SimCfg K) : List (StepIn K) → SimSt K × ℕ → Except PyErr (List ℕ × (SimSt K × ℕ))
  | [], p => .ok ([], p)
  | inp :: l, p =>
    match simRunN S (inp.ops S p.1.clouds.length) p with
    | .error e => .error e
    | .ok p' =>
      match countRun S l p' with
      | .error e => .error e
      | .ok (r, q) => .ok (if inp.newPass then p'.2 :: r else r, q)

end PyECLOUD
