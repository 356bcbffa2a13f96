import Verif.Model.Sources

/-!
# Construction of the photoemission

`photoemission.__init__` and `photoemission_from_file.__init__` of `gen_photoemission_class.py`: the source of the reflected photons and
the checks of the radius to which photons are sent. Left out: reading of the file, choice of the energy and angle distributions
(Emission), the warning for chambers that are not convex.
-/

namespace PyECLOUD

/-- `x0_refl`: `'left'`, `'right'` or a position. -/
inductive X0Refl where
  | left
  | right
  | at (x : ℝ)

/-- The source of the reflected photons (gen_photoemission_class.py:134-145): for `'left'` and `'right'` the impact point of a
trajectory from the origin to three radii on that side; `ch` is the chamber with `resc_fac=0.99999`. -/
noncomputable def photoX0 (ch : Chamber ℝ) (rad : ℝ) : X0Refl → Except PyErr ℝ
  | .left =>
    match ch.hit (0, 0, 0) (3 * -rad, 0, 0) with
    | .error e => .error e
    | .ok h => .ok h.x
  | .right =>
    match ch.hit (0, 0, 0) (3 * rad, 0, 0) with
    | .error e => .error e
    | .ok h => .ok h.x
  | .at x => .ok x

/-- `np.linspace(0, 2.*np.pi, 10000)[k]`. -/
noncomputable def psiGen (k : ℕ) : ℝ := k * (2 * Real.pi / 9999)

/-- `photoemission.__init__` (gen_photoemission_class.py:131-164): returns `x0_refl`. -/
noncomputable def photoInit (ch : Chamber ℝ) (rad : ℝ) (x0 : X0Refl) (y0 : ℝ) : Except PyErr ℝ :=
  if y0 ≠ 0 then .error .valueError
  else
    match photoX0 ch rad x0 with
    | .error e => .error e
    | .ok x =>
      if ch.outside x y0 then .error .valueError
      else if (List.range 10000).any (fun k => !ch.outside (-2 * rad * Real.cos (psiGen k) + x) (2 * rad * Real.sin (psiGen k))) then
        .error .valueError
      else if (List.range 10000).any (fun k => !ch.outside (rad * Real.cos (psiGen k)) (rad * Real.sin (psiGen k))) then
        .error .valueError
      else .ok x

/-- `photoemission_from_file.__init__` (gen_photoemission_class.py:211-240): the radius is stored without a check. -/
def photoFileInit (_ch : Chamber ℝ) (rad : ℝ) : Except PyErr ℝ := .ok rad

end PyECLOUD
