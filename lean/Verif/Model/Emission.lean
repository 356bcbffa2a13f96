import Verif.Model.Np
import Mathlib.Analysis.SpecialFunctions.Trigonometric.Basic
import Mathlib.Analysis.SpecialFunctions.Sqrt

/-!
# Model of electron_emission.py

Random draws are explicit arguments. Loops over draws take the list of rounds that are executed.
-/

namespace PyECLOUD

section Energies

variable {K : Type} [Field K] [LinearOrder K]

/-- One pass of an energy rejection loop (electron_emission.py:71, 86, 251): entries flagged by `bad`
are replaced by a fresh draw (`d i` is the draw for entry `i`). `c` is data attached to the entry. -/
def enRedraw {α : Type} (bad : α → K → Bool) (es : List (α × K)) (d : ℕ → K) : List (α × K) :=
  es.mapIdx (fun i p => if bad p.1 p.2 then (p.1, d i) else p)

/-- `while N_bad > 0: redraw` (electron_emission.py:70-74, 85-89, 250-253). -/
def enReject {α : Type} (bad : α → K → Bool) : List (ℕ → K) → List (α × K) → Except PyErr (List (α × K))
  | rounds, es =>
    if es.all (fun p => !bad p.1 p.2) then .ok es
    else match rounds with
      | [] => .error .stillRunning
      | r :: rs => enReject bad rs (enRedraw bad es r)

/-- Draws of one call of `sec_energy_hilleret_model2`: the lognormal samples of the first draw and of
each round, and the uniform numbers under the square root of line 92 (already square-rooted). -/
structure HillDraws (K : Type) where
  first : ℕ → K
  rounds : List (ℕ → K)
  sqrtU : ℕ → K

/-- `sec_energy_hilleret_model2` (electron_emission.py:63-130). `eImp` are the impact energies; in every
call of the code their number is `Ngen`. Mode 1 raises at line 96; any other value of the switch leaves
`en_eV` undefined (`UnboundLocalError`). -/
def hilleret (switch : ℤ) (eTh thLow : K) (d : HillDraws K) (eImp : List K) : Except PyErr (List K) :=
  if switch = 0 then
    match enReject (fun _ e => decide (eTh < e)) d.rounds (eImp.mapIdx (fun i e => (e, d.first i))) with
    | .error e => .error e
    | .ok r => .ok (r.map (·.2))
  else if switch = 2 then
    -- bad: above min(E_impact, E_th) and not in the low energy range
    let cap : K → K := fun e => if eTh < e then eTh else e
    match enReject (fun eI e => decide (cap eI < e) && !decide (eI < thLow)) d.rounds
        (eImp.mapIdx (fun i e => (e, d.first i))) with
    | .error e => .error e
    | .ok r => .ok (r.mapIdx (fun i p => if p.1 < thLow then p.1 * d.sqrtU i else p.2))
  else if switch = 1 then .error .valueError
  else .error .unbound

/-- `specular_velocity` (electron_emission.py:226-229). -/
def specular (vx vy nx ny vn : K) : K × K := (vx - 2 * vn * nx, vy - 2 * vn * ny)

/-- `_gaussian.__call__` (electron_emission.py:245-254): `g` standard normal draws. -/
def gaussEnergies (sigma mean : K) (n : ℕ) (g : ℕ → K) (rounds : List (ℕ → K)) : Except PyErr (List K) :=
  match enReject (fun (_ : Unit) e => decide (e < 0)) (rounds.map (fun r i => r i * sigma + mean))
      ((List.range n).map (fun i => ((), g i * sigma + mean))) with
  | .error e => .error e
  | .ok r => .ok (r.map (·.2))

/-- `_rect.__call__` (electron_emission.py:257-259). -/
def rectEnergies (sigma mean : K) (n : ℕ) (u : ℕ → K) : List K :=
  (List.range n).map (fun i => mean + (u i - 1 / 2) * sigma)

/-- `_mono.__call__` (electron_emission.py:262-264). -/
def monoEnergies (mean : K) (n : ℕ) : List K := List.replicate n (1 * mean)

end Energies

section Angles

open Real

/-- `_velocities_angle` (electron_emission.py:161-174) for one electron: `c = 2 qe/mass`, `st = sin_theta_p`,
`u` the draw giving the azimuth. -/
noncomputable def velAngle (c en nx ny st u : ℝ) : ℝ × ℝ × ℝ :=
  let v := √(c * en)
  let phi := u * 2 * π
  let ct := √(1 - st ^ 2)
  (v * (ct * nx + st * sin phi * ny), v * (ct * ny - st * sin phi * nx), v * (st * cos phi))

/-- `velocities_angle_cosine_3D` (electron_emission.py:147-149). -/
noncomputable def velCos3D (c en nx ny u0 u1 : ℝ) : ℝ × ℝ × ℝ := velAngle c en nx ny (√u0) u1

/-- `velocities_angle_cosine_2D` (electron_emission.py:154-156). -/
noncomputable def velCos2D (c en nx ny u0 u1 : ℝ) : ℝ × ℝ × ℝ := velAngle c en nx ny u0 u1

/-- `velocities_angle_normal_emission` (electron_emission.py:177-184). -/
noncomputable def velNormal (c en nx ny : ℝ) : ℝ × ℝ × ℝ := (√(c * en) * nx, √(c * en) * ny, 0)

/-- The angle distributions known to `get_angle_dist_func` (electron_emission.py:190-223). -/
inductive AngleDist where
  | cosine3D
  | cosine2D
  | normal
  deriving DecidableEq

/-- `get_angle_dist_func` (electron_emission.py:190-223): any other string raises. -/
def angleDistOf (name : String) : Except PyErr AngleDist :=
  if name = "cosine_3D" then .ok .cosine3D
  else if name = "cosine_2D" then .ok .cosine2D
  else if name = "normal_emission" then .ok .normal
  else .error .valueError

/-- The function returned by `get_angle_dist_func`. -/
noncomputable def AngleDist.vel : AngleDist → ℝ → ℝ → ℝ → ℝ → ℝ → ℝ → ℝ × ℝ × ℝ
  | .cosine3D => velCos3D
  | .cosine2D => velCos2D
  | .normal => fun c en nx ny _ _ => velNormal c en nx ny

end Angles

end PyECLOUD
