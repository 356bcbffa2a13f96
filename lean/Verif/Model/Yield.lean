import Verif.Model.Sey
import Verif.Model.Hist
import Mathlib.Analysis.SpecialFunctions.Pow.Real
import Mathlib.Analysis.SpecialFunctions.Exp

/-!
# Models of the secondary yield functions

sec_emission_model_ECLOUD.py, sec_emission_model_ECLOUD_nunif.py, sec_emission_model_accurate_low_ene.py,
sec_emission_model_cos_low_ener.py, sec_emission_model_flat_low_ener.py and
sec_emission_model_from_file.py. All functions are elementwise; they are given for one impact. A division by
zero, which numpy turns into `nan` or `inf`, is 0 here: the theorems assume or prove that it does not occur.
-/

namespace PyECLOUD

section real

open Real

/-- Parameters of the ECLOUD yield (sec_emission_model_ECLOUD.py:59). The models in other files have
`s = 1.35` and both angular flags on. -/
structure YieldPar where
  eMax : ℝ
  delMax : ℝ
  r0 : ℝ
  e0 : ℝ
  s : ℝ
  scale : Bool
  shift : Bool

/-- `true_sec` (sec_emission_model_ECLOUD.py:61-73). -/
noncomputable def yieldTrue (p : YieldPar) (e cth : ℝ) : ℝ :=
  let del := if p.scale then p.delMax * exp (0.5 * (1 - cth)) else p.delMax
  let em := if p.shift then p.eMax * (1 + 0.7 * (1 - cth)) else p.eMax
  let x := e / em
  del * (p.s * x) / (p.s - 1 + x ^ p.s)

/-- `reflected` (sec_emission_model_ECLOUD.py:74). -/
noncomputable def yieldRefl (p : YieldPar) (e : ℝ) : ℝ :=
  p.r0 * ((√e - √(e + p.e0)) / (√e + √(e + p.e0))) ^ 2

/-- `ref_frac` with the mask on a non-zero yield (sec_emission_model_ECLOUD.py:77-79). -/
noncomputable def maskedFrac (refl delta : ℝ) : ℝ := if 0 < delta then refl / delta else 0 * delta

/-- `yield_fun2` (sec_emission_model_ECLOUD.py:59-81): `(delta, ref_frac)`. -/
noncomputable def yieldECLOUD (p : YieldPar) (e cth : ℝ) : ℝ × ℝ :=
  let delta := yieldTrue p e cth + yieldRefl p e
  (delta, maskedFrac (yieldRefl p e) delta)

/-- `SEY_process` shared by most models (sec_emission_model_ECLOUD.py:123-132, sec_emission_model_cos_low_ener.py:104-110,
sec_emission_model_flat_low_ener.py:104-110, sec_emission_model_from_file.py:175-182): emitted charge and elastic
flag, for a yield function and a draw `u`. -/
noncomputable def seyProcess (yld : ℝ × ℝ) (nel u : ℝ) : ℝ × Bool := (nel * yld.1, decide (u < yld.2))

/-- `SEY_model_acc_low_ene.SEY_process` (sec_emission_model_accurate_low_ene.py:101-114). -/
noncomputable def accProcess (p : YieldPar) (e cth nel u : ℝ) : ℝ × Bool :=
  let beta := yieldTrue p e cth / (1 - yieldRefl p e)
  if u < yieldRefl p e then (nel, true) else (nel * beta, false)

/-- `reflected` of the cosine model (sec_emission_model_cos_low_ener.py:68-70). -/
noncomputable def cosRefl (p : YieldPar) (e : ℝ) : ℝ :=
  if e < p.e0 then p.r0 * cos (0.5 * π * e / p.e0) ^ 2 else 0

/-- `yield_fun2` of the cosine model (sec_emission_model_cos_low_ener.py:58-76). -/
noncomputable def yieldCos (p : YieldPar) (e cth : ℝ) : ℝ × ℝ :=
  let delta := yieldTrue p e cth + cosRefl p e
  (delta, cosRefl p e / delta)

/-- `yield_fun2` of the flat model (sec_emission_model_flat_low_ener.py:58-77). `delta = true_sec` binds a
second name to the same array, so the assignment at line 73 changes `true_sec` as well and `reflected` is the
difference of the array with itself. -/
noncomputable def yieldFlat (p : YieldPar) (e cth : ℝ) : ℝ × ℝ :=
  let trueSec := yieldTrue p e cth
  let changed := if trueSec < p.r0 ∧ e < p.eMax then p.r0 else trueSec
  let reflected := changed - changed
  (changed, reflected / changed)

/-! ### non-uniform parameters -/

/-- One chamber segment as read from the chamber file (sec_emission_model_ECLOUD_nunif.py:102-104 and
143-146), with its length `L_edg`. -/
structure Segment where
  delMax : ℝ
  r0 : ℝ
  eMax : ℝ
  charging : Bool
  qMax : ℝ
  eq : ℝ
  tau : ℝ
  len : ℝ

/-- Negative values stand for the global parameter (sec_emission_model_ECLOUD_nunif.py:106-108). -/
noncomputable def Segment.fill (delMax r0 eMax : ℝ) (g : Segment) : Segment :=
  { g with delMax := if g.delMax < 0 then delMax else g.delMax,
           r0 := if g.r0 < 0 then r0 else g.r0,
           eMax := if g.eMax < 0 then eMax else g.eMax }

/-- The parameters used by `yield_fun2` for a segment (sec_emission_model_ECLOUD_nunif.py:59-76, 116-118). -/
noncomputable def Segment.par (e0 : ℝ) (g : Segment) : YieldPar := ⟨g.eMax, g.delMax, g.r0, e0, 1.35, true, true⟩

/-- Yield in `SEY_model_ECLOUD_non_unif.SEY_process` (sec_emission_model_ECLOUD_nunif.py:116-120). -/
noncomputable def yieldNunif (e0 : ℝ) (segs : List Segment) (i : Impact ℝ) : Except PyErr (ℝ × ℝ) :=
  match pyGet segs i.seg with
  | .error e => .error e
  | .ok g => .ok (yieldECLOUD (g.par e0) i.en i.cth)

/-- `SEY_model_ECLOUD_non_unif.SEY_process` (sec_emission_model_ECLOUD_nunif.py:114-125). -/
noncomputable def nunifProcess (e0 : ℝ) (segs : List Segment) (u : ℕ → ℝ) (imps : List (Impact ℝ)) :
    Except PyErr (List (ℝ × Bool)) :=
  match imps.mapM (yieldNunif e0 segs) with
  | .error e => .error e
  | .ok ys => .ok ((imps.zip ys).mapIdx (fun k q => seyProcess q.2 q.1.nel (u k)))

/-- The charge clamped between zero and the maximum (sec_emission_model_ECLOUD_nunif.py:163-164). -/
noncomputable def clampQ (q qMax : ℝ) : ℝ :=
  let q1 := if q < 0 then 0 else q
  if qMax < q1 then qMax else q1

/-- Yield of the charging model for an impact on segment `g` with charge `q`
(sec_emission_model_ECLOUD_nunif.py:155-166). -/
noncomputable def yieldCharge (e0 : ℝ) (g : Segment) (q : ℝ) (e cth : ℝ) : ℝ × ℝ :=
  let y := yieldECLOUD (g.par e0) e cth
  if g.charging then
    (y.1 * (1 - clampQ q g.qMax / g.qMax) + (1 - exp (-e / g.eq)) * (clampQ q g.qMax / g.qMax), y.2)
  else y

/-- Segment and charge per area at the hit edge (sec_emission_model_ECLOUD_nunif.py:151-161). -/
noncomputable def chargeAt (e0 : ℝ) (segs : List Segment) (qs : List ℝ) (i : Impact ℝ) : Except PyErr (ℝ × ℝ) :=
  match pyGet (segs.zip qs) i.seg with
  | .error e => .error e
  | .ok g => .ok (yieldCharge e0 g.1 g.2 i.en i.cth)

/-- `SEY_model_ECLOUD_non_unif_charging.SEY_process` (sec_emission_model_ECLOUD_nunif.py:149-185): emitted
charges and elastic flags, and the new charge per area of every segment. `qe` is the elementary charge. -/
noncomputable def chargingProcess (qe e0 : ℝ) (segs : List Segment) (qs : List ℝ) (u : ℕ → ℝ)
    (imps : List (Impact ℝ)) : Except PyErr (List (ℝ × Bool) × List ℝ) :=
  match imps.mapM (chargeAt e0 segs qs) with
  | .error e => .error e
  | .ok ys =>
    let evs := (imps.zip ys).mapIdx (fun k q => seyProcess q.2 q.1.nel (u k))
    .ok (evs, (segs.zip qs).mapIdx (fun k g =>
      if g.1.charging then
        let here := (imps.zip evs).filter (fun q => decide (q.1.seg = (k : ℤ)))
        g.2 + ((here.map (fun q => q.1.nel)).sum - (here.map (fun q => q.2.1)).sum) * (-qe) / g.1.len
      else g.2))

/-- `SEY_model_evol` (sec_emission_model_ECLOUD_nunif.py:187-189). -/
noncomputable def chargeEvol (segs : List Segment) (dt : ℝ) (qs : List ℝ) : List ℝ :=
  (segs.zip qs).map (fun g => if g.1.charging ∧ 0 < g.1.tau then g.2 * exp (-dt / g.1.tau) else g.2)

/-- What can happen to a charging surface: a batch of impacts (with its draws) or the end of a time step. -/
inductive ChargeOp where
  | impacts (u : ℕ → ℝ) (imps : List (Impact ℝ))
  | evol (dt : ℝ)

/-- A history of the charging model; the charges start at zero (sec_emission_model_ECLOUD_nunif.py:142). -/
noncomputable def chargeRun (qe e0 : ℝ) (segs : List Segment) : List ChargeOp → List ℝ → Except PyErr (List ℝ)
  | [], qs => .ok qs
  | .impacts u imps :: ops, qs =>
    match chargingProcess qe e0 segs qs u imps with
    | .error e => .error e
    | .ok r => chargeRun qe e0 segs ops r.2
  | .evol dt :: ops, qs => chargeRun qe e0 segs ops (chargeEvol segs dt qs)

end real

/-! ### tabulated yields -/

section table

variable {K : Type} [Field K] [LinearOrder K] [FloorRing K]

/-- `np.round(x, 3)`. -/
def round3 (x : K) : K := ((roundHE (x * 1000) : ℤ) : K) / 1000

/-- The object built by `SEY_model_from_file.__init__` (sec_emission_model_from_file.py:103-136); the
differences `sey_true_diff` are recomputed where used. -/
structure SeyTable (K : Type) where
  eMin : K
  eMax : K
  dE : K
  true' : List K
  elast : List K
  constTrue : K
  gradTrue : K
  constElast : K
  gradElast : K
  scale : Bool
  shift : Bool

/-- The check on the energy grid and the derived grid parameters (sec_emission_model_from_file.py:113-116,
130-132). An unequal spacing raises; `sey_file_real` in the message is only bound when the name of a file was
given (dictionary input: `UnboundLocalError`, reported here as `ValueError` too). -/
def seyTableOf (energies true' elast : List K) (cT gT cE gE : K) (scale shift : Bool) : Except PyErr (SeyTable K) :=
  let diffs := (List.zipWith (fun a b => b - a) energies energies.tail).map round3
  match diffs with
  | [] => .error .indexError
  | d :: ds =>
    if (d :: ds).any (fun e => decide (e ≠ d)) then .error .valueError
    else
      match energies with
      | [] => .error .indexError
      | e0 :: es => .ok ⟨es.foldl min e0, es.foldl max e0, d, true', elast, cT, gT, cE, gE, scale, shift⟩

/-- `interp` for one column (sec_emission_model_from_file.py:184-191), `sey_diff` being `np.diff` with a
zero appended (lines 118-121). -/
def tabInterp (t : SeyTable K) (col : List K) (e : K) : Except PyErr K :=
  let f := (e - t.eMin) / t.dE
  let i := truncZ f
  let r := f - (i : K)
  match pyGet col i with
  | .error e => .error e
  | .ok a =>
    match pyGet (List.zipWith (fun a b => b - a) col col.tail ++ [0]) i with
    | .error e => .error e
    | .ok d => .ok (a + r * d)

/-- Tabulated value with extrapolation beyond the last energy (sec_emission_model_from_file.py:143-148). -/
def tabValue (t : SeyTable K) (col : List K) (c g e : K) : Except PyErr K :=
  if t.eMax < e then .ok (c + g * e) else tabInterp t col e

/-- negative values are removed (sec_emission_model_from_file.py:164-165) -/
def tabClip (d : K) : K := if d < 1 / 10000000000 then 0 else d

/-- `SEY_values` (sec_emission_model_from_file.py:138-173) for one impact; `expf` is the exponential. -/
def seyValues (expf : K → K) (t : SeyTable K) (e cth : K) : Except PyErr (K × K) :=
  match tabValue t t.true' t.constTrue t.gradTrue e with
  | .error er => .error er
  | .ok dt0 =>
    match tabValue t t.elast t.constElast t.gradElast e with
    | .error er => .error er
    | .ok de0 =>
      match (if t.shift then tabValue t t.true' t.constTrue t.gradTrue (e / (1 + 7 / 10 * (1 - cth))) else .ok dt0) with
      | .error er => .error er
      | .ok dt1 =>
        let dt2 := if t.scale then dt1 * expf (1 / 2 * (1 - cth)) else dt1
        let delta := tabClip dt2 + tabClip de0
        .ok (delta, if 0 < delta then tabClip de0 / delta else 0 * delta)

end table

end PyECLOUD
