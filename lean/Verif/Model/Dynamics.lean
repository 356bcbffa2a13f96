import Verif.Model.Grid
import Verif.Model.MPSystem
import Mathlib.Analysis.SpecialFunctions.Trigonometric.Basic
import Mathlib.Analysis.SpecialFunctions.Sqrt

/-!
# Model of the trackers

`boris_c_function.c`, `boris_step.f`, `dynamics_Boris_f2py.py`, `dynamics_Boris_multipole.py`,
`dynamics_dipole.py`, `dynamics_strong_B_generalized.py` and the choice of the tracker in `init.py`.
-/

namespace PyECLOUD

/-- Position and velocity of one macroparticle (the six arrays every tracker reads and writes). -/
@[ext] structure Phase (K : Type) where
  x : K
  y : K
  z : K
  vx : K
  vy : K
  vz : K

/-- A field value at one macroparticle. -/
@[ext] structure V3 (K : Type) where
  x : K
  y : K
  z : K
  deriving DecidableEq

section field
variable {K : Type} [Field K]

/-- Body of the particle loop of `boris_step` (boris_step.f, "do p=1,N_mp") and of the sub-step loop of
`boris_c` (boris_c_function.c:68-97), where the longitudinal electric field is absent (`e.z = 0`). -/
def borisKick (qm dtt : K) (e b : V3 K) (p : Phase K) : Phase K :=
  let tBx := 1 / 2 * qm * dtt * b.x
  let tBy := 1 / 2 * qm * dtt * b.y
  let tBz := 1 / 2 * qm * dtt * b.z
  let tBsq := tBx * tBx + tBy * tBy + tBz * tBz
  let sBx := 2 * tBx / (1 + tBsq)
  let sBy := 2 * tBy / (1 + tBsq)
  let sBz := 2 * tBz / (1 + tBsq)
  let vxMin := p.vx + 1 / 2 * qm * e.x * dtt
  let vyMin := p.vy + 1 / 2 * qm * e.y * dtt
  let vzMin := p.vz + 1 / 2 * qm * e.z * dtt
  let vxPrime := vyMin * tBz - vzMin * tBy + vxMin
  let vyPrime := vzMin * tBx - vxMin * tBz + vyMin
  let vzPrime := vxMin * tBy - vyMin * tBx + vzMin
  let vxPlus := vyPrime * sBz - vzPrime * sBy + vxMin
  let vyPlus := vzPrime * sBx - vxPrime * sBz + vyMin
  let vzPlus := vxPrime * sBy - vyPrime * sBx + vzMin
  let vx := vxPlus + 1 / 2 * qm * e.x * dtt
  let vy := vyPlus + 1 / 2 * qm * e.y * dtt
  let vz := vzPlus + 1 / 2 * qm * e.z * dtt
  { x := p.x + vx * dtt, y := p.y + vy * dtt, z := p.z + vz * dtt, vx := vx, vy := vy, vz := vz }

/-- The sub-step loop: `for ii in range(N_sub_steps)` (dynamics_Boris_f2py.py:182-185, 213-216) and
`for (isub=0; isub<N_sub_steps; isub++)` (boris_c_function.c:39). The magnetic field is evaluated anew at
the current position, the electric field is kept. -/
def borisSub (qm dtt : K) (e : V3 K) (getB : K → K → V3 K) : ℕ → Phase K → Phase K
  | 0, p => p
  | n + 1, p => borisSub qm dtt e getB n (borisKick qm dtt e (getB p.x p.y) p)

/-- phase of slot `i` -/
def MPs.phase (s : MPs K) (i : ℕ) : Phase K where
  x := (s.arr .x).getD i 0
  y := (s.arr .y).getD i 0
  z := (s.arr .z).getD i 0
  vx := (s.arr .vx).getD i 0
  vy := (s.arr .vy).getD i 0
  vz := (s.arr .vz).getD i 0

/-- Write back `MP_e.x_mp[0:MP_e.N_mp] = xn1` and the same for the other five arrays
(dynamics_Boris_f2py.py:187-192, dynamics_dipole.py:95-100, dynamics_strong_B_generalized.py:188-193; in
place in `boris_c`, boris_c_function.c:100-106). `step i` moves slot `i`; with no live particle nothing
happens (`if MP_e.N_mp > 0`). -/
def MPs.push (s : MPs K) (step : ℕ → Phase K → Phase K) : MPs K :=
  if s.nmp > 0 then
    let ph := (List.range s.nmp).map (fun i : ℕ => step i (s.phase i))
    { s with
      arr := fun f =>
        match f with
        | .x => setPrefix (s.arr .x) (ph.map (·.x))
        | .y => setPrefix (s.arr .y) (ph.map (·.y))
        | .z => setPrefix (s.arr .z) (ph.map (·.z))
        | .vx => setPrefix (s.arr .vx) (ph.map (·.vx))
        | .vy => setPrefix (s.arr .vy) (ph.map (·.vy))
        | .vz => setPrefix (s.arr .vz) (ph.map (·.vz))
        | f => s.arr f }
  else s

/-- Electric field arrays, one entry per live particle (`Ex_n`, `Ey_n`, `Ez_n`). -/
structure EArr (K : Type) where
  ex : List K
  ey : List K
  ez : List K

/-- the field at particle `i` -/
def EArr.at (e : EArr K) (i : ℕ) : V3 K := ⟨e.ex.getD i 0, e.ey.getD i 0, e.ez.getD i 0⟩

end field

section maps
variable {K : Type} [Field K] [LinearOrder K] [FloorRing K]

/-- The three magnetic field objects of `pusher_Boris` (dynamics_Boris_f2py.py:67-134): `none`,
analytic quadrupole (`fact_Bmap`), or a map from file with the scaling already applied. The map is given
by its number of nodes, origin, steps and values as functions of the 1-based indices. -/
inductive BSrc (K : Type) where
  | none
  | quad (fact : K)
  | file (nx ny : ℕ) (xmin ymin dx dy : K) (bx yb : ℕ → ℕ → K) (bz : Option (ℕ → ℕ → K))

/-- `get_B` of `B_none` (dynamics_Boris_f2py.py:74-78), `B_quad` (89-95), `B_file` (122-134). -/
def BSrc.getB (src : BSrc K) (b0 : V3 K) (x y : K) : V3 K :=
  match src with
  | .none => ⟨0 * x + b0.x, 0 * x + b0.y, 0 * x + b0.z⟩
  | .quad fact => ⟨fact * y + b0.x, fact * x + b0.y, 0 * x + b0.z⟩
  | .file nx ny xmin ymin dx dy bx yb bz =>
    ⟨intField nx ny xmin ymin dx dy bx x y + b0.x, intField nx ny xmin ymin dx dy yb x y + b0.y,
      (match bz with
        | some m => intField nx ny xmin ymin dx dy m x y
        | Option.none => 0 * x) + b0.z⟩

/-- `pusher_Boris.stepcustomDt` (dynamics_Boris_f2py.py:196-225); `qm` is `charge/mass` of the cloud.
The scalar test `Ez_n == 0.` (210) is left to the caller: `e.ez` is the array handed to `boris_step`.
The arguments `Bx_n, By_n, Bz_n` are overwritten before use. -/
def borisCustomDt (src : BSrc K) (b0 : V3 K) (qm : K) (s : MPs K) (e : EArr K) (dtSub : K) (nSub : ℕ) :
    MPs K :=
  s.push (fun i => borisSub qm dtSub (e.at i) (src.getB b0) nSub)

/-- `pusher_Boris.step` (dynamics_Boris_f2py.py:165-194) with `Dtt = Dt / float(N_sub_steps)` (146). -/
def borisStep (src : BSrc K) (b0 : V3 K) (qm dt : K) (nSub : ℕ) (s : MPs K) (e : EArr K) : MPs K :=
  s.push (fun i => borisSub qm (dt / (nSub : K)) (e.at i) (src.getB b0) nSub)

end maps

section multipole
variable {K : Type} [Field K] [LinearOrder K]

/-- `np.array(l) / factorial` for arrays of the same length (dynamics_Boris_multipole.py:76-81). -/
def factDivFrom (i : ℕ) : List K → List K
  | [] => []
  | b :: l => b / (i.factorial : K) :: factDivFrom (i + 1) l

/-- `pusher_Boris_multipole.__init__` (dynamics_Boris_multipole.py:71-81): the field coefficients and the
skew coefficients. `np.array(B_skew) / factorial` broadcasts: equal lengths, a single skew coefficient,
or a single normal coefficient (the factorial array is then `[1.]`); anything else raises. -/
def multipoleInit (bMultip bSkew : Option (List K)) : Except PyErr (List K × List K) :=
  let bm := match bMultip with
    | none => [0]
    | some [] => [0]
    | some l => l
  match bSkew with
  | none => .ok (factDivFrom 0 bm, List.replicate bm.length 0)
  | some sk =>
    if sk.length = bm.length then .ok (factDivFrom 0 bm, factDivFrom 0 sk)
    else if sk.length = 1 then
      .ok (factDivFrom 0 bm, factDivFrom 0 (List.replicate bm.length (sk.getD 0 0)))
    else if bm.length = 1 then .ok (factDivFrom 0 bm, sk.map (fun v => v / ((0 : ℕ).factorial : K)))
    else .error .valueError

/-- The loop over the orders (boris_c_function.c:47-60); `re, im` are `rexy, imxy`, the pairs are
`(B_field[order], B_skew[order])`; returns `(Bx_n, By_n)`. -/
def multipoleLoop (x y : K) : List (K × K) → K → K → K → K → K × K
  | [], _, _, bx, bY => (bx, bY)
  | (b, s) :: l, re, im, bx, bY =>
    let re' := re * x - im * y
    let im' := im * x + re * y
    multipoleLoop x y l re' im' (bx + (b * im' + s * re')) (bY + (b * re' - s * im'))

/-- The magnetic field at one particle (boris_c_function.c:41-66). `N_multipoles = len(B_field)`; the skew
array is never shorter than that (`multipoleInit`), except for an empty skew list with one normal
coefficient, where the C code reads one entry outside the array and the model reads zero. -/
def multipoleField (bf bs : List K) (custom : Option (V3 K)) (x y : K) : V3 K :=
  let r := multipoleLoop x y ((bf.drop 1).zip (bs.drop 1)) 1 0 (bs.getD 0 0) (bf.getD 0 0)
  match custom with
  | none => ⟨r.1, r.2, 0⟩
  | some c => ⟨r.1 + c.x, r.2 + c.y, 0 + c.z⟩

/-- Optional uniform field (`B0x, B0y, B0z`) and optional per-particle arrays (`Bx_n, By_n, Bz_n`). -/
structure CustomB (K : Type) where
  b0x : Option K := none
  b0y : Option K := none
  b0z : Option K := none
  bx : Option (List K) := none
  yb : Option (List K) := none
  bz : Option (List K) := none

/-- `custom_B` and the accumulated arrays (dynamics_Boris_multipole.py:101-124). -/
def CustomB.at (c : CustomB K) (i : ℕ) : Option (V3 K) :=
  if c.b0x.isSome || c.b0y.isSome || c.b0z.isSome || c.bx.isSome || c.yb.isSome || c.bz.isSome then
    some ⟨c.b0x.getD 0 + (c.bx.map (·.getD i 0)).getD 0, c.b0y.getD 0 + (c.yb.map (·.getD i 0)).getD 0,
      c.b0z.getD 0 + (c.bz.map (·.getD i 0)).getD 0⟩
  else none

/-- `pusher_Boris_multipole.stepcustomDt` (dynamics_Boris_multipole.py:97-142) with a scalar `Ez_n`. -/
def multipoleCustomDt (bf bs : List K) (c : CustomB K) (qm : K) (s : MPs K) (ex ey : List K) (ez : K)
    (dtSub : K) (nSub : ℕ) : Except PyErr (MPs K) :=
  if s.nmp > 0 ∧ ez ≠ 0 then .error .valueError
  else .ok (s.push (fun i =>
    borisSub qm dtSub ⟨ex.getD i 0, ey.getD i 0, 0⟩ (multipoleField bf bs (c.at i)) nSub))

/-- `pusher_Boris_multipole.step` (dynamics_Boris_multipole.py:91-95). -/
def multipoleStep (bf bs : List K) (c : CustomB K) (qm dt : K) (nSub : ℕ) (s : MPs K) (ex ey : List K)
    (ez : K) : Except PyErr (MPs K) :=
  multipoleCustomDt bf bs c qm s ex ey ez (dt / (nSub : K)) nSub

end multipole

noncomputable section strong

/-- `sincc` (sincc_cosincc_cubsincc.py:56-64). -/
def sincc (x : ℝ) : ℝ := if |x| < 1 / 10000 then 1 else Real.sin x / x

/-- `cosincc` (sincc_cosincc_cubsincc.py:67-74). -/
def cosincc (x : ℝ) : ℝ := if |x| < 1 / 10000 then 1 / 2 else (1 - Real.cos x) / (x * x)

/-- `cubsincc` (sincc_cosincc_cubsincc.py:77-84). -/
def cubsincc (x : ℝ) : ℝ := if |x| < 1 / 10000 then 1 / 6 else (x - Real.sin x) / (x * x * x)

/-- `pusher_dipole_magnet.step` for one particle (dynamics_dipole.py:85-93); `qm` is the positive
`qe/me` of the module. -/
def dipoleMove (qm b dt : ℝ) (e : V3 ℝ) (p : Phase ℝ) : Phase ℝ :=
  let om := b * qm
  let sc := sincc (om * dt)
  let cc := cosincc (om * dt)
  let cu := cubsincc (om * dt)
  let sn := Real.sin (om * dt)
  let cs := Real.cos (om * dt)
  { x := p.x + p.vx * sc * dt + p.vz * cc * om * dt * dt - qm * e.x * cc * dt * dt
    y := p.y + p.vy * dt - 1 / 2 * qm * e.y * dt * dt
    z := p.z + p.vz * sc * dt - p.vx * cc * om * dt * dt + qm * e.x * cu * om * dt * dt * dt
    vx := p.vx * cs + p.vz * sn - qm * e.x * sc * dt
    vy := p.vy - qm * e.y * dt
    vz := p.vz * cs - p.vx * sn + qm * e.x * cc * om * dt * dt }

/-- `pusher_dipole_magnet.step` on the cloud (dynamics_dipole.py:75-102). -/
def dipoleStep (qm b dt : ℝ) (s : MPs ℝ) (ex ey : List ℝ) : MPs ℝ :=
  s.push (fun i => dipoleMove qm b dt ⟨ex.getD i 0, ey.getD i 0, 0⟩)

/-- `pusher_strong_B_generalized.step` for one particle in the field `(bx, by)` (dynamics_strong_B_generalized.py:143-186). -/
def strongMove (qm thr dt : ℝ) (e : V3 ℝ) (bx bY : ℝ) (p : Phase ℝ) : Phase ℝ :=
  let bMod0 := Real.sqrt (bx * bx + bY * bY)
  let flagZero : Prop := bMod0 < thr
  open Classical in
  let bMod := if flagZero then 1 else bMod0
  let om := bMod * qm
  let sn := Real.sin (om * dt)
  let cs := Real.cos (om * dt)
  let vB := (p.vx * bY - p.vy * bx) / bMod
  let eB := (e.x * bY - e.y * bx) / (bMod * bMod)
  let dz := p.vz * sn / om + vB * cs / om + eB * (dt - sn / om) - vB / om
  let dzt := (p.vz * (1 - cs) + vB * sn) / (om * om)
    + eB * (dt * dt / 2 + (cs - 1) / (om * om)) - vB * dt / om
  open Classical in
  if flagZero then
    { x := p.x + p.vx * dt - 1 / 2 * qm * e.x * dt * dt
      y := p.y + p.vy * dt - 1 / 2 * qm * e.y * dt * dt
      z := p.z + p.vz * dt
      vx := p.vx - qm * e.x * dt
      vy := p.vy - qm * e.y * dt
      vz := p.vz }
  else
    { x := p.x + p.vx * dt - qm * (e.x * dt * dt / 2 - bY * dzt)
      y := p.y + p.vy * dt - qm * (e.y * dt * dt / 2 + bx * dzt)
      z := p.z + dz
      vx := p.vx - qm * (e.x * dt - bY * dz)
      vy := p.vy - qm * (e.y * dt + bx * dz)
      vz := p.vz * cs - vB * sn + eB * (1 - cs) }

/-- `pusher_strong_B_generalized.step` on the cloud (dynamics_strong_B_generalized.py:115-195). The field
comes from a map, the analytic quadrupole or zero, plus `B0x, B0y` (124-136); `src` has no `Bz`. The
identity test `B_map_file is '...'` is read as equality. -/
def strongStep (src : BSrc ℝ) (b0x b0y qm thr dt : ℝ) (s : MPs ℝ) (ex ey : List ℝ) : MPs ℝ :=
  s.push (fun i p =>
    let b := src.getB ⟨b0x, b0y, 0⟩ p.x p.y
    strongMove qm thr dt ⟨ex.getD i 0, ey.getD i 0, 0⟩ b.x b.y p)

end strong

/-! ## Choice of the tracker -/

/-- The tracker of a cloud (init.py:484-516), with the settings that reach its constructor. -/
inductive Tracker (K : Type) where
  | boris (b0 : V3 K) (nSub : ℕ)
  | dipole (b : K)
  | strong (b0x b0y : Option K)
  | multipole (nSub : ℕ)
  deriving DecidableEq

/-- What the selection reads from the main configuration `cc` and from the cloud. -/
structure TrackCfg (K : Type) where
  method : String
  em : Bool
  b0x : Option K
  b0y : Option K
  b0z : Option K
  /-- `cc.B`; `-1` asks for the bending field of the ring, given here as `bRing` -/
  b : K
  bRing : K
  nSub : ℕ
  cloudCharge : K
  cloudMass : K
  cloudNSub : ℕ

/-- Tracker selection (init.py:484-516). -/
def initTracker {K : Type} [Field K] [LinearOrder K] (qe me : K) (c : TrackCfg K) :
    Except PyErr (Tracker K) :=
  let isElectron : Prop :=
    |c.cloudCharge - (-qe)| / |qe| < 1 / 1000 ∧ |c.cloudMass - me| / me < 1 / 1000
  if c.method = "Boris" then
    if c.em then .error .valueError
    else .ok (.boris ⟨c.b0x.getD 0, c.b0y.getD 0, c.b0z.getD 0⟩ c.cloudNSub)
  else if c.method = "StrongBdip" then
    if c.em then .error .valueError
    else if ¬ isElectron then .error .valueError
    else .ok (.dipole (if c.b = -1 then c.bRing else c.b))
  else if c.method = "StrongBgen" then
    if c.em then .error .valueError
    else if ¬ isElectron then .error .valueError
    else .ok (.strong c.b0x c.b0y)
  else if c.method = "BorisMultipole" then .ok (.multipole c.nSub)
  else .error .config

end PyECLOUD
