import Verif.Model.MPSystem
import Verif.Model.Hist
import Verif.Spec.Cloud

/-!
# Model of cross_ionization.py

Energies, velocities and populations are elements of an ordered field; `sq` is `np.sqrt`, `lg` is `np.log10`.
The cross section files are read into lists (`scipy.io.loadmat` is not modelled).
-/

namespace PyECLOUD

variable {K : Type} [Field K] [LinearOrder K]

/-- `np.round(x, d)`. -/
def roundDec [FloorRing K] (d : ℕ) (x : K) : K := (roundHE (x * 10 ^ d) : K) / 10 ^ d

/-- `np.diff`. -/
def npDiff : List K → List K
  | a :: b :: l => (b - a) :: npDiff (b :: l)
  | _ => []

/-- Interpolation data of an `Ionization_Process` (cross_ionization.py:114-147). -/
structure XTable (K : Type) where
  eMin : K
  eMax : K
  x0 : K
  dx : K
  flagLog : Bool
  sig : List K
  diff : List K
  deriving DecidableEq

/-- Smallest and largest entry (`np.min`, `np.max`) of a non-empty list. -/
def listMin : List K → K
  | [] => 0
  | [a] => a
  | a :: l => min a (listMin l)

def listMax : List K → K
  | [] => 0
  | [a] => a
  | a :: l => max a (listMax l)

/-- The uniform step of a grid with the rounding of cross_ionization.py:126-129, 134-136: `none` when the rounded
steps differ; `diff_x_interp[0]` raises for fewer than two points. -/
def uniformStep [FloorRing K] (xs : List K) : Except PyErr (Option K) :=
  match (npDiff xs).map (roundDec 8) with
  | [] => .error .indexError
  | d :: ds => .ok (if (d :: ds).any (fun e => decide (e ≠ d)) then none else some d)

/-- Preparation of the interpolation in `Ionization_Process.__init__` (cross_ionization.py:114-147). -/
def mkXTable [FloorRing K] (lg : K → K) (energy sigma : List K) : Except PyErr (XTable K) :=
  match uniformStep energy with
  | .error e => .error e
  | .ok (some d) => .ok ⟨listMin energy, listMax energy, listMin energy, d, false, sigma, npDiff sigma ++ [0]⟩
  | .ok none =>
    match uniformStep (energy.map lg) with
    | .error e => .error e
    | .ok (some d) => .ok ⟨listMin energy, listMax energy, lg (listMin energy), d, true, sigma, npDiff sigma ++ [0]⟩
    | .ok none => .error .valueError

/-- `Ionization_Process.get_sigma` and `_interp` for one projectile (cross_ionization.py:263-291), in m^2. -/
def XTable.getSigma [FloorRing K] (T : XTable K) (lg : K → K) (e : K) : Except PyErr K :=
  if e < T.eMin then .ok 0
  else if T.eMax < e then .ok 0
  else
    let t := ((if T.flagLog then lg e else e) - T.x0) / T.dx
    match pyGet T.sig (truncZ t), pyGet T.diff (truncZ t) with
    | .ok a, .ok b => .ok ((a + (t - (truncZ t : K)) * b) * (1 / 10 ^ 4))
    | .error x, _ => .error x
    | _, .error x => .error x

/-- An `Ionization_Process` (cross_ionization.py:62-147). Clouds are named by numbers. -/
structure Proc (K : Type) where
  dens : K
  nTarget : K
  area : K
  eInit : K
  equally : Bool
  products : List ℕ
  table : XTable K

/-- A cloud as seen by the cross ionisation. -/
structure XCloud (K : Type) where
  name : ℕ
  mass : K
  mps : MPs K

/-- `cloud_dict[name]` with `cloud_dict` built by updates in order (cross_ionization.py:349-351). -/
def cloudGet (cs : List (XCloud K)) (nm : ℕ) : Except PyErr (XCloud K) :=
  match cs.reverse.find? (fun c => c.name == nm) with
  | some c => .ok c
  | none => .error .keyError

/-- Information about the new macroparticles of one product (cross_ionization.py:251-258); the number is kept
separately from the arrays, as in the code. -/
structure NewMPs (K : Type) where
  n : ℤ
  arr : Fld → List K

/-- `_init_new_mp_dict` (cross_ionization.py:495-508). -/
def NewMPs.empty : NewMPs K := ⟨0, fun _ => []⟩

/-- `_add_to_mp_dict` (cross_ionization.py:511-517). -/
def NewMPs.append (a b : NewMPs K) : NewMPs K := ⟨a.n + b.n, fun f => a.arr f ++ b.arr f⟩

/-- Draws of one call of `Ionization_Process.generate`: `u k i` decides the rounding for projectile `i` and the
`k`-th product, `rv k f j` is used for velocity component `f` of the `j`-th macroparticle of the `k`-th product. -/
structure XDraws (K : Type) where
  u : ℕ → ℕ → K
  rv : ℕ → Fld → ℕ → K

/-- Macroparticles per projectile (cross_ionization.py:185-191, 210-216). -/
def xCounts [FloorRing K] (dn : List K) (ref : K) (u : ℕ → K) : List ℤ :=
  dn.mapIdx (fun i q => stochRound (q / ref) (u i))

/-- New macroparticles of one product (cross_ionization.py:218-249). -/
def xNew (counts : List ℤ) (proj : List (Particle K)) (ref v0 : K) (rv : Fld → ℕ → K) : NewMPs K :=
  let n := counts.sum
  if 0 < n then
    let mask := counts.map (fun c => decide (0 < c))
    let reps := (maskSel counts mask).map Int.toNat
    ⟨n, fun f => match f with
      | .nel => npRepeat (List.replicate (countTrue mask) ref) reps
      | .x => npRepeat (maskSel (proj.map (fun p => p .x)) mask) reps
      | .y => npRepeat (maskSel (proj.map (fun p => p .y)) mask) reps
      | .z => npRepeat (maskSel (proj.map (fun p => p .z)) mask) reps
      | .vx => (List.range n.toNat).map (fun i => v0 * (rv .vx i - 1 / 2))
      | .vy => (List.range n.toNat).map (fun i => v0 * (rv .vy i - 1 / 2))
      | .vz => (List.range n.toNat).map (fun i => v0 * (rv .vz i - 1 / 2))
      | .tl => []⟩
  else ⟨n, fun _ => []⟩

/-- Mean reference size of the products (cross_ionization.py:176-182). -/
def meanRef (cs : List (XCloud K)) (prods : List ℕ) : List ℕ → Except PyErr K
  | [] => .ok 0
  | nm :: l =>
    match cloudGet cs nm with
    | .error e => .error e
    | .ok c =>
      match meanRef cs prods l with
      | .error e => .error e
      | .ok r => .ok (c.mps.ref / (prods.length : K) + r)

/-- The loop over the products (cross_ionization.py:193-258); `shared` is the common count list and size used with
`generate_equally`. -/
def prodLoop [FloorRing K] (sq : K → K) (qe eInit : K) (cs : List (XCloud K)) (dn : List K) (proj : List (Particle K))
    (d : XDraws K) (shared : Option (List ℤ × K)) :
    List ℕ → ℕ → (ℕ → NewMPs K) → Except PyErr (ℕ → NewMPs K)
  | [], _, info => .ok info
  | nm :: ps, k, info =>
    match cloudGet cs nm with
    | .error e => .error e
    | .ok c =>
      let v0 := sq (2 * (eInit / 3) * qe / c.mass)
      let cr := shared.getD (xCounts dn c.mps.ref (d.u k), c.mps.ref)
      prodLoop sq qe eInit cs dn proj d shared ps (k + 1)
        (Function.update info nm (xNew cr.1 proj cr.2 v0 (d.rv k)))

/-- Speed of a macroparticle (cross_ionization.py:373-375). -/
def speed (sq : K → K) (p : Particle K) : K := sq (p .vx * p .vx + p .vy * p .vy + p .vz * p .vz)

/-- Cross sections of all projectiles (cross_ionization.py:153-156). -/
def Proc.sigmas [FloorRing K] (pr : Proc K) (lg : K → K) (mass qe : K) (v : List K) : Except PyErr (List K) :=
  v.mapM (fun w => pr.table.getSigma lg (1 / 2 * mass / qe * w * w))

/-- `DN_per_proj` (cross_ionization.py:158). -/
def dnPer (sig : List K) (dens dt : K) (v nel : List K) : List K :=
  List.zipWith (fun s q => s * dens * q.1 * dt * q.2) sig (v.zip nel)

/-- Depletion of the target (cross_ionization.py:163-166). -/
def Proc.deplete [FloorRing K] (pr : Proc K) (dn : K) : Proc K :=
  { pr with nTarget := roundDec 3 (pr.nTarget - dn), dens := roundDec 3 (pr.nTarget - dn) / pr.area }

/-- `Ionization_Process.generate` (cross_ionization.py:150-260): the process afterwards, the new macroparticles of
each product and the number of ionisations. Printing of the density is not modelled. -/
def Proc.generate [FloorRing K] (pr : Proc K) (sq lg : K → K) (qe dt : K) (cs : List (XCloud K)) (mass : K)
    (proj : List (Particle K)) (v : List K) (flag : Bool) (d : XDraws K) :
    Except PyErr (Proc K × (ℕ → NewMPs K) × K) :=
  match pr.sigmas lg mass qe v with
  | .error e => .error e
  | .ok sig =>
    let dn := dnPer sig pr.dens dt v (proj.map (fun p => p .nel))
    let pr' := if flag then pr.deplete dn.sum else pr
    let res := if pr.equally then
        match meanRef cs pr.products pr.products with
        | .error e => Except.error e
        | .ok r => prodLoop sq qe pr.eInit cs dn proj d (some (xCounts dn r (d.u 0), r)) pr.products 0 (fun _ => .empty)
      else prodLoop sq qe pr.eInit cs dn proj d none pr.products 0 (fun _ => .empty)
    match res with
    | .error e => .error e
    | .ok info => .ok (pr', info, dn.sum)

/-- The mutable part of `Cross_Ionization` (cross_ionization.py:308-309, 336-343). -/
structure XState (K : Type) where
  projs : List (ℕ × List (Proc K))
  nelC : ℕ → K
  nmpC : ℕ → K
  dnC : ℕ → K

/-- `Cross_Ionization.products`: names of all products (cross_ionization.py:309, 328-330). -/
def XState.prods (x : XState K) : List ℕ := x.projs.flatMap (fun q => q.2.flatMap (fun p => p.products))

/-- cross_ionization.py:389-392: the products of one process are added to the accumulated ones. -/
def accProds (info : ℕ → NewMPs K) (dn : K) : List ℕ → (ℕ → NewMPs K) × (ℕ → K) → (ℕ → NewMPs K) × (ℕ → K)
  | [], a => a
  | nm :: l, a => accProds info dn l
      (Function.update a.1 nm ((a.1 nm).append (info nm)), Function.update a.2 nm (a.2 nm + dn))

/-- The loop over the processes of one projectile (cross_ionization.py:377-392). -/
def procLoop [FloorRing K] (sq lg : K → K) (qe dt : K) (cs : List (XCloud K)) (mass : K) (proj : List (Particle K))
    (d : ℕ → XDraws K) : List (Proc K) → ℕ → (ℕ → NewMPs K) × (ℕ → K) →
    Except PyErr (List (Proc K) × (ℕ → NewMPs K) × (ℕ → K))
  | [], _, a => .ok ([], a)
  | pr :: l, k, a =>
    match pr.generate sq lg qe dt cs mass proj (proj.map (speed sq)) true (d k) with
    | .error e => .error e
    | .ok (pr', info, dn) =>
      match procLoop sq lg qe dt cs mass proj d l (k + 1) (accProds info dn pr.products a) with
      | .error e => .error e
      | .ok (l', a') => .ok (pr' :: l', a')

/-- The loop over the projectiles (cross_ionization.py:355-392). -/
def projLoop [FloorRing K] (sq lg : K → K) (qe dt : K) (cs : List (XCloud K)) (d : ℕ → ℕ → XDraws K) :
    List (ℕ × List (Proc K)) → ℕ → (ℕ → NewMPs K) × (ℕ → K) →
    Except PyErr (List (ℕ × List (Proc K)) × (ℕ → NewMPs K) × (ℕ → K))
  | [], _, a => .ok ([], a)
  | q :: l, j, a =>
    match cloudGet cs q.1 with
    | .error e => .error e
    | .ok c =>
      if 0 < c.mps.nmp then
        match procLoop sq lg qe dt cs c.mass c.mps.live (d j) q.2 0 a with
        | .error e => .error e
        | .ok (ps, a') =>
          match projLoop sq lg qe dt cs d l (j + 1) a' with
          | .error e => .error e
          | .ok (l', a'') => .ok ((q.1, ps) :: l', a'')
      else
        match projLoop sq lg qe dt cs d l (j + 1) a with
        | .error e => .error e
        | .ok (l', a'') => .ok (q :: l', a'')

/-- Values passed to `add_new_MPs` (cross_ionization.py:394-409). -/
def xSrc (m : NewMPs K) : Fld → Src K
  | .tl => .scalar (-1)
  | f => .array (m.arr f)

/-- The loop adding the products to their clouds (cross_ionization.py:394-416). -/
def addLoop (prods : List ℕ) (acc : ℕ → NewMPs K) :
    List (XCloud K) → (ℕ → K) → (ℕ → K) → Except PyErr (List (XCloud K) × (ℕ → K) × (ℕ → K))
  | [], nelC, nmpC => .ok ([], nelC, nmpC)
  | c :: cs, nelC, nmpC =>
    if c.name ∈ prods then
      match (if 0 < (acc c.name).n then c.mps.addNew (acc c.name).n.toNat (xSrc (acc c.name)) else .ok c.mps) with
      | .error e => .error e
      | .ok m =>
        match addLoop prods acc cs (Function.update nelC c.name (nelC c.name + ((acc c.name).arr .nel).sum))
            (Function.update nmpC c.name (nmpC c.name + ((acc c.name).n : K))) with
        | .error e => .error e
        | .ok (cs', r) => .ok ({ c with mps := m } :: cs', r)
    else
      match addLoop prods acc cs nelC nmpC with
      | .error e => .error e
      | .ok (cs', r) => .ok (c :: cs', r)

/-- `Cross_Ionization.generate` (cross_ionization.py:346-416). -/
def XState.generate [FloorRing K] (x : XState K) (sq lg : K → K) (qe dt : K) (cs : List (XCloud K))
    (d : ℕ → ℕ → XDraws K) : Except PyErr (XState K × List (XCloud K)) :=
  match projLoop sq lg qe dt cs d x.projs 0 (fun _ => .empty, x.dnC) with
  | .error e => .error e
  | .ok (projs, acc, dnC) =>
    match addLoop x.prods acc cs x.nelC x.nmpC with
    | .error e => .error e
    | .ok (cs', nelC, nmpC) => .ok (⟨projs, nelC, nmpC, dnC⟩, cs')

/-- `save_cross_ion_data` (cross_ionization.py:419-428). -/
def XState.save (x : XState K) (nm : ℕ) : (K × K × K) × XState K :=
  ((x.nelC nm, x.nmpC nm, x.dnC nm),
    { x with nelC := Function.update x.nelC nm 0, nmpC := Function.update x.nmpC nm 0,
             dnC := Function.update x.dnC nm 0 })

end PyECLOUD
