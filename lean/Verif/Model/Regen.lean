import Verif.Model.MPSystem
import Verif.Model.Hist
import Mathlib.Data.List.Dedup
import Mathlib.Data.List.Sort

/-!
# Model of `MP_system.check_for_regeneration` (MP_system.py:230-439), stage by stage

Floating point integers (cell indices) are modelled as `ℤ`, floating point floor divisions of such
integers as integer floor divisions. The energies computed for printing are left out.
-/

namespace PyECLOUD

variable {K : Type} [Field K] [LinearOrder K]

/-- Settings used by the full regeneration (MP_system.py:98-121 and `chamb`). -/
structure FullCfg (K : Type) where
  nRegenLow : ℕ
  nRegen : ℕ
  nAfter : ℕ
  histCut : K
  nx : ℕ
  ny : ℕ
  nvx : ℕ
  nvy : ℕ
  nvz : ℕ
  /-- number of nodes, first node and step of the x histogram (MP_system.py:112-118) -/
  histN : ℕ
  histBias : K
  histDx : K
  yAper : K
  outside : K → K → Bool

/-- Trigger condition (MP_system.py:232). -/
def FullCfg.trigger (c : FullCfg K) (s : MPs K) : Bool :=
  decide (s.nmp > c.nRegen ∨ (s.nmp < c.nRegenLow ∧ s.ref > s.ref0))

/-- New reference size (MP_system.py:233, 237-239). -/
def MPs.newRef (s : MPs K) (target : ℕ) : K :=
  let r := (s.arr .nel).sum / (target : K)
  if r < s.ref0 then s.ref0 else r

/-- `np.sum(hist[:i]) + np.sum(hist[-i:])` for `i >= 1` (MP_system.py:249, 252). -/
def cutAway (h : List K) (i : ℕ) : K := (h.take i).sum + (h.drop (h.length - i)).sum

/-- The loop looking for the horizontal cut (MP_system.py:248-252), starting at `i`;
`fuel` bounds the number of iterations. -/
def cutLoop (h : List K) (thr : K) : ℕ → ℕ → Except PyErr ℕ
  | 0, i => if cutAway h i < thr then .error .stillRunning else .ok i
  | fuel + 1, i => if cutAway h i < thr then cutLoop h thr fuel (i + 1) else .ok i

/-- `x_max` (MP_system.py:254). -/
def xMaxOf (c : FullCfg K) (hLen iCut : ℕ) : K :=
  ((hLen : K) - (iCut : K) + 1) * c.histDx + c.histBias

/-- Removal of the macroparticles beyond the cut (MP_system.py:258-271); `t_last_impact` is not
compacted here (it is overwritten at the end). -/
def MPs.cutX (s : MPs K) (xMax : K) : MPs K :=
  s.compact (clipMask ((s.arr .x).map (fun v => !decide (xMax < |v|))) s.nmp) false

/-- `max(abs(a))`, replaced by `1e-5` when zero (MP_system.py:275-283). An empty array raises in
Python; here it gives `1e-5`. -/
def maxAbs (a : List K) : K :=
  let m := a.foldr (fun v m => max |v| m) 0
  if m = 0 then 1 / 100000 else m

/-- Cell sizes of the phase-space grid (MP_system.py:286-302). -/
structure Steps (K : Type) where
  x : K
  y : K
  vx : K
  vy : K
  vz : K

/-- `2*max/(N-1)` (MP_system.py:286, 290, 294, 298, 302). -/
def stepOf (m : K) (n : ℕ) : K := 2 * m / ((n : K) - 1)

/-- The five cell sizes (MP_system.py:286-302). -/
def stepsOf (c : FullCfg K) (s : MPs K) (xMax : K) : Steps K where
  x := stepOf xMax c.nx
  y := stepOf c.yAper c.ny
  vx := stepOf (maxAbs (s.arr .vx)) c.nvx
  vy := stepOf (maxAbs (s.arr .vy)) c.nvy
  vz := stepOf (maxAbs (s.arr .vz)) c.nvz

/-- `bias = np.ceil(float(N)/2)` (MP_system.py:287, 291, 295, 299, 303). -/
def biasOf (n : ℕ) : ℤ := ((n + 1) / 2 : ℕ)

/-- A cell by its five 1-based ("MATLAB-like") indices. -/
structure Cell where
  ix : ℤ
  iy : ℤ
  ivx : ℤ
  ivy : ℤ
  ivz : ℤ
  deriving DecidableEq, Repr

/-- Linear cell index (MP_system.py:318-322). -/
def encode (c : FullCfg K) (k : Cell) : ℤ :=
  (k.ix - 1) * c.ny * c.nvx * c.nvy * c.nvz + (k.iy - 1) * c.nvx * c.nvy * c.nvz
    + (k.ivx - 1) * c.nvy * c.nvz + (k.ivy - 1) * c.nvz + k.ivz - 1

/-- Decoding of a linear index by successive floor divisions (MP_system.py:339-362). -/
def decode (c : FullCfg K) (i : ℤ) : Cell :=
  let d1 : ℤ := c.ny * c.nvx * c.nvy * c.nvz
  let ix := i / d1
  let i1 := i - ix * d1
  let d2 : ℤ := c.nvx * c.nvy * c.nvz
  let iy := i1 / d2
  let i2 := i1 - iy * d2
  let d3 : ℤ := c.nvy * c.nvz
  let ivx := i2 / d3
  let i3 := i2 - ivx * d3
  let d4 : ℤ := c.nvz
  let ivy := i3 / d4
  let i4 := i3 - ivy * d4
  ⟨ix + 1, iy + 1, ivx + 1, ivy + 1, i4 + 1⟩

/-- Per-cell charge: the dictionary filled by the loop of MP_system.py:327-333. -/
def cellDens : List (ℤ × K) → ℤ → K :=
  fun l => l.foldl (fun d p => Function.update d p.1 (d p.1 + p.2)) (fun _ => 0)

/-- Sorted distinct indices (MP_system.py:324-325). -/
def occupied (idx : List ℤ) : List ℤ := (idx.dedup).insertionSort (· ≤ ·)

/-- Centre of a cell along one axis: `(i - bias)*D` (MP_system.py:366-370). -/
def centre (n : ℕ) (d : K) (i : ℤ) : K := (((i - biasOf n : ℤ)) : K) * d

/-- The centres of a cell (MP_system.py:366-370). -/
def centres (c : FullCfg K) (st : Steps K) (k : Cell) : Steps K where
  x := centre c.nx st.x k.ix
  y := centre c.ny st.y k.iy
  vx := centre c.nvx st.vx k.ivx
  vy := centre c.nvy st.vy k.ivy
  vz := centre c.nvz st.vz k.ivz

/-- Draws of one pass of the regeneration loop (MP_system.py:399-418). -/
structure PassDraws (K : Type) where
  x0 : ℕ → K
  y0 : ℕ → K
  vx : ℕ → K
  vy : ℕ → K
  vz : ℕ → K
  rounds : List ((ℕ → K) × (ℕ → K))

/-- All draws of a full regeneration. -/
structure FullDraws (K : Type) where
  rest : ℕ → K
  pass : ℕ → PassDraws K

/-- Random point around a cell centre (MP_system.py:399-400, 414-415). -/
def cellGen (st : Steps K) (ctr : Steps K) (u v : K) : K × K :=
  (ctr.x + st.x * (u - 1 / 2), ctr.y + st.y * (v - 1 / 2))

/-- Positions and velocities produced by one pass: rejection loop on the positions, one draw per
velocity component (MP_system.py:399-418). `cs` are the centres of the cells flagged in this pass. -/
def passPoints (outside : K → K → Bool) (st : Steps K) (cs : List (Steps K)) (d : PassDraws K) :
    Except PyErr (Fld → List K) :=
  match rejectLoop outside (cellGen st) d.rounds
      (cs.mapIdx (fun i ctr => (ctr, cellGen st ctr (d.x0 i) (d.y0 i)))) with
  | .error e => .error e
  | .ok pts => .ok (fun f =>
      match f with
      | .x => pts.map (·.2.1)
      | .y => pts.map (·.2.2)
      | .vx => cs.mapIdx (fun i ctr => ctr.vx + st.vx * (d.vx i - 1 / 2))
      | .vy => cs.mapIdx (fun i ctr => ctr.vy + st.vy * (d.vy i - 1 / 2))
      | .vz => cs.mapIdx (fun i ctr => ctr.vz + st.vz * (d.vz i - 1 / 2))
      | _ => [])

/-- The arrays written in a pass (MP_system.py:420-425). -/
def passFields : List Fld := [.x, .y, .vx, .vy, .vz]

/-- The loop `while n_add_step > 0` (MP_system.py:393-430): every cell with a positive remaining count
gets one macroparticle per pass. `cells` pairs the centres with the remaining counts. -/
def regenLoop (outside : K → K → Bool) (st : Steps K) (pass : ℕ → PassDraws K) :
    ℕ → ℕ → List (Steps K × ℕ) → (Fld → List K) → ℕ → Except PyErr ((Fld → List K) × ℕ)
  | fuel, k, cells, arr, nmp =>
    let todo := cells.filter (fun c => decide (0 < c.2))
    if todo.length = 0 then .ok (arr, nmp)
    else match fuel with
      | 0 => .error .stillRunning
      | fuel + 1 =>
        match passPoints outside st (todo.map (·.1)) (pass k) with
        | .error e => .error e
        | .ok cols =>
          match assignAll arr passFields nmp (nmp + todo.length) (fun f => .array (cols f)) with
          | .error e => .error e
          | .ok arr' =>
            regenLoop outside st pass fuel (k + 1) (cells.map (fun c => (c.1, c.2 - 1))) arr'
              (nmp + todo.length)

section Floor

variable [FloorRing K]

/-- Index along one axis: `np.around(v / D) + bias` (MP_system.py:310-314). -/
def axisIdx (n : ℕ) (d v : K) : ℤ := roundHE (v / d) + biasOf n

/-- The cell of a macroparticle (MP_system.py:310-314). -/
def cellOf (c : FullCfg K) (st : Steps K) (x y vx vy vz : K) : Cell :=
  ⟨axisIdx c.nx st.x x, axisIdx c.ny st.y y, axisIdx c.nvx st.vx vx, axisIdx c.nvy st.vy vy,
    axisIdx c.nvz st.vz vz⟩

/-- The linear indices of the live macroparticles (MP_system.py:310-323). -/
def MPs.indexes (s : MPs K) (c : FullCfg K) (st : Steps K) : List ℤ :=
  (List.range s.nmp).map (fun i => encode c (cellOf c st ((s.arr .x).getD i 0) ((s.arr .y).getD i 0)
    ((s.arr .vx).getD i 0) ((s.arr .vy).getD i 0) ((s.arr .vz).getD i 0)))

/-- Number of macroparticles to create in each occupied cell (MP_system.py:375-382). -/
def cellCounts (dens : List K) (ref : K) (u : ℕ → K) : List ℕ :=
  dens.mapIdx (fun i w => (stochRound (w / ref) (u i)).toNat)

/-- Everything after the x cut (MP_system.py:273-435), on the state `s` left by the cut. -/
def MPs.rebuild (s : MPs K) (c : FullCfg K) (xMax : K) (d : FullDraws K) : Except PyErr (MPs K) :=
  let st := stepsOf c s xMax
  let idx := s.indexes c st
  let cells := occupied idx
  let dens := cells.map (cellDens (idx.zip (s.arr .nel)))
  let counts := cellCounts dens s.ref d.rest
  let nExpect := counts.sum
  let zero : Fld → List K := fun f =>
    if f = .tl then s.arr .tl else (s.arr f).map (fun _ => 0)
  match sliceAssign (zero .nel) 0 nExpect (.array (List.replicate nExpect s.ref)) with
  | .error e => .error e
  | .ok nel =>
    match regenLoop c.outside st d.pass (counts.foldr max 0) 0
        ((cells.map (fun i => centres c st (decode c i))).zip counts)
        (Function.update zero .nel nel) 0 with
    | .error e => .error e
    | .ok (arr, nmp) => .ok { s with
        nmp := nmp
        arr := fun f => if f = .tl ∧ s.lifetime = true then (s.arr .tl).map (fun _ => -1) else arr f }

/-- `check_for_regeneration` (MP_system.py:230-439). -/
def MPs.checkRegen (s : MPs K) (c : FullCfg K) (fuel : ℕ) (d : FullDraws K) : Except PyErr (MPs K) :=
  if c.trigger s then
    let s1 := s.setRef (s.newRef c.nAfter)
    match computeHist c.histBias c.histDx (List.replicate c.histN 0)
        (((s1.arr .x).zip (s1.arr .nel)).take s1.nmp) with
    | .error e => .error e
    | .ok h =>
      match cutLoop h (c.histCut * h.sum) fuel 1 with
      | .error e => .error e
      | .ok iCut =>
        let xMax := xMaxOf c h.length iCut
        (s1.cutX xMax).rebuild c xMax d
  else .ok s

end Floor

end PyECLOUD
