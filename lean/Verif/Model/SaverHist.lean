import Verif.Model.SaverSteps

/-!
# Model of the histograms written by `pyecloud_saver`

Per-passage data (pyecloud_saver.py:324-430) and energy, angle and lifetime histograms (pyecloud_saver.py:1145-1210).
Custom observables per passage are not modelled.
-/

namespace PyECLOUD

variable {K : Type} [Field K] [LinearOrder K]

/-- The impact histograms written at each passage. -/
inductive PassH where
  | tot
  | scrub
  | energ
  | segNel
  | segEmit
  | segEn
  deriving DecidableEq

/-- The histogram of the impact manager behind a per-passage series. -/
def ImpHist.pass (h : ImpHist K) : PassH → List K
  | .tot => h.tot
  | .scrub => h.scrub
  | .energ => h.energ
  | .segNel => h.segNel
  | .segEmit => h.segEmit
  | .segEn => h.segEn

/-- The detailed histogram (pyecloud_saver.py:352-369): limits, first grid point, step. -/
structure DetCfg (K : Type) where
  xMin : K
  xMax : K
  yMin : K
  yMax : K
  bias : K
  dx : K

/-- Settings of the histogram saver. `dtLife` is the saver's `Dt_lifetime_hist`, `nBin` the number of energy bins. -/
structure HistCfg (K : Type) where
  biasX : K
  dxHist : K
  flagSeg : Bool
  flagEnSeg : Bool
  det : Option (DetCfg K)
  dtEn : K
  flagCos : Bool
  flagLife : Bool
  dtLife : K
  ke : K
  dEn : K
  nBin : ℕ

/-- The saved histograms and the saver's work arrays. -/
structure HistSav (K : Type) where
  tHist : List K
  nel : List (List K)
  pass : PassH → List (List K)
  nHit : List K
  nCorr : List K
  nMp : List K
  ref : List K
  line : List K
  det : List (List K)
  detLine : List K
  tLastEn : K
  tEn : List K
  en : List (List K)
  cos : List (List K)
  ekin : List (List K)
  segEnLines : List (List (List K))
  tLastLife : K
  tLife : List K
  life : List (List K)

/-- The state after `start_observing` (pyecloud_saver.py:195-213, 324-376, 1145-1172): `nx` bins across the chamber, `nDet`
detailed bins, `nVert` segments. -/
def HistSav.init (nx nDet nVert : ℕ) : HistSav K :=
  { tHist := [], nel := [], pass := fun _ => [], nHit := [], nCorr := [], nMp := [], ref := [],
    line := List.replicate nx 0, det := [], detLine := List.replicate nDet 0, tLastEn := -1, tEn := [], en := [],
    cos := [], ekin := [], segEnLines := List.replicate nVert [], tLastLife := -1, tLife := [], life := [] }

/-- `*= 0.` (impact_management_class.py:139-171). -/
def zeroed (l : List K) : List K := l.map (fun v => v * 0)

/-- The resets made at a passage (pyecloud_saver.py:399-422). -/
def ImpHist.resetPass (h : ImpHist K) (seg : Bool) : ImpHist K :=
  { h with
    tot := zeroed h.tot
    scrub := zeroed h.scrub
    energ := zeroed h.energ
    segNel := if seg then zeroed h.segNel else h.segNel
    segEmit := if seg then zeroed h.segEmit else h.segEmit
    segEn := if seg then zeroed h.segEn else h.segEn }

/-- Whether a per-passage series is in use. -/
def HistCfg.passOn (c : HistCfg K) : PassH → Bool
  | .tot => true
  | .scrub => true
  | .energ => true
  | _ => c.flagSeg

/-- `np.isclose(a, b, rtol=1e-10, atol=0)`. -/
def closeTo (a b : K) : Bool := decide (|a - b| ≤ 1 / 10 ^ 10 * |b|)

/-- The condition for the time-triggered histograms (pyecloud_saver.py:1177, 1206). -/
def histDue (tt tLast dt : K) : Bool := decide (tt ≥ tLast + dt) || closeTo tt (tLast + dt)

/-- The macroparticles of the detailed histogram (pyecloud_saver.py:387-389, 395): position and size. -/
def detSel (d : DetCfg K) (s : MPs K) : List (K × K) :=
  ((List.range s.nmp).filter (fun i =>
      decide ((s.arr .x).getD i 0 > d.xMin) && decide ((s.arr .x).getD i 0 < d.xMax) &&
      (decide ((s.arr .y).getD i 0 > d.yMin) && decide ((s.arr .y).getD i 0 < d.yMax)))).map
    (fun i => ((s.arr .x).getD i 0, (s.arr .nel).getD i 0))

section Floor

variable [FloorRing K]

/-- The detailed histogram line when the cloud is not empty (pyecloud_saver.py:387-396). -/
def detUpdate (d : DetCfg K) (s : MPs K) (line : List K) : Except PyErr (List K) :=
  if 0 < (detSel d s).length then computeHist d.bias d.dx (line.map (fun v => 0 * v)) (detSel d s)
  else .ok (line.map (fun v => 0 * v))

/-- The cloud histogram (pyecloud_saver.py:380-382). -/
def cloudLine (c : HistCfg K) (s : MPs K) (line : List K) : Except PyErr (List K) :=
  if 0 < s.nmp then computeHist c.biasX c.dxHist (line.map (fun v => 0 * v)) ((s.head .x).zip (s.head .nel))
  else .ok (line.map (fun v => 0 * v))

/-- The detailed histogram line (pyecloud_saver.py:384-396): only touched when the cloud is not empty. -/
def detLineOf (c : HistCfg K) (s : MPs K) (line : List K) : Except PyErr (List K) :=
  match c.det with
  | none => .ok line
  | some d => if 0 < s.nmp then detUpdate d s line else .ok line

/-- `_pass_by_pass_data_save` (pyecloud_saver.py:378-430). -/
def HistSav.passSave (c : HistCfg K) (v : HistSav K) (h : ImpHist K) (i : WitIn K) :
    Except PyErr (HistSav K × ImpHist K) := do
  let line ← cloudLine c i.cloud v.line
  let detLine ← detLineOf c i.cloud v.detLine
  .ok ({ v with
          line := line
          detLine := detLine
          nel := v.nel ++ [line]
          tHist := v.tHist ++ [i.tt]
          pass := fun ph => if c.passOn ph then v.pass ph ++ [h.pass ph] else v.pass ph
          nHit := v.nHit ++ [i.nHit]
          nCorr := v.nCorr ++ [i.nCorr]
          nMp := v.nMp ++ [(i.cloud.nmp : K)]
          ref := v.ref ++ [i.cloud.ref]
          det := if c.det.isSome then v.det ++ [detLine] else v.det },
    h.resetPass c.flagSeg)

/-- Kinetic energies and sizes of the cloud (pyecloud_saver.py:1188-1190). -/
def ekinData (c : HistCfg K) (s : MPs K) : List (K × K) :=
  (List.range s.nmp).map (fun i => (c.ke * ((s.arr .vx).getD i 0 ^ 2 + (s.arr .vy).getD i 0 ^ 2 + (s.arr .vz).getD i 0 ^ 2),
    (s.arr .nel).getD i 0))

/-- Histogram of the kinetic energy of all the macroparticles (pyecloud_saver.py:1187-1194). -/
def ekinHist (c : HistCfg K) (s : MPs K) : Except PyErr (List K) :=
  if 0 < s.nmp then computeHist 0 c.dEn (List.replicate c.nBin 0) (ekinData c s) else .ok (List.replicate c.nBin 0)

/-- Energy and angle histograms (pyecloud_saver.py:1174-1201). -/
def HistSav.enSave (c : HistCfg K) (v : HistSav K) (h : ImpHist K) (i : WitIn K) :
    Except PyErr (HistSav K × ImpHist K) :=
  if histDue i.tt v.tLastEn c.dtEn then do
    let ek ← ekinHist c i.cloud
    .ok ({ v with
            en := v.en ++ [h.enLine]
            tEn := v.tEn ++ [i.tt]
            tLastEn := i.tt
            cos := if c.flagCos then v.cos ++ [h.cos] else v.cos
            ekin := v.ekin ++ [ek]
            segEnLines := if c.flagSeg && c.flagEnSeg then
                (v.segEnLines.zip h.segEnLines).map (fun q => q.1 ++ [q.2]) else v.segEnLines },
      { h with
        enLine := zeroed h.enLine
        cos := if c.flagCos then zeroed h.cos else h.cos
        segEnLines := if c.flagSeg && c.flagEnSeg then h.segEnLines.map zeroed else h.segEnLines })
  else .ok (v, h)

/-- Lifetime histogram (pyecloud_saver.py:1205-1210). -/
def HistSav.lifeSave (c : HistCfg K) (v : HistSav K) (h : ImpHist K) (i : WitIn K) : HistSav K × ImpHist K :=
  if c.flagLife && histDue i.tt v.tLastLife c.dtLife then
    ({ v with
        life := v.life ++ [h.life]
        tLife := v.tLife ++ [i.tt]
        tLastLife := i.tt },
      { h with life := zeroed h.life })
  else (v, h)

/-- The histogram part of `witness` (pyecloud_saver.py:280, 296-298). -/
def HistSav.witness (c : HistCfg K) (v : HistSav K) (h : ImpHist K) (i : WitIn K) :
    Except PyErr (HistSav K × ImpHist K) := do
  let r ← v.enSave c h i
  let q := HistSav.lifeSave c r.1 r.2 i
  if i.newPass then HistSav.passSave c q.1 q.2 i else .ok q

/-- Entry by entry sum of two histograms. -/
def addL (a b : List K) : List K := List.zipWith (· + ·) a b

/-- The impact manager's histograms after depositing `d`. -/
def ImpHist.add (h d : ImpHist K) : ImpHist K :=
  { tot := addL h.tot d.tot
    scrub := addL h.scrub d.scrub
    energ := addL h.energ d.energ
    cos := addL h.cos d.cos
    enLine := addL h.enLine d.enLine
    life := addL h.life d.life
    segNel := addL h.segNel d.segNel
    segEmit := addL h.segEmit d.segEmit
    segEn := addL h.segEn d.segEn
    segEnLines := List.zipWith addL h.segEnLines d.segEnLines }

/-- Consecutive time steps: each deposits its impacts (`d`), then the saver is called. -/
def HistSav.run (c : HistCfg K) : HistSav K × ImpHist K → List (ImpHist K × WitIn K) →
    Except PyErr (HistSav K × ImpHist K)
  | r, [] => .ok r
  | r, e :: l =>
    match HistSav.witness c r.1 (r.2.add e.1) e.2 with
    | .ok r' => HistSav.run c r' l
    | .error x => .error x

end Floor

end PyECLOUD
