import Verif.Model.MPSystem
import Verif.Model.Grid
import Verif.Model.Sey

/-!
# Model of `impact_management.backtrack_and_second_emiss` (impact_management_class.py:174-359)

Masking all arrays with the same mask is modelled as masking the list of rows. The square root is a
parameter `sq`.
-/

namespace PyECLOUD

variable {K : Type} [Field K] [LinearOrder K]

/-- Result of `impact_point_and_normal` for one trajectory. -/
structure Hit (K : Type) where
  x : K
  y : K
  z : K
  nx : K
  ny : K
  seg : ℤ

/-- What the impact step uses of a chamber: `is_outside` and `impact_point_and_normal`
(end points inside and outside). -/
structure Chamber (K : Type) where
  outside : K → K → Bool
  hit : K × K × K → K × K × K → Except PyErr (Hit K)

/-- Settings of `impact_management` (impact_management_class.py:60-137). `ke = 0.5*mass/qe`. -/
structure ImpCfg (K : Type) where
  ke : K
  biasX : K
  dxHist : K
  scrubTh : K
  enMax : K
  dEn : K
  flagSeg : Bool
  flagEnSeg : Bool
  flagCos : Bool
  cosW : K
  dtLife : K

/-- The accumulated histograms of `impact_management`. -/
structure ImpHist (K : Type) where
  tot : List K
  scrub : List K
  energ : List K
  cos : List K
  enLine : List K
  life : List K
  segNel : List K
  segEmit : List K
  segEn : List K
  segEnLines : List (List K)

/-- The counters of the last step. -/
structure ImpCount (K : Type) where
  nelImp : K
  nelEmit : K
  enImp : K
  enEmit : K

/-- All array entries as rows (live or not). -/
def MPs.rows (s : MPs K) : List (Fld → K) :=
  (List.range (s.arr .x).length).map (fun i f => (s.arr f).getD i 0)

/-- `flag_impact` (impact_management_class.py:212-217). -/
def MPs.impactMask (s : MPs K) (outside : K → K → Bool) : List Bool :=
  ((List.range s.nmp).map (fun i => outside ((s.arr .x).getD i 0) ((s.arr .y).getD i 0)))
    ++ List.replicate ((s.arr .x).length - s.nmp) false

/-- Position, velocity and derived quantities of one impact (impact_management_class.py:223-259). -/
def mkImpact (sq : K → K) (ke : K) (p : Fld → K) (h : Hit K) : Impact K :=
  let vmod := sq (p .vx * p .vx + p .vy * p .vy + p .vz * p .vz)
  let vn := p .vx * h.nx + p .vy * h.ny
  { nel := p .nel, x := h.x, y := h.y, z := h.z, vx := p .vx, vy := p .vy, vz := p .vz, nx := h.nx, ny := h.ny,
    seg := h.seg, vn := vn, en := ke * vmod * vmod, cth := |vn / vmod| }

/-- Kinetic energy of an emitted macroparticle (impact_management_class.py:322-324, 343-345). -/
def Emit.energy (sq : K → K) (ke : K) (e : Emit K) : K :=
  let vmod := sq (e.vx ^ 2 + e.vy ^ 2 + e.vz ^ 2)
  ke * vmod * vmod

/-- Entry of a field of an emitted macroparticle. -/
def Emit.fld (e : Emit K) : Fld → K
  | .x => e.x
  | .y => e.y
  | .z => e.z
  | .vx => e.vx
  | .vy => e.vy
  | .vz => e.vz
  | .nel => e.nel
  | .tl => 0

/-- Replacement of the impacting macroparticles (impact_management_class.py:250, 313-319). -/
def MPs.replaceHits (s : MPs K) (mask : List Bool) (rep : List (Emit K)) (tt : K) : MPs K :=
  { s with
    arr := fun f =>
      if f = .tl then
        if s.lifetime then maskPut (s.arr .tl) mask (List.replicate (countTrue mask) tt) else s.arr .tl
      else maskPut (s.arr f) mask (rep.map (fun e => e.fld f)) }

/-- Values passed to `add_new_MPs` (impact_management_class.py:339-340). -/
def newSrc (new : List (Emit K)) (tt : K) : Fld → Src K
  | .tl => .scalar tt
  | f => .array (new.map (fun e => e.fld f))

section Floor

variable [FloorRing K]

/-- `compute_hist` on a list of weighted values. -/
def deposit (bias dx : K) (h : List K) (ps : List (K × K)) : Except PyErr (List K) := computeHist bias dx h ps

/-- `if flag: compute_hist(...)`. -/
def depositIf (flag : Bool) (bias dx : K) (h : List K) (ps : List (K × K)) : Except PyErr (List K) :=
  if flag then deposit bias dx h ps else .ok h

/-- The per-segment energy histograms (impact_management_class.py:281-288), one list per segment. -/
def segEnHists (dEn enMax : K) (imps : List (Impact K)) : ℕ → List (List K) → Except PyErr (List (List K))
  | _, [] => .ok []
  | k, l :: ls => do
    let here := imps.filter (fun i => decide (i.seg = (k : ℤ)))
    let l' ← depositIf (decide (0 < here.length)) 0 dEn l
      (here.map (fun i => (if enMax < i.en then enMax else i.en, i.nel)))
    let ls' ← segEnHists dEn enMax imps (k + 1) ls
    .ok (l' :: ls')

/-- `if flag_seg and flag_En_hist_seg` (impact_management_class.py:274, 280). -/
def segEnHistsIf (flag : Bool) (dEn enMax : K) (imps : List (Impact K)) (ls : List (List K)) :
    Except PyErr (List (List K)) :=
  if flag then segEnHists dEn enMax imps 0 ls else .ok ls

/-- The histogram updates made with the impacts, before the emission model is called
(impact_management_class.py:242-293); `tls` are the last-impact times of the impacting macroparticles. -/
def impactHists (c : ImpCfg K) (lifetime : Bool) (tt : K) (tls : List K) (imps : List (Impact K))
    (h : ImpHist K) : Except PyErr (ImpHist K) := do
  let lifeData := ((tls.zip imps).filter (fun q => decide (0 < q.1))).map (fun q => (tt - q.1, q.2.nel))
  let life ← depositIf (lifetime && decide (0 < lifeData.length)) 0 c.dtLife h.life lifeData
  let tot ← deposit c.biasX c.dxHist h.tot (imps.map (fun i => (i.x, i.nel)))
  let scrub ← deposit c.biasX c.dxHist h.scrub
    (imps.map (fun i => (i.x, i.nel * (if c.scrubTh < i.en then 1 else 0))))
  let energ ← deposit c.biasX c.dxHist h.energ (imps.map (fun i => (i.x, i.nel * i.en)))
  let cos ← depositIf c.flagCos 0 c.cosW h.cos (imps.map (fun i => (i.cth, i.nel)))
  let segNel := if c.flagSeg then updateSeg h.segNel (imps.map (fun i => (i.seg, i.nel))) else h.segNel
  let segEn := if c.flagSeg then updateSeg h.segEn (imps.map (fun i => (i.seg, i.nel * i.en))) else h.segEn
  let segEnLines ← segEnHistsIf (c.flagSeg && c.flagEnSeg) c.dEn c.enMax imps h.segEnLines
  let enLine ← deposit 0 c.dEn h.enLine (imps.map (fun i => (if c.enMax < i.en then c.enMax else i.en, i.nel)))
  .ok { h with life := life, tot := tot, scrub := scrub, energ := energ, cos := cos, segNel := segNel,
               segEn := segEn, segEnLines := segEnLines, enLine := enLine }

/-- The histogram updates made with emitted macroparticles (impact_management_class.py:328-334, 347-354). -/
def emitHists (sq : K → K) (c : ImpCfg K) (es : List (Emit K)) (h : ImpHist K) : Except PyErr (ImpHist K) := do
  let energ ← deposit c.biasX c.dxHist h.energ (es.map (fun e => (e.x, -e.nel * e.energy sq c.ke)))
  let segEn := if c.flagSeg then updateSeg h.segEn (es.map (fun e => (e.seg, -e.nel * e.energy sq c.ke))) else h.segEn
  let segEmit := if c.flagSeg then updateSeg h.segEmit (es.map (fun e => (e.seg, e.nel))) else h.segEmit
  .ok { h with energ := energ, segEn := segEn, segEmit := segEmit }

/-- Appending the new macroparticles (impact_management_class.py:336-357): cloud, histograms and emitted
energy. -/
def addEmitted (sq : K → K) (c : ImpCfg K) (s : MPs K) (new : List (Emit K)) (tt : K) (h : ImpHist K) :
    Except PyErr (MPs K × ImpHist K × K) :=
  if 0 < new.length then do
    let s2 ← s.addNew new.length (newSrc new tt)
    let h3 ← emitHists sq c new h
    .ok (s2, h3, (new.map (fun e => e.energy sq c.ke * e.nel)).sum)
  else .ok (s, h, 0)

/-- `backtrack_and_second_emiss` (impact_management_class.py:174-359). `old` are the positions before the
motion, `sey` the emission model (with its draws). A boolean mask of length `N_mp` on old positions of
another number raises `IndexError`. -/
def impactStep (sq : K → K) (c : ImpCfg K) (ch : Chamber K)
    (sey : K → List (Impact K) → Except PyErr (SeyOut K)) (s : MPs K) (old : List (K × K × K)) (tt : K)
    (h : ImpHist K) : Except PyErr (MPs K × ImpHist K × ImpCount K) :=
  if s.nmp > 0 then
    let mask := s.impactMask ch.outside
    if countTrue mask > 0 then
      if old.length ≠ s.nmp then .error .indexError
      else do
        let rows := maskSel s.rows mask
        let hits ← ((maskSel old (mask.take s.nmp)).zip rows).mapM
          (fun q => ch.hit q.1 (q.2 .x, q.2 .y, q.2 .z))
        let imps := (rows.zip hits).map (fun q => mkImpact sq c.ke q.1 q.2)
        let h1 ← impactHists c s.lifetime tt (rows.map (fun p => p .tl)) imps h
        let out ← sey s.split imps
        let h2 ← emitHists sq c out.replace h1
        let r ← addEmitted sq c (s.replaceHits mask out.replace tt) out.new tt h2
        .ok (r.1, r.2.1, ⟨(imps.map (fun i => i.nel)).sum, out.nelEmit.sum,
          (imps.map (fun i => i.en * i.nel)).sum,
          (out.replace.map (fun e => e.energy sq c.ke * e.nel)).sum + r.2.2⟩)
    else .ok (s, h, ⟨0, 0, 0, 0⟩)
  else .ok (s, h, ⟨0, 0, 0, 0⟩)

end Floor

end PyECLOUD
