import Verif.Model.Impact

/-!
# Model of the step-by-step part of `pyecloud_saver` (pyecloud_saver.py:695-902)

The output series are arrays that are longer than the number of records; `n` is `i_last_save + 1`. A series is
addressed by its channel; channels that are switched off hold the number -1 in the code and are never written or saved.
-/

namespace PyECLOUD

variable {K : Type} [Field K] [LinearOrder K]

/-- The one-dimensional step-by-step series (pyecloud_saver.py:754-783, 808-811). -/
inductive SCh where
  | t
  | lam
  | nelTimep
  | nelImp
  | nelEmit
  | enImp
  | enEmit
  | enKin
  | cen
  | nMp
  | ref
  | crossNel
  | crossNmp
  | crossDn
  | enElec
  | custom (k : ℕ)
  deriving DecidableEq

/-- Settings (pyecloud_saver.py:740-746, 764, 771, 780, 786-811). `dtSave` is `Dt_save`, a probe is (x, y, radius),
`ke = 0.5*mass/qe`, `pi` is `np.pi`. -/
structure SbsCfg (K : Type) where
  dtSave : K
  rCenter : K
  pi : K
  ke : K
  detailed : Bool
  cross : Bool
  elec : Bool
  probes : List (K × K × K)
  nCustom : ℕ

/-- `Dt_save = (dec_fact_out - 0.0001) * Dt_ref` (pyecloud_saver.py:742). -/
def dtSaveOf (decFact dtRef : K) : K := (decFact - 1 / 10000) * dtRef

/-- The channels in use (pyecloud_saver.py:695-721, 871-900). -/
def SbsCfg.channels (c : SbsCfg K) : List SCh :=
  [.t, .lam, .nelTimep, .nelImp, .nelEmit, .enImp, .enEmit, .enKin, .cen]
    ++ (if c.detailed then [.nMp, .ref] else [])
    ++ (if c.cross then [.crossNel, .crossNmp, .crossDn] else [])
    ++ (if c.elec then [.enElec] else [])
    ++ (List.range c.nCustom).map .custom

/-- What the saver reads at one time step: time, line density, counters of the impact step, the cloud, electric energy,
cross-ionisation data, values of the custom observables, new-passage flag and number, chamber counters, space-charge
recomputation flag and energy. -/
structure WitIn (K : Type) where
  tt : K
  lam : K
  cnt : ImpCount K
  cloud : MPs K
  elec : K
  cross : K × K × K
  custom : ℕ → K
  newPass : Bool
  passNumb : ℕ
  nHit : K
  nCorr : K
  recomp : Bool
  usc : K

/-- State of the step-by-step saver. -/
structure Sbs (K : Type) where
  n : ℕ
  tLast : K
  aImp : K
  aEmit : K
  aEnImp : K
  aEnEmit : K
  buf : SCh → List K
  probe : List (List K)

/-- `_stepbystep_data_init` with initial length `size` (pyecloud_saver.py:734-811); the caller uses 1000
(pyecloud_saver.py:188-191). -/
def Sbs.init (c : SbsCfg K) (size : ℕ) : Sbs K :=
  ⟨0, -1, 0, 0, 0, 0, fun _ => List.replicate size 0, c.probes.map (fun _ => List.replicate size 0)⟩

/-- Live entries of an attribute: `MP_e.f[0:N_mp]`. -/
def MPs.head (s : MPs K) (f : Fld) : List K := (s.arr f).take s.nmp

/-- `np.sum(nel_mp[flag])` for the macroparticles within a radius of a point (pyecloud_saver.py:848-850, 854-856):
the flag is computed on the whole arrays and cleared beyond `N_mp`. -/
def MPs.nelWithin (s : MPs K) (x y r : K) : K :=
  (maskSel (s.arr .nel) ((List.range (s.arr .x).length).map (fun i =>
    decide (i < s.nmp) && decide (((s.arr .x).getD i 0 - x) ^ 2 + ((s.arr .y).getD i 0 - y) ^ 2 < r ^ 2)))).sum

/-- Kinetic energy of the cloud (pyecloud_saver.py:843). -/
def MPs.kinetic (s : MPs K) (ke : K) : K :=
  ((List.range s.nmp).map (fun i => ke * (s.arr .nel).getD i 0 *
    ((s.arr .vx).getD i 0 * (s.arr .vx).getD i 0 + (s.arr .vy).getD i 0 * (s.arr .vy).getD i 0 +
      (s.arr .vz).getD i 0 * (s.arr .vz).getD i 0))).sum

/-- Accumulation of the counters (pyecloud_saver.py:816-819). -/
def Sbs.accumulate (s : Sbs K) (i : WitIn K) : Sbs K :=
  { s with
    aImp := s.aImp + i.cnt.nelImp
    aEmit := s.aEmit + i.cnt.nelEmit
    aEnImp := s.aEnImp + i.cnt.enImp
    aEnEmit := s.aEnEmit + i.cnt.enEmit }

/-- The value written to a channel (pyecloud_saver.py:829-869); the central density has its own formula without
subtraction in the code, here the probe formula at the origin. -/
def Sbs.value (c : SbsCfg K) (s : Sbs K) (i : WitIn K) : SCh → K
  | .t => i.tt
  | .lam => i.lam
  | .nelTimep => (i.cloud.head .nel).sum
  | .nelImp => s.aImp
  | .nelEmit => s.aEmit
  | .enImp => s.aEnImp
  | .enEmit => s.aEnEmit
  | .enKin => i.cloud.kinetic c.ke
  | .cen => i.cloud.nelWithin 0 0 c.rCenter / (c.pi * c.rCenter * c.rCenter)
  | .nMp => (i.cloud.nmp : K)
  | .ref => i.cloud.ref
  | .crossNel => i.cross.1
  | .crossNmp => i.cross.2.1
  | .crossDn => i.cross.2.2
  | .enElec => i.elec
  | .custom k => i.custom k

/-- The density at a probe (pyecloud_saver.py:852-856). -/
def probeValue (c : SbsCfg K) (i : WitIn K) (p : K × K × K) : K :=
  i.cloud.nelWithin p.1 p.2.1 p.2.2 / (c.pi * p.2.2 ^ 2)

/-- `np.concatenate((vv, 0 * vv))` (pyecloud_saver.py:723-731). -/
def dbl (l : List K) : List K := l ++ l.map (fun v => 0 * v)

/-- `_stepbystep_check_for_data_resize` (pyecloud_saver.py:695-732): the condition `i_last_save >= len(t) - 1`. -/
def Sbs.resize (c : SbsCfg K) (s : Sbs K) : Sbs K :=
  if (s.n : ℤ) - 1 ≥ ((s.buf .t).length : ℤ) - 1 then
    { s with
      buf := fun ch => if ch ∈ c.channels then dbl (s.buf ch) else s.buf ch
      probe := s.probe.map dbl }
  else s

/-- The assignments at index `i_last_save` (pyecloud_saver.py:829-869): an index beyond an array raises. -/
def Sbs.write (c : SbsCfg K) (s : Sbs K) (i : WitIn K) : Except PyErr (Sbs K) :=
  if (∀ ch ∈ c.channels, s.n < (s.buf ch).length) ∧ (∀ row ∈ s.probe, s.n < row.length) then
    .ok { n := s.n + 1
          tLast := i.tt
          aImp := 0
          aEmit := 0
          aEnImp := 0
          aEnEmit := 0
          buf := fun ch => if ch ∈ c.channels then (s.buf ch).set s.n (s.value c i ch) else s.buf ch
          probe := (s.probe.zip c.probes).map (fun q => q.1.set s.n (probeValue c i q.2)) }
  else .error .indexError

/-- `_stepbystep_data_save` (pyecloud_saver.py:813-869). -/
def Sbs.save (c : SbsCfg K) (s : Sbs K) (i : WitIn K) : Except PyErr (Sbs K) :=
  let a := s.accumulate i
  if i.tt - a.tLast ≥ c.dtSave then (a.resize c).write c i else .ok a

/-- Consecutive time steps. -/
def Sbs.saveAll (c : SbsCfg K) : Sbs K → List (WitIn K) → Except PyErr (Sbs K)
  | s, [] => .ok s
  | s, i :: l =>
    match s.save c i with
    | .ok s' => Sbs.saveAll c s' l
    | .error e => .error e

/-- A series of the output dictionary, `series[:i_last_save + 1]` (pyecloud_saver.py:871-902). -/
def Sbs.series (s : Sbs K) (ch : SCh) : List K := (s.buf ch).take s.n

/-- The probe densities of the output dictionary, `el_dens_at_probes[:, :i_last_save]` (pyecloud_saver.py:897); the
slice `[:-1]` drops the last column. -/
def Sbs.probeSeries (s : Sbs K) : List (List K) :=
  s.probe.map (fun row => if s.n = 0 then row.dropLast else row.take (s.n - 1))

end PyECLOUD
