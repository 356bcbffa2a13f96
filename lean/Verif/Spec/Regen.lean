import Verif.Model.Regen
import Verif.Spec.Cloud

/-! # Specification vocabulary for the full regeneration -/

namespace PyECLOUD

variable {K : Type} [Field K] [LinearOrder K]

/-- What the constructor of `MP_system` and a running simulation guarantee when a full regeneration
starts: a symmetric x histogram covering the cloud (MP_system.py:112-118), at least two cells per axis,
non-negative sizes, positive initial reference size. -/
structure RegenSetup (c : FullCfg K) (s : MPs K) : Prop where
  wf : s.WF
  cap : 0 < s.cap
  dx : 0 < c.histDx
  n : 0 < c.histN
  sym : c.histBias = -(((c.histN : K) - 1) / 2 * c.histDx)
  cut0 : 0 ≤ c.histCut
  cut1 : c.histCut ≤ 1
  nx : 2 ≤ c.nx
  ny : 2 ≤ c.ny
  nvx : 2 ≤ c.nvx
  nvy : 2 ≤ c.nvy
  nvz : 2 ≤ c.nvz
  ya : 0 < c.yAper
  inX : ∀ p ∈ s.live, |p .x| ≤ -c.histBias
  size : ∀ p ∈ s.live, 0 ≤ p .nel
  ref : 0 < s.ref0

/-- centre coordinate of the 1-based cell `i` on an axis with `n` cells of width `d` -/
def axisCentre (n : ℕ) (d : K) (i : ℤ) : K := ((i : K) - (((n + 1) / 2 : ℕ) : K)) * d

/-- The cell width along a velocity axis with `n` cells: `2*m/(n-1)` where `m` covers the macroparticles
`kept` and is the modulus of a velocity stored in the array (live or stale), or the fallback `1e-5`. -/
def VelStep (s : MPs K) (f : Fld) (kept : List (Particle K)) (n : ℕ) (w : K) : Prop :=
  ∃ m, 0 < m ∧ w = 2 * m / ((n : K) - 1) ∧ (∀ p ∈ kept, |p f| ≤ m) ∧
    (m = 1 / 100000 ∨ ∃ v ∈ s.arr f, m = |v|)

/-- The phase-space grid of a regeneration of `s`: it covers `[-xMax, xMax]`, the vertical aperture and
the velocities of the macroparticles `kept`. -/
structure GridSteps (c : FullCfg K) (s : MPs K) (xMax : K) (kept : List (Particle K)) (st : Steps K) : Prop where
  x : st.x = 2 * xMax / ((c.nx : K) - 1)
  y : st.y = 2 * c.yAper / ((c.ny : K) - 1)
  vx : VelStep s .vx kept c.nvx st.vx
  vy : VelStep s .vy kept c.nvy st.vy
  vz : VelStep s .vz kept c.nvz st.vz

end PyECLOUD
