import Verif.Model.PyHT

/-!
# What the slices of a beam should do to the cloud simulation
-/

namespace PyECLOUD

variable {K : Type} [Field K] [LinearOrder K] [FloorRing K]

/-- The cloud steps made for one slice, starting at time `t0`; `flag`: this slice begins a new passage. -/
structure SliceBlock (g : EcCfg K) (sl : SliceIn K) (t0 : K) (flag : Bool) (blk : List (SimCall K)) : Prop where
  nonempty : blk ≠ []
  /-- the steps add up to the duration of the slice -/
  total : (blk.map (fun q => q.dt)).sum = sl.dz / (g.beta * g.c)
  /-- and follow each other -/
  start : ∀ (i : ℕ) (q : SimCall K), blk[i]? = some q → q.t = t0 + ((blk.take i).map (fun q => q.dt)).sum
  /-- none is longer than the build-up time step -/
  short : ∀ D, g.Dt = some D → ∀ q ∈ blk, q.dt ≤ D
  /-- each is divided in sub-steps that add up, as near to the wanted length as an integer number allows -/
  sub : ∀ q ∈ blk, 1 ≤ q.nSub ∧ (q.nSub : K) * q.dtSub = q.dt ∧ (q.dt ≤ g.dtRef → q.nSub = 1) ∧
    (g.dtRef < q.dt → |q.dt / g.dtRef - (q.nSub : K)| ≤ 1 / 2)
  /-- only the first can begin a passage -/
  flags : ∀ (i : ℕ) (q : SimCall K), blk[i]? = some q → (q.newPass = true ↔ i = 0 ∧ flag = true)
  /-- the field is recomputed in the first, and in all when the slice interacts with the cloud -/
  forced : ∀ (i : ℕ) (q : SimCall K), blk[i]? = some q → (q.force = true ↔ i = 0 ∨ sl.interacts = true)
  /-- a slice that interacts with the cloud makes one step -/
  one : sl.interacts = true → blk.length = 1
  /-- and suspends cleanings and regenerations -/
  quiet : ∀ q ∈ blk, q.skipClean = sl.interacts ∧ q.skipRegen = sl.interacts

/-- Slices numbered by bunch and position in the bunch: `seen` lists the bunches met since the last start of the train (the
first slice of bunch 0). A slice begins a new passage if it starts the train or is of a later bunch than all those. -/
def passFlags : List ℤ → List (ℤ × ℤ) → List Bool
  | _, [] => []
  | seen, (b, i) :: l =>
    if b = 0 ∧ i = 0 then true :: passFlags [0] l
    else decide (∀ b' ∈ seen, b' < b) :: passFlags (b :: seen) l

/-- two turns of a train of two bunches of three slices: a new passage at each bunch -/
example : passFlags [] ((List.range 12).map (fun k => (((k / 3 % 2 : ℕ) : ℤ), ((k % 3 : ℕ) : ℤ)))) =
    [true, false, false, true, false, false, true, false, false, true, false, false] := by decide

end PyECLOUD
