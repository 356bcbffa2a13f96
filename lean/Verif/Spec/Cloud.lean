import Verif.Model.MPSystem

/-!
# Specification vocabulary: the cloud as a list of particles

The abstract view of an `MP_system` is the list of its live macroparticles, each one a record of its
eight attributes. Properties are stated on this list, not on the arrays.
-/

namespace PyECLOUD

/-- A macroparticle: the value of each of its attributes. -/
abbrev Particle (K : Type) := Fld → K

variable {K : Type}

/-- The last-impact time is an attribute only when lifetime histograms are enabled. -/
def MPs.tracked (s : MPs K) (f : Fld) : Bool := f != .tl || s.lifetime

/-- The live macroparticles, in order. An untracked last-impact time reads as `-1`. -/
def MPs.live [Field K] (s : MPs K) : List (Particle K) :=
  (List.range s.nmp).map (fun i f => if s.tracked f then (s.arr f).getD i 0 else -1)

/-- Total charge of a list of macroparticles. -/
def totalCharge [Field K] (l : List (Particle K)) : K := (l.map (fun p => p .nel)).sum

/-- Allocated number of macroparticles (`N_mp_max`). -/
def MPs.cap (s : MPs K) : ℕ := (s.arr .x).length

/-- Array shapes: every array has length `N_mp_max` and the live part fits. -/
structure MPs.WF (s : MPs K) : Prop where
  len : ∀ f, (s.arr f).length = s.cap
  fits : s.nmp ≤ s.cap

/-- Every dead slot has size zero. -/
def MPs.ZeroTail [Field K] (s : MPs K) : Prop := ∀ i, s.nmp ≤ i → (s.arr .nel).getD i 0 = 0

/-- Replace one attribute of a particle. -/
def Particle.set (p : Particle K) (f : Fld) (v : K) : Particle K := Function.update p f v

/-- the values a source provides for `n` slots -/
def Src.expand {α : Type} (n : ℕ) : Src α → List α
  | .scalar v => List.replicate n v
  | .array l => l

/-- a source provides exactly `n` values (scalars always do) -/
def Src.Fits {α : Type} (n : ℕ) : Src α → Prop
  | .scalar _ => True
  | .array l => l.length = n

/-- the block of `n` particles described by a source -/
def srcParticles [Field K] (tr : Fld → Bool) (n : ℕ) (src : Fld → Src K) : List (Particle K) :=
  (List.range n).map (fun i f => if tr f then ((src f).expand n).getD i 0 else -1)

end PyECLOUD
