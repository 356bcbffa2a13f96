import Verif.Model.Parallel
import Mathlib.Logic.Relation

/-!
# What a parallel build-up should compute

All processes do time step `k` together; at a step where the field is recomputed, every process gets the field of the
mean of the densities of all processes.
-/

namespace PyECLOUD

section
variable {K : Type} [Field K] {n L : ℕ} {A F : Type}

/-- the mean over the processes of the total density of each -/
def meanDensity (P : MpiProg A F K n L) (s : Fin (n + 1) → MpiRank A F K L) : Fin L → K :=
  fun j => (∑ r, (P.deps r (s r).own).sum j) / ((n + 1 : ℕ) : K)

/-- one time step of all processes together; `d` tells whether the field is recomputed -/
def togetherStep (P : MpiProg A F K n L) (k : ℕ) (d : Bool) (s : Fin (n + 1) → MpiRank A F K L) :
    Fin (n + 1) → MpiRank A F K L :=
  let m : Fin (n + 1) → MpiRank A F K L := fun r => { s r with own := P.move r k (s r) }
  let c : Fin (n + 1) → MpiRank A F K L := fun r => cond d (P.recompute r (m r) (meanDensity P m)) (m r)
  fun r => { c r with own := P.after r k (c r) }

/-- all the processes after `k` time steps done together -/
def together (P : MpiProg A F K n L) (s0 : Fin (n + 1) → MpiRank A F K L) (dec : List Bool) :
    ℕ → Fin (n + 1) → MpiRank A F K L
  | 0 => s0
  | k + 1 => togetherStep P k (dec.getD k false) (together P s0 dec k)

/-- states that can be reached under some order of events -/
def MpiReach (P : MpiProg A F K n L) : MpiSys A F K n L → MpiSys A F K n L → Prop := Relation.ReflTransGen (MpiStep P)

/-- `m` events lead from `s` to `s'` -/
inductive MpiExec (P : MpiProg A F K n L) : ℕ → MpiSys A F K n L → MpiSys A F K n L → Prop
  | nil (s : MpiSys A F K n L) : MpiExec P 0 s s
  | cons {m : ℕ} {s s' s'' : MpiSys A F K n L} : MpiExec P m s s' → MpiStep P s' s'' → MpiExec P (m + 1) s s''

end

end PyECLOUD
