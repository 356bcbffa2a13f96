import Verif.Model.SaverHist
import Verif.Spec.Saver
import Verif.Spec.Hist

/-!
# Specification vocabulary: accumulated and flushed histograms
-/

namespace PyECLOUD

variable {K : Type} [Field K] [LinearOrder K]

/-- A time step as seen by the histograms: what it deposits, and what the saver is given. -/
abbrev HistEv (K : Type) := ImpHist K × WitIn K

/-- One closed group: the earlier steps, and the step at which the record is made. -/
abbrev HGroup (K : Type) := List (HistEv K) × HistEv K

/-- All steps of a group. -/
def HGroup.steps (g : HGroup K) : List (HistEv K) := g.1 ++ [g.2]

/-- Groups closed by the first step that is due; `tp` is the time of the previous record. -/
def GroupedBy (due : K → WitIn K → Bool) : K → List (HGroup K) → List (HistEv K) → Prop
  | tp, [], opn => ∀ e ∈ opn, due tp e.2 = false
  | tp, g :: gs, opn => (∀ e ∈ g.1, due tp e.2 = false) ∧ due tp g.2.2 = true ∧ GroupedBy due g.2.2.tt gs opn

/-- A record is due at time `t`: at least the interval `dt` after the previous record, or short of it by at most 1e-10 of the
time. -/
def dueAt (tp dt t : K) : Bool := decide (tp + dt ≤ t ∨ |t - (tp + dt)| ≤ 1 / 10000000000 * |tp + dt|)

/-- Bin by bin sum of histograms with `n` bins. -/
def binSums (n : ℕ) (ds : List (List K)) : List K :=
  (List.range n).map (fun k => (ds.map (fun d => d.getD k 0)).sum)

/-- Linear (cloud-in-cell) histogram of weighted values on `n` nodes. -/
def cicHist (n : ℕ) (bias dx : K) (ps : List (K × K)) : List K :=
  (List.range n).map (fun k => (ps.map (fun p => p.2 * cicWeight n ((p.1 - bias) / dx) k)).sum)

end PyECLOUD
