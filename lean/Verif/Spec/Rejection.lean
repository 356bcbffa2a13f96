import Verif.Model.MPSystem
import Mathlib.MeasureTheory.Constructions.Pi
import Mathlib.MeasureTheory.Measure.Lebesgue.Basic
import Mathlib.Probability.ConditionalProbability

/-! # Specification: what it means that redrawing until acceptable gives the truncated distribution -/

namespace PyECLOUD

open MeasureTheory ProbabilityTheory

/-- The law of the random numbers available to a loop with `n` entries and at most `k` repetitions: `k + 1` independent numbers of
law `ν i` for each entry `i` (`ω i j`: the number entry `i` gets at its `j`-th draw). -/
noncomputable def drawLaw {X : Type} [MeasurableSpace X] (ν : ℕ → MeasureTheory.Measure X) (n k : ℕ) :
    MeasureTheory.Measure (Fin n → Fin (k + 1) → X) :=
  MeasureTheory.Measure.pi (fun i : Fin n => MeasureTheory.Measure.pi (fun _ => ν i))

/-- the `j`-th draw of entry `i` -/
def drawAt {X : Type} [Inhabited X] {n k : ℕ} (ω : Fin n → Fin (k + 1) → X) (j i : ℕ) : X :=
  if h : i < n ∧ j < k + 1 then ω ⟨i, h.1⟩ ⟨j, h.2⟩ else default

/-- The outcome `res` of a loop with at most `k` repetitions follows, entry by entry and independently, the law `ν i` conditioned
on being accepted: the probability that the loop ends and that the entries lie in given sets is the probability that it ends, times
the product of the conditional probabilities. The loop ends with the probability that each entry has an acceptable number among
`k + 1`, which tends to one unless acceptable numbers have probability zero. `val i x` is the value entry `i` takes when it draws `x`. -/
structure TruncatedLaw {X Y : Type} [MeasurableSpace X] [MeasurableSpace Y] (ν : ℕ → MeasureTheory.Measure X) (n : ℕ) (acc : ℕ → Set X)
    (val : ℕ → X → Y) (res : (k : ℕ) → (Fin n → Fin (k + 1) → X) → Option (ℕ → Y)) : Prop where
  /-- the entries are independent and follow the conditional law -/
  law : ∀ (k : ℕ) (B : ℕ → Set Y), (∀ i, MeasurableSet (B i)) →
    drawLaw ν n k {ω | ∃ r, res k ω = some r ∧ ∀ i < n, r i ∈ B i} =
      drawLaw ν n k {ω | (res k ω).isSome} * ∏ i ∈ Finset.range n, (ν i)[|acc i] (val i ⁻¹' B i)
  /-- the probability of ending within `k` repetitions -/
  ends : ∀ k : ℕ, drawLaw ν n k {ω | (res k ω).isSome} = ∏ i ∈ Finset.range n, (1 - ν i (acc i)ᶜ ^ (k + 1))
  /-- the loop ends almost surely -/
  almostSurely : (∀ i < n, ν i (acc i) ≠ 0) →
    Filter.Tendsto (fun k => drawLaw ν n k {ω | (res k ω).isSome}) Filter.atTop (nhds 1)

end PyECLOUD
