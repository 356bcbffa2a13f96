import Verif.Spec.Unbiased

/-! # Charge emitted by elastic and by true secondary events of a call, for given random numbers -/

namespace PyECLOUD

/-- The charge of the events with the given flag (`true`: elastic); `out` holds the emitted charge and the flag of every impact. -/
def flaggedCharge (elast : Bool) (out : List (ℝ × Bool)) : ℝ := ((out.filter (fun q => q.2 == elast)).map (fun q => q.1)).sum

/-- Random numbers for the `n` impacts of a call, as a sequence. -/
def drawFn {n : ℕ} (ω : Fin n → ℝ) (k : ℕ) : ℝ := if h : k < n then ω ⟨k, h⟩ else 0

end PyECLOUD
