import Verif.Lemmas.UniformDraws
import Mathlib.Probability.Moments.Variance

/-! # Lemmas: mean and spread of a sum of functions of independent random numbers -/

namespace PyECLOUD

open MeasureTheory ProbabilityTheory

/-- mean, mean square deviation and Chebyshev bound of a sum of bounded functions, one of each random number -/
theorem draws_sum (n : ℕ) (f : Fin n → ℝ → ℝ) (a b : ℝ) (hm : ∀ i, Measurable (f i)) (hb : ∀ i x, f i x ∈ Set.Icc a b) :
    Integrable (fun u : Fin n → ℝ => ∑ i, f i (u i)) (uniformDraws n) ∧
    ∫ u, ∑ i, f i (u i) ∂(uniformDraws n) = ∑ i, ∫ x, f i x ∂unitM ∧
    ∫ u, (∑ i, f i (u i) - ∑ i, ∫ x, f i x ∂unitM) ^ 2 ∂(uniformDraws n) = ∑ i, (∫ x, f i x ^ 2 ∂unitM - (∫ x, f i x ∂unitM) ^ 2) ∧
    ∀ k : ℝ, 0 < k → uniformDraws n {u | k ≤ |∑ i, f i (u i) - ∑ i, ∫ x, f i x ∂unitM|} ≤
      ENNReal.ofReal ((∑ i, (∫ x, f i x ^ 2 ∂unitM - (∫ x, f i x ∂unitM) ^ 2)) / k ^ 2) := by
  have hL : ∀ i, MemLp (f i) 2 unitM := fun i =>
    memLp_of_bounded (Filter.Eventually.of_forall (hb i)) (hm i).aestronglyMeasurable 2
  have hI : ∀ i, Integrable (f i) unitM := fun i => (hL i).integrable (by norm_num)
  have hIe : ∀ i, Integrable (fun u : Fin n → ℝ => f i (u i)) (uniformDraws n) := fun i => uniformDraws_integrable_eval n i _ (hI i)
  have hint : Integrable (fun u : Fin n → ℝ => ∑ i, f i (u i)) (uniformDraws n) := integrable_finset_sum _ (fun i _ => hIe i)
  have hmean : ∫ u, ∑ i, f i (u i) ∂(uniformDraws n) = ∑ i, ∫ x, f i x ∂unitM := by
    rw [integral_finsetSum _ (fun i _ => hIe i)]
    exact Finset.sum_congr rfl (fun i _ => uniformDraws_eval n i _ (hm i).aestronglyMeasurable)
  have hmeas : Measurable (fun u : Fin n → ℝ => ∑ i, f i (u i)) :=
    Finset.measurable_sum _ (fun i _ => (hm i).comp (measurable_pi_apply i))
  have hv : Var[fun u : Fin n → ℝ => ∑ i, f i (u i); uniformDraws n] = ∑ i, (∫ x, f i x ^ 2 ∂unitM - (∫ x, f i x ∂unitM) ^ 2) := by
    have h := variance_sum_pi (ι := Fin n) (μ := fun _ => unitM) (X := f) hL
    have e : (∑ i, fun ω : Fin n → ℝ => f i (ω i)) = fun u : Fin n → ℝ => ∑ i, f i (u i) := by
      funext u; simp
    rw [e] at h
    unfold uniformDraws
    rw [h]
    apply Finset.sum_congr rfl
    intro i _
    rw [variance_eq_sub (hL i)]
    simp [Pi.pow_apply]
  have hL2 : MemLp (fun u : Fin n → ℝ => ∑ i, f i (u i)) 2 (uniformDraws n) := by
    refine memLp_of_bounded (a := n * a) (b := n * b) (Filter.Eventually.of_forall (fun u => ?_)) hmeas.aestronglyMeasurable 2
    constructor
    · have := Finset.card_nsmul_le_sum Finset.univ (fun i => f i (u i)) a (fun i _ => (hb i (u i)).1)
      simpa [nsmul_eq_mul] using this
    · have := Finset.sum_le_card_nsmul Finset.univ (fun i => f i (u i)) b (fun i _ => (hb i (u i)).2)
      simpa [nsmul_eq_mul] using this
  refine ⟨hint, hmean, ?_, ?_⟩
  · rw [← hv, variance_eq_integral hmeas.aemeasurable, hmean]
  · intro k hk
    have := meas_ge_le_variance_div_sq hL2 hk
    rwa [hv, hmean] at this

end PyECLOUD
