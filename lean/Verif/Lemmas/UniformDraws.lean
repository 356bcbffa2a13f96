import Verif.Spec.Unbiased
import Mathlib.MeasureTheory.Integral.Pi
import Mathlib.MeasureTheory.Integral.IntervalIntegral.Basic

/-! # Lemmas: averages over independent uniform random numbers -/

set_option linter.unusedSectionVars false

namespace PyECLOUD

open MeasureTheory

noncomputable abbrev unitM : MeasureTheory.Measure ℝ := MeasureTheory.volume.restrict (Set.Icc (0 : ℝ) 1)

instance : IsProbabilityMeasure unitM := ⟨by simp [unitM]⟩

instance (n : ℕ) : IsProbabilityMeasure (uniformDraws n) := by
  unfold uniformDraws
  exact Measure.pi.instIsProbabilityMeasure (fun _ : Fin n => unitM)

theorem uniformDraws_cube (n : ℕ) : ∀ᵐ u ∂(uniformDraws n), ∀ i, u i ∈ Set.Icc (0 : ℝ) 1 := by
  rw [ae_all_iff]
  intro i
  have h : ∀ᵐ x ∂unitM, x ∈ Set.Icc (0 : ℝ) 1 := ae_restrict_mem measurableSet_Icc
  exact (measurePreserving_eval (fun _ : Fin n => unitM) i).quasiMeasurePreserving.ae h

theorem uniformDraws_eval (n : ℕ) (i : Fin n) (f : ℝ → ℝ) (hf : AEStronglyMeasurable f unitM) :
    ∫ u, f (u i) ∂(uniformDraws n) = ∫ x, f x ∂unitM :=
  integral_comp_eval (μ := fun _ : Fin n => unitM) hf

theorem uniformDraws_integrable_eval (n : ℕ) (i : Fin n) (f : ℝ → ℝ) (hf : Integrable f unitM) :
    Integrable (fun u : Fin n → ℝ => f (u i)) (uniformDraws n) :=
  integrable_comp_eval (μ := fun _ : Fin n => unitM) hf

theorem unit_interval (f : ℝ → ℝ) : ∫ x, f x ∂unitM = ∫ x in (0 : ℝ)..1, f x := by
  rw [intervalIntegral.integral_of_le zero_le_one, integral_Icc_eq_integral_Ioc]

/-- survival indicator -/
noncomputable def hit (q x : ℝ) : ℝ := if q < x then 1 else 0

theorem hit_meas (q : ℝ) : Measurable (hit q) := by
  unfold hit
  exact Measurable.ite measurableSet_Ioi measurable_const measurable_const

theorem hit_mean (q : ℝ) (h0 : 0 ≤ q) (h1 : q ≤ 1) : ∫ x, hit q x ∂unitM = 1 - q := by
  have e : hit q = Set.indicator (Set.Ioi q) (fun _ => (1 : ℝ)) := by
    funext x; unfold hit Set.indicator; rfl
  rw [e, integral_indicator measurableSet_Ioi, setIntegral_const, Measure.real, Measure.restrict_apply measurableSet_Ioi]
  have : Set.Ioi q ∩ Set.Icc 0 1 = Set.Ioc q 1 := by
    ext x; simp only [Set.mem_inter_iff, Set.mem_Ioi, Set.mem_Icc, Set.mem_Ioc]
    constructor
    · rintro ⟨a, -, b⟩; exact ⟨a, b⟩
    · rintro ⟨a, b⟩; exact ⟨a, by linarith, b⟩
  rw [this, Real.volume_Ioc, ENNReal.toReal_ofReal (by linarith)]
  simp

theorem hit_bd (q x : ℝ) : 0 ≤ hit q x ∧ hit q x ≤ 1 := by
  unfold hit; split <;> norm_num

theorem hit_int (q : ℝ) : Integrable (hit q) unitM := by
  refine Integrable.of_bound (hit_meas q).aestronglyMeasurable 1 (Filter.Eventually.of_forall ?_)
  intro x
  rw [Real.norm_eq_abs, abs_of_nonneg (hit_bd q x).1]
  exact (hit_bd q x).2

/-- number of survivors -/
noncomputable def hits (q : ℝ) {n : ℕ} (u : Fin n → ℝ) : ℝ := ∑ j, hit q (u j)

theorem hits_meas (q : ℝ) (n : ℕ) : Measurable (hits q (n := n)) := by
  unfold hits
  exact Finset.measurable_sum _ (fun j _ => (hit_meas q).comp (measurable_pi_apply j))

theorem share_bd (q : ℝ) {n : ℕ} (u : Fin n → ℝ) (i : Fin n) : 0 ≤ hit q (u i) / hits q u ∧ hit q (u i) / hits q u ≤ 1 := by
  have h0 : 0 ≤ hits q u := Finset.sum_nonneg (fun j _ => (hit_bd q (u j)).1)
  have h1 : hit q (u i) ≤ hits q u :=
    Finset.single_le_sum (f := fun j => hit q (u j)) (fun j _ => (hit_bd q (u j)).1) (Finset.mem_univ i)
  exact ⟨div_nonneg (hit_bd q _).1 h0, div_le_one_of_le₀ h1 h0⟩

theorem share_int (q : ℝ) (n : ℕ) (i : Fin n) : Integrable (fun u : Fin n → ℝ => hit q (u i) / hits q u) (uniformDraws n) := by
  refine Integrable.of_bound ?_ 1 (Filter.Eventually.of_forall ?_)
  · exact (((hit_meas q).comp (measurable_pi_apply i)).div (hits_meas q n)).aestronglyMeasurable
  · intro u
    rw [Real.norm_eq_abs, abs_of_nonneg (share_bd q u i).1]
    exact (share_bd q u i).2

/-- the draws are exchangeable -/
theorem share_sym (q : ℝ) (n : ℕ) (i j : Fin n) :
    ∫ u, hit q (u i) / hits q u ∂(uniformDraws n) = ∫ u, hit q (u j) / hits q u ∂(uniformDraws n) := by
  have hp := measurePreserving_arrowCongr' (fun _ : Fin n => unitM) (fun _ : Fin n => unitM) (Equiv.swap i j)
    (MeasurableEquiv.refl ℝ) (fun _ => MeasurePreserving.id _)
  have := hp.integral_comp' (g := fun u : Fin n → ℝ => hit q (u i) / hits q u)
  unfold uniformDraws
  rw [← this]
  apply integral_congr_ae
  refine Filter.Eventually.of_forall ?_
  intro u
  have e1 : ∀ k, (MeasurableEquiv.arrowCongr' (Equiv.swap i j) (MeasurableEquiv.refl ℝ)) u k = u (Equiv.swap i j k) := by
    intro k; simp [MeasurableEquiv.arrowCongr', Equiv.arrowCongr']
  have e2 : hits q ((MeasurableEquiv.arrowCongr' (Equiv.swap i j) (MeasurableEquiv.refl ℝ)) u) = hits q u := by
    unfold hits
    simp only [e1]
    exact Equiv.sum_comp (Equiv.swap i j) (fun k => hit q (u k))
  simp only [e2, e1, Equiv.swap_apply_left]

theorem hits_zero (q : ℝ) {n : ℕ} (u : Fin n → ℝ) : 1 - ∏ j, (1 - hit q (u j)) = ∑ i, hit q (u i) / hits q u := by
  rw [← Finset.sum_div]
  change _ = hits q u / hits q u
  by_cases h : ∃ j, q < u j
  · obtain ⟨j, hj⟩ := h
    have hj1 : hit q (u j) = 1 := by unfold hit; rw [if_pos hj]
    have h1 : hit q (u j) ≤ hits q u :=
      Finset.single_le_sum (f := fun j => hit q (u j)) (fun j _ => (hit_bd q (u j)).1) (Finset.mem_univ j)
    rw [div_self (by rw [hj1] at h1; linarith), Finset.prod_eq_zero (Finset.mem_univ j) (by rw [hj1]; ring)]
    ring
  · push Not at h
    have : ∀ j, hit q (u j) = 0 := fun j => by unfold hit; rw [if_neg (not_lt.2 (h j))]
    unfold hits
    simp [this]

theorem share_mean (q : ℝ) (h0 : 0 ≤ q) (h1 : q ≤ 1) (n : ℕ) (i : Fin n) :
    ∫ u, hit q (u i) / hits q u ∂(uniformDraws n) = (1 - q ^ n) / n := by
  have hsum : ∫ u, ∑ k, hit q (u k) / hits q u ∂(uniformDraws n) = n * ∫ u, hit q (u i) / hits q u ∂(uniformDraws n) := by
    rw [integral_finset_sum _ (fun k _ => share_int q n k)]
    rw [Finset.sum_congr rfl (fun k _ => share_sym q n k i)]
    simp
  have hn : (n : ℝ) ≠ 0 := by
    have := i.2
    have : n ≠ 0 := by omega
    exact_mod_cast this
  have hprod : ∫ u, ∏ j, (1 - hit q (u j)) ∂(uniformDraws n) = q ^ n := by
    unfold uniformDraws
    rw [integral_fintype_prod_eq_prod (fun _ x => 1 - hit q x)]
    have : ∫ x, (1 - hit q x) ∂unitM = q := by
      rw [integral_sub (integrable_const _) (hit_int q), hit_mean q h0 h1]
      simp
    simp [this]
  have hpi : Integrable (fun u : Fin n → ℝ => ∏ j, (1 - hit q (u j))) (uniformDraws n) := by
    unfold uniformDraws
    exact Integrable.fintype_prod (f := fun _ x => 1 - hit q x) (fun _ => (integrable_const _).sub (hit_int q))
  rw [← integral_congr_ae (Filter.Eventually.of_forall (fun u => hits_zero q u)), integral_sub (integrable_const _) hpi, hprod] at hsum
  simp at hsum
  rw [hsum]
  field_simp

end PyECLOUD
