import Verif.Props.Faddeeva
import Mathlib.Analysis.Calculus.ParametricIntegral

/-!
# The derivative of the complex error function
-/

namespace PyECLOUD

open MeasureTheory Set Filter Topology Complex

theorem wf_norm (z : ℂ) (u : ℝ) : ‖cexp (-(u : ℂ) ^ 2 + 2 * I * u * z)‖ = Real.exp (-u ^ 2 - 2 * u * z.im) := by
  rw [Complex.norm_exp]
  congr 1
  simp [← Complex.ofReal_pow]
  ring

theorem wf_le (z : ℂ) (b u : ℝ) (hu : 0 ≤ u) (hb : -z.im ≤ b) :
    ‖cexp (-(u : ℂ) ^ 2 + 2 * I * u * z)‖ ≤ Real.exp (2 * b ^ 2) * Real.exp (-(1 / 2) * u ^ 2) := by
  rw [wf_norm, ← Real.exp_add, Real.exp_le_exp]
  nlinarith [sq_nonneg (u - 2 * b), mul_le_mul_of_nonneg_left hb hu]

theorem wf_deriv_u (z : ℂ) (u : ℝ) :
    HasDerivAt (fun u : ℝ => cexp (-(u : ℂ) ^ 2 + 2 * I * u * z)) ((-2 * u + 2 * I * z) * cexp (-(u : ℂ) ^ 2 + 2 * I * u * z)) u := by
  have h1 : HasDerivAt (fun u : ℝ => (u : ℂ)) 1 u := Complex.ofRealCLM.hasDerivAt
  have h2 : HasDerivAt (fun u : ℝ => -(u : ℂ) ^ 2 + 2 * I * u * z) (-(2 * (u : ℂ)) + 2 * I * z) u := by
    have := ((h1.pow 2).neg).add ((h1.const_mul (2 * I)).mul_const z)
    refine this.congr_deriv ?_
    simp
  refine h2.cexp.congr_deriv ?_
  ring

theorem wf_int (n : ℕ) (z : ℂ) : IntegrableOn (fun u : ℝ => (u : ℂ) ^ n * cexp (-(u : ℂ) ^ 2 + 2 * I * u * z)) (Ioi 0) := by
  refine ((pow_exp_sq_int n (1 / 2) (by norm_num)).const_mul (Real.exp (2 * (|z.im|) ^ 2))).mono'
    (Continuous.aestronglyMeasurable (by fun_prop)).restrict ?_
  refine (ae_restrict_mem measurableSet_Ioi).mono fun u hu => ?_
  have hu0 : 0 ≤ u := le_of_lt hu
  rw [norm_mul, norm_pow, Complex.norm_real, Real.norm_of_nonneg hu0]
  have := wf_le z |z.im| u hu0 (neg_le_abs _)
  calc u ^ n * ‖cexp (-(u : ℂ) ^ 2 + 2 * I * u * z)‖ ≤ u ^ n * (Real.exp (2 * (|z.im|) ^ 2) * Real.exp (-(1 / 2) * u ^ 2)) := by gcongr
    _ = _ := by ring

/-- Integration by parts. -/
theorem wf_parts (z : ℂ) : 2 * ∫ u in Ioi (0 : ℝ), (u : ℂ) * cexp (-(u : ℂ) ^ 2 + 2 * I * u * z) =
    1 + 2 * I * z * ∫ u in Ioi (0 : ℝ), cexp (-(u : ℂ) ^ 2 + 2 * I * u * z) := by
  have i0 : IntegrableOn (fun u : ℝ => cexp (-(u : ℂ) ^ 2 + 2 * I * u * z)) (Ioi 0) := by simpa using wf_int 0 z
  have i1 : IntegrableOn (fun u : ℝ => (u : ℂ) * cexp (-(u : ℂ) ^ 2 + 2 * I * u * z)) (Ioi 0) := by simpa using wf_int 1 z
  have hsum : ∀ u : ℝ, (-2 * (u : ℂ) + 2 * I * z) * cexp (-(u : ℂ) ^ 2 + 2 * I * u * z) =
      -2 * ((u : ℂ) * cexp (-(u : ℂ) ^ 2 + 2 * I * u * z)) + 2 * I * z * cexp (-(u : ℂ) ^ 2 + 2 * I * u * z) := fun u => by ring
  have hint : IntegrableOn (fun u : ℝ => (-2 * (u : ℂ) + 2 * I * z) * cexp (-(u : ℂ) ^ 2 + 2 * I * u * z)) (Ioi 0) := by
    simp only [hsum]
    exact (i1.const_mul (-2)).add (i0.const_mul (2 * I * z))
  have ht : Tendsto (fun u : ℝ => cexp (-(u : ℂ) ^ 2 + 2 * I * u * z)) atTop (𝓝 0) := by
    rw [tendsto_zero_iff_norm_tendsto_zero]
    have h1 : Tendsto (fun u : ℝ => Real.exp (2 * (|z.im|) ^ 2) * Real.exp (-(1 / 2) * u ^ 2)) atTop (𝓝 0) := by
      have hsq : Tendsto (fun u : ℝ => 1 / 2 * u ^ 2) atTop atTop := (tendsto_pow_atTop (by norm_num)).const_mul_atTop (by norm_num)
      have := (Real.tendsto_exp_neg_atTop_nhds_zero.comp hsq).const_mul (Real.exp (2 * (|z.im|) ^ 2))
      rw [mul_zero] at this
      refine this.congr fun u => ?_
      simp [neg_mul]
    refine squeeze_zero' (Eventually.of_forall fun _ => norm_nonneg _) ?_ h1
    filter_upwards [eventually_ge_atTop (0 : ℝ)] with u hu
    exact wf_le z |z.im| u hu (neg_le_abs _)
  have h := integral_Ioi_of_hasDerivAt_of_tendsto' (a := (0 : ℝ)) (fun u _ => wf_deriv_u z u) hint ht
  have e : ∫ u in Ioi (0 : ℝ), (-2 * (u : ℂ) + 2 * I * z) * cexp (-(u : ℂ) ^ 2 + 2 * I * u * z) =
      -2 * (∫ u in Ioi (0 : ℝ), (u : ℂ) * cexp (-(u : ℂ) ^ 2 + 2 * I * u * z)) +
        2 * I * z * ∫ u in Ioi (0 : ℝ), cexp (-(u : ℂ) ^ 2 + 2 * I * u * z) := by
    simp only [hsum]
    rw [integral_add (i1.const_mul (-2)) (i0.const_mul (2 * I * z)), integral_const_mul, integral_const_mul]
  rw [e] at h
  simp only [Complex.ofReal_zero] at h
  norm_num at h
  linear_combination -h

/-- `w' = 2 i / √π - 2 z w`. -/
theorem faddeeva_deriv (z : ℂ) : HasDerivAt faddeeva (2 * I / (√Real.pi : ℝ) - 2 * z * faddeeva z) z := by
  have h := hasDerivAt_integral_of_dominated_loc_of_deriv_le (μ := volume.restrict (Ioi (0 : ℝ)))
    (F := fun (z : ℂ) (u : ℝ) => cexp (-(u : ℂ) ^ 2 + 2 * I * u * z)) (F' := fun (z : ℂ) (u : ℝ) => 2 * I * ((u : ℂ) * cexp (-(u : ℂ) ^ 2 + 2 * I * u * z)))
    (x₀ := z) (s := Metric.ball z 1) (bound := fun u => 2 * (Real.exp (2 * (|z.im| + 1) ^ 2) * (u ^ 1 * Real.exp (-(1 / 2) * u ^ 2))))
    (Metric.ball_mem_nhds z one_pos)
    (Eventually.of_forall fun z => (Continuous.aestronglyMeasurable (by fun_prop)).restrict)
    (by have := wf_int 0 z; simp only [pow_zero, one_mul] at this; exact this)
    (Continuous.aestronglyMeasurable (by fun_prop)).restrict
    ((ae_restrict_mem measurableSet_Ioi).mono fun u hu y hy => by
      have hu0 : 0 ≤ u := le_of_lt hu
      have hy1 : -y.im ≤ |z.im| + 1 := by
        have h1 : ‖y - z‖ < 1 := by simpa [dist_eq_norm] using hy
        have h2 := abs_im_le_norm (y - z)
        rw [Complex.sub_im] at h2
        have h3 := abs_le.1 (h2.trans h1.le)
        have h4 := neg_le_abs z.im
        linarith [h3.1]
      have := wf_le y (|z.im| + 1) u hu0 hy1
      rw [norm_mul, norm_mul, norm_mul, norm_I, Complex.norm_real, Real.norm_of_nonneg hu0]
      rw [show ‖(2 : ℂ)‖ = 2 by norm_num, mul_one]
      calc 2 * (u * ‖cexp (-(u : ℂ) ^ 2 + 2 * I * u * y)‖)
          ≤ 2 * (u * (Real.exp (2 * (|z.im| + 1) ^ 2) * Real.exp (-(1 / 2) * u ^ 2))) := by gcongr
        _ = _ := by ring)
    (((pow_exp_sq_int 1 (1 / 2) (by norm_num)).const_mul _).const_mul 2)
    (Eventually.of_forall fun u y _ => by
      have h1 : HasDerivAt (fun y : ℂ => -(u : ℂ) ^ 2 + 2 * I * u * y) (2 * I * u) y := by
        have := ((hasDerivAt_id y).const_mul (2 * I * (u : ℂ))).const_add (-(u : ℂ) ^ 2)
        simpa using this
      refine h1.cexp.congr_deriv ?_
      ring)
  have h2 := h.2.const_mul (2 / ((√Real.pi : ℝ) : ℂ))
  have he : (fun z => 2 / ((√Real.pi : ℝ) : ℂ) * ∫ u in Ioi (0 : ℝ), cexp (-(u : ℂ) ^ 2 + 2 * I * u * z)) = faddeeva := rfl
  rw [he] at h2
  refine h2.congr_deriv ?_
  rw [integral_const_mul, faddeeva]
  linear_combination (2 / ((√Real.pi : ℝ) : ℂ) * I) * wf_parts z +
    2 / ((√Real.pi : ℝ) : ℂ) * z * 2 * (∫ u in Ioi (0 : ℝ), cexp (-(u : ℂ) ^ 2 + 2 * I * u * z)) * I_sq

end PyECLOUD
