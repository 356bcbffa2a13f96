import Verif.Spec.Faddeeva
import Verif.Lemmas.ErrF
import Mathlib.Analysis.Calculus.ParametricIntegral
import Mathlib.MeasureTheory.Integral.IntegralEqImproper
import Mathlib.Analysis.SpecialFunctions.Gamma.Basic

/-!
Moments of the complex error function and the continued fraction.
-/

namespace PyECLOUD

open MeasureTheory Set Filter Topology Complex

/-- `∫₀^∞ uⁿ exp(-u² - 2us) du`. -/
noncomputable def wMom (n : ℕ) (s : ℂ) : ℂ := ∫ u in Ioi (0 : ℝ), (u : ℂ) ^ n * cexp (-(u : ℂ) ^ 2 - 2 * u * s)

theorem wMom_norm (n : ℕ) (s : ℂ) (u : ℝ) (hu : 0 ≤ u) :
    ‖(u : ℂ) ^ n * cexp (-(u : ℂ) ^ 2 - 2 * u * s)‖ = u ^ n * Real.exp (-u ^ 2 - 2 * u * s.re) := by
  rw [norm_mul, norm_pow, Complex.norm_real, Real.norm_of_nonneg hu, Complex.norm_exp]
  congr 2
  simp [← Complex.ofReal_pow]

theorem wMom_cont (n : ℕ) (s : ℂ) : Continuous fun u : ℝ => (u : ℂ) ^ n * cexp (-(u : ℂ) ^ 2 - 2 * u * s) := by
  fun_prop

theorem pow_exp_sq_int (n : ℕ) (c : ℝ) (hc : 0 < c) : IntegrableOn (fun u : ℝ => u ^ n * Real.exp (-c * u ^ 2)) (Ioi 0) := by
  have := (integrable_rpow_mul_exp_neg_mul_sq hc (s := n) (by have : (0 : ℝ) ≤ n := n.cast_nonneg; linarith)).integrableOn (s := Ioi (0 : ℝ))
  refine this.congr_fun (fun u _ => ?_) measurableSet_Ioi
  simp only [Real.rpow_natCast]

theorem wMom_int (n : ℕ) (s : ℂ) (hs : 0 ≤ s.re) :
    IntegrableOn (fun u : ℝ => (u : ℂ) ^ n * cexp (-(u : ℂ) ^ 2 - 2 * u * s)) (Ioi 0) := by
  refine (pow_exp_sq_int n 1 one_pos).mono' (wMom_cont n s).aestronglyMeasurable.restrict ?_
  refine (ae_restrict_mem measurableSet_Ioi).mono fun u hu => ?_
  have hu0 : 0 ≤ u := le_of_lt hu
  rw [wMom_norm n s u hu0]
  gcongr
  have : 0 ≤ 2 * u * s.re := by positivity
  linarith

theorem wMom_tendsto (n : ℕ) (s : ℂ) (hs : 0 ≤ s.re) :
    Tendsto (fun u : ℝ => (u : ℂ) ^ n * cexp (-(u : ℂ) ^ 2 - 2 * u * s)) atTop (𝓝 0) := by
  rw [tendsto_zero_iff_norm_tendsto_zero]
  refine squeeze_zero' (Eventually.of_forall fun _ => norm_nonneg _) ?_ (Real.tendsto_pow_mul_exp_neg_atTop_nhds_zero n)
  filter_upwards [eventually_ge_atTop (1 : ℝ)] with u hu
  rw [wMom_norm n s u (by linarith)]
  gcongr
  have : 0 ≤ 2 * u * s.re := by positivity
  nlinarith

theorem wMom_deriv (s : ℂ) (u : ℝ) :
    HasDerivAt (fun u : ℝ => cexp (-(u : ℂ) ^ 2 - 2 * u * s)) ((-2 * u - 2 * s) * cexp (-(u : ℂ) ^ 2 - 2 * u * s)) u := by
  have h1 : HasDerivAt (fun u : ℝ => (u : ℂ)) 1 u := Complex.ofRealCLM.hasDerivAt
  have h2 : HasDerivAt (fun u : ℝ => -(u : ℂ) ^ 2 - 2 * u * s) (-(2 * (u : ℂ)) - 2 * s) u := by
    have := ((h1.pow 2).neg).sub ((h1.const_mul 2).mul_const s)
    refine this.congr_deriv ?_
    simp
  refine h2.cexp.congr_deriv ?_
  ring

/-- Integration by parts. -/
theorem wMom_zero (s : ℂ) (hs : 0 ≤ s.re) : 1 = 2 * s * wMom 0 s + 2 * wMom 1 s := by
  have h := integral_Ioi_of_hasDerivAt_of_tendsto' (a := (0 : ℝ)) (fun u _ => wMom_deriv s u)
    (by
      have := ((wMom_int 1 s hs).const_mul (-2)).add ((wMom_int 0 s hs).const_mul (-2 * s))
      refine this.congr (Eventually.of_forall fun u => ?_)
      simp; ring)
    (by simpa using wMom_tendsto 0 s hs)
  have h2 : ∫ u in Ioi (0 : ℝ), (-2 * (u : ℂ) - 2 * s) * cexp (-(u : ℂ) ^ 2 - 2 * u * s) = -2 * wMom 1 s + -2 * s * wMom 0 s := by
    rw [wMom, wMom, ← integral_const_mul, ← integral_const_mul, ← integral_add ((wMom_int 1 s hs).const_mul _) ((wMom_int 0 s hs).const_mul _)]
    congr 1
    ext u
    simp; ring
  rw [h2] at h
  simp at h
  linear_combination h

theorem wMom_succ (n : ℕ) (s : ℂ) (hs : 0 ≤ s.re) :
    (n + 1 : ℂ) * wMom n s = 2 * s * wMom (n + 1) s + 2 * wMom (n + 2) s := by
  have hd : ∀ u : ℝ, HasDerivAt (fun u : ℝ => (u : ℂ) ^ (n + 1) * cexp (-(u : ℂ) ^ 2 - 2 * u * s))
      ((n + 1 : ℂ) * ((u : ℂ) ^ n * cexp (-(u : ℂ) ^ 2 - 2 * u * s)) + (-2 * ((u : ℂ) ^ (n + 2) * cexp (-(u : ℂ) ^ 2 - 2 * u * s))
        + -2 * s * ((u : ℂ) ^ (n + 1) * cexp (-(u : ℂ) ^ 2 - 2 * u * s)))) u := by
    intro u
    have h1 : HasDerivAt (fun u : ℝ => (u : ℂ)) 1 u := Complex.ofRealCLM.hasDerivAt
    refine ((h1.pow (n + 1)).mul (wMom_deriv s u)).congr_deriv ?_
    simp; ring
  have i0 := (wMom_int n s hs).const_mul (n + 1 : ℂ)
  have i1 := (wMom_int (n + 1) s hs).const_mul (-2 * s)
  have i2 := (wMom_int (n + 2) s hs).const_mul (-2)
  have i21 : Integrable (fun u : ℝ => -2 * ((u : ℂ) ^ (n + 2) * cexp (-(u : ℂ) ^ 2 - 2 * u * s))
      + -2 * s * ((u : ℂ) ^ (n + 1) * cexp (-(u : ℂ) ^ 2 - 2 * u * s))) (volume.restrict (Ioi 0)) := i2.add i1
  have h := integral_Ioi_of_hasDerivAt_of_tendsto' (a := (0 : ℝ)) (fun u _ => hd u) (i0.add i21) (wMom_tendsto (n + 1) s hs)
  rw [integral_add i0 i21, integral_add i2 i1, integral_const_mul, integral_const_mul, integral_const_mul] at h
  simp only [ofReal_zero, ne_eq, Nat.add_eq_zero_iff, one_ne_zero, and_false, not_false_eq_true, zero_pow, zero_mul, sub_zero] at h
  unfold wMom
  linear_combination h

theorem pow_exp_int (n : ℕ) (b : ℝ) (hb : 0 < b) : IntegrableOn (fun u : ℝ => u ^ n * Real.exp (-(b * u))) (Ioi 0) := by
  have h := Real.GammaIntegral_convergent (s := (n : ℝ) + 1) (by positivity)
  have h2 := (integrableOn_Ioi_comp_mul_left_iff (fun u : ℝ => Real.exp (-u) * u ^ ((n : ℝ) + 1 - 1)) 0 hb).2 (by simpa using h)
  have h3 : IntegrableOn (fun x => (b ^ n)⁻¹ * (Real.exp (-(b * x)) * (b * x) ^ ((n : ℝ) + 1 - 1))) (Ioi 0) := h2.const_mul ((b ^ n)⁻¹)
  refine h3.congr_fun (fun u hu => ?_) measurableSet_Ioi
  have hu0 : 0 ≤ u := le_of_lt hu
  simp only [add_sub_cancel_right, Real.rpow_natCast, mul_pow]
  field_simp

theorem pow_exp_integral (n : ℕ) (b : ℝ) (hb : 0 < b) :
    ∫ u in Ioi (0 : ℝ), u ^ n * Real.exp (-(b * u)) = n.factorial / b ^ (n + 1) := by
  have h := Real.integral_rpow_mul_exp_neg_mul_Ioi (a := (n : ℝ) + 1) (r := b) (by positivity) hb
  rw [Real.Gamma_nat_eq_factorial] at h
  simp only [add_sub_cancel_right, Real.rpow_natCast] at h
  rw [h, show ((n : ℝ) + 1) = ((n + 1 : ℕ) : ℝ) by push_cast; ring, Real.rpow_natCast, one_div, inv_pow]
  field_simp

/-- Bound of the moments in the right half plane. -/
theorem wMom_le (n : ℕ) (s : ℂ) (hs : 0 < s.re) : ‖wMom n s‖ ≤ n.factorial / (2 * s.re) ^ (n + 1) := by
  rw [← pow_exp_integral n (2 * s.re) (by positivity)]
  refine norm_integral_le_of_norm_le (pow_exp_int n (2 * s.re) (by positivity)) ?_
  refine (ae_restrict_mem measurableSet_Ioi).mono fun u hu => ?_
  have hu0 : 0 ≤ u := le_of_lt hu
  rw [wMom_norm n s u hu0]
  gcongr
  nlinarith [sq_nonneg u]

/-- The error of an approximation `ρ` of the continued fraction at level `n`. -/
noncomputable def wErr (s : ℂ) (n : ℕ) (ρ : ℂ) : ℂ := ρ * (2 * s * wMom n s + 2 * wMom (n + 1) s) - wMom n s

theorem wErr_zero (s : ℂ) (hs : 0 ≤ s.re) (ρ : ℂ) : wErr s 0 ρ = ρ - wMom 0 s := by
  rw [wErr, ← wMom_zero s hs, mul_one]

/-- One level down divides the error by the denominator. -/
theorem wErr_step (s : ℂ) (hs : 0 ≤ s.re) (n : ℕ) (ρ : ℂ) (hT : s + (n + 1) * ρ ≠ 0) :
    wErr s n (0.5 / (s + (n + 1) * ρ)) = -wErr s (n + 1) ρ / (s + (n + 1) * ρ) := by
  rw [wErr, wErr, ← wMom_succ n s hs]
  rw [eq_div_iff hT]
  have : (0.5 : ℂ) / (s + (n + 1) * ρ) * (s + (n + 1) * ρ) = 1 / 2 := by rw [div_mul_cancel₀ _ hT]; norm_num
  linear_combination (2 * s * wMom n s + 2 * wMom (n + 1) s) * this

/-- One iteration of loop 30. -/
theorem errLoop30_step (xh yh : ℝ) (n : ℕ) (ax ay : Arr33) (ρ : ℂ) (hx : rd ax 1 = .ok ρ.re) (hy : rd ay 1 = .ok ρ.im)
    (hT : (⟨xh, -yh⟩ : ℂ) + (n + 1) * ρ ≠ 0) :
    ∃ ax' ay', errLoop30 xh yh (n + 1) ax ay = errLoop30 xh yh n ax' ay' ∧
      rd ax' 1 = .ok (0.5 / ((⟨xh, -yh⟩ : ℂ) + (n + 1) * ρ)).re ∧ rd ay' 1 = .ok (0.5 / ((⟨xh, -yh⟩ : ℂ) + (n + 1) * ρ)).im := by
  set tx := xh + (n + 1 : ℝ) * ρ.re with htxd
  set ty := yh - (n + 1 : ℝ) * ρ.im with htyd
  set T := (⟨xh, -yh⟩ : ℂ) + (n + 1) * ρ with hTd
  have hre : T.re = tx := by simp [hTd, htxd]
  have him : T.im = -ty := by simp [hTd, htyd]; ring
  have hsq : normSq T = tx * tx + ty * ty := by rw [normSq_apply, hre, him]; ring
  have htn : tx * tx + ty * ty ≠ 0 := by rw [← hsq]; exact (normSq_pos.2 hT).ne'
  have h5 : (0.5 : ℂ) = ((0.5 : ℝ) : ℂ) := by push_cast; norm_num
  have e1 : (0.5 / T).re = 0.5 * tx / (tx * tx + ty * ty) := by
    rw [h5, div_re, ofReal_re, ofReal_im, hsq, hre]; simp
  have e2 : (0.5 / T).im = 0.5 * ty / (tx * tx + ty * ty) := by
    rw [h5, div_im, ofReal_re, ofReal_im, hsq, him]; ring
  obtain ⟨ax', hax, rax, -⟩ := rd_wr ax 1 (0.5 * tx / (tx * tx + ty * ty)) (by omega) (by omega)
  obtain ⟨ay', hay, ray, -⟩ := rd_wr ay 1 (0.5 * ty / (tx * tx + ty * ty)) (by omega) (by omega)
  refine ⟨ax', ay', ?_, by rw [rax, e1], by rw [ray, e2]⟩
  simp only [errLoop30, hx, hy]
  show (do
    let vx ← dv (0.5 * tx) (tx * tx + ty * ty)
    let vy ← dv (0.5 * ty) (tx * tx + ty * ty)
    let ax' ← wr ax 1 vx
    let ay' ← wr ay 1 vy
    errLoop30 xh yh n ax' ay') = _
  rw [dv_ok _ _ htn, dv_ok _ _ htn]
  show (do
    let ax' ← wr ax 1 (0.5 * tx / (tx * tx + ty * ty))
    let ay' ← wr ay 1 (0.5 * ty / (tx * tx + ty * ty))
    errLoop30 xh yh n ax' ay') = _
  rw [hax, hay]
  rfl

/-- Far above the real axis: the loop divides the error by the imaginary part at each level. -/
theorem errLoop30_above (xh yh : ℝ) (hx : 0 < xh) : ∀ (n : ℕ) (ax ay : Arr33) (ρ : ℂ), rd ax 1 = .ok ρ.re → rd ay 1 = .ok ρ.im →
    0 ≤ ρ.re → ∃ bx by' r, errLoop30 xh yh n ax ay = .ok (bx, by') ∧ rd bx 1 = .ok r.re ∧ rd by' 1 = .ok r.im ∧
      ‖r - wMom 0 ⟨xh, -yh⟩‖ ≤ ‖wErr ⟨xh, -yh⟩ n ρ‖ / xh ^ n
  | 0, ax, ay, ρ, h1, h2, _ => ⟨ax, ay, ρ, rfl, h1, h2, by rw [wErr_zero _ hx.le]; simp⟩
  | n + 1, ax, ay, ρ, h1, h2, h0 => by
    set T := (⟨xh, -yh⟩ : ℂ) + (n + 1) * ρ with hTd
    have hre : T.re = xh + (n + 1) * ρ.re := by simp [hTd]
    have hTx : xh ≤ T.re := by rw [hre]; have : 0 ≤ (n + 1 : ℝ) * ρ.re := by positivity
                               linarith
    have hTn : xh ≤ ‖T‖ := hTx.trans ((le_abs_self _).trans (abs_re_le_norm T))
    have hT : T ≠ 0 := fun h => by rw [h, norm_zero] at hTn; linarith
    obtain ⟨ax', ay', e, e1, e2⟩ := errLoop30_step xh yh n ax ay ρ h1 h2 hT
    have hpos : 0 ≤ (0.5 / T).re := by
      have h5 : (0.5 : ℂ) = ((0.5 : ℝ) : ℂ) := by push_cast; norm_num
      rw [h5, div_re, ofReal_re, ofReal_im]
      have := hx.le.trans hTx
      have := normSq_nonneg T
      simp only [zero_mul, zero_div, add_zero]
      positivity
    obtain ⟨bx, by', r, f1, f2, f3, f4⟩ := errLoop30_above xh yh hx n ax' ay' _ e1 e2 hpos
    refine ⟨bx, by', r, e.trans f1, f2, f3, f4.trans ?_⟩
    rw [wErr_step _ (by exact hx.le) n ρ hT, norm_div, norm_neg, pow_succ, ← hTd]
    rw [div_div, mul_comm]
    gcongr

end PyECLOUD
