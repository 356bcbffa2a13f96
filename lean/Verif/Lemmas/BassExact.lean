import Verif.Lemmas.GaussBeam
import Mathlib.Analysis.SpecialFunctions.Integrals.Basic

/-!
# The formula of Bassetti and Erskine as an integral, for C174
-/

namespace PyECLOUD

open Filter Topology Complex MeasureTheory intervalIntegral

/-- The weight in the integral. -/
noncomputable def beW (s x y τ : ℝ) : ℝ := Real.exp (-(x ^ 2 * (1 - τ ^ 2)) / s ^ 2 - y ^ 2 * (1 / τ ^ 2 - 1) / s ^ 2)

noncomputable def beA (s ρ x y : ℝ) : ℝ := ∫ τ in ρ..1, beW s x y τ

noncomputable def beB (s ρ x y : ℝ) : ℝ := ∫ τ in ρ..1, beW s x y τ / τ ^ 2

theorem beW_cont (s ρ x y : ℝ) (hρ : 0 < ρ) : ContinuousOn (beW s x y) (Set.Icc ρ 1) := by
  unfold beW
  refine ContinuousOn.rexp (ContinuousOn.sub (by fun_prop) (ContinuousOn.div_const (ContinuousOn.mul (by fun_prop)
    (ContinuousOn.sub (ContinuousOn.div continuousOn_const (by fun_prop) ?_) continuousOn_const)) _))
  intro τ hτ
  have : 0 < τ := lt_of_lt_of_le hρ hτ.1
  positivity

theorem beA_nonneg (s ρ x y : ℝ) (hρ : ρ ≤ 1) : 0 ≤ beA s ρ x y :=
  integral_nonneg hρ fun _ _ => (Real.exp_pos _).le

theorem beB_nonneg (s ρ x y : ℝ) (hρ : ρ ≤ 1) : 0 ≤ beB s ρ x y :=
  integral_nonneg hρ fun τ _ => div_nonneg (Real.exp_pos _).le (sq_nonneg τ)

/-- Away from the centre the weight is small. -/
theorem beW_le (s x y τ : ℝ) (h0 : 0 < τ) (h1 : τ ≤ 1) : beW s x y τ ≤ Real.exp (-((x ^ 2 + y ^ 2) / s ^ 2 * (1 - τ))) := by
  rw [beW, Real.exp_le_exp]
  have h2 : 1 - τ ≤ 1 - τ ^ 2 := by nlinarith
  have h3 : 1 - τ ≤ 1 / τ ^ 2 - 1 := by
    have : 1 ≤ 1 / τ ^ 2 := by rw [le_div_iff₀ (by positivity)]; nlinarith
    have h4 : 1 - τ ^ 2 ≤ 1 / τ ^ 2 - 1 := by
      have e : 1 / τ ^ 2 - 1 - (1 - τ ^ 2) = (1 / τ - τ) ^ 2 := by field_simp
      nlinarith [sq_nonneg (1 / τ - τ)]
    linarith
  have h5 : x ^ 2 * (1 - τ) / s ^ 2 ≤ x ^ 2 * (1 - τ ^ 2) / s ^ 2 := by gcongr
  have h6 : y ^ 2 * (1 - τ) / s ^ 2 ≤ y ^ 2 * (1 / τ ^ 2 - 1) / s ^ 2 := by gcongr
  have e : (x ^ 2 + y ^ 2) / s ^ 2 * (1 - τ) = x ^ 2 * (1 - τ) / s ^ 2 + y ^ 2 * (1 - τ) / s ^ 2 := by ring
  rw [e, neg_div]
  linarith

theorem beA_le (s ρ x y : ℝ) (hs : 0 < s) (hρ : 0 < ρ) (hρ1 : ρ ≤ 1) (hxy : 0 < x ^ 2 + y ^ 2) : beA s ρ x y ≤ s ^ 2 / (x ^ 2 + y ^ 2) := by
  set c := (x ^ 2 + y ^ 2) / s ^ 2 with hc
  have hc0 : 0 < c := by positivity
  have h1 : beA s ρ x y ≤ ∫ τ in ρ..1, Real.exp (-(c * (1 - τ))) := by
    refine integral_mono_on hρ1 ?_ (Continuous.intervalIntegrable (by fun_prop) _ _) fun τ hτ => beW_le s x y τ (lt_of_lt_of_le hρ hτ.1) hτ.2
    refine ContinuousOn.intervalIntegrable ?_
    rw [Set.uIcc_of_le hρ1]
    exact beW_cont s ρ x y hρ
  have h2 : ∫ τ in ρ..1, Real.exp (-(c * (1 - τ))) = (1 - Real.exp (-(c * (1 - ρ)))) / c := by
    have hd : ∀ τ ∈ Set.uIcc ρ 1, HasDerivAt (fun τ : ℝ => Real.exp (-(c * (1 - τ))) / c) (Real.exp (-(c * (1 - τ)))) τ := fun τ _ => by
      have h3 : HasDerivAt (fun τ : ℝ => -(c * (1 - τ))) c τ := by
        have h4 : HasDerivAt (fun τ : ℝ => c * (1 - τ)) (c * -1) τ := ((hasDerivAt_id τ).const_sub 1).const_mul c
        refine h4.neg.congr_deriv ?_
        ring
      refine (h3.exp.div_const c).congr_deriv ?_
      field_simp
    rw [integral_eq_sub_of_hasDerivAt hd (Continuous.intervalIntegrable (by fun_prop) _ _)]
    simp
    ring
  rw [h2] at h1
  refine h1.trans ?_
  calc (1 - Real.exp (-(c * (1 - ρ)))) / c ≤ 1 / c := by
        gcongr
        have := Real.exp_pos (-(c * (1 - ρ)))
        linarith
    _ = s ^ 2 / (x ^ 2 + y ^ 2) := by rw [hc, one_div_div]

theorem beB_le (s ρ x y : ℝ) (hρ : 0 < ρ) (hρ1 : ρ ≤ 1) : beB s ρ x y ≤ beA s ρ x y / ρ ^ 2 := by
  rw [beA, ← intervalIntegral.integral_div]
  have hc : ContinuousOn (beW s x y) (Set.uIcc ρ 1) := by rw [Set.uIcc_of_le hρ1]; exact beW_cont s ρ x y hρ
  refine integral_mono_on hρ1 ?_ (hc.intervalIntegrable.div_const _) fun τ hτ => ?_
  · refine ContinuousOn.intervalIntegrable (hc.div (by fun_prop) fun τ hτ => ?_)
    rw [Set.uIcc_of_le hρ1] at hτ
    have : 0 < τ := lt_of_lt_of_le hρ hτ.1
    positivity
  · have h1 := hτ.1
    have h2 : 0 ≤ beW s x y τ := (Real.exp_pos _).le
    show beW s x y τ / τ ^ 2 ≤ beW s x y τ / ρ ^ 2
    gcongr

/-- Integral along the path from `η` to `ζ` on which the exponential stays real. -/
theorem beF_integral (eps0 sx sy : ℝ) (hy : 0 < sy) (hx : sy < sx) (z : ℂ) :
    beF eps0 sx sy z = ((1 / (2 * eps0 * √Real.pi * √(2 * (sx * sx - sy * sy))) * (2 / (√Real.pi * √(2 * (sx * sx - sy * sy)))) : ℝ) : ℂ) *
      (I * (z.re * beA √(2 * (sx * sx - sy * sy)) (sy / sx) z.re z.im : ℝ) + (z.im * beB √(2 * (sx * sx - sy * sy)) (sy / sx) z.re z.im : ℝ)) := by
  have hx0 : 0 < sx := hy.trans hx
  have hS : 0 < 2 * (sx * sx - sy * sy) := by nlinarith
  rw [beF]
  set s := √(2 * (sx * sx - sy * sy)) with hs
  have hs0 : 0 < s := Real.sqrt_pos.2 hS
  have hss : s ^ 2 = 2 * (sx * sx - sy * sy) := Real.sq_sqrt hS.le
  have hsC : (s : ℂ) ≠ 0 := by exact_mod_cast hs0.ne'
  set ρ := sy / sx with hρ
  have hρ0 : 0 < ρ := by positivity
  have hρ1 : ρ ≤ 1 := (div_le_one hx0).2 hx.le
  set x := z.re with hxd
  set y := z.im with hyd
  have hpi : (0 : ℝ) < √Real.pi := Real.sqrt_pos.2 Real.pi_pos
  have hpiC : ((√Real.pi : ℝ) : ℂ) ≠ 0 := by exact_mod_cast hpi.ne'
  let Z : ℝ → ℂ := fun τ => (τ * x + I * (y / τ)) / s
  have hZ : ∀ τ : ℝ, 0 < τ → HasDerivAt Z ((x - I * (y / τ ^ 2)) / s) τ := fun τ hτ => by
    have hτC : (τ : ℂ) ≠ 0 := by exact_mod_cast hτ.ne'
    have h1 : HasDerivAt (fun u : ℝ => (u : ℂ)) 1 τ := Complex.ofRealCLM.hasDerivAt
    have h2 := ((h1.mul_const (x : ℂ)).add ((((hasDerivAt_const τ (y : ℂ)).div h1 hτC)).const_mul I)).div_const (s : ℂ)
    refine h2.congr_deriv ?_
    simp
    ring
  have hexp : ∀ τ : ℝ, 0 < τ → cexp (Z τ ^ 2 - (z / s) ^ 2) = (beW s x y τ : ℝ) := fun τ hτ => by
    have hτC : (τ : ℂ) ≠ 0 := by exact_mod_cast hτ.ne'
    rw [beW, Complex.ofReal_exp]
    congr 1
    have hz : z = x + y * I := (Complex.re_add_im z).symm
    rw [hz]
    simp only [Z]
    push_cast
    field_simp
    ring_nf
    simp only [I_sq]
    ring
  have hG : ∀ τ ∈ Set.uIcc ρ 1, HasDerivAt (fun τ => cexp (Z τ ^ 2 - (z / s) ^ 2) * faddeeva (Z τ))
      ((2 / ((√Real.pi : ℝ) * s)) * (I * ((x * beW s x y τ : ℝ) : ℂ) + ((y * (beW s x y τ / τ ^ 2) : ℝ) : ℂ))) τ := fun τ hτ => by
    rw [Set.uIcc_of_le hρ1] at hτ
    have hτ0 : 0 < τ := lt_of_lt_of_le hρ0 hτ.1
    have hτC : (τ : ℂ) ≠ 0 := by exact_mod_cast hτ0.ne'
    have h1 := hZ τ hτ0
    have h2 := (((h1.pow 2).sub_const ((z / s) ^ 2)).cexp).mul ((faddeeva_deriv (Z τ)).comp τ h1)
    refine h2.congr_deriv ?_
    rw [Pi.pow_apply, hexp τ hτ0]
    simp only [Function.comp]
    generalize faddeeva (Z τ) = w
    generalize Z τ = Zτ
    push_cast
    field_simp
    ring_nf
    simp only [I_sq]
    ring
  have hcont : ContinuousOn (beW s x y) (Set.uIcc ρ 1) := by rw [Set.uIcc_of_le hρ1]; exact beW_cont s ρ x y hρ0
  have hcont2 : ContinuousOn (fun τ => beW s x y τ / τ ^ 2) (Set.uIcc ρ 1) := hcont.div (by fun_prop) fun τ hτ => by
    rw [Set.uIcc_of_le hρ1] at hτ
    have : 0 < τ := lt_of_lt_of_le hρ0 hτ.1
    positivity
  have hi1 : IntervalIntegrable (fun τ => ((x * beW s x y τ : ℝ) : ℂ)) volume ρ 1 :=
    (Complex.continuous_ofReal.comp_continuousOn (continuousOn_const.mul hcont)).intervalIntegrable
  have hi2 : IntervalIntegrable (fun τ => ((y * (beW s x y τ / τ ^ 2) : ℝ) : ℂ)) volume ρ 1 :=
    (Complex.continuous_ofReal.comp_continuousOn (continuousOn_const.mul hcont2)).intervalIntegrable
  have h := integral_eq_sub_of_hasDerivAt hG (((hi1.const_mul I).add hi2).const_mul _)
  rw [intervalIntegral.integral_const_mul, intervalIntegral.integral_add (hi1.const_mul I) hi2, intervalIntegral.integral_const_mul,
    intervalIntegral.integral_ofReal, intervalIntegral.integral_ofReal, intervalIntegral.integral_const_mul, intervalIntegral.integral_const_mul,
    hexp ρ hρ0, hexp 1 one_pos] at h
  have e1 : Z 1 = z / s := by
    simp only [Z]
    congr 1
    rw [Complex.ofReal_one, one_mul, div_one, mul_comm]
    exact Complex.re_add_im z
  have e2 : Z ρ = ⟨ρ * x / s, sx / sy * y / s⟩ := by
    have hρC : (ρ : ℂ) ≠ 0 := by exact_mod_cast hρ0.ne'
    have : Z ρ = ((ρ * x / s : ℝ) : ℂ) + ((sx / sy * y / s : ℝ) : ℂ) * I := by
      simp only [Z, hρ]
      push_cast
      have h1 : (sx : ℂ) ≠ 0 := by exact_mod_cast hx0.ne'
      have h2 : (sy : ℂ) ≠ 0 := by exact_mod_cast hy.ne'
      field_simp
    rw [this]
    apply Complex.ext <;> simp
  have e3 : beW s x y 1 = 1 := by simp [beW]
  have e4 : beW s x y ρ = Real.exp (-x * x / (2 * sx * sx) - y * y / (2 * sy * sy)) := by
    rw [beW, hss, hρ]
    congr 1
    have hd : sx * sx - sy * sy ≠ 0 := by nlinarith
    have h1 : 1 - (sy / sx) ^ 2 = (sx * sx - sy * sy) / (sx * sx) := by field_simp
    have h2 : 1 / (sy / sx) ^ 2 - 1 = (sx * sx - sy * sy) / (sy * sy) := by field_simp
    rw [h1, h2]
    generalize sx * sx - sy * sy = d at hd
    field_simp
  rw [e1, e2, e3, e4, Complex.ofReal_one, one_mul] at h
  rw [← h, ← mul_assoc]
  congr 1
  push_cast
  rfl

end PyECLOUD
