import Verif.Spec.BeamCharge
import Mathlib.Analysis.SpecialFunctions.Gaussian.PoissonSummation
import Mathlib.Analysis.SpecificLimits.Basic
import Mathlib.Tactic.NormNum
import Mathlib.Tactic.Positivity
import Mathlib.Tactic.FieldSimp

/-!
# Sums of Gaussians over a grid
-/

namespace PyECLOUD

open Real Complex

/-- The sum of a Gaussian over a grid, by Poisson summation. -/
theorem gauss_grid (σ h z : ℝ) (hσ : 0 < σ) (hh : 0 < h) :
    |h / (σ * √(2 * π)) * (∑' k : ℤ, rexp (-((k : ℝ) * h - z) ^ 2 / (2 * σ ^ 2))) - 1| ≤
      2 * rexp (-2 * π ^ 2 * (σ / h) ^ 2) / (1 - rexp (-2 * π ^ 2 * (σ / h) ^ 2)) := by
  have hπ := Real.pi_pos
  set α : ℝ := 2 * π * σ ^ 2 / h ^ 2 with hα
  have hα0 : 0 < α := by positivity
  set q := rexp (-2 * π ^ 2 * (σ / h) ^ 2) with hq
  have hq0 : 0 < q := Real.exp_pos _
  have hq1 : q < 1 := by
    rw [hq, Real.exp_lt_one_iff]
    have : 0 < π ^ 2 * (σ / h) ^ 2 := by positivity
    linarith
  have hqα : q = rexp (-π * α) := by
    rw [hq, hα]
    congr 1
    field_simp
  have key := Complex.tsum_exp_neg_quadratic (a := (α : ℂ)) (by simpa using hα0) (I * ((z / h : ℝ) : ℂ))
  set f : ℤ → ℂ := fun n => cexp (-π * α * n ^ 2 + 2 * π * (I * ((z / h : ℝ) : ℂ)) * n) with hf
  have hnorm : ∀ n : ℤ, ‖f n‖ = rexp (-π * α * (n : ℝ) ^ 2) := fun n => by
    have : (-π * α * n ^ 2 + 2 * π * (I * ((z / h : ℝ) : ℂ)) * n : ℂ) =
        ((-π * α * (n : ℝ) ^ 2 : ℝ) : ℂ) + ((2 * π * (z / h) * n : ℝ) : ℂ) * I := by
      push_cast
      ring
    rw [hf]
    simp only
    rw [this, Complex.norm_exp, Complex.add_re, Complex.ofReal_re, Complex.re_ofReal_mul, Complex.I_re, mul_zero, add_zero]
  have hle : ∀ n : ℕ, ∀ m : ℤ, (m : ℝ) ^ 2 = ((n : ℝ) + 1) ^ 2 → ‖f m‖ ≤ q * q ^ n := fun n m hm => by
    rw [hnorm, hm, ← pow_succ', hqα, ← Real.exp_nat_mul, Real.exp_le_exp]
    push_cast
    have h1 : (0 : ℝ) ≤ n := n.cast_nonneg
    have h2 : 0 < π * α := by positivity
    nlinarith [mul_nonneg h2.le (mul_nonneg h1 (by linarith : (0 : ℝ) ≤ n + 1))]
  have hgeo : HasSum (fun n : ℕ => q * q ^ n) (q * (1 - q)⁻¹) := (hasSum_geometric_of_lt_one hq0.le hq1).mul_left q
  have hb1 : ∀ n : ℕ, ‖f ((n + 1 : ℕ) : ℤ)‖ ≤ q * q ^ n := fun n => hle n _ (by push_cast; ring)
  have hb2 : ∀ n : ℕ, ‖f (-((n : ℤ) + 1))‖ ≤ q * q ^ n := fun n => hle n _ (by push_cast; ring)
  have hs1 : Summable (fun n : ℕ => f ((n + 1 : ℕ) : ℤ)) := Summable.of_norm_bounded hgeo.summable hb1
  have hs2 : Summable (fun n : ℕ => f (-((n : ℤ) + 1))) := Summable.of_norm_bounded hgeo.summable hb2
  have hs0 : Summable (fun n : ℕ => f (n : ℤ)) := (summable_nat_add_iff 1).1 hs1
  have hsplit : ∑' n : ℤ, f n = f 0 + ∑' n : ℕ, f ((n + 1 : ℕ) : ℤ) + ∑' n : ℕ, f (-((n : ℤ) + 1)) := by
    rw [tsum_of_nat_of_neg_add_one hs0 hs2, hs0.tsum_eq_zero_add]
    simp
  have hf0 : f 0 = 1 := by simp [hf]
  have hR : (1 / (α : ℂ) ^ (1 / 2 : ℂ) * ∑' n : ℤ, cexp (-π / α * (n + I * (I * ((z / h : ℝ) : ℂ))) ^ 2)) =
      ((h / (σ * √(2 * π)) * (∑' k : ℤ, rexp (-((k : ℝ) * h - z) ^ 2 / (2 * σ ^ 2))) : ℝ) : ℂ) := by
    have h1 : (α : ℂ) ^ (1 / 2 : ℂ) = ((√α : ℝ) : ℂ) := by
      rw [Real.sqrt_eq_rpow, Complex.ofReal_cpow hα0.le]
      norm_num
    have h2 : √α = σ * √(2 * π) / h := by
      rw [hα, show 2 * π * σ ^ 2 / h ^ 2 = (2 * π) * (σ / h) ^ 2 by ring, Real.sqrt_mul (by positivity), Real.sqrt_sq (by positivity)]
      ring
    rw [h1, h2, Complex.ofReal_mul, Complex.ofReal_tsum]
    congr 1
    · push_cast
      rw [one_div_div]
    · refine tsum_congr fun n => ?_
      rw [Complex.ofReal_exp]
      congr 1
      have h3 : -((n : ℝ) * h - z) ^ 2 / (2 * σ ^ 2) = -π / α * ((n : ℝ) - z / h) ^ 2 := by
        rw [hα]
        field_simp
      rw [h3, ← mul_assoc I I, Complex.I_mul_I]
      push_cast
      ring
  rw [hR] at key
  have h4 := tsum_of_norm_bounded hgeo hb1
  have h5 := tsum_of_norm_bounded hgeo hb2
  rw [← Real.norm_eq_abs, ← Complex.norm_real, Complex.ofReal_sub, ← key, hsplit, hf0, Complex.ofReal_one,
    show (1 : ℂ) + ∑' n : ℕ, f ((n + 1 : ℕ) : ℤ) + ∑' n : ℕ, f (-((n : ℤ) + 1)) - 1 =
      ∑' n : ℕ, f ((n + 1 : ℕ) : ℤ) + ∑' n : ℕ, f (-((n : ℤ) + 1)) by ring]
  refine (norm_add_le _ _).trans ((add_le_add h4 h5).trans (le_of_eq ?_))
  rw [← div_eq_mul_inv]
  ring

/-- One tail of the sum. -/
theorem gauss_tail (F : ℕ → ℝ) (σ h : ℝ) (hσ : 0 < σ) (hh : 0 < h) (D : ℕ → ℝ) (hD : ∀ j : ℕ, 10 * σ + (j : ℝ) * h ≤ D j)
    (hF : ∀ j, F j = rexp (-(D j) ^ 2 / (2 * σ ^ 2))) : Summable F ∧ 0 ≤ ∑' j, F j ∧ ∑' j, F j ≤ rexp (-50) * (1 + σ / (10 * h)) := by
  have hx : 0 < 10 * h / σ := by positivity
  set r := rexp (-(10 * h / σ)) with hr
  have hr0 : 0 < r := Real.exp_pos _
  have hr1 : r < 1 := by
    rw [hr, Real.exp_lt_one_iff]
    linarith
  have hle : ∀ j, F j ≤ rexp (-50) * r ^ j := fun j => by
    rw [hF, hr, ← Real.exp_nat_mul, ← Real.exp_add, Real.exp_le_exp, div_le_iff₀ (by positivity)]
    have hj : 0 ≤ (j : ℝ) * h := by positivity
    have h1 : (10 * σ + (j : ℝ) * h) ^ 2 ≤ (D j) ^ 2 := pow_le_pow_left₀ (by positivity) (hD j) 2
    have h2 : (-50 + (j : ℝ) * -(10 * h / σ)) * (2 * σ ^ 2) = -(100 * σ ^ 2 + 20 * σ * ((j : ℝ) * h)) := by
      field_simp
      ring
    rw [h2]
    nlinarith [sq_nonneg ((j : ℝ) * h)]
  have h0 : ∀ j, 0 ≤ F j := fun j => by rw [hF]; exact (Real.exp_pos _).le
  have hgeo : HasSum (fun n : ℕ => rexp (-50) * r ^ n) (rexp (-50) * (1 - r)⁻¹) := (hasSum_geometric_of_lt_one hr0.le hr1).mul_left _
  have hs : Summable F := Summable.of_nonneg_of_le h0 hle hgeo.summable
  refine ⟨hs, tsum_nonneg h0, (hs.tsum_le_tsum hle hgeo.summable).trans ?_⟩
  rw [hgeo.tsum_eq]
  refine mul_le_mul_of_nonneg_left ?_ (Real.exp_pos _).le
  have h1 : r ≤ (1 + 10 * h / σ)⁻¹ := by
    rw [hr, Real.exp_neg]
    refine inv_anti₀ (by linarith) ?_
    have := Real.add_one_le_exp (10 * h / σ)
    linarith
  have h2 : 1 - (1 + 10 * h / σ)⁻¹ = 10 * h / (σ + 10 * h) := by
    field_simp
    ring
  have h3 : 10 * h / (σ + 10 * h) ≤ 1 - r := by linarith
  calc (1 - r)⁻¹ ≤ (10 * h / (σ + 10 * h))⁻¹ := inv_anti₀ (by positivity) h3
    _ = 1 + σ / (10 * h) := by
      field_simp
      ring

/-- The part of the sum within ten lengths. -/
theorem gauss_cut (σ h z : ℝ) (hσ : 0 < σ) (hh : 0 < h) (N : ℕ) (hz : 10 * σ ≤ z) (hN : z + 10 * σ ≤ (N : ℝ) * h) :
    |h * (∑ k ∈ Finset.range N, if |(k : ℝ) * h - z| < 10 * σ then 1 / (σ * √(2 * π)) * rexp (-((k : ℝ) * h - z) ^ 2 / (2 * σ ^ 2)) else 0) - 1| ≤
      chargeErr σ h := by
  set G : ℤ → ℝ := fun k => rexp (-((k : ℝ) * h - z) ^ 2 / (2 * σ ^ 2)) with hG
  set kp : ℤ := ⌈(z + 10 * σ) / h⌉ with hkp
  set km : ℤ := ⌊(z - 10 * σ) / h⌋ with hkm
  have hp1 : z + 10 * σ ≤ (kp : ℝ) * h := by
    have := Int.le_ceil ((z + 10 * σ) / h)
    rwa [div_le_iff₀ hh] at this
  have hm1 : (km : ℝ) * h ≤ z - 10 * σ := by
    have := Int.floor_le ((z - 10 * σ) / h)
    rwa [le_div_iff₀ hh] at this
  have hkpm : km < kp := by
    have : (km : ℝ) * h < (kp : ℝ) * h := by linarith
    exact_mod_cast lt_of_mul_lt_mul_right this hh.le
  have hkm0 : 0 ≤ km := Int.floor_nonneg.2 (div_nonneg (by linarith) hh.le)
  have hkpN : kp ≤ N := by
    rw [hkp, Int.ceil_le, div_le_iff₀ hh]
    exact_mod_cast hN
  obtain ⟨m, hm⟩ : ∃ m : ℕ, kp = km + 1 + m := ⟨(kp - km - 1).toNat, by omega⟩
  obtain ⟨hs1, hn1, hb1⟩ := gauss_tail (fun j : ℕ => G (kp + j)) σ h hσ hh (fun j => ((kp + j : ℤ) : ℝ) * h - z)
    (fun j => by push_cast; linarith) (fun j => rfl)
  obtain ⟨hs2, hn2, hb2⟩ := gauss_tail (fun j : ℕ => G (km - j)) σ h hσ hh (fun j => z - ((km - j : ℤ) : ℝ) * h)
    (fun j => by push_cast; linarith) (fun j => by rw [hG]; simp only; congr 2; ring)
  have hs3 : Summable (fun j : ℕ => G (kp + -((j : ℤ) + 1))) := by
    refine (summable_nat_add_iff m).1 (hs2.congr fun j => ?_)
    congr 1
    push_cast
    omega
  have hshift : ∑' k : ℤ, G k = ∑' k : ℤ, G (kp + k) := ((Equiv.addLeft kp).tsum_eq G).symm
  have hall : ∑' k : ℤ, G k = ∑' j : ℕ, G (kp + j) + (∑ j ∈ Finset.range m, G (kp + -((j : ℤ) + 1)) + ∑' j : ℕ, G (km - j)) := by
    rw [hshift, tsum_of_nat_of_neg_add_one (f := fun k : ℤ => G (kp + k)) hs1 hs3, ← hs3.sum_add_tsum_nat_add m]
    congr 2
    refine tsum_congr fun j => ?_
    congr 1
    push_cast
    omega
  have hmid : (∑ k ∈ Finset.range N, if |(k : ℝ) * h - z| < 10 * σ then 1 / (σ * √(2 * π)) * rexp (-((k : ℝ) * h - z) ^ 2 / (2 * σ ^ 2)) else 0) =
      1 / (σ * √(2 * π)) * ∑ j ∈ Finset.range m, G (kp + -((j : ℤ) + 1)) := by
    rw [← Finset.sum_filter, Finset.mul_sum]
    symm
    refine Finset.sum_bij (fun j _ => (kp + -((j : ℤ) + 1)).toNat) ?_ ?_ ?_ ?_
    · intro j hj
      have hj' : j < m := Finset.mem_range.1 hj
      rw [Finset.mem_filter, Finset.mem_range]
      refine ⟨by omega, ?_⟩
      have hc : (((kp + -((j : ℤ) + 1)).toNat : ℕ) : ℝ) = ((kp + -((j : ℤ) + 1) : ℤ) : ℝ) := by
        rw [← Int.cast_natCast, Int.toNat_of_nonneg (by omega)]
      rw [hc, abs_lt]
      have h1 : km < kp + -((j : ℤ) + 1) := by omega
      have h2 : kp + -((j : ℤ) + 1) < kp := by omega
      rw [hkm, Int.floor_lt, div_lt_iff₀ hh] at h1
      rw [hkp, Int.lt_ceil, lt_div_iff₀ hh, ← hkp] at h2
      constructor <;> linarith
    · intro a ha b hb hab
      have := Finset.mem_range.1 ha
      have := Finset.mem_range.1 hb
      have hab' : (kp + -((a : ℤ) + 1)).toNat = (kp + -((b : ℤ) + 1)).toNat := hab
      omega
    · intro k hk
      rw [Finset.mem_filter, abs_lt] at hk
      obtain ⟨-, hk1, hk2⟩ := hk
      have h1 : km < (k : ℤ) := by
        rw [hkm, Int.floor_lt, div_lt_iff₀ hh]
        push_cast
        linarith
      have h2 : (k : ℤ) < kp := by
        rw [hkp, Int.lt_ceil, lt_div_iff₀ hh]
        push_cast
        linarith
      refine ⟨(kp - 1 - k).toNat, Finset.mem_range.2 (by omega), ?_⟩
      show (kp + -(((kp - 1 - k).toNat : ℤ) + 1)).toNat = k
      omega
    · intro j hj
      have hj' : j < m := Finset.mem_range.1 hj
      have hc : (((kp + -((j : ℤ) + 1)).toNat : ℕ) : ℝ) = ((kp + -((j : ℤ) + 1) : ℤ) : ℝ) := by
        rw [← Int.cast_natCast, Int.toNat_of_nonneg (by omega)]
      rw [hc]
  have hP := gauss_grid σ h z hσ hh
  change |h / (σ * √(2 * π)) * (∑' k : ℤ, G k) - 1| ≤ _ at hP
  rw [hall] at hP
  rw [hmid, chargeErr]
  have hs2π : (2 : ℝ) ≤ √(2 * π) := by
    rw [Real.le_sqrt' (by norm_num)]
    have := Real.two_le_pi
    nlinarith
  have hC : h / (σ * √(2 * π)) ≤ h / σ / 2 := by
    rw [div_div]
    exact div_le_div_of_nonneg_left hh.le (by positivity) (mul_le_mul_of_nonneg_left hs2π hσ.le)
  have hC0 : 0 ≤ h / (σ * √(2 * π)) := by positivity
  set C := h / (σ * √(2 * π)) with hCd
  set A := ∑' j : ℕ, G (kp + j)
  set B := ∑' j : ℕ, G (km - j)
  set M := ∑ j ∈ Finset.range m, G (kp + -((j : ℤ) + 1))
  have hE : 0 ≤ rexp (-50) * (1 + σ / (10 * h)) := by positivity
  have htail : C * (A + B) ≤ rexp (-50) * (h / σ + 1 / 10) := by
    calc C * (A + B) ≤ h / σ / 2 * (2 * (rexp (-50) * (1 + σ / (10 * h)))) :=
          mul_le_mul hC (by linarith) (by linarith) (by positivity)
      _ = rexp (-50) * (h / σ + 1 / 10) := by field_simp
  have htail0 : 0 ≤ C * (A + B) := mul_nonneg hC0 (by linarith)
  have he : h * (1 / (σ * √(2 * π)) * M) - 1 = (C * (A + (M + B)) - 1) - C * (A + B) := by
    rw [hCd]
    ring
  rw [he]
  refine (abs_sub _ _).trans ?_
  rw [abs_of_nonneg htail0]
  exact add_le_add hP htail

end PyECLOUD
