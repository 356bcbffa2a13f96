import Verif.Spec.BeamMap
import Mathlib.Analysis.SpecialFunctions.Trigonometric.Chebyshev.Basic
import Mathlib.Analysis.SpecialFunctions.Complex.LogBounds
import Mathlib.Analysis.Complex.RealDeriv
import Mathlib.Analysis.Calculus.Deriv.Polynomial

/-!
# Lemmas for the beam field map
-/

namespace PyECLOUD

open Real Polynomial

theorem foldl_add_range {M : Type} [AddCommMonoid M] (f : ℕ → M) (n : ℕ) (a : M) :
    ((List.range n).map (fun k => (k + 1 : ℕ))).foldl (fun acc m => acc + f m) a = a + ∑ k ∈ Finset.range n, f (k + 1) := by
  induction n with
  | zero => simp
  | succ n ih =>
    rw [List.range_succ, List.map_append, List.foldl_append, ih, Finset.sum_range_succ]
    simp [add_assoc]

/-- a sum whose odd terms vanish -/
theorem sum_even {M : Type} [AddCommMonoid M] (f : ℕ → M) (hf : ∀ k, f (2 * k + 1) = 0) (n : ℕ) :
    ∑ k ∈ Finset.range n, f (k + 1) = ∑ k ∈ Finset.range (n / 2), f (2 * (k + 1)) := by
  induction n with
  | zero => simp
  | succ n ih =>
    rw [Finset.sum_range_succ, ih]
    rcases Nat.even_or_odd' n with ⟨m, h | h⟩
    · rw [h, hf, add_zero]
      congr 2
      omega
    · have h1 : n / 2 = m := by omega
      have h2 : (n + 1) / 2 = m + 1 := by omega
      rw [h1, h2, Finset.sum_range_succ]
      congr 2
      omega

section acosh

theorem cosh_parts (m φ : ℝ) : Complex.cosh ((m : ℂ) + φ * Complex.I) = ⟨cosh m * cos φ, sinh m * sin φ⟩ := by
  rw [Complex.cosh_add, Complex.cosh_mul_I, Complex.sinh_mul_I, ← Complex.ofReal_cosh, ← Complex.ofReal_sinh, ← Complex.ofReal_cos,
    ← Complex.ofReal_sin]
  apply Complex.ext
  · simp only [Complex.add_re, Complex.mul_re, Complex.mul_im, Complex.ofReal_re, Complex.ofReal_im, Complex.I_re, Complex.I_im]
    ring
  · simp only [Complex.add_im, Complex.mul_re, Complex.mul_im, Complex.ofReal_re, Complex.ofReal_im, Complex.I_re, Complex.I_im]
    ring

theorem cosh_zero_re {q : ℂ} (h : Complex.cosh q = 0) : q.re = 0 ∧ cos q.im = 0 := by
  have e : q = (q.re : ℂ) + (q.im : ℂ) * Complex.I := (Complex.re_add_im q).symm
  have hr : (Complex.cosh q).re = cosh q.re * cos q.im := by rw [e, cosh_parts]; simp
  have hi : (Complex.cosh q).im = sinh q.re * sin q.im := by rw [e, cosh_parts]; simp
  rw [h] at hr hi
  have hc : cos q.im = 0 := by
    rcases mul_eq_zero.1 hr.symm with h | h
    · exact absurd h (cosh_pos _).ne'
    · exact h
  refine ⟨?_, hc⟩
  have hs : sin q.im ≠ 0 := by
    intro h0
    have := sin_sq_add_cos_sq q.im
    rw [h0, hc] at this
    norm_num at this
  rcases mul_eq_zero.1 hi.symm with h | h
  · exact sinh_eq_zero.1 h
  · exact absurd h hs

theorem cos_zero_mul {b : ℝ} (h : cos b = 0) (k : ℕ) :
    cos (2 * k * b) = (-1) ^ k ∧ sin (2 * k * b) = 0 := by
  induction k with
  | zero => simp
  | succ k ih =>
    have e : (2 * ((k + 1 : ℕ) : ℝ)) * b = 2 * k * b + 2 * b := by push_cast; ring
    rw [e, cos_add, sin_add, ih.1, ih.2, cos_two_mul, sin_two_mul, h, pow_succ]
    constructor <;> ring

end acosh

/-- coefficient of the order `n` -/
noncomputable def imgCoef (mu1 b : ℝ) (n : ℕ) : ℝ := exp (-(n : ℝ) * mu1) * cos (n * b) / cosh (n * mu1)

/-- analytic function whose real part is the potential of the images -/
noncomputable def imgF (eps0 g mu1 b : ℝ) (nimag : ℕ) (z : ℂ) : ℂ :=
  -((1 / (π * eps0) : ℝ) : ℂ) * ∑ k ∈ Finset.range nimag,
    ((imgCoef mu1 b (k + 1) / ((k + 1 : ℕ) : ℝ) : ℝ) : ℂ) * (Chebyshev.T ℂ ((k + 1 : ℕ) : ℤ)).eval (z / (g : ℂ))

noncomputable def imgF' (eps0 g mu1 b : ℝ) (nimag : ℕ) (z : ℂ) : ℂ :=
  -((1 / (π * eps0) : ℝ) : ℂ) * ∑ k ∈ Finset.range nimag,
    ((imgCoef mu1 b (k + 1) : ℝ) : ℂ) * ((Chebyshev.U ℂ (k : ℤ)).eval (z / (g : ℂ)) / (g : ℂ))

theorem imgF_deriv (eps0 g mu1 b : ℝ) (nimag : ℕ) (z : ℂ) :
    HasDerivAt (imgF eps0 g mu1 b nimag) (imgF' eps0 g mu1 b nimag z) z := by
  unfold imgF imgF'
  apply HasDerivAt.const_mul
  refine HasDerivAt.fun_sum (fun k _ => ?_)
  have h1 : HasDerivAt (fun z : ℂ => z / (g : ℂ)) (1 / (g : ℂ)) z := (hasDerivAt_id z).div_const _
  have h2 := ((Chebyshev.T ℂ ((k + 1 : ℕ) : ℤ)).hasDerivAt (z / (g : ℂ))).comp z h1
  have h3 := h2.const_mul (((imgCoef mu1 b (k + 1) / ((k + 1 : ℕ) : ℝ) : ℝ) : ℂ))
  refine HasDerivAt.congr_deriv h3 ?_
  rw [Chebyshev.T_derivative_eq_U]
  have hk : ((k : ℂ) + 1) ≠ 0 := by exact_mod_cast (Nat.succ_ne_zero k)
  push_cast
  simp only [eval_mul, eval_add, eval_natCast, eval_one, add_sub_cancel_right]
  field_simp

theorem grad_of_analytic (F : ℂ → ℂ) (f' : ℂ) (x y : ℝ) (h : HasDerivAt F f' ⟨x, y⟩) :
    GradAt (fun z => (F z).re) x y (-(starRingEnd ℂ) f') := by
  have e : ∀ s t : ℝ, (⟨s, t⟩ : ℂ) = (s : ℂ) + (t : ℂ) * Complex.I := fun s t => by
    apply Complex.ext <;> simp
  constructor
  · have h1 : HasDerivAt (fun w : ℂ => w + (y : ℂ) * Complex.I) 1 (x : ℂ) := (hasDerivAt_id _).add_const _
    rw [e] at h
    have h2 := HasDerivAt.real_of_complex (HasDerivAt.comp (x : ℂ) h h1)
    convert h2 using 1
    · funext t
      simp [e]
    · simp
  · have h1 : HasDerivAt (fun w : ℂ => (x : ℂ) + w * Complex.I) (1 * Complex.I) (y : ℂ) :=
      ((hasDerivAt_id _).mul_const _).const_add _
    rw [e] at h
    have h2 := HasDerivAt.real_of_complex (HasDerivAt.comp (y : ℂ) h h1)
    convert h2 using 1
    · funext t
      simp [e]
    · simp

/-- the image terms of a centred beam are the conjugate of minus the derivative of `imgF` -/
theorem imageTerms_eq (acosh : ℂ → ℂ) (ha : IsAcosh acosh) (eps0 x y a b : ℝ) (nimag : ℕ) (hr : 1e-3 < |(a - b) / a|) (e : ℂ)
    (h : imageTerms acosh eps0 x y a b 0 0 nimag = .ok e) :
    e = -(starRingEnd ℂ) (imgF' eps0 √(a * a - b * b) (0.5 * log ((a + b) / (a - b))) (acosh 0).im nimag ⟨x, y⟩) := by
  unfold imageTerms at h
  rw [if_pos hr] at h
  split at h
  · cases h
  simp only at h
  split at h
  · cases h
  next hs =>
  have h0 : ((⟨0, 0⟩ : ℂ) / ((√(a * a - b * b) : ℝ) : ℂ)) = 0 := by
    rw [show (⟨0, 0⟩ : ℂ) = 0 from rfl, zero_div]
  rw [h0] at h
  have hq0 : Complex.cosh (acosh 0) = 0 := ha 0
  obtain ⟨hre, -⟩ := cosh_zero_re hq0
  rw [foldl_add_range (fun n : ℕ => (exp (-(n : ℝ) * (0.5 * log ((a + b) / (a - b)))) : ℂ) *
      (((cosh (n * (acosh 0).re) * cos (n * (acosh 0).im) / cosh (n * (0.5 * log ((a + b) / (a - b)))) : ℝ) : ℂ) +
        Complex.I * ((sinh (n * (acosh 0).re) * sin (n * (acosh 0).im) / sinh (n * (0.5 * log ((a + b) / (a - b)))) : ℝ) : ℂ)) *
      (Complex.sinh (n * (starRingEnd ℂ) (acosh (⟨x, y⟩ / ((√(a * a - b * b) : ℝ) : ℂ)))) /
        Complex.sinh ((starRingEnd ℂ) (acosh (⟨x, y⟩ / ((√(a * a - b * b) : ℝ) : ℂ))))))] at h
  cases h
  set g := √(a * a - b * b)
  set mu1 := 0.5 * log ((a + b) / (a - b))
  set q := acosh (⟨x, y⟩ / (g : ℂ)) with hq
  have hcq : Complex.cosh q = ⟨x, y⟩ / (g : ℂ) := ha _
  have hU : ∀ k : ℕ, Complex.sinh (((k + 1 : ℕ) : ℂ) * (starRingEnd ℂ) q) / Complex.sinh ((starRingEnd ℂ) q) =
      (starRingEnd ℂ) ((Chebyshev.U ℂ (k : ℤ)).eval (⟨x, y⟩ / (g : ℂ))) := by
    intro k
    have hsq : Complex.sinh q ≠ 0 := by
      intro h0
      apply hs
      rw [Complex.sinh_conj, h0, map_zero]
    have h1 := Chebyshev.U_complex_cosh q (k : ℤ)
    rw [hcq] at h1
    have h2 : (Chebyshev.U ℂ (k : ℤ)).eval (⟨x, y⟩ / (g : ℂ)) = Complex.sinh (((k + 1 : ℕ) : ℂ) * q) / Complex.sinh q := by
      rw [eq_div_iff hsq, h1]
      push_cast
      rfl
    rw [h2, map_div₀, ← Complex.sinh_conj, ← Complex.sinh_conj, map_mul, Complex.conj_natCast]
  simp only [hU, hre, zero_add]
  unfold imgF' imgCoef
  simp only [map_mul, map_neg, map_sum, map_div₀, Complex.conj_ofReal, neg_mul, neg_neg]
  rw [Finset.sum_div, Finset.sum_mul, Finset.sum_div, Finset.mul_sum]
  apply Finset.sum_congr rfl
  intro k _
  simp only [mul_zero, cosh_zero, sinh_zero, zero_mul, zero_div, Complex.ofReal_zero, add_zero, one_mul]
  push_cast
  by_cases he : (eps0 : ℂ) = 0
  · simp [he]
  by_cases hg : (g : ℂ) = 0
  · simp [hg]
  have hpi : (π : ℂ) ≠ 0 := by exact_mod_cast pi_ne_zero
  field_simp

/-! ## The wall -/

theorem ell_exp {a b : ℝ} (hb : 0 < b) (hab : b < a) :
    √(a * a - b * b) * exp (0.5 * log ((a + b) / (a - b))) = a + b ∧
    √(a * a - b * b) * exp (-(0.5 * log ((a + b) / (a - b)))) = a - b := by
  have h1 : 0 < a + b := by linarith
  have h2 : 0 < a - b := by linarith
  have hg : √(a * a - b * b) = √(a + b) * √(a - b) := by
    rw [← sqrt_mul h1.le]
    congr 1
    ring
  have hA := sqrt_pos.2 h1
  have hB := sqrt_pos.2 h2
  have he : exp (0.5 * log ((a + b) / (a - b))) = √(a + b) / √(a - b) := by
    have hp : exp (0.5 * log ((a + b) / (a - b))) ^ 2 = (√(a + b) / √(a - b)) ^ 2 := by
      rw [← exp_nat_mul, div_pow, sq_sqrt h1.le, sq_sqrt h2.le]
      rw [show ((2 : ℕ) : ℝ) * (0.5 * log ((a + b) / (a - b))) = log ((a + b) / (a - b)) by norm_num; ring, exp_log (div_pos h1 h2)]
    exact (pow_left_inj₀ (exp_pos _).le (by positivity) two_ne_zero).1 hp
  rw [exp_neg, he, hg]
  constructor
  · field_simp
    exact sq_sqrt h1.le
  · field_simp
    exact sq_sqrt h2.le

theorem ellWall_eq {a b : ℝ} (hb : 0 < b) (hab : b < a) (φ : ℝ) :
    ellWall a b φ = (√(a * a - b * b) : ℂ) * Complex.cosh ((0.5 * log ((a + b) / (a - b)) : ℝ) + φ * Complex.I) := by
  obtain ⟨h1, h2⟩ := ell_exp hb hab
  set g := √(a * a - b * b)
  set m := 0.5 * log ((a + b) / (a - b))
  have hc : g * cosh m = a := by rw [cosh_eq]; linarith
  have hs : g * sinh m = b := by rw [sinh_eq]; linarith
  rw [cosh_parts]
  unfold ellWall
  apply Complex.ext
  · rw [Complex.re_ofReal_mul, ← mul_assoc, hc]
  · rw [Complex.im_ofReal_mul, ← mul_assoc, hs]

theorem cosh_re_im (m φ : ℝ) (n : ℕ) :
    (Complex.cosh ((n : ℂ) * ((m : ℂ) + φ * Complex.I))).re = cosh (n * m) * cos (n * φ) := by
  rw [show (n : ℂ) * ((m : ℂ) + φ * Complex.I) = ((n * m : ℝ) : ℂ) + ((n * φ : ℝ) : ℂ) * Complex.I by push_cast; ring, cosh_parts]

/-- the potential of the images on the wall -/
theorem imgF_wall {a b : ℝ} (hb : 0 < b) (hab : b < a) (eps0 b0 : ℝ) (h0 : cos b0 = 0) (nimag : ℕ) (φ : ℝ) :
    (imgF eps0 √(a * a - b * b) (0.5 * log ((a + b) / (a - b))) b0 nimag (ellWall a b φ)).re =
      -(1 / (2 * π * eps0)) * ∑ k ∈ Finset.range (nimag / 2),
        (-1) ^ (k + 1) * exp (-(2 * ((k + 1 : ℕ) : ℝ)) * (0.5 * log ((a + b) / (a - b)))) * cos (2 * ((k + 1 : ℕ) : ℝ) * φ) / ((k + 1 : ℕ) : ℝ) := by
  have hg : (√(a * a - b * b) : ℂ) ≠ 0 := by
    have : 0 < √(a * a - b * b) := sqrt_pos.2 (by nlinarith)
    exact_mod_cast this.ne'
  set m := 0.5 * log ((a + b) / (a - b)) with hm
  unfold imgF
  rw [ellWall_eq hb hab, ← hm, mul_div_cancel_left₀ _ hg]
  simp only [Chebyshev.T_complex_cosh]
  rw [← Complex.ofReal_neg, Complex.re_ofReal_mul, Complex.re_sum]
  have hterm : ∀ n : ℕ, (((imgCoef m b0 n / (n : ℝ) : ℝ) : ℂ) * Complex.cosh (((n : ℤ) : ℂ) * ((m : ℂ) + φ * Complex.I))).re =
      exp (-(n : ℝ) * m) * cos (n * b0) * cos (n * φ) / n := by
    intro n
    rw [Complex.re_ofReal_mul, Int.cast_natCast, cosh_re_im]
    unfold imgCoef
    have := (cosh_pos (n * m)).ne'
    field_simp
  simp only [hterm]
  rw [sum_even (fun n : ℕ => exp (-(n : ℝ) * m) * cos (n * b0) * cos (n * φ) / n)]
  · rw [show (-(1 / (π * eps0)) : ℝ) = -(1 / (2 * π * eps0)) * 2 by
      by_cases he : eps0 = 0
      · simp [he]
      · have := pi_ne_zero
        field_simp, mul_assoc, Finset.mul_sum]
    congr 1
    apply Finset.sum_congr rfl
    intro k _
    have := (cos_zero_mul h0 (k + 1)).1
    push_cast at this ⊢
    rw [this]
    have hk : (k : ℝ) + 1 ≠ 0 := by positivity
    field_simp
  · intro k
    have e : ((2 * k + 1 : ℕ) : ℝ) * b0 = 2 * k * b0 + b0 := by push_cast; ring
    have : cos (((2 * k + 1 : ℕ) : ℝ) * b0) = 0 := by
      rw [e, cos_add, (cos_zero_mul h0 k).2, h0]
      ring
    simp only [this]
    ring

/-- the potential of the line charge on the wall -/
theorem linePot_wall {a b : ℝ} (hb : 0 < b) (hab : b < a) (eps0 φ : ℝ) :
    linePot eps0 (ellWall a b φ) = -(1 / (2 * π * eps0)) * (log ((a + b) / 2) +
      (Complex.log (1 + Complex.exp (-2 * (((0.5 * log ((a + b) / (a - b)) : ℝ) : ℂ) + φ * Complex.I)))).re) ∧
    ‖Complex.exp (-2 * (((0.5 * log ((a + b) / (a - b)) : ℝ) : ℂ) + φ * Complex.I))‖ = (a - b) / (a + b) := by
  have h1 : 0 < a + b := by linarith
  have h2 : 0 < a - b := by linarith
  obtain ⟨he1, -⟩ := ell_exp hb hab
  have hg : 0 < √(a * a - b * b) := sqrt_pos.2 (by nlinarith)
  set g := √(a * a - b * b)
  set m := 0.5 * log ((a + b) / (a - b)) with hm
  set q : ℂ := (m : ℂ) + φ * Complex.I with hq
  have hn : ‖Complex.exp (-2 * q)‖ = (a - b) / (a + b) := by
    rw [Complex.norm_exp]
    have : (-2 * q).re = log ((a - b) / (a + b)) := by
      rw [hq]
      simp [hm]
      rw [← inv_div, log_inv]
      norm_num
      ring
    rw [this, exp_log (div_pos h2 h1)]
  refine ⟨?_, hn⟩
  have hlt : (a - b) / (a + b) < 1 := (div_lt_one h1).2 (by linarith)
  have hne : 1 + Complex.exp (-2 * q) ≠ 0 := by
    intro h0
    have : Complex.exp (-2 * q) = -1 := by linear_combination h0
    rw [this] at hn
    rw [norm_neg, norm_one] at hn
    linarith
  unfold linePot
  rw [ellWall_eq hb hab, Complex.log_re]
  have hcosh : Complex.cosh q = Complex.exp q / 2 * (1 + Complex.exp (-2 * q)) := by
    rw [Complex.cosh, mul_add, div_mul_eq_mul_div, div_mul_eq_mul_div, ← Complex.exp_add]
    rw [show q + -2 * q = -q by ring]
    ring
  have hnorm : ‖(g : ℂ) * Complex.cosh q‖ = (a + b) / 2 * ‖1 + Complex.exp (-2 * q)‖ := by
    rw [hcosh, norm_mul, norm_mul, norm_div, Complex.norm_exp, Complex.norm_real, norm_of_nonneg hg.le]
    have : q.re = m := by rw [hq]; simp
    rw [this, Complex.norm_ofNat, ← mul_assoc, ← mul_div_assoc, he1]
  rw [← hm, ← hq, hnorm, log_mul (by positivity) (norm_ne_zero_iff.2 hne)]

theorem wall_bound {a b : ℝ} (hb : 0 < b) (hab : b < a) (eps0 : ℝ) (he : 0 < eps0) (b0 : ℝ) (h0 : cos b0 = 0) (nimag : ℕ) (φ : ℝ) :
    |linePot eps0 (ellWall a b φ) +
      (imgF eps0 √(a * a - b * b) (0.5 * log ((a + b) / (a - b))) b0 nimag (ellWall a b φ)).re - linePot eps0 (((a + b) / 2 : ℝ) : ℂ)| ≤
      1 / (2 * π * eps0) * (((a - b) / (a + b)) ^ (nimag / 2 + 1) * (1 - (a - b) / (a + b))⁻¹ / ((nimag / 2 : ℕ) + 1)) := by
  have h1 : 0 < a + b := by linarith
  obtain ⟨e1, e2⟩ := linePot_wall hb hab eps0 φ
  rw [e1, imgF_wall hb hab eps0 b0 h0]
  set m := 0.5 * log ((a + b) / (a - b)) with hm
  set w := Complex.exp (-2 * ((m : ℂ) + φ * Complex.I)) with hw
  have hlt : ‖w‖ < 1 := by rw [e2]; exact (div_lt_one h1).2 (by linarith)
  have hb := Complex.norm_log_sub_logTaylor_le (nimag / 2) hlt
  rw [e2] at hb
  have hT : (Complex.logTaylor (nimag / 2 + 1) w).re = -∑ k ∈ Finset.range (nimag / 2),
      (-1) ^ (k + 1) * exp (-(2 * ((k + 1 : ℕ) : ℝ)) * m) * cos (2 * ((k + 1 : ℕ) : ℝ) * φ) / ((k + 1 : ℕ) : ℝ) := by
    unfold Complex.logTaylor
    rw [Finset.sum_range_succ', Complex.add_re, Complex.re_sum, ← Finset.sum_neg_distrib]
    simp only [Nat.cast_zero, div_zero, Complex.zero_re, add_zero]
    apply Finset.sum_congr rfl
    intro k _
    have hp : w ^ (k + 1) = ((exp (-(2 * ((k + 1 : ℕ) : ℝ)) * m) : ℝ) : ℂ) *
        ((cos (2 * ((k + 1 : ℕ) : ℝ) * φ) : ℝ) - (sin (2 * ((k + 1 : ℕ) : ℝ) * φ) : ℝ) * Complex.I) := by
      rw [hw, ← Complex.exp_nat_mul]
      rw [show ((k + 1 : ℕ) : ℂ) * (-2 * ((m : ℂ) + φ * Complex.I)) =
        ((-(2 * ((k + 1 : ℕ) : ℝ)) * m : ℝ) : ℂ) + ((-(2 * ((k + 1 : ℕ) : ℝ) * φ) : ℝ) : ℂ) * Complex.I by push_cast; ring]
      rw [Complex.exp_add_mul_I, ← Complex.ofReal_exp, ← Complex.ofReal_cos, ← Complex.ofReal_sin, cos_neg, sin_neg]
      push_cast
      ring
    rw [hp]
    rw [show ((-1 : ℂ) ^ (k + 1 + 1) * (((exp (-(2 * ((k + 1 : ℕ) : ℝ)) * m) : ℝ) : ℂ) *
        ((cos (2 * ((k + 1 : ℕ) : ℝ) * φ) : ℝ) - (sin (2 * ((k + 1 : ℕ) : ℝ) * φ) : ℝ) * Complex.I)) / ((k + 1 : ℕ) : ℂ)) =
        (((-1 : ℝ) ^ (k + 1 + 1) * exp (-(2 * ((k + 1 : ℕ) : ℝ)) * m) / ((k + 1 : ℕ) : ℝ) : ℝ) : ℂ) *
        ((cos (2 * ((k + 1 : ℕ) : ℝ) * φ) : ℝ) - (sin (2 * ((k + 1 : ℕ) : ℝ) * φ) : ℝ) * Complex.I) by push_cast; ring]
    rw [Complex.re_ofReal_mul]
    simp only [Complex.sub_re, Complex.ofReal_re, Complex.mul_re, Complex.ofReal_im, Complex.I_re, Complex.I_im]
    ring
  have hl : linePot eps0 (((a + b) / 2 : ℝ) : ℂ) = -(1 / (2 * π * eps0)) * log ((a + b) / 2) := by
    unfold linePot
    rw [Complex.norm_real, norm_of_nonneg (by positivity)]
  rw [hl]
  set S := ∑ k ∈ Finset.range (nimag / 2),
      (-1) ^ (k + 1) * exp (-(2 * ((k + 1 : ℕ) : ℝ)) * m) * cos (2 * ((k + 1 : ℕ) : ℝ) * φ) / ((k + 1 : ℕ) : ℝ)
  have hre : |(Complex.log (1 + w)).re + S| ≤ ((a - b) / (a + b)) ^ (nimag / 2 + 1) * (1 - (a - b) / (a + b))⁻¹ / ((nimag / 2 : ℕ) + 1) := by
    refine le_trans ?_ hb
    have := Complex.abs_re_le_norm (Complex.log (1 + w) - Complex.logTaylor (nimag / 2 + 1) w)
    rw [Complex.sub_re, hT, sub_neg_eq_add] at this
    exact this
  rw [show -(1 / (2 * π * eps0)) * (log ((a + b) / 2) + (Complex.log (1 + w)).re) + -(1 / (2 * π * eps0)) * S -
      -(1 / (2 * π * eps0)) * log ((a + b) / 2) = -(1 / (2 * π * eps0)) * ((Complex.log (1 + w)).re + S) by ring]
  rw [abs_mul, abs_neg, abs_of_pos (by positivity)]
  exact mul_le_mul_of_nonneg_left hre (by positivity)

end PyECLOUD
