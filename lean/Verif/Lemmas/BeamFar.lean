import Verif.Props.Faddeeva
import Verif.Spec.LineField

/-!
# The leading term of the complex error function routine, for C173
-/

namespace PyECLOUD

open Filter Topology Complex

theorem half_norm : ‖(0.5 : ℂ)‖ = 0.5 := by
  rw [show (0.5 : ℂ) = ((0.5 : ℝ) : ℂ) by push_cast; norm_num, Complex.norm_real]; norm_num

/-- The denominators of loop 30 are of the size of `s`. -/
theorem errLoop30_den (s ρ : ℂ) (k : ℕ) (hk : k ≤ 9) (hs : 4.29 ≤ ‖s‖) (hρ : ‖ρ‖ ≤ 0.9 / ‖s‖) : 0.559 * ‖s‖ ≤ ‖s + k * ρ‖ := by
  have hs0 : 0 < ‖s‖ := lt_of_lt_of_le (by norm_num) hs
  have h3 : ‖s‖ ≤ ‖s + k * ρ‖ + ‖(k : ℂ) * ρ‖ := by
    have := norm_sub_le (s + k * ρ) ((k : ℂ) * ρ)
    rwa [add_sub_cancel_right] at this
  have hk' : (k : ℝ) ≤ 9 := by exact_mod_cast hk
  have h4 : ‖(k : ℂ) * ρ‖ ≤ 9 * (0.9 / ‖s‖) := by
    rw [norm_mul, Complex.norm_natCast]
    gcongr
  have h5 : 9 * (0.9 / ‖s‖) ≤ 0.441 * ‖s‖ := by
    rw [mul_div_assoc', div_le_iff₀ hs0]
    have : (4.29 : ℝ) * 4.29 ≤ ‖s‖ * ‖s‖ := by gcongr
    norm_num at this ⊢
    linarith
  linarith

/-- Loop 30 ends with `1 / (2 (s + ρ))`, `ρ` small. -/
theorem errLoop30_lead (xh yh : ℝ) (hs : 4.29 ≤ ‖(⟨xh, -yh⟩ : ℂ)‖) : ∀ (n : ℕ) (ax ay : Arr33) (ρ : ℂ), n + 1 ≤ 9 →
    rd ax 1 = .ok ρ.re → rd ay 1 = .ok ρ.im → ‖ρ‖ ≤ 0.9 / ‖(⟨xh, -yh⟩ : ℂ)‖ →
    ∃ bx by' ρ1, errLoop30 xh yh (n + 1) ax ay = .ok (bx, by') ∧ ‖ρ1‖ ≤ 0.9 / ‖(⟨xh, -yh⟩ : ℂ)‖ ∧
      rd bx 1 = .ok (0.5 / ((⟨xh, -yh⟩ : ℂ) + ρ1)).re ∧ rd by' 1 = .ok (0.5 / ((⟨xh, -yh⟩ : ℂ) + ρ1)).im
  | n, ax, ay, ρ, hn, h1, h2, h0 => by
    set s : ℂ := ⟨xh, -yh⟩ with hsd
    have hs0 : 0 < ‖s‖ := lt_of_lt_of_le (by norm_num) hs
    have hTn := errLoop30_den s ρ (n + 1) hn hs h0
    push_cast at hTn
    have hTp : 0 < ‖s + (n + 1) * ρ‖ := lt_of_lt_of_le (by positivity) hTn
    have hT : s + (n + 1) * ρ ≠ 0 := norm_pos_iff.1 hTp
    obtain ⟨ax', ay', e, e1, e2⟩ := errLoop30_step xh yh n ax ay ρ h1 h2 hT
    match n, hn, e, e1, e2, hTn, hTp with
    | 0, _, e, e1, e2, _, _ =>
      refine ⟨ax', ay', ρ, ?_, h0, ?_, ?_⟩
      · rw [e]; rfl
      · simpa using e1
      · simpa using e2
    | m + 1, hn, e, e1, e2, hTn, hTp =>
      have hsm : ‖0.5 / (s + ((m + 1 : ℕ) + 1) * ρ)‖ ≤ 0.9 / ‖s‖ := by
        rw [norm_div, half_norm, div_le_div_iff₀ hTp hs0]
        norm_num at hTn ⊢
        linarith
      obtain ⟨bx, by', ρ1, f1, f2, f3, f4⟩ := errLoop30_lead xh yh hs m ax' ay' _ (by omega) e1 e2 hsm
      exact ⟨bx, by', ρ1, e.trans f1, f2, f3, f4⟩

/-- The routine in the first quadrant, outside the rectangle: leading term and bound of the rest. -/
theorem errf_lead (x y : ℝ) (hx : 0 ≤ x) (hy : 0 ≤ y) (hfar : 4.29 ≤ y ∨ 5.33 ≤ x) :
    ∃ w : ℝ × ℝ, errf x y = .ok w ∧
      ‖(⟨w.1, w.2⟩ : ℂ) - I / ((√Real.pi : ℝ) * (⟨x, y⟩ : ℂ))‖ ≤ 1 / ‖(⟨x, y⟩ : ℂ)‖ ^ 3 + 5e-15 / ‖(⟨x, y⟩ : ℂ)‖ := by
  have hb : ¬ (y < 4.29 ∧ x < 5.33) := by
    rintro ⟨h1, h2⟩
    rcases hfar with h | h <;> linarith
  set z : ℂ := ⟨x, y⟩ with hz
  set s : ℂ := ⟨y, -x⟩ with hs
  have hsz : s = -I * z := by apply Complex.ext <;> simp [hs, hz]
  have hnorm : ‖s‖ = ‖z‖ := by rw [hsz, norm_mul, norm_neg, norm_I, one_mul]
  have hbig : 4.29 ≤ ‖s‖ := by
    rcases hfar with h | h
    · exact h.trans ((le_abs_self _).trans (abs_re_le_norm s))
    · have h' := abs_im_le_norm s
      rw [show s.im = -x from rfl, abs_neg] at h'
      exact (le_trans (by norm_num) h).trans ((le_abs_self _).trans h')
  have hs0 : 0 < ‖s‖ := lt_of_lt_of_le (by norm_num) hbig
  obtain ⟨ax, hax, rax, -⟩ := rd_wr (fun _ => none) 1 0 (by omega) (by omega)
  obtain ⟨bx, by', ρ1, f1, f2, f3, f4⟩ := errLoop30_lead y x hbig 8 ax ax 0 (by omega) (by simpa using rax) (by simpa using rax)
    (by rw [norm_zero]; positivity)
  set r := 0.5 / (s + ρ1) with hr
  have hq : errQuadrant x y = .ok (errCC * r.re, errCC * r.im) := by
    rw [errQuadrant, if_neg hb, hax]
    show (errLoop30 y x 9 ax ax >>= _) = _
    rw [f1]
    show (rd bx 1 >>= _) = _
    rw [f3]
    show (rd by' 1 >>= _) = _
    rw [f4]
    rfl
  have hden : 0.559 * ‖s‖ ≤ ‖s + ρ1‖ := by simpa using errLoop30_den s ρ1 1 (by omega) hbig f2
  have hden' : 0.95 * ‖s‖ ≤ ‖s + ρ1‖ := by
    have h3 : ‖s‖ ≤ ‖s + ρ1‖ + ‖ρ1‖ := by
      have := norm_sub_le (s + ρ1) ρ1
      rwa [add_sub_cancel_right] at this
    have h5 : 0.9 / ‖s‖ ≤ 0.05 * ‖s‖ := by
      rw [div_le_iff₀ hs0]
      have : (4.29 : ℝ) * 4.29 ≤ ‖s‖ * ‖s‖ := by gcongr
      norm_num at this ⊢
      linarith
    linarith
  have hsn : s ≠ 0 := norm_pos_iff.1 hs0
  have hdp : 0 < ‖s + ρ1‖ := lt_of_lt_of_le (by positivity) hden
  have hdn : s + ρ1 ≠ 0 := norm_pos_iff.1 hdp
  have hrd : ‖r - 0.5 / s‖ ≤ 0.48 / ‖s‖ ^ 3 := by
    have e : r - 0.5 / s = -(0.5 * ρ1) / (s * (s + ρ1)) := by
      rw [hr]
      field_simp
      ring
    rw [e, norm_div, norm_neg, norm_mul, norm_mul, half_norm]
    calc 0.5 * ‖ρ1‖ / (‖s‖ * ‖s + ρ1‖) ≤ 0.5 * (0.9 / ‖s‖) / (‖s‖ * (0.95 * ‖s‖)) := by gcongr
      _ = (0.45 / 0.95) / ‖s‖ ^ 3 := by field_simp; norm_num
      _ ≤ 0.48 / ‖s‖ ^ 3 := by gcongr; norm_num
  have hpi : (0 : ℝ) < √Real.pi := Real.sqrt_pos.2 Real.pi_pos
  have hpin : ((√Real.pi : ℝ) : ℂ) ≠ 0 := by exact_mod_cast hpi.ne'
  have hlead : I / ((√Real.pi : ℝ) * z) = ((2 / √Real.pi : ℝ) : ℂ) * (0.5 / s) := by
    have hzn : z ≠ 0 := by
      intro h
      rw [hsz, h, mul_zero] at hsn
      exact hsn rfl
    rw [hsz]
    push_cast
    have hI : (I : ℂ) ≠ 0 := I_ne_zero
    field_simp
    rw [show (I : ℂ) ^ 2 = -1 from I_sq]
    norm_num
  have hE : ‖(⟨errCC * r.re, errCC * r.im⟩ : ℂ) - I / ((√Real.pi : ℝ) * z)‖ ≤ 0.55 / ‖s‖ ^ 3 + 5e-15 / ‖s‖ := by
    have e1 : (⟨errCC * r.re, errCC * r.im⟩ : ℂ) = (errCC : ℂ) * r := by apply Complex.ext <;> simp
    have e2 : (errCC : ℂ) * r - I / ((√Real.pi : ℝ) * z) = (errCC : ℂ) * (r - 0.5 / s) + ((errCC - 2 / √Real.pi : ℝ) : ℂ) * (0.5 / s) := by
      rw [hlead]
      push_cast
      ring
    rw [e1, e2]
    refine (norm_add_le _ _).trans ?_
    rw [norm_mul, norm_mul, Complex.norm_real, Complex.norm_real, Real.norm_eq_abs, Real.norm_eq_abs, norm_div, half_norm]
    have e3 : |errCC| ≤ 1.1284 := by rw [errCC]; norm_num [abs_le]
    have hcc := errCC_close
    calc |errCC| * ‖r - 0.5 / s‖ + |errCC - 2 / √Real.pi| * (0.5 / ‖s‖)
        ≤ 1.1284 * (0.48 / ‖s‖ ^ 3) + 1e-14 * (0.5 / ‖s‖) := by gcongr
      _ ≤ 0.55 / ‖s‖ ^ 3 + 5e-15 / ‖s‖ := by
        rw [mul_div_assoc', mul_div_assoc']
        gcongr <;> norm_num
  have hq' : errQuadrant |x| |y| = .ok (errCC * r.re, errCC * r.im) := by rw [abs_of_nonneg hx, abs_of_nonneg hy]; exact hq
  have hw := errf_eq x y _ hq'
  rw [if_neg (not_lt.2 hy), if_neg (not_lt.2 hx)] at hw
  refine ⟨_, hw, ?_⟩
  rw [← hnorm]
  by_cases hy0 : y = 0
  · have hx5 : 5.33 ≤ x := by
      rcases hfar with h | h
      · rw [hy0] at h; norm_num at h
      · exact h
    have hsx : ‖s‖ = x := by
      rw [hnorm, hz, hy0, show (⟨x, 0⟩ : ℂ) = (x : ℂ) from rfl, Complex.norm_real, Real.norm_of_nonneg hx]
    have hexp : Real.exp (-|x| ^ 2) ≤ 0.4 / ‖s‖ ^ 3 := by
      have hx0 : 0 < x := lt_of_lt_of_le (by norm_num) hx5
      rw [hsx, sq_abs, Real.exp_neg, inv_eq_one_div, div_le_div_iff₀ (Real.exp_pos _) (by positivity)]
      have h1 := Real.quadratic_le_exp_of_nonneg (sq_nonneg x)
      have h2 : x ^ 3 * 5.33 ≤ x ^ 3 * x := by gcongr
      norm_num at h1 h2 ⊢
      nlinarith [pow_pos hx0 3, sq_nonneg x]
    have himz : (I / ((√Real.pi : ℝ) * z)).re = 0 := by
      rw [hz, hy0, show (⟨x, 0⟩ : ℂ) = (x : ℂ) from rfl, ← Complex.ofReal_mul, Complex.div_ofReal_re, Complex.I_re, zero_div]
    rw [if_pos (by rw [hy0, abs_zero])]
    have e : (⟨Real.exp (-|x| ^ 2), errCC * r.im⟩ : ℂ) - I / ((√Real.pi : ℝ) * z) =
        ((Real.exp (-|x| ^ 2) : ℝ) : ℂ) + (((⟨errCC * r.re, errCC * r.im⟩ : ℂ) - I / ((√Real.pi : ℝ) * z)).im : ℂ) * I := by
      apply Complex.ext
      · simp only [Complex.sub_re, himz, Complex.add_re, Complex.ofReal_re, Complex.mul_re, Complex.I_re, Complex.I_im, Complex.ofReal_im]
        ring
      · simp only [Complex.sub_im, Complex.add_im, Complex.ofReal_re, Complex.mul_im, Complex.I_re, Complex.I_im, Complex.ofReal_im]
        ring
    have h1 : ‖(((⟨errCC * r.re, errCC * r.im⟩ : ℂ) - I / ((√Real.pi : ℝ) * z)).im : ℂ) * I‖ ≤ 0.55 / ‖s‖ ^ 3 + 5e-15 / ‖s‖ := by
      rw [norm_mul, norm_I, mul_one, Complex.norm_real]
      exact (abs_im_le_norm _).trans hE
    have h2 : ‖((Real.exp (-|x| ^ 2) : ℝ) : ℂ)‖ ≤ 0.4 / ‖s‖ ^ 3 := by
      rw [Complex.norm_real, Real.norm_of_nonneg (Real.exp_pos _).le]
      exact hexp
    show ‖(⟨Real.exp (-|x| ^ 2), errCC * r.im⟩ : ℂ) - I / ((√Real.pi : ℝ) * z)‖ ≤ _
    rw [e]
    refine (norm_add_le _ _).trans ?_
    have h3 : 0.4 / ‖s‖ ^ 3 + 0.55 / ‖s‖ ^ 3 ≤ 1 / ‖s‖ ^ 3 := by
      rw [← add_div]
      gcongr
      norm_num
    linarith
  · rw [if_neg (by simpa using hy0)]
    refine hE.trans ?_
    have : 0.55 / ‖s‖ ^ 3 ≤ 1 / ‖s‖ ^ 3 := by gcongr; norm_num
    linarith

end PyECLOUD
