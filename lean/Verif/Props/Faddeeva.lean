import Verif.Lemmas.FaddeevaTurn
import Verif.Props.ErrF
import Mathlib.Analysis.Real.Pi.Bounds

/-!
# C172: far from the origin the complex error function routine is accurate
-/

namespace PyECLOUD

open MeasureTheory Set Filter Topology Complex

/-! ### The specification has the known properties of `w` -/

theorem faddeeva_int (z : ℂ) : Integrable (fun u : ℝ => cexp (-(u : ℂ) ^ 2 + 2 * I * u * z)) := by
  have h := integrable_cexp_quadratic (b := 1) (by simp) (2 * I * z) 0
  refine h.congr (Eventually.of_forall fun u => ?_)
  simp only
  congr 1; ring

/-- `w(z) + w(-z) = 2 exp(-z²)`. -/
theorem faddeeva_reflect (z : ℂ) : faddeeva z + faddeeva (-z) = 2 * cexp (-z ^ 2) := by
  have h1 : ∫ u in Ioi (0 : ℝ), cexp (-(u : ℂ) ^ 2 + 2 * I * u * (-z)) = ∫ u in Iic (0 : ℝ), cexp (-(u : ℂ) ^ 2 + 2 * I * u * z) := by
    have := integral_comp_neg_Iic (0 : ℝ) (fun u : ℝ => cexp (-(u : ℂ) ^ 2 + 2 * I * u * (-z)))
    rw [neg_zero] at this
    rw [← this]
    congr 1
    ext u
    congr 1
    push_cast
    ring
  have h2 : (∫ u in Iic (0 : ℝ), cexp (-(u : ℂ) ^ 2 + 2 * I * u * z)) + ∫ u in Ioi (0 : ℝ), cexp (-(u : ℂ) ^ 2 + 2 * I * u * z) =
      ∫ u : ℝ, cexp (-(u : ℂ) ^ 2 + 2 * I * u * z) := by
    have := integral_add_compl (s := Iic (0 : ℝ)) measurableSet_Iic (faddeeva_int z)
    rwa [compl_Iic] at this
  have h3 : ∫ u : ℝ, cexp (-(u : ℂ) ^ 2 + 2 * I * u * z) = (√Real.pi : ℝ) * cexp (-z ^ 2) := by
    have := integral_cexp_quadratic (b := -1) (by simp) (2 * I * z) 0
    have e : (fun u : ℝ => cexp (-1 * (u : ℂ) ^ 2 + 2 * I * z * u + 0)) = fun u : ℝ => cexp (-(u : ℂ) ^ 2 + 2 * I * u * z) := by
      ext u; congr 1; ring
    rw [e] at this
    rw [this]
    congr 1
    · rw [neg_neg, div_one, Real.sqrt_eq_rpow, Complex.ofReal_cpow Real.pi_pos.le]
      norm_num
    · congr 1
      rw [mul_pow, mul_pow, I_sq]
      ring
  have hpi : ((√Real.pi : ℝ) : ℂ) ≠ 0 := by
    exact_mod_cast (Real.sqrt_pos.2 Real.pi_pos).ne'
  rw [faddeeva, faddeeva, h1, ← mul_add, add_comm, h2, h3]
  field_simp

/-- `w(-z̄)` is the conjugate of `w(z)`. -/
theorem faddeeva_conj (z : ℂ) : faddeeva (-(starRingEnd ℂ) z) = (starRingEnd ℂ) (faddeeva z) := by
  rw [faddeeva, faddeeva, map_mul, ← integral_conj]
  congr 1
  · rw [map_div₀, Complex.conj_ofReal, map_ofNat]
  · congr 1
    ext u
    rw [← Complex.exp_conj]
    congr 1
    simp [Complex.conj_ofReal, map_ofNat]

/-- `w(0) = 1`. -/
theorem faddeeva_zero : faddeeva 0 = 1 := by
  have h := faddeeva_reflect 0
  simp at h
  linear_combination h / 2

theorem faddeeva_mom (x y : ℝ) : faddeeva ⟨x, y⟩ = 2 / (√Real.pi : ℝ) * wMom 0 ⟨y, -x⟩ := by
  rw [faddeeva, wMom]
  congr 2
  ext u
  rw [pow_zero, one_mul]
  congr 1
  apply Complex.ext <;> simp <;> ring

/-! ### The routine -/

/-- The constant of the routine is `2/√π`. -/
theorem errCC_close : |errCC - 2 / √Real.pi| ≤ 1e-14 := by
  have hp := Real.pi_pos
  have h1 := Real.pi_gt_d20
  have h2 := Real.pi_lt_d20
  have hs : 0 < √Real.pi := Real.sqrt_pos.2 hp
  have hlo : (1.1283791670955 : ℝ) ≤ 2 / √Real.pi := by
    rw [le_div_iff₀ hs]
    refine abs_le_of_sq_le_sq' ?_ (by norm_num) |>.2
    rw [mul_pow, Real.sq_sqrt hp.le]
    norm_num at h2 ⊢
    linarith
  have hhi : 2 / √Real.pi ≤ (1.12837916709552 : ℝ) := by
    rw [div_le_iff₀ hs]
    refine abs_le_of_sq_le_sq' ?_ (by positivity) |>.2
    rw [mul_pow, Real.sq_sqrt hp.le]
    norm_num at h1 ⊢
    linarith
  rw [abs_le, errCC]
  norm_num at hlo hhi ⊢
  constructor <;> linarith

/-- Beside the imaginary axis: the denominators of loop 30. -/
theorem errLoop30_side (xh yh : ℝ) (hx : 0 ≤ xh) (hy : 5.33 ≤ yh) : ∀ (n : ℕ) (ax ay : Arr33) (ρ : ℂ), n ≤ 8 →
    rd ax 1 = .ok ρ.re → rd ay 1 = .ok ρ.im → ‖ρ‖ ≤ 0.113 →
    ∃ bx by' r, errLoop30 xh yh n ax ay = .ok (bx, by') ∧ rd bx 1 = .ok r.re ∧ rd by' 1 = .ok r.im ∧
      ‖r - wMom 0 ⟨xh, -yh⟩‖ ≤ ‖wErr ⟨xh, -yh⟩ n ρ‖ / ∏ k ∈ Finset.range n, (5.33 - 0.113 * (k + 1 : ℝ))
  | 0, ax, ay, ρ, _, h1, h2, _ => ⟨ax, ay, ρ, rfl, h1, h2, by rw [wErr_zero _ (by exact hx)]; simp⟩
  | n + 1, ax, ay, ρ, hn, h1, h2, h0 => by
    set s : ℂ := ⟨xh, -yh⟩ with hs
    set T := s + (n + 1) * ρ with hTd
    have hsn : 5.33 ≤ ‖s‖ := by
      have h := abs_im_le_norm s
      rw [show s.im = -yh from rfl, abs_neg] at h
      exact hy.trans ((le_abs_self _).trans h)
    have hnn : ‖(n + 1 : ℂ)‖ = n + 1 := by
      rw [show (n + 1 : ℂ) = ((n + 1 : ℝ) : ℂ) by push_cast; ring, Complex.norm_real, Real.norm_of_nonneg (by positivity)]
    have hn8 : (n + 1 : ℝ) ≤ 8 := by exact_mod_cast hn
    have hTn : 5.33 - 0.113 * (n + 1 : ℝ) ≤ ‖T‖ := by
      have h3 : ‖s‖ ≤ ‖T‖ + ‖(n + 1 : ℂ) * ρ‖ := by
        have := norm_sub_le T ((n + 1 : ℂ) * ρ)
        rwa [hTd, add_sub_cancel_right] at this
      rw [norm_mul, hnn] at h3
      have h4 : (n + 1 : ℝ) * ‖ρ‖ ≤ (n + 1) * 0.113 := by gcongr
      linarith
    have hpos : (4.426 : ℝ) ≤ 5.33 - 0.113 * (n + 1 : ℝ) := by norm_num at hn8 ⊢; linarith
    have hT : T ≠ 0 := fun h => by rw [h, norm_zero] at hTn; norm_num at hpos hTn; linarith
    obtain ⟨ax', ay', e, e1, e2⟩ := errLoop30_step xh yh n ax ay ρ h1 h2 hT
    have hsm : ‖0.5 / T‖ ≤ 0.113 := by
      rw [norm_div]
      have h5 : ‖(0.5 : ℂ)‖ = 0.5 := by
        rw [show (0.5 : ℂ) = ((0.5 : ℝ) : ℂ) by push_cast; norm_num, Complex.norm_real]; norm_num
      have h6 : (4.426 : ℝ) ≤ ‖T‖ := hpos.trans hTn
      rw [h5, div_le_iff₀ (norm_pos_iff.2 hT)]
      norm_num at h6 ⊢
      linarith
    obtain ⟨bx, by', r, f1, f2, f3, f4⟩ := errLoop30_side xh yh hx hy n ax' ay' _ (by omega) e1 e2 hsm
    refine ⟨bx, by', r, e.trans f1, f2, f3, f4.trans ?_⟩
    have hP : 0 < ∏ k ∈ Finset.range n, (5.33 - 0.113 * (k + 1 : ℝ)) := by
      refine Finset.prod_pos fun k hk => ?_
      have : (k + 1 : ℝ) ≤ 8 := by
        have := Finset.mem_range.1 hk
        exact_mod_cast (by omega : k + 1 ≤ 8)
      norm_num at this ⊢
      linarith
    have hq : (0 : ℝ) < 5.33 - 0.113 * (n + 1 : ℝ) := by norm_num at hpos ⊢; linarith
    rw [wErr_step s (by exact hx) n ρ hT, norm_div, norm_neg, Finset.prod_range_succ, div_div, mul_comm ‖s + _‖]
    gcongr

theorem errQuadrant_far (x y : ℝ) (hx : 0 ≤ x) (hy : 0 ≤ y) (hfar : 4.29 ≤ y ∨ 5.33 ≤ x) :
    ∃ r : ℂ, errQuadrant x y = .ok (errCC * r.re, errCC * r.im) ∧ ‖r - wMom 0 ⟨y, -x⟩‖ ≤ 3.99e-10 ∧ ‖wMom 0 ⟨y, -x⟩‖ ≤ 0.2 := by
  have hb : ¬ (y < 4.29 ∧ x < 5.33) := by
    rintro ⟨h1, h2⟩
    rcases hfar with h | h <;> linarith
  obtain ⟨ax, hax, rax, -⟩ := rd_wr (fun _ => none) 1 0 (by omega) (by omega)
  obtain ⟨ay, hay, ray⟩ : ∃ ay, wr (fun _ => none) 1 0 = .ok ay ∧ rd ay 1 = .ok 0 := ⟨ax, hax, rax⟩
  have key : ∃ bx by' r, errLoop30 y x 9 ax ay = .ok (bx, by') ∧ rd bx 1 = .ok r.re ∧ rd by' 1 = .ok r.im ∧
      ‖r - wMom 0 ⟨y, -x⟩‖ ≤ 3.99e-10 ∧ ‖wMom 0 ⟨y, -x⟩‖ ≤ 0.2 := by
    have h9 : ((Nat.factorial 9 : ℕ) : ℝ) = 362880 := by norm_num [Nat.factorial]
    have hE : ∀ s : ℂ, wErr s 9 0 = -wMom 9 s := fun s => by simp [wErr]
    rcases hfar with h | h
    · have hy0 : 0 < y := lt_of_lt_of_le (by norm_num) h
      obtain ⟨bx, by', r, f1, f2, f3, f4⟩ := errLoop30_above y x hy0 9 ax ay 0 (by simpa using rax) (by simpa using ray) le_rfl
      refine ⟨bx, by', r, f1, f2, f3, f4.trans ?_, ?_⟩
      · rw [hE, norm_neg]
        have h1 := wMom_le 9 ⟨y, -x⟩ hy0
        rw [h9] at h1
        simp only [Nat.reduceAdd] at h1
        calc ‖wMom 9 ⟨y, -x⟩‖ / y ^ 9 ≤ (362880 / (2 * y) ^ 10) / y ^ 9 := by gcongr
          _ ≤ (362880 / (2 * 4.29) ^ 10) / 4.29 ^ 9 := by gcongr
          _ ≤ 3.99e-10 := by norm_num
      · have h1 := wMom_le 0 ⟨y, -x⟩ hy0
        simp only [Nat.factorial_zero, Nat.cast_one, zero_add, pow_one] at h1
        calc _ ≤ 1 / (2 * y) := h1
          _ ≤ 1 / (2 * 4.29) := by gcongr
          _ ≤ 0.2 := by norm_num
    · have hx0 : 0 < x := lt_of_lt_of_le (by norm_num) h
      set s : ℂ := ⟨y, -x⟩ with hs
      have hsn : 5.33 ≤ ‖s‖ := by
        have h' := abs_im_le_norm s
        rw [show s.im = -x from rfl, abs_neg] at h'
        exact h.trans ((le_abs_self _).trans h')
      have hs0 : 0 < ‖s‖ := lt_of_lt_of_le (by norm_num) hsn
      have hsne : s + ((8 : ℕ) + 1 : ℂ) * 0 ≠ 0 := by rw [mul_zero, add_zero]; exact norm_pos_iff.1 hs0
      obtain ⟨ax', ay', e, e1, e2⟩ := errLoop30_step y x 8 ax ay 0 (by simpa using rax) (by simpa using ray) hsne
      have h5 : ‖(0.5 : ℂ)‖ = 0.5 := by
        rw [show (0.5 : ℂ) = ((0.5 : ℝ) : ℂ) by push_cast; norm_num, Complex.norm_real]; norm_num
      have hsm : ‖0.5 / (s + ((8 : ℕ) + 1 : ℂ) * 0)‖ ≤ 0.113 := by
        rw [mul_zero, add_zero, norm_div, h5, div_le_iff₀ hs0]
        norm_num at hsn ⊢
        linarith
      obtain ⟨bx, by', r, f1, f2, f3, f4⟩ := errLoop30_side y x hy h 8 ax' ay' _ le_rfl e1 e2 hsm
      have hr2 : (√2 : ℝ) ^ 2 = 2 := Real.sq_sqrt (by norm_num)
      have hr0 : 0 < (√2 : ℝ) := by positivity
      refine ⟨bx, by', r, e.trans f1, f2, f3, f4.trans ?_, ?_⟩
      · have h1 := wMom_le_side 9 x y hx0 hy
        rw [h9, show (√2 * (x + y)) ^ (9 + 1) = 32 * (x + y) ^ 10 by
          rw [mul_pow, show (√2 : ℝ) ^ (9 + 1) = ((√2) ^ 2) ^ 5 by ring, hr2]; norm_num] at h1
        have h2 : ‖wErr s 8 (0.5 / (s + ((8 : ℕ) + 1 : ℂ) * 0))‖ ≤ (362880 / (32 * 5.33 ^ 10)) / 5.33 := by
          rw [wErr_step s (by exact hy) 8 0 hsne, hE, norm_div, norm_neg, norm_neg, mul_zero, add_zero]
          have hxy : 5.33 ≤ x + y := by linarith
          calc ‖wMom 9 s‖ / ‖s‖ ≤ (362880 / (32 * (x + y) ^ 10)) / ‖s‖ := by gcongr
            _ ≤ _ := by gcongr
        have h3 : ∏ k ∈ Finset.range 8, (5.33 - 0.113 * (k + 1 : ℝ)) ≥ 288690 := by
          simp only [Finset.prod_range_succ, Finset.prod_range_zero]
          norm_num
        calc _ ≤ ((362880 / (32 * 5.33 ^ 10)) / 5.33) / (288690 : ℝ) :=
              div_le_div₀ (by norm_num) h2 (by norm_num) h3
          _ ≤ 3.99e-10 := by norm_num
      · have h1 := wMom_le_side 0 x y hx0 hy
        simp only [Nat.factorial_zero, Nat.cast_one, zero_add, pow_one] at h1
        have h2 : (1 : ℝ) ≤ √2 := by rw [Real.one_le_sqrt]; norm_num
        calc _ ≤ 1 / (√2 * (x + y)) := h1
          _ ≤ 1 / (1 * (5.33 + 0)) := by gcongr
          _ ≤ 0.2 := by norm_num
  obtain ⟨bx, by', r, f1, f2, f3, f4, f5⟩ := key
  refine ⟨r, ?_, f4, f5⟩
  have hea : ay = ax := Except.ok.inj (hay.symm.trans hax)
  rw [errQuadrant, if_neg hb, hax]
  rw [hea] at f1
  show (errLoop30 y x 9 ax ax >>= _) = _
  rw [f1]
  show (rd bx 1 >>= _) = _
  rw [f2]
  show (rd by' 1 >>= _) = _
  rw [f3]
  rfl

/-- The first quadrant with its axes. -/
theorem wOf_first (x y : ℝ) (hx : 0 ≤ x) (hy : 0 ≤ y) (hfar : 4.29 ≤ y ∨ 5.33 ≤ x) : ‖wOf ⟨x, y⟩ - faddeeva ⟨x, y⟩‖ ≤ 5e-10 := by
  obtain ⟨r, hq, h1, h2⟩ := errQuadrant_far x y hx hy hfar
  have hcc := errCC_close
  have hE : ‖(⟨errCC * r.re, errCC * r.im⟩ : ℂ) - faddeeva ⟨x, y⟩‖ ≤ 5e-10 := by
    have e1 : (⟨errCC * r.re, errCC * r.im⟩ : ℂ) = (errCC : ℂ) * r := by apply Complex.ext <;> simp
    have e2 : (errCC : ℂ) * r - faddeeva ⟨x, y⟩ = (errCC : ℂ) * (r - wMom 0 ⟨y, -x⟩) + ((errCC - 2 / √Real.pi : ℝ) : ℂ) * wMom 0 ⟨y, -x⟩ := by
      rw [faddeeva_mom]
      push_cast
      ring
    rw [e1, e2]
    refine (norm_add_le _ _).trans ?_
    rw [norm_mul, norm_mul, Complex.norm_real, Complex.norm_real, Real.norm_eq_abs, Real.norm_eq_abs]
    have e3 : |errCC| ≤ 1.1284 := by rw [errCC]; norm_num [abs_le]
    calc |errCC| * ‖r - wMom 0 ⟨y, -x⟩‖ + |errCC - 2 / √Real.pi| * ‖wMom 0 ⟨y, -x⟩‖
        ≤ 1.1284 * 3.99e-10 + 1e-14 * 0.2 := by gcongr
      _ ≤ 5e-10 := by norm_num
  have hq' : errQuadrant |x| |y| = .ok (errCC * r.re, errCC * r.im) := by rw [abs_of_nonneg hx, abs_of_nonneg hy]; exact hq
  have hw := errf_eq x y _ hq'
  rw [if_neg (not_lt.2 hy), if_neg (not_lt.2 hx)] at hw
  rw [wOf_of x y _ hw]
  by_cases hy0 : y = 0
  · subst hy0
    simp only [abs_zero, if_true]
    have hre : (faddeeva ⟨x, 0⟩).re = Real.exp (-|x| ^ 2) := by
      have ha := faddeeva_reflect ⟨x, 0⟩
      have hb := faddeeva_conj ⟨x, 0⟩
      have e : (-(starRingEnd ℂ) (⟨x, 0⟩ : ℂ)) = -(⟨x, 0⟩ : ℂ) := by apply Complex.ext <;> simp
      rw [e] at hb
      rw [hb] at ha
      have hc := congrArg Complex.re ha
      have e3 : (-(⟨x, 0⟩ : ℂ) ^ 2) = ((-x ^ 2 : ℝ) : ℂ) := by
        apply Complex.ext <;> simp [sq]
      rw [e3, ← Complex.ofReal_exp] at hc
      rw [Complex.add_re, Complex.conj_re, ← Complex.ofReal_ofNat, ← Complex.ofReal_mul, Complex.ofReal_re] at hc
      rw [sq_abs]
      linarith
    refine le_trans ?_ hE
    have e : (⟨Real.exp (-|x| ^ 2), errCC * r.im⟩ : ℂ) - faddeeva ⟨x, 0⟩ =
        (((⟨errCC * r.re, errCC * r.im⟩ : ℂ) - faddeeva ⟨x, 0⟩).im : ℂ) * I := by
      apply Complex.ext
      · simp [hre]
      · simp
    rw [e, norm_mul, norm_I, mul_one, Complex.norm_real]
    exact abs_im_le_norm _
  · rw [if_neg (by simpa using hy0)]
    exact hE

/-- Outside the rectangle `|Re z| < 5.33`, `|Im z| < 4.29` the routine differs from the complex error function by less than `5e-10`. -/
theorem C172_far (z : ℂ) (hz : 4.29 ≤ |z.im| ∨ 5.33 ≤ |z.re|) : ‖wOf z - faddeeva z‖ ≤ 5e-10 := by
  have upper : ∀ z : ℂ, 0 ≤ z.im → (4.29 ≤ |z.im| ∨ 5.33 ≤ |z.re|) → ‖wOf z - faddeeva z‖ ≤ 5e-10 := by
    intro z h0 hz
    rw [abs_of_nonneg h0] at hz
    by_cases hx : 0 ≤ z.re
    · rw [abs_of_nonneg hx] at hz
      exact wOf_first z.re z.im hx h0 hz
    · rw [abs_of_neg (not_le.1 hx)] at hz
      have h := wOf_first (-z.re) z.im (by linarith) h0 hz
      have e : (⟨-z.re, z.im⟩ : ℂ) = -(starRingEnd ℂ) z := by apply Complex.ext <;> simp
      rw [e, C83_conj, faddeeva_conj, ← map_sub, Complex.norm_conj] at h
      exact h
  by_cases h0 : 0 ≤ z.im
  · exact upper z h0 hz
  · have h := upper (-z) (by simp; linarith) (by simpa using hz)
    have e : wOf z - faddeeva z = -(wOf (-z) - faddeeva (-z)) := by
      rw [C83_reflect, show faddeeva (-z) = 2 * cexp (-z ^ 2) - faddeeva z by linear_combination faddeeva_reflect z]
      ring
    rw [e, norm_neg]
    exact h

/-- The hypotheses are met on and off the axes. -/
example : ‖wOf 6 - faddeeva 6‖ ≤ 5e-10 ∧ ‖wOf (-1 - 5 * I) - faddeeva (-1 - 5 * I)‖ ≤ 5e-10 :=
  ⟨C172_far 6 (.inr (by norm_num)), C172_far _ (.inl (by norm_num))⟩

end PyECLOUD
