import Verif.Lemmas.BeamFar

/-!
# The Bassetti-Erskine field outside its core, for C173
-/

namespace PyECLOUD

open Filter Topology Complex

/-- A component of the field of a line charge. -/
noncomputable def lineU (eps0 u v : ℝ) : ℝ := u / (2 * Real.pi * eps0 * (u ^ 2 + v ^ 2))

theorem lineField_eq (eps0 x y : ℝ) : lineField eps0 x y = (lineU eps0 x y, lineU eps0 y x) := by
  have h : √(x ^ 2 + y ^ 2) * √(x ^ 2 + y ^ 2) = x ^ 2 + y ^ 2 := Real.mul_self_sqrt (by positivity)
  have key : ∀ a : ℝ, a / √(x ^ 2 + y ^ 2) * lineStrength eps0 √(x ^ 2 + y ^ 2) = a / (2 * Real.pi * eps0 * (x ^ 2 + y ^ 2)) := fun a => by
    rw [lineStrength, div_mul_div_comm, mul_one]
    congr 1
    rw [mul_left_comm, h]
  rw [lineField, key, key, lineU, lineU, add_comm (y ^ 2)]

theorem lead_im (a b : ℝ) : (I / ((√Real.pi : ℝ) * (⟨a, b⟩ : ℂ))).im = a / (√Real.pi * (a ^ 2 + b ^ 2)) := by
  rw [← div_div, div_eq_mul_inv, Complex.mul_im, Complex.inv_im, Complex.inv_re, Complex.div_ofReal_re, Complex.div_ofReal_im,
    Complex.I_re, Complex.I_im, Complex.normSq_mk, zero_div, zero_mul, zero_add, div_mul_div_comm, one_mul, sq, sq]

theorem lead_re (a b : ℝ) : (I / ((√Real.pi : ℝ) * (⟨a, b⟩ : ℂ))).re = b / (√Real.pi * (a ^ 2 + b ^ 2)) := by
  rw [← div_div, div_eq_mul_inv, Complex.mul_re, Complex.inv_im, Complex.inv_re, Complex.div_ofReal_re, Complex.div_ofReal_im,
    Complex.I_re, Complex.I_im, Complex.normSq_mk, zero_div, zero_mul, zero_sub, div_mul_div_comm, one_mul, sq, sq, neg_div, neg_neg]

/-- Bound of the rest, with the size of a beam that is almost round or far away factored out. -/
noncomputable def restB (eps0 s g d1 d2 : ℝ) : ℝ :=
  1 / (2 * eps0 * √Real.pi) * (s ^ 2 / d1 ^ 3 + 5e-15 / d1 + g * (s ^ 2 / d2 ^ 3 + 5e-15 / d2))

/-- Outside a core of the size `s`, the code computes the closed form `1/ζ - g/η` up to small terms. -/
theorem bassHalf_outer (eps0 u v su sv : ℝ) (he : 0 < eps0) (hu : 0 ≤ u) (hv : 0 ≤ v) (hsv : 0 < sv) (hsu : sv < su)
    (hfar : 4.29 * √(2 * (su * su - sv * sv)) ≤ v ∨ 5.33 * √(2 * (su * su - sv * sv)) ≤ sv / su * u) :
    ∃ e, bassHalf eps0 u v su sv = .ok e ∧ ∀ ru rv : ℝ, 0 ≤ ru → 0 ≤ rv →
      |e.1 - ru| ≤ |lineU eps0 u v - Real.exp (-u * u / (2 * su * su) - v * v / (2 * sv * sv)) * lineU eps0 (sv / su * u) (su / sv * v) - ru|
        + restB eps0 √(2 * (su * su - sv * sv)) (Real.exp (-u * u / (2 * su * su) - v * v / (2 * sv * sv))) √(u ^ 2 + v ^ 2)
            √((sv / su * u) ^ 2 + (su / sv * v) ^ 2) ∧
      |e.2 - rv| ≤ |lineU eps0 v u - Real.exp (-u * u / (2 * su * su) - v * v / (2 * sv * sv)) * lineU eps0 (su / sv * v) (sv / su * u) - rv|
        + restB eps0 √(2 * (su * su - sv * sv)) (Real.exp (-u * u / (2 * su * su) - v * v / (2 * sv * sv))) √(u ^ 2 + v ^ 2)
            √((sv / su * u) ^ 2 + (su / sv * v) ^ 2) := by
  have hsu0 : 0 < su := hsv.trans hsu
  have hS : 0 < 2 * (su * su - sv * sv) := by nlinarith
  set s := √(2 * (su * su - sv * sv)) with hs
  have hs0 : 0 < s := Real.sqrt_pos.2 hS
  set g := Real.exp (-u * u / (2 * su * su) - v * v / (2 * sv * sv)) with hg
  have hg0 : 0 < g := Real.exp_pos _
  have hρ1 : sv / su ≤ 1 := (div_le_one hsu0).2 hsu.le
  have hρ2 : 1 ≤ su / sv := (one_le_div hsv).2 hsu.le
  have hq1 : 0 ≤ sv / su * u := by positivity
  have hq2 : 0 ≤ su / sv * v := by positivity
  obtain ⟨w1, e1, b1⟩ := errf_lead (u / s) (v / s) (by positivity) (by positivity) (by
    rcases hfar with h | h
    · exact .inl ((le_div_iff₀ hs0).2 h)
    · refine .inr ((le_div_iff₀ hs0).2 (h.trans ?_))
      nlinarith)
  obtain ⟨w2, e2, b2⟩ := errf_lead (sv / su * u / s) (su / sv * v / s) (by positivity) (by positivity) (by
    rcases hfar with h | h
    · refine .inl ((le_div_iff₀ hs0).2 (h.trans ?_))
      nlinarith
    · exact .inr ((le_div_iff₀ hs0).2 h))
  have nrm : ∀ a b : ℝ, ‖(⟨a / s, b / s⟩ : ℂ)‖ = √(a ^ 2 + b ^ 2) / s := fun a b => by
    rw [Complex.norm_def, Complex.normSq_mk, show a / s * (a / s) + b / s * (b / s) = (a ^ 2 + b ^ 2) / s ^ 2 by field_simp,
      Real.sqrt_div (by positivity), Real.sqrt_sq hs0.le]
  rw [nrm] at b1 b2
  have hd1 : 0 < √(u ^ 2 + v ^ 2) := Real.sqrt_pos.2 (by
    rcases hfar with h | h
    · have : 0 < v := lt_of_lt_of_le (by positivity) h
      positivity
    · have h' : 0 < sv / su * u := lt_of_lt_of_le (by positivity) h
      have : 0 < u := (pos_iff_pos_of_mul_pos h').1 (by positivity)
      positivity)
  have hd2 : 0 < √((sv / su * u) ^ 2 + (su / sv * v) ^ 2) := Real.sqrt_pos.2 (by
    rcases hfar with h | h
    · have : 0 < v := lt_of_lt_of_le (by positivity) h
      positivity
    · have h' : 0 < sv / su * u := lt_of_lt_of_le (by positivity) h
      positivity)
  set d1 := √(u ^ 2 + v ^ 2) with hd1d
  set d2 := √((sv / su * u) ^ 2 + (su / sv * v) ^ 2) with hd2d
  have hpi : (0 : ℝ) < √Real.pi := Real.sqrt_pos.2 Real.pi_pos
  have hpp : √Real.pi * √Real.pi = Real.pi := Real.mul_self_sqrt Real.pi_pos.le
  set fact := 1 / (2 * eps0 * √Real.pi * s) with hfact
  have hf0 : 0 < fact := by positivity
  set D1 := (⟨w1.1, w1.2⟩ : ℂ) - I / ((√Real.pi : ℝ) * (⟨u / s, v / s⟩ : ℂ)) with hD1
  set D2 := (⟨w2.1, w2.2⟩ : ℂ) - I / ((√Real.pi : ℝ) * (⟨sv / su * u / s, su / sv * v / s⟩ : ℂ)) with hD2
  have hB : fact * (‖D1‖ + g * ‖D2‖) ≤ restB eps0 s g d1 d2 := by
    calc fact * (‖D1‖ + g * ‖D2‖)
        ≤ fact * ((1 / (d1 / s) ^ 3 + 5e-15 / (d1 / s)) + g * (1 / (d2 / s) ^ 3 + 5e-15 / (d2 / s))) := by gcongr
      _ = restB eps0 s g d1 d2 := by
        rw [restB, hfact]
        field_simp
  have line : ∀ a b : ℝ, fact * (a / s / (√Real.pi * ((a / s) ^ 2 + (b / s) ^ 2))) = lineU eps0 a b := fun a b => by
    have gen : ∀ p : ℝ, 0 < p → 1 / (2 * eps0 * p * s) * (a / s / (p * ((a ^ 2 + b ^ 2) / s ^ 2))) = a / (2 * (p * p) * eps0 * (a ^ 2 + b ^ 2)) :=
      fun p hp => by
        by_cases hab : a ^ 2 + b ^ 2 = 0
        · simp [hab]
        · generalize a ^ 2 + b ^ 2 = q at hab ⊢
          field_simp
    rw [lineU, hfact, show (a / s) ^ 2 + (b / s) ^ 2 = (a ^ 2 + b ^ 2) / s ^ 2 by field_simp, gen _ hpi, hpp]
  have him : fact * (w1.2 - g * w2.2) - (lineU eps0 u v - g * lineU eps0 (sv / su * u) (su / sv * v)) = fact * (D1.im - g * D2.im) := by
    rw [← line, ← line, hD1, hD2, Complex.sub_im, Complex.sub_im, lead_im, lead_im]
    ring
  have hre : fact * (w1.1 - g * w2.1) - (lineU eps0 v u - g * lineU eps0 (su / sv * v) (sv / su * u)) = fact * (D1.re - g * D2.re) := by
    rw [← line, ← line, hD1, hD2, Complex.sub_re, Complex.sub_re, lead_re, lead_re, add_comm ((v / s) ^ 2), add_comm ((su / sv * v / s) ^ 2)]
    ring
  have comp : ∀ a b : ℝ, |a| ≤ ‖D1‖ → |b| ≤ ‖D2‖ → |fact * (a - g * b)| ≤ restB eps0 s g d1 d2 := fun a b ha hb => by
    refine le_trans ?_ hB
    rw [abs_mul, abs_of_pos hf0]
    have : |a - g * b| ≤ |a| + g * |b| := by
      have := abs_sub a (g * b)
      rwa [abs_mul, abs_of_pos hg0] at this
    have h2 : g * |b| ≤ g * ‖D2‖ := by gcongr
    exact mul_le_mul_of_nonneg_left (by linarith) hf0.le
  have fin : ∀ m l b r : ℝ, 0 ≤ r → |m - l| ≤ b → |(|m|) - r| ≤ |l - r| + b := fun m l b r hr h => by
    have h1 : |(|m|) - r| ≤ |m - r| := by
      have := abs_abs_sub_abs_le m r
      rwa [abs_of_nonneg hr] at this
    have h2 : |m - r| ≤ |m - l| + |l - r| := abs_sub_le m l r
    linarith
  refine ⟨(|fact * (w1.2 - g * w2.2)|, |fact * (w1.1 - g * w2.1)|), ?_, fun ru rv h1 h2 => ⟨?_, ?_⟩⟩
  · unfold bassHalf
    simp only [← hs, hs0.ne', if_false]
    rw [e1]
    show (errf _ _ >>= _) = _
    rw [e2]
    rfl
  · refine fin _ _ _ _ h1 ?_
    rw [him]
    exact comp _ _ (abs_im_le_norm _) (abs_im_le_norm _)
  · refine fin _ _ _ _ h2 ?_
    rw [hre]
    exact comp _ _ (abs_re_le_norm _) (abs_re_le_norm _)

end PyECLOUD
