import Verif.Lemmas.BassExact
import Verif.Props.BeamFar

/-!
# C174: the beam field outside the core is the one of a Gaussian charge by Maxwell's equations
-/

namespace PyECLOUD

open Filter Topology Complex

/-- Field of the formula of Bassetti and Erskine with the exact complex error function. -/
noncomputable def beExact (eps0 sx sy : ℝ) (z : ℂ) : ℝ × ℝ := ((beF eps0 sx sy z).im, (beF eps0 sx sy z).re)

theorem beExact_eq (eps0 sx sy : ℝ) (hy : 0 < sy) (hx : sy < sx) (z : ℂ) :
    beExact eps0 sx sy z =
      (1 / (2 * eps0 * √Real.pi * √(2 * (sx * sx - sy * sy))) * (2 / (√Real.pi * √(2 * (sx * sx - sy * sy)))) *
          (z.re * beA √(2 * (sx * sx - sy * sy)) (sy / sx) z.re z.im),
        1 / (2 * eps0 * √Real.pi * √(2 * (sx * sx - sy * sy))) * (2 / (√Real.pi * √(2 * (sx * sx - sy * sy)))) *
          (z.im * beB √(2 * (sx * sx - sy * sy)) (sy / sx) z.re z.im)) := by
  rw [beExact, beF_integral eps0 sx sy hy hx z]
  refine Prod.ext ?_ ?_
  · show (Complex.im _) = _
    rw [Complex.im_ofReal_mul]
    simp
  · show (Complex.re _) = _
    rw [Complex.re_ofReal_mul]
    simp

/-- It solves Maxwell's equations. -/
theorem beExact_field (eps0 sx sy : ℝ) (he : 0 < eps0) (hy : 0 < sy) (hx : sy < sx) : IsBeamField eps0 sx sy (beExact eps0 sx sy) := by
  have hD : ∀ z, ∃ D : ℂ →L[ℝ] ℂ, HasFDerivAt (beExact eps0 sx sy) ((imCLM.comp D).prod (reCLM.comp D)) z ∧
      D I = I * D 1 + (gaussDensity sx sy z / eps0 : ℝ) := fun z => by
    obtain ⟨D, h1, h2⟩ := beF_deriv eps0 sx sy hy hx z
    exact ⟨D, (imCLM.hasFDerivAt.comp z h1).prodMk (reCLM.hasFDerivAt.comp z h1), h2⟩
  refine ⟨fun z => ?_, fun z => ?_, fun z => ?_, ?_⟩
  · obtain ⟨D, h1, -⟩ := hD z
    exact h1.differentiableAt
  · obtain ⟨D, h1, h2⟩ := hD z
    rw [h1.fderiv]
    show (D 1).im + (D I).re = _
    rw [h2]
    simp
  · obtain ⟨D, h1, h2⟩ := hD z
    rw [h1.fderiv]
    show (D 1).re - (D I).im = _
    rw [h2]
    simp
  · have hx0 : 0 < sx := hy.trans hx
    have hS : 0 < 2 * (sx * sx - sy * sy) := by nlinarith
    set s := √(2 * (sx * sx - sy * sy)) with hs
    have hs0 : 0 < s := Real.sqrt_pos.2 hS
    have hρ0 : 0 < sy / sx := by positivity
    have hρ1 : sy / sx ≤ 1 := (div_le_one hx0).2 hx.le
    have hpi : (0 : ℝ) < √Real.pi := Real.sqrt_pos.2 Real.pi_pos
    set k := 1 / (2 * eps0 * √Real.pi * s) * (2 / (√Real.pi * s)) with hk
    have hk0 : 0 < k := by positivity
    have hbound : ∀ z : ℂ, z ≠ 0 → ‖beExact eps0 sx sy z‖ ≤ k * (s ^ 2 / (sy / sx) ^ 2) / ‖z‖ := fun z hz => by
      have hn : 0 < ‖z‖ := norm_pos_iff.2 hz
      have hnn : z.re ^ 2 + z.im ^ 2 = ‖z‖ ^ 2 := by rw [← Complex.normSq_eq_norm_sq, Complex.normSq_apply]; ring
      have hA := beA_le s (sy / sx) z.re z.im hs0 hρ0 hρ1 (by rw [hnn]; positivity)
      have hA0 := beA_nonneg s (sy / sx) z.re z.im hρ1
      have hB0 := beB_nonneg s (sy / sx) z.re z.im hρ1
      have hB := (beB_le s (sy / sx) z.re z.im hρ0 hρ1).trans (div_le_div_of_nonneg_right hA (by positivity))
      rw [hnn] at hA hB
      have hA' : beA s (sy / sx) z.re z.im ≤ s ^ 2 / ‖z‖ ^ 2 / (sy / sx) ^ 2 := by
        refine hA.trans (le_div_self (by positivity) (by positivity) ?_)
        exact pow_le_one₀ hρ0.le hρ1
      rw [beExact_eq eps0 sx sy hy hx z, ← hs, ← hk, Prod.norm_def, max_le_iff]
      have fin : ∀ a b : ℝ, |a| ≤ ‖z‖ → 0 ≤ b → b ≤ s ^ 2 / ‖z‖ ^ 2 / (sy / sx) ^ 2 → ‖k * (a * b)‖ ≤ k * (s ^ 2 / (sy / sx) ^ 2) / ‖z‖ :=
        fun a b ha hb0 hb => by
          rw [Real.norm_eq_abs, abs_mul k, abs_mul a, abs_of_pos hk0, abs_of_nonneg hb0]
          calc k * (|a| * b) ≤ k * (‖z‖ * (s ^ 2 / ‖z‖ ^ 2 / (sy / sx) ^ 2)) := by gcongr
            _ = _ := by field_simp
      exact ⟨fin _ _ (abs_re_le_norm z) hA0 hA', fin _ _ (abs_im_le_norm z) hB0 hB⟩
    have ht : Tendsto (fun z : ℂ => k * (s ^ 2 / (sy / sx) ^ 2) / ‖z‖) (cocompact ℂ) (𝓝 0) := by
      rw [← Metric.cobounded_eq_cocompact]
      exact tendsto_const_nhds.div_atTop tendsto_norm_cobounded_atTop
    refine squeeze_zero_norm' ?_ ht
    have : ∀ᶠ z : ℂ in cocompact ℂ, z ≠ 0 := by
      have := (isCompact_singleton (x := (0 : ℂ))).compl_mem_cocompact
      exact this
    filter_upwards [this] with z hz
    exact hbound z hz

/-- The code in the first quadrant against the exact formula. -/
theorem bassHalf_exact (eps0 u v su sv : ℝ) (he : 0 < eps0) (hu : 0 ≤ u) (hv : 0 ≤ v) (hsv : 0 < sv) (hsu : sv < su)
    (hfar : 4.29 * √(2 * (su * su - sv * sv)) ≤ v ∨ 5.33 * √(2 * (su * su - sv * sv)) ≤ sv / su * u) :
    ∃ e, bassHalf eps0 u v su sv = .ok e ∧ |e.1 - (beExact eps0 su sv ⟨u, v⟩).1| ≤ 1e-9 / (2 * eps0 * √Real.pi * √(2 * (su * su - sv * sv))) ∧
      |e.2 - (beExact eps0 su sv ⟨u, v⟩).2| ≤ 1e-9 / (2 * eps0 * √Real.pi * √(2 * (su * su - sv * sv))) := by
  have hsu0 : 0 < su := hsv.trans hsu
  have hS : 0 < 2 * (su * su - sv * sv) := by nlinarith
  have hρ1 : sv / su ≤ 1 := (div_le_one hsu0).2 hsu.le
  have hρ2 : 1 ≤ su / sv := (one_le_div hsv).2 hsu.le
  have hpi : (0 : ℝ) < √Real.pi := Real.sqrt_pos.2 Real.pi_pos
  have hpos1 : 0 ≤ (beExact eps0 su sv ⟨u, v⟩).1 := by
    rw [beExact_eq eps0 su sv hsv hsu]
    have := beA_nonneg √(2 * (su * su - sv * sv)) (sv / su) u v hρ1
    positivity
  have hpos2 : 0 ≤ (beExact eps0 su sv ⟨u, v⟩).2 := by
    rw [beExact_eq eps0 su sv hsv hsu]
    have := beB_nonneg √(2 * (su * su - sv * sv)) (sv / su) u v hρ1
    positivity
  rw [beExact] at hpos1 hpos2 ⊢
  have hbeF : beF eps0 su sv ⟨u, v⟩ = (1 / (2 * eps0 * √Real.pi * √(2 * (su * su - sv * sv))) : ℝ) *
      (faddeeva ⟨u / √(2 * (su * su - sv * sv)), v / √(2 * (su * su - sv * sv))⟩ -
      (Real.exp (-u * u / (2 * su * su) - v * v / (2 * sv * sv)) : ℝ) *
        faddeeva (⟨sv / su * u / √(2 * (su * su - sv * sv)), su / sv * v / √(2 * (su * su - sv * sv))⟩)) := by
    rw [beF]
    congr 3
    apply Complex.ext
    · rw [Complex.div_ofReal_re]
    · rw [Complex.div_ofReal_im]
  rw [hbeF] at hpos1 hpos2 ⊢
  set s := √(2 * (su * su - sv * sv)) with hs
  have hs0 : 0 < s := Real.sqrt_pos.2 hS
  set g := Real.exp (-u * u / (2 * su * su) - v * v / (2 * sv * sv)) with hg
  have hg0 : 0 < g := Real.exp_pos _
  have hg1 : g ≤ 1 := by
    rw [hg, Real.exp_le_one_iff]
    have h1 : 0 ≤ u * u / (2 * su * su) := by positivity
    have h2 : 0 ≤ v * v / (2 * sv * sv) := by positivity
    have h3 : -u * u / (2 * su * su) = -(u * u / (2 * su * su)) := by ring
    linarith
  have hq1 : 0 ≤ sv / su * u := by positivity
  have hq2 : 0 ≤ su / sv * v := by positivity
  have f1 : 4.29 ≤ v / s ∨ 5.33 ≤ u / s := by
    rcases hfar with h | h
    · exact .inl ((le_div_iff₀ hs0).2 h)
    · refine .inr ((le_div_iff₀ hs0).2 (h.trans ?_))
      nlinarith
  have f2 : 4.29 ≤ su / sv * v / s ∨ 5.33 ≤ sv / su * u / s := by
    rcases hfar with h | h
    · refine .inl ((le_div_iff₀ hs0).2 (h.trans ?_))
      nlinarith
    · exact .inr ((le_div_iff₀ hs0).2 h)
  obtain ⟨w1, e1, -⟩ := errf_lead (u / s) (v / s) (by positivity) (by positivity) f1
  obtain ⟨w2, e2, -⟩ := errf_lead (sv / su * u / s) (su / sv * v / s) (by positivity) (by positivity) f2
  have b1 := wOf_first (u / s) (v / s) (by positivity) (by positivity) f1
  have b2 := wOf_first (sv / su * u / s) (su / sv * v / s) (by positivity) (by positivity) f2
  rw [wOf_of _ _ _ e1] at b1
  rw [wOf_of _ _ _ e2] at b2
  set F1 := faddeeva ⟨u / s, v / s⟩ with hF1
  set F2 := faddeeva ⟨sv / su * u / s, su / sv * v / s⟩ with hF2
  set fact := 1 / (2 * eps0 * √Real.pi * s) with hfact
  have hf0 : 0 < fact := by positivity
  set val : ℂ := (fact : ℝ) * (F1 - (g : ℝ) * F2) with hval
  have hdiff : ‖((fact : ℝ) : ℂ) * ((⟨w1.1, w1.2⟩ : ℂ) - (g : ℝ) * (⟨w2.1, w2.2⟩ : ℂ)) - val‖ ≤ 1e-9 / (2 * eps0 * √Real.pi * s) := by
    have e : ((fact : ℝ) : ℂ) * ((⟨w1.1, w1.2⟩ : ℂ) - (g : ℝ) * (⟨w2.1, w2.2⟩ : ℂ)) - val =
        (fact : ℝ) * (((⟨w1.1, w1.2⟩ : ℂ) - F1) - (g : ℝ) * ((⟨w2.1, w2.2⟩ : ℂ) - F2)) := by rw [hval]; ring
    rw [e, norm_mul, Complex.norm_real, Real.norm_of_nonneg hf0.le]
    have h3 : ‖((⟨w1.1, w1.2⟩ : ℂ) - F1) - (g : ℝ) * ((⟨w2.1, w2.2⟩ : ℂ) - F2)‖ ≤ 5e-10 + 1 * 5e-10 := by
      refine (norm_sub_le _ _).trans ?_
      rw [norm_mul, Complex.norm_real, Real.norm_of_nonneg hg0.le]
      gcongr
    calc fact * _ ≤ fact * (5e-10 + 1 * 5e-10) := by gcongr
      _ = 1e-9 / (2 * eps0 * √Real.pi * s) := by rw [hfact, div_mul_eq_mul_div]; norm_num
  have fin : ∀ m l b : ℝ, 0 ≤ l → |m - l| ≤ b → |(|m|) - l| ≤ b := fun m l b hl h => by
    have := abs_abs_sub_abs_le m l
    rw [abs_of_nonneg hl] at this
    exact this.trans h
  have hre : fact * (w1.1 - g * w2.1) = (((fact : ℝ) : ℂ) * ((⟨w1.1, w1.2⟩ : ℂ) - (g : ℝ) * (⟨w2.1, w2.2⟩ : ℂ))).re := by simp
  have him : fact * (w1.2 - g * w2.2) = (((fact : ℝ) : ℂ) * ((⟨w1.1, w1.2⟩ : ℂ) - (g : ℝ) * (⟨w2.1, w2.2⟩ : ℂ))).im := by simp
  refine ⟨(|fact * (w1.2 - g * w2.2)|, |fact * (w1.1 - g * w2.1)|), ?_, fin _ _ _ hpos1 ?_, fin _ _ _ hpos2 ?_⟩
  · unfold bassHalf
    simp only [← hs, hs0.ne', if_false]
    rw [e1]
    show (errf _ _ >>= _) = _
    rw [e2]
    rfl
  · rw [him, ← Complex.sub_im]
    exact (abs_im_le_norm _).trans hdiff
  · rw [hre, ← Complex.sub_re]
    exact (abs_re_le_norm _).trans hdiff

/-- Symmetry of the exact field. -/
theorem beExact_abs (eps0 sx sy x y : ℝ) (hy : 0 < sy) (hx : sy < sx) :
    ∃ a b : ℝ, beExact eps0 sx sy ⟨x, y⟩ = (a * x, b * y) ∧ beExact eps0 sx sy ⟨|x|, |y|⟩ = (a * |x|, b * |y|) := by
  set s := √(2 * (sx * sx - sy * sy)) with hs
  set k := 1 / (2 * eps0 * √Real.pi * s) * (2 / (√Real.pi * s)) with hk
  refine ⟨k * beA s (sy / sx) x y, k * beB s (sy / sx) x y, ?_, ?_⟩
  · rw [beExact_eq eps0 sx sy hy hx]
    refine Prod.ext ?_ ?_ <;> simp only [← hs, ← hk] <;> ring
  · rw [beExact_eq eps0 sx sy hy hx]
    have hA : beA s (sy / sx) |x| |y| = beA s (sy / sx) x y := by simp only [beA, beW, sq_abs]
    have hB : beB s (sy / sx) |x| |y| = beB s (sy / sx) x y := by simp only [beB, beW, sq_abs]
    refine Prod.ext ?_ ?_ <;> simp only [← hs, ← hk, hA, hB] <;> ring

/-- **C174, horizontal size larger.** Let `E` be the static field of a Gaussian beam: divergence given by its charge density, no curl, no
field at infinity. At every point outside the core the field that the code computes differs from `E` by at most `1e-9` times the
normalisation of the formula. -/
theorem C174_wide (eps0 sx sy : ℝ) (he : 0 < eps0) (hy : 0 < sy) (hx : sy < sx) (E : ℂ → ℝ × ℝ) (hE : IsBeamField eps0 sx sy E) (x y : ℝ)
    (hfar : 4.29 * √(2 * (sx * sx - sy * sy)) ≤ |y| ∨ 5.33 * √(2 * (sx * sx - sy * sy)) ≤ sy / sx * |x|) :
    ∃ e, bassErsk eps0 x y sx sy = .ok e ∧ |e.1 - (E ⟨x, y⟩).1| ≤ 1e-9 / (2 * eps0 * √Real.pi * √(2 * (sx * sx - sy * sy))) ∧
      |e.2 - (E ⟨x, y⟩).2| ≤ 1e-9 / (2 * eps0 * √Real.pi * √(2 * (sx * sx - sy * sy))) := by
  rw [beamField_unique eps0 sx sy E _ hE (beExact_field eps0 sx sy he hy hx)]
  obtain ⟨e, h1, h2, h3⟩ := bassHalf_exact eps0 |x| |y| sx sy he (abs_nonneg _) (abs_nonneg _) hy hx hfar
  obtain ⟨a, b, k1, k2⟩ := beExact_abs eps0 sx sy x y hy hx
  rw [k2] at h2 h3
  rw [k1]
  have ht : 0 ≤ 1e-9 / (2 * eps0 * √Real.pi * √(2 * (sx * sx - sy * sy))) := by positivity
  refine ⟨(e.1 * Real.sign x, e.2 * Real.sign y), ?_, sign_close _ _ _ _ h2 ht, sign_close _ _ _ _ h3 ht⟩
  rw [bassErsk, if_pos hx, h1]
  rfl

/-- **C174, vertical size larger.** -/
theorem C174_tall (eps0 sx sy : ℝ) (he : 0 < eps0) (hx : 0 < sx) (hy : sx < sy) (E : ℂ → ℝ × ℝ) (hE : IsBeamField eps0 sx sy E) (x y : ℝ)
    (hfar : 4.29 * √(2 * (sy * sy - sx * sx)) ≤ |x| ∨ 5.33 * √(2 * (sy * sy - sx * sx)) ≤ sx / sy * |y|) :
    ∃ e, bassErsk eps0 x y sx sy = .ok e ∧ |e.1 - (E ⟨x, y⟩).1| ≤ 1e-9 / (2 * eps0 * √Real.pi * √(2 * (sy * sy - sx * sx))) ∧
      |e.2 - (E ⟨x, y⟩).2| ≤ 1e-9 / (2 * eps0 * √Real.pi * √(2 * (sy * sy - sx * sx))) := by
  obtain ⟨e, h1, h2, h3⟩ := C174_wide eps0 sy sx he hx hy _ (beamField_swap eps0 sx sy E hE) y x hfar
  refine ⟨(e.2, e.1), ?_, h3, h2⟩
  rw [bassErsk, if_pos hy] at h1
  rw [bassErsk, if_neg (not_lt.2 hy.le)]
  cases hb : bassHalf eps0 |y| |x| sy sx with
  | error er =>
    rw [hb] at h1
    cases h1
  | ok f =>
    rw [hb] at h1
    cases h1
    rfl

/-- **C174, existence.** There is such a field for every beam that is not round, so the statements above are about something. -/
theorem C174_exists (eps0 sx sy : ℝ) (he : 0 < eps0) (hx : 0 < sx) (hy : 0 < sy) (hne : sx ≠ sy) : ∃! E, IsBeamField eps0 sx sy E := by
  refine existsUnique_of_exists_of_unique ?_ fun E F hE hF => beamField_unique eps0 sx sy E F hE hF
  rcases lt_or_gt_of_ne hne with h | h
  · exact ⟨_, beamField_swap eps0 sy sx _ (beExact_field eps0 sy sx he hx h)⟩
  · exact ⟨_, beExact_field eps0 sx sy he hy h⟩

/-- A beam of 1 mm and 0.2 mm, 8 mm above its centre. -/
example : ∃ E, IsBeamField 8.854187817620e-12 1e-3 2e-4 E ∧ ∃ e, bassErsk 8.854187817620e-12 1e-3 (-8e-3) 1e-3 2e-4 = .ok e ∧
    |e.1 - (E ⟨1e-3, -8e-3⟩).1| ≤ 1e-9 / (2 * 8.854187817620e-12 * √Real.pi * √(2 * (1e-3 * 1e-3 - 2e-4 * 2e-4))) ∧
    |e.2 - (E ⟨1e-3, -8e-3⟩).2| ≤ 1e-9 / (2 * 8.854187817620e-12 * √Real.pi * √(2 * (1e-3 * 1e-3 - 2e-4 * 2e-4))) := by
  obtain ⟨E, hE, -⟩ := C174_exists 8.854187817620e-12 1e-3 2e-4 (by norm_num) (by norm_num) (by norm_num) (by norm_num)
  refine ⟨E, hE, C174_wide _ _ _ (by norm_num) (by norm_num) (by norm_num) E hE _ _ (.inl ?_)⟩
  have : √(2 * (1e-3 * 1e-3 - 2e-4 * 2e-4) : ℝ) ≤ 1.5e-3 := by
    rw [Real.sqrt_le_left (by norm_num)]
    norm_num
  rw [abs_neg, abs_of_pos (by norm_num)]
  norm_num at this ⊢
  linarith

end PyECLOUD
