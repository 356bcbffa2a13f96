import Verif.Lemmas.BeamMap
import Verif.Props.FPYield
import Verif.Props.Grid
import Verif.Props.MPSystem
import Mathlib.MeasureTheory.Integral.IntervalIntegral.FundThmCalculus
import Mathlib.Analysis.SpecialFunctions.Integrals.Basic

/-!
# Construction of the beam field map (C105-C108)
-/

set_option linter.unusedSectionVars false

namespace PyECLOUD

open Real Polynomial

/-! ## C105 -/

/-- **C105**, chambers wider than high: the image terms of a centred beam are minus the gradient of a harmonic potential (the real
part of an entire function), and with it the potential of the charge on the axis is constant on the wall, up to the tail of a
geometric series in `((a-b)/(a+b))^(nimag/2)`. Missing: the other chambers (`C105_tall_violated`) and the two foci
(`C105_focus_violated`). -/
theorem C105_wall_partial (acosh : ℂ → ℂ) (ha : IsAcosh acosh) (eps0 a b : ℝ) (he : 0 < eps0) (hb : 0 < b) (hab : b < a)
    (hr : 1e-3 < |(a - b) / a|) (nimag : ℕ) :
    ∃ F : ℂ → ℂ, Differentiable ℂ F ∧
      (∀ x y e, imageTerms acosh eps0 x y a b 0 0 nimag = .ok e → GradAt (fun z => (F z).re) x y e) ∧
      ∀ φ, |linePot eps0 (ellWall a b φ) + (F (ellWall a b φ)).re - linePot eps0 (((a + b) / 2 : ℝ) : ℂ)| ≤
        1 / (2 * π * eps0) * (((a - b) / (a + b)) ^ (nimag / 2 + 1) * (1 - (a - b) / (a + b))⁻¹ / ((nimag / 2 : ℕ) + 1)) := by
  refine ⟨imgF eps0 √(a * a - b * b) (0.5 * log ((a + b) / (a - b))) (acosh 0).im nimag,
    fun z => (imgF_deriv _ _ _ _ _ z).differentiableAt, fun x y e h => ?_, fun φ => ?_⟩
  · rw [imageTerms_eq acosh ha eps0 x y a b nimag hr e h]
    exact grad_of_analytic _ _ x y (imgF_deriv _ _ _ _ _ _)
  · exact wall_bound hb hab eps0 he _ (cosh_zero_re (ha 0)).2 nimag φ

/-- **C105**: the deviation on the wall goes to zero with the number of image terms. -/
theorem C105_converges (eps0 a b : ℝ) (hb : 0 < b) (hab : b < a) :
    Filter.Tendsto (fun nimag : ℕ => 1 / (2 * π * eps0) *
      (((a - b) / (a + b)) ^ (nimag / 2 + 1) * (1 - (a - b) / (a + b))⁻¹ / ((nimag / 2 : ℕ) + 1))) Filter.atTop (nhds 0) := by
  have h1 : 0 < a + b := by linarith
  have h2 : 0 < a - b := by linarith
  have hlt : (a - b) / (a + b) < 1 := (div_lt_one h1).2 (by linarith)
  have hp : Filter.Tendsto (fun n : ℕ => ((a - b) / (a + b)) ^ n) Filter.atTop (nhds 0) :=
    tendsto_pow_atTop_nhds_zero_of_lt_one (by positivity) hlt
  have hh : Filter.Tendsto (fun n : ℕ => n / 2 + 1) Filter.atTop Filter.atTop := by
    refine Filter.tendsto_atTop.2 fun m => ?_
    filter_upwards [Filter.eventually_ge_atTop (2 * m)] with n hn
    omega
  have h3 := (hp.comp hh).const_mul (1 / (2 * π * eps0) * (1 - (a - b) / (a + b))⁻¹)
  have h4 : Filter.Tendsto (fun n : ℕ => (1 : ℝ) / ((n / 2 : ℕ) + 1)) Filter.atTop (nhds 0) := by
    have := (tendsto_one_div_add_atTop_nhds_zero_nat (𝕜 := ℝ)).comp (show Filter.Tendsto (fun n : ℕ => n / 2) Filter.atTop Filter.atTop by
      refine Filter.tendsto_atTop.2 fun m => ?_
      filter_upwards [Filter.eventually_ge_atTop (2 * m)] with n hn
      omega)
    exact this
  have h5 := h3.mul h4
  simp only [mul_zero] at h5
  refine h5.congr fun n => ?_
  simp only [Function.comp]
  ring

theorem isAcosh_exists : ∃ acosh, IsAcosh acosh := by
  have : ∀ w : ℂ, ∃ q, Complex.cosh q = w := by
    intro w
    obtain ⟨z, hz⟩ := Complex.cos_surjective w
    exact ⟨z * Complex.I, by rw [Complex.cosh_mul_I, hz]⟩
  choose f hf using this
  exact ⟨f, hf⟩

/-- **C105**: in a chamber wider than high the image terms can be computed everywhere except at the foci. -/
theorem C105_succeeds (acosh : ℂ → ℂ) (ha : IsAcosh acosh) (eps0 x y a b : ℝ) (hb : 0 < b) (hab : b < a)
    (hr : 1e-3 < |(a - b) / a|) (nimag : ℕ) :
    (∃ e, imageTerms acosh eps0 x y a b 0 0 nimag = .ok e) ↔ ¬ (y = 0 ∧ x ^ 2 = a ^ 2 - b ^ 2) := by
  have hg0 : 0 < a * a - b * b := by nlinarith
  have hg : (√(a * a - b * b) : ℂ) ≠ 0 := by
    have : 0 < √(a * a - b * b) := sqrt_pos.2 hg0
    exact_mod_cast this.ne'
  have hgg : √(a * a - b * b) ^ 2 = a * a - b * b := sq_sqrt hg0.le
  set q := acosh (⟨x, y⟩ / (√(a * a - b * b) : ℂ)) with hq
  have hc : Complex.cosh q = ⟨x, y⟩ / (√(a * a - b * b) : ℂ) := ha _
  have key : Complex.sinh ((starRingEnd ℂ) q) = 0 ↔ (y = 0 ∧ x ^ 2 = a ^ 2 - b ^ 2) := by
    rw [Complex.sinh_conj, map_eq_zero_iff _ (starRingEnd ℂ).injective]
    have h1 : Complex.sinh q = 0 ↔ Complex.cosh q ^ 2 = 1 := by
      rw [Complex.cosh_sq]
      constructor
      · intro h; rw [h]; ring
      · intro h
        have : Complex.sinh q ^ 2 = 0 := by linear_combination h
        exact pow_eq_zero_iff two_ne_zero |>.1 this
    rw [h1, hc, div_pow, div_eq_one_iff_eq (pow_ne_zero 2 hg), ← Complex.ofReal_pow, hgg, Complex.ext_iff]
    have e1 : ((⟨x, y⟩ : ℂ) ^ 2).re = x ^ 2 - y ^ 2 := by rw [sq]; simp [sq]
    have e2 : ((⟨x, y⟩ : ℂ) ^ 2).im = 2 * x * y := by rw [sq]; simp; ring
    rw [e1, e2, Complex.ofReal_re, Complex.ofReal_im]
    constructor
    · rintro ⟨h1, h2⟩
      have : x = 0 ∨ y = 0 := by
        rcases mul_eq_zero.1 h2 with h | h
        · left; linarith
        · right; exact h
      rcases this with h | h
      · subst h; nlinarith [sq_nonneg y]
      · subst h; exact ⟨rfl, by nlinarith⟩
    · rintro ⟨rfl, h⟩
      exact ⟨by nlinarith, by ring⟩
  unfold imageTerms
  rw [if_pos hr, if_neg (not_lt.2 hab.le)]
  simp only
  rw [← hq]
  by_cases hs : Complex.sinh ((starRingEnd ℂ) q) = 0
  · rw [if_pos hs]
    simp only [reduceCtorEq, exists_false, false_iff, not_not]
    exact key.1 hs
  · rw [if_neg hs]
    exact ⟨fun _ h => hs (key.2 h), fun _ => ⟨_, rfl⟩⟩

example : ∃ e, ∃ acosh, IsAcosh acosh ∧ imageTerms acosh 1 1 1 5 3 0 0 10 = .ok e := by
  obtain ⟨f, hf⟩ := isAcosh_exists
  obtain ⟨e, he⟩ := (C105_succeeds f hf 1 1 1 5 3 (by norm_num) (by norm_num) (by norm_num [abs_of_pos]) 10).2 (by norm_num)
  exact ⟨e, f, hf, he⟩

/-- **C105**, symmetry: the image field of a centred beam changes sign with the position and is mirrored at the horizontal axis. -/
theorem C105_mirror (acosh : ℂ → ℂ) (ha : IsAcosh acosh) (eps0 x y a b : ℝ) (hr : 1e-3 < |(a - b) / a|) (nimag : ℕ) (e e1 e2 : ℂ)
    (h : imageTerms acosh eps0 x y a b 0 0 nimag = .ok e) (h1 : imageTerms acosh eps0 (-x) (-y) a b 0 0 nimag = .ok e1)
    (h2 : imageTerms acosh eps0 x (-y) a b 0 0 nimag = .ok e2) :
    e1 = -e ∧ e2 = (starRingEnd ℂ) e := by
  rw [imageTerms_eq acosh ha eps0 x y a b nimag hr e h, imageTerms_eq acosh ha eps0 _ _ a b nimag hr e1 h1,
    imageTerms_eq acosh ha eps0 _ _ a b nimag hr e2 h2]
  have h0 := (cosh_zero_re (ha 0)).2
  have hz1 : (⟨-x, -y⟩ : ℂ) = -⟨x, y⟩ := by apply Complex.ext <;> simp
  have hz2 : (⟨x, -y⟩ : ℂ) = (starRingEnd ℂ) ⟨x, y⟩ := by apply Complex.ext <;> simp
  rw [hz1, hz2]
  constructor
  · congr 1
    rw [← map_neg]
    congr 1
    unfold imgF'
    rw [← mul_neg, ← Finset.sum_neg_distrib]
    congr 1
    apply Finset.sum_congr rfl
    intro k _
    rw [neg_div, Chebyshev.U_eval_neg]
    rcases Nat.even_or_odd' k with ⟨m, hm | hm⟩
    · have : imgCoef (0.5 * log ((a + b) / (a - b))) (acosh 0).im (k + 1) = 0 := by
        unfold imgCoef
        have e : ((k + 1 : ℕ) : ℝ) * (acosh 0).im = 2 * m * (acosh 0).im + (acosh 0).im := by rw [hm]; push_cast; ring
        rw [e, cos_add, (cos_zero_mul h0 m).2, h0]
        simp
      rw [this]
      simp
    · have : ((k : ℤ).negOnePow : ℤ) = -1 := by
        rw [Int.negOnePow_odd]
        · rfl
        · exact ⟨m, by rw [hm]; push_cast; ring⟩
      rw [this]
      push_cast
      ring
  · rw [map_neg]
    congr 2
    unfold imgF'
    simp only [map_mul, map_neg, map_sum, map_div₀, Complex.conj_ofReal]
    congr 1
    apply Finset.sum_congr rfl
    intro k _
    congr 2
    have := Polynomial.hom_eval₂ (Chebyshev.U ℂ (k : ℤ)) (RingHom.id ℂ) (starRingEnd ℂ) (⟨x, y⟩ / (√(a * a - b * b) : ℂ))
    rw [Polynomial.eval₂_id] at this
    rw [this, RingHom.comp_id, ← Polynomial.eval_map, Chebyshev.map_U, map_div₀, Complex.conj_ofReal]

/-- **C105**, almost round chambers: without image terms the potential of the charge on the axis is the same everywhere on the wall,
up to two parts in a thousand of `1/(2 pi eps0)`. -/
theorem C105_round (acosh : ℂ → ℂ) (eps0 a b : ℝ) (he : 0 < eps0) (ha : 0 < a) (hb : 0 < b) (hr : |(a - b) / a| ≤ 1e-3) (nimag : ℕ) :
    (∀ x y, imageTerms acosh eps0 x y a b 0 0 nimag = .ok 0) ∧
    ∀ φ, |linePot eps0 (ellWall a b φ) - linePot eps0 (a : ℂ)| ≤ 1 / (2 * π * eps0) * 2e-3 := by
  refine ⟨fun x y => ?_, fun φ => ?_⟩
  · unfold imageTerms
    rw [if_neg (not_lt.2 hr)]
    simp
  · have h1 : |a - b| ≤ 1e-3 * a := by
      rw [abs_div, abs_of_pos ha, div_le_iff₀ ha] at hr
      exact hr
    obtain ⟨h2, h3⟩ := abs_le.1 h1
    have hn : ‖ellWall a b φ‖ ^ 2 = (a * cos φ) ^ 2 + (b * sin φ) ^ 2 := by
      rw [← Complex.normSq_eq_norm_sq, Complex.normSq_apply]
      unfold ellWall
      ring
    have hcs := sin_sq_add_cos_sq φ
    have hs0 := sq_nonneg (sin φ)
    have hc0 := sq_nonneg (cos φ)
    have hlo : 0.999 * a ≤ ‖ellWall a b φ‖ := by
      apply le_of_sq_le_sq _ (norm_nonneg _)
      rw [hn]
      have e1 : (0.999 * a) ^ 2 ≤ a ^ 2 := by nlinarith
      have e2 : (0.999 * a) ^ 2 ≤ b ^ 2 := by nlinarith
      calc (0.999 * a) ^ 2 = (0.999 * a) ^ 2 * cos φ ^ 2 + (0.999 * a) ^ 2 * sin φ ^ 2 := by rw [← mul_add, add_comm, hcs, mul_one]
        _ ≤ a ^ 2 * cos φ ^ 2 + b ^ 2 * sin φ ^ 2 := add_le_add (mul_le_mul_of_nonneg_right e1 hc0) (mul_le_mul_of_nonneg_right e2 hs0)
        _ = _ := by ring
    have hhi : ‖ellWall a b φ‖ ≤ 1.001 * a := by
      apply le_of_sq_le_sq _ (by positivity)
      rw [hn]
      have e1 : a ^ 2 ≤ (1.001 * a) ^ 2 := by nlinarith
      have e2 : b ^ 2 ≤ (1.001 * a) ^ 2 := by nlinarith
      calc (a * cos φ) ^ 2 + (b * sin φ) ^ 2 = a ^ 2 * cos φ ^ 2 + b ^ 2 * sin φ ^ 2 := by ring
        _ ≤ (1.001 * a) ^ 2 * cos φ ^ 2 + (1.001 * a) ^ 2 * sin φ ^ 2 :=
          add_le_add (mul_le_mul_of_nonneg_right e1 hc0) (mul_le_mul_of_nonneg_right e2 hs0)
        _ = (1.001 * a) ^ 2 := by rw [← mul_add, add_comm, hcs, mul_one]
    have hpos : 0 < ‖ellWall a b φ‖ := by linarith
    have ht1 : ‖ellWall a b φ‖ / a ≤ 1.001 := (div_le_iff₀ ha).2 hhi
    have ht2 : 0.999 ≤ ‖ellWall a b φ‖ / a := (le_div_iff₀ ha).2 hlo
    have hl1 : log (‖ellWall a b φ‖ / a) ≤ 2e-3 := by
      have := log_le_sub_one_of_pos (div_pos hpos ha)
      linarith
    have hl2 : -2e-3 ≤ log (‖ellWall a b φ‖ / a) := by
      have := one_sub_inv_le_log_of_pos (div_pos hpos ha)
      have h5 : (‖ellWall a b φ‖ / a)⁻¹ ≤ (0.999)⁻¹ := inv_anti₀ (by norm_num) ht2
      have h6 : ((0.999 : ℝ))⁻¹ ≤ 1.002 := by norm_num
      linarith
    unfold linePot
    rw [Complex.norm_real, norm_of_nonneg ha.le, ← mul_sub, ← log_div hpos.ne' ha.ne', abs_mul, abs_neg, abs_of_pos (by positivity)]
    exact mul_le_mul_of_nonneg_left (abs_le.2 ⟨by linarith, hl1⟩) (by positivity)

/-- **C105**, the map: node `(i, j)` of the map is the point `(-1.02 a + i (2.04 a) / (nx - 1), -1.02 b + j (2.04 b) / (ny - 1))`, and the field
stored there is the field of the beam in free space plus the gradient of the one harmonic function of `C105_wall_partial`. -/
theorem C105_map (acosh : ℂ → ℂ) (ha : IsAcosh acosh) (eps0 a b sx sy : ℝ) (he : 0 < eps0) (hb : 0 < b) (hab : b < a)
    (hr : 1e-3 < |(a - b) / a|) (nx ny nimag : ℕ) :
    ∃ F : ℂ → ℂ, Differentiable ℂ F ∧
      (∀ φ, |linePot eps0 (ellWall a b φ) + (F (ellWall a b φ)).re - linePot eps0 (((a + b) / 2 : ℝ) : ℂ)| ≤
        1 / (2 * π * eps0) * (((a - b) / (a + b)) ^ (nimag / 2 + 1) * (1 - (a - b) / (a + b))⁻¹ / ((nimag / 2 : ℕ) + 1))) ∧
      ∀ (i j : ℕ) (row : List (Except NumErr (ℝ × ℝ))) (ex ey : ℝ), (beMap acosh eps0 a b sx sy nx ny nimag).2.2[i]? = some row →
        row[j]? = some (.ok (ex, ey)) →
        ∃ e0, bassErsk eps0 (-(1.02 * a) + i * (2.04 * a / (nx - 1))) (-(1.02 * b) + j * (2.04 * b / (ny - 1))) sx sy = .ok e0 ∧
          GradAt (fun z => (F z).re) (-(1.02 * a) + i * (2.04 * a / (nx - 1))) (-(1.02 * b) + j * (2.04 * b / (ny - 1))) ⟨ex - e0.1, ey - e0.2⟩ := by
  obtain ⟨F, hF, hg, hw⟩ := C105_wall_partial acosh ha eps0 a b he hb hab hr nimag
  refine ⟨F, hF, hw, fun i j row ex ey hrow hent => ?_⟩
  have hxe : ∀ (m : ℝ) (k n : ℕ), (linspaceSym (m * 1.02) n)[k]? = if k < n then some (-(1.02 * m) + k * (2.04 * m / (n - 1))) else none := by
    intro m k n
    unfold linspaceSym
    by_cases hk : k < n
    · simp only [List.getElem?_map, List.getElem?_range hk, Option.map_some, if_pos hk, Option.some.injEq]
      ring
    · rw [if_neg hk, List.getElem?_eq_none (by simpa using hk)]
  unfold beMap at hrow
  simp only [List.getElem?_map, hxe] at hrow
  by_cases hi : i < nx
  · rw [if_pos hi] at hrow
    simp only [Option.map_some, Option.some.injEq] at hrow
    subst hrow
    simp only [List.getElem?_map, hxe] at hent
    by_cases hj : j < ny
    · rw [if_pos hj] at hent
      simp only [Option.map_some, Option.some.injEq] at hent
      unfold beEntry at hent
      split at hent
      · simp at hent
      · next im him =>
        split at hent
        · simp at hent
        · next e0 he0 =>
          simp only [Except.ok.injEq, Prod.mk.injEq] at hent
          refine ⟨e0, he0, ?_⟩
          have h := hg _ _ _ him
          have hz : (⟨ex - e0.1, ey - e0.2⟩ : ℂ) = im := by
            apply Complex.ext
            · change ex - e0.1 = im.re; linarith [hent.1]
            · change ey - e0.2 = im.im; linarith [hent.2]
          rw [hz]; exact h
    · rw [if_neg hj] at hent; simp at hent
  · rw [if_neg hi] at hrow; simp at hrow

/-- **C105** is violated: in an elliptical chamber that is higher than wide, which is accepted, every entry of the map is `nan`. -/
theorem C105_tall_violated (acosh : ℂ → ℂ) (eps0 a b sx sy : ℝ) (ha : 0 < a) (hab : a < b) (hr : 1e-3 < |(a - b) / a|) (nx ny nimag : ℕ) :
    ∀ row ∈ (beMap acosh eps0 a b sx sy nx ny nimag).2.2, ∀ e ∈ row, e = .error .nan := by
  intro row hrow e he
  obtain ⟨x, -, rfl⟩ := List.mem_map.1 hrow
  obtain ⟨y, -, rfl⟩ := List.mem_map.1 he
  unfold beEntry imageTerms
  rw [if_pos hr, if_pos hab]

/-- **C105** is violated: a map can have a node on a focus, where the formula gives `nan`; here the half axes are 5 and 3. -/
theorem C105_focus_violated (acosh : ℂ → ℂ) (ha : IsAcosh acosh) (eps0 sx sy : ℝ) (nimag : ℕ) :
    ∃ row ∈ (beMap acosh eps0 5 3 sx sy 103 3 nimag).2.2, (.error .nan) ∈ row := by
  have hx : (4 : ℝ) ∈ linspaceSym (5 * 1.02) 103 := by
    refine List.mem_map.2 ⟨91, by simp, ?_⟩
    norm_num
  have hy : (0 : ℝ) ∈ linspaceSym (3 * 1.02) 3 := by
    refine List.mem_map.2 ⟨1, by simp, ?_⟩
    norm_num
  refine ⟨_, List.mem_map.2 ⟨4, hx, rfl⟩, List.mem_map.2 ⟨0, hy, ?_⟩⟩
  have hno := (C105_succeeds acosh ha eps0 4 0 5 3 (by norm_num) (by norm_num) (by norm_num [abs_of_pos]) nimag).not.2 (by norm_num)
  unfold beEntry
  have : imageTerms acosh eps0 4 0 5 3 0 0 nimag = .error .nan := by
    unfold imageTerms at hno ⊢
    rw [if_pos (by norm_num [abs_of_pos]), if_neg (by norm_num)] at hno ⊢
    simp only at hno ⊢
    split at hno
    next h => rw [if_pos h]
    next h => exact absurd ⟨_, rfl⟩ hno
  rw [this]

/-! ## C106 -/

theorem cellFactor_integral (p s dh node : ℝ) (hs : 0 < s) :
    cellFactor erfR p s dh node = 2 * ∫ x in (node - dh / 2)..(node + dh / 2), 1 / (√(2 * π) * s) * exp (-(x - p) ^ 2 / (2 * s ^ 2)) := by
  have h2 : √2 ^ 2 = (2 : ℝ) := sq_sqrt (by norm_num)
  have hs2 : 0 < √2 := sqrt_pos.2 (by norm_num)
  have hpi : 0 < √π := sqrt_pos.2 pi_pos
  have e1 : (node - p) / (√2 * s) + dh / (2 * √2 * s) = (node + dh / 2) / (√2 * s) - p / (√2 * s) := by field_simp; ring
  have e2 : (node - p) / (√2 * s) - dh / (2 * √2 * s) = (node - dh / 2) / (√2 * s) - p / (√2 * s) := by field_simp; ring
  unfold cellFactor erfR
  rw [e1, e2, ← mul_sub, intervalIntegral.integral_interval_sub_left (erf_integrand_int _ _) (erf_integrand_int _ _)]
  have h3 := intervalIntegral.integral_comp_div_sub (a := node - dh / 2) (b := node + dh / 2) (fun t : ℝ => exp (-t ^ 2))
    (show √2 * s ≠ 0 by positivity) (p / (√2 * s))
  rw [intervalIntegral.integral_const_mul]
  have h4 : ∀ x : ℝ, exp (-(x - p) ^ 2 / (2 * s ^ 2)) = exp (-(x / (√2 * s) - p / (√2 * s)) ^ 2) := by
    intro x
    congr 1
    rw [← sub_div, div_pow, mul_pow, h2]
    ring
  simp only [h4]
  rw [h3, smul_eq_mul, sqrt_mul (by norm_num)]
  field_simp

/-- **C106**: the charge given to the solver at a node is the charge of the Gaussian beam in the cell around the node. -/
theorem C106_cell (px py sx sy dh xn yn : ℝ) (hsx : 0 < sx) (hsy : 0 < sy) (hdh : 0 < dh) :
    cellRho erfR px py sx sy dh xn yn * dh ^ 2 =
      ∫ x in (xn - dh / 2)..(xn + dh / 2), ∫ y in (yn - dh / 2)..(yn + dh / 2), beamDens px py sx sy x y := by
  unfold cellRho
  rw [cellFactor_integral px sx dh xn hsx, cellFactor_integral py sy dh yn hsy]
  have hb : ∀ x y, beamDens px py sx sy x y =
      (1 / (√(2 * π) * sx) * exp (-(x - px) ^ 2 / (2 * sx ^ 2))) * (1 / (√(2 * π) * sy) * exp (-(y - py) ^ 2 / (2 * sy ^ 2))) := by
    intro x y
    unfold beamDens
    have hq : √(2 * π) * √(2 * π) = 2 * π := mul_self_sqrt (by positivity)
    rw [mul_mul_mul_comm, ← exp_add, div_mul_div_comm, one_mul]
    congr 1
    · congr 1
      calc 2 * π * sx * sy = (√(2 * π) * √(2 * π)) * sx * sy := by rw [hq]
        _ = _ := by ring
    · congr 1
      ring
  simp only [hb]
  simp only [intervalIntegral.integral_const_mul, intervalIntegral.integral_mul_const]
  field_simp
  ring

theorem cellFactor_sum (p s dh x0 : ℝ) (hs : 0 < s) (n : ℕ) :
    ∑ i ∈ Finset.range n, cellFactor erfR p s dh (x0 + i * dh) =
      erfR ((x0 + n * dh - dh / 2 - p) / (√2 * s)) - erfR ((x0 - dh / 2 - p) / (√2 * s)) := by
  have hs2 : 0 < √2 := sqrt_pos.2 (by norm_num)
  have h : ∀ i : ℕ, cellFactor erfR p s dh (x0 + i * dh) =
      erfR ((x0 + ((i + 1 : ℕ) : ℝ) * dh - dh / 2 - p) / (√2 * s)) - erfR ((x0 + (i : ℝ) * dh - dh / 2 - p) / (√2 * s)) := by
    intro i
    unfold cellFactor
    congr 2
    · push_cast; field_simp; ring
    · field_simp; ring
  simp only [h]
  rw [Finset.sum_range_sub (fun i : ℕ => erfR ((x0 + (i : ℝ) * dh - dh / 2 - p) / (√2 * s)))]
  simp

theorem erfR_bound (x : ℝ) : |erfR x| ≤ 1 := by
  have key : ∀ x : ℝ, 0 ≤ x → erfR x ≤ 1 := by
    intro x hx
    unfold erfR
    have hg := integral_gaussian_Ioi 1
    have hle : ∫ t in (0 : ℝ)..x, exp (-t ^ 2) ≤ ∫ t in Set.Ioi (0 : ℝ), exp (-1 * t ^ 2) := by
      rw [intervalIntegral.integral_of_le hx]
      simp only [neg_one_mul]
      refine MeasureTheory.setIntegral_mono_set ?_ ?_ ?_
      · have := (integrable_exp_neg_mul_sq (b := 1) one_pos).integrableOn (s := Set.Ioi 0)
        simpa using this
      · exact Filter.Eventually.of_forall fun t => (exp_pos _).le
      · exact Filter.Eventually.of_forall fun t ht => ht.1
    rw [hg, div_one] at hle
    have hpi : 0 < √π := sqrt_pos.2 pi_pos
    calc 2 / √π * ∫ t in (0 : ℝ)..x, exp (-t ^ 2) ≤ 2 / √π * (√π / 2) := mul_le_mul_of_nonneg_left hle (by positivity)
      _ = 1 := by field_simp
  rcases le_total 0 x with h | h
  · rw [abs_of_nonneg (by rw [← erfR_zero]; exact erfR_strictMono.monotone h)]
    exact key x h
  · rw [abs_of_nonpos (by rw [← erfR_zero]; exact erfR_strictMono.monotone h), ← erfR_neg]
    exact key (-x) (by linarith)

/-- **C106**: on a grid, every node has a positive charge and the total of any number of nodes is below the charge of the beam (1 per
metre); it is the charge within the cells of the grid. -/
theorem C106_total (px py sx sy dh x0 y0 : ℝ) (hsx : 0 < sx) (hsy : 0 < sy) (hdh : 0 < dh) (nx ny : ℕ) :
    (∀ xn yn, 0 < cellRho erfR px py sx sy dh xn yn) ∧
    ∑ i ∈ Finset.range nx, ∑ j ∈ Finset.range ny, cellRho erfR px py sx sy dh (x0 + i * dh) (y0 + j * dh) * dh ^ 2 =
      ∫ x in (x0 - dh / 2)..(x0 + nx * dh - dh / 2), ∫ y in (y0 - dh / 2)..(y0 + ny * dh - dh / 2), beamDens px py sx sy x y ∧
    ∑ i ∈ Finset.range nx, ∑ j ∈ Finset.range ny, cellRho erfR px py sx sy dh (x0 + i * dh) (y0 + j * dh) * dh ^ 2 ≤ 1 := by
  have hs2 : 0 < √2 := sqrt_pos.2 (by norm_num)
  have hsum : ∑ i ∈ Finset.range nx, ∑ j ∈ Finset.range ny, cellRho erfR px py sx sy dh (x0 + i * dh) (y0 + j * dh) * dh ^ 2 =
      1 / 4 * (∑ i ∈ Finset.range nx, cellFactor erfR px sx dh (x0 + i * dh)) * ∑ j ∈ Finset.range ny, cellFactor erfR py sy dh (y0 + j * dh) := by
    rw [mul_assoc, Finset.sum_mul_sum, Finset.mul_sum]
    apply Finset.sum_congr rfl
    intro i _
    rw [Finset.mul_sum]
    apply Finset.sum_congr rfl
    intro j _
    unfold cellRho
    field_simp
  refine ⟨fun xn yn => ?_, ?_, ?_⟩
  · have hp : ∀ p s node : ℝ, 0 < s → 0 < cellFactor erfR p s dh node := by
      intro p s node hs
      unfold cellFactor
      rw [sub_pos]
      apply erfR_strictMono
      have : 0 < dh / (2 * √2 * s) := by positivity
      linarith
    unfold cellRho
    have := hp px sx xn hsx
    have := hp py sy yn hsy
    positivity
  · have h1 : ∀ (p s z0 : ℝ) (n : ℕ), 0 < s → ∑ i ∈ Finset.range n, cellFactor erfR p s dh (z0 + i * dh) =
        2 * ∫ x in (z0 - dh / 2)..(z0 + n * dh - dh / 2), 1 / (√(2 * π) * s) * exp (-(x - p) ^ 2 / (2 * s ^ 2)) := by
      intro p s z0 n hs
      have hint : ∀ u v : ℝ, IntervalIntegrable (fun x : ℝ => 1 / (√(2 * π) * s) * exp (-(x - p) ^ 2 / (2 * s ^ 2))) MeasureTheory.volume u v :=
        fun u v => Continuous.intervalIntegrable (by fun_prop) u v
      induction n with
      | zero => simp
      | succ n ih =>
        rw [Finset.sum_range_succ, ih, cellFactor_integral p s dh _ hs, ← mul_add]
        have := intervalIntegral.integral_add_adjacent_intervals (hint (z0 - dh / 2) (z0 + n * dh - dh / 2)) (hint (z0 + n * dh - dh / 2) (z0 + n * dh + dh / 2))
        rw [this]
        congr 2
        push_cast
        ring
    rw [hsum, h1 px sx x0 nx hsx, h1 py sy y0 ny hsy]
    have hb : ∀ x y, beamDens px py sx sy x y =
        (1 / (√(2 * π) * sx) * exp (-(x - px) ^ 2 / (2 * sx ^ 2))) * (1 / (√(2 * π) * sy) * exp (-(y - py) ^ 2 / (2 * sy ^ 2))) := by
      intro x y
      unfold beamDens
      have hq : √(2 * π) * √(2 * π) = 2 * π := mul_self_sqrt (by positivity)
      rw [mul_mul_mul_comm, ← exp_add, div_mul_div_comm, one_mul]
      congr 1
      · congr 1
        calc 2 * π * sx * sy = (√(2 * π) * √(2 * π)) * sx * sy := by rw [hq]
          _ = _ := by ring
      · congr 1
        ring
    simp only [hb]
    simp only [intervalIntegral.integral_const_mul, intervalIntegral.integral_mul_const]
    ring
  · rw [hsum, cellFactor_sum px sx dh x0 hsx, cellFactor_sum py sy dh y0 hsy]
    have hb : ∀ u v : ℝ, |erfR u - erfR v| ≤ 2 := by
      intro u v
      have h1 := abs_le.1 (erfR_bound u)
      have h2 := abs_le.1 (erfR_bound v)
      rw [abs_le]
      constructor <;> linarith
    set A := erfR ((x0 + nx * dh - dh / 2 - px) / (√2 * sx)) - erfR ((x0 - dh / 2 - px) / (√2 * sx))
    set B := erfR ((y0 + ny * dh - dh / 2 - py) / (√2 * sy)) - erfR ((y0 - dh / 2 - py) / (√2 * sy))
    have hA : |A| ≤ 2 := hb _ _
    have hB : |B| ≤ 2 := hb _ _
    have : |A| * |B| ≤ 2 * 2 := mul_le_mul hA hB (abs_nonneg _) (by norm_num)
    rw [← abs_mul] at this
    have := le_abs_self (A * B)
    linarith

example : 0 < cellRho erfR 0 0 1 2 (1 / 10) 3 (-1) := (C106_total 0 0 1 2 (1 / 10) 0 0 (by norm_num) (by norm_num) (by norm_num) 1 1).1 3 (-1)

/-! ## C107 -/

/-- **C107**: a map is built exactly if the beam is inside the chamber, the settings of the chosen method are complete and a named
file can be read; what is saved is what is used. -/
theorem C107_built {K S : Type} [Zero K] [DecidableEq K] (outside ellip : Bool) (fd : K → AxMap K) (be : ℕ → ℕ → ℕ → AxMap K)
    (mg : K → K → K → K → S) (load : String → Except PyErr (AxMap K)) (c : MapSet K) :
    ((∃ r, buildMap outside ellip fd be mg load c = .ok r) ↔
      outside = false ∧ c.Complete ellip ∧ ∀ n, c.sel = .file n → ∃ m, load n = .ok m) ∧
    ∀ r, buildMap outside ellip fd be mg load c = .ok r →
      (∀ m, r.obj = .map m → r.saved = c.saveAs.map (fun n => (n, m))) ∧ (∀ s, r.obj = .state s → r.saved = none) ∧
      (c.sel = .fd → ∃ dh, c.dh = some dh ∧ r.obj = .map (fd dh)) ∧
      (c.sel = .be → ∃ nx ny ni, c.nx = some nx ∧ c.ny = some ny ∧ c.nimag = some ni ∧ r.obj = .map (be nx ny ni)) ∧
      (c.sel = .multigrid → ∃ dh f nd nm, c.dh = some dh ∧ c.fTel = some f ∧ c.nDiscard = some nd ∧ c.nMin = some nm ∧
        r.obj = .state (mg dh f nd nm)) ∧
      (∀ n, c.sel = .file n → ∃ m, load n = .ok m ∧ r.obj = .map m) := by
  obtain ⟨sel, dh, fTel, target, nDiscard, nMin, nx, ny, nimag, xPos, yPos, saveAs⟩ := c
  cases outside
  · cases sel with
    | fd =>
      cases dh <;> simp [buildMap, MapSet.Complete]
    | be =>
      cases ellip
      · simp [buildMap, MapSet.Complete]
      · cases nx <;> cases ny <;> cases nimag <;> by_cases hx : xPos = 0 <;> by_cases hy : yPos = 0 <;>
          simp [buildMap, MapSet.Complete, hx, hy]
    | multigrid =>
      cases dh <;> cases fTel <;> cases target <;> cases nDiscard <;> cases nMin <;> cases saveAs <;>
        simp [buildMap, MapSet.Complete]
    | file name =>
      cases hl : load name <;> simp [buildMap, MapSet.Complete, hl]
  · simp [buildMap]

/-- **C107**, saving and loading: a run that loads the saved file uses the same map. -/
theorem C107_round_trip {K S : Type} [Zero K] [DecidableEq K] (ellip ellip' : Bool) (fd fd' : K → AxMap K) (be be' : ℕ → ℕ → ℕ → AxMap K)
    (mg mg' : K → K → K → K → S) (load load' : String → Except PyErr (AxMap K)) (c c' : MapSet K) (outside : Bool) (r : MapOut K S) (n : String) (m : AxMap K)
    (h : buildMap outside ellip fd be mg load c = .ok r) (hs : r.saved = some (n, m)) (hl : load' n = .ok m) (hc : c'.sel = .file n) :
    r.obj = .map m ∧ ∃ r' : MapOut K S, buildMap false ellip' fd' be' mg' load' c' = .ok r' ∧ r'.obj = .map m := by
  obtain ⟨h1, h2, -⟩ := (C107_built outside ellip fd be mg load c).2 r h
  constructor
  · cases ho : r.obj with
    | map m' =>
      have := h1 m' ho
      rw [hs] at this
      cases hsv : c.saveAs with
      | none => rw [hsv] at this; cases this
      | some k => rw [hsv] at this; cases this; rfl
    | state s => rw [h2 s ho] at hs; cases hs
  · refine ⟨⟨.map m, c'.saveAs.map (fun n => (n, m))⟩, ?_, rfl⟩
    simp [buildMap, hc, hl]

/-- a complete setting that saves its map -/
def exMapSet : MapSet ℚ := ⟨.fd, some (1 / 2), none, false, none, none, none, none, none, 0, 0, some "beam.mat"⟩

example : ∃ r, buildMap (S := Unit) false false (fun d => (⟨[0, d], [0, d], [[1, 2], [3, 4]], [[0, 0], [0, 0]]⟩ : AxMap ℚ))
    (fun _ _ _ => ⟨[], [], [], []⟩) (fun _ _ _ _ => ()) (fun _ => .error .keyError) exMapSet = .ok r ∧
    r.saved = some ("beam.mat", ⟨[0, 1 / 2], [0, 1 / 2], [[1, 2], [3, 4]], [[0, 0], [0, 0]]⟩) := ⟨_, rfl, rfl⟩

section grid

variable {K : Type} [Field K] [LinearOrder K] [IsStrictOrderedRing K] [FloorRing K]

theorem foldl_min_first (x0 : K) (l : List K) (h : ∀ x ∈ l, x0 ≤ x) : l.foldl min x0 = x0 := by
  induction l with
  | nil => rfl
  | cons a l ih =>
    rw [List.foldl_cons, min_eq_left (h a (by simp))]
    exact ih fun x hx => h x (by simp [hx])

/-- **C107** as far as it holds: with axes of constant positive step, the field of the beam at a node is the value in the map at that
node. Missing: other axes, which are accepted (`C107_axes_violated`). -/
theorem C107_nodes_partial (m : AxMap K) (g : BeamMap K) (h : m.grid = .ok g) (x0 y0 dx dy : K) (hdx : 0 < dx) (hdy : 0 < dy)
    (hx : ∀ i, i < m.xx.length → m.xx[i]? = some (x0 + (i : K) * dx)) (hy : ∀ j, j < m.yy.length → m.yy[j]? = some (y0 + (j : K) * dy))
    (hr : m.ex.length = m.xx.length) (hc : ∀ r ∈ m.ex, r.length = m.yy.length)
    (i j : ℕ) (hi : i + 1 < m.xx.length) (hj : j + 1 < m.yy.length) (x y : K) (ex : m.xx[i]? = some x) (ey : m.yy[j]? = some y) :
    intField g.nx g.ny g.xmin g.ymin g.dx g.dy g.ex x y = (m.ex.getD i []).getD j 0 ∧
    intField g.nx g.ny g.xmin g.ymin g.dx g.dy g.ey x y = (m.ey.getD i []).getD j 0 := by
  have hgx : g.nx = m.xx.length ∧ g.ny = m.yy.length ∧ g.xmin = x0 ∧ g.ymin = y0 ∧ g.dx = dx ∧ g.dy = dy ∧ g.ex = nodeVal m.ex ∧ g.ey = nodeVal m.ey := by
    unfold AxMap.grid at h
    split at h
    next a b xs c d ys hxx hyy =>
      cases h
      have a0 := hx 0 (by rw [hxx]; simp)
      have a1 := hx 1 (by rw [hxx]; simp)
      have b0 := hy 0 (by rw [hyy]; simp)
      have b1 := hy 1 (by rw [hyy]; simp)
      rw [hxx] at a0 a1
      rw [hyy] at b0 b1
      simp at a0 a1 b0 b1
      have hmx : ∀ x ∈ b :: xs, a ≤ x := by
        intro x hxm
        obtain ⟨k, hk⟩ := List.mem_iff_getElem?.1 (show x ∈ m.xx by rw [hxx]; exact List.mem_cons_of_mem _ hxm)
        have hkl := (List.getElem?_eq_some_iff.1 hk).1
        rw [hx k hkl] at hk
        have := Option.some.inj hk
        rw [← this, a0]
        have : 0 ≤ (k : K) * dx := by positivity
        linarith
      have hmy : ∀ x ∈ d :: ys, c ≤ x := by
        intro x hxm
        obtain ⟨k, hk⟩ := List.mem_iff_getElem?.1 (show x ∈ m.yy by rw [hyy]; exact List.mem_cons_of_mem _ hxm)
        have hkl := (List.getElem?_eq_some_iff.1 hk).1
        rw [hy k hkl] at hk
        have := Option.some.inj hk
        rw [← this, b0]
        have : 0 ≤ (k : K) * dy := by positivity
        linarith
      refine ⟨hr, ?_, ?_, ?_, ?_, ?_, rfl, rfl⟩
      · cases hme : m.ex with
        | nil => rw [hme, hxx] at hr; simp at hr
        | cons r rs => exact hc r (by rw [hme]; simp)
      · show (b :: xs).foldl min a = x0
        rw [foldl_min_first a _ hmx, a0]
      · show (d :: ys).foldl min c = y0
        rw [foldl_min_first c _ hmy, b0]
      · show b - a = dx
        rw [a0, a1]; ring
      · show d - c = dy
        rw [b0, b1]; ring
    next => cases h
  obtain ⟨g1, g2, g3, g4, g5, g6, g7, g8⟩ := hgx
  rw [hx i (by omega)] at ex
  rw [hy j (by omega)] at ey
  have ex' := Option.some.inj ex
  have ey' := Option.some.inj ey
  subst ex' ey'
  have idx : ∀ (z0 d : K) (k : ℕ), 0 < d → iIdx z0 d (z0 + (k : K) * d) = (k : ℤ) + 1 ∧ hIdx z0 d (z0 + (k : K) * d) = 0 := by
    intro z0 d k hd
    have hf : fIdx z0 d (z0 + (k : K) * d) = ((k : ℤ) + 1 : ℤ) := by
      unfold fIdx
      push_cast
      field_simp
      ring
    have hi : iIdx z0 d (z0 + (k : K) * d) = (k : ℤ) + 1 := by
      unfold iIdx
      rw [hf]
      unfold truncZ
      have : (0 : K) ≤ (((k : ℤ) + 1 : ℤ) : K) := by exact_mod_cast (by omega : (0 : ℤ) ≤ (k : ℤ) + 1)
      rw [if_pos this, Int.floor_intCast]
    refine ⟨hi, ?_⟩
    unfold hIdx
    rw [hf, hi]
    ring
  rw [g1, g2, g3, g4, g5, g6, g7, g8]
  obtain ⟨i1, i2⟩ := idx x0 dx i hdx
  obtain ⟨j1, j2⟩ := idx y0 dy j hdy
  unfold intField
  simp only [i1, i2, j1, j2]
  have hg : gridGuard m.xx.length m.yy.length ((i : ℤ) + 1) ((j : ℤ) + 1) = true := by
    unfold gridGuard
    rw [decide_eq_true_eq]
    refine ⟨?_, ?_, ?_, ?_⟩ <;> omega
  simp only [hg, if_true]
  have t1 : ((i : ℤ) + 1).toNat = i + 1 := by omega
  have t2 : ((j : ℤ) + 1).toNat = j + 1 := by omega
  rw [t1, t2]
  unfold nodeVal
  simp

end grid

example : ∃ g : BeamMap ℚ, (⟨[0, 1, 2], [0, 2, 4], [[1, 2, 3], [4, 5, 6], [7, 8, 9]], [[0, 0, 0], [0, 0, 0], [0, 0, 0]]⟩ : AxMap ℚ).grid = .ok g ∧
    intField g.nx g.ny g.xmin g.ymin g.dx g.dy g.ex 1 2 = 5 :=
  exists_ok (by decide +kernel)

/-- **C107** is violated: axes of a file with unequal steps, or that decrease, are accepted, and the field at a node is not the value
given for it. -/
theorem C107_axes_violated :
    (∃ g : BeamMap ℚ, (⟨[0, 1, 3, 4], [0, 1, 2], [[0, 0, 0], [1, 1, 1], [2, 2, 2], [3, 3, 3]], [[0, 0, 0], [0, 0, 0], [0, 0, 0], [0, 0, 0]]⟩ : AxMap ℚ).grid = .ok g ∧
      intField g.nx g.ny g.xmin g.ymin g.dx g.dy g.ex (5 / 2) 1 = 5 / 2 ∧ intField g.nx g.ny g.xmin g.ymin g.dx g.dy g.ex 3 1 = 0) ∧
    (∃ g : BeamMap ℚ, (⟨[2, 1, 0], [0, 1, 2], [[0, 0, 0], [1, 1, 1], [2, 2, 2]], [[0, 0, 0], [0, 0, 0], [0, 0, 0]]⟩ : AxMap ℚ).grid = .ok g ∧
      intField g.nx g.ny g.xmin g.ymin g.dx g.dy g.ex 1 1 = 0) :=
  ⟨exists_ok (by decide +kernel), exists_ok (by decide +kernel)⟩

/-! ## C108 -/

section energy

variable {K : Type} [Field K] [LinearOrder K] [IsStrictOrderedRing K] [FloorRing K]

/-- **C108**: without a grid spacing there is no electric energy; with one it is never negative, it grows with the square of the
field, and for a constant field it is the energy density times an area between that of the rectangle of 1.01 times the apertures and one
cell more in each direction. -/
theorem C108_energy (ex ey : K → K → K) (xAper yAper eps0 qe : K) (hx : 0 ≤ xAper) (hy : 0 ≤ yAper) (he : 0 < eps0) (hq : 0 < qe) :
    potEnergy ex ey xAper yAper eps0 qe none = .error .valueError ∧
    ∀ dh, 0 < dh → ∃ u, potEnergy ex ey xAper yAper eps0 qe (some dh) = .ok u ∧ 0 ≤ u ∧
      (∀ k : K, potEnergy (fun x y => k * ex x y) (fun x y => k * ey x y) xAper yAper eps0 qe (some dh) = .ok (k ^ 2 * u)) ∧
      (∀ e : K, (∀ x y, ex x y ^ 2 + ey x y ^ 2 = e ^ 2) → ∃ wx wy, u = 1 / 2 * eps0 * e ^ 2 * (wx * wy) / qe ∧
        2.02 * xAper ≤ wx ∧ wx < 2.02 * xAper + dh ∧ 2.02 * yAper ≤ wy ∧ wy < 2.02 * yAper + dh) := by
  refine ⟨rfl, fun dh hd => ⟨_, rfl, ?_, fun k => ?_, fun e hE => ?_⟩⟩
  · have : 0 ≤ ((((arange (xAper * 1.01 - -xAper * 1.01) dh).map (fun t => -xAper * 1.01 + t)).flatMap
        (fun x => ((arange (yAper * 1.01 - -yAper * 1.01) dh).map (fun t => -yAper * 1.01 + t)).map (fun y => (x, y)))).map
        (fun p => ex p.1 p.2 ^ 2 + ey p.1 p.2 ^ 2)).sum := by
      apply List.sum_nonneg
      intro v hv
      obtain ⟨p, -, rfl⟩ := List.mem_map.1 hv
      positivity
    positivity
  · unfold potEnergy
    simp only
    congr 1
    have : ∀ p : K × K, (k * ex p.1 p.2) ^ 2 + (k * ey p.1 p.2) ^ 2 = k ^ 2 * (ex p.1 p.2 ^ 2 + ey p.1 p.2 ^ 2) := fun p => by ring
    simp only [this]
    rw [List.sum_map_mul_left]
    ring
  · refine ⟨(⌈(xAper * 1.01 - -xAper * 1.01) / dh⌉.toNat : K) * dh, (⌈(yAper * 1.01 - -yAper * 1.01) / dh⌉.toNat : K) * dh, ?_, ?_⟩
    · simp only [hE]
      rw [List.map_const', List.sum_replicate, List.length_flatMap]
      simp only [List.length_map, List.map_const', List.sum_replicate, arange, List.length_range, smul_eq_mul, nsmul_eq_mul, Nat.cast_mul]
      field_simp
    · have key : ∀ m : K, 0 ≤ m → 2.02 * m ≤ (⌈(m * 1.01 - -m * 1.01) / dh⌉.toNat : K) * dh ∧
          (⌈(m * 1.01 - -m * 1.01) / dh⌉.toNat : K) * dh < 2.02 * m + dh := by
        intro m hm
        have e0 : m * 1.01 - -m * 1.01 = 2.02 * m := by ring
        rw [e0]
        have h0 : 0 ≤ ⌈2.02 * m / dh⌉ := Int.ceil_nonneg (by positivity)
        have e1 : ((⌈2.02 * m / dh⌉.toNat : ℕ) : K) = ((⌈2.02 * m / dh⌉ : ℤ) : K) := by
          exact_mod_cast congrArg (Int.cast : ℤ → K) (Int.toNat_of_nonneg h0)
        rw [e1]
        have h1 := Int.le_ceil (2.02 * m / dh)
        have h2 := Int.ceil_lt_add_one (2.02 * m / dh)
        have h3 : 2.02 * m / dh * dh = 2.02 * m := by field_simp
        constructor
        · calc 2.02 * m = 2.02 * m / dh * dh := h3.symm
            _ ≤ _ := mul_le_mul_of_nonneg_right h1 hd.le
        · calc ((⌈2.02 * m / dh⌉ : ℤ) : K) * dh < (2.02 * m / dh + 1) * dh := mul_lt_mul_of_pos_right h2 hd
            _ = 2.02 * m + dh := by rw [add_mul, h3, one_mul]
      exact ⟨(key _ hx).1, (key _ hx).2, (key _ hy).1, (key _ hy).2⟩

end energy

example : ∃ u, potEnergy (fun _ _ => (3 : ℚ)) (fun _ _ => 4) 1 1 1 1 (some (1 / 2)) = .ok u ∧ 0 < u := exists_ok (by decide +kernel)

/-- **C108** is violated: the record `U_sc_eV` of the main output, kept as the electrostatic energy of the space charge, has an entry for every field
solution, and every entry is 0, whatever the field is. -/
theorem C108_record_violated {K : Type} [Field K] (solved : List Bool) :
    (uscRecord solved : List K).length = solved.count true ∧ ∀ u ∈ (uscRecord solved : List K), u = 0 := by
  unfold uscRecord
  refine ⟨?_, fun u hu => ?_⟩
  · rw [List.length_map, List.count_eq_countP, List.countP_eq_length_filter]
    congr 2
    funext b
    cases b <;> rfl
  · obtain ⟨b, -, rfl⟩ := List.mem_map.1 hu
    rfl

end PyECLOUD
