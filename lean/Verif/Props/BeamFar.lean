import Verif.Lemmas.BassOuter

/-!
# C173: the field of a beam that is almost round, and of any beam from far away
-/

namespace PyECLOUD

open Filter Topology

theorem lineU_nonneg (eps0 u v : ℝ) (he : 0 < eps0) (hu : 0 ≤ u) : 0 ≤ lineU eps0 u v := by
  have := Real.pi_pos
  unfold lineU
  positivity

/-- Signs: the field of all quadrants from the one of the first. -/
theorem sign_close (a b x t : ℝ) (h : |a - b * (|x|)| ≤ t) (ht : 0 ≤ t) : |a * Real.sign x - b * x| ≤ t := by
  rcases lt_trichotomy x 0 with hx | hx | hx
  · rw [Real.sign_of_neg hx]
    rw [abs_of_neg hx] at h
    rw [show a * -1 - b * x = -(a - b * -x) by ring, abs_neg]
    exact h
  · subst hx
    simpa using ht
  · rw [Real.sign_of_pos hx, mul_one]
    rwa [abs_of_pos hx] at h

/-- What is left of the bound when the core is small. -/
theorem sqrtpi_lt : √Real.pi < 1.7725 := by
  rw [Real.sqrt_lt' (by norm_num)]
  have := Real.pi_lt_d6
  norm_num at this ⊢
  linarith

theorem restB_round (eps0 σ r : ℝ) (he : 0 < eps0) (hσ : 0 < σ) (hr : 0 < r) :
    restB eps0 0 (Real.exp (-r ^ 2 / (2 * σ ^ 2))) r r < 2e-14 * lineStrength eps0 r := by
  have hpi : (0 : ℝ) < √Real.pi := Real.sqrt_pos.2 Real.pi_pos
  have hpp : √Real.pi * √Real.pi = Real.pi := Real.mul_self_sqrt Real.pi_pos.le
  have hg : Real.exp (-r ^ 2 / (2 * σ ^ 2)) ≤ 1 := by
    rw [Real.exp_le_one_iff, neg_div]
    have : 0 ≤ r ^ 2 / (2 * σ ^ 2) := by positivity
    linarith
  have h1 := sqrtpi_lt
  have e : restB eps0 0 (Real.exp (-r ^ 2 / (2 * σ ^ 2))) r r =
      (1 + Real.exp (-r ^ 2 / (2 * σ ^ 2))) * (5e-15 * √Real.pi) * lineStrength eps0 r := by
    generalize Real.exp (-r ^ 2 / (2 * σ ^ 2)) = g
    rw [restB, lineStrength, ← hpp, Real.sqrt_mul_self hpi.le]
    generalize √Real.pi = p at hpi
    field_simp
    ring
  rw [e]
  have hl : 0 < lineStrength eps0 r := by
    have := Real.pi_pos
    unfold lineStrength
    positivity
  refine mul_lt_mul_of_pos_right ?_ hl
  calc _ ≤ (1 + 1) * (5e-15 * √Real.pi) := by gcongr
    _ < _ := by norm_num at h1 ⊢; linarith

/-- The first quadrant, for a beam that is almost round. -/
theorem half_round (eps0 σ u v : ℝ) (he : 0 < eps0) (hσ : 0 < σ) (hu : 0 ≤ u) (hv : 0 ≤ v) (huv : 0 < u ^ 2 + v ^ 2) :
    ∀ᶠ p : ℝ × ℝ in 𝓝 (σ, σ), p.2 < p.1 → ∃ e, bassHalf eps0 u v p.1 p.2 = .ok e ∧
      |e.1 - (1 - Real.exp (-(u ^ 2 + v ^ 2) / (2 * σ ^ 2))) * lineU eps0 u v| ≤ 2e-14 * lineStrength eps0 √(u ^ 2 + v ^ 2) ∧
      |e.2 - (1 - Real.exp (-(u ^ 2 + v ^ 2) / (2 * σ ^ 2))) * lineU eps0 v u| ≤ 2e-14 * lineStrength eps0 √(u ^ 2 + v ^ 2) := by
  have hpi := Real.pi_pos
  have hr : 0 < √(u ^ 2 + v ^ 2) := Real.sqrt_pos.2 huv
  have hrr : √(u ^ 2 + v ^ 2) ^ 2 = u ^ 2 + v ^ 2 := Real.sq_sqrt huv.le
  -- the core shrinks
  have hS : Tendsto (fun p : ℝ × ℝ => √(2 * (p.1 * p.1 - p.2 * p.2))) (𝓝 (σ, σ)) (𝓝 0) := by
    have : ContinuousAt (fun p : ℝ × ℝ => √(2 * (p.1 * p.1 - p.2 * p.2))) (σ, σ) := by fun_prop
    simpa [ContinuousAt] using this
  have hne : ∀ᶠ p : ℝ × ℝ in 𝓝 (σ, σ), 0 < p.1 ∧ 0 < p.2 :=
    (continuousAt_fst.eventually (lt_mem_nhds hσ)).and (continuousAt_snd.eventually (lt_mem_nhds hσ))
  have hfar : ∀ᶠ p : ℝ × ℝ in 𝓝 (σ, σ), 4.29 * √(2 * (p.1 * p.1 - p.2 * p.2)) ≤ v ∨ 5.33 * √(2 * (p.1 * p.1 - p.2 * p.2)) ≤ p.2 / p.1 * u := by
    by_cases hv0 : v = 0
    · have hu0 : 0 < u := by
        rcases hu.lt_or_eq with h | h
        · exact h
        · rw [hv0, ← h] at huv; norm_num at huv
      have h1 : Tendsto (fun p : ℝ × ℝ => p.2 / p.1 * u - 5.33 * √(2 * (p.1 * p.1 - p.2 * p.2))) (𝓝 (σ, σ)) (𝓝 (σ / σ * u - 5.33 * 0)) :=
        (((continuousAt_snd.tendsto).div continuousAt_fst.tendsto hσ.ne').mul_const u).sub (hS.const_mul 5.33)
      have h2 : 0 < σ / σ * u - 5.33 * 0 := by rw [div_self hσ.ne']; simpa using hu0
      filter_upwards [h1.eventually (lt_mem_nhds h2)] with p hp
      exact .inr (by linarith)
    · have h1 := hS.const_mul 4.29
      rw [mul_zero] at h1
      filter_upwards [h1.eventually (gt_mem_nhds (lt_of_le_of_ne hv (Ne.symm hv0)))] with p hp
      exact .inl hp.le
  have hσσ : σ / σ = 1 := div_self hσ.ne'
  have hg : Tendsto (fun p : ℝ × ℝ => Real.exp (-u * u / (2 * p.1 * p.1) - v * v / (2 * p.2 * p.2))) (𝓝 (σ, σ))
      (𝓝 (Real.exp (-(u ^ 2 + v ^ 2) / (2 * σ ^ 2)))) := by
    have : ContinuousAt (fun p : ℝ × ℝ => Real.exp (-u * u / (2 * p.1 * p.1) - v * v / (2 * p.2 * p.2))) (σ, σ) := by
      refine ContinuousAt.rexp ((ContinuousAt.div (by fun_prop) (by fun_prop) ?_).sub (ContinuousAt.div (by fun_prop) (by fun_prop) ?_)) <;>
        simp [hσ.ne']
    rw [ContinuousAt] at this
    refine this.trans (le_of_eq ?_)
    congr 2
    field_simp
    ring
  have ha : Tendsto (fun p : ℝ × ℝ => p.2 / p.1 * u) (𝓝 (σ, σ)) (𝓝 u) := by
    have := ((continuousAt_snd (p := (σ, σ))).tendsto.div continuousAt_fst.tendsto hσ.ne').mul_const u
    simpa [hσσ] using this
  have hb : Tendsto (fun p : ℝ × ℝ => p.1 / p.2 * v) (𝓝 (σ, σ)) (𝓝 v) := by
    have := ((continuousAt_fst (p := (σ, σ))).tendsto.div continuousAt_snd.tendsto hσ.ne').mul_const v
    simpa [hσσ] using this
  have hline : ∀ (a b : ℝ × ℝ → ℝ) (a0 b0 : ℝ), Tendsto a (𝓝 (σ, σ)) (𝓝 a0) → Tendsto b (𝓝 (σ, σ)) (𝓝 b0) → 0 < a0 ^ 2 + b0 ^ 2 →
      Tendsto (fun p => lineU eps0 a0 b0 - Real.exp (-u * u / (2 * p.1 * p.1) - v * v / (2 * p.2 * p.2)) * lineU eps0 (a p) (b p)
        - (1 - Real.exp (-(u ^ 2 + v ^ 2) / (2 * σ ^ 2))) * lineU eps0 a0 b0) (𝓝 (σ, σ)) (𝓝 0) := fun a b a0 b0 h1 h2 h3 => by
    have h4 : Tendsto (fun p => lineU eps0 (a p) (b p)) (𝓝 (σ, σ)) (𝓝 (lineU eps0 a0 b0)) := by
      unfold lineU
      exact h1.div (((h1.pow 2).add (h2.pow 2)).const_mul _) (by positivity)
    have h5 := ((hg.mul h4).const_sub (lineU eps0 a0 b0)).sub_const ((1 - Real.exp (-(u ^ 2 + v ^ 2) / (2 * σ ^ 2))) * lineU eps0 a0 b0)
    refine h5.trans (le_of_eq ?_)
    congr 1
    ring
  have hrest : Tendsto (fun p : ℝ × ℝ => restB eps0 √(2 * (p.1 * p.1 - p.2 * p.2))
      (Real.exp (-u * u / (2 * p.1 * p.1) - v * v / (2 * p.2 * p.2))) √(u ^ 2 + v ^ 2) √((p.2 / p.1 * u) ^ 2 + (p.1 / p.2 * v) ^ 2)) (𝓝 (σ, σ))
      (𝓝 (restB eps0 0 (Real.exp (-√(u ^ 2 + v ^ 2) ^ 2 / (2 * σ ^ 2))) √(u ^ 2 + v ^ 2) √(u ^ 2 + v ^ 2))) := by
    have hd : Tendsto (fun p : ℝ × ℝ => √((p.2 / p.1 * u) ^ 2 + (p.1 / p.2 * v) ^ 2)) (𝓝 (σ, σ)) (𝓝 √(u ^ 2 + v ^ 2)) :=
      ((ha.pow 2).add (hb.pow 2)).sqrt
    rw [hrr]
    unfold restB
    refine Tendsto.const_mul _ ((((hS.pow 2).div_const _).add_const _).add (hg.mul (((hS.pow 2).div (hd.pow 3) (by positivity)).add
      (tendsto_const_nhds.div hd hr.ne'))))
  have hlim := restB_round eps0 σ √(u ^ 2 + v ^ 2) he hσ hr
  have t1 := ((hline _ _ _ _ ha hb huv).abs).add hrest
  have t2 := ((hline _ _ _ _ hb ha (by linarith)).abs).add hrest
  rw [abs_zero, zero_add] at t1 t2
  filter_upwards [hne, hfar, t1.eventually (gt_mem_nhds hlim), t2.eventually (gt_mem_nhds hlim)] with p hp hf q1 q2 hlt
  obtain ⟨e, h1, h2⟩ := bassHalf_outer eps0 u v p.1 p.2 he hu hv hp.2 hlt hf
  have hg1 : 0 ≤ 1 - Real.exp (-(u ^ 2 + v ^ 2) / (2 * σ ^ 2)) := by
    rw [sub_nonneg, Real.exp_le_one_iff, neg_div]
    have : 0 ≤ (u ^ 2 + v ^ 2) / (2 * σ ^ 2) := by positivity
    linarith
  have h3 := h2 ((1 - Real.exp (-(u ^ 2 + v ^ 2) / (2 * σ ^ 2))) * lineU eps0 u v) ((1 - Real.exp (-(u ^ 2 + v ^ 2) / (2 * σ ^ 2))) * lineU eps0 v u)
    (mul_nonneg hg1 (lineU_nonneg _ _ _ he hu)) (mul_nonneg hg1 (lineU_nonneg _ _ _ he hv))
  exact ⟨e, h1, h3.1.trans q1.le, h3.2.trans q2.le⟩

theorem lineU_mul (eps0 u v : ℝ) : lineU eps0 u v = 1 / (2 * Real.pi * eps0 * (u ^ 2 + v ^ 2)) * u := by
  rw [lineU, div_mul_eq_mul_div, one_mul]

theorem lineU_abs (eps0 x y : ℝ) : lineU eps0 |x| |y| = 1 / (2 * Real.pi * eps0 * (x ^ 2 + y ^ 2)) * |x| := by
  rw [lineU_mul, sq_abs, sq_abs]

theorem lineStrength_nonneg (eps0 r : ℝ) (he : 0 < eps0) (hr : 0 ≤ r) : 0 ≤ lineStrength eps0 r := by
  have := Real.pi_pos
  unfold lineStrength
  positivity

/-- From the first quadrant to the whole plane and both orders of the sizes: `k` is the factor by which the line charge is reduced. -/
theorem bass_of_half (eps0 x y sx sy k t : ℝ) (ht : 0 ≤ t) (hne : sx ≠ sy)
    (h1 : sy < sx → ∃ e, bassHalf eps0 |x| |y| sx sy = .ok e ∧ |e.1 - k * lineU eps0 (|x|) (|y|)| ≤ t ∧ |e.2 - k * lineU eps0 (|y|) (|x|)| ≤ t)
    (h2 : sx < sy → ∃ e, bassHalf eps0 |y| |x| sy sx = .ok e ∧ |e.1 - k * lineU eps0 (|y|) (|x|)| ≤ t ∧ |e.2 - k * lineU eps0 (|x|) (|y|)| ≤ t) :
    ∃ e, bassErsk eps0 x y sx sy = .ok e ∧ |e.1 - k * (lineField eps0 x y).1| ≤ t ∧ |e.2 - k * (lineField eps0 x y).2| ≤ t := by
  rw [lineField_eq]
  have px : ∀ a, |a - k * lineU eps0 (|x|) (|y|)| ≤ t → |a * Real.sign x - k * lineU eps0 x y| ≤ t := fun a h => by
    rw [lineU_abs, ← mul_assoc] at h
    rw [lineU_mul, ← mul_assoc]
    exact sign_close _ _ _ _ h ht
  have py : ∀ a, |a - k * lineU eps0 (|y|) (|x|)| ≤ t → |a * Real.sign y - k * lineU eps0 y x| ≤ t := fun a h => by
    rw [lineU_abs, ← mul_assoc] at h
    rw [lineU_mul, ← mul_assoc]
    exact sign_close _ _ _ _ h ht
  rcases lt_or_gt_of_ne hne with h | h
  · obtain ⟨e, e1, e2, e3⟩ := h2 h
    refine ⟨(e.2 * Real.sign x, e.1 * Real.sign y), ?_, px _ e3, py _ e2⟩
    rw [bassErsk, if_neg (not_lt.2 h.le), e1]
    rfl
  · obtain ⟨e, e1, e2, e3⟩ := h1 h
    refine ⟨(e.1 * Real.sign x, e.2 * Real.sign y), ?_, px _ e2, py _ e3⟩
    rw [bassErsk, if_pos h, e1]
    rfl

/-- **C173, almost round.** At every point but the centre, the field that is computed for a Gaussian beam with sizes that are different,
but close enough to each other, is the field of a round beam by Gauss's law, within `2e-14` of the field that the whole charge would have
on a line at the centre. (With equal sizes nothing is computed, see C84.) -/
theorem C173_almost_round (eps0 σ x y : ℝ) (he : 0 < eps0) (hσ : 0 < σ) (hxy : x ≠ 0 ∨ y ≠ 0) :
    ∀ᶠ p : ℝ × ℝ in 𝓝 (σ, σ), p.1 ≠ p.2 → ∃ e, bassErsk eps0 x y p.1 p.2 = .ok e ∧
      |e.1 - (roundField eps0 σ x y).1| ≤ 2e-14 * lineStrength eps0 √(x ^ 2 + y ^ 2) ∧
      |e.2 - (roundField eps0 σ x y).2| ≤ 2e-14 * lineStrength eps0 √(x ^ 2 + y ^ 2) := by
  have hr : 0 < x ^ 2 + y ^ 2 := by rcases hxy with h | h <;> positivity
  have h1 := half_round eps0 σ |x| |y| he hσ (abs_nonneg _) (abs_nonneg _) (by simpa using hr)
  have h2 := half_round eps0 σ |y| |x| he hσ (abs_nonneg _) (abs_nonneg _) (by rw [add_comm]; simpa using hr)
  rw [sq_abs, sq_abs] at h1 h2
  rw [add_comm (y ^ 2)] at h2
  have hswap : Tendsto (fun p : ℝ × ℝ => (p.2, p.1)) (𝓝 (σ, σ)) (𝓝 (σ, σ)) := continuous_swap.tendsto (σ, σ)
  filter_upwards [h1, hswap.eventually h2] with p q1 q2 hne
  have hl := lineStrength_nonneg eps0 √(x ^ 2 + y ^ 2) he (Real.sqrt_nonneg _)
  exact bass_of_half eps0 x y p.1 p.2 _ _ (by positivity) hne q1 q2

/-- The first quadrant, from far away. -/
theorem half_line (eps0 su sv : ℝ) (he : 0 < eps0) (hsv : 0 < sv) (hlt : sv < su) :
    ∀ᶠ r : ℝ in atTop, ∀ u v : ℝ, 0 ≤ u → 0 ≤ v → √(u ^ 2 + v ^ 2) = r → ∃ e, bassHalf eps0 u v su sv = .ok e ∧
      |e.1 - 1 * lineU eps0 u v| ≤ 1e-14 * lineStrength eps0 r ∧ |e.2 - 1 * lineU eps0 v u| ≤ 1e-14 * lineStrength eps0 r := by
  have hpi := Real.pi_pos
  have hsp : (0 : ℝ) < √Real.pi := Real.sqrt_pos.2 hpi
  have hpp : √Real.pi * √Real.pi = Real.pi := Real.mul_self_sqrt hpi.le
  have hsu : 0 < su := hsv.trans hlt
  set s := √(2 * (su * su - sv * sv)) with hs
  have hs0 : 0 ≤ s := Real.sqrt_nonneg _
  set ρ := sv / su with hρ
  have hρ0 : 0 < ρ := by positivity
  have hρ1 : ρ ≤ 1 := (div_le_one hsu).2 hlt.le
  have hinv : su / sv = ρ⁻¹ := by rw [hρ, inv_div]
  -- the bound in units of the field of the line
  let φ : ℝ → ℝ := fun r => Real.exp (-(r ^ 2 / (2 * su ^ 2))) / ρ +
    √Real.pi * (s ^ 2 / r ^ 2 + 5e-15 + Real.exp (-(r ^ 2 / (2 * su ^ 2))) * (s ^ 2 / (ρ ^ 3 * r ^ 2) + 5e-15 / ρ))
  have hφ : Tendsto φ atTop (𝓝 (0 / ρ + √Real.pi * (0 + 5e-15 + 0 * (0 + 5e-15 / ρ)))) := by
    have hsq : Tendsto (fun r : ℝ => r ^ 2) atTop atTop := tendsto_pow_atTop (by norm_num)
    have h1 : Tendsto (fun r : ℝ => Real.exp (-(r ^ 2 / (2 * su ^ 2)))) atTop (𝓝 0) :=
      Real.tendsto_exp_neg_atTop_nhds_zero.comp (hsq.atTop_div_const (by positivity))
    have h2 : Tendsto (fun r : ℝ => s ^ 2 / r ^ 2) atTop (𝓝 0) := tendsto_const_nhds.div_atTop hsq
    have h3 : Tendsto (fun r : ℝ => s ^ 2 / (ρ ^ 3 * r ^ 2)) atTop (𝓝 0) :=
      tendsto_const_nhds.div_atTop (hsq.const_mul_atTop (by positivity))
    exact (h1.div_const _).add (((h2.add_const _).add (h1.mul (h3.add_const _))).const_mul _)
  have hlim : 0 / ρ + √Real.pi * (0 + 5e-15 + 0 * (0 + 5e-15 / ρ)) < 1e-14 := by
    have := sqrtpi_lt
    rw [zero_div, zero_mul, zero_add, zero_add, add_zero]
    norm_num at this ⊢
    linarith
  filter_upwards [hφ.eventually (gt_mem_nhds hlim), eventually_gt_atTop 0, eventually_ge_atTop (4.29 * s + 5.33 * s / ρ)] with r hr1 hr0 hr2
  intro u v hu hv huv
  have huv0 : 0 < u ^ 2 + v ^ 2 := by
    rw [← Real.sqrt_pos, huv]; exact hr0
  have hrr : r ^ 2 = u ^ 2 + v ^ 2 := by rw [← huv, Real.sq_sqrt huv0.le]
  have hle : r ≤ u + v := by
    rw [← huv, Real.sqrt_le_left (by positivity)]
    nlinarith
  have hfar : 4.29 * s ≤ v ∨ 5.33 * s ≤ ρ * u := by
    by_cases h : 4.29 * s ≤ v
    · exact .inl h
    · have h2 : 5.33 * s / ρ ≤ u := by linarith
      rw [div_le_iff₀ hρ0] at h2
      exact .inr (by linarith)
  obtain ⟨e, h1, h2⟩ := bassHalf_outer eps0 u v su sv he hu hv hsv hlt hfar
  rw [← hs, ← hρ, hinv, huv] at h2
  have hg : Real.exp (-u * u / (2 * su * su) - v * v / (2 * sv * sv)) ≤ Real.exp (-(r ^ 2 / (2 * su ^ 2))) := by
    rw [Real.exp_le_exp, hrr]
    have h3 : v * v / (2 * su * su) ≤ v * v / (2 * sv * sv) := by gcongr
    have h4 : -u * u / (2 * su * su) = -((u ^ 2 + v ^ 2) / (2 * su ^ 2)) + v * v / (2 * su * su) := by field_simp; ring
    linarith
  set g := Real.exp (-u * u / (2 * su * su) - v * v / (2 * sv * sv)) with hgd
  have hg0 : 0 < g := Real.exp_pos _
  set G := Real.exp (-(r ^ 2 / (2 * su ^ 2))) with hG
  have hρi : ρ ≤ ρ⁻¹ := hρ1.trans ((one_le_inv₀ hρ0).2 hρ1)
  have hd2 : ρ * r ≤ √((ρ * u) ^ 2 + (ρ⁻¹ * v) ^ 2) := by
    refine Real.le_sqrt_of_sq_le ?_
    rw [mul_pow, hrr, mul_add, ← mul_pow, ← mul_pow]
    gcongr
  set d2 := √((ρ * u) ^ 2 + (ρ⁻¹ * v) ^ 2) with hd2d
  have hd20 : 0 < d2 := lt_of_lt_of_le (by positivity) hd2
  have hdd : d2 ^ 2 = (ρ * u) ^ 2 + (ρ⁻¹ * v) ^ 2 := Real.sq_sqrt (by positivity)
  -- the term of the core
  have hcore : ∀ a b : ℝ, 0 ≤ a → a ^ 2 + b ^ 2 = d2 ^ 2 → g * lineU eps0 a b ≤ G / ρ * lineStrength eps0 r := fun a b ha hab => by
    have had : a ≤ d2 := by nlinarith [sq_nonneg b]
    have h3 : lineU eps0 a b ≤ 1 / ρ * lineStrength eps0 r := by
      rw [lineU, hab, lineStrength, div_mul_div_comm, one_mul]
      calc a / (2 * Real.pi * eps0 * d2 ^ 2) ≤ d2 / (2 * Real.pi * eps0 * d2 ^ 2) := by gcongr
        _ = 1 / (2 * Real.pi * eps0 * d2) := by field_simp
        _ ≤ 1 / (2 * Real.pi * eps0 * (ρ * r)) := by gcongr
        _ = 1 / (ρ * (2 * Real.pi * eps0 * r)) := by ring_nf
    calc g * lineU eps0 a b ≤ G * (1 / ρ * lineStrength eps0 r) :=
          mul_le_mul hg h3 (lineU_nonneg _ _ _ he ha) (hg0.le.trans hg)
      _ = _ := by ring
  have hrest : restB eps0 s g r d2 ≤ √Real.pi * (s ^ 2 / r ^ 2 + 5e-15 + G * (s ^ 2 / (ρ ^ 3 * r ^ 2) + 5e-15 / ρ)) * lineStrength eps0 r := by
    calc restB eps0 s g r d2
        ≤ 1 / (2 * eps0 * √Real.pi) * (s ^ 2 / r ^ 3 + 5e-15 / r + G * (s ^ 2 / (ρ * r) ^ 3 + 5e-15 / (ρ * r))) := by
          unfold restB
          gcongr
      _ = _ := by
        rw [lineStrength, ← hpp, Real.sqrt_mul_self hsp.le]
        clear hG hg hcore hlim hφ
        clear_value G
        generalize √Real.pi = p at hsp
        field_simp
  have hls := lineStrength_nonneg eps0 r he hr0.le
  have hsum : ∀ a b l : ℝ, 0 ≤ a → a ^ 2 + b ^ 2 = d2 ^ 2 → |l - g * lineU eps0 a b - 1 * l| + restB eps0 s g r d2 ≤ 1e-14 * lineStrength eps0 r :=
    fun a b l ha hab => by
      rw [show l - g * lineU eps0 a b - 1 * l = -(g * lineU eps0 a b) by ring, abs_neg,
        abs_of_nonneg (mul_nonneg hg0.le (lineU_nonneg _ _ _ he ha))]
      have h3 := hcore a b ha hab
      have h4 : φ r * lineStrength eps0 r ≤ 1e-14 * lineStrength eps0 r := by gcongr
      have h5 : φ r * lineStrength eps0 r = G / ρ * lineStrength eps0 r +
          √Real.pi * (s ^ 2 / r ^ 2 + 5e-15 + G * (s ^ 2 / (ρ ^ 3 * r ^ 2) + 5e-15 / ρ)) * lineStrength eps0 r := by
        simp only [φ, ← hG]
        ring
      linarith
  have h3 := h2 (1 * lineU eps0 u v) (1 * lineU eps0 v u) (by rw [one_mul]; exact lineU_nonneg _ _ _ he hu)
    (by rw [one_mul]; exact lineU_nonneg _ _ _ he hv)
  exact ⟨e, h1, h3.1.trans (hsum _ _ _ (by positivity) hdd.symm), h3.2.trans (hsum _ _ _ (by positivity) (by rw [add_comm]; exact hdd.symm))⟩

/-- **C173, far away.** For every beam that is not round, the computed field is the one of a line charge within `1e-14` of its strength, at all
points that are far enough from the centre, in whatever direction. -/
theorem C173_far (eps0 sx sy : ℝ) (he : 0 < eps0) (hx : 0 < sx) (hy : 0 < sy) (hne : sx ≠ sy) :
    ∃ R, ∀ x y : ℝ, R ≤ √(x ^ 2 + y ^ 2) → ∃ e, bassErsk eps0 x y sx sy = .ok e ∧
      |e.1 - (lineField eps0 x y).1| ≤ 1e-14 * lineStrength eps0 √(x ^ 2 + y ^ 2) ∧
      |e.2 - (lineField eps0 x y).2| ≤ 1e-14 * lineStrength eps0 √(x ^ 2 + y ^ 2) := by
  have h1 : ∃ R, ∀ r, R ≤ r → sy < sx → ∀ u v : ℝ, 0 ≤ u → 0 ≤ v → √(u ^ 2 + v ^ 2) = r → ∃ e, bassHalf eps0 u v sx sy = .ok e ∧
      |e.1 - 1 * lineU eps0 u v| ≤ 1e-14 * lineStrength eps0 r ∧ |e.2 - 1 * lineU eps0 v u| ≤ 1e-14 * lineStrength eps0 r := by
    by_cases h : sy < sx
    · obtain ⟨R, hR⟩ := eventually_atTop.1 (half_line eps0 sx sy he hy h)
      exact ⟨R, fun r hr _ => hR r hr⟩
    · exact ⟨0, fun r _ h' => absurd h' h⟩
  have h2 : ∃ R, ∀ r, R ≤ r → sx < sy → ∀ u v : ℝ, 0 ≤ u → 0 ≤ v → √(u ^ 2 + v ^ 2) = r → ∃ e, bassHalf eps0 u v sy sx = .ok e ∧
      |e.1 - 1 * lineU eps0 u v| ≤ 1e-14 * lineStrength eps0 r ∧ |e.2 - 1 * lineU eps0 v u| ≤ 1e-14 * lineStrength eps0 r := by
    by_cases h : sx < sy
    · obtain ⟨R, hR⟩ := eventually_atTop.1 (half_line eps0 sy sx he hx h)
      exact ⟨R, fun r hr _ => hR r hr⟩
    · exact ⟨0, fun r _ h' => absurd h' h⟩
  obtain ⟨R1, hR1⟩ := h1
  obtain ⟨R2, hR2⟩ := h2
  refine ⟨max R1 R2, fun x y hr => ?_⟩
  have hl := lineStrength_nonneg eps0 √(x ^ 2 + y ^ 2) he (Real.sqrt_nonneg _)
  have := bass_of_half eps0 x y sx sy 1 (1e-14 * lineStrength eps0 √(x ^ 2 + y ^ 2)) (by positivity) hne
    (fun h => hR1 _ ((le_max_left _ _).trans hr) h |x| |y| (abs_nonneg _) (abs_nonneg _) (by rw [sq_abs, sq_abs]))
    (fun h => hR2 _ ((le_max_right _ _).trans hr) h |y| |x| (abs_nonneg _) (abs_nonneg _) (by rw [sq_abs, sq_abs, add_comm]))
  simpa only [one_mul] using this

/-- The hypotheses are met by a beam of 1 mm and by one of 1 mm and 0.2 mm, with the constant of the code. -/
example : (∀ᶠ p : ℝ × ℝ in 𝓝 (1e-3, 1e-3), p.1 ≠ p.2 → ∃ e, bassErsk 8.854187817620e-12 2e-3 (-1e-3) p.1 p.2 = .ok e ∧
      |e.1 - (roundField 8.854187817620e-12 1e-3 2e-3 (-1e-3)).1| ≤ 2e-14 * lineStrength 8.854187817620e-12 √(2e-3 ^ 2 + (-1e-3) ^ 2) ∧
      |e.2 - (roundField 8.854187817620e-12 1e-3 2e-3 (-1e-3)).2| ≤ 2e-14 * lineStrength 8.854187817620e-12 √(2e-3 ^ 2 + (-1e-3) ^ 2)) ∧
    ∃ R, ∀ x y : ℝ, R ≤ √(x ^ 2 + y ^ 2) → ∃ e, bassErsk 8.854187817620e-12 x y 1e-3 2e-4 = .ok e ∧
      |e.1 - (lineField 8.854187817620e-12 x y).1| ≤ 1e-14 * lineStrength 8.854187817620e-12 √(x ^ 2 + y ^ 2) ∧
      |e.2 - (lineField 8.854187817620e-12 x y).2| ≤ 1e-14 * lineStrength 8.854187817620e-12 √(x ^ 2 + y ^ 2) :=
  ⟨C173_almost_round _ _ _ _ (by norm_num) (by norm_num) (.inl (by norm_num)), C173_far _ _ _ (by norm_num) (by norm_num) (by norm_num)
    (by norm_num)⟩

end PyECLOUD
