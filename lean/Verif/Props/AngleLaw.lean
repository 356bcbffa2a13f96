import Verif.Model.Emission
import Verif.Spec.AngleLaw
import Mathlib.MeasureTheory.Measure.Lebesgue.Basic
import Mathlib.Analysis.SpecialFunctions.Integrals.Basic

/-! # Directions of emitted electrons: C160 -/

namespace PyECLOUD

open Real MeasureTheory Set

/-- the velocity of an electron emitted with `sin θ = st` and azimuth `2πu` in the frame of the wall -/
theorem velAngle_frame (c en nx ny st u : ℝ) (hce : 0 ≤ c * en) (hn : nx ^ 2 + ny ^ 2 = 1) (hs0 : 0 ≤ st) (hs1 : st ≤ 1) :
    speedOf (velAngle c en nx ny st u) = √(c * en) ∧
    normalOf nx ny (velAngle c en nx ny st u) = √(c * en) * √(1 - st ^ 2) ∧
    tangentOf nx ny (velAngle c en nx ny st u) = √(c * en) * st * sin (u * 2 * π) ∧
    (velAngle c en nx ny st u).2.2 = √(c * en) * st * cos (u * 2 * π) ∧
    √(tangentOf nx ny (velAngle c en nx ny st u) ^ 2 + (velAngle c en nx ny st u).2.2 ^ 2) = √(c * en) * st := by
  have hct : √(1 - st ^ 2) ^ 2 = 1 - st ^ 2 := Real.sq_sqrt (by nlinarith)
  have hv := Real.sqrt_nonneg (c * en)
  have hsc := sin_sq_add_cos_sq (u * 2 * π)
  have hN : normalOf nx ny (velAngle c en nx ny st u) = √(c * en) * √(1 - st ^ 2) := by
    unfold normalOf velAngle
    dsimp only
    linear_combination (√(c * en) * √(1 - st ^ 2)) * hn
  have hT : tangentOf nx ny (velAngle c en nx ny st u) = √(c * en) * st * sin (u * 2 * π) := by
    unfold tangentOf velAngle
    dsimp only
    linear_combination (√(c * en) * st * sin (u * 2 * π)) * hn
  have hZ : (velAngle c en nx ny st u).2.2 = √(c * en) * st * cos (u * 2 * π) := by
    unfold velAngle; dsimp only; ring
  have hR : √(tangentOf nx ny (velAngle c en nx ny st u) ^ 2 + (velAngle c en nx ny st u).2.2 ^ 2) = √(c * en) * st := by
    rw [hT, hZ]
    have : (√(c * en) * st * sin (u * 2 * π)) ^ 2 + (√(c * en) * st * cos (u * 2 * π)) ^ 2 = (√(c * en) * st) ^ 2 := by
      linear_combination ((√(c * en) * st) ^ 2) * hsc
    rw [this, Real.sqrt_sq (mul_nonneg hv hs0)]
  refine ⟨?_, hN, hT, hZ, hR⟩
  have e : (velAngle c en nx ny st u).1 ^ 2 + (velAngle c en nx ny st u).2.1 ^ 2 =
      normalOf nx ny (velAngle c en nx ny st u) ^ 2 + tangentOf nx ny (velAngle c en nx ny st u) ^ 2 := by
    unfold normalOf tangentOf
    linear_combination (-(velAngle c en nx ny st u).1 ^ 2 - (velAngle c en nx ny st u).2.1 ^ 2) * hn
  unfold speedOf
  rw [e, hN, hT, hZ]
  have : (√(c * en) * √(1 - st ^ 2)) ^ 2 + (√(c * en) * st * sin (u * 2 * π)) ^ 2 + (√(c * en) * st * cos (u * 2 * π)) ^ 2 =
      √(c * en) ^ 2 := by
    linear_combination (√(c * en) ^ 2) * hct + ((√(c * en) * st) ^ 2) * hsc
  rw [this, Real.sqrt_sq hv]

/-- when an electron is in a cone -/
theorem velAngle_cone (c en nx ny st u α β : ℝ) (hce : 0 < c * en) (hn : nx ^ 2 + ny ^ 2 = 1) (hs0 : 0 ≤ st) (hs1 : st ≤ 1)
    (hα : 0 ≤ α ∧ α ≤ π / 2) (hβ : 0 ≤ β ∧ β ≤ 2 * π) (hu : 0 ≤ u ∧ u ≤ 1) :
    (st ≤ sin α ∧ u ≤ β / (2 * π) → InCone nx ny α β (velAngle c en nx ny st u)) ∧
    (InCone nx ny α β (velAngle c en nx ny st u) → st ≤ sin α ∧ (u ≤ β / (2 * π) ∨ st = 0 ∨ u = 1)) := by
  obtain ⟨hS, hN, hT, hZ, hR⟩ := velAngle_frame c en nx ny st u hce.le hn hs0 hs1
  have hv : 0 < √(c * en) := Real.sqrt_pos.2 hce
  have hpi := Real.pi_pos
  have hcos : 0 ≤ cos α := cos_nonneg_of_mem_Icc ⟨by linarith [hα.1], hα.2⟩
  have hsin : 0 ≤ sin α := sin_nonneg_of_nonneg_of_le_pi hα.1 (by linarith [hα.2])
  have hang : (√(c * en) * cos α ≤ √(c * en) * √(1 - st ^ 2)) ↔ st ≤ sin α := by
    rw [mul_le_mul_iff_right₀ hv, Real.le_sqrt hcos (by nlinarith), cos_sq']
    constructor
    · intro h; exact abs_le_of_sq_le_sq' (by linarith) hsin |>.2
    · intro h; nlinarith
  constructor
  · rintro ⟨h1, h2⟩
    unfold InCone
    rw [hS, hN, hR, hT, hZ]
    refine ⟨hang.2 h1, u * 2 * π, by nlinarith [hu.1, mul_nonneg hu.1 hpi.le], ?_, rfl, rfl⟩
    rw [le_div_iff₀ (by positivity)] at h2
    linarith
  · unfold InCone
    rw [hS, hN, hR, hT, hZ]
    rintro ⟨h1, φ, h0, hφ, hs, hc⟩
    refine ⟨hang.1 h1, ?_⟩
    by_cases hst : st = 0
    · exact Or.inr (Or.inl hst)
    by_cases hu1 : u = 1
    · exact Or.inr (Or.inr hu1)
    left
    have hp : √(c * en) * st ≠ 0 := mul_ne_zero hv.ne' hst
    have hs' := mul_left_cancel₀ hp hs
    have hc' := mul_left_cancel₀ hp hc
    have hu1' : u < 1 := lt_of_le_of_ne hu.2 hu1
    have hψ0 : 0 ≤ u * 2 * π := by have := mul_nonneg hu.1 hpi.le; linarith
    have hψ1 : u * 2 * π < 2 * π := by nlinarith
    rw [le_div_iff₀ (by positivity)]
    -- two angles with the same sine and cosine differ by a multiple of a turn
    have hd : cos (u * 2 * π - φ) = 1 := by
      rw [cos_sub, hs', hc']; nlinarith [sin_sq_add_cos_sq φ]
    obtain ⟨k, hk⟩ := (cos_eq_one_iff _).1 hd
    rcases lt_trichotomy k 0 with h | h | h
    · have hk1 : (k : ℝ) ≤ -1 := by exact_mod_cast Int.le_sub_one_of_lt h
      have hk2 : (k : ℝ) * (2 * π) ≤ -1 * (2 * π) := mul_le_mul_of_nonneg_right hk1 (by positivity)
      linarith [hβ.2]
    · rw [h] at hk; push_cast at hk; linarith
    · have hk1 : (1 : ℝ) ≤ k := by exact_mod_cast h
      have hk2 : 1 * (2 * π) ≤ (k : ℝ) * (2 * π) := mul_le_mul_of_nonneg_right hk1 (by positivity)
      linarith [hβ.2]

/-- draws of an electron: two numbers of the unit interval -/
def drawSquare : Set (ℝ × ℝ) := Icc 0 1 ×ˢ Icc 0 1

theorem cone_volume (c en nx ny α β : ℝ) (f : ℝ → ℝ) (a : ℝ) (hce : 0 < c * en) (hn : nx ^ 2 + ny ^ 2 = 1)
    (hf : ∀ u, 0 ≤ u → u ≤ 1 → 0 ≤ f u ∧ f u ≤ 1 ∧ (f u ≤ sin α ↔ u ≤ a) ∧ (f u = 0 → u = 0)) (ha : 0 ≤ a ∧ a ≤ 1)
    (hα : 0 ≤ α ∧ α ≤ π / 2) (hβ : 0 ≤ β ∧ β ≤ 2 * π) :
    volume {p ∈ drawSquare | InCone nx ny α β (velAngle c en nx ny (f p.1) p.2)} = ENNReal.ofReal (a * (β / (2 * π))) := by
  have hpi := Real.pi_pos
  have hb : 0 ≤ β / (2 * π) ∧ β / (2 * π) ≤ 1 := ⟨by have := hβ.1; positivity, by rw [div_le_one (by positivity)]; exact hβ.2⟩
  have hbox : volume (Icc (0 : ℝ) a ×ˢ Icc (0 : ℝ) (β / (2 * π))) = ENNReal.ofReal (a * (β / (2 * π))) := by
    rw [Measure.volume_eq_prod, Measure.prod_prod, Real.volume_Icc, Real.volume_Icc, sub_zero, sub_zero,
      ENNReal.ofReal_mul ha.1]
  apply le_antisymm
  · have hsub : {p ∈ drawSquare | InCone nx ny α β (velAngle c en nx ny (f p.1) p.2)} ⊆
        (Icc (0 : ℝ) a ×ˢ Icc (0 : ℝ) (β / (2 * π))) ∪ (({0} : Set ℝ) ×ˢ (univ : Set ℝ) ∪ (univ : Set ℝ) ×ˢ ({1} : Set ℝ)) := by
      rintro ⟨u, w⟩ ⟨⟨hu, hw⟩, hcone⟩
      have h1 := hf u hu.1 hu.2
      have h := (velAngle_cone c en nx ny (f u) w α β hce hn h1.1 h1.2.1 hα hβ hw).2 hcone
      rcases h.2 with h2 | h2 | h2
      · left; exact ⟨⟨hu.1, h1.2.2.1.1 h.1⟩, hw.1, h2⟩
      · right; left; exact ⟨h1.2.2.2 h2, trivial⟩
      · right; right; exact ⟨trivial, h2⟩
    refine (measure_mono hsub).trans ?_
    refine (measure_union_le _ _).trans ?_
    have z1 : volume (({0} : Set ℝ) ×ˢ (univ : Set ℝ)) = 0 := by
      rw [Measure.volume_eq_prod, Measure.prod_prod]; simp
    have z2 : volume ((univ : Set ℝ) ×ˢ ({1} : Set ℝ)) = 0 := by
      rw [Measure.volume_eq_prod, Measure.prod_prod]; simp
    rw [hbox, measure_union_null z1 z2, add_zero]
  · rw [← hbox]
    refine measure_mono ?_
    rintro ⟨u, w⟩ ⟨hu, hw⟩
    have hu1 : u ≤ 1 := hu.2.trans ha.2
    have hw1 : w ≤ 1 := hw.2.trans hb.2
    have h1 := hf u hu.1 hu1
    exact ⟨⟨⟨hu.1, hu1⟩, hw.1, hw1⟩, (velAngle_cone c en nx ny (f u) w α β hce hn h1.1 h1.2.1 hα hβ ⟨hw.1, hw1⟩).1
      ⟨h1.2.2.1.2 hu.2, hw.2⟩⟩

/-- **C160**, `cosine_3D`. For every normal, every positive energy and every cone about the normal, of half angle `α` up to a right
angle and a sector of azimuths up to `β`: of all draws, the part that sends the electron into the cone is `sin² α · β / 2π`. This is
the cosine law of Lambert: the flux per solid angle `sin θ dθ dφ` is proportional to `cos θ`, the same in all azimuths. -/
theorem C160_cosine_3D (c en nx ny α β : ℝ) (hce : 0 < c * en) (hn : nx ^ 2 + ny ^ 2 = 1) (hα : 0 ≤ α ∧ α ≤ π / 2)
    (hβ : 0 ≤ β ∧ β ≤ 2 * π) :
    volume {p ∈ drawSquare | InCone nx ny α β (AngleDist.cosine3D.vel c en nx ny p.1 p.2)} =
      ENNReal.ofReal (sin α ^ 2 * (β / (2 * π))) := by
  have hpi := Real.pi_pos
  have hsin : 0 ≤ sin α := sin_nonneg_of_nonneg_of_le_pi hα.1 (by linarith [hα.2])
  refine cone_volume c en nx ny α β (fun u => √u) (sin α ^ 2) hce hn (fun u h0 h1 => ?_)
    ⟨sq_nonneg _, by nlinarith [sin_le_one α]⟩ hα hβ
  exact ⟨Real.sqrt_nonneg u, Real.sqrt_le_one.2 h1, Real.sqrt_le_left hsin, fun h => (Real.sqrt_eq_zero h0).1 h⟩

/-- **C160**, `cosine_2D`: the part is `sin α · β / 2π`, that is, the density of the angle `θ` itself is `cos θ` (and not that of the
solid angle). -/
theorem C160_cosine_2D (c en nx ny α β : ℝ) (hce : 0 < c * en) (hn : nx ^ 2 + ny ^ 2 = 1) (hα : 0 ≤ α ∧ α ≤ π / 2)
    (hβ : 0 ≤ β ∧ β ≤ 2 * π) :
    volume {p ∈ drawSquare | InCone nx ny α β (AngleDist.cosine2D.vel c en nx ny p.1 p.2)} =
      ENNReal.ofReal (sin α * (β / (2 * π))) := by
  have hpi := Real.pi_pos
  have hsin : 0 ≤ sin α := sin_nonneg_of_nonneg_of_le_pi hα.1 (by linarith [hα.2])
  exact cone_volume c en nx ny α β (fun u => u) (sin α) hce hn (fun u h0 h1 => ⟨h0, h1, Iff.rfl, id⟩)
    ⟨hsin, sin_le_one α⟩ hα hβ

/-- **C160**, mean velocities with `cosine_3D`: two thirds of the speed along the normal, none along the wall and the axis. -/
theorem C160_mean_3D (c en nx ny : ℝ) (hce : 0 ≤ c * en) (hn : nx ^ 2 + ny ^ 2 = 1) :
    (∫ w in (0 : ℝ)..1, ∫ u in (0 : ℝ)..1, normalOf nx ny (AngleDist.cosine3D.vel c en nx ny u w)) = 2 / 3 * √(c * en) ∧
    (∀ u ∈ Icc (0 : ℝ) 1, ∫ w in (0 : ℝ)..1, tangentOf nx ny (AngleDist.cosine3D.vel c en nx ny u w) = 0) ∧
    (∀ u ∈ Icc (0 : ℝ) 1, ∫ w in (0 : ℝ)..1, (AngleDist.cosine3D.vel c en nx ny u w).2.2 = 0) := by
  have hpi := Real.pi_pos
  have fr : ∀ u w : ℝ, 0 ≤ u → u ≤ 1 → _ := fun u w h0 h1 =>
    velAngle_frame c en nx ny (√u) w hce hn (Real.sqrt_nonneg u) (Real.sqrt_le_one.2 h1)
  refine ⟨?_, fun u hu => ?_, fun u hu => ?_⟩
  · have e : ∀ w : ℝ, (∫ u in (0 : ℝ)..1, normalOf nx ny (AngleDist.cosine3D.vel c en nx ny u w)) = 2 / 3 * √(c * en) := by
      intro w
      have : (∫ u in (0 : ℝ)..1, normalOf nx ny (AngleDist.cosine3D.vel c en nx ny u w)) =
          ∫ u in (0 : ℝ)..1, √(c * en) * √(1 - u) := by
        refine intervalIntegral.integral_congr (fun u hu => ?_)
        rw [uIcc_of_le zero_le_one] at hu
        have h := (fr u w hu.1 hu.2).2.1
        rw [Real.sq_sqrt hu.1] at h
        exact h
      rw [this, intervalIntegral.integral_const_mul, intervalIntegral.integral_comp_sub_left (fun x => √x)]
      simp only [sub_self, sub_zero, Real.sqrt_eq_rpow]
      rw [integral_rpow (by left; norm_num)]
      norm_num
      ring
    simp only [e]
    simp
  · have : (∫ w in (0 : ℝ)..1, tangentOf nx ny (AngleDist.cosine3D.vel c en nx ny u w)) =
        ∫ w in (0 : ℝ)..1, √(c * en) * √u * sin (w * (2 * π)) := by
      refine intervalIntegral.integral_congr (fun w _ => ?_)
      have h := (fr u w hu.1 hu.2).2.2.1
      rw [mul_assoc w 2 π] at h
      exact h
    rw [this, intervalIntegral.integral_const_mul, intervalIntegral.integral_comp_mul_right _ (by positivity), integral_sin]
    simp
  · have : (∫ w in (0 : ℝ)..1, (AngleDist.cosine3D.vel c en nx ny u w).2.2) =
        ∫ w in (0 : ℝ)..1, √(c * en) * √u * cos (w * (2 * π)) := by
      refine intervalIntegral.integral_congr (fun w _ => ?_)
      have h := (fr u w hu.1 hu.2).2.2.2.1
      rw [mul_assoc w 2 π] at h
      exact h
    rw [this, intervalIntegral.integral_const_mul, intervalIntegral.integral_comp_mul_right _ (by positivity), integral_cos]
    simp

/-- **C160**, `normal_emission`: all electrons leave along the normal, whatever the draws. -/
theorem C160_normal (c en nx ny u0 u1 : ℝ) (hn : nx ^ 2 + ny ^ 2 = 1) :
    normalOf nx ny (AngleDist.normal.vel c en nx ny u0 u1) = √(c * en) ∧
    tangentOf nx ny (AngleDist.normal.vel c en nx ny u0 u1) = 0 ∧ (AngleDist.normal.vel c en nx ny u0 u1).2.2 = 0 := by
  unfold AngleDist.vel velNormal normalOf tangentOf
  refine ⟨?_, by ring, rfl⟩
  linear_combination √(c * en) * hn

/-- with the three-dimensional law a quarter of the electrons leaves within 30 degrees of the normal; with the two-dimensional
one it is a half -/
example : volume {p ∈ drawSquare | InCone 0.6 0.8 (π / 6) (2 * π) (AngleDist.cosine3D.vel 1 2 0.6 0.8 p.1 p.2)} = ENNReal.ofReal (1 / 4) ∧
    volume {p ∈ drawSquare | InCone 0.6 0.8 (π / 6) (2 * π) (AngleDist.cosine2D.vel 1 2 0.6 0.8 p.1 p.2)} = ENNReal.ofReal (1 / 2) := by
  have hpi := Real.pi_pos
  have e : (2 * π) / (2 * π) = 1 := div_self (by positivity)
  rw [C160_cosine_3D 1 2 0.6 0.8 (π / 6) (2 * π) (by norm_num) (by norm_num) ⟨by positivity, by linarith⟩ ⟨by positivity, le_refl _⟩,
    C160_cosine_2D 1 2 0.6 0.8 (π / 6) (2 * π) (by norm_num) (by norm_num) ⟨by positivity, by linarith⟩ ⟨by positivity, le_refl _⟩,
    e, sin_pi_div_six]
  norm_num

end PyECLOUD
