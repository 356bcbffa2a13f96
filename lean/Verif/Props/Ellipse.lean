import Verif.Model.Ellipse
import Verif.Spec.Geometry
import Verif.Props.Impact
import Verif.Props.Sources
import Mathlib.Tactic.LinearCombination
import Mathlib.Tactic.FieldSimp

/-!
# Elliptical chamber: C49
-/

namespace PyECLOUD

/-- The chamber is the open ellipse with the given semi-axes. -/
theorem C49_is_outside (a b x y : ℝ) : ellOutside a b x y = false ↔ (x / a) ^ 2 + (y / b) ^ 2 < 1 := by
  rw [ellOutside, decide_eq_false_iff_not, not_le]; rfl

theorem ellProj_level (a b x y : ℝ) (ha : 0 < a) (hb : 0 < b) (h : 1 ≤ ellLevel a b x y) :
    ellLevel a b (ellProj a b x y).1 (ellProj a b x y).2 = (99 / 100) ^ 2 := by
  unfold ellLevel at h
  have hr : 0 < (x / a) ^ 2 + (y / b) ^ 2 := lt_of_lt_of_le one_pos h
  obtain ⟨r, hrd⟩ : ∃ r, r = Real.sqrt ((x / a) ^ 2 + (y / b) ^ 2) := ⟨_, rfl⟩
  have hr0 : 0 < r := by rw [hrd]; exact Real.sqrt_pos.2 hr
  have hr2 : r * r = (x / a) ^ 2 + (y / b) ^ 2 := by rw [hrd]; exact Real.mul_self_sqrt hr.le
  simp only [ellLevel, ellProj, ← hrd]
  rw [mul_div_assoc, div_self ha.ne', mul_one, mul_div_assoc _ b b, div_self hb.ne', mul_one]
  have : (99 / 100 * (x / a) / r) ^ 2 + (99 / 100 * (y / b) / r) ^ 2
      = (99 / 100) ^ 2 * (((x / a) ^ 2 + (y / b) ^ 2) / (r * r)) := by
    field_simp
  rw [this, hr2, div_self hr.ne', mul_one]

/-- **C49**: in robust mode the elliptical chamber never raises, and every returned point is inside, for all
trajectories and all scaling factors. -/
theorem C49_inside (a b resc : ℝ) (ha : 0 < a) (hb : 0 < b) (p q : ℝ × ℝ × ℝ) :
    ∃ h, ellHit a b resc true p q = .ok h ∧ (h.x / a) ^ 2 + (h.y / b) ^ 2 < 1 := by
  unfold ellHit
  simp only [if_true, Bool.true_and]
  obtain ⟨x, hx⟩ : ∃ x, x = ellMix (ellBack a b p.1 p.2.1 q.1 q.2.1 10 (ellT0 a b resc p.1 p.2.1 q.1 q.2.1)) p.1 q.1 := ⟨_, rfl⟩
  obtain ⟨y, hy⟩ : ∃ y, y = ellMix (ellBack a b p.1 p.2.1 q.1 q.2.1 10 (ellT0 a b resc p.1 p.2.1 q.1 q.2.1)) p.2.1 q.2.1 := ⟨_, rfl⟩
  rw [← hx, ← hy]
  have hw : ellOutside a b (if ellOutside a b x y = true then ellProj a b x y else (x, y)).1
      (if ellOutside a b x y = true then ellProj a b x y else (x, y)).2 = false := by
    by_cases ho : ellOutside a b x y = true
    · rw [if_pos ho, C49_is_outside]
      have hl := ellProj_level a b x y ha hb (of_decide_eq_true ho)
      unfold ellLevel at hl
      rw [hl]; norm_num
    · rw [if_neg ho]
      exact Bool.eq_false_iff.2 ho
  rw [if_neg (by rw [hw]; exact Bool.false_ne_true)]
  exact ⟨_, rfl, (C49_is_outside _ _ _ _).1 hw⟩

/-- the correction loop: the smallest number of reductions, at most `n`, after which the point is not outside -/
theorem ellBack_spec (a b xi yi xo yo : ℝ) (n : ℕ) (t : ℝ) : ∃ k ≤ n, ellBack a b xi yi xo yo n t = (9 / 10) ^ k * t ∧
    (∀ j < k, 1 < ellLevel a b (ellMix ((9 / 10) ^ j * t) xi xo) (ellMix ((9 / 10) ^ j * t) yi yo)) ∧
    (k < n → ellLevel a b (ellMix ((9 / 10) ^ k * t) xi xo) (ellMix ((9 / 10) ^ k * t) yi yo) ≤ 1) := by
  induction n generalizing t with
  | zero => exact ⟨0, le_rfl, by simp [ellBack], fun j hj => absurd hj (Nat.not_lt_zero j), fun h => absurd h (lt_irrefl 0)⟩
  | succ n ih =>
    unfold ellBack
    by_cases h : 1 < ellLevel a b (ellMix t xi xo) (ellMix t yi yo)
    · rw [if_pos h]
      obtain ⟨k, hk, e1, e2, e3⟩ := ih (9 / 10 * t)
      have hp : ∀ j : ℕ, (9 / 10 : ℝ) ^ j * (9 / 10 * t) = (9 / 10) ^ (j + 1) * t := fun j => by ring
      simp only [hp] at e1 e2 e3
      refine ⟨k + 1, by omega, e1, ?_, fun hlt => e3 (by omega)⟩
      intro j hj
      rcases j with _ | j
      · simpa using h
      · exact e2 j (by omega)
    · rw [if_neg h]
      exact ⟨0, by omega, by simp, fun j hj => absurd hj (Nat.not_lt_zero j), fun _ => by simpa using not_lt.1 h⟩

/-- **C49**: how far the robust mode steps back. From the parameter `t` the point is moved towards the start of the trajectory in
steps of a tenth of the parameter, until it is not outside, at most ten times. If it is inside then, it is the impact point; if
not, it is moved towards the centre of the chamber to the ellipse scaled by 0.99. -/
theorem C49_step_back (a b resc : ℝ) (ha : 0 < a) (hb : 0 < b) (p q : ℝ × ℝ × ℝ) :
    ∃ h k, ellHit a b resc true p q = .ok h ∧ k ≤ 10 ∧ ∃ X Y Z : ℕ → ℝ,
      (∀ j, X j = p.1 + (9 / 10) ^ j * ellT0 a b resc p.1 p.2.1 q.1 q.2.1 * (q.1 - p.1)) ∧
      (∀ j, Y j = p.2.1 + (9 / 10) ^ j * ellT0 a b resc p.1 p.2.1 q.1 q.2.1 * (q.2.1 - p.2.1)) ∧
      (∀ j, Z j = p.2.2 + (9 / 10) ^ j * ellT0 a b resc p.1 p.2.1 q.1 q.2.1 * (q.2.2 - p.2.2)) ∧
      (∀ j < k, 1 < (X j / a) ^ 2 + (Y j / b) ^ 2) ∧ (k < 10 → (X k / a) ^ 2 + (Y k / b) ^ 2 ≤ 1) ∧ h.z = Z k ∧
      ((X k / a) ^ 2 + (Y k / b) ^ 2 < 1 → h.x = X k ∧ h.y = Y k) ∧
      (1 ≤ (X k / a) ^ 2 + (Y k / b) ^ 2 → ∃ c, 0 < c ∧ h.x = c * X k ∧ h.y = c * Y k ∧
        (h.x / a) ^ 2 + (h.y / b) ^ 2 = (99 / 100) ^ 2) := by
  have hmix : ∀ t vi vo : ℝ, ellMix t vi vo = vi + t * (vo - vi) := fun t vi vo => by unfold ellMix; ring
  obtain ⟨k, hk, e1, e2, e3⟩ := ellBack_spec a b p.1 p.2.1 q.1 q.2.1 10 (ellT0 a b resc p.1 p.2.1 q.1 q.2.1)
  obtain ⟨h, hh, -⟩ := C49_inside a b resc ha hb p q
  refine ⟨h, k, hh, hk, fun j => p.1 + (9 / 10) ^ j * ellT0 a b resc p.1 p.2.1 q.1 q.2.1 * (q.1 - p.1),
    fun j => p.2.1 + (9 / 10) ^ j * ellT0 a b resc p.1 p.2.1 q.1 q.2.1 * (q.2.1 - p.2.1),
    fun j => p.2.2 + (9 / 10) ^ j * ellT0 a b resc p.1 p.2.1 q.1 q.2.1 * (q.2.2 - p.2.2),
    fun _ => rfl, fun _ => rfl, fun _ => rfl, ?_, ?_, ?_⟩
  · simpa only [hmix, ellLevel] using e2
  · simpa only [hmix, ellLevel] using e3
  unfold ellHit at hh
  simp only [if_true, Bool.true_and, e1, hmix] at hh
  obtain ⟨x, hx⟩ : ∃ x, x = p.1 + (9 / 10) ^ k * ellT0 a b resc p.1 p.2.1 q.1 q.2.1 * (q.1 - p.1) := ⟨_, rfl⟩
  obtain ⟨y, hy⟩ : ∃ y, y = p.2.1 + (9 / 10) ^ k * ellT0 a b resc p.1 p.2.1 q.1 q.2.1 * (q.2.1 - p.2.1) := ⟨_, rfl⟩
  simp only [← hx, ← hy] at hh ⊢
  have hok : ∀ w : ℝ × ℝ, ∀ z : ℝ, (if ellOutside a b w.1 w.2 = true then (.error .valueError : Except PyErr (Hit ℝ))
      else .ok ⟨w.1, w.2, z, (ellNormal a b w.1 w.2).1, (ellNormal a b w.1 w.2).2, 0⟩) = .ok h →
      h.x = w.1 ∧ h.y = w.2 ∧ h.z = z := by
    intro w z hw
    split at hw
    · cases hw
    · cases hw
      exact ⟨rfl, rfl, rfl⟩
  obtain ⟨r1, r2, r3⟩ := hok _ _ hh
  rw [r1, r2]
  refine ⟨r3, fun hin => ?_, fun hout => ?_⟩
  · rw [if_neg (by rw [(C49_is_outside a b x y).2 hin]; exact Bool.false_ne_true)]
    exact ⟨rfl, rfl⟩
  · have ho : ellOutside a b x y = true := by
      rw [← Bool.not_eq_false, C49_is_outside]
      exact not_lt.2 hout
    have hl := ellProj_level a b x y ha hb hout
    unfold ellLevel at hl
    rw [if_pos ho]
    have hr : 0 < Real.sqrt ((x / a) ^ 2 + (y / b) ^ 2) := Real.sqrt_pos.2 (lt_of_lt_of_le one_pos hout)
    refine ⟨99 / 100 / Real.sqrt ((x / a) ^ 2 + (y / b) ^ 2), by positivity, ?_, ?_, hl⟩
    · simp only [ellProj]; field_simp
    · simp only [ellProj]; field_simp

theorem ellNormal_eq (a b x y : ℝ) (ha : 0 < a) (hb : 0 < b) :
    (x = 0 ∧ y = 0 ∧ ellNormal a b x y = (-1, 0)) ∨
    ∃ c, 0 < c ∧ ellNormal a b x y = (-(c * (x / a ^ 2)), -(c * (y / b ^ 2))) ∧
      (c * (x / a ^ 2)) ^ 2 + (c * (y / b ^ 2)) ^ 2 = 1 := by
  by_cases h0 : x = 0 ∧ y = 0
  · left
    refine ⟨h0.1, h0.2, ?_⟩
    have hz : (⟨b * 0, a * 0⟩ : ℂ) = 0 := by apply Complex.ext <;> simp
    have hb2 : Real.sqrt (b * b) = b := Real.sqrt_mul_self hb.le
    simp only [ellNormal, h0.1, h0.2, hz, Complex.arg_zero, Real.cos_zero, Real.sin_zero]
    simp [hb2, hb.ne', neg_div]
  · right
    have hzne : (⟨b * x, a * y⟩ : ℂ) ≠ 0 := by
      intro h
      have h1 := congrArg Complex.re h
      have h2 := congrArg Complex.im h
      simp only [Complex.zero_re, Complex.zero_im] at h1 h2
      exact h0 ⟨(mul_eq_zero.1 h1).resolve_left hb.ne', (mul_eq_zero.1 h2).resolve_left ha.ne'⟩
    obtain ⟨R, hR⟩ : ∃ R, R = ‖(⟨b * x, a * y⟩ : ℂ)‖ := ⟨_, rfl⟩
    have hRpos : 0 < R := by rw [hR]; exact norm_pos_iff.2 hzne
    have hcos : Real.cos (Complex.arg ⟨b * x, a * y⟩) = b * x / R := by
      rw [Complex.cos_arg hzne, hR]
    have hsin : Real.sin (Complex.arg ⟨b * x, a * y⟩) = a * y / R := by
      rw [Complex.sin_arg, hR]
    have hdot : ¬ 0 < -(b * (b * x / R)) * x + -a * (a * y / R) * y := by
      have : -(b * (b * x / R)) * x + -a * (a * y / R) * y = -(((b * x) ^ 2 + (a * y) ^ 2) / R) := by
        field_simp; ring
      rw [this, not_lt, neg_nonpos]
      positivity
    obtain ⟨n, hn⟩ : ∃ n, n = Real.sqrt (-(b * (b * x / R)) * -(b * (b * x / R)) + -a * (a * y / R) * (-a * (a * y / R))) := ⟨_, rfl⟩
    have harg : 0 < -(b * (b * x / R)) * -(b * (b * x / R)) + -a * (a * y / R) * (-a * (a * y / R)) := by
      have e : -(b * (b * x / R)) * -(b * (b * x / R)) + -a * (a * y / R) * (-a * (a * y / R))
          = ((b * (b * x)) ^ 2 + (a * (a * y)) ^ 2) / R ^ 2 := by field_simp
      rw [e]
      refine div_pos ?_ (by positivity)
      by_cases hx : x = 0
      · have hy : y ≠ 0 := fun h => h0 ⟨hx, h⟩
        have : 0 < (a * (a * y)) ^ 2 := by positivity
        have : 0 ≤ (b * (b * x)) ^ 2 := by positivity
        linarith
      · have : 0 < (b * (b * x)) ^ 2 := by positivity
        have : 0 ≤ (a * (a * y)) ^ 2 := by positivity
        linarith
    have hnpos : 0 < n := by rw [hn]; exact Real.sqrt_pos.2 harg
    have hn2 := Real.mul_self_sqrt harg.le
    rw [← hn] at hn2
    refine ⟨a ^ 2 * b ^ 2 / (R * n), by positivity, ?_, ?_⟩
    · simp only [ellNormal, hcos, hsin, hdot, if_false, ← hn, Prod.mk.injEq]
      constructor <;> field_simp
    · have e1 : a ^ 2 * b ^ 2 / (R * n) * (x / a ^ 2) = b * (b * x / R) / n := by field_simp
      have e2 : a ^ 2 * b ^ 2 / (R * n) * (y / b ^ 2) = a * (a * y / R) / n := by field_simp
      rw [e1, e2, div_pow, div_pow, ← add_div, div_eq_one_iff_eq (by positivity)]
      rw [sq n, hn2]; ring

/-- **C49**: the normal of an elliptical chamber has unit length; away from the centre it is opposite to the gradient
of the ellipse equation at the returned point, that is, it points inward; at the centre it is (-1, 0). -/
theorem C49_normal (a b resc : ℝ) (ha : 0 < a) (hb : 0 < b) (robust : Bool) (p q : ℝ × ℝ × ℝ) (h : Hit ℝ)
    (hh : ellHit a b resc robust p q = .ok h) :
    h.nx ^ 2 + h.ny ^ 2 = 1 ∧
    ((h.x, h.y) ≠ (0, 0) → (∃ c, 0 < c ∧ h.nx = -(c * (h.x / a ^ 2)) ∧ h.ny = -(c * (h.y / b ^ 2))) ∧
      h.nx * h.x + h.ny * h.y < 0) ∧
    ((h.x, h.y) = (0, 0) → (h.nx, h.ny) = (-1, 0)) := by
  have hn : (h.nx, h.ny) = ellNormal a b h.x h.y := by
    unfold ellHit at hh
    extract_lets t0 t x y z w at hh
    by_cases hc : (robust && ellOutside a b w.1 w.2) = true
    · rw [if_pos hc] at hh
      exact absurd hh (by simp)
    · rw [if_neg hc] at hh
      rw [← Except.ok.inj hh]
  rcases ellNormal_eq a b h.x h.y ha hb with ⟨h1, h2, h3⟩ | ⟨c, hc, h3, h4⟩
  · rw [h3, Prod.mk.injEq] at hn
    rw [hn.1, hn.2, h1, h2]
    refine ⟨by norm_num, fun h => absurd rfl h, fun _ => rfl⟩
  · rw [h3, Prod.mk.injEq] at hn
    have hne : (h.x, h.y) ≠ (0, 0) := by
      intro he
      rw [Prod.mk.injEq] at he
      rw [he.1, he.2] at h4
      norm_num at h4
    refine ⟨by rw [hn.1, hn.2, neg_sq, neg_sq]; exact h4, fun _ => ⟨⟨c, hc, hn.1, hn.2⟩, ?_⟩, fun he => absurd he hne⟩
    rw [hn.1, hn.2]
    have e : -(c * (h.x / a ^ 2)) * h.x + -(c * (h.y / b ^ 2)) * h.y = -(c * ((h.x / a) ^ 2 + (h.y / b) ^ 2)) := by
      field_simp; ring
    rw [e, neg_neg_iff_pos]
    refine mul_pos hc ?_
    by_cases hx : h.x = 0
    · have hy : h.y ≠ 0 := fun hy => hne (by rw [hx, hy])
      have : 0 < (h.y / b) ^ 2 := by positivity
      have : 0 ≤ (h.x / a) ^ 2 := by positivity
      linarith
    · have : 0 < (h.x / a) ^ 2 := by positivity
      have : 0 ≤ (h.y / b) ^ 2 := by positivity
      linarith

/-- The level along the trajectory as a quadratic. -/
theorem level_quadratic (a b xi yi xo yo t : ℝ) (ha : 0 < a) (hb : 0 < b) :
    a ^ 2 * b ^ 2 * (ellLevel a b (ellMix t xi xo) (ellMix t yi yo) - 1) =
      ellDen a b xi yi xo yo * t ^ 2 + 2 * (b ^ 2 * xi * (xo - xi) + a ^ 2 * yi * (yo - yi)) * t +
      (b ^ 2 * xi ^ 2 + a ^ 2 * yi ^ 2 - a ^ 2 * b ^ 2) := by
  simp only [ellLevel, ellMix, ellDen]
  field_simp
  ring

theorem disc_eq (a b xi yi xo yo : ℝ) : ellDisc a b xi yi xo yo =
    (b ^ 2 * xi * (xo - xi) + a ^ 2 * yi * (yo - yi)) ^ 2 -
      ellDen a b xi yi xo yo * (b ^ 2 * xi ^ 2 + a ^ 2 * yi ^ 2 - a ^ 2 * b ^ 2) := by
  simp only [ellDisc, ellDen]; ring

/-- The computed root: the first exit from the ellipse. -/
theorem ellRoot_spec (a b xi yi xo yo : ℝ) (ha : 0 < a) (hb : 0 < b) (hin : ellLevel a b xi yi < 1)
    (hout : 1 ≤ ellLevel a b xo yo) :
    0 < ellRoot a b xi yi xo yo ∧ ellRoot a b xi yi xo yo ≤ 1 ∧
    ellLevel a b (ellMix (ellRoot a b xi yi xo yo) xi xo) (ellMix (ellRoot a b xi yi xo yo) yi yo) = 1 ∧
    ∀ w, 0 ≤ w → w < ellRoot a b xi yi xo yo → ellLevel a b (ellMix w xi xo) (ellMix w yi yo) < 1 := by
  have hab : 0 < a ^ 2 * b ^ 2 := by positivity
  obtain ⟨A, hA⟩ : ∃ A, A = ellDen a b xi yi xo yo := ⟨_, rfl⟩
  obtain ⟨B, hB⟩ : ∃ B, B = b ^ 2 * xi * (xo - xi) + a ^ 2 * yi * (yo - yi) := ⟨_, rfl⟩
  obtain ⟨C, hC⟩ : ∃ C, C = b ^ 2 * xi ^ 2 + a ^ 2 * yi ^ 2 - a ^ 2 * b ^ 2 := ⟨_, rfl⟩
  have hq : ∀ t, a ^ 2 * b ^ 2 * (ellLevel a b (ellMix t xi xo) (ellMix t yi yo) - 1) = A * t ^ 2 + 2 * B * t + C := by
    intro t; rw [level_quadratic a b xi yi xo yo t ha hb, hA, hB, hC]
  have hdisc : ellDisc a b xi yi xo yo = B ^ 2 - A * C := by rw [disc_eq, hA, hB, hC]
  have hCneg : C < 0 := by
    have h0 := hq 0
    have e0 : ellLevel a b (ellMix 0 xi xo) (ellMix 0 yi yo) = ellLevel a b xi yi := by simp [ellMix]
    rw [e0] at h0
    have : a ^ 2 * b ^ 2 * (ellLevel a b xi yi - 1) < 0 := mul_neg_of_pos_of_neg hab (by linarith)
    rw [h0] at this
    linarith
  have h1 : 0 ≤ A + 2 * B + C := by
    have h0 := hq 1
    have e0 : ellLevel a b (ellMix 1 xi xo) (ellMix 1 yi yo) = ellLevel a b xo yo := by simp [ellMix]
    rw [e0] at h0
    have : 0 ≤ a ^ 2 * b ^ 2 * (ellLevel a b xo yo - 1) := mul_nonneg hab.le (by linarith)
    rw [h0] at this
    linarith
  have hA0 : 0 ≤ A := by
    have : A = (a * (yi - yo)) ^ 2 + (b * (xi - xo)) ^ 2 := by rw [hA]; simp only [ellDen]; ring
    rw [this]; positivity
  have hApos : 0 < A := by
    rcases hA0.eq_or_lt with h | h
    · exfalso
      have e : A = (a * (yi - yo)) ^ 2 + (b * (xi - xo)) ^ 2 := by rw [hA]; simp only [ellDen]; ring
      have z1 : a * (yi - yo) = 0 := by
        have h1 := sq_nonneg (a * (yi - yo))
        have h2 := sq_nonneg (b * (xi - xo))
        exact pow_eq_zero_iff (two_ne_zero) |>.1 (by linarith)
      have z2 : b * (xi - xo) = 0 := by
        have h1 := sq_nonneg (a * (yi - yo))
        have h2 := sq_nonneg (b * (xi - xo))
        exact pow_eq_zero_iff (two_ne_zero) |>.1 (by linarith)
      have y1 : yi = yo := sub_eq_zero.1 ((mul_eq_zero.1 z1).resolve_left ha.ne')
      have x1 : xi = xo := sub_eq_zero.1 ((mul_eq_zero.1 z2).resolve_left hb.ne')
      rw [x1, y1] at hin
      linarith
    · exact h
  have hAC : 0 < -(A * C) := by have := mul_neg_of_pos_of_neg hApos hCneg; linarith
  obtain ⟨S, hS⟩ : ∃ S, S = Real.sqrt (ellDisc a b xi yi xo yo) := ⟨_, rfl⟩
  have hdpos : 0 < ellDisc a b xi yi xo yo := by rw [hdisc]; nlinarith [sq_nonneg B]
  have hS2 : S * S = B ^ 2 - A * C := by rw [hS, Real.mul_self_sqrt hdpos.le, hdisc]
  have hSpos : 0 < S := by rw [hS]; exact Real.sqrt_pos.2 hdpos
  have hSB : |B| < S := by
    rw [← abs_of_pos hSpos]
    exact sq_lt_sq.1 (by nlinarith)
  have hBS := abs_lt.1 hSB
  have hroot : ellRoot a b xi yi xo yo = (-B + S) / A := by
    unfold ellRoot
    rw [if_neg (by rw [not_or]; exact ⟨not_lt.2 hdpos.le, by rw [← hA]; exact hApos.ne'⟩), ← hS, ← hA, hB]
    congr 1
    ring
  obtain ⟨t, ht⟩ : ∃ t, t = ellRoot a b xi yi xo yo := ⟨_, rfl⟩
  rw [← ht] at hroot ⊢
  have htA : A * t = -B + S := by rw [hroot, mul_div_cancel₀ _ hApos.ne']
  have ht0 : 0 < t := by rw [hroot]; exact div_pos (by linarith) hApos
  have hfac : ∀ w, A * (A * w ^ 2 + 2 * B * w + C) = A * (w - t) * (A * w + B + S) := by
    intro w
    have : A * (w - t) = A * w + B - S := by rw [mul_sub, htA]; ring
    rw [this]
    linear_combination hS2
  refine ⟨ht0, ?_, ?_, ?_⟩
  · by_contra hgt
    have hgt := not_le.1 hgt
    have h2 := hfac 1
    have h3 : 0 < A * 1 + B + S := by linarith
    have h4 : A * (1 - t) * (A * 1 + B + S) < 0 :=
      mul_neg_of_neg_of_pos (mul_neg_of_pos_of_neg hApos (by linarith)) h3
    rw [← h2] at h4
    have := mul_nonneg hApos.le h1
    nlinarith
  · have h2 := hfac t
    rw [sub_self, mul_zero, zero_mul] at h2
    have h3 : A * t ^ 2 + 2 * B * t + C = 0 := (mul_eq_zero.1 h2).resolve_left hApos.ne'
    have h4 := hq t
    rw [h3] at h4
    have := (mul_eq_zero.1 h4).resolve_left hab.ne'
    linarith
  · intro w hw0 hwt
    have h2 := hfac w
    have h3 : 0 < A * w + B + S := by have := mul_nonneg hApos.le hw0; linarith
    have h4 : A * (w - t) * (A * w + B + S) < 0 :=
      mul_neg_of_neg_of_pos (mul_neg_of_pos_of_neg hApos (by linarith)) h3
    rw [← h2] at h4
    have h5 : A * w ^ 2 + 2 * B * w + C < 0 := by
      by_contra hc
      have := mul_nonneg hApos.le (not_lt.1 hc)
      linarith
    rw [← hq w] at h5
    by_contra hc
    have := mul_nonneg hab.le (sub_nonneg.2 (not_lt.1 hc))
    linarith

/-- **C49**: for a trajectory from inside to outside, there is a first exit `u` from the ellipse, and the impact is
placed at `resc * u` of the way, or at the start when that fraction is below 1 % or the displacement is negligible
(relative square below 1e-8). The longitudinal coordinate is taken at the same fraction; the correction never acts. -/
theorem C49_first_exit (a b resc : ℝ) (ha : 0 < a) (hb : 0 < b) (h0 : 0 ≤ resc) (h1 : resc < 1) (robust : Bool)
    (p q : ℝ × ℝ × ℝ) (hin : ellOutside a b p.1 p.2.1 = false) (hout : ellOutside a b q.1 q.2.1 = true) :
    ∃ (h : Hit ℝ) (u t : ℝ), ellHit a b resc robust p q = .ok h ∧ 0 < u ∧ u ≤ 1 ∧
      (p.1 + u * (q.1 - p.1)) ^ 2 / a ^ 2 + (p.2.1 + u * (q.2.1 - p.2.1)) ^ 2 / b ^ 2 = 1 ∧
      (∀ w, 0 ≤ w → w < u → (p.1 + w * (q.1 - p.1)) ^ 2 / a ^ 2 + (p.2.1 + w * (q.2.1 - p.2.1)) ^ 2 / b ^ 2 < 1) ∧
      h.x = p.1 + t * (q.1 - p.1) ∧ h.y = p.2.1 + t * (q.2.1 - p.2.1) ∧ h.z = p.2.2 + t * (q.2.2 - p.2.2) ∧
      (t = resc * u ∨ t = 0 ∧ (resc * u < 1 / 100 ∨
        ((p.1 - q.1) ^ 2 + (p.2.1 - q.2.1) ^ 2) / (q.1 ^ 2 + q.2.1 ^ 2) < 1 / 10 ^ 8)) := by
  have hin' : ellLevel a b p.1 p.2.1 < 1 := (C49_is_outside _ _ _ _).1 hin
  have hout' : 1 ≤ ellLevel a b q.1 q.2.1 := of_decide_eq_true hout
  obtain ⟨r0, r1, r2, r3⟩ := ellRoot_spec a b p.1 p.2.1 q.1 q.2.1 ha hb hin' hout'
  obtain ⟨u, hu⟩ : ∃ u, u = ellRoot a b p.1 p.2.1 q.1 q.2.1 := ⟨_, rfl⟩
  rw [← hu] at r0 r1 r2 r3
  obtain ⟨t, ht⟩ : ∃ t, t = ellT0 a b resc p.1 p.2.1 q.1 q.2.1 := ⟨_, rfl⟩
  have hmix : ∀ w vi vo : ℝ, ellMix w vi vo = vi + w * (vo - vi) := by intro w vi vo; simp only [ellMix]; ring
  have htcases : t = resc * u ∨ t = 0 ∧ (resc * u < 1 / 100 ∨
        ((p.1 - q.1) ^ 2 + (p.2.1 - q.2.1) ^ 2) / (q.1 ^ 2 + q.2.1 ^ 2) < 1 / 10 ^ 8) := by
    rw [ht]
    simp only [ellT0, ← hu]
    by_cases c1 : q.1 * q.1 + q.2.1 * q.2.1 ≠ 0 ∧ ((p.1 - q.1) * (p.1 - q.1) + (p.2.1 - q.2.1) * (p.2.1 - q.2.1)) /
        (q.1 * q.1 + q.2.1 * q.2.1) < 1 / 10 ^ 8
    · rw [if_pos c1]
      refine Or.inr ⟨rfl, Or.inr ?_⟩
      have := c1.2
      simpa only [sq] using this
    · rw [if_neg c1]
      by_cases c2 : resc * u < 1 / 100
      · rw [if_pos c2]
        exact Or.inr ⟨rfl, Or.inl c2⟩
      · rw [if_neg c2]
        exact Or.inl rfl
  have htin : ellLevel a b (ellMix t p.1 q.1) (ellMix t p.2.1 q.2.1) < 1 := by
    rcases htcases with h | ⟨h, -⟩
    · rw [h]
      exact r3 _ (mul_nonneg h0 r0.le) (by nlinarith)
    · rw [h]
      exact r3 0 le_rfl r0
  have hno : ellOutside a b (ellMix t p.1 q.1) (ellMix t p.2.1 q.2.1) = false :=
    (C49_is_outside _ _ _ _).2 htin
  have hback : ellBack a b p.1 p.2.1 q.1 q.2.1 10 t = t := by
    rw [ellBack, if_neg (not_lt.2 htin.le)]
  refine ⟨⟨ellMix t p.1 q.1, ellMix t p.2.1 q.2.1, ellMix t p.2.2 q.2.2,
    (ellNormal a b (ellMix t p.1 q.1) (ellMix t p.2.1 q.2.1)).1,
    (ellNormal a b (ellMix t p.1 q.1) (ellMix t p.2.1 q.2.1)).2, 0⟩, u, t, ?_, r0, r1, ?_, ?_, hmix _ _ _, hmix _ _ _,
    hmix _ _ _, htcases⟩
  · unfold ellHit
    simp only [← ht]
    cases robust
    · simp only [Bool.false_and, Bool.false_eq_true, if_false]
    · simp only [if_true, hback, hno, Bool.true_and, Bool.false_eq_true, if_false]
  · have := r2
    simp only [ellLevel, hmix, div_pow] at this
    exact this
  · intro w hw hwu
    have := r3 w hw hwu
    simp only [ellLevel, hmix, div_pow] at this
    exact this

example : ellOutside 2 1 0 0 = false ∧ ellOutside 2 1 3 (1 / 2) = true := by
  constructor
  · rw [C49_is_outside]; norm_num
  · rw [← Bool.not_eq_false, C49_is_outside]; norm_num

/-- C17 for elliptical chambers, without assumptions on the chamber. -/
theorem C17_ellipse (sq : ℝ → ℝ) (c : ImpCfg ℝ) (a b resc : ℝ) (ha : 0 < a) (hb : 0 < b)
    (sey : ℝ → List (Impact ℝ) → Except PyErr (SeyOut ℝ)) (s : MPs ℝ) (hwf : s.WF) (hroom : s.nmp < s.cap)
    (old : List (ℝ × ℝ × ℝ)) (tt : ℝ) (h : ImpHist ℝ) (s' : MPs ℝ) (h' : ImpHist ℝ) (n : ImpCount ℝ)
    (hsey : ∀ imps out, sey s.split imps = .ok out → SeyOk imps out)
    (hold : ∀ o ∈ old, (o.1 / a) ^ 2 + (o.2.1 / b) ^ 2 < 1)
    (hok : impactStep sq c (ellChamber a b resc true) sey s old tt h = .ok (s', h', n)) :
    ∀ p ∈ s'.live, (p .x / a) ^ 2 + (p .y / b) ^ 2 < 1 := by
  intro p hp
  rw [← C49_is_outside]
  refine C17_all_inside sq c (ellChamber a b resc true) sey s hwf hroom old tt h s' h' n hsey
    (fun o ho => (C49_is_outside a b _ _).2 (hold o ho)) ((C49_is_outside a b 0 0).2 (by norm_num)) ?_ hok p hp
  intro o q d _ _ hd
  obtain ⟨h2, hh, hin⟩ := C49_inside a b resc ha hb o q
  have : d = h2 := by
    have e : ellHit a b resc true o q = .ok d := hd
    rw [hh] at e
    exact (Except.ok.inj e).symm
  rw [this]
  exact (C49_is_outside a b _ _).2 hin

/-- C45 for elliptical chambers: photoelectrons are placed strictly inside. -/
theorem C45_photoemission_ellipse (a b resc : ℝ) (ha : 0 < a) (hb : 0 < b) (vel : ℕ → Hit ℝ → ℝ × ℝ × ℝ)
    (ends : ℕ → (ℝ × ℝ) × (ℝ × ℝ)) (kc : ℝ) (mean : Option ℝ) (lam dt u : ℝ) (s s' : MPs ℝ) (h : s.WF)
    (hroom : s.nmp < s.cap) (hr : 0 < s.ref) (hq : 0 ≤ kc * (mean.getD lam) * dt) (hu : 0 ≤ u)
    (hok : photoGenerate (ellChamber a b resc true) vel ends kc mean lam dt u s = .ok s') :
    ∃ new : List (Particle ℝ), s'.live = s.live ++ new ∧
      (new.length : ℤ) = roundedCount (kc * (mean.getD lam) * dt / s.ref) u ∧
      (∀ p ∈ new, p .nel = s.ref ∧ (p .x / a) ^ 2 + (p .y / b) ^ 2 < 1) := by
  obtain ⟨new, h1, h2, h3, -⟩ := C45_photoemission (ellChamber a b resc true) vel ends kc mean lam dt u s s' h hroom hr hq
    hu (fun k q hk => by
      obtain ⟨h2, hh, hin⟩ := C49_inside a b resc ha hb ((ends k).1.1, (ends k).1.2, 0) ((ends k).2.1, (ends k).2.2, 0)
      have e : ellHit a b resc true ((ends k).1.1, (ends k).1.2, 0) ((ends k).2.1, (ends k).2.2, 0) = .ok q := hk
      rw [hh] at e
      rw [← Except.ok.inj e]
      exact (C49_is_outside a b _ _).2 hin) hok
  refine ⟨new, h1, h2, fun p hp => ?_⟩
  obtain ⟨k, hk, rfl⟩ := List.getElem_of_mem hp
  have := h3 k new[k] (List.getElem?_eq_getElem hk)
  exact ⟨this.1, (C49_is_outside a b _ _).1 this.2.2.2.1⟩

end PyECLOUD
