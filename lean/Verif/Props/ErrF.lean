import Verif.Lemmas.ErrF
import Mathlib.Analysis.SpecialFunctions.Complex.Log
import Mathlib.Analysis.Complex.Trigonometric
import Mathlib.Tactic.FieldSimp

/-!
Properties C83 (complex error function) and C84 (Bassetti-Erskine field).
-/

namespace PyECLOUD

open Real

set_option linter.unusedSectionVars false

/-- C83: for every argument the routine returns a value: no index leaves the work arrays, no element is read before
it has been written and no division by zero occurs. -/
theorem C83_no_fault (x y : ℝ) : ∃ w, errf x y = .ok w := by
  obtain ⟨w, hw, -⟩ := errQuadrant_ok |x| |y| (abs_nonneg x) (abs_nonneg y)
  unfold errf
  show ∃ r, (errQuadrant |x| |y| >>= _) = _
  rw [hw]
  show ∃ r, (if y < 0 then _ else _) = Except.ok r
  by_cases h : y < 0
  · rw [if_pos h]; exact ⟨_, rfl⟩
  · rw [if_neg h]; exact ⟨_, rfl⟩

/-- The value of the routine as a function on the complex plane (it always returns, `C83_no_fault`). -/
noncomputable def wOf (z : ℂ) : ℂ :=
  match errf z.re z.im with
  | .ok w => ⟨w.1, w.2⟩
  | .error _ => 0

theorem errf_eq (x y : ℝ) (w : ℝ × ℝ) (h : errQuadrant |x| |y| = .ok w) :
    errf x y = .ok (if y < 0 then
      (2 * exp (|y| * |y| - |x| * |x|) * cos (2 * |x| * |y|) - (if |y| = 0 then exp (-|x| ^ 2) else w.1),
        if 0 < x then -(-2 * exp (|y| * |y| - |x| * |x|) * sin (2 * |x| * |y|) - w.2)
        else -2 * exp (|y| * |y| - |x| * |x|) * sin (2 * |x| * |y|) - w.2)
      else (if |y| = 0 then exp (-|x| ^ 2) else w.1, if x < 0 then -w.2 else w.2)) := by
  unfold errf
  show (errQuadrant |x| |y| >>= _) = _
  rw [h]
  show (if y < 0 then _ else _) = _
  by_cases hy : y < 0
  · rw [if_pos hy, if_pos hy]
  · rw [if_neg hy, if_neg hy]

/-- The real part is even and the imaginary part odd in `x`. -/
theorem errf_neg_x (x y : ℝ) (w : ℝ × ℝ) (h : errf x y = .ok w) : errf (-x) y = .ok (w.1, -w.2) := by
  obtain ⟨q, hq, hq0⟩ := errQuadrant_ok |x| |y| (abs_nonneg x) (abs_nonneg y)
  rw [errf_eq x y q hq] at h
  have hq' : errQuadrant |-x| |y| = .ok q := by rw [abs_neg]; exact hq
  rw [errf_eq (-x) y q hq', abs_neg]
  have e := Except.ok.inj h
  rw [← e]
  congr 1
  rcases lt_trichotomy x 0 with hx | hx | hx
  · by_cases hy : y < 0
    · simp [hy, hx, not_lt.2 hx.le]
    · simp [hy, hx, not_lt.2 hx.le]
  · subst hx
    have h2 : q.2 = 0 := hq0 (by simp)
    by_cases hy : y < 0
    · simp [hy, h2]
    · simp [hy, h2]
  · by_cases hy : y < 0
    · simp [hy, hx, not_lt.2 hx.le]
      ring
    · simp [hy, hx, not_lt.2 hx.le]

theorem errf_neg (x y : ℝ) (w : ℝ × ℝ) (h : errf x y = .ok w) :
    errf (-x) (-y) = .ok (2 * exp (y * y - x * x) * cos (2 * x * y) - w.1,
      -2 * exp (y * y - x * x) * sin (2 * x * y) - w.2) := by
  obtain ⟨q, hq, hq0⟩ := errQuadrant_ok |x| |y| (abs_nonneg x) (abs_nonneg y)
  rw [errf_eq x y q hq] at h
  have hq' : errQuadrant |-x| |-y| = .ok q := by rw [abs_neg, abs_neg]; exact hq
  rw [errf_eq (-x) (-y) q hq', abs_neg, abs_neg]
  have e := Except.ok.inj h
  rw [← e]
  congr 1
  have hcos : cos (2 * |x| * |y|) = cos (2 * x * y) := by
    rw [← cos_abs (2 * x * y)]
    congr 1
    rw [abs_mul, abs_mul]; simp
  have hee : exp (|y| * |y| - |x| * |x|) = exp (y * y - x * x) := by
    rw [abs_mul_abs_self, abs_mul_abs_self]
  rw [hcos, hee]
  rcases lt_trichotomy y 0 with hy | hy | hy
  · have hy0 : y ≠ 0 := hy.ne
    have hay : |y| ≠ 0 := abs_ne_zero.2 hy0
    have hny : ¬ (-y < 0) := by linarith
    rw [if_pos hy, if_neg hny, if_neg hay]
    rcases lt_trichotomy x 0 with hx | hx | hx
    · have h1 : ¬ (0 < x) := by linarith
      have h2 : ¬ (-x < 0) := by linarith
      have h3 : sin (2 * |x| * |y|) = sin (2 * x * y) := by
        rw [abs_of_neg hx, abs_of_neg hy]; congr 1; ring
      simp only [if_neg h1, if_neg h2, h3]
      ext <;> simp
    · subst hx
      have h2 : q.2 = 0 := hq0 (by simp)
      ext <;> simp [h2]
    · have h2 : (-x < 0) := by linarith
      have h3 : sin (2 * |x| * |y|) = -sin (2 * x * y) := by
        rw [abs_of_pos hx, abs_of_neg hy, ← sin_neg]; congr 1; ring
      simp only [if_pos hx, if_pos h2, h3]
      ext
      · simp
      · simp; ring
  · subst hy
    have hp : exp (0 * 0 - x * x) = exp (-|x| ^ 2) := by
      congr 1; rw [sq_abs]; ring
    rw [hp]
    rcases lt_trichotomy x 0 with hx | hx | hx
    · have h1 : ¬ (0 < x) := by linarith
      have h2 : ¬ (-x < 0) := by linarith
      ext
      · simp; ring
      · simp [hx, hx.le]
    · subst hx
      have h2 : q.2 = 0 := hq0 (by simp)
      ext
      · simp; norm_num
      · simp [h2]
    · have h1 : ¬ (x < 0) := by linarith
      ext
      · simp; ring
      · simp [hx, h1]
  · have hy0 : y ≠ 0 := hy.ne'
    have hay : |y| ≠ 0 := abs_ne_zero.2 hy0
    have hny : (-y < 0) := by linarith
    rw [if_neg (not_lt.2 hy.le), if_pos hny, if_neg hay]
    rcases lt_trichotomy x 0 with hx | hx | hx
    · have h1 : 0 < -x := by linarith
      have h3 : sin (2 * |x| * |y|) = -sin (2 * x * y) := by
        rw [abs_of_neg hx, abs_of_pos hy, ← sin_neg]; congr 1; ring
      simp only [if_pos h1, if_pos hx, h3]
      ext
      · simp
      · simp; ring
    · subst hx
      have h2 : q.2 = 0 := hq0 (by simp)
      ext <;> simp [h2]
    · have h1 : ¬ (0 < -x) := by linarith
      have h4 : ¬ (x < 0) := by linarith
      have h3 : sin (2 * |x| * |y|) = sin (2 * x * y) := by
        rw [abs_of_pos hx, abs_of_pos hy]
      simp only [if_neg h1, if_neg h4, h3]

theorem wOf_of (x y : ℝ) (w : ℝ × ℝ) (h : errf x y = .ok w) : wOf ⟨x, y⟩ = ⟨w.1, w.2⟩ := by
  unfold wOf
  show (match errf x y with
    | .ok w => (⟨w.1, w.2⟩ : ℂ)
    | .error _ => 0) = _
  rw [h]

/-- C83: reflection in the imaginary axis: `w(-conj z) = conj (w z)` for every `z`. -/
theorem C83_conj (z : ℂ) : wOf (-(starRingEnd ℂ) z) = (starRingEnd ℂ) (wOf z) := by
  obtain ⟨w, hw⟩ := C83_no_fault z.re z.im
  have h1 : wOf z = ⟨w.1, w.2⟩ := wOf_of z.re z.im w hw
  have h2 : (-(starRingEnd ℂ) z) = ⟨-z.re, z.im⟩ := by
    apply Complex.ext <;> simp
  rw [h2, wOf_of _ _ _ (errf_neg_x _ _ _ hw), h1]
  apply Complex.ext <;> simp

/-- C83: the functional equation `w(-z) = 2 exp(-z²) - w(z)` of the complex error function, for every `z`. -/
theorem C83_reflect (z : ℂ) : wOf (-z) = 2 * Complex.exp (-z ^ 2) - wOf z := by
  obtain ⟨w, hw⟩ := C83_no_fault z.re z.im
  have h1 : wOf z = ⟨w.1, w.2⟩ := wOf_of z.re z.im w hw
  have h2 : -z = ⟨-z.re, -z.im⟩ := by
    apply Complex.ext <;> simp
  have h3 : (-z ^ 2).re = z.im * z.im - z.re * z.re := by
    rw [sq]; simp
  have h4 : (-z ^ 2).im = -(2 * z.re * z.im) := by
    rw [sq]; simp; ring
  rw [h2, wOf_of _ _ _ (errf_neg _ _ _ hw), h1]
  apply Complex.ext
  · simp [Complex.exp_re, h3, h4, Real.cos_neg]; ring
  · simp [Complex.exp_im, h3, h4, Real.sin_neg]; ring

/-- C83: on the real axis the real part is the exact `exp(-x²)`. -/
theorem C83_real_axis (x : ℝ) : (wOf x).re = exp (-x ^ 2) := by
  obtain ⟨q, hq, -⟩ := errQuadrant_ok |x| |0| (abs_nonneg x) (abs_nonneg 0)
  have h := errf_eq x 0 q hq
  have : wOf (x : ℂ) = _ := wOf_of x 0 _ h
  rw [this]
  simp

/-- Non-vacuity: at the origin the value is 1. -/
example : wOf 0 = 1 := by
  have h := C83_conj 0
  have h2 := C83_reflect 0
  simp at h2
  linear_combination h2 / 2

/-! ### C84 -/

/-- What the English says about mirror images: the horizontal component changes sign with `x` and not with `y`. -/
theorem C84_mirror (eps0 x y sx sy : ℝ) (e : ℝ × ℝ) (h : bassErsk eps0 x y sx sy = .ok e) :
    bassErsk eps0 (-x) y sx sy = .ok (-e.1, e.2) ∧ bassErsk eps0 x (-y) sx sy = .ok (e.1, -e.2) := by
  unfold bassErsk at h ⊢
  simp only [abs_neg, Real.sign_neg] at h ⊢
  by_cases hc : sy < sx
  · rw [if_pos hc] at h ⊢
    cases hb : bassHalf eps0 |x| |y| sx sy with
    | error k => rw [hb] at h; cases h
    | ok b =>
      rw [hb] at h
      have h' : (b.1 * Real.sign x, b.2 * Real.sign y) = e := Except.ok.inj h
      rw [← h']
      constructor
      · show Except.ok (b.1 * -Real.sign x, b.2 * Real.sign y) = _
        rw [mul_neg]
      · rw [if_pos hc]
        show Except.ok (b.1 * Real.sign x, b.2 * -Real.sign y) = _
        rw [mul_neg]
  · rw [if_neg hc] at h ⊢
    cases hb : bassHalf eps0 |y| |x| sy sx with
    | error k => rw [hb] at h; cases h
    | ok b =>
      rw [hb] at h
      have h' : (b.2 * Real.sign x, b.1 * Real.sign y) = e := Except.ok.inj h
      rw [← h']
      constructor
      · show Except.ok (b.2 * -Real.sign x, b.1 * Real.sign y) = _
        rw [mul_neg]
      · rw [if_neg hc]
        show Except.ok (b.2 * Real.sign x, b.1 * -Real.sign y) = _
        rw [mul_neg]

/-- C84: exchanging the two planes (position and size) exchanges the components. -/
theorem C84_exchange (eps0 x y sx sy : ℝ) (e : ℝ × ℝ) (hne : sx ≠ sy) (h : bassErsk eps0 x y sx sy = .ok e) :
    bassErsk eps0 y x sy sx = .ok (e.2, e.1) := by
  unfold bassErsk at h ⊢
  rcases lt_or_gt_of_ne hne with hc | hc
  · rw [if_neg (not_lt.2 hc.le)] at h
    simp only [if_pos hc]
    cases hb : bassHalf eps0 |y| |x| sy sx with
    | error k => rw [hb] at h; cases h
    | ok b =>
      rw [hb] at h
      have h' : (b.2 * Real.sign x, b.1 * Real.sign y) = e := Except.ok.inj h
      rw [← h']
      rfl
  · simp only [if_pos hc] at h
    rw [if_neg (not_lt.2 hc.le)]
    cases hb : bassHalf eps0 |x| |y| sx sy with
    | error k => rw [hb] at h; cases h
    | ok b =>
      rw [hb] at h
      have h' : (b.1 * Real.sign x, b.2 * Real.sign y) = e := Except.ok.inj h
      rw [← h']
      rfl

theorem bassHalf_ok (eps0 u v su sv : ℝ) (hv : 0 < sv) (huv : sv < su) :
    ∃ e, bassHalf eps0 u v su sv = .ok e ∧ 0 ≤ e.1 ∧ 0 ≤ e.2 := by
  unfold bassHalf
  have hs : √(2 * (su * su - sv * sv)) ≠ 0 := by
    refine (Real.sqrt_pos.2 ?_).ne'
    have : sv * sv < su * su := mul_self_lt_mul_self hv.le huv
    linarith
  rw [if_neg hs]
  obtain ⟨w1, h1⟩ := C83_no_fault (u / √(2 * (su * su - sv * sv))) (v / √(2 * (su * su - sv * sv)))
  obtain ⟨w2, h2⟩ := C83_no_fault (sv / su * u / √(2 * (su * su - sv * sv))) (su / sv * v / √(2 * (su * su - sv * sv)))
  rw [h1, h2]
  exact ⟨_, rfl, abs_nonneg _, abs_nonneg _⟩

/-- C84 (partial): for beams of unequal sizes the field exists everywhere and points away from the beam axis in
each plane. -/
theorem C84_outward_partial (eps0 x y sx sy : ℝ) (hx : 0 < sx) (hy : 0 < sy) (hne : sx ≠ sy) :
    ∃ e, bassErsk eps0 x y sx sy = .ok e ∧ 0 ≤ x * e.1 ∧ 0 ≤ y * e.2 ∧ (x = 0 → e.1 = 0) ∧ (y = 0 → e.2 = 0) := by
  have key : ∀ a s : ℝ, 0 ≤ a → 0 ≤ s * (a * Real.sign s) := by
    intro a s ha
    have : s * (a * Real.sign s) = a * (Real.sign s * s) := by ring
    rw [this]
    rcases lt_trichotomy s 0 with h | h | h
    · rw [Real.sign_of_neg h]; nlinarith
    · simp [h]
    · rw [Real.sign_of_pos h]; nlinarith
  unfold bassErsk
  rcases lt_or_gt_of_ne hne with hc | hc
  · rw [if_neg (not_lt.2 hc.le)]
    obtain ⟨b, hb, h1, h2⟩ := bassHalf_ok eps0 |y| |x| sy sx hx hc
    rw [hb]
    exact ⟨_, rfl, key _ _ h2, key _ _ h1, fun h => by simp [h], fun h => by simp [h]⟩
  · simp only [if_pos hc]
    obtain ⟨b, hb, h1, h2⟩ := bassHalf_ok eps0 |x| |y| sx sy hy hc
    rw [hb]
    exact ⟨_, rfl, key _ _ h1, key _ _ h2, fun h => by simp [h], fun h => by simp [h]⟩

/-- C84 fails for round beams: no position gets a field. -/
theorem C84_round_violated (eps0 x y s : ℝ) : bassErsk eps0 x y s s = .error .nan := by
  unfold bassErsk bassHalf
  simp
  rfl

theorem bassHalf_scale (eps0 u v su sv k : ℝ) (hk : 0 < k) (e : ℝ × ℝ) (h : bassHalf eps0 u v su sv = .ok e) :
    bassHalf eps0 (k * u) (k * v) (k * su) (k * sv) = .ok (e.1 / k, e.2 / k) := by
  unfold bassHalf at h ⊢
  have hs : √(2 * (k * su * (k * su) - k * sv * (k * sv))) = k * √(2 * (su * su - sv * sv)) := by
    rw [show 2 * (k * su * (k * su) - k * sv * (k * sv)) = k ^ 2 * (2 * (su * su - sv * sv)) by ring,
      Real.sqrt_mul (by positivity), Real.sqrt_sq hk.le]
  rw [hs]
  set s := √(2 * (su * su - sv * sv)) with hsd
  by_cases h0 : s = 0
  · simp only [if_pos h0] at h; cases h
  · simp only [if_neg h0] at h
    have h0' : ¬ (k * s = 0) := mul_ne_zero hk.ne' h0
    simp only [if_neg h0']
    have e1 : k * u / (k * s) = u / s := by rw [mul_div_mul_left _ _ hk.ne']
    have e2 : k * v / (k * s) = v / s := by rw [mul_div_mul_left _ _ hk.ne']
    have e3 : k * sv / (k * su) * (k * u) / (k * s) = sv / su * u / s := by
      rw [mul_div_mul_left _ _ hk.ne', ← mul_assoc, mul_comm (sv / su) k, mul_assoc, mul_div_mul_left _ _ hk.ne']
    have e4 : k * su / (k * sv) * (k * v) / (k * s) = su / sv * v / s := by
      rw [mul_div_mul_left _ _ hk.ne', ← mul_assoc, mul_comm (su / sv) k, mul_assoc, mul_div_mul_left _ _ hk.ne']
    have e5 : -(k * u) * (k * u) / (2 * (k * su) * (k * su)) = -u * u / (2 * su * su) := by
      rw [show -(k * u) * (k * u) = k ^ 2 * (-u * u) by ring, show 2 * (k * su) * (k * su) = k ^ 2 * (2 * su * su) by ring,
        mul_div_mul_left _ _ (by positivity)]
    have e6 : k * v * (k * v) / (2 * (k * sv) * (k * sv)) = v * v / (2 * sv * sv) := by
      rw [show k * v * (k * v) = k ^ 2 * (v * v) by ring, show 2 * (k * sv) * (k * sv) = k ^ 2 * (2 * sv * sv) by ring,
        mul_div_mul_left _ _ (by positivity)]
    rw [e1, e2, e3, e4, e5, e6]
    obtain ⟨w1, h1⟩ := C83_no_fault (u / s) (v / s)
    obtain ⟨w2, h2⟩ := C83_no_fault (sv / su * u / s) (su / sv * v / s)
    rw [h1, h2] at h ⊢
    have h' := Except.ok.inj h
    rw [← h']
    show Except.ok _ = _
    have e7 : 1 / (2 * eps0 * √π * (k * s)) = 1 / (2 * eps0 * √π * s) / k := by
      rw [div_div]; congr 1; ring
    congr 1
    ext
    · show |_| = |_| / k
      rw [e7, ← abs_of_pos hk, ← abs_div, abs_of_pos hk]
      congr 1; ring
    · show |_| = |_| / k
      rw [e7, ← abs_of_pos hk, ← abs_div, abs_of_pos hk]
      congr 1; ring

/-- C84: magnifying the picture (position and beam sizes) by `k` divides the field by `k`, as for any
two-dimensional electrostatic field of a fixed line charge. -/
theorem C84_scale (eps0 x y sx sy k : ℝ) (hk : 0 < k) (e : ℝ × ℝ) (h : bassErsk eps0 x y sx sy = .ok e) :
    bassErsk eps0 (k * x) (k * y) (k * sx) (k * sy) = .ok (e.1 / k, e.2 / k) := by
  have hsg : ∀ a : ℝ, Real.sign (k * a) = Real.sign a := fun a => by
    rcases lt_trichotomy a 0 with h | h | h
    · rw [Real.sign_of_neg h, Real.sign_of_neg (mul_neg_of_pos_of_neg hk h)]
    · simp [h]
    · rw [Real.sign_of_pos h, Real.sign_of_pos (mul_pos hk h)]
  unfold bassErsk at h ⊢
  simp only [abs_mul, abs_of_pos hk, hsg]
  by_cases hc : sy < sx
  · have hc' : k * sy < k * sx := by rwa [mul_lt_mul_iff_right₀ hk]
    simp only [if_pos hc] at h
    simp only [if_pos hc']
    cases hb : bassHalf eps0 |x| |y| sx sy with
    | error j => rw [hb] at h; cases h
    | ok b =>
      rw [hb] at h
      have h' : (b.1 * Real.sign x, b.2 * Real.sign y) = e := Except.ok.inj h
      rw [bassHalf_scale _ _ _ _ _ k hk b hb, ← h']
      show Except.ok (b.1 / k * Real.sign x, b.2 / k * Real.sign y) = _
      congr 1
      ext <;> simp <;> ring
  · have hc' : ¬ (k * sy < k * sx) := by rwa [mul_lt_mul_iff_right₀ hk]
    rw [if_neg hc] at h
    rw [if_neg hc']
    cases hb : bassHalf eps0 |y| |x| sy sx with
    | error j => rw [hb] at h; cases h
    | ok b =>
      rw [hb] at h
      have h' : (b.2 * Real.sign x, b.1 * Real.sign y) = e := Except.ok.inj h
      rw [bassHalf_scale _ _ _ _ _ k hk b hb, ← h']
      show Except.ok (b.2 / k * Real.sign x, b.1 / k * Real.sign y) = _
      congr 1
      ext <;> simp <;> ring

/-- Non-vacuity: a flat beam has a field at every point. -/
example : ∃ e, bassErsk 1 (1 / 3) (-2) 2 1 = .ok e ∧ 0 ≤ e.1 ∧ e.2 ≤ 0 := by
  obtain ⟨e, h, h1, h2, -, -⟩ := C84_outward_partial 1 (1 / 3) (-2) 2 1 (by norm_num) (by norm_num) (by norm_num)
  exact ⟨e, h, by linarith, by linarith⟩

end PyECLOUD
