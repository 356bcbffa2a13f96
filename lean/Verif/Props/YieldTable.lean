import Verif.Props.Yield
import Verif.Spec.YieldTable
import Mathlib.Analysis.Calculus.MeanValue
import Mathlib.Analysis.SpecialFunctions.Pow.Deriv
import Mathlib.Analysis.Complex.ExponentialBounds

/-!
# A surface given by a table of the analytic yield is that surface, at every angle (C182)
-/

set_option linter.unusedSectionVars false

namespace PyECLOUD

open Real

/-- The yield curve in units of its maximum rises or falls by at most `s / (s - 1)` per unit. -/
theorem curve_lipschitz (s : ℝ) (h1 : 1 < s) (h3 : s ≤ 3) (a b : ℝ) (ha : 0 ≤ a) (hb : 0 ≤ b) :
    |s * b / (s - 1 + b ^ s) - s * a / (s - 1 + a ^ s)| ≤ s / (s - 1) * |b - a| := by
  have hs : 0 < s - 1 := by linarith
  have key := Convex.norm_image_sub_le_of_norm_hasDerivWithin_le (f := fun x : ℝ => s * x / (s - 1 + x ^ s))
    (f' := fun x : ℝ => (s * 1 * (s - 1 + x ^ s) - s * x * (s * x ^ (s - 1))) / (s - 1 + x ^ s) ^ 2)
    (s := Set.Ici (0 : ℝ)) (C := s / (s - 1)) ?_ ?_ (convex_Ici 0) ha hb
  · simpa [Real.norm_eq_abs] using key
  · intro x hx
    have hx : 0 ≤ x := hx
    have hp : 0 ≤ x ^ s := rpow_nonneg hx s
    have hd : HasDerivAt (fun x : ℝ => s - 1 + x ^ s) (s * x ^ (s - 1)) x :=
      (Real.hasDerivAt_rpow_const (Or.inr h1.le)).const_add (s - 1)
    exact (((hasDerivAt_id x).const_mul s).div hd (by positivity)).hasDerivWithinAt
  · intro x hx
    have hx : 0 ≤ x := hx
    have hp : 0 ≤ x ^ s := rpow_nonneg hx s
    have hxs : x * x ^ (s - 1) = x ^ s := by
      rcases hx.eq_or_lt with h | h
      · rw [← h, zero_mul, zero_rpow (by linarith)]
      · rw [rpow_sub_one h.ne']
        field_simp
    have he : s * 1 * (s - 1 + x ^ s) - s * x * (s * x ^ (s - 1)) = s * (s - 1) * (1 - x ^ s) := by
      linear_combination (-(s * s)) * hxs
    rw [he, Real.norm_eq_abs, abs_div, abs_mul, abs_of_pos (by positivity : 0 < s * (s - 1)), abs_of_nonneg (sq_nonneg (s - 1 + x ^ s)),
      div_le_div_iff₀ (by positivity) hs]
    generalize x ^ s = y at hp ⊢
    have hy : (s - 1) ^ 2 * |1 - y| ≤ (s - 1 + y) ^ 2 := by
      rcases abs_cases (1 - y) with ⟨h, -⟩ | ⟨h, -⟩ <;> rw [h]
      · nlinarith [mul_nonneg hs.le hp, sq_nonneg y, mul_nonneg (sq_nonneg (s - 1)) hp]
      · nlinarith [mul_nonneg hs.le hp, sq_nonneg y, sq_nonneg (s - 1), mul_nonneg (mul_nonneg hs.le hp) (by linarith : 0 ≤ 3 - s)]
    have := mul_le_mul_of_nonneg_left hy (by linarith : 0 ≤ s)
    nlinarith

/-- The true yield at normal incidence rises or falls by at most `del_max s / ((s - 1) Emax)` per eV. -/
theorem yieldTrue_lipschitz (p : YieldPar) (hE : 0 < p.eMax) (hd : 0 ≤ p.delMax) (h1 : 1 < p.s) (h3 : p.s ≤ 3) (a b : ℝ) (ha : 0 ≤ a)
    (hb : 0 ≤ b) : |yieldTrue p b 1 - yieldTrue p a 1| ≤ p.delMax * p.s / ((p.s - 1) * p.eMax) * |b - a| := by
  have hs : 0 < p.s - 1 := by linarith
  have h := curve_lipschitz p.s h1 h3 (a / p.eMax) (b / p.eMax) (by positivity) (by positivity)
  have e : ∀ x, yieldTrue p x 1 = p.delMax * (p.s * (x / p.eMax) / (p.s - 1 + (x / p.eMax) ^ p.s)) := by
    intro x
    unfold yieldTrue
    simp [mul_div_assoc]
  rw [e, e, ← mul_sub, abs_mul, abs_of_nonneg hd]
  refine le_trans (mul_le_mul_of_nonneg_left h hd) (le_of_eq ?_)
  rw [← sub_div, abs_div, abs_of_pos hE]
  field_simp

theorem sqrt_add_le_both (x y : ℝ) (hx : 0 ≤ x) (hy : 0 ≤ y) : √(x + y) ≤ √x + √y := by
  have h1 := sqrt_nonneg x
  have h2 := sqrt_nonneg y
  rw [sqrt_le_left (by positivity)]
  nlinarith [sq_sqrt hx, sq_sqrt hy]

/-- The elastic yield changes by at most `4 R0 √(d / E0)` over `d` eV. -/
theorem yieldRefl_modulus (p : YieldPar) (h0 : 0 < p.e0) (hr : 0 ≤ p.r0) (a b : ℝ) (ha : 0 ≤ a) (hab : a ≤ b) :
    |yieldRefl p b - yieldRefl p a| ≤ 4 * p.r0 * √((b - a) / p.e0) := by
  have hb : 0 ≤ b := ha.trans hab
  have hfrac : ∀ x, 0 ≤ x → (√x - √(x + p.e0)) / (√x + √(x + p.e0)) = -((√(x + p.e0) - √x) ^ 2 / p.e0) := by
    intro x hx
    have p1 : 0 < √(x + p.e0) := sqrt_pos.2 (by linarith)
    have p0 := sqrt_nonneg x
    have q0 := sq_sqrt hx
    have q1 := sq_sqrt (by linarith : 0 ≤ x + p.e0)
    rw [neg_div', div_eq_div_iff (by positivity) h0.ne']
    have : p.e0 = (√(x + p.e0) - √x) * (√x + √(x + p.e0)) := by nlinarith
    linear_combination (√x - √(x + p.e0)) * this
  have hu : ∀ x, 0 ≤ x → 0 ≤ √(x + p.e0) - √x ∧ √(x + p.e0) - √x ≤ √p.e0 := by
    intro x hx
    exact ⟨sub_nonneg.2 (sqrt_le_sqrt (by linarith)), by linarith [sqrt_add_le_both _ _ hx h0.le]⟩
  obtain ⟨ua0, ua1⟩ := hu a ha
  obtain ⟨ub0, ub1⟩ := hu b hb
  have sE := sq_sqrt h0.le
  have pE : 0 < √p.e0 := sqrt_pos.2 h0
  have hdiff : |(√(b + p.e0) - √b) - (√(a + p.e0) - √a)| ≤ √(b - a) := by
    have k1 : √b ≤ √a + √(b - a) := by
      have := sqrt_add_le_both _ _ ha (by linarith : 0 ≤ b - a)
      rwa [add_sub_cancel] at this
    have k2 : √(b + p.e0) ≤ √(a + p.e0) + √(b - a) := by
      have := sqrt_add_le_both _ _ (by linarith : 0 ≤ a + p.e0) (by linarith : 0 ≤ b - a)
      rwa [show a + p.e0 + (b - a) = b + p.e0 by ring] at this
    have k3 : √a ≤ √b := sqrt_le_sqrt hab
    have k4 : √(a + p.e0) ≤ √(b + p.e0) := sqrt_le_sqrt (by linarith)
    rw [abs_le]
    constructor <;> linarith
  unfold yieldRefl
  rw [hfrac a ha, hfrac b hb, ← mul_sub, abs_mul, abs_of_nonneg hr, show 4 * p.r0 * √((b - a) / p.e0) = p.r0 * (4 * √((b - a) / p.e0)) by ring]
  refine mul_le_mul_of_nonneg_left ?_ hr
  rw [sqrt_div (by linarith)]
  generalize √(b + p.e0) - √b = u at *
  generalize √(a + p.e0) - √a = v at *
  generalize √(b - a) = w at *
  generalize √p.e0 = z at *
  have e1 : (-(u ^ 2 / p.e0)) ^ 2 - (-(v ^ 2 / p.e0)) ^ 2 = (u - v) * ((u + v) * (u ^ 2 + v ^ 2)) / z ^ 4 := by
    rw [← sE]
    field_simp
    ring
  have hsum : (u + v) * (u ^ 2 + v ^ 2) ≤ 4 * z ^ 3 := by
    have a1 : u ^ 2 ≤ z ^ 2 := pow_le_pow_left₀ ub0 ub1 2
    have a2 : v ^ 2 ≤ z ^ 2 := pow_le_pow_left₀ ua0 ua1 2
    have := mul_le_mul (add_le_add ub1 ua1) (add_le_add a1 a2) (by positivity) (by positivity)
    linarith [this, (by ring : (z + z) * (z ^ 2 + z ^ 2) = 4 * z ^ 3)]
  rw [e1, abs_div, abs_mul, abs_of_nonneg (by positivity : 0 ≤ (u + v) * (u ^ 2 + v ^ 2)), abs_of_pos (by positivity : 0 < z ^ 4),
    div_le_iff₀ (by positivity)]
  calc |u - v| * ((u + v) * (u ^ 2 + v ^ 2)) ≤ w * (4 * z ^ 3) :=
        mul_le_mul hdiff hsum (by positivity) ((abs_nonneg _).trans hdiff)
    _ = 4 * (w / z) * z ^ 4 := by field_simp

/-- A column that tabulates a curve gives the curve, up to how much the curve changes over one step. -/
theorem tabValue_near (d : ℝ) (n : ℕ) (hn : 2 ≤ n) (hd : 0 < d) (hr : round3 d = d) (tr el : List ℝ)
    (cT gT cE gE : ℝ) (scale shift : Bool) (t : SeyTable ℝ) (ht : seyTableOf (tabEnergies 0 d n) tr el cT gT cE gE scale shift = .ok t)
    (col : List ℝ) (c g eps del : ℝ) (f : ℝ → ℝ) (hcol : Tabulates eps 0 d n f col)
    (hf : ∀ a b, 0 ≤ a → a ≤ b → b - a ≤ d → |f b - f a| ≤ del) (e : ℝ) (h1 : 0 ≤ e) (h2 : e ≤ ((n : ℝ) - 1) * d) :
    ∃ v, tabValue t col c g e = .ok v ∧ |v - f e| ≤ eps + del := by
  obtain ⟨-, -, c3, -⟩ := C29_interpolation_partial 0 d n hn hd hr tr el cT gT cE gE scale shift t ht col hcol.1 c g
  obtain ⟨k, a, b, v, ha, hb, k1, k2, hv, v1, v2⟩ := c3 e h1 (by linarith)
  refine ⟨v, hv, ?_⟩
  have na := hcol.2 k a ha
  have nb := hcol.2 (k + 1) b hb
  push_cast at nb
  have fa := hf (0 + (k : ℝ) * d) e (by positivity) k1 (by nlinarith)
  have fb := hf e (0 + ((k : ℝ) + 1) * d) h1 k2 (by nlinarith)
  rw [abs_le] at na nb fa fb ⊢
  rcases min_le_iff.1 v1 with m1 | m1 <;> rcases le_max_iff.1 v2 with m2 | m2 <;> constructor <;> linarith

/-- removing values below 1e-10 changes a value by at most the distance to the non-negative number it stands for, plus 1e-10 -/
theorem tabClip_near (v x del : ℝ) (hx : 0 ≤ x) (h : |v - x| ≤ del) : |tabClip v - x| ≤ del + 1 / 10000000000 := by
  unfold tabClip
  rw [abs_le] at h ⊢
  split <;> constructor <;> linarith

/-- the angle enters the analytic yield as a factor and as a change of the energy -/
theorem yieldTrue_angle (p : YieldPar) (e cth : ℝ) (hc : cth ≤ 1) :
    yieldTrue p e cth = (if p.scale then exp (1 / 2 * (1 - cth)) else 1) *
      yieldTrue p (if p.shift then e / (1 + 7 / 10 * (1 - cth)) else e) 1 := by
  have h : (0 : ℝ) < 1 + 7 / 10 * (1 - cth) := by linarith
  unfold yieldTrue
  have e1 : (0.5 : ℝ) = 1 / 2 := by norm_num
  have e2 : (0.7 : ℝ) = 7 / 10 := by norm_num
  rw [e1, e2]
  have e3 : e / (p.eMax * (1 + 7 / 10 * (1 - cth))) = e / (1 + 7 / 10 * (1 - cth)) / p.eMax := by rw [mul_comm, div_div]
  cases p.scale <;> cases p.shift <;> simp [e3] <;> ring

theorem round3_fifth : round3 (1 / 5 : ℝ) = 1 / 5 := by
  unfold round3
  have h : (1 / 5 : ℝ) * 1000 = ((200 : ℤ) : ℝ) := by norm_num
  rw [h]
  unfold roundHE
  simp
  norm_num

theorem tab_exact (n : ℕ) (f : ℝ → ℝ) (d : ℝ) {k : ℕ} {a : ℝ} (h : ((List.range n).map (fun k : ℕ => f (0 + (k : ℝ) * d)))[k]? = some a) :
    |a - f (0 + (k : ℝ) * d)| ≤ 0 := by
  rw [List.getElem?_map] at h
  cases hk : (List.range n)[k]? with
  | none => simp [hk] at h
  | some j =>
    have hj' : k = j := by
      obtain ⟨hlt, hj⟩ := List.getElem?_eq_some_iff.1 hk
      rw [List.getElem_range] at hj
      exact hj
    rw [hk, Option.map_some, Option.some.injEq] at h
    rw [← h, ← hj', sub_self, abs_zero]

/-- C182: a surface given by a table of the true and elastic yields of the analytic model at normal incidence, with the same settings for
the angle, emits what the analytic model emits, for every energy in the table and for every angle. The yields differ by
no more than the error of the entries plus what the curve changes over one step of the table, and 1e-10. -/
theorem C182_table (p : YieldPar) (hp : p.Valid) (h3 : p.s ≤ 3) (d : ℝ) (n : ℕ) (hn : 2 ≤ n) (hd : 0 < d) (hr : round3 d = d)
    (tr el : List ℝ) (eps : ℝ) (hT : Tabulates eps 0 d n (fun e => (yieldECLOUD p e 1).1 * (1 - (yieldECLOUD p e 1).2)) tr)
    (hE : Tabulates eps 0 d n (fun e => (yieldECLOUD p e 1).1 * (yieldECLOUD p e 1).2) el) (cT gT cE gE : ℝ) (t : SeyTable ℝ)
    (ht : seyTableOf (tabEnergies 0 d n) tr el cT gT cE gE p.scale p.shift = .ok t) (e cth : ℝ) (he : 0 ≤ e)
    (hmax : e ≤ ((n : ℝ) - 1) * d) (hc : cth ≤ 1) :
    ∃ r, seyValues exp t e cth = .ok r ∧
      |r.1 * (1 - r.2) - (yieldECLOUD p e cth).1 * (1 - (yieldECLOUD p e cth).2)| ≤
        (if p.scale then exp (1 / 2 * (1 - cth)) else 1) * (eps + p.delMax * p.s / ((p.s - 1) * p.eMax) * d) + 1 / 10 ^ 10 ∧
      |r.1 * r.2 - (yieldECLOUD p e cth).1 * (yieldECLOUD p e cth).2| ≤ eps + 4 * p.r0 * √(d / p.e0) + 1 / 10 ^ 10 := by
  have hs := hp.s
  have hsplit : ∀ (x c : ℝ), 0 ≤ x → c ≤ 1 → (yieldECLOUD p x c).1 * (1 - (yieldECLOUD p x c).2) = yieldTrue p x c ∧
      (yieldECLOUD p x c).1 * (yieldECLOUD p x c).2 = yieldRefl p x := by
    intro x c hx hc
    obtain ⟨-, -, -, q1, q2⟩ := C23_yield_fraction p hp x c hx hc
    exact ⟨by rw [mul_comm]; exact q2, by rw [mul_comm]; exact q1⟩
  have hT' : Tabulates eps 0 d n (fun x => yieldTrue p x 1) tr := ⟨hT.1, fun k a ha => by
    have := hT.2 k a ha
    dsimp only at this ⊢
    rwa [(hsplit _ 1 (by positivity) le_rfl).1] at this⟩
  have hE' : Tabulates eps 0 d n (fun x => yieldRefl p x) el := ⟨hE.1, fun k a ha => by
    have := hE.2 k a ha
    dsimp only at this ⊢
    rwa [(hsplit _ 1 (by positivity) le_rfl).2] at this⟩
  set L := p.delMax * p.s / ((p.s - 1) * p.eMax) with hL
  have hL0 : 0 ≤ L := div_nonneg (mul_nonneg hp.delMax.le (by linarith)) (mul_nonneg (by linarith) hp.eMax.le)
  have near := fun x => tabValue_near d n hn hd hr tr el cT gT cE gE p.scale p.shift t ht tr cT gT eps (L * d) (fun x => yieldTrue p x 1) hT'
    (fun a b ha hab hle => (yieldTrue_lipschitz p hp.eMax hp.delMax.le hs h3 a b ha (ha.trans hab)).trans
      (mul_le_mul_of_nonneg_left (by rw [abs_of_nonneg (by linarith)]; exact hle) hL0)) x
  obtain ⟨vE, hvE, nE⟩ := tabValue_near d n hn hd hr tr el cT gT cE gE p.scale p.shift t ht el cE gE eps (4 * p.r0 * √(d / p.e0))
    (fun x => yieldRefl p x) hE' (fun a b ha hab hle => (yieldRefl_modulus p hp.e0 hp.r0 a b ha hab).trans
      (mul_le_mul_of_nonneg_left (sqrt_le_sqrt (div_le_div_of_nonneg_right hle hp.e0.le)) (mul_nonneg (by norm_num) hp.r0))) e he hmax
  obtain ⟨v0, hv0, -⟩ := near e he hmax
  have hden : (1 : ℝ) ≤ 1 + 7 / 10 * (1 - cth) := by linarith
  have hx0 : 0 ≤ (if p.shift then e / (1 + 7 / 10 * (1 - cth)) else e) := by
    split
    · exact div_nonneg he (by linarith)
    · exact he
  have hxe : (if p.shift then e / (1 + 7 / 10 * (1 - cth)) else e) ≤ e := by
    split
    · exact div_le_self he hden
    · exact le_rfl
  obtain ⟨v1, hv1, n1⟩ := near _ hx0 (hxe.trans hmax)
  have htab : t.true' = tr ∧ t.elast = el ∧ t.constTrue = cT ∧ t.gradTrue = gT ∧ t.constElast = cE ∧ t.gradElast = gE ∧ t.scale = p.scale ∧
      t.shift = p.shift := by
    rw [seyTableOf_grid 0 d n hn hd hr] at ht
    cases ht
    exact ⟨rfl, rfl, rfl, rfl, rfl, rfl, rfl, rfl⟩
  obtain ⟨t1, t2, t3, t4, t5, t6, t7, t8⟩ := htab
  have hex : ∃ r, seyValues exp t e cth = .ok r := by
    unfold seyValues
    rw [t1, t2, t3, t4, t5, t6, t7, t8, hv0, hvE]
    cases hsh : p.shift
    · exact ⟨_, rfl⟩
    · rw [hsh] at hv1
      simp only [if_true] at hv1 ⊢
      rw [hv1]
      exact ⟨_, rfl⟩
  obtain ⟨r, hr'⟩ := hex
  obtain ⟨-, -, -, a, b, ha, hb, r1, r2⟩ := C29_values exp t e cth r hr'
  rw [t1, t3, t4, t8, hv1] at ha
  rw [t2, t5, t6, hvE] at hb
  cases ha
  cases hb
  rw [t7] at r1
  obtain ⟨s1, s2⟩ := hsplit e cth he hc
  refine ⟨r, hr', ?_, ?_⟩
  · rw [s1, yieldTrue_angle p e cth hc, show r.1 * (1 - r.2) = r.1 - r.2 * r.1 by ring, r2, r1, add_sub_cancel_right]
    have hF : 0 ≤ (if p.scale then exp (1 / 2 * (1 - cth)) else 1) := by
      split
      · exact (exp_pos _).le
      · exact zero_le_one
    have hx := (yieldTrue_bounds p hp _ 1 hx0 le_rfl).1
    have := tabClip_near (v1 * (if p.scale then exp (1 / 2 * (1 - cth)) else 1))
      ((if p.scale then exp (1 / 2 * (1 - cth)) else 1) * yieldTrue p (if p.shift then e / (1 + 7 / 10 * (1 - cth)) else e) 1)
      ((if p.scale then exp (1 / 2 * (1 - cth)) else 1) * (eps + L * d)) (mul_nonneg hF hx) (by
        rw [mul_comm v1, ← mul_sub, abs_mul, abs_of_nonneg hF]
        exact mul_le_mul_of_nonneg_left n1 hF)
    unfold tabClip at this
    refine this.trans (le_of_eq ?_)
    norm_num
  · rw [s2, mul_comm r.1, r2]
    have := tabClip_near vE (yieldRefl p e) _ (yieldRefl_bounds p hp e he).1 nE
    unfold tabClip at this
    refine this.trans (le_of_eq ?_)
    norm_num

/-- C182: the difference can be made as small as wanted (down to the 1e-10 below which yields are removed) by a fine enough table: there is
a step below which every table is good enough at every energy in it and at every angle. -/
theorem C182_fine_tables (p : YieldPar) (hp : p.Valid) (h3 : p.s ≤ 3) (tol : ℝ) (htol : 0 < tol) :
    ∃ fine > 0, ∀ (d : ℝ) (n : ℕ) (tr el : List ℝ) (eps cT gT cE gE : ℝ) (t : SeyTable ℝ) (e cth : ℝ), 2 ≤ n → 0 < d → d ≤ fine → eps ≤ fine →
      round3 d = d → Tabulates eps 0 d n (fun e => (yieldECLOUD p e 1).1 * (1 - (yieldECLOUD p e 1).2)) tr →
      Tabulates eps 0 d n (fun e => (yieldECLOUD p e 1).1 * (yieldECLOUD p e 1).2) el →
      seyTableOf (tabEnergies 0 d n) tr el cT gT cE gE p.scale p.shift = .ok t → 0 ≤ e → e ≤ ((n : ℝ) - 1) * d → 0 ≤ cth → cth ≤ 1 →
      ∃ r, seyValues exp t e cth = .ok r ∧
        |r.1 * (1 - r.2) - (yieldECLOUD p e cth).1 * (1 - (yieldECLOUD p e cth).2)| ≤ tol + 1 / 10 ^ 10 ∧
        |r.1 * r.2 - (yieldECLOUD p e cth).1 * (yieldECLOUD p e cth).2| ≤ tol + 1 / 10 ^ 10 := by
  have hs := hp.s
  have hr0 := hp.r0
  have he0 := hp.e0
  have hL0 : 0 ≤ p.delMax * p.s / ((p.s - 1) * p.eMax) :=
    div_nonneg (mul_nonneg hp.delMax.le (by linarith)) (mul_nonneg (by linarith) hp.eMax.le)
  have hq : 0 < tol / (2 * (4 * p.r0 + 1)) := by positivity
  refine ⟨min (min (tol / (2 * (1 + p.delMax * p.s / ((p.s - 1) * p.eMax)))) (tol / 2)) (p.e0 * (tol / (2 * (4 * p.r0 + 1))) ^ 2), by positivity, ?_⟩
  intro d n tr el eps cT gT cE gE t e cth hn hd hfine heps hr hT hE ht he hmax hc0 hc
  obtain ⟨r, h0, h1, h2⟩ := C182_table p hp h3 d n hn hd hr tr el eps hT hE cT gT cE gE t ht e cth he hmax hc
  refine ⟨r, h0, h1.trans (add_le_add ?_ le_rfl), h2.trans (add_le_add ?_ le_rfl)⟩
  · have hF0 : 0 ≤ (if p.scale then exp (1 / 2 * (1 - cth)) else 1) := by
      split
      · exact (exp_pos _).le
      · exact zero_le_one
    have hF : (if p.scale then exp (1 / 2 * (1 - cth)) else 1) ≤ 2 := by
      split
      · have k1 : exp (1 / 2 * (1 - cth)) ≤ exp (1 / 2) := exp_le_exp.2 (by linarith)
        have k2 : exp (1 / 2) * exp (1 / 2) = exp 1 := by rw [← exp_add]; norm_num
        have k3 := exp_one_lt_d9
        have k4 := exp_pos (1 / 2)
        nlinarith
      · norm_num
    have a1 : d ≤ tol / (2 * (1 + p.delMax * p.s / ((p.s - 1) * p.eMax))) := hfine.trans ((min_le_left _ _).trans (min_le_left _ _))
    have a2 : eps ≤ tol / (2 * (1 + p.delMax * p.s / ((p.s - 1) * p.eMax))) := heps.trans ((min_le_left _ _).trans (min_le_left _ _))
    generalize p.delMax * p.s / ((p.s - 1) * p.eMax) = L at *
    have a3 : eps + L * d ≤ tol / 2 := by
      have := mul_le_mul_of_nonneg_left a1 hL0
      have e : tol / (2 * (1 + L)) + L * (tol / (2 * (1 + L))) = tol / 2 := by
        field_simp
      linarith
    calc _ ≤ (if p.scale then exp (1 / 2 * (1 - cth)) else 1) * (tol / 2) := mul_le_mul_of_nonneg_left a3 hF0
      _ ≤ 2 * (tol / 2) := mul_le_mul_of_nonneg_right hF (by positivity)
      _ = tol := by ring
  · have a1 : d ≤ p.e0 * (tol / (2 * (4 * p.r0 + 1))) ^ 2 := hfine.trans (min_le_right _ _)
    have a2 : eps ≤ tol / 2 := heps.trans ((min_le_left _ _).trans (min_le_right _ _))
    have a3 : √(d / p.e0) ≤ tol / (2 * (4 * p.r0 + 1)) := by
      rw [sqrt_le_left hq.le, div_le_iff₀ he0]
      linarith
    have a4 := mul_le_mul_of_nonneg_left a3 (by positivity : 0 ≤ 4 * p.r0)
    have a5 : 4 * p.r0 * (tol / (2 * (4 * p.r0 + 1))) ≤ tol / 2 := by
      rw [mul_div_assoc', div_le_div_iff₀ (by positivity) (by norm_num)]
      nlinarith
    linarith

/-- every uniform grid has an exact table -/
theorem exact_table (p : YieldPar) (d : ℝ) (n : ℕ) (hn : 2 ≤ n) (hd : 0 < d) (hr : round3 d = d) : ∃ (tr el : List ℝ) (t : SeyTable ℝ),
    Tabulates 0 0 d n (fun e => (yieldECLOUD p e 1).1 * (1 - (yieldECLOUD p e 1).2)) tr ∧
    Tabulates 0 0 d n (fun e => (yieldECLOUD p e 1).1 * (yieldECLOUD p e 1).2) el ∧
    seyTableOf (tabEnergies 0 d n) tr el 0 0 0 0 p.scale p.shift = .ok t :=
  ⟨(List.range n).map (fun k : ℕ => (fun e => (yieldECLOUD p e 1).1 * (1 - (yieldECLOUD p e 1).2)) (0 + (k : ℝ) * d)),
    (List.range n).map (fun k : ℕ => (fun e => (yieldECLOUD p e 1).1 * (yieldECLOUD p e 1).2) (0 + (k : ℝ) * d)), _,
    ⟨by simp, fun _ _ h => tab_exact n (fun e => (yieldECLOUD p e 1).1 * (1 - (yieldECLOUD p e 1).2)) d h⟩,
    ⟨by simp, fun _ _ h => tab_exact n (fun e => (yieldECLOUD p e 1).1 * (yieldECLOUD p e 1).2) d h⟩, seyTableOf_grid 0 d n hn hd hr _ _ _ _ _ _ _ _⟩

/-- the hypotheses are met by the surface of the script that makes such tables (other/sey_files/001_generate_sey_mat_from_ECLOUD_model.py:10-23): a
maximum of 1.7 at 332 eV, R0 = 0.7, steps of 0.2 eV up to 10 keV; impacts of every energy at a grazing angle -/
example : ∃ (tr el : List ℝ) (t : SeyTable ℝ), seyTableOf (tabEnergies 0 (1 / 5) 50001) tr el 0 0 0 0 true true = .ok t ∧
    ∀ e, 0 ≤ e → e ≤ 10000 → ∃ r, seyValues exp t e (1 / 10) = .ok r ∧
      |r.1 * r.2 - (yieldECLOUD ⟨332, 1.7, 0.7, 150, 1.35, true, true⟩ e (1 / 10)).1 *
        (yieldECLOUD ⟨332, 1.7, 0.7, 150, 1.35, true, true⟩ e (1 / 10)).2| ≤ 0 + 4 * (0.7 : ℝ) * √(1 / 5 / 150) + 1 / 10 ^ 10 := by
  obtain ⟨tr, el, t, h1, h2, h3⟩ := exact_table ⟨332, 1.7, 0.7, 150, 1.35, true, true⟩ (1 / 5) 50001 (by norm_num) (by norm_num) round3_fifth
  refine ⟨tr, el, t, h3, fun e h4 h5 => ?_⟩
  obtain ⟨r, q1, -, q3⟩ := C182_table ⟨332, 1.7, 0.7, 150, 1.35, true, true⟩ (by constructor <;> norm_num) (by norm_num) (1 / 5) 50001 (by norm_num)
    (by norm_num) round3_fifth tr el 0 h1 h2 0 0 0 0 t h3 e (1 / 10) h4 (by norm_num; linarith) (by norm_num)
  exact ⟨r, q1, q3⟩

end PyECLOUD
