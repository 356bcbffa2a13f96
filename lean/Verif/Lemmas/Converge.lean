import Verif.Spec.Converge
import Verif.Lemmas.Liouville
import Mathlib.LinearAlgebra.CrossProduct
import Mathlib.Analysis.Calculus.MeanValue
import Mathlib.Analysis.Calculus.Deriv.Prod
import Mathlib.Analysis.SpecialFunctions.Exp

/-! # Lemmas for the convergence of the Boris tracker -/

set_option linter.unusedSectionVars false

namespace PyECLOUD

open Matrix

/-- a field value as a vector -/
def V3.vec (b : V3 ℝ) : R3 := ![b.x, b.y, b.z]

theorem R3_norm_le (a : R3) (c : ℝ) : ‖a‖ ≤ c ↔ |a 0| ≤ c ∧ |a 1| ≤ c ∧ |a 2| ≤ c := by
  constructor
  · intro h
    exact ⟨(norm_le_pi_norm a 0).trans h, (norm_le_pi_norm a 1).trans h, (norm_le_pi_norm a 2).trans h⟩
  · rintro ⟨h0, h1, h2⟩
    have hc : 0 ≤ c := (abs_nonneg _).trans h0
    rw [pi_norm_le_iff_of_nonneg hc]
    intro i
    fin_cases i
    · exact h0
    · exact h1
    · exact h2

theorem within_norm (b : V3 ℝ) (M : ℝ) : b.Within M ↔ ‖b.vec‖ ≤ M := by
  rw [R3_norm_le]; rfl

theorem diff_vec (b c : V3 ℝ) : (b.diff c).vec = b.vec - c.vec := by
  ext i; fin_cases i <;> rfl

theorem cross_norm (a b : R3) : ‖a ⨯₃ b‖ ≤ 2 * ‖a‖ * ‖b‖ := by
  have ha : ∀ i, |a i| ≤ ‖a‖ := fun i => norm_le_pi_norm a i
  have hb : ∀ i, |b i| ≤ ‖b‖ := fun i => norm_le_pi_norm b i
  have hp : ∀ i j, |a i * b j| ≤ ‖a‖ * ‖b‖ := fun i j => by
    rw [abs_mul]; exact mul_le_mul (ha i) (hb j) (abs_nonneg _) (norm_nonneg _)
  have hd : ∀ i j k l, |a i * b j - a k * b l| ≤ 2 * ‖a‖ * ‖b‖ := fun i j k l => by
    have := abs_sub (a i * b j) (a k * b l)
    have h1 := hp i j
    have h2 := hp k l
    linarith
  rw [R3_norm_le, cross_apply]
  exact ⟨hd _ _ _ _, hd _ _ _ _, hd _ _ _ _⟩

/-- discrete Grönwall inequality -/
theorem gronwall (u : ℕ → ℝ) (L c : ℝ) (hL : 0 ≤ L) (hc : 0 ≤ c) (h0 : 0 ≤ u 0) (n : ℕ) (h : ∀ k < n, u (k + 1) ≤ (1 + L) * u k + c) :
    ∀ k ≤ n, u k ≤ Real.exp (L * k) * (u 0 + k * c) := by
  intro k
  induction k with
  | zero => intro _; simp
  | succ k ih =>
    intro hk
    have h1 := h k (by omega)
    have h2 := ih (by omega)
    have h3 : 1 + L ≤ Real.exp L := by linarith [Real.add_one_le_exp L]
    have h4 : 0 ≤ u 0 + k * c := by positivity
    have h5 : Real.exp (L * (k + 1 : ℕ)) = Real.exp L * Real.exp (L * k) := by
      rw [← Real.exp_add]; congr 1; push_cast; ring
    have h6 : (1 + L) * u k ≤ Real.exp L * (Real.exp (L * k) * (u 0 + k * c)) := by
      calc (1 + L) * u k ≤ (1 + L) * (Real.exp (L * k) * (u 0 + k * c)) := mul_le_mul_of_nonneg_left h2 (by linarith)
        _ ≤ _ := mul_le_mul_of_nonneg_right h3 (by positivity)
    have h7 : 1 ≤ Real.exp (L * (k + 1 : ℕ)) := Real.one_le_exp (by positivity)
    have h8 : c ≤ Real.exp (L * (k + 1 : ℕ)) * c := by nlinarith
    push_cast at *
    rw [h5] at h8 ⊢
    nlinarith

/-- the rotated and accelerated velocity -/
noncomputable def stepV (qm d : ℝ) (e b v : R3) : R3 :=
  let t := (qm * d / 2) • b
  let h := (qm * d / 2) • e
  let s := (2 / (1 + t ⬝ᵥ t)) • t
  (v + h) + ((v + h) + (v + h) ⨯₃ t) ⨯₃ s + h

theorem borisKick_vec (qm d : ℝ) (e b : V3 ℝ) (p : Phase ℝ) :
    ofPhase (borisKick qm d e b p) = ((ofPhase p).1 + d • stepV qm d e.vec b.vec (ofPhase p).2, stepV qm d e.vec b.vec (ofPhase p).2) := by
  have hv : (ofPhase (borisKick qm d e b p)).2 = stepV qm d e.vec b.vec (ofPhase p).2 := by
    unfold stepV
    ext i
    fin_cases i <;>
    · simp [ofPhase, borisKick, V3.vec, cross_apply, dotProduct, Fin.sum_univ_three]
      ring
  rw [Prod.ext_iff]
  refine ⟨?_, hv⟩
  rw [← hv]
  ext i
  fin_cases i <;>
  · simp [ofPhase, borisKick]
    ring

theorem dot_self_bound (t : R3) : 0 ≤ t ⬝ᵥ t ∧ t ⬝ᵥ t ≤ 3 * ‖t‖ ^ 2 := by
  have ht : ∀ i, |t i| ≤ ‖t‖ := fun i => norm_le_pi_norm t i
  have hs : ∀ i, t i * t i ≤ ‖t‖ ^ 2 := fun i => by
    rw [← abs_mul_abs_self, sq]; exact mul_le_mul (ht i) (ht i) (abs_nonneg _) (norm_nonneg _)
  simp only [dotProduct, Fin.sum_univ_three]
  exact ⟨by nlinarith [mul_self_nonneg (t 0), mul_self_nonneg (t 1), mul_self_nonneg (t 2)], by linarith [hs 0, hs 1, hs 2]⟩

/-- algebra of a step: what remains after the first order -/
theorem stepV_rest (qm d : ℝ) (e b v : R3) :
    let t := (qm * d / 2) • b
    let h := (qm * d / 2) • e
    let s := (2 / (1 + t ⬝ᵥ t)) • t
    stepV qm d e b v - v - d • (qm • (e + v ⨯₃ b)) = (v + h) ⨯₃ (s - (2 : ℝ) • t) + ((v + h) ⨯₃ t) ⨯₃ s + h ⨯₃ ((2 : ℝ) • t) := by
  intro t h s
  have e1 : d • (qm • (e + v ⨯₃ b)) = (2 : ℝ) • h + v ⨯₃ ((2 : ℝ) • t) := by
    simp only [h, t, map_smul, smul_add, smul_smul]
    congr 2 <;> ring_nf
  rw [e1]
  change (v + h) + ((v + h) + (v + h) ⨯₃ t) ⨯₃ s + h - v - _ = _
  simp only [map_add, map_sub, map_smul, LinearMap.add_apply, two_smul]
  abel

theorem half_bound (qm d a M : ℝ) (hd : 0 ≤ d) (ha : a = |qm| * M / 2) (b : R3) (hb : ‖b‖ ≤ M) : ‖(qm * d / 2) • b‖ ≤ a * d := by
  rw [norm_smul, Real.norm_eq_abs, abs_div, abs_mul, abs_of_nonneg hd, abs_two, ha]
  have := mul_le_mul_of_nonneg_left hb (show 0 ≤ |qm| * d / 2 by positivity)
  linarith

theorem s_bound (t : R3) : ‖(2 / (1 + t ⬝ᵥ t)) • t‖ ≤ 2 * ‖t‖ ∧ ‖(2 / (1 + t ⬝ᵥ t)) • t - (2 : ℝ) • t‖ ≤ 6 * ‖t‖ ^ 3 := by
  obtain ⟨h0, h1⟩ := dot_self_bound t
  obtain ⟨q, hq⟩ : ∃ q, t ⬝ᵥ t = q := ⟨_, rfl⟩
  rw [hq] at h0 h1 ⊢
  have h2 : 2 / (1 + q) ≤ 2 := by rw [div_le_iff₀ (by linarith)]; linarith
  constructor
  · rw [norm_smul, Real.norm_eq_abs, abs_of_nonneg (by positivity)]
    exact mul_le_mul_of_nonneg_right h2 (norm_nonneg _)
  · rw [← sub_smul, norm_smul, Real.norm_eq_abs, abs_of_nonpos (by linarith)]
    have h3 : -(2 / (1 + q) - 2) ≤ 2 * q := by
      rw [neg_sub, sub_le_iff_le_add, ← sub_le_iff_le_add', le_div_iff₀ (by linarith)]
      nlinarith
    have h4 := mul_le_mul_of_nonneg_right (h3.trans (mul_le_mul_of_nonneg_left h1 (by norm_num))) (norm_nonneg t)
    calc _ ≤ _ := h4
      _ = _ := by ring

/-- the velocity grows at most linearly -/
theorem stepV_growth (qm d a M T : ℝ) (hd : 0 ≤ d) (hT : d ≤ T) (hM : 0 ≤ M) (ha : a = |qm| * M / 2) (e b v : R3) (he : ‖e‖ ≤ M) (hb : ‖b‖ ≤ M) :
    ‖stepV qm d e b v - v‖ ≤ d * (2 * a + 4 * a * (1 + 2 * a * T) * (‖v‖ + a * T)) := by
  have ha0 : 0 ≤ a := by rw [ha]; positivity
  obtain ⟨t, ht⟩ : ∃ t, t = (qm * d / 2) • b := ⟨_, rfl⟩
  obtain ⟨h, hh⟩ : ∃ h, h = (qm * d / 2) • e := ⟨_, rfl⟩
  obtain ⟨s, hs⟩ : ∃ s, s = (2 / (1 + t ⬝ᵥ t)) • t := ⟨_, rfl⟩
  have bt : ‖t‖ ≤ a * d := by rw [ht]; exact half_bound qm d a M hd ha b hb
  have bh : ‖h‖ ≤ a * d := by rw [hh]; exact half_bound qm d a M hd ha e he
  have bs : ‖s‖ ≤ 2 * (a * d) := by rw [hs]; exact (s_bound t).1.trans (by linarith)
  have e1 : stepV qm d e b v - v = h + h + ((v + h) + (v + h) ⨯₃ t) ⨯₃ s := by
    rw [hs, hh, ht]
    change (v + _) + ((v + _) + (v + _) ⨯₃ _) ⨯₃ _ + _ - v = _
    abel
  have hat : a * d ≤ a * T := mul_le_mul_of_nonneg_left hT ha0
  have bv : ‖v + h‖ ≤ ‖v‖ + a * T := (norm_add_le _ _).trans (by linarith)
  have bc : ‖(v + h) ⨯₃ t‖ ≤ 2 * (‖v‖ + a * T) * (a * T) := by
    refine (cross_norm _ _).trans ?_
    have : ‖v + h‖ * ‖t‖ ≤ (‖v‖ + a * T) * (a * T) := mul_le_mul bv (bt.trans hat) (norm_nonneg _) (by linarith [norm_nonneg v, norm_nonneg (v + h)])
    linarith
  have b2 : ‖(v + h) + (v + h) ⨯₃ t‖ ≤ (1 + 2 * a * T) * (‖v‖ + a * T) := by
    refine (norm_add_le _ _).trans ?_
    linarith
  rw [e1]
  have b3 : ‖((v + h) + (v + h) ⨯₃ t) ⨯₃ s‖ ≤ 2 * ((1 + 2 * a * T) * (‖v‖ + a * T)) * (2 * (a * d)) := by
    refine (cross_norm _ _).trans ?_
    have := mul_le_mul b2 bs (norm_nonneg _) ((norm_nonneg _).trans b2)
    linarith
  refine (norm_add_le _ _).trans ?_
  have := norm_add_le h h
  linarith

/-- a step of the tracker is the first-order step up to the second order -/
theorem stepV_consistent (qm d a M T W : ℝ) (hd : 0 ≤ d) (hT : d ≤ T) (hM : 0 ≤ M) (ha : a = |qm| * M / 2) (e b v : R3) (he : ‖e‖ ≤ M) (hb : ‖b‖ ≤ M)
    (hv : ‖v‖ ≤ W) :
    ‖stepV qm d e b v - v - d • (qm • (e + v ⨯₃ b))‖ ≤ d ^ 2 * (12 * (W + a * T) * a ^ 3 * T + 8 * (W + a * T) * a ^ 2 + 4 * a ^ 2) := by
  have ha0 : 0 ≤ a := by rw [ha]; positivity
  have hr := stepV_rest qm d e b v
  simp only at hr
  rw [hr]
  obtain ⟨t, ht⟩ : ∃ t, (qm * d / 2) • b = t := ⟨_, rfl⟩
  obtain ⟨h, hh⟩ : ∃ h, (qm * d / 2) • e = h := ⟨_, rfl⟩
  have bt : ‖t‖ ≤ a * d := by rw [← ht]; exact half_bound qm d a M hd ha b hb
  have bh : ‖h‖ ≤ a * d := by rw [← hh]; exact half_bound qm d a M hd ha e he
  rw [ht, hh]
  obtain ⟨s1, s2⟩ := s_bound t
  obtain ⟨s, hs⟩ : ∃ s, (2 / (1 + t ⬝ᵥ t)) • t = s := ⟨_, rfl⟩
  rw [hs] at s1 s2 ⊢
  have hat : a * d ≤ a * T := mul_le_mul_of_nonneg_left hT ha0
  have had : 0 ≤ a * d := by positivity
  have bv : ‖v + h‖ ≤ W + a * T := (norm_add_le _ _).trans (by linarith)
  have hW : 0 ≤ W + a * T := (norm_nonneg _).trans bv
  have s1' : ‖s‖ ≤ 2 * (a * d) := s1.trans (by linarith)
  have s2' : ‖s - (2 : ℝ) • t‖ ≤ 6 * (a ^ 3 * T * d ^ 2) := by
    refine s2.trans ?_
    have h3 : ‖t‖ ^ 3 ≤ (a * d) ^ 3 := by gcongr
    have h4 : (a * d) ^ 3 ≤ a ^ 3 * T * d ^ 2 := by
      have := mul_le_mul_of_nonneg_left hT (show 0 ≤ a ^ 3 * d ^ 2 by positivity)
      calc (a * d) ^ 3 = a ^ 3 * d ^ 2 * d := by ring
        _ ≤ _ := this
        _ = _ := by ring
    linarith
  have c1 : ‖(v + h) ⨯₃ (s - (2 : ℝ) • t)‖ ≤ 2 * ((W + a * T) * (6 * (a ^ 3 * T * d ^ 2))) := by
    refine (cross_norm _ _).trans ?_
    have := mul_le_mul bv s2' (norm_nonneg _) hW
    linarith
  have c2 : ‖((v + h) ⨯₃ t) ⨯₃ s‖ ≤ 2 * ((2 * ((W + a * T) * (a * d))) * (2 * (a * d))) := by
    have c0 : ‖(v + h) ⨯₃ t‖ ≤ 2 * ((W + a * T) * (a * d)) := by
      refine (cross_norm _ _).trans ?_
      have := mul_le_mul bv bt (norm_nonneg _) hW
      linarith
    refine (cross_norm _ _).trans ?_
    have := mul_le_mul c0 s1' (norm_nonneg _) ((norm_nonneg _).trans c0)
    linarith
  have c3 : ‖h ⨯₃ ((2 : ℝ) • t)‖ ≤ 2 * ((a * d) * (2 * (a * d))) := by
    refine (cross_norm _ _).trans ?_
    have b2 : ‖(2 : ℝ) • t‖ ≤ 2 * (a * d) := by rw [norm_smul, Real.norm_eq_abs, abs_two]; linarith
    have := mul_le_mul bh b2 (norm_nonneg _) had
    linarith
  refine (norm_add₃_le).trans ?_
  calc _ ≤ _ := add_le_add (add_le_add c1 c2) c3
    _ = _ := by ring

/-- the acceleration -/
noncomputable def lorentz (qm : ℝ) (e b v : R3) : R3 := qm • (e + v ⨯₃ b)

theorem orbit_vec {qm T : ℝ} {E : ℝ → ℝ → ℝ → V3 ℝ} {B : ℝ → ℝ → V3 ℝ} {P : ℝ → Phase ℝ} (h : LorentzOrbit qm T E B P) :
    (∀ t ∈ Set.Icc 0 T, HasDerivAt (fun t => (ofPhase (P t)).1) (ofPhase (P t)).2 t) ∧
    ∀ t ∈ Set.Icc 0 T, HasDerivAt (fun t => (ofPhase (P t)).2)
      (lorentz qm (E t (P t).x (P t).y).vec (B (P t).x (P t).y).vec (ofPhase (P t)).2) t := by
  refine ⟨fun t ht => hasDerivAt_pi.2 (fun i => ?_), fun t ht => hasDerivAt_pi.2 (fun i => ?_)⟩
  · fin_cases i
    · exact h.x t ht
    · exact h.y t ht
    · exact h.z t ht
  · fin_cases i
    · exact (h.vx t ht).congr_deriv (by simp [lorentz, V3.vec, ofPhase, cross_apply])
    · exact (h.vy t ht).congr_deriv (by simp [lorentz, V3.vec, ofPhase, cross_apply])
    · exact (h.vz t ht).congr_deriv (by simp [lorentz, V3.vec, ofPhase, cross_apply])

theorem lip_of_deriv (f f' : ℝ → R3) (T C : ℝ) (hf : ∀ t ∈ Set.Icc 0 T, HasDerivAt f (f' t) t) (hC : ∀ t ∈ Set.Icc 0 T, ‖f' t‖ ≤ C) (s t : ℝ)
    (hs : s ∈ Set.Icc 0 T) (ht : t ∈ Set.Icc 0 T) : ‖f t - f s‖ ≤ C * |t - s| :=
  Convex.norm_image_sub_le_of_norm_hasDerivWithin_le (fun x hx => (hf x hx).hasDerivWithinAt) hC (convex_Icc 0 T) hs ht

theorem taylor_of_deriv (f f' : ℝ → R3) (T C : ℝ) (hC0 : 0 ≤ C) (hf : ∀ t ∈ Set.Icc 0 T, HasDerivAt f (f' t) t)
    (hC : ∀ s ∈ Set.Icc 0 T, ∀ t ∈ Set.Icc 0 T, ‖f' t - f' s‖ ≤ C * |t - s|) (t d : ℝ) (ht : 0 ≤ t) (hd : 0 ≤ d) (hT : t + d ≤ T) :
    ‖f (t + d) - f t - d • f' t‖ ≤ C * d ^ 2 := by
  have hsub : ∀ s ∈ Set.Icc t (t + d), s ∈ Set.Icc 0 T := fun s hs => ⟨ht.trans hs.1, hs.2.trans hT⟩
  have hg : ∀ s ∈ Set.Icc t (t + d), HasDerivWithinAt (fun s => f s - s • f' t) (f' s - f' t) (Set.Icc t (t + d)) s := by
    intro s hs
    have h1 := (hf s (hsub s hs)).sub ((hasDerivAt_id s).smul_const (f' t))
    rw [one_smul] at h1
    exact h1.hasDerivWithinAt
  have hb : ∀ s ∈ Set.Icc t (t + d), ‖f' s - f' t‖ ≤ C * d := by
    intro s hs
    refine (hC t (hsub t ⟨le_refl _, by linarith⟩) s (hsub s hs)).trans ?_
    rw [abs_of_nonneg (by linarith [hs.1])]
    exact mul_le_mul_of_nonneg_left (by linarith [hs.2]) hC0
  have h := Convex.norm_image_sub_le_of_norm_hasDerivWithin_le hg hb (convex_Icc t (t + d)) (show t ∈ Set.Icc t (t + d) from ⟨le_refl _, by linarith⟩)
    (show t + d ∈ Set.Icc t (t + d) from ⟨by linarith, le_refl _⟩)
  have e1 : f (t + d) - (t + d) • f' t - (f t - t • f' t) = f (t + d) - f t - d • f' t := by
    rw [add_smul]; abel
  simp only [e1] at h
  refine h.trans (le_of_eq ?_)
  rw [add_sub_cancel_left, Real.norm_of_nonneg hd]
  ring

theorem smooth_vec {S : Set (ℝ × ℝ)} {T M L : ℝ} {f : ℝ → ℝ → ℝ → V3 ℝ} (hL : 0 ≤ L) (h : FieldSmooth S T M L f) (t t' : ℝ) (p p' : Phase ℝ)
    (ht : t ∈ Set.Icc 0 T) (ht' : t' ∈ Set.Icc 0 T) (hp : (p.x, p.y) ∈ S) (hp' : (p'.x, p'.y) ∈ S) :
    ‖(f t p.x p.y).vec‖ ≤ M ∧
    ‖(f t p.x p.y).vec - (f t' p'.x p'.y).vec‖ ≤ L * (|t - t'| + 2 * ‖(ofPhase p).1 - (ofPhase p').1‖) := by
  refine ⟨(within_norm _ _).1 (h.1 t ht _ hp), ?_⟩
  have h1 := h.2 t ht t' ht' _ hp _ hp'
  rw [within_norm, diff_vec] at h1
  refine h1.trans (mul_le_mul_of_nonneg_left ?_ hL)
  have h2 : |p.x - p'.x| ≤ ‖(ofPhase p).1 - (ofPhase p').1‖ := norm_le_pi_norm ((ofPhase p).1 - (ofPhase p').1) 0
  have h3 : |p.y - p'.y| ≤ ‖(ofPhase p).1 - (ofPhase p').1‖ := norm_le_pi_norm ((ofPhase p).1 - (ofPhase p').1) 1
  simp only
  linarith

theorem lorentz_diff (qm M W : ℝ) (e e' b b' v v' : R3) (hb : ‖b‖ ≤ M) (hv : ‖v'‖ ≤ W) :
    ‖lorentz qm e b v - lorentz qm e' b' v'‖ ≤ |qm| * (‖e - e'‖ + 2 * M * ‖v - v'‖ + 2 * W * ‖b - b'‖) := by
  unfold lorentz
  have e1 : qm • (e + v ⨯₃ b) - qm • (e' + v' ⨯₃ b') = qm • ((e - e') + (v - v') ⨯₃ b + v' ⨯₃ (b - b')) := by
    rw [← smul_sub]
    congr 1
    simp only [map_sub, LinearMap.sub_apply]
    abel
  rw [e1, norm_smul, Real.norm_eq_abs]
  refine mul_le_mul_of_nonneg_left ((norm_add₃_le).trans ?_) (abs_nonneg _)
  have c1 := cross_norm (v - v') b
  have c2 := cross_norm v' (b - b')
  have d1 : 2 * ‖v - v'‖ * ‖b‖ ≤ 2 * M * ‖v - v'‖ := by
    have := mul_le_mul_of_nonneg_left hb (show 0 ≤ 2 * ‖v - v'‖ by positivity)
    linarith
  have d2 : 2 * ‖v'‖ * ‖b - b'‖ ≤ 2 * W * ‖b - b'‖ := mul_le_mul_of_nonneg_right (by linarith) (norm_nonneg _)
  linarith

/-- bounds on the true orbit -/
theorem orbit_bounds {S : Set (ℝ × ℝ)} {qm T M L : ℝ} (hT : 0 ≤ T) (hM : 0 ≤ M) (hL : 0 ≤ L) {E : ℝ → ℝ → ℝ → V3 ℝ} {B : ℝ → ℝ → V3 ℝ}
    (hE : FieldSmooth S T M L E) (hB : FieldSmooth S T M L (fun _ => B)) {P : ℝ → Phase ℝ} (h : LorentzOrbit qm T E B P)
    (hP : ∀ t ∈ Set.Icc 0 T, ((P t).x, (P t).y) ∈ S) :
    ∃ W A C : ℝ, 0 ≤ W ∧ 0 ≤ A ∧ 0 ≤ C ∧ (∀ t ∈ Set.Icc 0 T, ‖(ofPhase (P t)).2‖ ≤ W) ∧
      ∀ t d : ℝ, 0 ≤ t → 0 ≤ d → t + d ≤ T →
        ‖(ofPhase (P (t + d))).1 - (ofPhase (P t)).1 - d • (ofPhase (P t)).2‖ ≤ A * d ^ 2 ∧
        ‖(ofPhase (P (t + d))).2 - (ofPhase (P t)).2 - d • lorentz qm (E t (P t).x (P t).y).vec (B (P t).x (P t).y).vec (ofPhase (P t)).2‖ ≤ C * d ^ 2 := by
  obtain ⟨hx, hv⟩ := orbit_vec h
  have hcont : ContinuousOn (fun t => ‖(ofPhase (P t)).2‖) (Set.Icc 0 T) := fun t ht => (hv t ht).continuousAt.continuousWithinAt.norm
  obtain ⟨W, hW⟩ := isCompact_Icc.bddAbove_image hcont
  have hW : ∀ t ∈ Set.Icc 0 T, ‖(ofPhase (P t)).2‖ ≤ W := fun t ht => hW ⟨t, ht, rfl⟩
  have hW0 : 0 ≤ W := (norm_nonneg _).trans (hW 0 ⟨le_refl _, hT⟩)
  have bX := lip_of_deriv _ _ T W hx hW
  have ha : ∀ t ∈ Set.Icc 0 T, ‖lorentz qm (E t (P t).x (P t).y).vec (B (P t).x (P t).y).vec (ofPhase (P t)).2‖ ≤ |qm| * (M + 2 * W * M) := by
    intro t ht
    unfold lorentz
    rw [norm_smul, Real.norm_eq_abs]
    refine mul_le_mul_of_nonneg_left ((norm_add_le _ _).trans ?_) (abs_nonneg _)
    have h1 := (smooth_vec hL hE t t _ _ ht ht (hP t ht) (hP t ht)).1
    have h2 := (smooth_vec hL hB t t _ _ ht ht (hP t ht) (hP t ht)).1
    have h3 := cross_norm (ofPhase (P t)).2 (B (P t).x (P t).y).vec
    have h4 := mul_le_mul (hW t ht) h2 (norm_nonneg _) hW0
    linarith
  have bV := lip_of_deriv _ _ T _ hv ha
  have hA : 0 ≤ |qm| * (M + 2 * W * M) := by positivity
  have bF : ∀ s ∈ Set.Icc 0 T, ∀ t ∈ Set.Icc 0 T, ‖lorentz qm (E t (P t).x (P t).y).vec (B (P t).x (P t).y).vec (ofPhase (P t)).2 -
      lorentz qm (E s (P s).x (P s).y).vec (B (P s).x (P s).y).vec (ofPhase (P s)).2‖ ≤
      |qm| * (L * (1 + 2 * W) + 2 * M * (|qm| * (M + 2 * W * M)) + 2 * W * (L * (1 + 2 * W))) * |t - s| := by
    intro s hs t ht
    have h1 := (smooth_vec hL hE t s _ _ ht hs (hP t ht) (hP s hs)).2
    have h2 := (smooth_vec hL hB t s _ _ ht hs (hP t ht) (hP s hs)).2
    have h3 := bX s t hs ht
    have h4 := bV s t hs ht
    have h5 : L * (|t - s| + 2 * ‖(ofPhase (P t)).1 - (ofPhase (P s)).1‖) ≤ L * (1 + 2 * W) * |t - s| := by
      have := mul_le_mul_of_nonneg_left h3 hL
      linarith
    refine (lorentz_diff qm M W _ _ _ _ _ _ (smooth_vec hL hB t t _ _ ht ht (hP t ht) (hP t ht)).1 (hW s hs)).trans
      (le_of_le_of_eq (mul_le_mul_of_nonneg_left ?_ (abs_nonneg qm)) (mul_assoc _ _ _).symm)
    have h6 := mul_le_mul_of_nonneg_left h4 (show 0 ≤ 2 * M by positivity)
    have h7 := mul_le_mul_of_nonneg_left (h2.trans h5) (show 0 ≤ 2 * W by positivity)
    have h8 := h1.trans h5
    nlinarith
  have hC : 0 ≤ |qm| * (L * (1 + 2 * W) + 2 * M * (|qm| * (M + 2 * W * M)) + 2 * W * (L * (1 + 2 * W))) := by positivity
  exact ⟨W, _, _, hW0, hA, hC, hW, fun t d ht hd htd => ⟨taylor_of_deriv _ _ T _ hA hx (fun s hs t ht => bV s t hs ht) t d ht hd htd, taylor_of_deriv _ _ T _ hC hv bF t d ht hd htd⟩⟩

/-- sub-steps of the tracker: each starts from the state before and uses the electric field of a state and a time at most `H` ago -/
structure BorisRun (qm d H : ℝ) (E : ℝ → ℝ → ℝ → V3 ℝ) (B : ℝ → ℝ → V3 ℝ) (n : ℕ) (p : ℕ → Phase ℝ) : Prop where
  step : ∀ j < n, ∃ i ≤ j, ∃ i' ≤ j, ((j : ℝ) - i) * d ≤ H ∧ ((j : ℝ) - i') * d ≤ H ∧
    p (j + 1) = borisKick qm d (E (i * d) (p i').x (p i').y) (B (p j).x (p j).y) (p j)

/-- the velocity stays bounded -/
theorem run_velocity {S : Set (ℝ × ℝ)} {qm T M L : ℝ} (hM : 0 ≤ M) (hL : 0 ≤ L) {E : ℝ → ℝ → ℝ → V3 ℝ} {B : ℝ → ℝ → V3 ℝ}
    (hE : FieldSmooth S T M L E) (hB : FieldSmooth S T M L (fun _ => B)) (V0 : ℝ) :
    ∃ W : ℝ, 0 ≤ W ∧ ∀ (n : ℕ) (d H : ℝ) (p : ℕ → Phase ℝ), 0 ≤ d → n * d ≤ T → BorisRun qm d H E B n p → (∀ j < n, ((p j).x, (p j).y) ∈ S) →
      ‖(ofPhase (p 0)).2‖ ≤ V0 → ∀ j ≤ n, ‖(ofPhase (p j)).2‖ ≤ W := by
  obtain ⟨a, ha⟩ : ∃ a, a = |qm| * M / 2 := ⟨_, rfl⟩
  have ha0 : 0 ≤ a := by rw [ha]; positivity
  refine ⟨Real.exp (4 * a * (1 + 2 * a * |T|) * |T|) * (|V0| + |T| * (2 * a + 4 * a * (1 + 2 * a * |T|) * (a * |T|))), by positivity, ?_⟩
  intro n d H p hd hT hrun hS h0 j hj
  have hn0 : (0 : ℝ) ≤ n * d := by positivity
  have hT0 : 0 ≤ T := hn0.trans hT
  rw [abs_of_nonneg hT0]
  have hβ : 0 ≤ 4 * a * (1 + 2 * a * T) := by positivity
  have hmem : ∀ i : ℕ, i ≤ n → (i : ℝ) * d ∈ Set.Icc 0 T := fun i hi => ⟨by positivity, le_trans (mul_le_mul_of_nonneg_right (by exact_mod_cast hi) hd) hT⟩
  have key := gronwall (fun j => ‖(ofPhase (p j)).2‖) (4 * a * (1 + 2 * a * T) * d) (d * (2 * a + 4 * a * (1 + 2 * a * T) * (a * T)))
    (by positivity) (by positivity) (norm_nonneg _) n (fun k hk => ?_) j hj
  · refine key.trans ?_
    have hjd : (j : ℝ) * d ≤ T := (hmem j hj).2
    have e1 : Real.exp (4 * a * (1 + 2 * a * T) * d * j) ≤ Real.exp (4 * a * (1 + 2 * a * T) * T) := by
      apply Real.exp_le_exp.2
      have := mul_le_mul_of_nonneg_left hjd hβ
      linarith
    have e2 : ‖(ofPhase (p 0)).2‖ + j * (d * (2 * a + 4 * a * (1 + 2 * a * T) * (a * T))) ≤ |V0| + T * (2 * a + 4 * a * (1 + 2 * a * T) * (a * T)) := by
      have h1 := mul_le_mul_of_nonneg_right hjd (show 0 ≤ 2 * a + 4 * a * (1 + 2 * a * T) * (a * T) by positivity)
      have h2 := h0.trans (le_abs_self V0)
      linarith
    exact mul_le_mul e1 e2 (by positivity) (by positivity)
  · obtain ⟨i, hi, i', hi', -, -, hp⟩ := hrun.step k hk
    have hd1 : d ≤ T := by
      have : (1 : ℝ) ≤ n := by exact_mod_cast (by omega : 1 ≤ n)
      nlinarith
    have b1 := (smooth_vec hL hE (i * d) (i * d) (p i') (p i') (hmem i (by omega)) (hmem i (by omega)) (hS i' (by omega)) (hS i' (by omega))).1
    have b2 := (smooth_vec hL hB 0 0 (p k) (p k) ⟨le_refl _, hT0⟩ ⟨le_refl _, hT0⟩ (hS k (by omega)) (hS k (by omega))).1
    have hg := stepV_growth qm d a M T hd hd1 hM ha _ _ (ofPhase (p k)).2 b1 b2
    have hv : (ofPhase (p (k + 1))).2 = stepV qm d (E (i * d) (p i').x (p i').y).vec (B (p k).x (p k).y).vec (ofPhase (p k)).2 := by
      rw [hp, borisKick_vec]
    rw [hv]
    have h3 := norm_add_le (stepV qm d (E (i * d) (p i').x (p i').y).vec (B (p k).x (p k).y).vec (ofPhase (p k)).2 - (ofPhase (p k)).2) (ofPhase (p k)).2
    rw [sub_add_cancel] at h3
    refine h3.trans ?_
    linarith

/-- the sub-steps follow the true orbit -/
theorem run_converges {S : Set (ℝ × ℝ)} {qm T M L : ℝ} (hT0 : 0 ≤ T) (hM : 0 ≤ M) (hL : 0 ≤ L) {E : ℝ → ℝ → ℝ → V3 ℝ} {B : ℝ → ℝ → V3 ℝ}
    (hE : FieldSmooth S T M L E) (hB : FieldSmooth S T M L (fun _ => B)) {P : ℝ → Phase ℝ} (h : LorentzOrbit qm T E B P)
    (hP : ∀ t ∈ Set.Icc 0 T, ((P t).x, (P t).y) ∈ S) :
    ∃ C : ℝ, 0 ≤ C ∧ ∀ (n : ℕ) (d H : ℝ) (p : ℕ → Phase ℝ), 0 ≤ d → d ≤ H → n * d ≤ T → BorisRun qm d H E B n p →
      (∀ j < n, ((p j).x, (p j).y) ∈ S) → p 0 = P 0 →
      ∀ j ≤ n, ‖(ofPhase (p j)).1 - (ofPhase (P (j * d))).1‖ + ‖(ofPhase (p j)).2 - (ofPhase (P (j * d))).2‖ ≤ C * H := by
  obtain ⟨W, A, C3, hW0, hA0, hC30, hW, hTay⟩ := orbit_bounds hT0 hM hL hE hB h hP
  obtain ⟨Wn, hWn0, hWn⟩ := run_velocity (qm := qm) hM hL hE hB ‖(ofPhase (P 0)).2‖
  obtain ⟨a, ha⟩ : ∃ a, a = |qm| * M / 2 := ⟨_, rfl⟩
  have ha0 : 0 ≤ a := by rw [ha]; positivity
  obtain ⟨C1, hC1⟩ : ∃ C1, C1 = 2 * a + 4 * a * (1 + 2 * a * T) * (Wn + a * T) := ⟨_, rfl⟩
  have hC10 : 0 ≤ C1 := by rw [hC1]; positivity
  obtain ⟨C2, hC2⟩ : ∃ C2, C2 = 12 * (Wn + a * T) * a ^ 3 * T + 8 * (Wn + a * T) * a ^ 2 + 4 * a ^ 2 := ⟨_, rfl⟩
  have hC20 : 0 ≤ C2 := by rw [hC2]; positivity
  obtain ⟨K, hK⟩ : ∃ K, K = 1 + |qm| * (2 * L + 2 * M + 4 * W * L) := ⟨_, rfl⟩
  have hK0 : 0 ≤ K := by rw [hK]; positivity
  obtain ⟨C0, hC0⟩ : ∃ C0, C0 = C1 + A + C2 + C3 + |qm| * (L * (1 + 2 * Wn)) := ⟨_, rfl⟩
  have hC00 : 0 ≤ C0 := by rw [hC0]; positivity
  refine ⟨Real.exp (K * T) * (T * C0), by positivity, ?_⟩
  intro n d H p hd hdH hT hrun hS h0 j hj
  have hH0 : 0 ≤ H := hd.trans hdH
  have hmem : ∀ i : ℕ, i ≤ n → (i : ℝ) * d ∈ Set.Icc 0 T := fun i hi => ⟨by positivity, le_trans (mul_le_mul_of_nonneg_right (by exact_mod_cast hi) hd) hT⟩
  have hw := hWn n d H p hd hT hrun hS (by rw [h0])
  -- positions move by at most the velocity times the time
  have hmove : ∀ i j : ℕ, i ≤ j → j ≤ n → ‖(ofPhase (p i)).1 - (ofPhase (p j)).1‖ ≤ Wn * (((j : ℝ) - i) * d) := by
    intro i j hij
    induction j, hij using Nat.le_induction with
    | base => intro _; simp
    | succ j hij ih =>
      intro hjn
      obtain ⟨i1, -, i2, -, -, -, hp⟩ := hrun.step j (by omega)
      have hx : (ofPhase (p (j + 1))).1 = (ofPhase (p j)).1 + d • (ofPhase (p (j + 1))).2 := by
        rw [hp, borisKick_vec]
      have h1 := ih (by omega)
      have h2 := hw (j + 1) hjn
      have h3 : ‖(ofPhase (p i)).1 - (ofPhase (p (j + 1))).1‖ ≤ ‖(ofPhase (p i)).1 - (ofPhase (p j)).1‖ + ‖d • (ofPhase (p (j + 1))).2‖ := by
        rw [hx, ← sub_sub]
        exact norm_sub_le _ _
      rw [norm_smul, Real.norm_of_nonneg hd] at h3
      have h4 := mul_le_mul_of_nonneg_left h2 hd
      push_cast
      linarith
  have key := gronwall (fun j : ℕ => ‖(ofPhase (p j)).1 - (ofPhase (P (j * d))).1‖ + ‖(ofPhase (p j)).2 - (ofPhase (P (j * d))).2‖) (K * d) (d * H * C0)
    (by positivity) (by positivity) (by positivity) n (fun k hk => ?_) j hj
  · refine key.trans ?_
    have hjd : (j : ℝ) * d ≤ T := (hmem j hj).2
    have e1 : Real.exp (K * d * j) ≤ Real.exp (K * T) := by
      apply Real.exp_le_exp.2
      have := mul_le_mul_of_nonneg_left hjd hK0
      linarith
    have e0 : ‖(ofPhase (p 0)).1 - (ofPhase (P (((0 : ℕ) : ℝ) * d))).1‖ + ‖(ofPhase (p 0)).2 - (ofPhase (P (((0 : ℕ) : ℝ) * d))).2‖ = 0 := by
      simp [h0]
    rw [e0, zero_add]
    have e2 : (j : ℝ) * (d * H * C0) ≤ T * C0 * H := by
      have := mul_le_mul_of_nonneg_right hjd (show 0 ≤ C0 * H by positivity)
      linarith
    calc _ ≤ Real.exp (K * T) * (T * C0 * H) := mul_le_mul e1 e2 (by positivity) (by positivity)
      _ = _ := by ring
  · obtain ⟨i, hi, i', hi', hdi, hdi', hp⟩ := hrun.step k hk
    have hd1 : d ≤ T := by
      have : (1 : ℝ) ≤ n := by exact_mod_cast (by omega : 1 ≤ n)
      nlinarith
    have hk1 : ((k + 1 : ℕ) : ℝ) * d = k * d + d := by push_cast; ring
    have hkm := hmem k (by omega)
    obtain ⟨t1, t2⟩ := hTay (k * d) d hkm.1 hd (by rw [← hk1]; exact (hmem (k + 1) (by omega)).2)
    have hv : (ofPhase (p (k + 1))).2 = stepV qm d (E (i * d) (p i').x (p i').y).vec (B (p k).x (p k).y).vec (ofPhase (p k)).2 := by
      rw [hp, borisKick_vec]
    have hx : (ofPhase (p (k + 1))).1 = (ofPhase (p k)).1 + d • (ofPhase (p (k + 1))).2 := by
      rw [hp, borisKick_vec]
    have b1 := (smooth_vec hL hE (i * d) (i * d) (p i') (p i') (hmem i (by omega)) (hmem i (by omega)) (hS i' (by omega)) (hS i' (by omega))).1
    have b2 := (smooth_vec hL hB 0 0 (p k) (p k) ⟨le_refl _, hT0⟩ ⟨le_refl _, hT0⟩ (hS k (by omega)) (hS k (by omega))).1
    have hg := stepV_growth qm d a M T hd hd1 hM ha _ _ (ofPhase (p k)).2 b1 b2
    have hc := stepV_consistent qm d a M T Wn hd hd1 hM ha _ _ (ofPhase (p k)).2 b1 b2 (hw k (by omega))
    rw [← hv] at hg hc
    rw [← hC2] at hc
    change ‖_ - _ - d • lorentz qm _ _ _‖ ≤ _ at hc
    have hg' : ‖(ofPhase (p (k + 1))).2 - (ofPhase (p k)).2‖ ≤ d * C1 := by
      refine hg.trans (mul_le_mul_of_nonneg_left ?_ hd)
      rw [hC1]
      have := mul_le_mul_of_nonneg_left (hw k (by omega)) (show 0 ≤ 4 * a * (1 + 2 * a * T) by positivity)
      linarith
    rw [hk1]
    obtain ⟨x, hxd⟩ : ∃ x, (ofPhase (P (k * d))).1 = x := ⟨_, rfl⟩
    obtain ⟨v, hvd⟩ : ∃ v, (ofPhase (P (k * d))).2 = v := ⟨_, rfl⟩
    obtain ⟨x', hxd'⟩ : ∃ x, (ofPhase (P (k * d + d))).1 = x := ⟨_, rfl⟩
    obtain ⟨v', hvd'⟩ : ∃ v, (ofPhase (P (k * d + d))).2 = v := ⟨_, rfl⟩
    obtain ⟨F, hF⟩ : ∃ F, lorentz qm (E (k * d) (P (k * d)).x (P (k * d)).y).vec (B (P (k * d)).x (P (k * d)).y).vec (ofPhase (P (k * d))).2 = F := ⟨_, rfl⟩
    obtain ⟨G, hG⟩ : ∃ G, lorentz qm (E (i * d) (p i').x (p i').y).vec (B (p k).x (p k).y).vec (ofPhase (p k)).2 = G := ⟨_, rfl⟩
    -- difference of the accelerations
    have hFG : ‖G - F‖ ≤ |qm| * (L * (H + 2 * (Wn * H + ‖(ofPhase (p k)).1 - x‖)) + 2 * M * ‖(ofPhase (p k)).2 - v‖ + 2 * W * (L * (2 * ‖(ofPhase (p k)).1 - x‖))) := by
      rw [← hF, ← hG]
      have l0 := lorentz_diff qm M W (E (i * d) (p i').x (p i').y).vec (E (k * d) (P (k * d)).x (P (k * d)).y).vec (B (p k).x (p k).y).vec
        (B (P (k * d)).x (P (k * d)).y).vec (ofPhase (p k)).2 (ofPhase (P (k * d))).2 b2 (hW _ hkm)
      refine l0.trans (mul_le_mul_of_nonneg_left ?_ (abs_nonneg qm))
      have l1 := (smooth_vec hL hE (i * d) (k * d) (p i') (P (k * d)) (hmem i (by omega)) hkm (hS i' (by omega)) (hP _ hkm)).2
      have l2 := (smooth_vec hL hB 0 0 (p k) (P (k * d)) ⟨le_refl _, hT0⟩ ⟨le_refl _, hT0⟩ (hS k (by omega)) (hP _ hkm)).2
      rw [hxd] at l1 l2
      rw [hvd]
      have hti : |(i : ℝ) * d - k * d| ≤ H := by
        have : (i : ℝ) ≤ k := by exact_mod_cast hi
        have h5 : 0 ≤ ((k : ℝ) - i) * d := mul_nonneg (by linarith) hd
        rw [abs_sub_comm, show (k : ℝ) * d - i * d = (k - i) * d by ring, abs_of_nonneg h5]
        exact hdi
      have hxi : ‖(ofPhase (p i')).1 - x‖ ≤ Wn * H + ‖(ofPhase (p k)).1 - x‖ := by
        have h5 := hmove i' k hi' (by omega)
        have h6 := mul_le_mul_of_nonneg_left hdi' hWn0
        have h7 := norm_add_le ((ofPhase (p i')).1 - (ofPhase (p k)).1) ((ofPhase (p k)).1 - x)
        rw [sub_add_sub_cancel] at h7
        linarith
      have l3 : L * (|(i : ℝ) * d - k * d| + 2 * ‖(ofPhase (p i')).1 - x‖) ≤ L * (H + 2 * (Wn * H + ‖(ofPhase (p k)).1 - x‖)) :=
        mul_le_mul_of_nonneg_left (by linarith) hL
      have l4 := mul_le_mul_of_nonneg_left l2 (show 0 ≤ 2 * W by positivity)
      simp only [sub_self, abs_zero, zero_add] at l4
      linarith
    rw [hxd', hxd, hvd] at t1
    rw [hF, hvd', hvd] at t2
    rw [hxd, hvd, hxd', hvd']
    rw [hG] at hc
    -- positions
    have q1 : ‖(ofPhase (p (k + 1))).1 - x'‖ ≤ ‖(ofPhase (p k)).1 - x‖ + d * ‖(ofPhase (p k)).2 - v‖ + d * (d * C1) + A * d ^ 2 := by
      have e1 : (ofPhase (p (k + 1))).1 - x' = ((ofPhase (p k)).1 - x) + d • ((ofPhase (p k)).2 - v) + d • ((ofPhase (p (k + 1))).2 - (ofPhase (p k)).2) - (x' - x - d • v) := by
        rw [hx, smul_sub, smul_sub]; abel
      rw [e1]
      refine (norm_sub_le _ _).trans (add_le_add ((norm_add₃_le).trans (add_le_add (add_le_add (le_refl _) ?_) ?_)) t1)
      · rw [norm_smul, Real.norm_of_nonneg hd]
      · rw [norm_smul, Real.norm_of_nonneg hd]; exact mul_le_mul_of_nonneg_left hg' hd
    -- velocities
    have q2 : ‖(ofPhase (p (k + 1))).2 - v'‖ ≤ ‖(ofPhase (p k)).2 - v‖ + d * ‖G - F‖ + d ^ 2 * C2 + C3 * d ^ 2 := by
      have e1 : (ofPhase (p (k + 1))).2 - v' = ((ofPhase (p k)).2 - v) + d • (G - F) + ((ofPhase (p (k + 1))).2 - (ofPhase (p k)).2 - d • G) - (v' - v - d • F) := by
        rw [smul_sub]; abel
      rw [e1]
      refine (norm_sub_le _ _).trans (add_le_add ((norm_add₃_le).trans (add_le_add (add_le_add (le_refl _) ?_) hc)) t2)
      rw [norm_smul, Real.norm_of_nonneg hd]
    have q3 := mul_le_mul_of_nonneg_left hFG hd
    have q4 : d ^ 2 * (C1 + A + C2 + C3) ≤ d * H * (C1 + A + C2 + C3) := by
      have := mul_le_mul_of_nonneg_left hdH (show 0 ≤ d * (C1 + A + C2 + C3) by positivity)
      linarith
    obtain ⟨ex, hex⟩ : ∃ ex, ‖(ofPhase (p k)).1 - x‖ = ex := ⟨_, rfl⟩
    obtain ⟨ev, hev⟩ : ∃ ev, ‖(ofPhase (p k)).2 - v‖ = ev := ⟨_, rfl⟩
    have hex0 : 0 ≤ ex := by rw [← hex]; exact norm_nonneg _
    have hev0 : 0 ≤ ev := by rw [← hev]; exact norm_nonneg _
    rw [hex, hev] at q1 q3 ⊢
    rw [hev] at q2
    rw [hK, hC0]
    have q5 : d * (|qm| * (L * (H + 2 * (Wn * H + ex)) + 2 * M * ev + 2 * W * (L * (2 * ex)))) + d * ev ≤
        (1 + |qm| * (2 * L + 2 * M + 4 * W * L)) * d * (ex + ev) + d * H * (|qm| * (L * (1 + 2 * Wn))) := by
      have r1 : 0 ≤ d * |qm| * L * ev := by positivity
      have r2 : 0 ≤ d * |qm| * M * ex := by positivity
      have r3 : 0 ≤ d * |qm| * W * L * ev := by positivity
      have r4 : 0 ≤ d * ex := by positivity
      linarith
    linarith

end PyECLOUD
