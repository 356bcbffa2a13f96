import Verif.Model.Resample
import Verif.Spec.Resample
import Verif.Lemmas.Impact
import Mathlib.Algebra.Order.Ring.Abs
import Mathlib.Tactic.LinearCombination
import Mathlib.Tactic.FieldSimp
import Mathlib.Tactic.Positivity
import Mathlib.Tactic.Linarith

/-! # Interpolation of samples and least squares lines -/

namespace PyECLOUD

variable {K : Type} [Field K] [LinearOrder K] [IsStrictOrderedRing K]

/-- The samples are in the order of their energies. -/
def Rising (s : List (K × K)) : Prop := s.Pairwise (fun a b => a.1 < b.1)

theorem rising_get {s : List (K × K)} (h : Rising s) {i j : ℕ} {a b : K × K} (ha : s[i]? = some a) (hb : s[j]? = some b) (hij : i < j) :
    a.1 < b.1 := by
  obtain ⟨h1, rfl⟩ := List.getElem?_eq_some_iff.1 ha
  obtain ⟨h2, rfl⟩ := List.getElem?_eq_some_iff.1 hb
  exact List.pairwise_iff_getElem.1 h i j h1 h2 hij

theorem npInterpFrom_self (p : K × K) (l : List (K × K)) (h : Rising (p :: l)) : npInterpFrom p l p.1 = p.2 := by
  cases l with
  | nil => rfl
  | cons q l =>
    have : p.1 < q.1 := (List.pairwise_cons.1 h).1 q (by simp)
    rw [npInterpFrom, if_neg (not_le.2 this)]
    ring

theorem npInterpFrom_curve : ∀ (l : List (K × K)) (p : K × K), Rising (p :: l) → ∀ x v, OnCurve (p :: l) x v →
    p.1 ≤ x ∧ npInterpFrom p l x = v
  | [], p, _, x, v, ⟨j, a, b, lam, _, hb, _⟩ => by simp at hb
  | q :: l, p, h, x, v, ⟨j, a, b, lam, ha, hb, h0, h1, hx, hv⟩ => by
    have hpq : p.1 < q.1 := (List.pairwise_cons.1 h).1 q (by simp)
    have hq : Rising (q :: l) := (List.pairwise_cons.1 h).2
    cases j with
    | succ j =>
      have hc : OnCurve (q :: l) x v := ⟨j, a, b, lam, by simpa using ha, by simpa using hb, h0, h1, hx, hv⟩
      obtain ⟨k1, k2⟩ := npInterpFrom_curve l q hq x v hc
      exact ⟨hpq.le.trans k1, by rw [npInterpFrom, if_pos k1, k2]⟩
    | zero =>
      simp only [List.getElem?_cons_zero, Option.some.injEq, zero_add, List.getElem?_cons_succ] at ha hb
      subst ha hb
      refine ⟨by nlinarith, ?_⟩
      rw [npInterpFrom]
      by_cases hl : q.1 ≤ x
      · have : lam = 1 := by
          by_contra hne
          have hlt : lam < 1 := lt_of_le_of_ne h1 hne
          nlinarith
        subst this
        have hxq : x = q.1 := by rw [hx]; ring
        rw [if_pos hl, hxq, npInterpFrom_self q l hq, hv]
        ring
      · rw [if_neg hl, hx, hv]
        have : q.1 - p.1 ≠ 0 := (sub_pos.2 hpq).ne'
        field_simp
        ring

theorem npInterp_curve (s : List (K × K)) (h : Rising s) (x v : K) (hc : OnCurve s x v) : npInterp s x = .ok v := by
  cases s with
  | nil =>
    obtain ⟨j, a, b, lam, ha, -⟩ := hc
    simp at ha
  | cons p l =>
    obtain ⟨k1, k2⟩ := npInterpFrom_curve l p h x v hc
    rw [npInterp, if_neg (not_lt.2 k1), k2]

/-- Every point between the first and the last sample is on the curve. -/
theorem curve_exists (x : K) : ∀ (l : List (K × K)) (p : K × K), Rising (p :: l) → l ≠ [] → p.1 ≤ x → ∀ z, (p :: l).getLast? = some z →
    x ≤ z.1 → ∃ v, OnCurve (p :: l) x v
  | [], _, _, h, _, _, _, _ => absurd rfl h
  | q :: l, p, h, _, hx, z, hz, hxz => by
    have hpq : p.1 < q.1 := (List.pairwise_cons.1 h).1 q (by simp)
    have hq : Rising (q :: l) := (List.pairwise_cons.1 h).2
    by_cases hxq : x ≤ q.1
    · have hd : q.1 - p.1 ≠ 0 := (sub_pos.2 hpq).ne'
      refine ⟨_, 0, p, q, (x - p.1) / (q.1 - p.1), by simp, by simp, div_nonneg (by linarith) (by linarith), ?_, ?_, rfl⟩
      · rw [div_le_one (by linarith)]; linarith
      · field_simp; ring
    · have hz' : (q :: l).getLast? = some z := by simpa using hz
      have hl : l ≠ [] := by
        rintro rfl
        simp at hz'
        subst hz'
        exact hxq hxz
      obtain ⟨v, j, a, b, lam, ha, hb, hr⟩ := curve_exists x l q hq hl (not_le.1 hxq).le z hz' hxz
      exact ⟨v, j + 1, a, b, lam, by simpa using ha, by simpa using hb, hr⟩

theorem npInterpFrom_slope (L : K) (hL : 0 ≤ L) : ∀ (l : List (K × K)) (p : K × K), Rising (p :: l) → SlopeAtMost L (p :: l) → ∀ x y, p.1 ≤ x → x ≤ y →
    |npInterpFrom p l y - npInterpFrom p l x| ≤ L * (y - x)
  | [], p, _, _, x, y, _, hxy => by
    simp only [npInterpFrom, sub_self, abs_zero]
    exact mul_nonneg hL (sub_nonneg.2 hxy)
  | q :: l, p, h, hs, x, y, hx, hxy => by
    have hpq : p.1 < q.1 := (List.pairwise_cons.1 h).1 q (by simp)
    have hq : Rising (q :: l) := (List.pairwise_cons.1 h).2
    have hs' : SlopeAtMost L (q :: l) := fun j a b ha hb => hs (j + 1) a b (by simpa using ha) (by simpa using hb)
    have hpq2 : |q.2 - p.2| ≤ L * (q.1 - p.1) := hs 0 p q (by simp) (by simp)
    have hd : 0 < q.1 - p.1 := sub_pos.2 hpq
    have hsl : |(q.2 - p.2) / (q.1 - p.1)| ≤ L := by
      rw [abs_div, abs_of_pos hd]
      exact (div_le_iff₀ hd).2 hpq2
    have seg : ∀ u w : K, u ≤ w → |((q.2 - p.2) / (q.1 - p.1) * (w - p.1) + p.2) - ((q.2 - p.2) / (q.1 - p.1) * (u - p.1) + p.2)| ≤
        L * (w - u) := fun u w huw => by
      have e : ((q.2 - p.2) / (q.1 - p.1) * (w - p.1) + p.2) - ((q.2 - p.2) / (q.1 - p.1) * (u - p.1) + p.2) =
          (q.2 - p.2) / (q.1 - p.1) * (w - u) := by ring
      rw [e, abs_mul, abs_of_nonneg (sub_nonneg.2 huw)]
      exact mul_le_mul_of_nonneg_right hsl (sub_nonneg.2 huw)
    have hend : (q.2 - p.2) / (q.1 - p.1) * (q.1 - p.1) + p.2 = q.2 := by
      field_simp
      ring
    simp only [npInterpFrom]
    by_cases hxq : q.1 ≤ x
    · rw [if_pos hxq, if_pos (hxq.trans hxy)]
      exact npInterpFrom_slope L hL l q hq hs' x y hxq hxy
    · rw [if_neg hxq]
      by_cases hyq : q.1 ≤ y
      · rw [if_pos hyq]
        have h1 := npInterpFrom_slope L hL l q hq hs' q.1 y le_rfl hyq
        rw [npInterpFrom_self q l hq] at h1
        have h2 := seg x q.1 (not_le.1 hxq).le
        rw [hend] at h2
        calc _ ≤ |npInterpFrom q l y - q.2| + |q.2 - ((q.2 - p.2) / (q.1 - p.1) * (x - p.1) + p.2)| := abs_sub_le _ _ _
          _ ≤ L * (y - q.1) + L * (q.1 - x) := add_le_add h1 h2
          _ = L * (y - x) := by ring
      · rw [if_neg hyq]
        exact seg x y hxy

/-- Interpolated values as a function. -/
def interpVal (s : List (K × K)) (x : K) : K :=
  match s with
  | [] => 0
  | p :: l => if x < p.1 then p.2 else npInterpFrom p l x

theorem npInterp_val (s : List (K × K)) (hs : s ≠ []) (x : K) : npInterp s x = .ok (interpVal s x) := by
  cases s with
  | nil => exact absurd rfl hs
  | cons p l => rfl

theorem interpVal_curve (s : List (K × K)) (h : Rising s) (x v : K) (hc : OnCurve s x v) : interpVal s x = v := by
  have hne : s ≠ [] := by
    rintro rfl
    obtain ⟨j, a, b, lam, ha, -⟩ := hc
    simp at ha
  have := npInterp_curve s h x v hc
  rw [npInterp_val s hne] at this
  injection this

theorem interpVal_slope (L : K) (hL : 0 ≤ L) (p : K × K) (l : List (K × K)) (h : Rising (p :: l)) (hs : SlopeAtMost L (p :: l)) (x y : K)
    (hx : p.1 ≤ x) (hxy : x ≤ y) : |interpVal (p :: l) y - interpVal (p :: l) x| ≤ L * (y - x) := by
  simp only [interpVal, if_neg (not_lt.2 hx), if_neg (not_lt.2 (hx.trans hxy))]
  exact npInterpFrom_slope L hL l p h hs x y hx hxy

/-! ## Least squares -/

theorem sum_mul_left' (l : List (K × K)) (f : K × K → K) (c : K) : (l.map (fun p => c * f p)).sum = c * (l.map f).sum := by
  induction l with
  | nil => simp
  | cons p l ih => simp [ih, mul_add]

theorem sum_add' (l : List (K × K)) (f g : K × K → K) : (l.map (fun p => f p + g p)).sum = (l.map f).sum + (l.map g).sum := by
  induction l with
  | nil => simp
  | cons p l ih => simp [ih]; ring

theorem sum_nonneg' (l : List (K × K)) (f : K × K → K) (h : ∀ p ∈ l, 0 ≤ f p) : 0 ≤ (l.map f).sum := by
  refine List.sum_nonneg fun x hx => ?_
  obtain ⟨p, hp, rfl⟩ := List.mem_map.1 hx
  exact h p hp

theorem sum_zero' (l : List (K × K)) (f : K × K → K) (h : ∀ p ∈ l, 0 ≤ f p) (h0 : (l.map f).sum = 0) : ∀ p ∈ l, f p = 0 := by
  induction l with
  | nil => simp
  | cons q l ih =>
    have h1 := h q (by simp)
    have h2 := sum_nonneg' l f fun p hp => h p (by simp [hp])
    simp only [List.map_cons, List.sum_cons] at h0
    intro p hp
    rcases List.mem_cons.1 hp with rfl | hp
    · linarith
    · exact ih (fun p hp => h p (by simp [hp])) (by linarith) p hp

/-- Two different abscissae give the scatter a positive size. -/
theorem scatter_pos (l : List (K × K)) (m : K) (a b : K × K) (ha : a ∈ l) (hb : b ∈ l) (hab : a.1 ≠ b.1) :
    0 < (l.map (fun p => (p.1 - m) * (p.1 - m))).sum := by
  refine lt_of_le_of_ne (sum_nonneg' l _ fun p _ => mul_self_nonneg _) fun h => hab ?_
  have hz := sum_zero' l _ (fun p _ => mul_self_nonneg _) h.symm
  have h1 := mul_self_eq_zero.1 (hz a ha)
  have h2 := mul_self_eq_zero.1 (hz b hb)
  linarith

/-- The misfit of any line is the misfit of the fitted one and a sum of squares. -/
theorem polyfit1_split (l : List (K × K)) (a b : K × K) (ha : a ∈ l) (hb : b ∈ l) (hab : a.1 ≠ b.1) (g c : K) :
    misfit l g c = misfit l (polyfit1 l).1 (polyfit1 l).2 +
      (l.map (fun p => (((polyfit1 l).1 - g) * p.1 + ((polyfit1 l).2 - c)) ^ 2)).sum := by
  have hn : (l.length : K) ≠ 0 := by
    have : l.length ≠ 0 := by
      intro h
      rw [List.length_eq_zero_iff.1 h] at ha
      simp at ha
    exact_mod_cast this
  obtain ⟨mx, hmx⟩ : ∃ m, m = (l.map (·.1)).sum / (l.length : K) := ⟨_, rfl⟩
  obtain ⟨my, hmy⟩ : ∃ m, m = (l.map (·.2)).sum / (l.length : K) := ⟨_, rfl⟩
  have hS := (scatter_pos l mx a b ha hb hab).ne'
  obtain ⟨G, hG⟩ : ∃ G, G = (l.map (fun p => (p.1 - mx) * (p.2 - my))).sum / (l.map (fun p => (p.1 - mx) * (p.1 - mx))).sum := ⟨_, rfl⟩
  have hpoly : polyfit1 l = (G, my - G * mx) := by
    rw [hG, hmx, hmy]
    rfl
  rw [hpoly]
  -- the residuals are orthogonal to the constants and to the abscissae
  have c1 : (l.map (fun p => p.1 - mx)).sum = 0 := by
    have e : ∀ k : List (K × K), (k.map (fun p => p.1 - mx)).sum = (k.map (·.1)).sum - (k.length : K) * mx := fun k => by
      induction k with
      | nil => simp
      | cons p k ih => simp only [List.map_cons, List.sum_cons, ih, List.length_cons]; push_cast; ring
    rw [e, hmx]
    field_simp
    ring
  have c2 : (l.map (fun p => p.2 - my)).sum = 0 := by
    have e : ∀ k : List (K × K), (k.map (fun p => p.2 - my)).sum = (k.map (·.2)).sum - (k.length : K) * my := fun k => by
      induction k with
      | nil => simp
      | cons p k ih => simp only [List.map_cons, List.sum_cons, ih, List.length_cons]; push_cast; ring
    rw [e, hmy]
    field_simp
    ring
  have o1 : (l.map (fun p => p.2 - (G * p.1 + (my - G * mx)))).sum = 0 := by
    have e : (fun p : K × K => p.2 - (G * p.1 + (my - G * mx))) = fun p => (p.2 - my) + (-G) * (p.1 - mx) := by funext p; ring
    rw [e, sum_add', sum_mul_left', c1, c2]
    ring
  have o2 : (l.map (fun p => (p.1 - mx) * (p.2 - (G * p.1 + (my - G * mx))))).sum = 0 := by
    have e : (fun p : K × K => (p.1 - mx) * (p.2 - (G * p.1 + (my - G * mx)))) =
        fun p => (p.1 - mx) * (p.2 - my) + (-G) * ((p.1 - mx) * (p.1 - mx)) := by funext p; ring
    have hGS := div_mul_cancel₀ (l.map (fun p => (p.1 - mx) * (p.2 - my))).sum hS
    rw [← hG] at hGS
    rw [e, sum_add', sum_mul_left']
    linarith
  have hcross : (l.map (fun p => (2 * (G - g)) * ((p.1 - mx) * (p.2 - (G * p.1 + (my - G * mx)))) +
      (2 * ((G - g) * mx + (my - G * mx - c))) * (p.2 - (G * p.1 + (my - G * mx))))).sum = 0 := by
    rw [sum_add', sum_mul_left', sum_mul_left', o1, o2]
    ring
  have e : (fun p : K × K => (p.2 - (g * p.1 + c)) ^ 2) = fun p => ((p.2 - (G * p.1 + (my - G * mx))) ^ 2 +
      ((G - g) * p.1 + (my - G * mx - c)) ^ 2) + ((2 * (G - g)) * ((p.1 - mx) * (p.2 - (G * p.1 + (my - G * mx)))) +
      (2 * ((G - g) * mx + (my - G * mx - c))) * (p.2 - (G * p.1 + (my - G * mx)))) := by
    funext p
    ring
  rw [misfit, e, sum_add', hcross, sum_add', add_zero, misfit]

end PyECLOUD
