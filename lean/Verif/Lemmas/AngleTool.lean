import Verif.Model.AngleTool
import Verif.Lemmas.Resample
import Verif.Lemmas.Polygon
import Mathlib.Algebra.BigOperators.Group.Finset.Basic
import Mathlib.Algebra.Order.BigOperators.Group.Finset

/-! # Tables of inverse distribution functions -/

namespace PyECLOUD

variable {K : Type} [Field K] [LinearOrder K] [IsStrictOrderedRing K]

/-- The numbers do not fall, the angles rise. -/
def Climbing (s : List (K × K)) : Prop := s.Pairwise (fun a b => a.1 ≤ b.1 ∧ a.2 < b.2)

theorem climb_seg {p q : K × K} {x : K} (h1 : p.1 ≤ x) (h2 : x < q.1) (h : p.2 < q.2) :
    p.2 ≤ (q.2 - p.2) / (q.1 - p.1) * (x - p.1) + p.2 ∧ (q.2 - p.2) / (q.1 - p.1) * (x - p.1) + p.2 ≤ q.2 ∧
      (p.1 < x → p.2 < (q.2 - p.2) / (q.1 - p.1) * (x - p.1) + p.2) := by
  have hd : 0 < q.1 - p.1 := by linarith
  have hs : 0 < (q.2 - p.2) / (q.1 - p.1) := div_pos (by linarith) hd
  refine ⟨by nlinarith, ?_, fun h => by nlinarith⟩
  have e : (q.2 - p.2) / (q.1 - p.1) * (q.1 - p.1) = q.2 - p.2 := div_mul_cancel₀ _ hd.ne'
  nlinarith

theorem climb_first : ∀ (l : List (K × K)) (p : K × K) (x : K), Climbing (p :: l) → p.1 ≤ x → p.2 ≤ npInterpFrom p l x
  | [], p, x, _, _ => le_rfl
  | q :: l, p, x, h, hx => by
    have hpq := (List.pairwise_cons.1 h).1 q (by simp)
    rw [npInterpFrom]
    split
    · next hq => exact hpq.2.le.trans (climb_first l q x (List.pairwise_cons.1 h).2 hq)
    · next hq => exact (climb_seg hx (not_le.1 hq) hpq.2).1

theorem climb_mono : ∀ (l : List (K × K)) (p : K × K) (x y : K), Climbing (p :: l) → p.1 ≤ x → x ≤ y →
    npInterpFrom p l x ≤ npInterpFrom p l y
  | [], p, x, y, _, _, _ => le_rfl
  | q :: l, p, x, y, h, hx, hxy => by
    have hpq := (List.pairwise_cons.1 h).1 q (by simp)
    have hq := (List.pairwise_cons.1 h).2
    simp only [npInterpFrom]
    by_cases h1 : q.1 ≤ x
    · rw [if_pos h1, if_pos (h1.trans hxy)]
      exact climb_mono l q x y hq h1 hxy
    · rw [if_neg h1]
      have s1 := climb_seg hx (not_le.1 h1) hpq.2
      by_cases h2 : q.1 ≤ y
      · rw [if_pos h2]
        exact s1.2.1.trans (climb_first l q y hq h2)
      · rw [if_neg h2]
        have hd : 0 < q.1 - p.1 := by linarith [not_le.1 h1]
        have hs : 0 < (q.2 - p.2) / (q.1 - p.1) := div_pos (by linarith [hpq.2]) hd
        nlinarith

/-- below the number of a node the angle is not above that of the node -/
theorem climb_below : ∀ (l : List (K × K)) (p : K × K) (x : K), Climbing (p :: l) → p.1 ≤ x → ∀ r ∈ p :: l, x < r.1 →
    npInterpFrom p l x ≤ r.2
  | [], p, x, _, hx, r, hr, hxr => by
    simp at hr
    subst hr
    exact absurd hxr (not_lt.2 hx)
  | q :: l, p, x, h, hx, r, hr, hxr => by
    have hpq := (List.pairwise_cons.1 h).1 q (by simp)
    have hq := (List.pairwise_cons.1 h).2
    rcases List.mem_cons.1 hr with rfl | hr'
    · exact absurd hxr (not_lt.2 hx)
    rw [npInterpFrom]
    by_cases h1 : q.1 ≤ x
    · rw [if_pos h1]
      exact climb_below l q x hq h1 r hr' hxr
    · rw [if_neg h1]
      have s1 := (climb_seg hx (not_le.1 h1) hpq.2).2.1
      rcases List.mem_cons.1 hr' with rfl | hr''
      · exact s1
      · exact s1.trans ((List.pairwise_cons.1 hq).1 r hr'').2.le

/-- above the number of a node the angle is above that of the node -/
theorem climb_above : ∀ (l : List (K × K)) (p : K × K) (x : K), Climbing (p :: l) → ∀ z, (p :: l).getLast? = some z → x ≤ z.1 →
    ∀ r ∈ p :: l, r.1 < x → r.2 < npInterpFrom p l x
  | [], p, x, _, z, hz, hxz, r, hr, hrx => by
    simp at hr hz
    subst hr hz
    exact absurd hrx (not_lt.2 hxz)
  | q :: l, p, x, h, z, hz, hxz, r, hr, hrx => by
    have hpq := (List.pairwise_cons.1 h).1 q (by simp)
    have hq := (List.pairwise_cons.1 h).2
    have hz' : (q :: l).getLast? = some z := by simpa using hz
    rw [npInterpFrom]
    rcases List.mem_cons.1 hr with rfl | hr'
    · by_cases h1 : q.1 ≤ x
      · rw [if_pos h1]
        exact lt_of_lt_of_le hpq.2 (climb_first l q x hq h1)
      · rw [if_neg h1]
        exact (climb_seg hrx.le (not_le.1 h1) hpq.2).2.2 hrx
    · have h1 : q.1 ≤ x := by
        rcases List.mem_cons.1 hr' with rfl | hr''
        · exact hrx.le
        · exact ((List.pairwise_cons.1 hq).1 r hr'').1.trans hrx.le
      rw [if_pos h1]
      exact climb_above l q x hq z hz' hxz r hr' hrx

theorem interp_nonneg : ∀ (l : List (K × K)) (p : K × K) (x : K), Rising (p :: l) → (∀ q ∈ p :: l, 0 ≤ q.2) → p.1 ≤ x → 0 ≤ npInterpFrom p l x
  | [], p, x, _, h0, _ => h0 p (by simp)
  | q :: l, p, x, h, h0, hx => by
    have hpq : p.1 < q.1 := (List.pairwise_cons.1 h).1 q (by simp)
    rw [npInterpFrom]
    by_cases h1 : q.1 ≤ x
    · rw [if_pos h1]
      exact interp_nonneg l q x (List.pairwise_cons.1 h).2 (fun r hr => h0 r (by simp [hr])) h1
    · rw [if_neg h1]
      have hd : 0 < q.1 - p.1 := sub_pos.2 hpq
      have e : (q.2 - p.2) / (q.1 - p.1) * (x - p.1) + p.2 = ((x - p.1) * q.2 + (q.1 - x) * p.2) / (q.1 - p.1) := by
        field_simp
        ring
      rw [e]
      have a1 := mul_nonneg (sub_nonneg.2 hx) (h0 q (by simp))
      have a2 := mul_nonneg (sub_nonneg.2 (not_le.1 h1).le) (h0 p (by simp))
      exact div_nonneg (by linarith) hd.le

theorem interpVal_nonneg (s : List (K × K)) (h : Rising s) (h0 : ∀ q ∈ s, 0 ≤ q.2) (x : K) : 0 ≤ interpVal s x := by
  cases s with
  | nil => exact le_rfl
  | cons p l =>
    rw [interpVal]
    by_cases hx : x < p.1
    · rw [if_pos hx]
      exact h0 p (by simp)
    · rw [if_neg hx]
      exact interp_nonneg l p x h h0 (not_lt.1 hx)

theorem pairs_range {α : Type} (f : ℕ → α) (m : ℕ) : pairs ((List.range (m + 1)).map f) = (List.range m).map (fun i => (f i, f (i + 1))) := by
  induction m with
  | zero => rfl
  | succ m ih =>
    rw [List.range_succ, List.range_succ, List.map_append, List.map_append, List.append_assoc]
    show pairs ((List.range m).map f ++ [f m, f (m + 1)]) = _
    rw [pairs_append_single]
    have : (List.range m).map f ++ [f m] = (List.range (m + 1)).map f := by rw [List.range_succ, List.map_append]; rfl
    rw [this, ih, List.map_append]
    rfl

theorem cumSum_range (a : K) (g : ℕ → K) (m : ℕ) :
    cumSum a ((List.range m).map g) = (List.range m).map (fun i => a + ∑ k ∈ Finset.range (i + 1), g k) := by
  induction m generalizing a g with
  | zero => rfl
  | succ m ih =>
    rw [List.range_succ_eq_map, List.map_cons, List.map_map, cumSum, ih]
    rw [List.map_cons, List.map_map]
    congr 1
    · simp
    · refine List.map_congr_left fun i _ => ?_
      show _ = a + ∑ k ∈ Finset.range (i + 1 + 1), g k
      rw [Finset.sum_range_succ' g (i + 1)]
      show a + g 0 + ∑ k ∈ Finset.range (i + 1), g (k + 1) = _
      ring

theorem foldl_max_top : ∀ (l : List K) (a : K), (a :: l).Pairwise (· ≤ ·) → ∀ z, (a :: l).getLast? = some z → l.foldl max a = z
  | [], a, _, z, hz => by simpa using hz
  | x :: l, a, h, z, hz => by
    have hx : a ≤ x := (List.pairwise_cons.1 h).1 x (by simp)
    rw [List.foldl_cons, max_eq_right hx]
    exact foldl_max_top l x (List.pairwise_cons.1 h).2 z (by simpa using hz)

end PyECLOUD
