import Verif.Spec.Accuracy
import Verif.Lemmas.Grid
import Verif.Props.BeamMap
import Mathlib.Analysis.Convex.Deriv
import Mathlib.Analysis.Calculus.Deriv.Pow
import Mathlib.Tactic.Linarith
import Mathlib.Tactic.Positivity

/-!
# Helper lemmas for C178: the error of linear interpolation
-/

namespace PyECLOUD

set_option linter.unusedSectionVars false

theorem CurvedBy.mono {M a b c d : ℝ} {f : ℝ → ℝ} (h : CurvedBy M a b f) (hc : a ≤ c) (hd : d ≤ b) : CurvedBy M c d f := by
  obtain ⟨f1, f2, h⟩ := h
  exact ⟨f1, f2, fun x h1 h2 => h x (hc.trans h1) (h2.trans hd)⟩

/-- one side of the error bound: a function whose slope decreases at most at the rate `M` -/
theorem chord_above (M a b : ℝ) (f f1 f2 : ℝ → ℝ) (hab : a ≤ b)
    (h : ∀ x, a ≤ x → x ≤ b → HasDerivAt f (f1 x) x ∧ HasDerivAt f1 (f2 x) x ∧ -M ≤ f2 x) (p : ℝ) (h0 : 0 ≤ p) (h1 : p ≤ 1) :
    f (a + p * (b - a)) ≤ (1 - p) * f a + p * f b + M / 2 * (p * (1 - p)) * (b - a) ^ 2 := by
  have hd1 : ∀ x, a ≤ x → x ≤ b → HasDerivAt (fun x => f x + M / 2 * x ^ 2) (f1 x + M * x) x := by
    intro x ha hb
    have h2 := ((hasDerivAt_pow 2 x).const_mul (M / 2))
    have := (h x ha hb).1.add h2
    refine this.congr_deriv ?_
    norm_num
    ring
  have hd2 : ∀ x, a ≤ x → x ≤ b → HasDerivAt (fun x => f1 x + M * x) (f2 x + M) x := by
    intro x ha hb
    have := (h x ha hb).2.1.add ((hasDerivAt_id x).const_mul M)
    refine this.congr_deriv ?_
    simp
  have hint : ∀ x ∈ interior (Set.Icc a b), a ≤ x ∧ x ≤ b := fun x hx =>
    Set.mem_Icc.1 ((interior_subset : interior (Set.Icc a b) ⊆ Set.Icc a b) hx)
  have hconv : ConvexOn ℝ (Set.Icc a b) (fun x => f x + M / 2 * x ^ 2) := by
    refine convexOn_of_hasDerivWithinAt2_nonneg (convex_Icc a b) (f' := fun x => f1 x + M * x) (f'' := fun x => f2 x + M) ?_ ?_ ?_ ?_
    · intro x hx
      exact (hd1 x hx.1 hx.2).continuousAt.continuousWithinAt
    · intro x hx
      exact (hd1 x (hint x hx).1 (hint x hx).2).hasDerivWithinAt
    · intro x hx
      exact (hd2 x (hint x hx).1 (hint x hx).2).hasDerivWithinAt
    · intro x hx
      linarith [(h x (hint x hx).1 (hint x hx).2).2.2]
  have hc := hconv.2 (Set.left_mem_Icc.2 hab) (Set.right_mem_Icc.2 hab) (sub_nonneg.2 h1) h0 (by ring)
  simp only [smul_eq_mul] at hc
  rw [show (1 - p) * a + p * b = a + p * (b - a) by ring] at hc
  nlinarith [hc]

/-- the error of linear interpolation -/
theorem chord_err (M a b : ℝ) (f : ℝ → ℝ) (hab : a ≤ b) (h : CurvedBy M a b f) (p : ℝ) (h0 : 0 ≤ p) (h1 : p ≤ 1) :
    |(1 - p) * f a + p * f b - f (a + p * (b - a))| ≤ M / 8 * (b - a) ^ 2 := by
  obtain ⟨f1, f2, h⟩ := h
  have hM : 0 ≤ M := le_trans (abs_nonneg _) (h a le_rfl hab).2.2
  have u := chord_above M a b f f1 f2 hab (fun x ha hb => ⟨(h x ha hb).1, (h x ha hb).2.1, (abs_le.1 (h x ha hb).2.2).1⟩) p h0 h1
  have l := chord_above M a b (fun x => - f x) (fun x => - f1 x) (fun x => - f2 x) hab
    (fun x ha hb => ⟨(h x ha hb).1.neg, (h x ha hb).2.1.neg, by
      have := (abs_le.1 (h x ha hb).2.2).2
      linarith⟩) p h0 h1
  have hp : p * (1 - p) ≤ 1 / 4 := by nlinarith [sq_nonneg (p - 1 / 2)]
  have hb : M / 2 * (p * (1 - p)) * (b - a) ^ 2 ≤ M / 8 * (b - a) ^ 2 := by
    apply mul_le_mul_of_nonneg_right _ (sq_nonneg _)
    nlinarith
  rw [abs_le]
  constructor <;> linarith

/-- the nodes of an axis lie between its ends -/
theorem nodePos_mem (n : ℕ) (bias d : ℝ) (hd : 0 < d) (i : ℕ) (hi : i ∈ Finset.Icc 1 n) :
    bias ≤ nodePos bias d i ∧ nodePos bias d i ≤ bias + ((n : ℝ) - 1) * d := by
  rw [Finset.mem_Icc] at hi
  have h1 : (1 : ℝ) ≤ (i : ℝ) := by exact_mod_cast hi.1
  have h2 : (i : ℝ) ≤ (n : ℝ) := by exact_mod_cast hi.2
  unfold nodePos
  constructor
  · nlinarith
  · nlinarith

variable {K : Type} [Field K] [LinearOrder K] [IsStrictOrderedRing K] [FloorRing K]

/-- two maps with the same values at the nodes give the same field -/
theorem intField_nodes (nx ny : ℕ) (bx yb dx dy : K) (hdx : 0 < dx) (hdy : 0 < dy) (F G : ℕ → ℕ → K) (x y : K)
    (hx : InAxis nx bx dx x) (hy : InAxis ny yb dy y) (h : ∀ i ∈ Finset.Icc 1 nx, ∀ j ∈ Finset.Icc 1 ny, F i j = G i j) :
    intField nx ny bx yb dx dy F x y = intField nx ny bx yb dx dy G x y := by
  obtain ⟨i1, i2⟩ := iIdx_mem nx bx dx x hdx hx
  obtain ⟨j1, j2⟩ := iIdx_mem ny yb dy y hdy hy
  rw [intField_in nx ny bx yb dx dy hdx hdy F x y hx hy, intField_in nx ny bx yb dx dy hdx hdy G x y hx hy, h _ i1 _ j1, h _ i2 _ j1, h _ i1 _ j2,
    h _ i2 _ j2]

/-- the grid kept for a map with axes of constant step -/
theorem axMap_grid (m : AxMap K) (g : BeamMap K) (h : m.grid = .ok g) (x0 y0 dx dy : K) (hdx : 0 < dx) (hdy : 0 < dy)
    (hx : ∀ i, i < m.xx.length → m.xx[i]? = some (x0 + (i : K) * dx)) (hy : ∀ j, j < m.yy.length → m.yy[j]? = some (y0 + (j : K) * dy))
    (hr : m.ex.length = m.xx.length) (hc : ∀ r ∈ m.ex, r.length = m.yy.length) :
    g.nx = m.xx.length ∧ g.ny = m.yy.length ∧ g.xmin = x0 ∧ g.ymin = y0 ∧ g.dx = dx ∧ g.dy = dy ∧ g.ex = nodeVal m.ex ∧ g.ey = nodeVal m.ey := by
  unfold AxMap.grid at h
  split at h
  next a b xs c d ys hxx hyy =>
    cases h
    have a0 := hx 0 (by rw [hxx]; simp)
    have a1 := hx 1 (by rw [hxx]; simp)
    have b0 := hy 0 (by rw [hyy]; simp)
    have b1 := hy 1 (by rw [hyy]; simp)
    rw [hxx] at a0 a1
    rw [hyy] at b0 b1
    simp at a0 a1 b0 b1
    have hmx : ∀ x ∈ b :: xs, a ≤ x := by
      intro x hxm
      obtain ⟨k, hk⟩ := List.mem_iff_getElem?.1 (show x ∈ m.xx by rw [hxx]; exact List.mem_cons_of_mem _ hxm)
      have hkl := (List.getElem?_eq_some_iff.1 hk).1
      rw [hx k hkl] at hk
      have := Option.some.inj hk
      rw [← this, a0]
      have : 0 ≤ (k : K) * dx := by positivity
      linarith
    have hmy : ∀ x ∈ d :: ys, c ≤ x := by
      intro x hxm
      obtain ⟨k, hk⟩ := List.mem_iff_getElem?.1 (show x ∈ m.yy by rw [hyy]; exact List.mem_cons_of_mem _ hxm)
      have hkl := (List.getElem?_eq_some_iff.1 hk).1
      rw [hy k hkl] at hk
      have := Option.some.inj hk
      rw [← this, b0]
      have : 0 ≤ (k : K) * dy := by positivity
      linarith
    refine ⟨hr, ?_, ?_, ?_, ?_, ?_, rfl, rfl⟩
    · cases hme : m.ex with
      | nil => rw [hme, hxx] at hr; simp at hr
      | cons r rs => exact hc r (by rw [hme]; simp)
    · show (b :: xs).foldl min a = x0
      rw [foldl_min_first a _ hmx, a0]
    · show (d :: ys).foldl min c = y0
      rw [foldl_min_first c _ hmy, b0]
    · show b - a = dx
      rw [a0, a1]; ring
    · show d - c = dy
      rw [b0, b1]; ring
  next => cases h

end PyECLOUD
