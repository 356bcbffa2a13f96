import Verif.Spec.Accuracy
import Verif.Lemmas.Accuracy
import Verif.Props.Grid
import Verif.Props.Profile
import Verif.Props.Yield
import Verif.Props.CrossIon

/-!
# Property C178: maps and tables are accurate to second order between their nodes
-/

namespace PyECLOUD

set_option linter.unusedSectionVars false

/-- **C178** (fields). The field PyECLOUD uses at a point inside a grid, when the values at the nodes are those of a quantity `f`, differs from `f`
at that point by at most an eighth of the curvatures of `f` along the two axes times the squares of the steps of the grid. -/
theorem C178_field (nx ny : ℕ) (bx yb dx dy : ℝ) (hdx : 0 < dx) (hdy : 0 < dy) (f : ℝ → ℝ → ℝ) (Mx My : ℝ)
    (hf : FieldCurvedBy Mx My bx (bx + ((nx : ℝ) - 1) * dx) yb (yb + ((ny : ℝ) - 1) * dy) f) (F : ℕ → ℕ → ℝ)
    (hF : ∀ i ∈ Finset.Icc 1 nx, ∀ j ∈ Finset.Icc 1 ny, F i j = f (nodePos bx dx i) (nodePos yb dy j)) (x y : ℝ)
    (hx : InAxis nx bx dx x) (hy : InAxis ny yb dy y) :
    |intField nx ny bx yb dx dy F x y - f x y| ≤ (Mx * dx ^ 2 + My * dy ^ 2) / 8 := by
  obtain ⟨i1, i2⟩ := iIdx_mem nx bx dx x hdx hx
  obtain ⟨j1, j2⟩ := iIdx_mem ny yb dy y hdy hy
  obtain ⟨-, p0, p1⟩ := iIdx_pos ((iIdx_guard nx bx dx x hdx).2 hx).1
  obtain ⟨-, q0, q1⟩ := iIdx_pos ((iIdx_guard ny yb dy y hdy).2 hy).1
  have ex := pos_eq nx bx dx x hdx hx
  have ey := pos_eq ny yb dy y hdy hy
  rw [intField_in nx ny bx yb dx dy hdx hdy F x y hx hy, hF _ i1 _ j1, hF _ i2 _ j1, hF _ i1 _ j2, hF _ i2 _ j2]
  generalize hIdx bx dx x = p at *
  generalize hIdx yb dy y = q at *
  generalize (iIdx bx dx x).toNat = i at *
  generalize (iIdx yb dy y).toNat = j at *
  obtain ⟨a1, -⟩ := nodePos_mem nx bx dx hdx i i1
  obtain ⟨-, a2⟩ := nodePos_mem nx bx dx hdx (i + 1) i2
  obtain ⟨b1, b1'⟩ := nodePos_mem ny yb dy hdy j j1
  obtain ⟨b2', b2⟩ := nodePos_mem ny yb dy hdy (j + 1) j2
  have sx : nodePos bx dx (i + 1) = nodePos bx dx i + dx := by unfold nodePos; push_cast; ring
  have sy : nodePos yb dy (j + 1) = nodePos yb dy j + dy := by unfold nodePos; push_cast; ring
  have r1 := chord_err Mx _ _ _ (by linarith) ((hf.1 _ b1 b1').mono a1 a2) p p0 p1.le
  have r2 := chord_err Mx _ _ _ (by linarith) ((hf.1 _ b2' b2).mono a1 a2) p p0 p1.le
  have r3 := chord_err My _ _ _ (by linarith) ((hf.2 x hx.1 hx.2.le).mono b1 b2) q q0 q1.le
  rw [sx, sy] at *
  generalize nodePos bx dx i = X at *
  generalize nodePos yb dy j = Y at *
  simp only [add_sub_cancel_left] at r1 r2 r3
  rw [← ex] at r1 r2
  rw [← ey] at r3
  rw [abs_le] at *
  constructor
  · nlinarith [mul_le_mul_of_nonneg_left r1.1 (sub_nonneg.2 q1.le), mul_le_mul_of_nonneg_left r2.1 q0, r3.1]
  · nlinarith [mul_le_mul_of_nonneg_left r1.2 (sub_nonneg.2 q1.le), mul_le_mul_of_nonneg_left r2.2 q0, r3.2]

/-- **C178** (maps of the field of the beam). Inside a map with axes of constant positive step, made from a field with components `fx`, `fy`, the field of
the beam is the one the map was made from up to an eighth of its curvatures times the squares of the steps. -/
theorem C178_beam (m : AxMap ℝ) (g : BeamMap ℝ) (h : m.grid = .ok g) (x0 y0 dx dy : ℝ) (hdx : 0 < dx) (hdy : 0 < dy)
    (hx : ∀ i, i < m.xx.length → m.xx[i]? = some (x0 + (i : ℝ) * dx)) (hy : ∀ j, j < m.yy.length → m.yy[j]? = some (y0 + (j : ℝ) * dy))
    (hr : m.ex.length = m.xx.length) (hc : ∀ r ∈ m.ex, r.length = m.yy.length) (fx fy : ℝ → ℝ → ℝ) (Mx My : ℝ)
    (hm : ∀ i < m.xx.length, ∀ j < m.yy.length, (m.ex.getD i []).getD j 0 = fx (x0 + (i : ℝ) * dx) (y0 + (j : ℝ) * dy) ∧
      (m.ey.getD i []).getD j 0 = fy (x0 + (i : ℝ) * dx) (y0 + (j : ℝ) * dy))
    (cx : FieldCurvedBy Mx My x0 (x0 + ((m.xx.length : ℝ) - 1) * dx) y0 (y0 + ((m.yy.length : ℝ) - 1) * dy) fx)
    (cy : FieldCurvedBy Mx My x0 (x0 + ((m.xx.length : ℝ) - 1) * dx) y0 (y0 + ((m.yy.length : ℝ) - 1) * dy) fy) (x y : ℝ)
    (ix : x0 ≤ x ∧ x < x0 + ((m.xx.length : ℝ) - 1) * dx) (iy : y0 ≤ y ∧ y < y0 + ((m.yy.length : ℝ) - 1) * dy) :
    |intField g.nx g.ny g.xmin g.ymin g.dx g.dy g.ex x y - fx x y| ≤ (Mx * dx ^ 2 + My * dy ^ 2) / 8 ∧
    |intField g.nx g.ny g.xmin g.ymin g.dx g.dy g.ey x y - fy x y| ≤ (Mx * dx ^ 2 + My * dy ^ 2) / 8 := by
  obtain ⟨g1, g2, g3, g4, g5, g6, g7, g8⟩ := axMap_grid m g h x0 y0 dx dy hdx hdy hx hy hr hc
  rw [g1, g2, g3, g4, g5, g6, g7, g8]
  have hnode : ∀ (b d : ℝ) (n i : ℕ), i ∈ Finset.Icc 1 n → i - 1 < n ∧ b + ((i - 1 : ℕ) : ℝ) * d = nodePos b d i := by
    intro b d n i hi
    rw [Finset.mem_Icc] at hi
    refine ⟨by omega, ?_⟩
    unfold nodePos
    rw [Nat.cast_sub hi.1, Nat.cast_one]
  constructor
  · refine C178_field _ _ x0 y0 dx dy hdx hdy fx Mx My cx _ ?_ x y ix iy
    intro i hi j hj
    obtain ⟨i1, i2⟩ := hnode x0 dx _ i hi
    obtain ⟨j1, j2⟩ := hnode y0 dy _ j hj
    rw [← i2, ← j2]
    exact (hm _ i1 _ j1).1
  · refine C178_field _ _ x0 y0 dx dy hdx hdy fy Mx My cy _ ?_ x y ix iy
    intro i hi j hj
    obtain ⟨i1, i2⟩ := hnode x0 dx _ i hi
    obtain ⟨j1, j2⟩ := hnode y0 dy _ j hj
    rw [← i2, ← j2]
    exact (hm _ i1 _ j1).2

theorem FieldCurvedBy.scale {Mx My xa xb ya yb : ℝ} {f : ℝ → ℝ → ℝ} (c : ℝ) (h : FieldCurvedBy Mx My xa xb ya yb f) :
    FieldCurvedBy (|c| * Mx) (|c| * My) xa xb ya yb (fun x y => c * f x y) := by
  constructor
  · intro y h1 h2
    obtain ⟨f1, f2, h'⟩ := h.1 y h1 h2
    refine ⟨fun x => c * f1 x, fun x => c * f2 x, fun x a b => ?_⟩
    obtain ⟨u, v, w⟩ := h' x a b
    refine ⟨u.const_mul c, v.const_mul c, ?_⟩
    rw [abs_mul]
    exact mul_le_mul_of_nonneg_left w (abs_nonneg c)
  · intro y h1 h2
    obtain ⟨f1, f2, h'⟩ := h.2 y h1 h2
    refine ⟨fun x => c * f1 x, fun x => c * f2 x, fun x a b => ?_⟩
    obtain ⟨u, v, w⟩ := h' x a b
    refine ⟨u.const_mul c, v.const_mul c, ?_⟩
    rw [abs_mul]
    exact mul_le_mul_of_nonneg_left w (abs_nonneg c)

/-- **C178** (maps of magnetic fields). Inside a map with axes of constant positive step, made from a field with components `fx`, `fy`, the magnetic field that
acts on the electrons is the factor times the field the map was made from, plus the uniform field, up to the factor times an eighth of the curvatures times
the squares of the steps. -/
theorem C178_magnet (fact : ℝ) (m : AxMap ℝ) (bz : Option (List (List ℝ))) (src : BSrc ℝ) (h : bmapLoad fact m bz = .ok src) (b0 : V3 ℝ)
    (x0 y0 dx dy : ℝ) (hdx : 0 < dx) (hdy : 0 < dy)
    (hx : ∀ i, i < m.xx.length → m.xx[i]? = some (x0 + (i : ℝ) * dx)) (hy : ∀ j, j < m.yy.length → m.yy[j]? = some (y0 + (j : ℝ) * dy))
    (hr : m.ex.length = m.xx.length) (hc : ∀ r ∈ m.ex, r.length = m.yy.length) (fx fy : ℝ → ℝ → ℝ) (Mx My : ℝ)
    (hm : ∀ i < m.xx.length, ∀ j < m.yy.length, (m.ex.getD i []).getD j 0 = fx (x0 + (i : ℝ) * dx) (y0 + (j : ℝ) * dy) ∧
      (m.ey.getD i []).getD j 0 = fy (x0 + (i : ℝ) * dx) (y0 + (j : ℝ) * dy))
    (cx : FieldCurvedBy Mx My x0 (x0 + ((m.xx.length : ℝ) - 1) * dx) y0 (y0 + ((m.yy.length : ℝ) - 1) * dy) fx)
    (cy : FieldCurvedBy Mx My x0 (x0 + ((m.xx.length : ℝ) - 1) * dx) y0 (y0 + ((m.yy.length : ℝ) - 1) * dy) fy) (x y : ℝ)
    (ix : x0 ≤ x ∧ x < x0 + ((m.xx.length : ℝ) - 1) * dx) (iy : y0 ≤ y ∧ y < y0 + ((m.yy.length : ℝ) - 1) * dy) :
    |(src.getB b0 x y).x - (fact * fx x y + b0.x)| ≤ |fact| * ((Mx * dx ^ 2 + My * dy ^ 2) / 8) ∧
    |(src.getB b0 x y).y - (fact * fy x y + b0.y)| ≤ |fact| * ((Mx * dx ^ 2 + My * dy ^ 2) / 8) := by
  unfold bmapLoad at h
  cases hg : AxMap.grid { m with ex := scaleMap fact m.ex, ey := scaleMap fact m.ey } with
  | error e => simp only [hg] at h; cases h
  | ok g =>
    simp only [hg] at h
    cases h
    obtain ⟨n1, n2⟩ := C178_beam { m with ex := scaleMap fact m.ex, ey := scaleMap fact m.ey } g hg x0 y0 dx dy hdx hdy hx hy
      (by simp [scaleMap, hr]) (by
        intro r hr'
        obtain ⟨q, q1, q2⟩ := List.mem_map.mp hr'
        rw [← q2, List.length_map]
        exact hc q q1) (fun x y => fact * fx x y) (fun x y => fact * fy x y) (|fact| * Mx) (|fact| * My) (by
        intro i hi j hj
        have e1 : ((scaleMap fact m.ex).getD i []).getD j 0 = fact * (m.ex.getD i []).getD j 0 := getD_map2 fact m.ex i j
        have e2 : ((scaleMap fact m.ey).getD i []).getD j 0 = fact * (m.ey.getD i []).getD j 0 := getD_map2 fact m.ey i j
        dsimp only
        rw [e1, e2, (hm i hi j hj).1, (hm i hi j hj).2]
        exact ⟨rfl, rfl⟩) (cx.scale fact) (cy.scale fact) x y ix iy
    unfold BSrc.getB
    dsimp only
    constructor
    · calc |_ + b0.x - (fact * fx x y + b0.x)| = |intField g.nx g.ny g.xmin g.ymin g.dx g.dy g.ex x y - fact * fx x y| := by congr 1; ring
        _ ≤ _ := n1
        _ = _ := by ring
    · calc |_ + b0.y - (fact * fy x y + b0.y)| = |intField g.nx g.ny g.xmin g.ymin g.dx g.dy g.ey x y - fact * fy x y| := by congr 1; ring
        _ ≤ _ := n2
        _ = _ := by ring

/-- **C178** (tables of yields). For a table whose step is a whole number of meV, made from a yield curve `f`, the value read at any energy within the table is
the one of the curve up to an eighth of its curvature times the square of the step. -/
theorem C178_yield (e0 d : ℝ) (n : ℕ) (hn : 2 ≤ n) (hd : 0 < d) (hr : round3 d = d) (tr el : List ℝ)
    (cT gT cE gE : ℝ) (scale shift : Bool) (t : SeyTable ℝ)
    (ht : seyTableOf (tabEnergies e0 d n) tr el cT gT cE gE scale shift = .ok t)
    (col : List ℝ) (f : ℝ → ℝ) (M : ℝ) (hcol : col = (tabEnergies e0 d n).map f) (hf : CurvedBy M e0 (e0 + ((n : ℝ) - 1) * d) f) (c g e : ℝ)
    (h1 : e0 ≤ e) (h2 : e ≤ e0 + ((n : ℝ) - 1) * d) :
    ∃ v, tabValue t col c g e = .ok v ∧ |v - f e| ≤ M * d ^ 2 / 8 := by
  have hlen : col.length = n := by rw [hcol]; simp [tabEnergies]
  have hval : ∀ (k : ℕ) (a : ℝ), col[k]? = some a → k < n ∧ a = f (e0 + (k : ℝ) * d) := by
    intro k a hk
    have hkn : k < n := by rw [← hlen]; exact (List.getElem?_eq_some_iff.1 hk).1
    refine ⟨hkn, ?_⟩
    rw [hcol] at hk
    simp [tabEnergies, hkn] at hk
    exact hk.symm
  obtain ⟨c1, -, c3, -⟩ := C29_interpolation_partial e0 d n hn hd hr tr el cT gT cE gE scale shift t ht col hlen c g
  obtain ⟨k, a, b, v, ka, kb, l1, l2, -⟩ := c3 e h1 h2
  obtain ⟨ha, rfl⟩ := hval k a ka
  obtain ⟨hb, rfl⟩ := hval (k + 1) b kb
  have q0 : 0 ≤ (e - (e0 + (k : ℝ) * d)) / d := div_nonneg (by linarith) hd.le
  have q1 : (e - (e0 + (k : ℝ) * d)) / d ≤ 1 := by rw [div_le_one hd]; linarith
  have he : (1 - (e - (e0 + (k : ℝ) * d)) / d) * (e0 + (k : ℝ) * d) + (e - (e0 + (k : ℝ) * d)) / d * (e0 + ((k : ℝ) + 1) * d) = e := by
    field_simp; ring
  have hv := c1 k _ _ _ ka kb q0 q1
  rw [he] at hv
  refine ⟨_, hv, ?_⟩
  have hkn : ((k + 1 : ℕ) : ℝ) ≤ (n : ℝ) - 1 := by
    have : ((k + 2 : ℕ) : ℝ) ≤ (n : ℝ) := by exact_mod_cast hb
    push_cast at this ⊢
    linarith
  have r := chord_err M (e0 + (k : ℝ) * d) (e0 + ((k + 1 : ℕ) : ℝ) * d) f (by push_cast; nlinarith)
    (hf.mono (by nlinarith [(Nat.cast_nonneg k : (0 : ℝ) ≤ (k : ℝ))]) (by nlinarith)) _ q0 q1
  rw [show e0 + ((k + 1 : ℕ) : ℝ) * d - (e0 + (k : ℝ) * d) = d by push_cast; ring, div_mul_cancel₀ _ hd.ne',
    show e0 + (k : ℝ) * d + (e - (e0 + (k : ℝ) * d)) = e by ring] at r
  linarith

/-- **C178** (tables of cross sections). For a table with a constant step in energy, a whole number of 1e-8 eV, made from a cross section `f`, the cross section
used at any energy within the table is the one of the curve (in square metres) up to an eighth of its curvature times the square of the step. -/
theorem C178_cross_section (lg : ℝ → ℝ) (e0 de : ℝ) (n : ℕ) (z : ℤ) (hz : de = (z : ℝ) / 10 ^ 8) (hde : 0 < de) (f : ℝ → ℝ) (M : ℝ)
    (hf : CurvedBy M e0 (e0 + ((n : ℝ) + 1) * de) f) :
    ∃ T, mkXTable lg (uniformGrid e0 de (n + 2)) ((uniformGrid e0 de (n + 2)).map f) = .ok T ∧
      ∀ e : ℝ, e0 ≤ e → e ≤ e0 + ((n : ℝ) + 1) * de → ∃ s, T.getSigma lg e = .ok s ∧ |s - f e / 10 ^ 4| ≤ M * de ^ 2 / 8 / 10 ^ 4 := by
  obtain ⟨T, hT, h⟩ := C68_linear_table lg e0 de n z hz hde ((uniformGrid e0 de (n + 2)).map f) (by simp [uniformGrid])
  refine ⟨T, hT, fun e h1 h2 => ?_⟩
  obtain ⟨i, r, a, b, r0, r1, he, ha, hb, hs⟩ := (h e).2 h1 h2
  refine ⟨_, hs, ?_⟩
  have hval : ∀ (k : ℕ) (a : ℝ), ((uniformGrid e0 de (n + 2)).map f)[k]? = some a → k < n + 2 ∧ a = f (e0 + (k : ℝ) * de) := by
    intro k a hk
    have hkn : k < n + 2 := by simpa [uniformGrid] using (List.getElem?_eq_some_iff.1 hk).1
    refine ⟨hkn, ?_⟩
    simp [uniformGrid, hkn] at hk
    exact hk.symm
  have hM : 0 ≤ M := by
    obtain ⟨f1, f2, h'⟩ := hf
    exact le_trans (abs_nonneg _) (h' e h1 h2).2.2
  have hmain : |lerp a b r - f e| ≤ M * de ^ 2 / 8 := by
    obtain ⟨hi, rfl⟩ := hval i a ha
    rcases hb with hb | ⟨-, rfl, rfl⟩
    · obtain ⟨hi1, rfl⟩ := hval (i + 1) b hb
      have hkn : ((i + 1 : ℕ) : ℝ) ≤ (n : ℝ) + 1 := by
        have : ((i + 2 : ℕ) : ℝ) ≤ ((n + 2 : ℕ) : ℝ) := by exact_mod_cast hi1
        push_cast at this ⊢
        linarith
      have q := chord_err M (e0 + (i : ℝ) * de) (e0 + ((i + 1 : ℕ) : ℝ) * de) f (by push_cast; nlinarith)
        (hf.mono (by nlinarith [(Nat.cast_nonneg i : (0 : ℝ) ≤ (i : ℝ))]) (by nlinarith)) r r0 r1.le
      rw [show e0 + ((i + 1 : ℕ) : ℝ) * de - (e0 + (i : ℝ) * de) = de by push_cast; ring,
        show e0 + (i : ℝ) * de + r * de = e by rw [he]; ring] at q
      unfold lerp
      linarith
    · rw [show e = e0 + (i : ℝ) * de by rw [he]; ring]
      unfold lerp
      rw [sub_zero, one_mul, zero_mul, add_zero, sub_self, abs_zero]
      positivity
  rw [show lerp a b r * (1 / 10 ^ 4) - f e / 10 ^ 4 = (lerp a b r - f e) / 10 ^ 4 by ring, abs_div, abs_of_pos (by positivity : (0 : ℝ) < 10 ^ 4)]
  exact div_le_div_of_nonneg_right hmain (by positivity)

/-- the hypotheses are met by a field that is not linear: a sextupole field on a map of 5 by 5 nodes -/
example : FieldCurvedBy 2 2 (-2) (-2 + (((5 : ℕ) : ℝ) - 1) * 1) (-2) (-2 + (((5 : ℕ) : ℝ) - 1) * 1) (fun x y => x ^ 2 - y ^ 2) ∧
    |intField 5 5 (-2 : ℝ) (-2) 1 1 (fun i j => (fun x y => x ^ 2 - y ^ 2) (nodePos (-2) 1 i) (nodePos (-2) 1 j)) (1 / 2) (1 / 3) -
      ((1 / 2) ^ 2 - (1 / 3) ^ 2)| ≤ 1 / 2 := by
  have hf : FieldCurvedBy 2 2 (-2) (-2 + (((5 : ℕ) : ℝ) - 1) * 1) (-2) (-2 + (((5 : ℕ) : ℝ) - 1) * 1) (fun x y => x ^ 2 - y ^ 2) := by
    constructor
    · intro y _ _
      refine ⟨fun x => 2 * x, fun _ => 2, fun x _ _ => ⟨?_, ?_, by norm_num⟩⟩
      · have := (hasDerivAt_pow 2 x).sub_const (y ^ 2)
        exact this.congr_deriv (by norm_num)
      · exact ((hasDerivAt_id x).const_mul 2).congr_deriv (by norm_num)
    · intro x _ _
      refine ⟨fun y => -(2 * y), fun _ => -2, fun y _ _ => ⟨?_, ?_, by norm_num⟩⟩
      · have := (hasDerivAt_pow 2 y).const_sub (x ^ 2)
        exact this.congr_deriv (by norm_num)
      · exact ((hasDerivAt_id y).const_mul 2).neg.congr_deriv (by norm_num)
  refine ⟨hf, ?_⟩
  refine le_trans (C178_field 5 5 (-2) (-2) 1 1 (by norm_num) (by norm_num) (fun x y => x ^ 2 - y ^ 2) 2 2 hf _ (fun _ _ _ _ => rfl) (1 / 2) (1 / 3) ?_ ?_) ?_
  · constructor <;> norm_num
  · constructor <;> norm_num
  · norm_num

/-- the bound cannot be improved: for a quadratic field the error in the middle of a cell is the bound -/
theorem C178_sharp : intField 3 3 (-1 : ℚ) (-1) 1 1 (fun i j => nodePos (-1) 1 i ^ 2 + nodePos (-1) 1 j ^ 2) (1 / 2) (1 / 2) -
    ((1 / 2) ^ 2 + (1 / 2) ^ 2) = (2 * 1 ^ 2 + 2 * 1 ^ 2) / 8 := by
  decide +kernel

end PyECLOUD
