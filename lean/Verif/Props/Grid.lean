import Verif.Lemmas.Grid

/-! # Properties of the grid kernels (C21, C22) and of the per-segment accumulation -/

set_option linter.unusedSectionVars false

namespace PyECLOUD

variable {K : Type} [Field K] [LinearOrder K] [FloorRing K] [IsStrictOrderedRing K]

/-- the particles `(x, y, nel)` inside the grid -/
def inside (nx ny : ℕ) (bx yb dh : K) (ps : List (K × K × K)) : List (K × K × K) :=
  ps.filter (fun p => decide (InAxis nx bx dh p.1 ∧ InAxis ny yb dh p.2.1))

/-! ## C22 -/

/-- C22, convexity: inside the grid the interpolated value lies between any two bounds of the field on the
surrounding nodes (those within one step in both directions). -/
theorem C22_convex (nx ny : ℕ) (bx yb dx dy : K) (hdx : 0 < dx) (hdy : 0 < dy) (F : ℕ → ℕ → K) (x y lo hi : K)
    (hx : InAxis nx bx dx x) (hy : InAxis ny yb dy y)
    (hF : ∀ i ∈ Finset.Icc 1 nx, ∀ j ∈ Finset.Icc 1 ny, |x - nodePos bx dx i| ≤ dx → |y - nodePos yb dy j| ≤ dy →
      lo ≤ F i j ∧ F i j ≤ hi) :
    lo ≤ intField nx ny bx yb dx dy F x y ∧ intField nx ny bx yb dx dy F x y ≤ hi := by
  rw [intField_in nx ny bx yb dx dy hdx hdy F x y hx hy]
  obtain ⟨-, p0, p1⟩ := iIdx_pos ((iIdx_guard nx bx dx x hdx).2 hx).1
  obtain ⟨-, q0, q1⟩ := iIdx_pos ((iIdx_guard ny yb dy y hdy).2 hy).1
  obtain ⟨ma, ma'⟩ := iIdx_mem nx bx dx x hdx hx
  obtain ⟨mb, mb'⟩ := iIdx_mem ny yb dy y hdy hy
  have near : ∀ (n : ℕ) (b d x : K), 0 < d → InAxis n b d x → 0 ≤ hIdx b d x → hIdx b d x < 1 →
      |x - nodePos b d (iIdx b d x).toNat| ≤ d ∧ |x - nodePos b d ((iIdx b d x).toNat + 1)| ≤ d := by
    intro n b d x hd h h0 h1
    have e := pos_eq n b d x hd h
    have e1 : x - nodePos b d (iIdx b d x).toNat = hIdx b d x * d := by linarith
    have e2 : x - nodePos b d ((iIdx b d x).toNat + 1) = (hIdx b d x - 1) * d := by
      have : nodePos b d ((iIdx b d x).toNat + 1) = nodePos b d (iIdx b d x).toNat + d := by
        unfold nodePos; push_cast; ring
      linarith
    rw [e1, e2, abs_of_nonneg (mul_nonneg h0 hd.le), abs_of_nonpos (by nlinarith)]
    constructor <;> nlinarith
  obtain ⟨nx1, nx2⟩ := near nx bx dx x hdx hx p0 p1
  obtain ⟨ny1, ny2⟩ := near ny yb dy y hdy hy q0 q1
  obtain ⟨l1, u1⟩ := hF _ ma _ mb nx1 ny1
  obtain ⟨l2, u2⟩ := hF _ ma' _ mb nx2 ny1
  obtain ⟨l3, u3⟩ := hF _ ma _ mb' nx1 ny2
  obtain ⟨l4, u4⟩ := hF _ ma' _ mb' nx2 ny2
  set p := hIdx bx dx x
  set q := hIdx yb dy y
  have w1 : 0 ≤ (1 - p) * (1 - q) := mul_nonneg (by linarith) (by linarith)
  have w2 : 0 ≤ p * (1 - q) := mul_nonneg p0 (by linarith)
  have w3 : 0 ≤ (1 - p) * q := mul_nonneg (by linarith) q0
  have w4 : 0 ≤ p * q := mul_nonneg p0 q0
  constructor
  · have a1 := mul_le_mul_of_nonneg_right l1 w1
    have a2 := mul_le_mul_of_nonneg_right l2 w2
    have a3 := mul_le_mul_of_nonneg_right l3 w3
    have a4 := mul_le_mul_of_nonneg_right l4 w4
    nlinarith
  · have a1 := mul_le_mul_of_nonneg_right u1 w1
    have a2 := mul_le_mul_of_nonneg_right u2 w2
    have a3 := mul_le_mul_of_nonneg_right u3 w3
    have a4 := mul_le_mul_of_nonneg_right u4 w4
    nlinarith

/-- C22, exactness: a nodal field bilinear in the node coordinates is interpolated exactly. -/
theorem C22_bilinear_exact (nx ny : ℕ) (bx yb dx dy : K) (hdx : 0 < dx) (hdy : 0 < dy) (c0 c1 c2 c3 x y : K)
    (hx : InAxis nx bx dx x) (hy : InAxis ny yb dy y) :
    intField nx ny bx yb dx dy (fun i j => c0 + c1 * nodePos bx dx i + c2 * nodePos yb dy j
      + c3 * nodePos bx dx i * nodePos yb dy j) x y = c0 + c1 * x + c2 * y + c3 * x * y := by
  rw [intField_in nx ny bx yb dx dy hdx hdy _ x y hx hy]
  have ex := pos_eq nx bx dx x hdx hx
  have ey := pos_eq ny yb dy y hdy hy
  have s : ∀ (b d : K) (k : ℕ), nodePos b d (k + 1) = nodePos b d k + d := by
    intro b d k; unfold nodePos; push_cast; ring
  simp only [s]
  generalize hIdx bx dx x = p at ex ⊢
  generalize hIdx yb dy y = q at ey ⊢
  generalize nodePos bx dx (iIdx bx dx x).toNat = X at ex ⊢
  generalize nodePos yb dy (iIdx yb dy y).toNat = Y at ey ⊢
  rw [ex, ey]
  ring

/-- C22, outside the grid the field is zero. -/
theorem C22_zero_outside (nx ny : ℕ) (bx yb dx dy : K) (hdx : 0 < dx) (hdy : 0 < dy) (F : ℕ → ℕ → K) (x y : K)
    (h : ¬ (InAxis nx bx dx x ∧ InAxis ny yb dy y)) : intField nx ny bx yb dx dy F x y = 0 :=
  intField_out nx ny bx yb dx dy hdx hdy F x y h

/-- C22, adjointness: weighting the interpolated field with the particle charges equals weighting the nodal
field with the deposited charges. -/
theorem C22_adjoint (nx ny : ℕ) (bx yb dh : K) (F : ℕ → ℕ → K) (ps : List (K × K × K)) :
    (ps.map (fun p => p.2.2 * intField nx ny bx yb dh dh F p.1 p.2.1)).sum =
      gridSum nx ny (fun i j => computeRho nx ny bx yb dh ps i j * F i j) :=
  (gridSum_computeRho nx ny bx yb dh F ps).symm

/-! ## C21 -/

/-- C21, every node: it receives from each particle inside the grid the charge times the product of the two
hat functions, and nothing from particles outside. -/
theorem C21_rho_nodes (nx ny : ℕ) (bx yb dh : K) (hd : 0 < dh) (ps : List (K × K × K)) (i j : ℕ) :
    computeRho nx ny bx yb dh ps i j =
      ((inside nx ny bx yb dh ps).map (fun p => p.2.2 * (hat bx dh i p.1 * hat yb dh j p.2.1))).sum := by
  unfold computeRho inside
  have : ∀ rho : ℕ → ℕ → K, ps.foldl (fun rho p => rhoStep nx ny bx yb dh rho p.1 p.2.1 p.2.2) rho i j
      = rho i j + ((ps.filter (fun p => decide (InAxis nx bx dh p.1 ∧ InAxis ny yb dh p.2.1))).map
          (fun p => p.2.2 * (hat bx dh i p.1 * hat yb dh j p.2.1))).sum := by
    induction ps with
    | nil => intro rho; simp
    | cons p ps ih =>
      intro rho
      simp only [List.foldl_cons]
      rw [ih, rhoStep_pointwise _ _ _ _ _ hd]
      by_cases h : InAxis nx bx dh p.1 ∧ InAxis ny yb dh p.2.1
      · rw [if_pos h, List.filter_cons_of_pos (by simpa using h), List.map_cons, List.sum_cons]
        ring
      · rw [if_neg h, List.filter_cons_of_neg (by simpa using h), add_zero]
  rw [this, zero_add]

/-- sum of a bilinear moment over the deposited charge -/
theorem rho_moment (nx ny : ℕ) (bx yb dh : K) (hd : 0 < dh) (ps : List (K × K × K)) (c0 c1 c2 c3 : K) :
    gridSum nx ny (fun i j => computeRho nx ny bx yb dh ps i j * (c0 + c1 * nodePos bx dh i + c2 * nodePos yb dh j
      + c3 * nodePos bx dh i * nodePos yb dh j)) =
    ((inside nx ny bx yb dh ps).map (fun p => p.2.2 * (c0 + c1 * p.1 + c2 * p.2.1 + c3 * p.1 * p.2.1))).sum := by
  rw [gridSum_computeRho]
  unfold inside
  induction ps with
  | nil => simp
  | cons p ps ih =>
    rw [List.map_cons, List.sum_cons, ih]
    by_cases h : InAxis nx bx dh p.1 ∧ InAxis ny yb dh p.2.1
    · rw [List.filter_cons_of_pos (by simpa using h), List.map_cons, List.sum_cons,
        C22_bilinear_exact nx ny bx yb dh dh hd hd c0 c1 c2 c3 p.1 p.2.1 h.1 h.2]
    · rw [List.filter_cons_of_neg (by simpa using h), intField_out nx ny bx yb dh dh hd hd _ _ _ h]
      simp

/-- C21, charge: the deposited charge is the charge of the particles inside the grid. -/
theorem C21_rho_charge (nx ny : ℕ) (bx yb dh : K) (hd : 0 < dh) (ps : List (K × K × K)) :
    gridSum nx ny (computeRho nx ny bx yb dh ps) = ((inside nx ny bx yb dh ps).map (fun p => p.2.2)).sum := by
  have := rho_moment nx ny bx yb dh hd ps 1 0 0 0
  simpa using this

/-- C21, first moments. -/
theorem C21_rho_moments (nx ny : ℕ) (bx yb dh : K) (hd : 0 < dh) (ps : List (K × K × K)) :
    gridSum nx ny (fun i j => computeRho nx ny bx yb dh ps i j * nodePos bx dh i) =
      ((inside nx ny bx yb dh ps).map (fun p => p.2.2 * p.1)).sum ∧
    gridSum nx ny (fun i j => computeRho nx ny bx yb dh ps i j * nodePos yb dh j) =
      ((inside nx ny bx yb dh ps).map (fun p => p.2.2 * p.2.1)).sum := by
  constructor
  · have := rho_moment nx ny bx yb dh hd ps 0 1 0 0
    simpa using this
  · have := rho_moment nx ny bx yb dh hd ps 0 0 1 0
    simpa using this

example : InAxis 4 (-1 : ℚ) (1 / 2) (1 / 3) ∧ ¬ InAxis 4 (-1 : ℚ) (1 / 2) (1 / 2) ∧
    intField 4 4 (-1 : ℚ) (-1) (1 / 2) (1 / 2) (fun i j => (i : ℚ) + j) (1 / 3) (-1 / 4) = 3 + 2 / 3 + 5 / 2 ∧
    computeRho 4 4 (-1 : ℚ) (-1) (1 / 2) [(1 / 3, -1 / 4, 6), (3, 0, 1)] 3 2 = 1 := by
  decide +kernel

end PyECLOUD
