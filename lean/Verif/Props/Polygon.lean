import Verif.Lemmas.Polygon
import Verif.Props.Geometry

/-!
# Construction of polygonal chambers, points on edges, even-odd rule: C70, C71, C72
-/

set_option linter.unusedSectionVars false

namespace PyECLOUD

variable {K : Type} [Field K] [LinearOrder K] [IsStrictOrderedRing K]

/-! ## C70 -/

/-- C70: a polygon is accepted exactly when its signed area is not negative, consecutive listed vertices are at least
1e-9 apart and, if convexity is assumed, it never turns both left and right. -/
theorem C70_accepted_iff (sq : K → K) (vs : List (K × K)) (cx cy : K) (conv : Bool) (p : K × K) :
    (∃ P, mkPoly sq vs cx cy conv = .ok P) ↔
      0 ≤ ∑ i ∈ Finset.range vs.length, cross3 (vtx vs i) (vtx vs (i + 1)) p ∧
      (conv = true → LeftTurns vs ∨ RightTurns vs) ∧
      (∀ i, i + 1 < vs.length → 1 / 10 ^ 9 ≤ sq (((vtx vs (i + 1)).1 - (vtx vs i).1) * ((vtx vs (i + 1)).1 - (vtx vs i).1) +
        ((vtx vs (i + 1)).2 - (vtx vs i).2) * ((vtx vs (i + 1)).2 - (vtx vs i).2))) := by
  rw [mkPoly_ok_iff, polyArea_eq vs p, isConvex_iff]
  have h2 : (0 : K) < 1 / 2 := by norm_num
  rw [mul_nonneg_iff_of_pos_left h2]
  refine and_congr_right (fun _ => and_congr_right (fun _ => ?_))
  have hv : ∀ i, i < vs.length → vs[i]? = some (vtx vs i) := by
    intro i hi
    unfold vtx
    rw [Nat.mod_eq_of_lt hi, List.getD_eq_getElem _ _ hi, List.getElem?_eq_getElem hi]
  constructor
  · intro h i hi
    exact h (vtx vs i, vtx vs (i + 1))
      (List.mem_of_getElem? (pairs_getElem? vs i _ _ (hv i (by omega)) (hv (i + 1) hi)))
  · intro h q hq
    obtain ⟨i, hi, he⟩ := List.getElem_of_mem hq
    rw [pairs_length] at hi
    have := pairs_getElem? vs i _ _ (hv i (by omega)) (hv (i + 1) (by omega))
    rw [List.getElem?_eq_getElem (by rw [pairs_length]; exact hi), he, Option.some.injEq] at this
    rw [this]
    exact h i (by omega)

/-- C70: the area is the sum of the signed triangles seen from any point, it changes sign with the orientation, and a
polygon of non-zero area that is accepted is refused when its vertices are given in the opposite order. -/
theorem C70_orientation (sq : K → K) (vs : List (K × K)) (cx cy : K) (conv : Bool) :
    (∀ p, polyArea vs = 1 / 2 * ∑ i ∈ Finset.range vs.length, cross3 (vtx vs i) (vtx vs (i + 1)) p) ∧
    polyArea vs.reverse = - polyArea vs ∧
    ((∃ P, mkPoly sq vs cx cy conv = .ok P) → polyArea vs ≠ 0 → mkPoly sq vs.reverse cx cy conv = .error .custom) := by
  refine ⟨polyArea_eq vs, polyArea_reverse vs, ?_⟩
  rintro ⟨P, hP⟩ h0
  have hpos : 0 < polyArea vs := lt_of_le_of_ne (mkPoly_ok hP).2.1 (Ne.symm h0)
  unfold mkPoly
  split_ifs with h1 h2 h3
  · rfl
  · rfl
  · rfl
  · rw [polyArea_reverse] at h2
    exact absurd (by linarith) h2

/-- C70: an accepted chamber with an interior point has positive area, and with the convexity assumption it turns left
(or goes straight on) at every corner. -/
theorem C70_interior (sq : K → K) (vs : List (K × K)) (cx cy : K) (P : Poly K)
    (hP : mkPoly sq vs cx cy true = .ok P) (p : K × K) (hp : StrictlyInside vs p) (hn : vs ≠ []) :
    0 < polyArea vs ∧ LeftTurns vs := by
  refine ⟨?_, leftTurns_of_convex ((mkPoly_ok hP).2.2.1 rfl) hp⟩
  rw [polyArea_eq vs p]
  refine mul_pos (by norm_num) (Finset.sum_pos (fun i hi => hp i (by simpa using hi)) ⟨0, ?_⟩)
  simpa using List.length_pos_iff.2 hn

/-- The five-pointed star on integer points. -/
def star5 : List (ℝ × ℝ) := [(0, 3), (-2, -3), (3, 1), (-3, 1), (2, -3)]

theorem star5_sqrt (x : ℝ) (h : 1 ≤ x) : 1 / 10 ^ 9 ≤ Real.sqrt x := by
  rw [Real.le_sqrt' (by norm_num)]
  calc ((1 : ℝ) / 10 ^ 9) ^ 2 ≤ 1 := by norm_num
    _ ≤ x := h

/-- C70 fails: the convexity check accepts a five-pointed star, which is not convex (vertex 2 is strictly right of
edge 3). -/
theorem C70_star_violated : (∃ P, mkPoly Real.sqrt star5 (1 / 10) (1 / 10) true = .ok P) ∧
    cross3 (vtx star5 3) (vtx star5 4) (vtx star5 1) < 0 := by
  refine ⟨(mkPoly_ok_iff _ _ _ _ _).2 ⟨?_, fun _ => (isConvex_iff _).2 (Or.inl ?_), ?_⟩, ?_⟩
  · norm_num [polyArea, pairs, closeList, star5]
  · intro i hi
    simp only [star5, List.length_cons, List.length_nil] at hi
    interval_cases i <;> norm_num [vtx, cross3, star5]
  · intro q hq
    simp only [star5, pairs, List.mem_cons, List.not_mem_nil, or_false] at hq
    rcases hq with rfl | rfl | rfl | rfl <;> exact star5_sqrt _ (by norm_num)
  · norm_num [vtx, cross3, star5]

/-- C70 fails: the length check does not see the closing edge. If the first vertex is repeated at the end, no point at
all is strictly left of all edges, so an accepted chamber treats every point outside the fast-accept ellipse as
outside. -/
theorem C70_repeated_vertex (sq : K → K) (vs : List (K × K)) (hn : 0 < vs.length)
    (hrep : vtx vs (vs.length - 1) = vtx vs 0) (cx cy : K) (P : Poly K)
    (hP : mkPoly sq vs cx cy true = .ok P) (x y : K) :
    P.outside x y = false ↔ (x / cx) ^ 2 + (y / cy) ^ 2 ≤ 1 := by
  rw [C47_convex_exact sq vs cx cy P hP]
  refine ⟨fun h => h.elim (fun h => ?_) id, Or.inr⟩
  exfalso
  have := h (vs.length - 1) (by omega)
  have e : vtx vs (vs.length - 1 + 1) = vtx vs 0 := by
    rw [show vs.length - 1 + 1 = 0 + vs.length by omega, vtx_add_length]
  rw [e, hrep] at this
  simp [cross3] at this

/-- C70 fails: the square with its first vertex repeated is accepted. -/
theorem C70_repeated_vertex_violated : ∃ P, mkPoly Real.sqrt (sq2 ++ [(1, 1)]) (1 / 2) (1 / 2) true = .ok P ∧
    P.outside (9 / 10) 0 = true := by
  obtain ⟨P, hP⟩ : ∃ P, mkPoly Real.sqrt (sq2 ++ [(1, 1)]) (1 / 2) (1 / 2) true = .ok P := by
    refine (mkPoly_ok_iff _ _ _ _ _).2 ⟨?_, fun _ => (isConvex_iff _).2 (Or.inl ?_), ?_⟩
    · norm_num [polyArea, pairs, closeList, sq2]
    · intro i hi
      simp only [sq2, List.cons_append, List.nil_append, List.length_cons, List.length_nil] at hi
      interval_cases i <;> norm_num [vtx, cross3, sq2]
    · intro q hq
      simp only [sq2, List.cons_append, List.nil_append, pairs, List.mem_cons, List.not_mem_nil, or_false] at hq
      rcases hq with rfl | rfl | rfl | rfl <;> exact star5_sqrt _ (by norm_num)
  refine ⟨P, hP, ?_⟩
  rw [← Bool.not_eq_false, C70_repeated_vertex Real.sqrt (sq2 ++ [(1, 1)]) (by simp [sq2]) (by norm_num [vtx, sq2]) _ _ P hP]
  norm_num

example : StrictlyInside sq2 (0, 0) ∧ sq2 ≠ [] ∧ polyArea sq2 = 4 := by
  refine ⟨(rect_interior 1 1 0 0 one_pos one_pos).2 (by norm_num), by simp [sq2], ?_⟩
  norm_num [polyArea, pairs, closeList, sq2]

/-- C70: the area of the rectangular chamber is the product of its sides. -/
theorem C70_rectangle_area (a b : K) : polyArea [(a, b), (-a, b), (-a, -b), (a, -b)] = 2 * a * (2 * b) := by
  simp only [polyArea, pairs, closeList, List.take, List.cons_append, List.nil_append, List.map, List.sum_cons, List.sum_nil]
  ring

/-! ## C71 -/

/-- C71: `vertex_is_on_edge` is true exactly for the points of the closed polygonal line. -/
theorem C71_on_edge (vs : List (K × K)) (x y : K) :
    vertexOnEdge vs x y = true ↔ ∃ i < vs.length, OnWall vs i (x, y) := vertexOnEdge_iff vs x y

/-- C71: `vertexes_are_subset` is true exactly when every vertex of each polygon is on the other; the answer does not
depend on which of the two is asked. -/
theorem C71_subset (vs ws : List (K × K)) :
    (vertexesAreSubset vs ws = true ↔ (∀ j < ws.length, ∃ i < vs.length, OnWall vs i (vtx ws j)) ∧
      (∀ j < vs.length, ∃ i < ws.length, OnWall ws i (vtx vs j))) ∧
    vertexesAreSubset vs ws = vertexesAreSubset ws vs := by
  refine ⟨?_, Bool.and_comm _ _⟩
  have key : ∀ us ts : List (K × K), (closeList ts).all (fun w => vertexOnEdge us w.1 w.2) = true ↔
      ∀ j < ts.length, ∃ i < us.length, OnWall us i (vtx ts j) := by
    intro us ts
    rw [List.all_eq_true]
    constructor
    · intro h j hj
      exact (vertexOnEdge_iff us _ _).1 (h _ ((mem_closeList ts _).2 ((mem_iff_vtx ts _).2 ⟨j, hj, rfl⟩)))
    · intro h w hw
      obtain ⟨j, hj, rfl⟩ := (mem_iff_vtx ts w).1 ((mem_closeList ts w).1 hw)
      exact (vertexOnEdge_iff us _ _).2 (h j hj)
  unfold vertexesAreSubset
  rw [Bool.and_eq_true, key, key]

/-- C71: the check does not depend on the vertex a polygon starts with: every polygon is a subset of itself. -/
theorem C71_subset_refl (vs : List (K × K)) : vertexesAreSubset vs vs = true := by
  rw [(C71_subset vs vs).1]
  have : ∀ j < vs.length, ∃ i < vs.length, OnWall vs i (vtx vs j) := fun j hj =>
    ⟨j, hj, 0, le_rfl, zero_le_one, by simp [pointAt]⟩
  exact ⟨this, this⟩

example : vertexOnEdge [((1 : ℚ), (1 : ℚ)), (-1, 1), (-1, -1), (1, -1)] 1 (1 / 3) = true ∧
    vertexOnEdge [((1 : ℚ), (1 : ℚ)), (-1, 1), (-1, -1), (1, -1)] 1 (4 / 3) = false ∧
    vertexOnEdge [((1 : ℚ), (1 : ℚ)), (-1, 1), (-1, -1), (1, -1)] 0 0 = false := by decide +kernel

/-! ## C72 -/

/-- C72: without the convexity assumption a point is accepted exactly when it is in the fast-accept ellipse or the
horizontal ray from it to the right crosses the polygon an odd number of times. -/
theorem C72_even_odd (sq : K → K) (vs : List (K × K)) (cx cy : K) (P : Poly K)
    (hP : mkPoly sq vs cx cy false = .ok P) (x y : K) :
    P.outside x y = false ↔ (x / cx) ^ 2 + (y / cy) ^ 2 ≤ 1 ∨ Odd (rayCrossings vs (x, y)) := by
  obtain ⟨rfl, -, -, -⟩ := mkPoly_ok hP
  simp only [Poly.outside, Bool.false_eq_true, if_false, outsideNonconvex, Bool.not_eq_false', Bool.or_eq_true,
    inEllipse, decide_eq_true_eq, evenOdd_iff]

/-- C72: whatever the shape, a point beyond the extreme vertices in any direction is outside (if it is not in the
fast-accept ellipse). -/
theorem C72_bounding_box (sq : K → K) (vs : List (K × K)) (cx cy : K) (P : Poly K)
    (hP : mkPoly sq vs cx cy false = .ok P) (x y : K) (hell : 1 < (x / cx) ^ 2 + (y / cy) ^ 2)
    (hbox : (∀ v ∈ vs, v.1 ≤ x) ∨ (∀ v ∈ vs, x < v.1) ∨ (∀ v ∈ vs, v.2 ≤ y) ∨ (∀ v ∈ vs, y < v.2)) :
    P.outside x y = true := by
  classical
  rw [← Bool.not_eq_false, C72_even_odd sq vs cx cy P hP]
  rintro (h | h)
  · exact absurd h (not_le.2 hell)
  have hv : ∀ i < vs.length, vtx vs i ∈ vs := fun i hi => (mem_iff_vtx vs _).2 ⟨i, hi, rfl⟩
  have hv' : ∀ i < vs.length, vtx vs (i + 1) ∈ vs := fun i hi =>
    (mem_iff_vtx vs _).2 ⟨(i + 1) % vs.length, Nat.mod_lt _ (by omega), (vtx_mod vs _).symm⟩
  have hfrac : ∀ i, UpAt (vtx vs i) (vtx vs (i + 1)) y ∨ DownAt (vtx vs i) (vtx vs (i + 1)) y →
      0 ≤ (y - (vtx vs i).2) / ((vtx vs (i + 1)).2 - (vtx vs i).2) ∧
      (y - (vtx vs i).2) / ((vtx vs (i + 1)).2 - (vtx vs i).2) ≤ 1 := by
    rintro i (h | h)
    · exact ⟨(frac_up h).1, (frac_up h).2.le⟩
    · exact ⟨(frac_down h).1.le, (frac_down h).2⟩
  rcases hbox with hb | hb | hb | hb
  · -- right of all vertices: no crossing
    have : rayCrossings vs (x, y) = 0 := by
      unfold rayCrossings
      rw [Finset.card_eq_zero, Finset.filter_eq_empty_iff]
      intro i hi hr
      have hi : i < vs.length := by simpa using hi
      rw [rayCross_iff_atHeight] at hr
      obtain ⟨l, u⟩ := hfrac i hr.1
      have h2 := hr.2
      unfold atHeight at h2
      have b1 := hb _ (hv i hi)
      have b2 := hb _ (hv' i hi)
      nlinarith
    rw [this] at h
    exact absurd h (by decide)
  · -- left of all vertices: every change of height counts
    obtain ⟨g, hg⟩ : ∃ g : ℕ → Bool, g = fun i => decide (y < (vtx vs i).2) := ⟨_, rfl⟩
    have hper : g 0 = g vs.length := by
      have : vtx vs vs.length = vtx vs 0 := by simpa using vtx_add_length vs 0
      rw [hg]; simp only [this]
    have hev := (even_changes g vs.length).2 hper
    have : rayCrossings vs (x, y) = ((Finset.range vs.length).filter (fun i => g i ≠ g (i + 1))).card := by
      unfold rayCrossings
      congr 1
      apply Finset.filter_congr
      intro i hi
      have hi : i < vs.length := by simpa using hi
      rw [rayCross_iff_atHeight]
      have hud : (UpAt (vtx vs i) (vtx vs (i + 1)) y ∨ DownAt (vtx vs i) (vtx vs (i + 1)) y) ↔ g i ≠ g (i + 1) := by
        rw [hg, ne_eq, decide_eq_decide]
        unfold UpAt DownAt
        rw [← not_lt, ← not_lt]
        tauto
      rw [← hud]
      refine ⟨fun h => h.1, fun h => ⟨h, ?_⟩⟩
      obtain ⟨l, u⟩ := hfrac i h
      unfold atHeight
      have b1 := hb _ (hv i hi)
      have b2 := hb _ (hv' i hi)
      rcases l.eq_or_lt with l | l
      · rw [← l]; simpa using b1
      · have := mul_pos l (sub_pos.2 b2)
        have := mul_nonneg (sub_nonneg.2 u) (sub_nonneg.2 b1.le)
        linarith
    rw [this] at h
    exact (Nat.not_even_iff_odd.2 h) hev
  · have : rayCrossings vs (x, y) = 0 := by
      unfold rayCrossings
      rw [Finset.card_eq_zero, Finset.filter_eq_empty_iff]
      intro i hi hr
      have hi : i < vs.length := by simpa using hi
      rcases hr.1 with h | h
      · exact absurd h.2 (not_lt.2 (hb _ (hv' i hi)))
      · exact absurd h.2 (not_lt.2 (hb _ (hv i hi)))
    rw [this] at h
    exact absurd h (by decide)
  · have : rayCrossings vs (x, y) = 0 := by
      unfold rayCrossings
      rw [Finset.card_eq_zero, Finset.filter_eq_empty_iff]
      intro i hi hr
      have hi : i < vs.length := by simpa using hi
      rcases hr.1 with h | h
      · exact absurd (hb _ (hv i hi)) (not_lt.2 h.1)
      · exact absurd (hb _ (hv' i hi)) (not_lt.2 h.1)
    rw [this] at h
    exact absurd h (by decide)

/-- C72: on strictly convex chambers the general test and the convex test agree at every point that is not exactly on
the boundary of one of the half-planes. -/
theorem C72_agrees_convex (sq : K → K) (vs : List (K × K)) (cx cy : K) (P Q : Poly K)
    (hP : mkPoly sq vs cx cy false = .ok P) (hQ : mkPoly sq vs cx cy true = .ok Q) (hn : vs ≠ [])
    (hc : StrictlyConvex vs) (x y : K)
    (hxy : StrictlyInside vs (x, y) ∨ ∃ i < vs.length, cross3 (vtx vs i) (vtx vs (i + 1)) (x, y) < 0) :
    P.outside x y = Q.outside x y := by
  have h1 := C72_even_odd sq vs cx cy P hP x y
  have h2 := C47_convex_exact sq vs cx cy Q hQ x y
  rw [odd_iff_inside hc (List.length_pos_iff.2 hn) (x, y) hxy] at h1
  rw [or_comm, ← h2] at h1
  cases ha : P.outside x y <;> cases hb : Q.outside x y <;> simp_all

example : StrictlyConvex sq2 ∧ sq2 ≠ [] ∧ StrictlyInside sq2 (1 / 2, 1 / 3) ∧
    ∃ i < sq2.length, cross3 (vtx sq2 i) (vtx sq2 (i + 1)) (3, 1 / 3) < 0 := by
  refine ⟨?_, by simp [sq2], (rect_interior 1 1 _ _ one_pos one_pos).2 (by constructor <;> rw [abs_lt] <;> norm_num),
    3, by simp [sq2], by norm_num [vtx, sq2, cross3]⟩
  intro i hi j hj h1 h2
  simp only [sq2, List.length_cons, List.length_nil] at hi hj h2
  interval_cases i <;> interval_cases j <;> first | (exact absurd rfl h1) | (exact absurd rfl h2) | norm_num [vtx, sq2, cross3]

/-! ## Consequences for wall impacts and photoemission -/

/-- C17 for polygonal chambers, without assumptions on the chamber: if all old positions are inside, then after the
wall-impact step every live macroparticle is inside. -/
theorem C17_polygon [FloorRing K] (sq : K → K) (c : ImpCfg K) (P : Poly K) (resc : K)
    (sey : K → List (Impact K) → Except PyErr (SeyOut K)) (s : MPs K) (hwf : s.WF) (hroom : s.nmp < s.cap)
    (old : List (K × K × K)) (tt : K) (h : ImpHist K) (s' : MPs K) (h' : ImpHist K) (n : ImpCount K)
    (hsey : ∀ imps out, sey s.split imps = .ok out → SeyOk imps out)
    (hold : ∀ o ∈ old, P.outside o.1 o.2.1 = false) (horig : P.outside 0 0 = false)
    (hok : impactStep sq c (P.chamber resc true) sey s old tt h = .ok (s', h', n)) :
    ∀ p ∈ s'.live, P.outside (p .x) (p .y) = false :=
  C17_all_inside sq c (P.chamber resc true) sey s hwf hroom old tt h s' h' n hsey hold horig
    (fun o q b _ _ hb => (C48_robust_inside P resc o q).1 b hb) hok

/-- a box of half-width 5/2 for the examples -/
def box : Poly ℚ :=
  ⟨[(5 / 2, 5 / 2), (-5 / 2, 5 / 2), (-5 / 2, -5 / 2), (5 / 2, -5 / 2)],
    edgesOf (fun v => v / 5) [(5 / 2, 5 / 2), (-5 / 2, 5 / 2), (-5 / 2, -5 / 2), (5 / 2, -5 / 2)], 2, 2, true⟩

/-- empty histograms for four segments -/
def boxHist : ImpHist ℚ :=
  { slabHist with
    segNel := [0, 0, 0, 0]
    segEmit := [0, 0, 0, 0]
    segEn := [0, 0, 0, 0]
    segEnLines := [[0, 0], [0, 0], [0, 0], [0, 0]] }

example : (∀ o ∈ toyOld, box.outside o.1 o.2.1 = false) ∧ box.outside 0 0 = false ∧
    ∃ r, impactStep (fun v => v) slabCfg (box.chamber (99 / 100) true) slabSey toy toyOld 20
      boxHist = .ok r ∧
      (r.1.nmp = 5 ∧ r.2.2.nelEmit = 30 ∧ r.1.live.all (fun p : Particle ℚ => !box.outside (p .x) (p .y)) = true) := by
  refine ⟨by decide +kernel, by decide +kernel, exists_ok (by decide +kernel)⟩

/-- C45 for polygonal chambers, without assumptions on the chamber: photoelectrons start inside. -/
theorem C45_photoemission_polygon [FloorRing K] (P : Poly K) (resc : K) (vel : ℕ → Hit K → K × K × K)
    (ends : ℕ → (K × K) × (K × K)) (kc : K) (mean : Option K) (lam dt u : K) (s s' : MPs K) (h : s.WF)
    (hroom : s.nmp < s.cap) (hr : 0 < s.ref) (hq : 0 ≤ kc * (mean.getD lam) * dt) (hu : 0 ≤ u)
    (hok : photoGenerate (P.chamber resc true) vel ends kc mean lam dt u s = .ok s') :
    ∃ new : List (Particle K), s'.live = s.live ++ new ∧
      (new.length : ℤ) = roundedCount (kc * (mean.getD lam) * dt / s.ref) u ∧
      (∀ p ∈ new, p .nel = s.ref ∧ P.outside (p .x) (p .y) = false) := by
  obtain ⟨new, h1, h2, h3, -⟩ := C45_photoemission (P.chamber resc true) vel ends kc mean lam dt u s s' h hroom hr hq hu
    (fun k q hk => (C48_robust_inside P resc _ _).1 q hk) hok
  refine ⟨new, h1, h2, fun p hp => ?_⟩
  obtain ⟨k, hk, rfl⟩ := List.getElem_of_mem hp
  have := h3 k new[k] (List.getElem?_eq_getElem hk)
  exact ⟨this.1, this.2.2.2.1⟩

example : ∃ s', photoGenerate (box.chamber (99 / 100) true) (fun _ q => (q.nx, q.ny, 0)) (fun i => ((0, 0), (4, (i : ℚ))))
    1 none 5 1 (1 / 4) { toy with ref := 5 / 2 } = .ok s' ∧ (s'.nmp = 5 ∧ (s'.arr .x).getD 4 0 = 99 / 40) :=
  exists_ok (by decide +kernel)

end PyECLOUD
