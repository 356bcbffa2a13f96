import Verif.Lemmas.Geometry
import Verif.Props.Impact
import Verif.Props.Sources
import Mathlib.Analysis.Real.Sqrt
import Mathlib.Tactic.NormNum
import Mathlib.Tactic.FinCases
import Mathlib.Tactic.IntervalCases

/-!
# Polygonal and rectangular chambers: C47, C48, C70, C71, C72
-/

set_option linter.unusedSectionVars false

namespace PyECLOUD

variable {K : Type} [Field K] [LinearOrder K] [IsStrictOrderedRing K]

/-! ## C47 -/

/-- C47: in a chamber built with the convexity assumption `is_outside` is false exactly for the points strictly left
of all edges and for those in the fast-accept ellipse. -/
theorem C47_convex_exact (sq : K → K) (vs : List (K × K)) (cx cy : K) (P : Poly K)
    (hP : mkPoly sq vs cx cy true = .ok P) (x y : K) :
    P.outside x y = false ↔ StrictlyInside vs (x, y) ∨ (x / cx) ^ 2 + (y / cy) ^ 2 ≤ 1 := by
  obtain ⟨rfl, -, -, -⟩ := mkPoly_ok hP
  simp only [Poly.outside, if_true, outsideConvex, Bool.not_eq_false', Bool.or_eq_true, edges_all_side, inEllipse,
    decide_eq_true_eq]
  exact or_comm

/-- C47: when the fast-accept ellipse is inside the polygon, `is_outside` is false exactly in the interior. -/
theorem C47_interior (sq : K → K) (vs : List (K × K)) (cx cy : K) (P : Poly K)
    (hP : mkPoly sq vs cx cy true = .ok P)
    (hell : ∀ x y : K, (x / cx) ^ 2 + (y / cy) ^ 2 ≤ 1 → StrictlyInside vs (x, y)) (x y : K) :
    P.outside x y = false ↔ StrictlyInside vs (x, y) := by
  rw [C47_convex_exact sq vs cx cy P hP x y]
  exact ⟨fun h => h.elim id (hell x y), Or.inl⟩

/-- The interior of the rectangle. -/
theorem rect_interior (a b x y : K) (ha : 0 < a) (hb : 0 < b) :
    StrictlyInside [(a, b), (-a, b), (-a, -b), (a, -b)] (x, y) ↔ |x| < a ∧ |y| < b := by
  have h2a : 0 < 2 * a := by linarith
  have h2b : 0 < 2 * b := by linarith
  rw [abs_lt, abs_lt]
  constructor
  · intro h
    have h0 := h 0 (by simp)
    have h1 := h 1 (by simp)
    have h2 := h 2 (by simp)
    have h3 := h 3 (by simp)
    simp [vtx, cross3] at h0 h1 h2 h3
    have e0 : 0 < (2 * a) * (b - y) := by linarith
    have e1 : 0 < (2 * b) * (x + a) := by linarith
    have e2 : 0 < (2 * a) * (y + b) := by linarith
    have e3 : 0 < (2 * b) * (a - x) := by linarith
    have f0 := (mul_pos_iff_of_pos_left h2a).1 e0
    have f1 := (mul_pos_iff_of_pos_left h2b).1 e1
    have f2 := (mul_pos_iff_of_pos_left h2a).1 e2
    have f3 := (mul_pos_iff_of_pos_left h2b).1 e3
    exact ⟨⟨by linarith, by linarith⟩, ⟨by linarith, by linarith⟩⟩
  · rintro ⟨⟨h1, h2⟩, h3, h4⟩ i hi
    have e0 := mul_pos h2a (sub_pos.2 h4)
    have e1 := mul_pos h2b (sub_pos.2 h1)
    have e2 := mul_pos h2a (sub_pos.2 h3)
    have e3 := mul_pos h2b (sub_pos.2 h2)
    simp only [List.length_cons, List.length_nil] at hi
    interval_cases i <;> simp [vtx, cross3] <;> linarith

/-- The fast-accept ellipse of the rectangle is in its interior. -/
theorem rect_ellipse (a b x y : K) (ha : 0 < a) (hb : 0 < b)
    (h : (x / (99 / 100 * a)) ^ 2 + (y / (99 / 100 * b)) ^ 2 ≤ 1) : |x| < a ∧ |y| < b := by
  have ha' : 0 < 99 / 100 * a := by positivity
  have hb' : 0 < 99 / 100 * b := by positivity
  have h1 : |x / (99 / 100 * a)| ≤ 1 := by
    rw [← sq_le_one_iff_abs_le_one]
    nlinarith [sq_nonneg (y / (99 / 100 * b))]
  have h2 : |y / (99 / 100 * b)| ≤ 1 := by
    rw [← sq_le_one_iff_abs_le_one]
    nlinarith [sq_nonneg (x / (99 / 100 * a))]
  rw [abs_div, abs_of_pos ha', div_le_one ha'] at h1
  rw [abs_div, abs_of_pos hb', div_le_one hb'] at h2
  constructor <;> linarith

/-- C47: for the rectangular chamber `is_outside` is false exactly when `|x| < x_aper` and `|y| < y_aper`. -/
theorem C47_rectangle (sq : K → K) (a b : K) (ha : 0 < a) (hb : 0 < b) (P : Poly K) (hP : mkRect sq a b = .ok P)
    (x y : K) : P.outside x y = false ↔ |x| < a ∧ |y| < b := by
  rw [C47_interior sq _ _ _ P hP (fun x y h => (rect_interior a b x y ha hb).2 (rect_ellipse a b x y ha hb h)),
    rect_interior a b x y ha hb]

/-- C47: points of a straight line between two accepted points are accepted, so no motion between accepted points can
leave the chamber on the way. -/
theorem C47_segment (sq : K → K) (vs : List (K × K)) (cx cy : K) (P : Poly K)
    (hP : mkPoly sq vs cx cy true = .ok P)
    (hell : ∀ x y : K, (x / cx) ^ 2 + (y / cy) ^ 2 ≤ 1 → StrictlyInside vs (x, y)) (p q : K × K)
    (hp : P.outside p.1 p.2 = false) (hq : P.outside q.1 q.2 = false) (t : K) (h0 : 0 ≤ t) (h1 : t ≤ 1) :
    P.outside (pointAt p q t).1 (pointAt p q t).2 = false := by
  rw [C47_interior sq vs cx cy P hP hell] at hp hq ⊢
  intro i hi
  have e : ((pointAt p q t).1, (pointAt p q t).2) = pointAt p q t := rfl
  rw [e, cross3_pointAt]
  have a1 : 0 < cross3 (vtx vs i) (vtx vs (i + 1)) p := hp i hi
  have a2 : 0 < cross3 (vtx vs i) (vtx vs (i + 1)) q := hq i hi
  rcases h0.eq_or_lt with rfl | h0
  · simpa using a1
  · have := mul_nonneg (sub_nonneg.2 h1) a1.le
    have := mul_pos h0 a2
    linarith

/-- the square used in the examples: half-width 1, edges of length 2 -/
def sq2 : List (ℝ × ℝ) := [(1, 1), (-1, 1), (-1, -1), (1, -1)]

theorem isSqrt_real : IsSqrt Real.sqrt := fun _ hx => ⟨Real.sqrt_pos.2 hx, Real.mul_self_sqrt hx.le⟩

theorem sqrt_four : Real.sqrt 4 = 2 := by
  rw [show (4 : ℝ) = 2 * 2 by norm_num]; exact Real.sqrt_mul_self (by norm_num)

theorem sq2_ok : ∃ P, mkRect Real.sqrt 1 1 = .ok P := by
  refine (mkPoly_ok_iff _ _ _ _ _).2 ⟨?_, fun _ => (isConvex_iff _).2 (Or.inl ?_), ?_⟩
  · norm_num [polyArea, pairs, closeList]
  · intro i hi
    simp only [List.length_cons, List.length_nil] at hi
    interval_cases i <;> norm_num [vtx, cross3]
  · intro q hq
    simp only [pairs, List.mem_cons, List.not_mem_nil, or_false] at hq
    have := sqrt_four
    rcases hq with rfl | rfl | rfl <;> norm_num [this]

example : ∃ P, mkRect Real.sqrt 1 1 = .ok P ∧ P.outside (1 / 2) (-1 / 2) = false ∧ P.outside 1 0 = true := by
  obtain ⟨P, hP⟩ := sq2_ok
  refine ⟨P, hP, (C47_rectangle _ 1 1 one_pos one_pos P hP _ _).2 ⟨?_, ?_⟩, ?_⟩
  · rw [abs_lt]; norm_num
  · rw [abs_lt]; norm_num
  · rw [← Bool.not_eq_false, C47_rectangle _ 1 1 one_pos one_pos P hP]
    norm_num

/-! ## C48 -/

theorem hit_cases (P : Poly K) (resc : K) (robust : Bool) (a b : K × K × K) (h : Hit K)
    (hh : P.hit resc robust a b = .ok h) :
    (h = cyHit P.edges resc a b ∧ (robust = true → P.outside h.x h.y = false)) ∨
    (robust = true ∧ P.outside (cyHit P.edges resc a b).x (cyHit P.edges resc a b).y = true ∧
      h = { cyHit P.edges resc a b with x := a.1, y := a.2.1 } ∧ P.outside h.x h.y = false) := by
  unfold Poly.hit at hh
  cases robust
  · simp only [Bool.false_eq_true, if_false, Except.ok.injEq] at hh
    exact Or.inl ⟨hh.symm, fun h => by cases h⟩
  · simp only [if_true] at hh
    by_cases ho : P.outside (cyHit P.edges resc a b).x (cyHit P.edges resc a b).y = true
    · simp only [ho, if_true] at hh
      split_ifs at hh with h2
      rw [Except.ok.injEq] at hh
      subst hh
      exact Or.inr ⟨rfl, ho, rfl, by simpa using h2⟩
    · simp only [ho] at hh
      simp only [Bool.false_eq_true, if_false, ho, Except.ok.injEq] at hh
      subst hh
      exact Or.inl ⟨rfl, fun _ => by simpa using ho⟩

/-- C48: in robust mode every returned point is inside the chamber; for a trajectory that starts inside nothing is
raised; and an error is raised only when both the computed point and the start are outside. -/
theorem C48_robust_inside (P : Poly K) (resc : K) (a b : K × K × K) :
    (∀ h, P.hit resc true a b = .ok h → P.outside h.x h.y = false) ∧
    (P.outside a.1 a.2.1 = false → ∃ h, P.hit resc true a b = .ok h) := by
  refine ⟨fun h hh => ?_, fun ha => ?_⟩
  · rcases hit_cases P resc true a b h hh with ⟨_, h2⟩ | ⟨_, _, _, h2⟩
    · exact h2 rfl
    · exact h2
  · unfold Poly.hit
    simp only [if_true]
    by_cases ho : P.outside (cyHit P.edges resc a b).x (cyHit P.edges resc a b).y = true
    · simp [ho, ha]
    · simp [ho]

/-- C48 (any polygon, convex or not): the returned point is on the straight line between old and new position, at most
`resc` times the way to each place where that line crosses a wall it is not parallel to. The segment number and the
normal are those of a wall where such a crossing is reached first, and the normal has unit length, is perpendicular to
that wall and points to its left (the inside, for counter-clockwise vertices); or there is no such crossing before the
new position, and the normal is (0, 0). The longitudinal coordinate is always 0. -/
theorem C48_on_trajectory (sq : K → K) (hsq : IsSqrt sq) (vs : List (K × K)) (cx cy : K) (conv : Bool) (P : Poly K)
    (hP : mkPoly sq vs cx cy conv = .ok P) (hne : ∀ i < vs.length, vtx vs i ≠ vtx vs (i + 1))
    (resc : K) (h0 : 0 ≤ resc) (robust : Bool) (p q : K × K) (zi zo : K) (h : Hit K)
    (hh : P.hit resc robust (p.1, p.2, zi) (q.1, q.2, zo) = .ok h) :
    (∃ t, 0 ≤ t ∧ t ≤ resc ∧ (h.x, h.y) = pointAt p q t ∧
      ∀ j < vs.length, ∀ u, 0 ≤ u → ¬ Parallel (vtx vs j) (vtx vs (j + 1)) p q → OnWall vs j (pointAt p q u) →
        t ≤ resc * u) ∧ h.z = 0 ∧
    ((∃ i < vs.length, ∃ u, h.seg = (i : ℤ) ∧ UnitNormal vs i h.nx h.ny ∧ 0 ≤ u ∧ u < 1 ∧ OnWall vs i (pointAt p q u) ∧
        ∀ j < vs.length, ∀ w, 0 ≤ w → ¬ Parallel (vtx vs j) (vtx vs (j + 1)) p q → OnWall vs j (pointAt p q w) → u ≤ w) ∨
      (h.seg = 0 ∧ h.nx = 0 ∧ h.ny = 0 ∧
        ∀ j < vs.length, ∀ w, 0 ≤ w → ¬ Parallel (vtx vs j) (vtx vs (j + 1)) p q → OnWall vs j (pointAt p q w) → 1 ≤ w)) := by
  obtain ⟨rfl, -, -, -⟩ := mkPoly_ok hP
  obtain ⟨s1, s2, s3⟩ := searchLoop_spec p.1 p.2 q.1 q.2 (edgesOf sq vs) 0 1 none
  obtain ⟨r, hr⟩ : ∃ r, r = searchLoop p.1 p.2 q.1 q.2 (edgesOf sq vs) 0 1 none := ⟨_, rfl⟩
  rw [← hr] at s1 s2 s3
  have hmin : ∀ j < vs.length, ∀ w, 0 ≤ w → ¬ Parallel (vtx vs j) (vtx vs (j + 1)) p q →
      OnWall vs j (pointAt p q w) → r.1 ≤ w := fun j hj w hw hpar hon =>
    s2 _ ((mem_edgesOf sq vs _).2 ⟨j, hj, rfl⟩) w ((cross_iff hsq (hne j hj) w).2 ⟨hpar, hon⟩) hw
  have hr0 : 0 ≤ r.1 := by
    rcases s3 with h | ⟨k, e, _, _, _, h, _⟩
    · rw [h]; exact zero_le_one
    · exact h
  -- the fields that do not depend on the robust correction
  have hcy : (h.z = 0) ∧ ((h.nx, h.ny, h.seg) = ((cyHit (edgesOf sq vs) resc (p.1, p.2, zi) (q.1, q.2, zo)).nx,
      (cyHit (edgesOf sq vs) resc (p.1, p.2, zi) (q.1, q.2, zo)).ny,
      (cyHit (edgesOf sq vs) resc (p.1, p.2, zi) (q.1, q.2, zo)).seg)) ∧
      ((h.x, h.y) = ((cyHit (edgesOf sq vs) resc (p.1, p.2, zi) (q.1, q.2, zo)).x,
        (cyHit (edgesOf sq vs) resc (p.1, p.2, zi) (q.1, q.2, zo)).y) ∨ (h.x, h.y) = p) := by
    have hz : (cyHit (edgesOf sq vs) resc (p.1, p.2, zi) (q.1, q.2, zo)).z = 0 := by
      unfold cyHit; simp only; split <;> rfl
    rcases hit_cases _ resc robust _ _ h hh with ⟨rfl, -⟩ | ⟨-, -, rfl, -⟩
    · exact ⟨hz, rfl, Or.inl rfl⟩
    · exact ⟨hz, rfl, Or.inr rfl⟩
  obtain ⟨hz, hf, hxy⟩ := hcy
  have hxy' : ((cyHit (edgesOf sq vs) resc (p.1, p.2, zi) (q.1, q.2, zo)).x,
      (cyHit (edgesOf sq vs) resc (p.1, p.2, zi) (q.1, q.2, zo)).y) = pointAt p q (resc * r.1) := by
    unfold cyHit
    simp only [← hr]
    split <;> (simp only [pointAt, Prod.mk.injEq]; constructor <;> ring)
  refine ⟨?_, hz, ?_⟩
  · rcases hxy with hxy | hxy
    · refine ⟨resc * r.1, mul_nonneg h0 hr0, by nlinarith, hxy.trans hxy', fun j hj u hu hpar hon => ?_⟩
      exact mul_le_mul_of_nonneg_left (hmin j hj u hu hpar hon) h0
    · exact ⟨0, le_rfl, h0, by rw [hxy]; simp [pointAt], fun j hj u hu _ _ => mul_nonneg h0 hu⟩
  · rcases s3 with hs | ⟨k, e, hk, hf2, hc, hc0, hc1⟩
    · right
      have : (cyHit (edgesOf sq vs) resc (p.1, p.2, zi) (q.1, q.2, zo)).nx = 0 ∧
          (cyHit (edgesOf sq vs) resc (p.1, p.2, zi) (q.1, q.2, zo)).ny = 0 ∧
          (cyHit (edgesOf sq vs) resc (p.1, p.2, zi) (q.1, q.2, zo)).seg = 0 := by
        unfold cyHit
        simp only [← hr, hs, and_self]
      simp only [Prod.mk.injEq, this.1, this.2.1, this.2.2] at hf
      refine ⟨hf.2.2, hf.1, hf.2.1, fun j hj w hw hpar hon => ?_⟩
      have := hmin j hj w hw hpar hon
      rwa [hs] at this
    · left
      have hkl : k < vs.length := by
        have := (List.getElem?_eq_some_iff.1 hk).1
        rwa [edgesOf_length] at this
      have he : e = mkEdge sq (vtx vs k) (vtx vs (k + 1)) := by
        have := edgesOf_getElem? sq vs k hkl
        rw [hk] at this
        exact Option.some.inj this
      have : (cyHit (edgesOf sq vs) resc (p.1, p.2, zi) (q.1, q.2, zo)).nx = e.nx ∧
          (cyHit (edgesOf sq vs) resc (p.1, p.2, zi) (q.1, q.2, zo)).ny = e.ny ∧
          (cyHit (edgesOf sq vs) resc (p.1, p.2, zi) (q.1, q.2, zo)).seg = (k : ℤ) := by
        unfold cyHit
        simp only [← hr, hf2, zero_add, and_self]
      simp only [Prod.mk.injEq, this.1, this.2.1, this.2.2] at hf
      refine ⟨k, hkl, r.1, hf.2.2, ?_, hc0, hc1, ?_, fun j hj w hw hpar hon => hmin j hj w hw hpar hon⟩
      · rw [hf.1, hf.2.1, he]
        exact mkEdge_normal hsq vs k (hne k hkl)
      · rw [he] at hc
        exact ((cross_iff hsq (hne k hkl) r.1).1 hc).2

/-- C48 (convex chambers; partial: the new position is strictly on the outer side of some wall, see
`C48_end_on_wall`): for a trajectory that starts strictly inside, the search finds the first exit. The fraction `u` is
the one at which the trajectory leaves the polygon, the returned point is at `resc * u`, strictly inside, and the
normal is the unit normal of a wall containing the exit point and points towards every interior point. -/
theorem C48_first_exit_partial (sq : K → K) (hsq : IsSqrt sq) (vs : List (K × K)) (cx cy : K) (P : Poly K)
    (hP : mkPoly sq vs cx cy true = .ok P) (resc : K) (h0 : 0 ≤ resc) (h1 : resc < 1) (robust : Bool)
    (p q : K × K) (zi zo : K) (hp : StrictlyInside vs p)
    (hq : ∃ i < vs.length, cross3 (vtx vs i) (vtx vs (i + 1)) q < 0) :
    ∃ (h : Hit K) (u : K) (i : ℕ), P.hit resc robust (p.1, p.2, zi) (q.1, q.2, zo) = .ok h ∧
      0 < u ∧ u < 1 ∧ i < vs.length ∧ h.seg = (i : ℤ) ∧ OnWall vs i (pointAt p q u) ∧
      (∀ w, 0 ≤ w → w < u → StrictlyInside vs (pointAt p q w)) ∧
      (∀ w, u ≤ w → ¬ StrictlyInside vs (pointAt p q w)) ∧
      (h.x, h.y) = pointAt p q (resc * u) ∧ StrictlyInside vs (h.x, h.y) ∧ h.z = 0 ∧
      UnitNormal vs i h.nx h.ny ∧
      (∀ x, StrictlyInside vs x → 0 < h.nx * (x.1 - (vtx vs i).1) + h.ny * (x.2 - (vtx vs i).2)) := by
  have hconv := (mkPoly_ok hP).2.2.1 rfl
  have hturn := leftTurns_of_convex hconv hp
  obtain ⟨i0, hi0, hq0⟩ := hq
  have hn : 0 < vs.length := by omega
  have hne : ∀ i < vs.length, vtx vs i ≠ vtx vs (i + 1) := by
    intro i hi hc
    have := hp i hi
    rw [← hc] at this
    simp [cross3] at this
  -- the first line crossed
  obtain ⟨F, hF⟩ : ∃ F : ℕ → K, F = fun i => cross3 (vtx vs i) (vtx vs (i + 1)) p -
      cross3 (vtx vs i) (vtx vs (i + 1)) q := ⟨_, rfl⟩
  obtain ⟨S, hS⟩ : ∃ S : Finset ℕ, S = (Finset.range vs.length).filter
      (fun i => cross3 (vtx vs i) (vtx vs (i + 1)) q < 0) := ⟨_, rfl⟩
  have hSne : S.Nonempty := ⟨i0, by rw [hS]; simp [hi0, hq0]⟩
  obtain ⟨i1, hi1, hmin⟩ := Finset.exists_min_image S
    (fun i => cross3 (vtx vs i) (vtx vs (i + 1)) p /
      (cross3 (vtx vs i) (vtx vs (i + 1)) p - cross3 (vtx vs i) (vtx vs (i + 1)) q)) hSne
  obtain ⟨u, hu⟩ : ∃ u, u = cross3 (vtx vs i1) (vtx vs (i1 + 1)) p /
      (cross3 (vtx vs i1) (vtx vs (i1 + 1)) p - cross3 (vtx vs i1) (vtx vs (i1 + 1)) q) := ⟨_, rfl⟩
  rw [← hu] at hmin
  have hi1' : i1 < vs.length ∧ cross3 (vtx vs i1) (vtx vs (i1 + 1)) q < 0 := by
    rw [hS] at hi1; simpa using hi1
  have hp1 := hp i1 hi1'.1
  have hD : 0 < cross3 (vtx vs i1) (vtx vs (i1 + 1)) p - cross3 (vtx vs i1) (vtx vs (i1 + 1)) q := by linarith [hi1'.2]
  have hu0 : 0 < u := by rw [hu]; exact div_pos hp1 hD
  have hu1 : u < 1 := by rw [hu, div_lt_one hD]; linarith [hi1'.2]
  have hbefore : ∀ w, 0 ≤ w → w < u → StrictlyInside vs (pointAt p q w) := by
    intro w hw0 hw i hi
    rw [cross3_pointAt]
    have hpi := hp i hi
    by_cases hqi : cross3 (vtx vs i) (vtx vs (i + 1)) q < 0
    · have hle := hmin i (by rw [hS]; simp [hi, hqi])
      have hd : 0 < cross3 (vtx vs i) (vtx vs (i + 1)) p - cross3 (vtx vs i) (vtx vs (i + 1)) q := by linarith
      have := (lt_div_iff₀ hd).1 (lt_of_lt_of_le hw hle)
      linarith
    · have hqi := not_lt.1 hqi
      have a1 := mul_pos (show 0 < 1 - w by linarith) hpi
      have a2 := mul_nonneg hw0 hqi
      linarith
  have hat : ∀ i < vs.length, 0 ≤ cross3 (vtx vs i) (vtx vs (i + 1)) (pointAt p q u) := by
    intro i hi
    rw [cross3_pointAt]
    have hpi := hp i hi
    by_cases hqi : cross3 (vtx vs i) (vtx vs (i + 1)) q < 0
    · have hle := hmin i (by rw [hS]; simp [hi, hqi])
      have hd : 0 < cross3 (vtx vs i) (vtx vs (i + 1)) p - cross3 (vtx vs i) (vtx vs (i + 1)) q := by linarith
      have := (le_div_iff₀ hd).1 hle
      linarith
    · have hqi := not_lt.1 hqi
      have a1 := mul_pos (show 0 < 1 - u by linarith) hpi
      have a2 := mul_nonneg hu0.le hqi
      linarith
  have hzero : cross3 (vtx vs i1) (vtx vs (i1 + 1)) (pointAt p q u) = 0 := by
    rw [cross3_pointAt]
    have : u * (cross3 (vtx vs i1) (vtx vs (i1 + 1)) p - cross3 (vtx vs i1) (vtx vs (i1 + 1)) q)
      = cross3 (vtx vs i1) (vtx vs (i1 + 1)) p := by rw [hu, div_mul_cancel₀ _ hD.ne']
    linear_combination -this
  have hafter : ∀ w, u ≤ w → ¬ StrictlyInside vs (pointAt p q w) := by
    intro w hw hin
    have h2 := hin i1 hi1'.1
    rw [cross3_pointAt] at h2 hzero
    have : 0 ≤ (w - u) * (cross3 (vtx vs i1) (vtx vs (i1 + 1)) p - cross3 (vtx vs i1) (vtx vs (i1 + 1)) q) :=
      mul_nonneg (sub_nonneg.2 hw) hD.le
    linarith
  -- the wall that contains the exit point is seen by the search
  obtain ⟨j, hj, lam, hlam, e1, e2, hon⟩ := exists_wall vs hturn p (pointAt p q u) hp hat i1 hi1'.1 hzero
  have hpar : ¬ Parallel (vtx vs j) (vtx vs (j + 1)) p q := by
    unfold Parallel
    rw [e1, e2]
    have : (q.2 - p.2) * (lam * ((vtx vs (i1 + 1)).1 - (vtx vs i1).1)) + (p.1 - q.1) * (lam * ((vtx vs (i1 + 1)).2 - (vtx vs i1).2))
      = - (lam * (cross3 (vtx vs i1) (vtx vs (i1 + 1)) p - cross3 (vtx vs i1) (vtx vs (i1 + 1)) q)) := by
      simp only [cross3]; ring
    rw [this]
    exact neg_ne_zero.2 (mul_pos hlam hD).ne'
  -- every crossing is not earlier
  have hle : ∀ j < vs.length, ∀ w, 0 ≤ w → OnWall vs j (pointAt p q w) → u ≤ w := by
    intro j hj w hw hon
    by_contra hlt
    have := hbefore w hw (not_le.1 hlt) j hj
    obtain ⟨s, -, -, hs⟩ := hon
    rw [hs, cross3_onLine] at this
    exact lt_irrefl _ this
  obtain ⟨robok, hok⟩ : ∃ h, P.hit resc robust (p.1, p.2, zi) (q.1, q.2, zo) = .ok h := by
    cases robust
    · exact ⟨_, rfl⟩
    · exact (C48_robust_inside P resc _ _).2 ((C47_convex_exact sq vs cx cy P hP _ _).2 (Or.inl hp))
  obtain ⟨⟨t, ht0, ht1, htx, htmin⟩, hz, hseg⟩ :=
    C48_on_trajectory sq hsq vs cx cy true P hP hne resc h0 robust p q zi zo robok hok
  rcases hseg with ⟨i, hi, w, hs, hnorm, hw0, hw1, honi, hwmin⟩ | ⟨-, -, -, hno⟩
  · have hwu : w = u := le_antisymm (hwmin j hj u hu0.le hpar hon) (hle i hi w hw0 honi)
    subst hwu
    -- the computed point is strictly inside, so the robust correction leaves it alone
    have hru : 0 ≤ resc * w ∧ resc * w < w := ⟨mul_nonneg h0 hw0, by nlinarith⟩
    have hin := hbefore _ hru.1 hru.2
    have hxy : (robok.x, robok.y) = pointAt p q (resc * w) := by
      have hPe := (mkPoly_ok hP).1
      obtain ⟨s1, s2, s3⟩ := searchLoop_spec p.1 p.2 q.1 q.2 (edgesOf sq vs) 0 1 none
      obtain ⟨r, hr⟩ : ∃ r, r = searchLoop p.1 p.2 q.1 q.2 (edgesOf sq vs) 0 1 none := ⟨_, rfl⟩
      rw [← hr] at s1 s2 s3
      have hrw : r.1 = w := by
        have hle1 : r.1 ≤ w := s2 _ ((mem_edgesOf sq vs _).2 ⟨j, hj, rfl⟩) w ((cross_iff hsq (hne j hj) w).2 ⟨hpar, hon⟩) hw0
        rcases s3 with h | ⟨k, e, hk, _, hc, hc0, hc1⟩
        · rw [h] at hle1
          simp only at hle1
          linarith
        · have hkl : k < vs.length := by
            have := (List.getElem?_eq_some_iff.1 hk).1
            rwa [edgesOf_length] at this
          have he : e = mkEdge sq (vtx vs k) (vtx vs (k + 1)) := by
            have := edgesOf_getElem? sq vs k hkl
            rw [hk] at this
            exact Option.some.inj this
          rw [he] at hc
          exact le_antisymm hle1 (hle k hkl _ hc0 ((cross_iff hsq (hne k hkl) r.1).1 hc).2)
      have hcy : ((cyHit P.edges resc (p.1, p.2, zi) (q.1, q.2, zo)).x,
          (cyHit P.edges resc (p.1, p.2, zi) (q.1, q.2, zo)).y) = pointAt p q (resc * w) := by
        rw [hPe]
        unfold cyHit
        simp only [← hr, hrw]
        split <;> (simp only [pointAt, Prod.mk.injEq]; constructor <;> ring)
      rcases hit_cases P resc robust _ _ robok hok with ⟨he, -⟩ | ⟨-, ho, -, -⟩
      · rw [he]; exact hcy
      · exfalso
        have := (C47_convex_exact sq vs cx cy P hP (cyHit P.edges resc (p.1, p.2, zi) (q.1, q.2, zo)).x
          (cyHit P.edges resc (p.1, p.2, zi) (q.1, q.2, zo)).y).2 (Or.inl (by rw [hcy]; exact hin))
        rw [this] at ho
        cases ho
    refine ⟨robok, w, i, hok, hu0, hw1, hi, hs, honi, hbefore, hafter, hxy, by rw [hxy]; exact hin, hz, hnorm, ?_⟩
    intro x hx
    have hxi := hx i hi
    obtain ⟨n1, n2, n3⟩ := hnorm
    rcases hva : vtx vs i with ⟨a1, a2⟩
    rcases hvb : vtx vs (i + 1) with ⟨b1, b2⟩
    simp only [cross3, hva, hvb] at hxi n2 n3 ⊢
    -- the direction is `(b - a) = L (ny, -nx)`
    have d1 : (b1 - a1) = ((b1 - a1) * robok.ny - (b2 - a2) * robok.nx) * robok.ny := by
      linear_combination (- (b1 - a1)) * n1 + robok.nx * n2
    have d2 : (b2 - a2) = -(((b1 - a1) * robok.ny - (b2 - a2) * robok.nx) * robok.nx) := by
      linear_combination (- (b2 - a2)) * n1 + robok.ny * n2
    have : (b1 - a1) * (x.2 - a2) - (b2 - a2) * (x.1 - a1)
        = ((b1 - a1) * robok.ny - (b2 - a2) * robok.nx) * (robok.nx * (x.1 - a1) + robok.ny * (x.2 - a2)) := by
      linear_combination (x.2 - a2) * d1 - (x.1 - a1) * d2
    rw [this] at hxi
    exact (mul_pos_iff_of_pos_left n3).1 hxi
  · exact absurd (hno j hj u hu0.le hpar hon) (not_le.2 hu1)

/-- C48, the remaining convex case: the trajectory starts strictly inside and the new position is not strictly on the
outer side of any wall (so, when `is_outside` holds, it lies exactly on a wall). No impact is found: the point is at
`resc` of the way and the normal is (0, 0) with segment 0. -/
theorem C48_end_on_wall (sq : K → K) (hsq : IsSqrt sq) (vs : List (K × K)) (cx cy : K) (P : Poly K)
    (hP : mkPoly sq vs cx cy true = .ok P) (resc : K) (h0 : 0 ≤ resc) (robust : Bool)
    (p q : K × K) (zi zo : K) (hp : StrictlyInside vs p)
    (hq : ∀ i < vs.length, 0 ≤ cross3 (vtx vs i) (vtx vs (i + 1)) q) (h : Hit K)
    (hh : P.hit resc robust (p.1, p.2, zi) (q.1, q.2, zo) = .ok h) : h.nx = 0 ∧ h.ny = 0 ∧ h.seg = 0 := by
  have hne : ∀ i < vs.length, vtx vs i ≠ vtx vs (i + 1) := by
    intro i hi hc
    have := hp i hi
    rw [← hc] at this
    simp [cross3] at this
  obtain ⟨-, -, hseg⟩ := C48_on_trajectory sq hsq vs cx cy true P hP hne resc h0 robust p q zi zo h hh
  rcases hseg with ⟨i, hi, w, hs, hnorm, hw0, hw1, honi, hwmin⟩ | ⟨a, b, c, -⟩
  · exfalso
    obtain ⟨s, -, -, hs⟩ := honi
    have e := cross3_onLine (vtx vs i) (vtx vs (i + 1)) s
    rw [← hs, cross3_pointAt] at e
    have a1 := mul_pos (show 0 < 1 - w by linarith) (hp i hi)
    have a2 := mul_nonneg hw0 (hq i hi)
    linarith
  · exact ⟨b, c, a⟩

/-- C48 fails for trajectories that end exactly on the wall: the square chamber reports the end as outside, the start
as inside, and the impact it returns has the normal (0, 0) and segment 0, although the wall that is reached is edge 3. -/
theorem C48_end_on_wall_violated : ∃ P h, mkRect Real.sqrt 1 1 = .ok P ∧ P.outside 0 0 = false ∧
    P.outside 1 0 = true ∧ P.hit (99 / 100) true (0, 0, 0) (1, 0, 0) = .ok h ∧ OnWall sq2 3 (1, 0) ∧
    h.nx = 0 ∧ h.ny = 0 ∧ h.seg = 0 := by
  obtain ⟨P, hP⟩ := sq2_ok
  have hin : P.outside 0 0 = false := (C47_rectangle _ 1 1 one_pos one_pos P hP _ _).2 (by norm_num)
  obtain ⟨h, hh⟩ := (C48_robust_inside P (99 / 100) (0, 0, 0) (1, 0, 0)).2 hin
  refine ⟨P, h, hP, hin, ?_, hh, ⟨1 / 2, by norm_num, by norm_num, ?_⟩, ?_⟩
  · rw [← Bool.not_eq_false, C47_rectangle _ 1 1 one_pos one_pos P hP]
    norm_num
  · norm_num [vtx, sq2, pointAt]
  · refine C48_end_on_wall Real.sqrt isSqrt_real _ _ _ P hP (99 / 100) (by norm_num) true (0, 0) (1, 0) 0 0 ?_ ?_ h hh
    · exact (rect_interior 1 1 0 0 one_pos one_pos).2 (by norm_num)
    · intro i hi
      simp only [List.length_cons, List.length_nil] at hi
      interval_cases i <;> norm_num [vtx, cross3]

example : ∃ P, mkRect Real.sqrt 1 1 = .ok P ∧ StrictlyInside sq2 (0, 0) ∧
    (∃ i < sq2.length, cross3 (vtx sq2 i) (vtx sq2 (i + 1)) (2, 1 / 2) < 0) ∧
    (∀ i < sq2.length, vtx sq2 i ≠ vtx sq2 (i + 1)) := by
  obtain ⟨P, hP⟩ := sq2_ok
  refine ⟨P, hP, (rect_interior 1 1 0 0 one_pos one_pos).2 (by norm_num), ⟨3, by simp [sq2], by norm_num [vtx, sq2, cross3]⟩, ?_⟩
  intro i hi
  simp only [sq2, List.length_cons, List.length_nil] at hi
  interval_cases i <;> norm_num [vtx, sq2]

end PyECLOUD
