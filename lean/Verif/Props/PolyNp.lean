import Verif.Lemmas.PolyNp
import Verif.Props.Geometry

/-!
# C137: the polygonal chamber without compiled code
-/

set_option linter.unusedSectionVars false

namespace PyECLOUD

variable {K : Type} [Field K] [LinearOrder K] [IsStrictOrderedRing K]

/-- C137 (point test): for every polygon the constructor of the compiled class accepts as convex, and every array of
points, the two classes classify each point alike. A point is inside exactly when it is strictly inside the polygon or
in the inscribed ellipse. -/
theorem C137_outside (sq : K → K) (vs : List (K × K)) (cx cy : K) (P : Poly K)
    (hP : mkPoly sq vs cx cy true = .ok P) (pts : List (K × K)) :
    npOutside (mkPolyNp sq vs cx cy) pts = pts.map (fun p => P.outside p.1 p.2) ∧
    ∀ (i : ℕ) p, pts[i]? = some p → ((npOutside (mkPolyNp sq vs cx cy) pts)[i]? = some false ↔
      StrictlyInside vs p ∨ (p.1 / cx) ^ 2 + (p.2 / cy) ^ 2 ≤ 1) := by
  have hPe : P = mkPolyNp sq vs cx cy := by
    unfold mkPoly at hP
    split_ifs at hP
    exact (Except.ok.inj hP).symm
  have h1 : npOutside (mkPolyNp sq vs cx cy) pts = pts.map (fun p => P.outside p.1 p.2) := by
    rw [npOutside_eq, hPe]
    rfl
  refine ⟨h1, fun i p hi => ?_⟩
  rw [h1, List.getElem?_map, hi]
  simp only [Option.map_some, Option.some.injEq]
  exact C47_convex_exact sq vs cx cy P hP p.1 p.2

/-- The unit normal of an edge is unique. -/
theorem UnitNormal.unique {vs : List (K × K)} {i : ℕ} {n m n' m' : K} (h : UnitNormal vs i n m)
    (h' : UnitNormal vs i n' m') : n = n' ∧ m = m' := by
  obtain ⟨a1, a2, a3⟩ := h
  obtain ⟨b1, b2, b3⟩ := h'
  obtain ⟨dx, hdx⟩ : ∃ d, d = (vtx vs (i + 1)).1 - (vtx vs i).1 := ⟨_, rfl⟩
  obtain ⟨dy, hdy⟩ : ∃ d, d = (vtx vs (i + 1)).2 - (vtx vs i).2 := ⟨_, rfl⟩
  rw [← hdx, ← hdy] at a2 a3 b2 b3
  obtain ⟨L, hL⟩ : ∃ L, L = dx * m - dy * n := ⟨_, rfl⟩
  obtain ⟨M, hM⟩ : ∃ L, L = dx * m' - dy * n' := ⟨_, rfl⟩
  rw [← hL] at a3
  rw [← hM] at b3
  have d1 : dx = L * m := by rw [hL]; linear_combination (-dx) * a1 + n * a2
  have d2 : dy = -(L * n) := by rw [hL]; linear_combination (-dy) * a1 + m * a2
  have e1 : dx = M * m' := by rw [hM]; linear_combination (-dx) * b1 + n' * b2
  have e2 : dy = -(M * n') := by rw [hM]; linear_combination (-dy) * b1 + m' * b2
  have hsq : L * L = M * M := by
    have x1 : dx * dx + dy * dy = L * L := by rw [d1, d2]; linear_combination (L * L) * a1
    have x2 : dx * dx + dy * dy = M * M := by rw [e1, e2]; linear_combination (M * M) * b1
    rw [← x1, x2]
  have hLM : L = M := by
    rcases mul_self_eq_mul_self_iff.1 hsq with h | h
    · exact h
    · rw [h] at a3; linarith
  rw [← hLM] at e1 e2
  constructor
  · have := d2.symm.trans e2
    exact mul_left_cancel₀ a3.ne' (neg_injective this)
  · exact mul_left_cancel₀ a3.ne' (d1.symm.trans e1)

/-- C137 (impact search): for every convex polygon, every start strictly inside and every end that is not strictly
inside, the search finds the first exit, also when the trajectory ends exactly on a wall. The fraction `u` is the one
at which the trajectory leaves the polygon, the returned point is at `resc * u`, strictly inside, and the normal is the
unit normal of a wall containing the exit point, the last one in the order of the vertices. -/
theorem C137_first_exit (sq : K → K) (hsq : IsSqrt sq) (vs : List (K × K)) (cx cy : K) (ell : K → K → K × K)
    (hconv : isConvex vs = true) (resc : K) (h0 : 0 ≤ resc) (h1 : resc < 1) (robust : Bool)
    (p q : K × K) (zi zo : K) (hp : StrictlyInside vs p) (hq : ¬ StrictlyInside vs q) :
    ∃ (h : Hit K) (u : K) (i : ℕ),
      (mkPolyNp sq vs cx cy).npHitFull ell resc robust (p.1, p.2, zi) (q.1, q.2, zo) = .ok h ∧
      0 < u ∧ u ≤ 1 ∧ i < vs.length ∧ h.seg = (i : ℤ) ∧ OnWall vs i (pointAt p q u) ∧
      (∀ j < vs.length, OnWall vs j (pointAt p q u) → ¬ Parallel (vtx vs j) (vtx vs (j + 1)) p q ∧ j ≤ i) ∧
      (∀ w, 0 ≤ w → w < u → StrictlyInside vs (pointAt p q w)) ∧
      (∀ w, u ≤ w → ¬ StrictlyInside vs (pointAt p q w)) ∧
      (h.x, h.y) = pointAt p q (resc * u) ∧ StrictlyInside vs (h.x, h.y) ∧ h.z = 0 ∧
      UnitNormal vs i h.nx h.ny := by
  have hturn := leftTurns_of_convex hconv hp
  obtain ⟨i0, hi0, hq0⟩ : ∃ i < vs.length, cross3 (vtx vs i) (vtx vs (i + 1)) q ≤ 0 := by
    unfold StrictlyInside at hq
    push Not at hq
    exact hq
  have hne : ∀ i < vs.length, vtx vs i ≠ vtx vs (i + 1) := by
    intro i hi hc
    have := hp i hi
    rw [← hc] at this
    simp [cross3] at this
  -- the first line crossed
  obtain ⟨S, hS⟩ : ∃ S : Finset ℕ, S = (Finset.range vs.length).filter
      (fun i => cross3 (vtx vs i) (vtx vs (i + 1)) q ≤ 0) := ⟨_, rfl⟩
  have hSne : S.Nonempty := ⟨i0, by rw [hS]; simp [hi0, hq0]⟩
  obtain ⟨i1, hi1, hmin⟩ := Finset.exists_min_image S
    (fun i => cross3 (vtx vs i) (vtx vs (i + 1)) p /
      (cross3 (vtx vs i) (vtx vs (i + 1)) p - cross3 (vtx vs i) (vtx vs (i + 1)) q)) hSne
  obtain ⟨u, hu⟩ : ∃ u, u = cross3 (vtx vs i1) (vtx vs (i1 + 1)) p /
      (cross3 (vtx vs i1) (vtx vs (i1 + 1)) p - cross3 (vtx vs i1) (vtx vs (i1 + 1)) q) := ⟨_, rfl⟩
  rw [← hu] at hmin
  have hi1' : i1 < vs.length ∧ cross3 (vtx vs i1) (vtx vs (i1 + 1)) q ≤ 0 := by
    rw [hS] at hi1; simpa using hi1
  have hp1 := hp i1 hi1'.1
  have hD : 0 < cross3 (vtx vs i1) (vtx vs (i1 + 1)) p - cross3 (vtx vs i1) (vtx vs (i1 + 1)) q := by linarith [hi1'.2]
  have hu0 : 0 < u := by rw [hu]; exact div_pos hp1 hD
  have hu1 : u ≤ 1 := by rw [hu, div_le_one hD]; linarith [hi1'.2]
  have hbefore : ∀ w, 0 ≤ w → w < u → StrictlyInside vs (pointAt p q w) := by
    intro w hw0 hw i hi
    rw [cross3_pointAt]
    have hpi := hp i hi
    by_cases hqi : cross3 (vtx vs i) (vtx vs (i + 1)) q ≤ 0
    · have hle := hmin i (by rw [hS]; simp [hi, hqi])
      have hd : 0 < cross3 (vtx vs i) (vtx vs (i + 1)) p - cross3 (vtx vs i) (vtx vs (i + 1)) q := by linarith
      have := (lt_div_iff₀ hd).1 (lt_of_lt_of_le hw hle)
      linarith
    · have hqi := not_le.1 hqi
      have a1 := mul_pos (show 0 < 1 - w by linarith) hpi
      have a2 := mul_nonneg hw0 hqi.le
      linarith
  have hat : ∀ i < vs.length, 0 ≤ cross3 (vtx vs i) (vtx vs (i + 1)) (pointAt p q u) := by
    intro i hi
    rw [cross3_pointAt]
    have hpi := hp i hi
    by_cases hqi : cross3 (vtx vs i) (vtx vs (i + 1)) q ≤ 0
    · have hle := hmin i (by rw [hS]; simp [hi, hqi])
      have hd : 0 < cross3 (vtx vs i) (vtx vs (i + 1)) p - cross3 (vtx vs i) (vtx vs (i + 1)) q := by linarith
      have := (le_div_iff₀ hd).1 hle
      linarith
    · have hqi := not_le.1 hqi
      have a1 := mul_nonneg (show 0 ≤ 1 - u by linarith) hpi.le
      have a2 := mul_nonneg hu0.le hqi.le
      linarith
  have hzero : cross3 (vtx vs i1) (vtx vs (i1 + 1)) (pointAt p q u) = 0 := by
    rw [cross3_pointAt]
    have : u * (cross3 (vtx vs i1) (vtx vs (i1 + 1)) p - cross3 (vtx vs i1) (vtx vs (i1 + 1)) q)
      = cross3 (vtx vs i1) (vtx vs (i1 + 1)) p := by rw [hu, div_mul_cancel₀ _ hD.ne']
    linear_combination -this
  have hafter : ∀ w, u ≤ w → ¬ StrictlyInside vs (pointAt p q w) := by
    intro w hw hin
    have h2 := hin i1 hi1'.1
    rw [cross3_pointAt] at h2 hzero
    have : 0 ≤ (w - u) * (cross3 (vtx vs i1) (vtx vs (i1 + 1)) p - cross3 (vtx vs i1) (vtx vs (i1 + 1)) q) :=
      mul_nonneg (sub_nonneg.2 hw) hD.le
    linarith
  -- no wall through the exit point is parallel to the trajectory
  have hpar : ∀ j < vs.length, cross3 (vtx vs j) (vtx vs (j + 1)) (pointAt p q u) = 0 →
      ¬ Parallel (vtx vs j) (vtx vs (j + 1)) p q := by
    intro j hj hz hpl
    have hpj := hp j hj
    have : cross3 (vtx vs j) (vtx vs (j + 1)) (pointAt p q u) = cross3 (vtx vs j) (vtx vs (j + 1)) p
        + u * ((q.2 - p.2) * ((vtx vs (j + 1)).1 - (vtx vs j).1) + (p.1 - q.1) * ((vtx vs (j + 1)).2 - (vtx vs j).2)) := by
      simp only [cross3, pointAt]; ring
    unfold Parallel at hpl
    rw [hz, hpl] at this
    linarith
  obtain ⟨j, hj, lam, hlam, e1, e2, hon⟩ := exists_wall vs hturn p (pointAt p q u) hp hat i1 hi1'.1 hzero
  have honz : ∀ j, OnWall vs j (pointAt p q u) → cross3 (vtx vs j) (vtx vs (j + 1)) (pointAt p q u) = 0 := by
    rintro j ⟨s, -, -, hs⟩
    rw [hs, cross3_onLine]
  -- the search
  obtain ⟨⟨s0, s1⟩, s2, s3, s4⟩ := npLoop_spec p.1 p.2 q.1 q.2 (edgesOf sq vs) 0 ⟨2, false, -1⟩ (by norm_num)
  obtain ⟨r, hr⟩ : ∃ r, r = npLoop p.1 p.2 q.1 q.2 (edgesOf sq vs) 0 ⟨2, false, -1⟩ := ⟨_, rfl⟩
  rw [← hr] at s0 s1 s2 s3 s4
  have hrle : r.t ≤ u := s2 _ ((mem_edgesOf sq vs _).2 ⟨i1, hi1'.1, rfl⟩) u
    ((lineT_iff hsq (hne i1 hi1'.1) u).2 ⟨hpar i1 hi1'.1 hzero, hzero⟩) hu0.le
  obtain ⟨hfound, hru⟩ : r.found = true ∧ r.t = u := by
    rcases s3 with ⟨h, -⟩ | ⟨⟨e, he, hl⟩, hf⟩
    · rw [h] at hrle
      simp only at hrle
      linarith
    · refine ⟨hf, le_antisymm hrle ?_⟩
      obtain ⟨k, hk, rfl⟩ := (mem_edgesOf sq vs e).1 he
      have hz := ((lineT_iff hsq (hne k hk) r.t).1 hl).2
      by_contra hc
      have := hbefore r.t s0 (not_le.1 hc) k hk
      rw [hz] at this
      exact lt_irrefl _ this
  rw [hru] at s4
  obtain ⟨i, e, hk, hlt, hb, hi, hlast⟩ := s4.resolve_right (fun h => by
    have := h.1 _ ((mem_edgesOf sq vs _).2 ⟨j, hj, rfl⟩)
      ((lineT_iff hsq (hne j hj) u).2 ⟨hpar j hj (honz j hon), honz j hon⟩)
    have h2 := ((lineT_border_iff hsq (hne j hj) u).2 ⟨hpar j hj (honz j hon), hon⟩).2
    rw [this] at h2
    cases h2)
  have hil : i < vs.length := by
    have := (List.getElem?_eq_some_iff.1 hk).1
    rwa [edgesOf_length] at this
  have he : e = mkEdge sq (vtx vs i) (vtx vs (i + 1)) := by
    have := edgesOf_getElem? sq vs i hil
    rw [hk] at this
    exact Option.some.inj this
  have honi : OnWall vs i (pointAt p q u) := by
    rw [he] at hlt hb
    exact ((lineT_border_iff hsq (hne i hil) u).1 ⟨hlt, hb⟩).2
  obtain ⟨g, hg⟩ : ∃ g, g = npHit ell (edgesOf sq vs) resc (p.1, p.2, zi) (q.1, q.2, zo) := ⟨_, rfl⟩
  have hge : g = ⟨resc * u * q.1 + (1 - resc * u) * p.1, resc * u * q.2 + (1 - resc * u) * p.2, 0, e.nx, e.ny, (i : ℤ)⟩ := by
    rw [hg]
    unfold npHit
    simp only [← hr, hfound, hru, hi, if_true]
    rw [show ((0 + i : ℕ) : ℤ).toNat = i by omega, List.getD_eq_getElem?_getD, hk]
    simp
  have hxy : (g.x, g.y) = pointAt p q (resc * u) := by
    rw [hge]
    simp only [pointAt, Prod.mk.injEq]
    constructor <;> ring
  have hin : StrictlyInside vs (g.x, g.y) := by
    rw [hxy]
    exact hbefore _ (mul_nonneg h0 hu0.le) (by nlinarith)
  have hout : (mkPolyNp sq vs cx cy).npOut1 g.x g.y = false := by
    rw [npOut1_eq]
    unfold outsideConvex
    have : (mkPolyNp sq vs cx cy).edges.all (fun e => decide (0 < e.side g.x g.y)) = true := by
      have := (edges_all_side sq vs g.x g.y).2 hin
      exact this
    rw [this]
    simp
  have hfull : (mkPolyNp sq vs cx cy).npHitFull ell resc robust (p.1, p.2, zi) (q.1, q.2, zo) = .ok g := by
    unfold Poly.npHitFull
    rw [show (mkPolyNp sq vs cx cy).edges = edgesOf sq vs from rfl, ← hg]
    cases robust <;> simp [hout]
  refine ⟨g, u, i, hfull, hu0, hu1, hil, by rw [hge], honi, ?_, hbefore, hafter, hxy, hin, by rw [hge], ?_⟩
  · intro k hkl honk
    refine ⟨hpar k hkl (honz k honk), ?_⟩
    have hk2 := edgesOf_getElem? sq vs k hkl
    have := (lineT_border_iff hsq (hne k hkl) u).2 ⟨hpar k hkl (honz k honk), honk⟩
    exact hlast k _ hk2 this.1 this.2
  · rw [hge]
    simp only [he]
    exact mkEdge_normal hsq vs i (hne i hil)

/-- C137 (robust mode, any polygon): for every polygon, convex or not and in either orientation, a trajectory that starts
inside never raises, and the returned point is inside: the point of the search if it is inside, the start otherwise. -/
theorem C137_robust (P : Poly K) (ell : K → K → K × K) (resc : K) (a b : K × K × K) (ha : npOutside P [(a.1, a.2.1)] = [false]) :
    ∃ h g, P.npHitFull ell resc true a b = .ok h ∧ P.npHitFull ell resc false a b = .ok g ∧
      npOutside P [(h.x, h.y)] = [false] ∧ (h.nx, h.ny, h.seg) = (g.nx, g.ny, g.seg) ∧
      (npOutside P [(g.x, g.y)] = [false] → h = g) ∧
      (npOutside P [(g.x, g.y)] = [true] → (h.x, h.y) = (a.1, a.2.1)) := by
  have key : ∀ x y, npOutside P [(x, y)] = [P.npOut1 x y] := by
    intro x y
    unfold Poly.npOut1
    rw [npOutside_eq]
    rfl
  have ha' : P.npOut1 a.1 a.2.1 = false := by
    have := ha
    rw [key] at this
    simpa using this
  by_cases hg : P.npOut1 (npHit ell P.edges resc a b).x (npHit ell P.edges resc a b).y = true
  · refine ⟨{ npHit ell P.edges resc a b with x := a.1, y := a.2.1 }, npHit ell P.edges resc a b, ?_, ?_, ?_, rfl, ?_, fun _ => rfl⟩
    · unfold Poly.npHitFull
      simp [hg, ha']
    · unfold Poly.npHitFull
      simp
    · rw [key]; simp [ha']
    · rw [key, hg]; intro h; simp at h
  · have hg' : P.npOut1 (npHit ell P.edges resc a b).x (npHit ell P.edges resc a b).y = false := by simpa using hg
    refine ⟨npHit ell P.edges resc a b, npHit ell P.edges resc a b, ?_, ?_, ?_, rfl, fun _ => rfl, ?_⟩
    · unfold Poly.npHitFull
      simp [hg']
    · unfold Poly.npHitFull
      simp
    · rw [key, hg']
    · rw [key, hg']; intro h; simp at h

/-- C137 (agreement; partial: the end is strictly on the outer side of some wall, and for the normal the exit point is
on one wall only, see the two violated theorems below): the two classes return the same impact point, and the same
segment and normal. -/
theorem C137_agree_partial (sq : K → K) (hsq : IsSqrt sq) (vs : List (K × K)) (cx cy : K) (P : Poly K)
    (hP : mkPoly sq vs cx cy true = .ok P) (ell : K → K → K × K) (resc : K) (h0 : 0 ≤ resc) (h1 : resc < 1)
    (robust : Bool) (p q : K × K) (zi zo : K) (hp : StrictlyInside vs p)
    (hq : ∃ i < vs.length, cross3 (vtx vs i) (vtx vs (i + 1)) q < 0) :
    ∃ h g, P.hit resc robust (p.1, p.2, zi) (q.1, q.2, zo) = .ok h ∧
      (mkPolyNp sq vs cx cy).npHitFull ell resc robust (p.1, p.2, zi) (q.1, q.2, zo) = .ok g ∧
      g.x = h.x ∧ g.y = h.y ∧ g.z = h.z ∧
      ((∀ u, ∀ i < vs.length, ∀ j < vs.length, OnWall vs i (pointAt p q u) → OnWall vs j (pointAt p q u) → i = j) →
        g = h) := by
  have hnq : ¬ StrictlyInside vs q := by
    obtain ⟨i, hi, h⟩ := hq
    exact fun hc => absurd (hc i hi) (not_lt.2 h.le)
  obtain ⟨h, u, i, hh, u0, u1, hi, hseg, hon, hb, ha, hxy, -, hz, hn, -⟩ :=
    C48_first_exit_partial sq hsq vs cx cy P hP resc h0 h1 robust p q zi zo hp hq
  obtain ⟨g, v, j, hg, v0, v1, hj, gseg, gon, -, gb, ga, gxy, -, gz, gn⟩ :=
    C137_first_exit sq hsq vs cx cy ell ((mkPoly_ok hP).2.2.1 rfl) resc h0 h1 robust p q zi zo hp hnq
  have huv : u = v := by
    rcases lt_trichotomy u v with h | h | h
    · exact absurd (gb u u0.le h) (ha u le_rfl)
    · exact h
    · exact absurd (hb v v0.le h) (ga v le_rfl)
  subst huv
  have hxy' : (g.x, g.y) = (h.x, h.y) := gxy.trans hxy.symm
  obtain ⟨ex, ey⟩ := Prod.mk.inj hxy'
  refine ⟨h, g, hh, hg, ex, ey, gz.trans hz.symm, fun huniq => ?_⟩
  have hij := huniq u i hi j hj hon gon
  subst hij
  obtain ⟨n1, n2⟩ := gn.unique hn
  cases g; cases h
  simp only at ex ey hz gz hseg gseg n1 n2
  subst ex ey n1 n2
  rw [hz, gz, hseg, gseg]

theorem npSquare_hit (ell : ℝ → ℝ → ℝ × ℝ) (q : ℝ × ℝ) :
    (npHit ell (edgesOf Real.sqrt sq2) (99 / 100) (0, 0, 0) (q.1, q.2, 0)) =
      npHit ell [⟨1, 1, -1, 1, 0, -1⟩, ⟨-1, 1, -1, -1, 1, 0⟩, ⟨-1, -1, 1, -1, 0, 1⟩, ⟨1, -1, 1, 1, -1, 0⟩]
        (99 / 100) (0, 0, 0) (q.1, q.2, 0) := by
  congr 1
  simp only [edgesOf, closeList, sq2, pairs, List.take, List.cons_append, List.nil_append, List.map, mkEdge]
  norm_num
  rw [sqrt_four]
  norm_num

/-- C137 fails for trajectories that end exactly on a wall: the class without compiled code returns the normal of the
wall, the compiled one the normal (0, 0). -/
theorem C137_end_on_wall_violated (ell : ℝ → ℝ → ℝ × ℝ) : ∃ P h g, mkRect Real.sqrt 1 1 = .ok P ∧
    P.outside 1 0 = true ∧ P.hit (99 / 100) true (0, 0, 0) (1, 0, 0) = .ok h ∧
    (mkPolyNp Real.sqrt sq2 (99 / 100) (99 / 100)).npHitFull ell (99 / 100) true (0, 0, 0) (1, 0, 0) = .ok g ∧
    (h.nx, h.ny, h.seg) = (0, 0, 0) ∧ (g.nx, g.ny, g.seg) = (-1, 0, 3) := by
  obtain ⟨P, h, hP, -, ho, hh, -, a, b, c⟩ := C48_end_on_wall_violated
  have hg : npHit ell (edgesOf Real.sqrt sq2) (99 / 100) (0, 0, 0) (1, 0, 0) = ⟨99 / 100, 0, 0, -1, 0, 3⟩ := by
    rw [npSquare_hit ell (1, 0)]
    norm_num [npHit, npLoop, npStep, Edge.lineT, Edge.borderOk, List.getD, Int.toNat]
  have hin : ∀ x : ℝ, x = 99 / 100 → (mkPolyNp Real.sqrt sq2 (99 / 100) (99 / 100)).npOut1 x 0 = false := by
    intro x hx
    rw [npOut1_eq]
    unfold outsideConvex inEllipse mkPolyNp
    rw [hx]
    norm_num
  refine ⟨P, h, ⟨99 / 100, 0, 0, -1, 0, 3⟩, hP, ho, hh, ?_, by rw [a, b, c], rfl⟩
  unfold Poly.npHitFull
  rw [show (mkPolyNp Real.sqrt sq2 (99 / 100) (99 / 100)).edges = edgesOf Real.sqrt sq2 from rfl, hg]
  simp [hin]

/-- C137 fails for trajectories that leave through a corner: the two classes return the normals of different walls. -/
theorem C137_corner_violated (ell : ℝ → ℝ → ℝ × ℝ) : ∃ P h g, mkRect Real.sqrt 1 1 = .ok P ∧
    P.outside 2 2 = true ∧ P.hit (99 / 100) false (0, 0, 0) (2, 2, 0) = .ok h ∧
    (mkPolyNp Real.sqrt sq2 (99 / 100) (99 / 100)).npHitFull ell (99 / 100) false (0, 0, 0) (2, 2, 0) = .ok g ∧
    (h.nx, h.ny, h.seg) = (0, -1, 0) ∧ (g.nx, g.ny, g.seg) = (-1, 0, 3) := by
  obtain ⟨P, hP⟩ := sq2_ok
  have hed : P.edges = edgesOf Real.sqrt sq2 := by rw [(mkPoly_ok hP).1]; rfl
  have hee : edgesOf Real.sqrt sq2 =
      [⟨1, 1, -1, 1, 0, -1⟩, ⟨-1, 1, -1, -1, 1, 0⟩, ⟨-1, -1, 1, -1, 0, 1⟩, ⟨1, -1, 1, 1, -1, 0⟩] := by
    simp only [edgesOf, closeList, sq2, pairs, List.take, List.cons_append, List.nil_append, List.map, mkEdge]
    norm_num
    rw [sqrt_four]
    norm_num
  refine ⟨P, ⟨99 / 100, 99 / 100, 0, 0, -1, 0⟩, ⟨99 / 100, 99 / 100, 0, -1, 0, 3⟩, hP, ?_, ?_, ?_, rfl, rfl⟩
  · rw [← Bool.not_eq_false, C47_rectangle _ 1 1 one_pos one_pos P hP]
    norm_num
  · unfold Poly.hit
    rw [hed, hee]
    norm_num [cyHit, searchLoop, Edge.cross]
  · unfold Poly.npHitFull
    rw [show (mkPolyNp Real.sqrt sq2 (99 / 100) (99 / 100)).edges = edgesOf Real.sqrt sq2 from rfl, hee]
    norm_num [npHit, npLoop, npStep, Edge.lineT, Edge.borderOk, List.getD, Int.toNat]

/-- The constructor without compiled code accepts polygons the compiled one refuses: for the square given clockwise,
with semi-axes 1/2, the compiled class raises, and the other one takes points inside the square for outside. -/
theorem C137_orientation_violated (x y : ℝ) (h : 1 < (x / (1 / 2)) ^ 2 + (y / (1 / 2)) ^ 2) :
    mkPoly Real.sqrt sq2.reverse (1 / 2) (1 / 2) true = .error .custom ∧
    npOutside (mkPolyNp Real.sqrt sq2.reverse (1 / 2) (1 / 2)) [(x, y)] = [true] := by
  constructor
  · unfold mkPoly
    have hL : ((pairs sq2.reverse).any (fun q => decide (Real.sqrt ((q.2.1 - q.1.1) * (q.2.1 - q.1.1) +
        (q.2.2 - q.1.2) * (q.2.2 - q.1.2)) < 1 / 10 ^ 9))) = false := by
      simp only [sq2, List.reverse, List.reverseAux, pairs, List.any, Bool.or_false]
      norm_num [sqrt_four]
    rw [hL]
    have hA : polyArea sq2.reverse < (0 : ℝ) := by
      norm_num [polyArea, sq2, closeList, pairs]
    simp [hA]
  · rw [npOutside_eq]
    change [!(inEllipse (1 / 2) (1 / 2) x y || (edgesOf Real.sqrt sq2.reverse).all (fun e => decide (0 < e.side x y)))] = [true]
    have : (edgesOf Real.sqrt sq2.reverse).all (fun e => decide (0 < e.side x y)) = false := by
      by_contra hc
      have hc := (edges_all_side Real.sqrt sq2.reverse x y).1 (by simpa using hc)
      have c0 := hc 0 (by simp [sq2])
      have c2 := hc 2 (by simp [sq2])
      norm_num [vtx, sq2, cross3] at c0 c2
      linarith
    have he : inEllipse (1 / 2) (1 / 2) x y = false := decide_eq_false (not_le.2 h)
    rw [this, he]
    rfl

example : ∃ P, mkRect Real.sqrt 1 1 = .ok P ∧ StrictlyInside sq2 (0, 0) ∧
    (∃ i < sq2.length, cross3 (vtx sq2 i) (vtx sq2 (i + 1)) (2, 1 / 2) < 0) ∧ isConvex sq2 = true := by
  obtain ⟨P, hP⟩ := sq2_ok
  exact ⟨P, hP, (rect_interior 1 1 0 0 one_pos one_pos).2 (by norm_num),
    ⟨3, by simp [sq2], by norm_num [vtx, sq2, cross3]⟩, (mkPoly_ok hP).2.2.1 rfl⟩

example : (1 : ℝ) < ((9 / 10) / (1 / 2)) ^ 2 + (0 / (1 / 2)) ^ 2 := by norm_num

end PyECLOUD
