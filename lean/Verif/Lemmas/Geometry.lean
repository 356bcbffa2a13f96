import Verif.Model.Geometry
import Verif.Spec.Geometry
import Mathlib.Tactic.FieldSimp
import Mathlib.Tactic.Ring
import Mathlib.Tactic.Linarith
import Mathlib.Tactic.LinearCombination
import Mathlib.Tactic.Positivity

/-!
# Lemmas on polygons
-/

set_option linter.unusedSectionVars false

namespace PyECLOUD

variable {K : Type} [Field K] [LinearOrder K] [IsStrictOrderedRing K]

/-! ## Lists of edges -/

theorem pairs_length {α : Type} : ∀ l : List α, (pairs l).length = l.length - 1
  | [] => rfl
  | [_] => rfl
  | a :: b :: l => by
    have := pairs_length (b :: l)
    simp only [pairs, List.length_cons] at this ⊢
    omega

theorem pairs_getElem? {α : Type} : ∀ (l : List α) (i : ℕ) (a b : α), l[i]? = some a → l[i + 1]? = some b →
    (pairs l)[i]? = some (a, b)
  | [], i, a, b, h, _ => by simp at h
  | [x], i, a, b, _, h => by simp at h
  | x :: y :: l, 0, a, b, h, h' => by
    simp only [List.getElem?_cons_zero, Option.some.injEq, List.getElem?_cons_succ, zero_add] at h h'
    simp [pairs, h, h']
  | x :: y :: l, i + 1, a, b, h, h' => by
    simp only [List.getElem?_cons_succ] at h h'
    have := pairs_getElem? (y :: l) i a b h h'
    simpa [pairs] using this

theorem closeList_length {α : Type} (vs : List α) (h : vs ≠ []) : (closeList vs).length = vs.length + 1 := by
  cases vs with
  | nil => exact absurd rfl h
  | cons a l => simp [closeList]

theorem closeList_getElem? (vs : List (K × K)) (i : ℕ) (h : i ≤ vs.length) (hne : 0 < vs.length) :
    (closeList vs)[i]? = some (vtx vs i) := by
  unfold closeList vtx
  rcases h.lt_or_eq with h | h
  · rw [List.getElem?_append_left h, Nat.mod_eq_of_lt h, List.getD_eq_getElem _ _ h, List.getElem?_eq_getElem h]
  · subst h
    rw [List.getElem?_append_right le_rfl, Nat.mod_self, List.getD_eq_getElem _ _ hne, Nat.sub_self]
    cases vs with
    | nil => simp at hne
    | cons a l => simp

theorem pairs_close_getElem? (vs : List (K × K)) (i : ℕ) (h : i < vs.length) :
    (pairs (closeList vs))[i]? = some (vtx vs i, vtx vs (i + 1)) :=
  pairs_getElem? _ _ _ _ (closeList_getElem? vs i h.le (by omega)) (closeList_getElem? vs (i + 1) h (by omega))

theorem pairs_close_length {α : Type} (vs : List α) : (pairs (closeList vs)).length = vs.length := by
  rw [pairs_length]
  cases vs with
  | nil => rfl
  | cons a l => simp [closeList]

theorem edgesOf_length (sq : K → K) (vs : List (K × K)) : (edgesOf sq vs).length = vs.length := by
  rw [edgesOf, List.length_map, pairs_close_length]

theorem edgesOf_getElem? (sq : K → K) (vs : List (K × K)) (i : ℕ) (h : i < vs.length) :
    (edgesOf sq vs)[i]? = some (mkEdge sq (vtx vs i) (vtx vs (i + 1))) := by
  rw [edgesOf, List.getElem?_map, pairs_close_getElem? vs i h]; rfl

theorem mem_edgesOf (sq : K → K) (vs : List (K × K)) (e : Edge K) :
    e ∈ edgesOf sq vs ↔ ∃ i < vs.length, e = mkEdge sq (vtx vs i) (vtx vs (i + 1)) := by
  constructor
  · intro h
    obtain ⟨i, hi, he⟩ := List.getElem_of_mem h
    rw [edgesOf_length] at hi
    refine ⟨i, hi, ?_⟩
    have := edgesOf_getElem? sq vs i hi
    rw [List.getElem?_eq_getElem (by rw [edgesOf_length]; exact hi), he] at this
    exact Option.some.inj this
  · rintro ⟨i, hi, rfl⟩
    exact List.mem_of_getElem? (edgesOf_getElem? sq vs i hi)

theorem mem_pairs_close (vs : List (K × K)) (q : (K × K) × (K × K)) :
    q ∈ pairs (closeList vs) ↔ ∃ i < vs.length, q = (vtx vs i, vtx vs (i + 1)) := by
  constructor
  · intro h
    obtain ⟨i, hi, he⟩ := List.getElem_of_mem h
    rw [pairs_close_length] at hi
    refine ⟨i, hi, ?_⟩
    have := pairs_close_getElem? vs i hi
    rw [List.getElem?_eq_getElem (by rw [pairs_close_length]; exact hi), he] at this
    exact Option.some.inj this
  · rintro ⟨i, hi, rfl⟩
    exact List.mem_of_getElem? (pairs_close_getElem? vs i hi)

theorem vtx_add_length (vs : List (K × K)) (i : ℕ) : vtx vs (i + vs.length) = vtx vs i := by
  simp [vtx]

theorem vtx_mod (vs : List (K × K)) (i : ℕ) : vtx vs (i % vs.length) = vtx vs i := by
  simp [vtx]

theorem vtx_mod_add (vs : List (K × K)) (i j : ℕ) : vtx vs (i % vs.length + j) = vtx vs (i + j) := by
  simp [vtx]

/-- A statement about all edges holds for all cyclic indices. -/
theorem strictlyInside_all {vs : List (K × K)} {p : K × K} (h : StrictlyInside vs p) (hn : 0 < vs.length) (i : ℕ) :
    0 < cross3 (vtx vs i) (vtx vs (i + 1)) p := by
  have := h (i % vs.length) (Nat.mod_lt _ hn)
  rwa [vtx_mod, vtx_mod_add] at this

theorem leftTurns_all {vs : List (K × K)} (h : LeftTurns vs) (hn : 0 < vs.length) (i : ℕ) :
    0 ≤ cross3 (vtx vs i) (vtx vs (i + 1)) (vtx vs (i + 2)) := by
  have := h (i % vs.length) (Nat.mod_lt _ hn)
  rwa [vtx_mod, vtx_mod_add, vtx_mod_add] at this

/-! ## Point test -/

theorem mkEdge_side (sq : K → K) (a b : K × K) (x y : K) : (mkEdge sq a b).side x y = cross3 a b (x, y) := by
  simp only [Edge.side, mkEdge, cross3]; ring

theorem edges_all_side (sq : K → K) (vs : List (K × K)) (x y : K) :
    (edgesOf sq vs).all (fun e => decide (0 < e.side x y)) = true ↔ StrictlyInside vs (x, y) := by
  rw [List.all_eq_true]
  constructor
  · intro h i hi
    have := h _ ((mem_edgesOf sq vs _).2 ⟨i, hi, rfl⟩)
    rw [decide_eq_true_eq, mkEdge_side] at this
    exact this
  · intro h e he
    obtain ⟨i, hi, rfl⟩ := (mem_edgesOf sq vs e).1 he
    rw [decide_eq_true_eq, mkEdge_side]
    exact h i hi

theorem mkPoly_ok {sq : K → K} {vs : List (K × K)} {cx cy : K} {b : Bool} {P : Poly K}
    (h : mkPoly sq vs cx cy b = .ok P) :
    P = ⟨vs, edgesOf sq vs, cx, cy, b⟩ ∧ 0 ≤ polyArea vs ∧ (b = true → isConvex vs = true) ∧
    (∀ q ∈ pairs vs, 1 / 10 ^ 9 ≤
      sq ((q.2.1 - q.1.1) * (q.2.1 - q.1.1) + (q.2.2 - q.1.2) * (q.2.2 - q.1.2))) := by
  unfold mkPoly at h
  split_ifs at h with h1 h2 h3
  refine ⟨(Except.ok.inj h).symm, not_lt.1 h2, ?_, ?_⟩
  · intro hb
    simpa [hb] using h3
  · intro q hq
    by_contra hc
    exact h1 (List.any_eq_true.2 ⟨q, hq, by simpa using hc⟩)

theorem mkPoly_ok_iff (sq : K → K) (vs : List (K × K)) (cx cy : K) (b : Bool) :
    (∃ P, mkPoly sq vs cx cy b = .ok P) ↔ 0 ≤ polyArea vs ∧ (b = true → isConvex vs = true) ∧
    (∀ q ∈ pairs vs, 1 / 10 ^ 9 ≤
      sq ((q.2.1 - q.1.1) * (q.2.1 - q.1.1) + (q.2.2 - q.1.2) * (q.2.2 - q.1.2))) := by
  constructor
  · rintro ⟨P, h⟩
    exact (mkPoly_ok h).2
  · rintro ⟨h2, h3, h1⟩
    refine ⟨⟨vs, edgesOf sq vs, cx, cy, b⟩, ?_⟩
    unfold mkPoly
    rw [if_neg, if_neg (not_lt.2 h2), if_neg]
    · cases b
      · simp
      · simp [h3 rfl]
    · rw [Bool.not_eq_true, List.any_eq_false]
      intro q hq
      have := h1 q hq
      simpa using this

/-! ## Convexity check -/

/-- Turn at one corner as computed by the check. -/
def corner (vs : List (K × K)) (a : ℕ) : K := cross3 (vtx vs a) (vtx vs (a + 1)) (vtx vs (a + 2))

theorem convexLoop_iff (vs : List (K × K)) (l : List ℕ) (hl : ∀ a ∈ l, a < vs.length) (neg pos : Bool)
    (h0 : ¬ (neg = true ∧ pos = true)) :
    convexLoop vs l neg pos = true ↔
      ((pos = false ∧ ∀ a ∈ l, 0 ≤ corner vs a) ∨ (neg = false ∧ ∀ a ∈ l, corner vs a ≤ 0)) := by
  induction l generalizing neg pos with
  | nil =>
    simp only [convexLoop, List.not_mem_nil, false_imp_iff, implies_true, and_true, true_iff]
    cases neg <;> cases pos <;> simp_all
  | cons a l ih =>
    have ha : a < vs.length := hl a (by simp)
    have hcr : (vs.getD a (0, 0)).1 = (vtx vs a).1 ∧ (vs.getD a (0, 0)).2 = (vtx vs a).2 := by
      unfold vtx; rw [Nat.mod_eq_of_lt ha]; exact ⟨rfl, rfl⟩
    have e : ∀ vA vB vC : K × K, (vA.1 - vB.1) * (vC.2 - vB.2) - (vA.2 - vB.2) * (vC.1 - vB.1) = - cross3 vA vB vC := by
      intro vA vB vC; simp only [cross3]; ring
    have e1 : vs.getD a (0, 0) = vtx vs a := Prod.ext hcr.1 hcr.2
    have e2 : vs.getD (((a + 1) % vs.length + 1) % vs.length) (0, 0) = vtx vs (a + 2) := by
      unfold vtx; rw [Nat.mod_add_mod]
    have e3 : vs.getD ((a + 1) % vs.length) (0, 0) = vtx vs (a + 1) := rfl
    simp only [convexLoop, e1, e2, e3, e]
    change (if _ then _ else _) = true ↔ _
    have hc : cross3 (vtx vs a) (vtx vs (a + 1)) (vtx vs (a + 2)) = corner vs a := rfl
    rw [hc]
    have hl' : ∀ a ∈ l, a < vs.length := fun b hb => hl b (by simp [hb])
    rcases lt_trichotomy (corner vs a) 0 with hlt | heq | hgt
    · have d1 : ¬ (-corner vs a < 0) := by linarith
      have d2 : 0 < -corner vs a := by linarith
      simp only [d1, d2, decide_false, decide_true, Bool.or_false, Bool.not_false, Bool.and_true, Bool.or_true]
      cases neg
      · simp only [Bool.false_eq_true, if_false]
        rw [ih hl' false true (by simp)]
        constructor
        · rintro (⟨h, _⟩ | ⟨_, h⟩)
          · cases h
          · exact Or.inr ⟨by simp, by simpa using ⟨hlt.le, h⟩⟩
        · rintro (⟨_, h⟩ | ⟨_, h⟩)
          · exact absurd (h a (by simp)) (not_le.2 hlt)
          · exact Or.inr ⟨rfl, fun b hb => h b (by simp [hb])⟩
      · simp only [if_true, Bool.false_eq_true, false_iff]
        rintro (⟨_, h⟩ | ⟨h, _⟩)
        · exact absurd (h a (by simp)) (not_le.2 hlt)
        · cases h
    · simp only [heq, neg_zero, lt_irrefl, decide_false, Bool.or_false, Bool.not_false, Bool.and_false]
      have : ¬ ((neg && pos) = true) := by simpa using h0
      rw [if_neg this, ih hl' neg pos h0]
      simp [heq]
    · have d1 : -corner vs a < 0 := by linarith
      have d2 : ¬ 0 < -corner vs a := by linarith
      simp only [d1, d2, decide_false, decide_true, Bool.or_true, Bool.not_true, Bool.and_false, Bool.or_false, Bool.true_and]
      cases pos
      · simp only [Bool.false_eq_true, if_false]
        rw [ih hl' true false (by simp)]
        constructor
        · rintro (⟨_, h⟩ | ⟨h, _⟩)
          · exact Or.inl ⟨by simp, by simpa using ⟨hgt.le, h⟩⟩
          · cases h
        · rintro (⟨_, h⟩ | ⟨_, h⟩)
          · exact Or.inl ⟨rfl, fun b hb => h b (by simp [hb])⟩
          · exact absurd (h a (by simp)) (not_le.2 hgt)
      · simp only [if_true, Bool.false_eq_true, false_iff]
        rintro (⟨h, _⟩ | ⟨_, h⟩)
        · cases h
        · exact absurd (h a (by simp)) (not_le.2 hgt)

theorem isConvex_iff (vs : List (K × K)) : isConvex vs = true ↔ LeftTurns vs ∨ RightTurns vs := by
  unfold isConvex
  rw [convexLoop_iff vs _ (by simp) false false (by simp)]
  simp [LeftTurns, RightTurns, corner]

/-! ## Interior points and corners -/

/-- At a vertex that is farthest from an interior point the polygon turns strictly left. -/
theorem turn_at_farthest (a b c p : K × K) (h1 : 0 < cross3 a b p) (h2 : 0 < cross3 b c p)
    (ha : (a.1 - p.1) ^ 2 + (a.2 - p.2) ^ 2 ≤ (b.1 - p.1) ^ 2 + (b.2 - p.2) ^ 2)
    (hc : (c.1 - p.1) ^ 2 + (c.2 - p.2) ^ 2 ≤ (b.1 - p.1) ^ 2 + (b.2 - p.2) ^ 2) : 0 < cross3 a b c := by
  obtain ⟨a1, a2⟩ := a
  obtain ⟨b1, b2⟩ := b
  obtain ⟨c1, c2⟩ := c
  obtain ⟨p1, p2⟩ := p
  simp only [cross3] at *
  obtain ⟨A1, hA1⟩ : ∃ z, z = a1 - p1 := ⟨_, rfl⟩
  obtain ⟨A2, hA2⟩ : ∃ z, z = a2 - p2 := ⟨_, rfl⟩
  obtain ⟨B1, hB1⟩ : ∃ z, z = b1 - p1 := ⟨_, rfl⟩
  obtain ⟨B2, hB2⟩ : ∃ z, z = b2 - p2 := ⟨_, rfl⟩
  obtain ⟨C1, hC1⟩ : ∃ z, z = c1 - p1 := ⟨_, rfl⟩
  obtain ⟨C2, hC2⟩ : ∃ z, z = c2 - p2 := ⟨_, rfl⟩
  rw [← hA1, ← hA2, ← hB1, ← hB2] at ha
  rw [← hC1, ← hC2, ← hB1, ← hB2] at hc
  have k1 : 0 < A1 * B2 - A2 * B1 := by rw [hA1, hA2, hB1, hB2]; linarith
  have k2 : 0 < B1 * C2 - B2 * C1 := by rw [hC1, hC2, hB1, hB2]; linarith
  have goal : (b1 - a1) * (c2 - a2) - (b2 - a2) * (c1 - a1)
      = (A1 * B2 - A2 * B1) + (B1 * C2 - B2 * C1) - (A1 * C2 - A2 * C1) := by
    rw [hA1, hA2, hB1, hB2, hC1, hC2]; ring
  rw [goal]
  -- coordinates along and across `B`
  have hB : 0 < B1 ^ 2 + B2 ^ 2 := by
    by_contra hcon
    have : B1 ^ 2 + B2 ^ 2 = 0 := le_antisymm (not_lt.1 hcon) (by positivity)
    have z1 : B1 = 0 := by nlinarith [sq_nonneg B1, sq_nonneg B2]
    have z2 : B2 = 0 := by nlinarith [sq_nonneg B1, sq_nonneg B2]
    rw [z1, z2] at k1
    simp at k1
  have lag1 : (A1 * B1 + A2 * B2) ^ 2 + (A1 * B2 - A2 * B1) ^ 2 = (A1 ^ 2 + A2 ^ 2) * (B1 ^ 2 + B2 ^ 2) := by ring
  have lag2 : (B1 * C1 + B2 * C2) ^ 2 + (B1 * C2 - B2 * C1) ^ 2 = (B1 ^ 2 + B2 ^ 2) * (C1 ^ 2 + C2 ^ 2) := by ring
  have q1 : A1 * B1 + A2 * B2 < B1 ^ 2 + B2 ^ 2 := by
    by_contra hcon
    push Not at hcon
    have : (B1 ^ 2 + B2 ^ 2) ^ 2 ≤ (A1 * B1 + A2 * B2) ^ 2 := pow_le_pow_left₀ hB.le hcon 2
    have h2 : 0 < (A1 * B2 - A2 * B1) ^ 2 := pow_pos k1 2
    have h3 : (A1 ^ 2 + A2 ^ 2) * (B1 ^ 2 + B2 ^ 2) ≤ (B1 ^ 2 + B2 ^ 2) * (B1 ^ 2 + B2 ^ 2) :=
      mul_le_mul_of_nonneg_right ha hB.le
    rw [sq (B1 ^ 2 + B2 ^ 2)] at this
    linarith
  have q2 : B1 * C1 + B2 * C2 < B1 ^ 2 + B2 ^ 2 := by
    by_contra hcon
    push Not at hcon
    have : (B1 ^ 2 + B2 ^ 2) ^ 2 ≤ (B1 * C1 + B2 * C2) ^ 2 := pow_le_pow_left₀ hB.le hcon 2
    have h2 : 0 < (B1 * C2 - B2 * C1) ^ 2 := pow_pos k2 2
    have h3 : (B1 ^ 2 + B2 ^ 2) * (C1 ^ 2 + C2 ^ 2) ≤ (B1 ^ 2 + B2 ^ 2) * (B1 ^ 2 + B2 ^ 2) :=
      mul_le_mul_of_nonneg_left hc hB.le
    rw [sq (B1 ^ 2 + B2 ^ 2)] at this
    linarith
  have key : (B1 ^ 2 + B2 ^ 2) * ((A1 * B2 - A2 * B1) + (B1 * C2 - B2 * C1) - (A1 * C2 - A2 * C1)) =
      (A1 * B2 - A2 * B1) * (B1 ^ 2 + B2 ^ 2 - (B1 * C1 + B2 * C2)) +
      (B1 * C2 - B2 * C1) * (B1 ^ 2 + B2 ^ 2 - (A1 * B1 + A2 * B2)) := by ring
  have : 0 < (B1 ^ 2 + B2 ^ 2) * ((A1 * B2 - A2 * B1) + (B1 * C2 - B2 * C1) - (A1 * C2 - A2 * C1)) := by
    rw [key]
    have := mul_pos k1 (sub_pos.2 q2)
    have := mul_pos k2 (sub_pos.2 q1)
    linarith
  exact (mul_pos_iff_of_pos_left hB).1 this

theorem exists_farthest (f : ℕ → K) : ∀ n, 0 < n → ∃ i < n, ∀ j < n, f j ≤ f i := by
  intro n hn
  obtain ⟨i, hi, h⟩ := Finset.exists_max_image (Finset.range n) f ⟨0, by simpa using hn⟩
  exact ⟨i, by simpa using hi, fun j hj => h j (by simpa using hj)⟩

/-- A polygon with an interior point that passes the convexity check turns left at every corner. -/
theorem leftTurns_of_convex {vs : List (K × K)} (hc : isConvex vs = true) {p : K × K} (hp : StrictlyInside vs p) :
    LeftTurns vs := by
  rcases (isConvex_iff vs).1 hc with h | h
  · exact h
  · intro i hi
    exfalso
    have hn : 0 < vs.length := by omega
    obtain ⟨j, hj, hmax⟩ := exists_farthest
      (fun k => ((vtx vs k).1 - p.1) ^ 2 + ((vtx vs k).2 - p.2) ^ 2) vs.length hn
    have hall : ∀ k, ((vtx vs k).1 - p.1) ^ 2 + ((vtx vs k).2 - p.2) ^ 2 ≤
        ((vtx vs j).1 - p.1) ^ 2 + ((vtx vs j).2 - p.2) ^ 2 := by
      intro k
      have := hmax (k % vs.length) (Nat.mod_lt _ hn)
      rwa [vtx_mod] at this
    -- the corner at vertex j
    obtain ⟨m, hm⟩ : ∃ m, m = j + (vs.length - 1) := ⟨_, rfl⟩
    have e1 : vtx vs (m + 1) = vtx vs j := by
      rw [hm, show j + (vs.length - 1) + 1 = j + vs.length by omega, vtx_add_length]
    have s1 := strictlyInside_all hp hn m
    have s2 := strictlyInside_all hp hn (m + 1)
    have := turn_at_farthest (vtx vs m) (vtx vs (m + 1)) (vtx vs (m + 1 + 1)) p s1 s2
      (by rw [e1]; exact hall _) (by rw [e1]; exact hall _)
    have hr := h (m % vs.length) (Nat.mod_lt _ hn)
    rw [vtx_mod, vtx_mod_add, vtx_mod_add] at hr
    exact absurd this (not_lt.2 hr)

/-! ## Trajectory and edges -/

theorem cross3_pointAt (a b p q : K × K) (t : K) :
    cross3 a b (pointAt p q t) = (1 - t) * cross3 a b p + t * cross3 a b q := by
  simp only [cross3, pointAt]; ring

theorem cross3_onLine (a b : K × K) (s : K) : cross3 a b (pointAt a b s) = 0 := by
  simp only [cross3, pointAt]; ring

/-- A point on the line of an edge is at some fraction of it. -/
theorem onLine_of_cross3 {a b x : K × K} (hab : a ≠ b) (h : cross3 a b x = 0) : ∃ s, x = pointAt a b s := by
  obtain ⟨a1, a2⟩ := a
  obtain ⟨b1, b2⟩ := b
  obtain ⟨x1, x2⟩ := x
  simp only [cross3] at h
  by_cases h1 : b1 - a1 = 0
  · have h2 : b2 - a2 ≠ 0 := by
      intro h2
      exact hab (Prod.ext (by simpa using (sub_eq_zero.1 h1).symm) (by simpa using (sub_eq_zero.1 h2).symm))
    refine ⟨(x2 - a2) / (b2 - a2), ?_⟩
    rw [h1, zero_mul, zero_sub, neg_eq_zero] at h
    have := (mul_eq_zero.1 h).resolve_left h2
    simp only [pointAt, h1, mul_zero, add_zero, Prod.mk.injEq]
    refine ⟨by linarith, ?_⟩
    rw [div_mul_cancel₀ _ h2]; ring
  · refine ⟨(x1 - a1) / (b1 - a1), ?_⟩
    simp only [pointAt, Prod.mk.injEq]
    refine ⟨by rw [div_mul_cancel₀ _ h1]; ring, ?_⟩
    field_simp
    linear_combination h

/-- The trajectory from `p` to `q` is parallel to the edge from `a` to `b`. -/
def Parallel (a b p q : K × K) : Prop := (q.2 - p.2) * (b.1 - a.1) + (p.1 - q.1) * (b.2 - a.2) = 0

theorem edge_len_pos {a b : K × K} (h : a ≠ b) :
    0 < (b.2 - a.2) * (b.2 - a.2) + (b.1 - a.1) * (b.1 - a.1) := by
  obtain ⟨a1, a2⟩ := a
  obtain ⟨b1, b2⟩ := b
  by_contra hc
  have h1 : b2 - a2 = 0 := by nlinarith [mul_self_nonneg (b2 - a2), mul_self_nonneg (b1 - a1)]
  have h2 : b1 - a1 = 0 := by nlinarith [mul_self_nonneg (b2 - a2), mul_self_nonneg (b1 - a1)]
  exact h (Prod.ext (sub_eq_zero.1 h2).symm (sub_eq_zero.1 h1).symm)

/-- The intersection computed for one edge: exactly the crossing of the trajectory line with the edge. -/
theorem cross_iff {sq : K → K} (hsq : IsSqrt sq) {a b p q : K × K} (hab : a ≠ b) (u : K) :
    (mkEdge sq a b).cross p.1 p.2 q.1 q.2 = some u ↔
      ¬ Parallel a b p q ∧ OnSegment a b (pointAt p q u) := by
  obtain ⟨hL, -⟩ := hsq _ (edge_len_pos hab)
  obtain ⟨L, hLdef⟩ : ∃ L, L = sq ((b.2 - a.2) * (b.2 - a.2) + (b.1 - a.1) * (b.1 - a.1)) := ⟨_, rfl⟩
  rw [← hLdef] at hL
  have hL0 : L ≠ 0 := hL.ne'
  obtain ⟨a1, a2⟩ := a
  obtain ⟨b1, b2⟩ := b
  obtain ⟨p1, p2⟩ := p
  obtain ⟨q1, q2⟩ := q
  unfold Parallel OnSegment
  simp only [Edge.cross, mkEdge, ← hLdef]
  obtain ⟨den, hden⟩ : ∃ d, d = (q2 - p2) * (b1 - a1) + (p1 - q1) * (b2 - a2) := ⟨_, rfl⟩
  simp only at hLdef ⊢
  rw [← hden]
  by_cases hd : den = 0
  · have : ¬ ((0 : K) ≤ -2 ∧ (-2 : K) ≤ 1) := by
      intro h; linarith [h.1]
    simp [hd]
  · rw [if_neg hd]
    have hN : -(b2 - a2) / L * (q1 - p1) + (b1 - a1) / L * (q2 - p2) = den / L := by
      rw [hden]; ring
    have hM : -(b2 - a2) / L * (a1 - p1) + (b1 - a1) / L * (a2 - p2)
        = ((b1 - a1) * (a2 - p2) - (b2 - a2) * (a1 - p1)) / L := by ring
    have hu : (-(b2 - a2) / L * (a1 - p1) + (b1 - a1) / L * (a2 - p2)) /
        (-(b2 - a2) / L * (q1 - p1) + (b1 - a1) / L * (q2 - p2))
        = ((b1 - a1) * (a2 - p2) - (b2 - a2) * (a1 - p1)) / den := by
      rw [hN, hM, div_div_div_cancel_right₀ hL0]
    rw [hu]
    have hsol : ∀ s w : K, pointAt (p1, p2) (q1, q2) w = pointAt (a1, a2) (b1, b2) s ↔
        (s = ((q2 - p2) * (p1 - a1) + (p1 - q1) * (p2 - a2)) / den ∧
         w = ((b1 - a1) * (a2 - p2) - (b2 - a2) * (a1 - p1)) / den) := by
      intro s w
      simp only [pointAt, Prod.mk.injEq]
      rw [eq_div_iff hd, eq_div_iff hd]
      constructor
      · rintro ⟨h1, h2⟩
        constructor
        · rw [hden]
          linear_combination (p2 - q2) * h1 + (q1 - p1) * h2
        · rw [hden]
          linear_combination (a2 - b2) * h1 + (b1 - a1) * h2
      · rintro ⟨h1, h2⟩
        constructor
        · apply mul_right_cancel₀ hd
          have : (p1 + w * (q1 - p1)) * den - (a1 + s * (b1 - a1)) * den
              = (p1 - a1) * den + (w * den) * (q1 - p1) - (s * den) * (b1 - a1) := by ring
          rw [h1, h2] at this
          rw [← sub_eq_zero, this, hden]; ring
        · apply mul_right_cancel₀ hd
          have : (p2 + w * (q2 - p2)) * den - (a2 + s * (b2 - a2)) * den
              = (p2 - a2) * den + (w * den) * (q2 - p2) - (s * den) * (b2 - a2) := by ring
          rw [h1, h2] at this
          rw [← sub_eq_zero, this, hden]; ring
    constructor
    · intro h
      split_ifs at h with hc
      exact ⟨hd, _, hc.1, hc.2, (hsol _ _).2 ⟨rfl, (Option.some.inj h).symm⟩⟩
    · rintro ⟨-, s, h0, h1, he⟩
      obtain ⟨rfl, rfl⟩ := (hsol _ _).1 he
      rw [if_pos ⟨h0, h1⟩]

theorem searchLoop_spec (xi yi xo yo : K) (l : List (Edge K)) (ii : ℕ) (t : K) (f : Option (ℕ × Edge K)) :
    (searchLoop xi yi xo yo l ii t f).1 ≤ t ∧
    (∀ e ∈ l, ∀ u, e.cross xi yi xo yo = some u → 0 ≤ u → (searchLoop xi yi xo yo l ii t f).1 ≤ u) ∧
    (searchLoop xi yi xo yo l ii t f = (t, f) ∨ ∃ k e, l[k]? = some e ∧
      (searchLoop xi yi xo yo l ii t f).2 = some (ii + k, e) ∧
      e.cross xi yi xo yo = some (searchLoop xi yi xo yo l ii t f).1 ∧
      0 ≤ (searchLoop xi yi xo yo l ii t f).1 ∧ (searchLoop xi yi xo yo l ii t f).1 < t) := by
  induction l generalizing ii t f with
  | nil => simp [searchLoop]
  | cons e l ih =>
    rcases hc : e.cross xi yi xo yo with _ | w
    · have hs : searchLoop xi yi xo yo (e :: l) ii t f = searchLoop xi yi xo yo l (ii + 1) t f := by
        rw [searchLoop, hc]
      rw [hs]
      obtain ⟨h1, h2, h3⟩ := ih (ii + 1) t f
      refine ⟨h1, ?_, ?_⟩
      · intro e' he' u hu h0
        rcases List.mem_cons.1 he' with rfl | he'
        · rw [hc] at hu; cases hu
        · exact h2 e' he' u hu h0
      · rcases h3 with h3 | ⟨k, e', hk, a, b, c, d⟩
        · exact Or.inl h3
        · exact Or.inr ⟨k + 1, e', by simpa using hk, by rw [a]; congr 2; omega, b, c, d⟩
    · by_cases hw : 0 ≤ w ∧ w < t
      · have hs : searchLoop xi yi xo yo (e :: l) ii t f = searchLoop xi yi xo yo l (ii + 1) w (some (ii, e)) := by
          rw [searchLoop, hc]; exact if_pos hw
        rw [hs]
        obtain ⟨h1, h2, h3⟩ := ih (ii + 1) w (some (ii, e))
        refine ⟨h1.trans hw.2.le, ?_, ?_⟩
        · intro e' he' u hu h0
          rcases List.mem_cons.1 he' with rfl | he'
          · rw [hc] at hu; cases hu; exact h1
          · exact h2 e' he' u hu h0
        · rcases h3 with h3 | ⟨k, e', hk, a, b, c, d⟩
          · exact Or.inr ⟨0, e, by simp, by rw [h3]; rfl, by rw [h3]; exact hc, by rw [h3]; exact hw.1, by rw [h3]; exact hw.2⟩
          · exact Or.inr ⟨k + 1, e', by simpa using hk, by rw [a]; congr 2; omega, b, c, d.trans hw.2⟩
      · have hs : searchLoop xi yi xo yo (e :: l) ii t f = searchLoop xi yi xo yo l (ii + 1) t f := by
          rw [searchLoop, hc]; exact if_neg hw
        rw [hs]
        obtain ⟨h1, h2, h3⟩ := ih (ii + 1) t f
        refine ⟨h1, ?_, ?_⟩
        · intro e' he' u hu h0
          rcases List.mem_cons.1 he' with rfl | he'
          · rw [hc] at hu; cases hu
            exact h1.trans (not_lt.1 (fun h => hw ⟨h0, h⟩))
          · exact h2 e' he' u hu h0
        · rcases h3 with h3 | ⟨k, e', hk, a, b, c, d⟩
          · exact Or.inl h3
          · exact Or.inr ⟨k + 1, e', by simpa using hk, by rw [a]; congr 2; omega, b, c, d⟩

theorem mkEdge_normal {sq : K → K} (hsq : IsSqrt sq) (vs : List (K × K)) (i : ℕ) (hab : vtx vs i ≠ vtx vs (i + 1)) :
    UnitNormal vs i (mkEdge sq (vtx vs i) (vtx vs (i + 1))).nx (mkEdge sq (vtx vs i) (vtx vs (i + 1))).ny := by
  have hpos := edge_len_pos hab
  obtain ⟨hL, hLL⟩ := hsq _ hpos
  rcases h1 : vtx vs i with ⟨a1, a2⟩
  rcases h2 : vtx vs (i + 1) with ⟨b1, b2⟩
  unfold UnitNormal
  simp only [mkEdge, h1, h2]
  rw [h1, h2] at hpos hL hLL
  simp only at hpos hL hLL
  obtain ⟨L, hLdef⟩ : ∃ L, L = sq ((b2 - a2) * (b2 - a2) + (b1 - a1) * (b1 - a1)) := ⟨_, rfl⟩
  rw [← hLdef] at hL hLL ⊢
  have hL0 : L ≠ 0 := hL.ne'
  refine ⟨?_, by ring, ?_⟩
  · rw [div_mul_div_comm, div_mul_div_comm, ← add_div, div_eq_one_iff_eq (mul_ne_zero hL0 hL0), hLL]; ring
  · have : (b1 - a1) * ((b1 - a1) / L) - (b2 - a2) * (-(b2 - a2) / L)
        = ((b2 - a2) * (b2 - a2) + (b1 - a1) * (b1 - a1)) / L := by ring
    rw [this]
    exact div_pos hpos hL

/-! ## Walk along straight runs of edges -/

/-- Forward walk: a point beyond the end of an edge, on its line and not to the right of any edge, lies on a later
edge of the same straight run. -/
theorem walk_forward (v : ℕ → K × K) (n : ℕ) (hn : 0 < n) (hper : v n = v 0) (p x : K × K)
    (hturn : ∀ k, 0 ≤ cross3 (v k) (v (k + 1)) (v (k + 2))) (hp : ∀ k, 0 < cross3 (v k) (v (k + 1)) p)
    (hx : ∀ k, 0 ≤ cross3 (v k) (v (k + 1)) x) (s : K) (hs : 1 < s) (h0 : x = pointAt (v 0) (v 1) s) :
    ∃ k < n, ∃ lam : K, 0 < lam ∧ (v (k + 1)).1 - (v k).1 = lam * ((v 1).1 - (v 0).1) ∧
      (v (k + 1)).2 - (v k).2 = lam * ((v 1).2 - (v 0).2) ∧ OnSegment (v k) (v (k + 1)) x := by
  by_contra hcon
  have step : ∀ k ≤ n, ∃ lam c r : K, 0 < lam ∧ 0 ≤ c ∧ (0 < k → 0 < c) ∧ 1 < r ∧
      (v (k + 1)).1 - (v k).1 = lam * ((v 1).1 - (v 0).1) ∧ (v (k + 1)).2 - (v k).2 = lam * ((v 1).2 - (v 0).2) ∧
      v k = pointAt (v 0) (v 1) c ∧ x = pointAt (v k) (v (k + 1)) r := by
    intro k
    induction k with
    | zero =>
      intro _
      exact ⟨1, 0, s, one_pos, le_rfl, fun h => absurd h (lt_irrefl _), hs, by simp, by simp, by simp [pointAt], by simpa using h0⟩
    | succ k ih =>
      intro hk
      obtain ⟨lam, c, r, hl, hc, -, hr, e1, e2, e3, e4⟩ := ih (by omega)
      have hx' := hx (k + 1)
      have ht := hturn k
      have hpk := hp k
      have hpk' := hp (k + 1)
      rcases hk0 : v k with ⟨a1, a2⟩
      rcases hk1 : v (k + 1) with ⟨b1, b2⟩
      rcases hk2 : v (k + 1 + 1) with ⟨c1, c2⟩
      have hk2' : v (k + 2) = (c1, c2) := hk2
      obtain ⟨p1, p2⟩ := p
      rw [hk0, hk1] at e4
      rw [e4, hk1, hk2] at hx'
      rw [hk0, hk1, hk2'] at ht
      rw [hk0, hk1] at hpk e1 e2
      rw [hk1, hk2] at hpk'
      simp only [cross3, pointAt] at hx' ht hpk hpk'
      simp only at e1 e2
      have hturn0 : (b1 - a1) * (c2 - b2) - (b2 - a2) * (c1 - b1) = 0 := by
        have hle : (r - 1) * ((b1 - a1) * (c2 - b2) - (b2 - a2) * (c1 - b1)) ≤ 0 := by nlinarith
        have h2 : 0 ≤ (b1 - a1) * (c2 - b2) - (b2 - a2) * (c1 - b1) := by nlinarith
        have : 0 < r - 1 := by linarith
        nlinarith
      have hne : ((a1, a2) : K × K) ≠ (b1, b2) := by
        intro h
        rw [Prod.mk.injEq] at h
        rw [h.1, h.2] at hpk
        simp at hpk
      have hpar : cross3 (a1, a2) (b1, b2) (a1 + (c1 - b1), a2 + (c2 - b2)) = 0 := by
        simp only [cross3]; linear_combination hturn0
      obtain ⟨mu, hmu⟩ := onLine_of_cross3 hne hpar
      simp only [pointAt, Prod.mk.injEq] at hmu
      have m1 : c1 - b1 = mu * (b1 - a1) := by linear_combination hmu.1
      have m2 : c2 - b2 = mu * (b2 - a2) := by linear_combination hmu.2
      have hmupos : 0 < mu := by
        rw [m1, m2] at hpk'
        have e : mu * (b1 - a1) * (p2 - b2) - mu * (b2 - a2) * (p1 - b1)
            = mu * ((b1 - a1) * (p2 - a2) - (b2 - a2) * (p1 - a1)) := by ring
        rw [e] at hpk'
        exact (mul_pos_iff_of_pos_right hpk).1 hpk'
      have hmu0 : mu ≠ 0 := hmupos.ne'
      refine ⟨mu * lam, c + lam, (r - 1) / mu, mul_pos hmupos hl, by linarith, fun _ => by linarith, ?_, ?_, ?_, ?_, ?_⟩
      · by_contra hle
        have hle := not_lt.1 hle
        rcases Nat.lt_or_ge (k + 1) n with hlt | hge
        · apply hcon
          refine ⟨k + 1, hlt, mu * lam, mul_pos hmupos hl, ?_, ?_, (r - 1) / mu, ?_, hle, ?_⟩
          · rw [hk1, hk2]; simp only; rw [m1, e1]; ring
          · rw [hk1, hk2]; simp only; rw [m2, e2]; ring
          · exact div_nonneg (by linarith) hmupos.le
          · rw [hk1, hk2, e4]
            simp only [pointAt, Prod.mk.injEq, m1, m2]
            constructor <;> (field_simp; ring)
        · -- back at the start: the edge at `0`
          have hk' : k + 1 = n := le_antisymm hk hge
          have hv0 : v 0 = (b1, b2) := by rw [← hper, ← hk', hk1]
          -- v (k+1) = v 0 + (c + lam) d0, with d0 ≠ 0
          have hd0 : v 0 ≠ v 1 := by
            intro h
            have := hp 0
            rw [zero_add, ← h] at this
            simp [cross3] at this
          have hvk : (b1, b2) = pointAt (v 0) (v 1) (c + lam) := by
            rw [hk0] at e3
            simp only [pointAt, Prod.mk.injEq] at e3 ⊢
            exact ⟨by linear_combination e1 + e3.1, by linear_combination e2 + e3.2⟩
          rw [← hv0] at hvk
          simp only [pointAt] at hvk
          have h1 := congrArg Prod.fst hvk
          have h2 := congrArg Prod.snd hvk
          simp only at h1 h2
          have hcl : c + lam ≠ 0 := by linarith
          have z1 : (v 1).1 - (v 0).1 = 0 := by
            have : (c + lam) * ((v 1).1 - (v 0).1) = 0 := by linear_combination -h1
            exact (mul_eq_zero.1 this).resolve_left hcl
          have z2 : (v 1).2 - (v 0).2 = 0 := by
            have : (c + lam) * ((v 1).2 - (v 0).2) = 0 := by linear_combination -h2
            exact (mul_eq_zero.1 this).resolve_left hcl
          exact hd0 (Prod.ext (sub_eq_zero.1 z1).symm (sub_eq_zero.1 z2).symm)
      · simp only; rw [m1, e1]; ring
      · simp only; rw [m2, e2]; ring
      · rw [hk0] at e3
        simp only [pointAt, Prod.mk.injEq] at e3 ⊢
        exact ⟨by linear_combination e1 + e3.1, by linear_combination e2 + e3.2⟩
      · rw [e4]
        simp only [pointAt, Prod.mk.injEq, m1, m2]
        constructor <;> (field_simp; ring)
  obtain ⟨lam, c, r, hl, hc, hc', hr, e1, e2, e3, e4⟩ := step n le_rfl
  have hd0 : v 0 ≠ v 1 := by
    intro h
    have := hp 0
    rw [zero_add, ← h] at this
    simp [cross3] at this
  rw [hper] at e3
  simp only [pointAt] at e3
  have h1 := congrArg Prod.fst e3
  have h2 := congrArg Prod.snd e3
  simp only at h1 h2
  have hcl : c ≠ 0 := (hc' hn).ne'
  have z1 : (v 1).1 - (v 0).1 = 0 := by
    have : c * ((v 1).1 - (v 0).1) = 0 := by linear_combination -h1
    exact (mul_eq_zero.1 this).resolve_left hcl
  have z2 : (v 1).2 - (v 0).2 = 0 := by
    have : c * ((v 1).2 - (v 0).2) = 0 := by linear_combination -h2
    exact (mul_eq_zero.1 this).resolve_left hcl
  exact hd0 (Prod.ext (sub_eq_zero.1 z1).symm (sub_eq_zero.1 z2).symm)

/-- Mirror image. -/
def mirror (p : K × K) : K × K := (-p.1, p.2)

theorem cross3_mirror (a b p : K × K) : cross3 (mirror b) (mirror a) (mirror p) = cross3 a b p := by
  simp only [cross3, mirror]; ring

/-- A point on the line of an edge and not to the right of any edge lies on an edge of the same straight run. -/
theorem exists_wall (vs : List (K × K)) (hturn : LeftTurns vs) (p x : K × K) (hp : StrictlyInside vs p)
    (hx : ∀ i < vs.length, 0 ≤ cross3 (vtx vs i) (vtx vs (i + 1)) x) (i : ℕ) (hi : i < vs.length)
    (hxi : cross3 (vtx vs i) (vtx vs (i + 1)) x = 0) :
    ∃ j < vs.length, ∃ lam : K, 0 < lam ∧
      (vtx vs (j + 1)).1 - (vtx vs j).1 = lam * ((vtx vs (i + 1)).1 - (vtx vs i).1) ∧
      (vtx vs (j + 1)).2 - (vtx vs j).2 = lam * ((vtx vs (i + 1)).2 - (vtx vs i).2) ∧ OnWall vs j x := by
  have hn : 0 < vs.length := by omega
  have hx' : ∀ k, 0 ≤ cross3 (vtx vs k) (vtx vs (k + 1)) x := by
    intro k
    have := hx (k % vs.length) (Nat.mod_lt _ hn)
    rwa [vtx_mod, vtx_mod_add] at this
  have hne : vtx vs i ≠ vtx vs (i + 1) := by
    intro h
    have := hp i hi
    rw [← h] at this
    simp [cross3] at this
  obtain ⟨s, hs⟩ := onLine_of_cross3 hne hxi
  rcases lt_or_ge s 0 with hs0 | hs0
  · -- walk backwards: the mirror image of the reversed polygon
    obtain ⟨n, hnd⟩ : ∃ n, n = vs.length := ⟨_, rfl⟩
    have hkey : ∀ k : ℕ, vtx vs (i + 1 + (k + 1) * (n - 1) + 1) = vtx vs (i + 1 + k * (n - 1)) := by
      intro k
      have : i + 1 + (k + 1) * (n - 1) + 1 = i + 1 + k * (n - 1) + vs.length := by
        rw [Nat.add_mul, ← hnd]; omega
      rw [this, vtx_add_length]
    obtain ⟨k, hk, lam, hl, e1, e2, hon⟩ := walk_forward
      (fun k : ℕ => mirror (vtx vs (i + 1 + k * (n - 1)))) n (hnd ▸ hn)
      (by
        show mirror (vtx vs (i + 1 + n * (n - 1))) = mirror (vtx vs (i + 1 + 0 * (n - 1)))
        congr 1
        unfold vtx
        rw [← hnd]
        simp)
      (mirror p) (mirror x)
      (by
        intro k
        show 0 ≤ cross3 (mirror (vtx vs (i + 1 + k * (n - 1)))) (mirror (vtx vs (i + 1 + (k + 1) * (n - 1))))
          (mirror (vtx vs (i + 1 + (k + 2) * (n - 1))))
        rw [cross3_mirror]
        have ht := leftTurns_all hturn hn (i + 1 + (k + 2) * (n - 1))
        have h2 := hkey (k + 1)
        have h3 : vtx vs (i + 1 + (k + 2) * (n - 1) + 2) = vtx vs (i + 1 + k * (n - 1)) := by
          have : i + 1 + (k + 2) * (n - 1) + 2 = i + 1 + k * (n - 1) + vs.length + vs.length := by
            rw [Nat.add_mul, ← hnd]; omega
          rw [this, vtx_add_length, vtx_add_length]
        rw [show k + 1 + 1 = k + 2 from rfl] at h2
        rw [h2, h3] at ht
        have : cross3 (vtx vs (i + 1 + (k + 1) * (n - 1))) (vtx vs (i + 1 + k * (n - 1))) (vtx vs (i + 1 + (k + 2) * (n - 1)))
          = cross3 (vtx vs (i + 1 + (k + 2) * (n - 1))) (vtx vs (i + 1 + (k + 1) * (n - 1))) (vtx vs (i + 1 + k * (n - 1))) := by
          simp only [cross3]; ring
        rw [this]
        exact ht)
      (by
        intro k
        show 0 < cross3 (mirror (vtx vs (i + 1 + k * (n - 1)))) (mirror (vtx vs (i + 1 + (k + 1) * (n - 1)))) (mirror p)
        rw [cross3_mirror, ← hkey k]
        exact strictlyInside_all hp hn _)
      (by
        intro k
        show 0 ≤ cross3 (mirror (vtx vs (i + 1 + k * (n - 1)))) (mirror (vtx vs (i + 1 + (k + 1) * (n - 1)))) (mirror x)
        rw [cross3_mirror, ← hkey k]
        exact hx' _)
      (1 - s) (by linarith)
      (by
        have h1 : vtx vs (i + 1 + 1 * (n - 1)) = vtx vs i := by
          have : i + 1 + 1 * (n - 1) = i + vs.length := by rw [← hnd]; omega
          rw [this, vtx_add_length]
        show mirror x = pointAt (mirror (vtx vs (i + 1 + 0 * (n - 1)))) (mirror (vtx vs (i + 1 + 1 * (n - 1)))) (1 - s)
        rw [h1, hs]
        simp only [mirror, pointAt, zero_mul, add_zero, Prod.mk.injEq]
        constructor <;> ring)
    have h1 : vtx vs (i + 1 + 1 * (n - 1)) = vtx vs i := by
      have : i + 1 + 1 * (n - 1) = i + vs.length := by rw [← hnd]; omega
      rw [this, vtx_add_length]
    simp only [mirror, h1, zero_mul, add_zero] at e1 e2
    refine ⟨(i + 1 + (k + 1) * (n - 1)) % vs.length, Nat.mod_lt _ hn, lam, hl, ?_, ?_, ?_⟩
    · rw [vtx_mod_add, vtx_mod, hkey k]; linear_combination e1
    · rw [vtx_mod_add, vtx_mod, hkey k]; linear_combination -e2
    · obtain ⟨r, hr0, hr1, hr⟩ := hon
      refine ⟨1 - r, by linarith, by linarith, ?_⟩
      rw [vtx_mod_add, vtx_mod, hkey k]
      simp only [mirror, pointAt, Prod.mk.injEq] at hr ⊢
      exact Prod.ext (by simp only; linear_combination -hr.1) (by simp only; linear_combination hr.2)
  · rcases le_or_gt s 1 with hs1 | hs1
    · exact ⟨i, hi, 1, one_pos, by simp, by simp, s, hs0, hs1, hs⟩
    · obtain ⟨k, hk, lam, hl, e1, e2, hon⟩ := walk_forward (fun k : ℕ => vtx vs (i + k)) vs.length hn
        (by show vtx vs (i + vs.length) = vtx vs (i + 0); rw [vtx_add_length]; simp) p x
        (fun k => leftTurns_all hturn hn (i + k)) (fun k => strictlyInside_all hp hn (i + k)) (fun k => hx' (i + k))
        s hs1 hs
      refine ⟨(i + k) % vs.length, Nat.mod_lt _ hn, lam, hl, ?_, ?_, ?_⟩
      · rw [vtx_mod_add, vtx_mod]; exact e1
      · rw [vtx_mod_add, vtx_mod]; exact e2
      · unfold OnWall
        rw [vtx_mod_add, vtx_mod]; exact hon

end PyECLOUD
