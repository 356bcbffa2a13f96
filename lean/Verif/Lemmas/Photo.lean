import Verif.Model.Photo
import Verif.Spec.Photo
import Verif.Lemmas.Geometry
import Verif.Lemmas.Sources
import Verif.Lemmas.Impact

/-!
# Lemmas on numpy's histogram and interpolation, and on the emission per segment
-/

set_option linter.unusedSectionVars false

namespace PyECLOUD

section

variable {K : Type} [Field K] [LinearOrder K] [IsStrictOrderedRing K]

/-! ## Histogram -/

theorem histCum_eq (a : List K) : ∀ (l : List K) (e : K), (∀ r ∈ a, r < (e :: l).getLastD 0) →
    histCum a (e :: l) = (e :: l).map (fun e => a.countP (fun r => decide (r < e)))
  | [], e, h => by
    simp only [histCum, List.map_cons, List.map_nil, List.cons.injEq, and_true]
    apply List.countP_congr
    intro r hr
    have : r < e := by simpa using h r hr
    simp [this, this.le]
  | f :: l, e, h => by
    have ih := histCum_eq a l f (by simpa using h)
    simp only [histCum, ih, List.map_cons]

theorem diffN_map {α : Type} (f : α → ℕ) : ∀ l : List α, diffN (l.map f) = (pairs l).map (fun q => f q.2 - f q.1)
  | [] => rfl
  | [_] => rfl
  | a :: b :: l => by
    have ih := diffN_map f (b :: l)
    simp only [List.map_cons, diffN, pairs] at ih ⊢
    rw [ih]

theorem countP_between (a : List K) (x y : K) (h : x ≤ y) :
    a.countP (fun r => decide (r < y)) - a.countP (fun r => decide (r < x)) = a.countP (fun r => decide (x ≤ r ∧ r < y)) := by
  have : a.countP (fun r => decide (r < y))
      = a.countP (fun r => decide (r < x)) + a.countP (fun r => decide (x ≤ r ∧ r < y)) := by
    induction a with
    | nil => rfl
    | cons r a ih =>
      simp only [List.countP_cons, ih]
      by_cases h1 : r < x
      · have h2 : r < y := lt_of_lt_of_le h1 h
        simp [h1, h2, not_le.2 h1]
        omega
      · by_cases h2 : r < y
        · simp [h1, h2, not_lt.1 h1]
          omega
        · simp [h1, h2]
  omega

theorem any_decreasing {l : List K} : (pairs l).any (fun q => decide (q.2 < q.1)) = false ↔ ∀ q ∈ pairs l, q.1 ≤ q.2 := by
  rw [List.any_eq_false]
  simp

theorem npHistogram_eq (a : List K) (e : K) (l : List K) (hmono : ∀ q ∈ pairs (e :: l), q.1 ≤ q.2)
    (h : ∀ r ∈ a, r < (e :: l).getLastD 0) :
    npHistogram a (e :: l) = .ok ((pairs (e :: l)).map (fun q => a.countP (fun r => decide (q.1 ≤ r ∧ r < q.2)))) := by
  unfold npHistogram
  rw [any_decreasing.2 hmono]
  simp only [Bool.false_eq_true, if_false]
  rw [histCum_eq a l e h, diffN_map]
  congr 1
  apply List.map_congr_left
  intro q hq
  exact countP_between a q.1 q.2 (hmono q hq)

theorem countP_split (a : List K) (x y z : K) (h1 : x ≤ y) (h2 : y ≤ z) :
    a.countP (fun r => decide (x ≤ r ∧ r < y)) + a.countP (fun r => decide (y ≤ r ∧ r < z))
      = a.countP (fun r => decide (x ≤ r ∧ r < z)) := by
  induction a with
  | nil => rfl
  | cons r a ih =>
    simp only [List.countP_cons, ← ih]
    by_cases hx : x ≤ r
    · by_cases hy : r < y
      · have : r < z := lt_of_lt_of_le hy h2
        simp [hx, hy, this, not_le.2 hy]
        omega
      · have hy' := not_lt.1 hy
        by_cases hz : r < z
        · simp [hx, hy', hz, hy]
          omega
        · simp [hx, hy', hz, hy]
    · have : ¬ y ≤ r := fun h => hx (h1.trans h)
      simp [hx, this]

theorem pairs_mono_last : ∀ (l : List K) (e : K), (∀ q ∈ pairs (e :: l), q.1 ≤ q.2) → e ≤ (e :: l).getLastD 0
  | [], e, _ => by simp
  | f :: l, e, h => by
    have h1 : e ≤ f := h (e, f) (by simp [pairs])
    have h2 := pairs_mono_last l f (fun q hq => h q (by simp only [pairs]; exact List.mem_cons_of_mem _ hq))
    have : (e :: f :: l).getLastD 0 = (f :: l).getLastD 0 := by simp
    rw [this]
    exact h1.trans h2

theorem histogram_sum (a : List K) : ∀ (l : List K) (e : K), (∀ q ∈ pairs (e :: l), q.1 ≤ q.2) →
    ((pairs (e :: l)).map (fun q => a.countP (fun r => decide (q.1 ≤ r ∧ r < q.2)))).sum
      = a.countP (fun r => decide (e ≤ r ∧ r < (e :: l).getLastD 0))
  | [], e, _ => by
    have : a.countP (fun r => decide (e ≤ r ∧ r < [e].getLastD 0)) = 0 := by
      rw [List.countP_eq_zero]
      intro r _
      simp
    rw [this]
    rfl
  | f :: l, e, h => by
    have h' : ∀ q ∈ pairs (f :: l), q.1 ≤ q.2 := fun q hq => h q (by simp only [pairs]; exact List.mem_cons_of_mem _ hq)
    have ih := histogram_sum a l f h'
    simp only [pairs, List.map_cons, List.sum_cons, ih]
    have : (e :: f :: l).getLastD 0 = (f :: l).getLastD 0 := by simp
    rw [this]
    exact countP_split a e f _ (h (e, f) (by simp [pairs])) (pairs_mono_last l f h')

theorem pairs_cons_getElem? : ∀ (l : List K) (e : K) (k : ℕ), k < l.length →
    (pairs (e :: l))[k]? = some ((e :: l).getD k 0, l.getD k 0)
  | [], _, _, h => by simp at h
  | f :: l, e, 0, _ => by simp [pairs]
  | f :: l, e, k + 1, h => by
    have := pairs_cons_getElem? l f k (by simpa using h)
    simp only [pairs, List.getElem?_cons_succ, this, List.getD_cons_succ]

theorem pairs_cons_length : ∀ (l : List K) (e : K), (pairs (e :: l)).length = l.length
  | [], _ => rfl
  | f :: l, e => by simp [pairs, pairs_cons_length l f]

theorem pairs_mono_sorted : ∀ (l : List K) (e : K), (∀ q ∈ pairs (e :: l), q.1 ≤ q.2) → ∀ x ∈ l, e ≤ x
  | [], _, _, x, hx => by simp at hx
  | f :: l, e, h, x, hx => by
    have h1 : e ≤ f := h (e, f) (by simp [pairs])
    rcases List.mem_cons.1 hx with rfl | hx
    · exact h1
    · exact h1.trans (pairs_mono_sorted l f (fun q hq => h q (by simp only [pairs]; exact List.mem_cons_of_mem _ hq)) x hx)

/-- The bin of a draw is the segment whose interval contains it. -/
theorem cdfBin_iff : ∀ (l : List K) (e c r : K), (∀ q ∈ pairs (e :: c :: l), q.1 ≤ q.2) → e ≤ r → r < (c :: l).getLastD 0 → ∀ k,
    (cdfBin (c :: l) r = k ↔ k < (c :: l).length ∧ (e :: c :: l).getD k 0 ≤ r ∧ r < (c :: l).getD k 0)
  | [], e, c, r, _, he, hr, k => by
    simp only [cdfBin, List.dropLast_singleton, List.filter_nil, List.length_nil, List.length_cons]
    constructor
    · rintro rfl
      exact ⟨by omega, by simpa using he, by simpa using hr⟩
    · rintro ⟨h, -, -⟩
      omega
  | d :: l, e, c, r, hm, he, hr, k => by
    have hm' : ∀ q ∈ pairs (c :: d :: l), q.1 ≤ q.2 := fun q hq => hm q (by simp only [pairs] at hq ⊢; exact List.mem_cons_of_mem _ hq)
    have hdl : (c :: d :: l).dropLast = c :: (d :: l).dropLast := rfl
    by_cases hc : c ≤ r
    · have ih := cdfBin_iff l c d r hm' hc (by simpa using hr)
      have hb : cdfBin (c :: d :: l) r = cdfBin (d :: l) r + 1 := by
        simp only [cdfBin, hdl, List.filter_cons, decide_eq_true hc, if_true, List.length_cons]
      rw [hb]
      cases k with
      | zero =>
        constructor
        · intro h; omega
        · rintro ⟨-, -, h⟩
          exact absurd hc (not_le.2 (by simpa using h))
      | succ k =>
        rw [Nat.add_right_cancel_iff, ih k]
        simp only [List.length_cons, List.getD_cons_succ]
        constructor
        · rintro ⟨a, b⟩; exact ⟨by omega, b⟩
        · rintro ⟨a, b⟩; exact ⟨by omega, b⟩
    · have hb : cdfBin (c :: d :: l) r = 0 := by
        have : ((d :: l).dropLast.filter (fun v => decide (v ≤ r))) = [] := by
          rw [List.filter_eq_nil_iff]
          intro v hv
          have := pairs_mono_sorted (d :: l) c hm' v (List.mem_of_mem_dropLast hv)
          simp only [decide_eq_true_eq, not_le]
          exact lt_of_lt_of_le (not_le.1 hc) this
        simp [cdfBin, hdl, List.filter_cons, hc, this]
      rw [hb]
      constructor
      · rintro rfl
        exact ⟨by simp, by simpa using he, by simpa using hc⟩
      · rintro ⟨h1, h2, -⟩
        by_contra hk
        obtain ⟨j, rfl⟩ : ∃ j, k = j + 1 := ⟨k - 1, by omega⟩
        apply hc
        refine le_trans ?_ h2
        rw [List.getD_cons_succ]
        cases j with
        | zero => simp
        | succ j =>
          rw [List.getD_cons_succ]
          have hj : j < (d :: l).length := by simp only [List.length_cons] at h1 ⊢; omega
          rw [List.getD_eq_getElem?_getD, List.getElem?_eq_getElem hj]
          exact pairs_mono_sorted (d :: l) c hm' _ (List.getElem_mem hj)

/-! ## Segments -/

theorem loadPhem_ok {sq : K → K} {vs : List (K × K)} {cdf : List K} {segs : List (PhSeg K)} (h : loadPhem sq vs cdf = .ok segs) :
    1 < cdf.length ∧ cdf.getLastD 0 = 1 ∧ (∀ q ∈ pairs cdf, q.1 ≤ q.2) ∧ 0 ≤ polyArea vs ∧
    (∀ q ∈ pairs (closeList vs), 1 / 10 ^ 9 ≤ sq ((q.2.1 - q.1.1) * (q.2.1 - q.1.1) + (q.2.2 - q.1.2) * (q.2.2 - q.1.2))) ∧
    segs = (pairs (closeList vs)).map (fun q => mkPhSeg sq q.1 q.2) := by
  unfold loadPhem at h
  by_cases h1 : cdf.length ≤ 1
  · rw [if_pos h1] at h; cases h
  rw [if_neg h1] at h
  by_cases h2 : cdf.getLastD 0 ≠ 1
  · rw [if_pos h2] at h; cases h
  rw [if_neg h2] at h
  by_cases h3 : (pairs cdf).any (fun q => decide (q.2 - q.1 < 0)) = true
  · rw [if_pos h3] at h; cases h
  rw [if_neg h3] at h
  by_cases h4 : polyArea vs < 0
  · rw [if_pos h4] at h; cases h
  rw [if_neg h4] at h
  by_cases h5 : (pairs (closeList vs)).any (fun q => decide (sq ((q.2.1 - q.1.1) * (q.2.1 - q.1.1) +
      (q.2.2 - q.1.2) * (q.2.2 - q.1.2)) < 1 / 10 ^ 9)) = true
  · rw [if_pos h5] at h; cases h
  rw [if_neg h5] at h
  refine ⟨not_le.1 h1, not_not.1 h2, ?_, not_lt.1 h4, ?_, (Except.ok.inj h).symm⟩
  · rw [Bool.not_eq_true, List.any_eq_false] at h3
    intro q hq
    have := h3 q hq
    simp only [decide_eq_true_eq, not_lt, sub_nonneg] at this
    exact this
  · rw [Bool.not_eq_true, List.any_eq_false] at h5
    intro q hq
    have := h5 q hq
    simpa only [decide_eq_true_eq, not_lt] using this

/-- The first point and the normal of a loaded segment. -/
theorem loadPhem_seg {sq : K → K} {vs : List (K × K)} (hsq : EdgeRoots sq vs) {cdf : List K} {segs : List (PhSeg K)}
    (h : loadPhem sq vs cdf = .ok segs) (b : ℕ) (g : PhSeg K) (hg : segs[b]? = some g) :
    b < vs.length ∧ UnitNormal vs b g.nx g.ny ∧ g.x0 = (vtx vs b).1 + 1 / 10 ^ 14 * g.nx ∧ g.y0 = (vtx vs b).2 + 1 / 10 ^ 14 * g.ny ∧
      g.dx = (vtx vs (b + 1)).1 - (vtx vs b).1 ∧ g.dy = (vtx vs (b + 1)).2 - (vtx vs b).2 := by
  obtain ⟨-, -, -, -, hlen, rfl⟩ := loadPhem_ok h
  have hb : b < vs.length := by
    have := (List.getElem?_eq_some_iff.1 hg).1
    rwa [List.length_map, pairs_close_length] at this
  rw [List.getElem?_map, pairs_close_getElem? vs b hb] at hg
  simp only [Option.map_some, Option.some.injEq] at hg
  subst hg
  have hl := hlen (vtx vs b, vtx vs (b + 1)) ((mem_pairs_close vs _).2 ⟨b, hb, rfl⟩)
  dsimp only at hl
  set dx := (vtx vs (b + 1)).1 - (vtx vs b).1 with hdx
  set dy := (vtx vs (b + 1)).2 - (vtx vs b).2 with hdy
  have hm : sq (dx * dx + dy * dy) * sq (dx * dx + dy * dy) = dx * dx + dy * dy := hsq b hb
  have hp : 0 < sq (dx * dx + dy * dy) := lt_of_lt_of_le (by positivity) hl
  have hq : 0 < dx * dx + dy * dy := by
    rw [← hm]
    exact mul_pos hp hp
  have hne := hp.ne'
  refine ⟨hb, ⟨?_, ?_, ?_⟩, rfl, rfl, rfl, rfl⟩
  · simp only [mkPhSeg, ← hdx, ← hdy]
    generalize sq (dx * dx + dy * dy) = L at hp hm hne
    have : -dy / L * (-dy / L) + dx / L * (dx / L) = (dx * dx + dy * dy) / (L * L) := by
      field_simp
      ring
    rw [this, hm, div_self hq.ne']
  · simp only [mkPhSeg, ← hdx, ← hdy]
    field_simp
    ring
  · simp only [mkPhSeg, ← hdx, ← hdy]
    have : dx * (dx / sq (dx * dx + dy * dy)) - dy * (-dy / sq (dx * dx + dy * dy)) = (dx * dx + dy * dy) / sq (dx * dx + dy * dy) := by
      field_simp
      ring
    rw [this]
    positivity

/-! ## Interpolation -/

/-- Inside the table the interpolated value exceeds a node's value exactly when the argument exceeds the node. -/
theorem npInterpFrom_le : ∀ (l : List (K × K)) (p : K × K) (x : K), (∀ q ∈ pairs (p :: l), q.1.1 < q.2.1 ∧ q.1.2 < q.2.2) →
    p.1 ≤ x → x ≤ ((p :: l).getLastD p).1 → ∀ q ∈ p :: l, (npInterpFrom p l x ≤ q.2 ↔ x ≤ q.1)
  | [], p, x, _, hp, hx, q, hq => by
    obtain rfl : q = p := by simpa using hq
    simp only [npInterpFrom, le_refl, true_iff]
    simpa using hx
  | s :: l, p, x, hm, hp, hx, q, hq => by
    have hps : p.1 < s.1 ∧ p.2 < s.2 := hm (p, s) (by simp [pairs])
    have hm' : ∀ q ∈ pairs (s :: l), q.1.1 < q.2.1 ∧ q.1.2 < q.2.2 :=
      fun q hq => hm q (by simp only [pairs]; exact List.mem_cons_of_mem _ hq)
    have hge : ∀ (l : List (K × K)) (s : K × K), (∀ q ∈ pairs (s :: l), q.1.1 < q.2.1 ∧ q.1.2 < q.2.2) →
        ∀ q ∈ s :: l, s.1 ≤ q.1 ∧ s.2 ≤ q.2 := by
      intro l
      induction l with
      | nil => intro s _ q hq; obtain rfl : q = s := by simpa using hq
               exact ⟨le_rfl, le_rfl⟩
      | cons t l ih =>
        intro s hm q hq
        rcases List.mem_cons.1 hq with rfl | hq
        · exact ⟨le_rfl, le_rfl⟩
        · have h1 := hm (s, t) (by simp [pairs])
          have h2 := ih t (fun q hq => hm q (by simp only [pairs]; exact List.mem_cons_of_mem _ hq)) q hq
          exact ⟨h1.1.le.trans h2.1, h1.2.le.trans h2.2⟩
    simp only [npInterpFrom]
    by_cases hsx : s.1 ≤ x
    · rw [if_pos hsx]
      have hlast : ((p :: s :: l).getLastD p) = ((s :: l).getLastD s) := by
        rw [List.getLastD_eq_getLast?, List.getLastD_eq_getLast?, List.getLast?_cons_cons,
          List.getLast?_eq_some_getLast (List.cons_ne_nil s l)]
        rfl
      have ih := npInterpFrom_le l s x hm' hsx (by rwa [hlast] at hx)
      rcases List.mem_cons.1 hq with rfl | hq
      · constructor
        · intro h
          have := (ih s (by simp)).1 (h.trans hps.2.le)
          have hx1 : x = s.1 := le_antisymm this hsx
          have h2 : s.2 ≤ npInterpFrom s l x := by
            clear ih
            cases l with
            | nil => simp [npInterpFrom]
            | cons t l =>
              have hst := hm' (s, t) (by simp [pairs])
              simp only [npInterpFrom]
              rw [if_neg (by rw [hx1]; exact not_le.2 hst.1), hx1]
              simp
          exact absurd (h2.trans h) (not_le.2 hps.2)
        · intro h
          exact absurd (hsx.trans h) (not_le.2 hps.1)
      · exact ih q hq
    · rw [if_neg hsx]
      have hx' := not_le.1 hsx
      have hd : 0 < s.1 - p.1 := sub_pos.2 hps.1
      rcases List.mem_cons.1 hq with rfl | hq
      · constructor
        · intro h
          have h3 : (s.2 - q.2) / (s.1 - q.1) * (x - q.1) ≤ 0 := by linarith
          by_contra hc
          have : 0 < (s.2 - q.2) / (s.1 - q.1) * (x - q.1) :=
            mul_pos (div_pos (sub_pos.2 hps.2) hd) (sub_pos.2 (not_le.1 hc))
          linarith
        · intro h
          have : x = q.1 := le_antisymm h hp
          rw [this]
          simp
      · have hq' := hge l s hm' q hq
        constructor
        · intro _
          exact hx'.le.trans hq'.1
        · intro _
          refine le_trans ?_ hq'.2
          have : (s.2 - p.2) / (s.1 - p.1) * (x - p.1) ≤ (s.2 - p.2) / (s.1 - p.1) * (s.1 - p.1) :=
            mul_le_mul_of_nonneg_left (by linarith) (div_pos (sub_pos.2 hps.2) hd).le
          rw [div_mul_cancel₀ _ hd.ne'] at this
          linarith

/-! ## Expansion of the counts -/

theorem count_flatten_mapIdx (c : List ℕ) (k o : ℕ) :
    ((c.mapIdx (fun i n => List.replicate n (i + o))).flatten).count k = if o ≤ k then c.getD (k - o) 0 else 0 := by
  induction c generalizing o with
  | nil => simp
  | cons n c ih =>
    have : (n :: c).mapIdx (fun i n => List.replicate n (i + o)) = List.replicate n o :: c.mapIdx (fun i n => List.replicate n (i + (o + 1))) := by
      rw [List.mapIdx_cons]
      simp only [Nat.zero_add]
      congr 2
      funext i m
      rw [Nat.add_assoc, Nat.add_comm 1 o]
    rw [this, List.flatten_cons, List.count_append, ih, List.count_replicate]
    by_cases h1 : k = o
    · subst h1
      simp
    · by_cases h2 : o ≤ k
      · have h3 : o + 1 ≤ k := by omega
        obtain ⟨j, rfl⟩ : ∃ j, k = o + 1 + j := ⟨k - (o + 1), by omega⟩
        rw [if_pos h2, if_pos h3, if_neg (by simp; omega), show o + 1 + j - o = (o + 1 + j - (o + 1)) + 1 by omega, List.getD_cons_succ]
        simp
      · have h4 : ¬ o + 1 ≤ k := by omega
        have h5 : ¬ o = k := by omega
        simp [h2, h4, h5]

theorem expandCounts_count (c : List ℕ) (k : ℕ) : (expandCounts c).count k = c.getD k 0 := by
  have := count_flatten_mapIdx c k 0
  simpa [expandCounts] using this

theorem expandCounts_sorted (c : List ℕ) : (expandCounts c).Pairwise (· ≤ ·) := by
  have key : ∀ (c : List ℕ) (o : ℕ), ((c.mapIdx (fun i n => List.replicate n (i + o))).flatten).Pairwise (· ≤ ·) ∧
      ∀ x ∈ (c.mapIdx (fun i n => List.replicate n (i + o))).flatten, o ≤ x := by
    intro c
    induction c with
    | nil => intro o; simp
    | cons n c ih =>
      intro o
      have : (n :: c).mapIdx (fun i n => List.replicate n (i + o)) = List.replicate n o :: c.mapIdx (fun i n => List.replicate n (i + (o + 1))) := by
        rw [List.mapIdx_cons]
        simp only [Nat.zero_add]
        congr 2
        funext i m
        rw [Nat.add_assoc, Nat.add_comm 1 o]
      obtain ⟨h1, h2⟩ := ih (o + 1)
      rw [this, List.flatten_cons]
      refine ⟨List.pairwise_append.2 ⟨List.pairwise_replicate.2 (Or.inr le_rfl), h1, ?_⟩, ?_⟩
      · intro a ha b hb
        rw [List.eq_of_mem_replicate ha]
        exact (Nat.le_succ o).trans (h2 b hb)
      · intro x hx
        rcases List.mem_append.1 hx with hx | hx
        · exact (List.eq_of_mem_replicate hx).ge
        · exact (Nat.le_succ o).trans (h2 x hx)
  have := (key c 0).1
  simpa [expandCounts] using this

end

end PyECLOUD
