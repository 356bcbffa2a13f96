import Verif.Lemmas.MPSources
import Verif.Lemmas.Hist
import Mathlib.Data.Int.Order.Basic
import Mathlib.Data.List.Perm.Basic
import Mathlib.Data.List.Flatten
import Mathlib.Algebra.Order.BigOperators.Group.List

set_option linter.unusedSectionVars false

namespace PyECLOUD

/-! ### rounding -/

section round

variable {K : Type} [Field K] [LinearOrder K] [FloorRing K] [IsStrictOrderedRing K]

theorem roundHE_near (x : K) : |x - (roundHE x : K)| ≤ 1 / 2 := by
  have h1 := Int.floor_le x
  have h2 := Int.lt_floor_add_one x
  unfold roundHE
  simp only
  rw [abs_le]
  split
  · constructor <;> linarith
  · split
    · push_cast; constructor <;> linarith
    · have : x - (⌊x⌋ : K) = 1 / 2 := le_antisymm (by linarith) (by linarith)
      split
      · constructor <;> linarith
      · push_cast; constructor <;> linarith

theorem roundHE_le (x : K) (m : ℤ) (h : x < (m : K) + 1 / 2) : roundHE x ≤ m := by
  have := abs_le.1 (roundHE_near x)
  have : ((roundHE x : ℤ) : K) < ((m + 1 : ℤ) : K) := by push_cast; linarith
  have : roundHE x < m + 1 := by exact_mod_cast this
  omega

theorem le_roundHE (x : K) (m : ℤ) (h : (m : K) - 1 / 2 < x) : m ≤ roundHE x := by
  have := abs_le.1 (roundHE_near x)
  have : ((m - 1 : ℤ) : K) < ((roundHE x : ℤ) : K) := by push_cast; linarith
  have : m - 1 < roundHE x := by exact_mod_cast this
  omega

/-- ties go to the even neighbour -/
theorem roundHE_half (m : ℤ) : roundHE ((m : K) + 1 / 2) = if m % 2 = 0 then m else m + 1 := by
  have hf : ⌊(m : K) + 1 / 2⌋ = m := by
    rw [Int.floor_eq_iff]; constructor <;> linarith
  unfold roundHE
  simp only [hf]
  rw [if_neg (by linarith), if_neg (by linarith)]

/-- index of a value within `[-m, m]`: inside `1..n` unless the grid size is a multiple of 4 and the
value sits exactly on the negative end -/
theorem axisIdx_range (n : ℕ) (hn : 2 ≤ n) (m v : K) (hm : 0 < m) (hv : |v| ≤ m)
    (h4 : n % 4 ≠ 0 ∨ -m < v) :
    1 ≤ axisIdx n (stepOf m n) v ∧ axisIdx n (stepOf m n) v ≤ n := by
  have hn' : (2 : K) ≤ (n : K) := by exact_mod_cast hn
  have hn1 : (0 : K) < (n : K) - 1 := by linarith
  obtain ⟨hv1, hv2⟩ := abs_le.1 hv
  have hq : v / stepOf m n = v / m * (((n : K) - 1) / 2) := by
    unfold stepOf; field_simp
  have hb1 : -1 ≤ v / m := by rw [le_div_iff₀ hm]; linarith
  have hb2 : v / m ≤ 1 := by rw [div_le_iff₀ hm]; linarith
  have hlo : -(((n : K) - 1) / 2) ≤ v / stepOf m n := by
    rw [hq]; nlinarith
  have hhi : v / stepOf m n ≤ ((n : K) - 1) / 2 := by
    rw [hq]; nlinarith
  unfold axisIdx
  constructor
  · rcases Nat.even_or_odd' n with ⟨k, hk | hk⟩
    · -- even
      have hbk : biasOf n = k := by unfold biasOf; omega
      rw [hbk]
      have hk' : (n : K) = 2 * (k : K) := by rw [hk]; push_cast; ring
      by_cases hv' : -m < v
      · have : (((1 - k : ℤ)) : K) - 1 / 2 < v / stepOf m n := by
          have hb : -1 < v / m := by rw [lt_div_iff₀ hm]; linarith
          rw [hq]; push_cast; rw [hk'] at hn1 ⊢; nlinarith
        have := le_roundHE _ _ this
        omega
      · have hve : v = -m := le_antisymm (not_lt.1 hv') hv1
        have h4' : n % 4 ≠ 0 := by tauto
        have : v / stepOf m n = ((-(k : ℤ) : ℤ) : K) + 1 / 2 := by
          rw [hq, hve, hk', neg_div, div_self hm.ne']; push_cast; ring
        rw [this, roundHE_half, if_neg (by omega)]
        omega
    · have hbk : biasOf n = k + 1 := by unfold biasOf; omega
      have hk' : (n : K) = 2 * (k : K) + 1 := by rw [hk]; push_cast; ring
      have : ((-(k : ℤ) : ℤ) : K) - 1 / 2 < v / stepOf m n := by
        push_cast; rw [hk'] at hlo; linarith
      have := le_roundHE _ _ this
      rw [hbk]; omega
  · rcases Nat.even_or_odd' n with ⟨k, hk | hk⟩
    · have hbk : biasOf n = k := by unfold biasOf; omega
      have hk' : (n : K) = 2 * (k : K) := by rw [hk]; push_cast; ring
      have : v / stepOf m n < ((k : ℤ) : K) + 1 / 2 := by
        push_cast; rw [hk'] at hhi; linarith
      have := roundHE_le _ _ this
      rw [hbk]; omega
    · have hbk : biasOf n = k + 1 := by unfold biasOf; omega
      have hk' : (n : K) = 2 * (k : K) + 1 := by rw [hk]; push_cast; ring
      have : v / stepOf m n < ((k : ℤ) : K) + 1 / 2 := by
        push_cast; rw [hk'] at hhi; linarith
      have := roundHE_le _ _ this
      rw [hbk]; omega

/-- the chosen cell centre is within half a cell of the value -/
theorem axisIdx_near (n : ℕ) (d v : K) (hd : 0 < d) : |v - centre n d (axisIdx n d v)| ≤ d / 2 := by
  have h := roundHE_near (v / d)
  unfold centre axisIdx
  have e : v - ((roundHE (v / d) + biasOf n - biasOf n : ℤ) : K) * d = (v / d - (roundHE (v / d) : K)) * d := by
    push_cast; field_simp; ring
  rw [e, abs_mul, abs_of_pos hd]
  nlinarith

/-- no centre is closer -/
theorem axisIdx_nearest (n : ℕ) (d v : K) (hd : 0 < d) (j : ℤ) :
    |v - centre n d (axisIdx n d v)| ≤ |v - centre n d j| := by
  have h := roundHE_near (v / d)
  have e : ∀ j : ℤ, |v - centre n d j| = |v / d - ((j - biasOf n : ℤ) : K)| * d := by
    intro j
    unfold centre
    rw [show v - ((j - biasOf n : ℤ) : K) * d = (v / d - ((j - biasOf n : ℤ) : K)) * d by field_simp,
      abs_mul, abs_of_pos hd]
  rw [e, e]
  apply mul_le_mul_of_nonneg_right _ hd.le
  have e2 : axisIdx n d v - biasOf n = roundHE (v / d) := by unfold axisIdx; ring
  rw [e2]
  by_cases hj : j - biasOf n = roundHE (v / d)
  · rw [hj]
  · have h1 : (1 : K) ≤ |((j - biasOf n : ℤ) : K) - (roundHE (v / d) : K)| := by
      have : (1 : ℤ) ≤ |j - biasOf n - roundHE (v / d)| := Int.one_le_abs (sub_ne_zero.2 hj)
      have : ((1 : ℤ) : K) ≤ ((|j - biasOf n - roundHE (v / d)| : ℤ) : K) := by exact_mod_cast this
      push_cast at this ⊢
      exact this
    have h2 := abs_sub_abs_le_abs_sub (((j - biasOf n : ℤ) : K) - (roundHE (v / d) : K)) (v / d - (roundHE (v / d) : K))
    have h3 : ((j - biasOf n : ℤ) : K) - (roundHE (v / d) : K) - (v / d - (roundHE (v / d) : K))
      = -(v / d - ((j - biasOf n : ℤ) : K)) := by ring
    rw [h3, abs_neg] at h2
    linarith

end round

/-! ### mixed radix -/

section radix

variable {K : Type}

theorem decode_encode (c : FullCfg K) (k : Cell)
    (hy : 1 ≤ k.iy ∧ k.iy ≤ c.ny) (hvx : 1 ≤ k.ivx ∧ k.ivx ≤ c.nvx) (hvy : 1 ≤ k.ivy ∧ k.ivy ≤ c.nvy)
    (hvz : 1 ≤ k.ivz ∧ k.ivz ≤ c.nvz) : decode c (encode c k) = k := by
  obtain ⟨ix, iy, ivx, ivy, ivz⟩ := k
  simp only at hy hvx hvy hvz
  have digit : ∀ (q r d : ℤ), 0 ≤ r → r < d → (q * d + r) / d = q ∧ (q * d + r) - (q * d + r) / d * d = r := by
    intro q r d h0 h1
    have hd : 0 < d := by omega
    have : (q * d + r) / d = q := by
      rw [add_comm, Int.add_mul_ediv_right _ _ hd.ne', Int.ediv_eq_zero_of_lt h0 h1, zero_add]
    exact ⟨this, by rw [this]; ring⟩
  set ny : ℤ := ((c.ny : ℕ) : ℤ) with hny
  set nvx : ℤ := ((c.nvx : ℕ) : ℤ) with hnvx
  set nvy : ℤ := ((c.nvy : ℕ) : ℤ) with hnvy
  set nvz : ℤ := ((c.nvz : ℕ) : ℤ) with hnvz
  have r4 : 0 ≤ ivz - 1 ∧ ivz - 1 < nvz := by omega
  have r3 : 0 ≤ (ivy - 1) * nvz + (ivz - 1) ∧ (ivy - 1) * nvz + (ivz - 1) < nvy * nvz := by
    constructor
    · nlinarith
    · nlinarith
  have r2 : 0 ≤ (ivx - 1) * (nvy * nvz) + ((ivy - 1) * nvz + (ivz - 1)) ∧
      (ivx - 1) * (nvy * nvz) + ((ivy - 1) * nvz + (ivz - 1)) < nvx * nvy * nvz := by
    constructor
    · nlinarith
    · nlinarith
  have r1 : 0 ≤ (iy - 1) * (nvx * nvy * nvz) + ((ivx - 1) * (nvy * nvz) + ((ivy - 1) * nvz + (ivz - 1))) ∧
      (iy - 1) * (nvx * nvy * nvz) + ((ivx - 1) * (nvy * nvz) + ((ivy - 1) * nvz + (ivz - 1)))
        < ny * nvx * nvy * nvz := by
    constructor
    · nlinarith
    · nlinarith
  have he : encode c ⟨ix, iy, ivx, ivy, ivz⟩ = (ix - 1) * (ny * nvx * nvy * nvz) +
      ((iy - 1) * (nvx * nvy * nvz) + ((ivx - 1) * (nvy * nvz) + ((ivy - 1) * nvz + (ivz - 1)))) := by
    simp only [encode]; ring
  have d1 := digit (ix - 1) _ _ r1.1 r1.2
  have d2 := digit (iy - 1) _ _ r2.1 r2.2
  have d3 := digit (ivx - 1) _ _ r3.1 r3.2
  have d4 := digit (ivy - 1) _ _ r4.1 r4.2
  unfold decode
  simp only [he]
  rw [d1.2, d1.1, d2.2, d2.1, d3.2, d3.1, d4.2, d4.1]
  simp

end radix

/-! ### horizontal cut -/

section cut

variable {K : Type} [Field K] [LinearOrder K]

theorem cutLoop_ok (h : List K) (thr : K) (fuel i j : ℕ) (hok : cutLoop h thr fuel i = .ok j) :
    i ≤ j ∧ ¬ cutAway h j < thr ∧ (i < j → cutAway h (j - 1) < thr) := by
  induction fuel generalizing i with
  | zero =>
    unfold cutLoop at hok
    split at hok
    · simp at hok
    · next hc => simp only [Except.ok.injEq] at hok; subst hok; exact ⟨le_refl _, hc, fun h => absurd h (lt_irrefl _)⟩
  | succ fuel ih =>
    unfold cutLoop at hok
    split at hok
    · next hc =>
      obtain ⟨h1, h2, h3⟩ := ih _ hok
      refine ⟨by omega, h2, fun _ => ?_⟩
      by_cases he : j = i + 1
      · subst he; simpa using hc
      · exact h3 (by omega)
    · next hc => simp only [Except.ok.injEq] at hok; subst hok; exact ⟨le_refl _, hc, fun h => absurd h (lt_irrefl _)⟩

theorem cutLoop_terminates (h : List K) (thr : K) (fuel i n : ℕ) (hn : ¬ cutAway h n < thr) (hi : i ≤ n)
    (hf : n - i ≤ fuel) : ∃ j, cutLoop h thr fuel i = .ok j ∧ j ≤ n := by
  induction fuel generalizing i with
  | zero =>
    have : i = n := by omega
    subst this
    exact ⟨i, by unfold cutLoop; rw [if_neg hn], le_refl _⟩
  | succ fuel ih =>
    unfold cutLoop
    split
    · next hc =>
      have : i ≠ n := by rintro rfl; exact hn hc
      exact ih (i + 1) (by omega) (by omega)
    · exact ⟨i, rfl, hi⟩

theorem cutAway_full (h : List K) : cutAway h h.length = h.sum + h.sum := by
  simp [cutAway]

end cut

/-! ### per-cell charge -/

section dens

variable {K : Type} [Field K]

theorem cellDens_eq (l : List (ℤ × K)) (c : ℤ) :
    cellDens l c = ((l.filter (fun p => p.1 == c)).map (·.2)).sum := by
  unfold cellDens
  have : ∀ d0 : ℤ → K, l.foldl (fun d p => Function.update d p.1 (d p.1 + p.2)) d0 c
      = d0 c + ((l.filter (fun p => p.1 == c)).map (·.2)).sum := by
    induction l with
    | nil => simp
    | cons p l ih =>
      intro d0
      simp only [List.foldl_cons]
      rw [ih]
      by_cases hp : p.1 = c
      · subst hp; simp [add_assoc]
      · rw [Function.update_of_ne (fun h => hp h.symm)]
        simp [hp]
  rw [this]; simp

/-- grouping by key preserves the total -/
theorem sum_group (l : List (ℤ × K)) (cs : List ℤ) (hnd : cs.Nodup) (hall : ∀ p ∈ l, p.1 ∈ cs) :
    (cs.map (fun c => ((l.filter (fun p => p.1 == c)).map (·.2)).sum)).sum = (l.map (·.2)).sum := by
  induction l with
  | nil => simp
  | cons p l ih =>
    have h1 := ih (fun q hq => hall q (by simp [hq]))
    have hp := hall p (by simp)
    have : ∀ cs : List ℤ, cs.Nodup →
        (cs.map (fun c => (((p :: l).filter (fun p => p.1 == c)).map (·.2)).sum)).sum
        = (if p.1 ∈ cs then p.2 else 0) + (cs.map (fun c => ((l.filter (fun p => p.1 == c)).map (·.2)).sum)).sum := by
      intro cs hcs
      induction cs with
      | nil => simp
      | cons c cs ihc =>
        have hc := List.nodup_cons.1 hcs
        simp only [List.map_cons, List.sum_cons]
        rw [ihc hc.2]
        by_cases he : p.1 = c
        · subst he
          simp [hc.1]; ring
        · simp [he]; ring
    rw [this cs hnd, if_pos hp, h1]
    simp

theorem occupied_nodup (idx : List ℤ) : (occupied idx).Nodup :=
  (List.perm_insertionSort _ _).nodup_iff.2 (List.nodup_dedup idx)

theorem mem_occupied (idx : List ℤ) (i : ℤ) : i ∈ occupied idx ↔ i ∈ idx := by
  unfold occupied
  rw [(List.perm_insertionSort (· ≤ ·) idx.dedup).mem_iff, List.mem_dedup]

theorem occupied_dens_sum (idx : List ℤ) (w : List K) (hl : idx.length ≤ w.length) :
    ((occupied idx).map (cellDens (idx.zip w))).sum = (w.take idx.length).sum := by
  rw [show (occupied idx).map (cellDens (idx.zip w)) = (occupied idx).map (fun c =>
      (((idx.zip w).filter (fun p => p.1 == c)).map (·.2)).sum) from
    List.map_congr_left (fun c _ => cellDens_eq _ c)]
  rw [sum_group _ _ (occupied_nodup idx)]
  · congr 1
    induction idx generalizing w with
    | nil => simp
    | cons a idx ih =>
      cases w with
      | nil => simp at hl
      | cons b w => simp [ih w (by simpa using hl)]
  · intro p hp
    rw [mem_occupied]
    exact (List.of_mem_zip hp).1

end dens

end PyECLOUD
