import Verif.Model.Grid
import Verif.Lemmas.Hist
import Verif.Spec.Grid
import Mathlib.Algebra.BigOperators.Ring.Finset
import Mathlib.Algebra.Order.BigOperators.Group.Finset
import Mathlib.Order.Interval.Finset.Nat

namespace PyECLOUD

set_option linter.unusedSectionVars false

variable {K : Type} [Field K] [LinearOrder K] [FloorRing K] [IsStrictOrderedRing K]

/-- what the guard says about one coordinate -/
theorem iIdx_pos {bias d x : K} (h : 0 < iIdx bias d x) :
    iIdx bias d x = ⌊fIdx bias d x⌋ ∧ 0 ≤ hIdx bias d x ∧ hIdx bias d x < 1 := by
  obtain ⟨e, -⟩ := truncZ_pos (x := fIdx bias d x) (by unfold iIdx at h; omega)
  have e' : iIdx bias d x = ⌊fIdx bias d x⌋ := e
  refine ⟨e', ?_, ?_⟩ <;> unfold hIdx <;> rw [e']
  · linarith [Int.floor_le (fIdx bias d x)]
  · linarith [Int.lt_floor_add_one (fIdx bias d x)]

theorem gridSum_rhoAdd (nx ny : ℕ) (rho F : ℕ → ℕ → K) (i j : ℕ) (v : K)
    (hi : i ∈ Finset.Icc 1 nx) (hj : j ∈ Finset.Icc 1 ny) :
    gridSum nx ny (fun a b => rhoAdd rho i j v a b * F a b) =
      gridSum nx ny (fun a b => rho a b * F a b) + v * F i j := by
  unfold gridSum
  have : ∀ a b, rhoAdd rho i j v a b * F a b = rho a b * F a b + if a = i then (if b = j then v * F i j else 0) else 0 := by
    intro a b
    unfold rhoAdd
    by_cases h1 : a = i
    · by_cases h2 : b = j
      · subst h1; subst h2; simp; ring
      · simp [h1, h2]
    · simp [h1]
  simp only [this, Finset.sum_add_distrib]
  congr 1
  rw [Finset.sum_eq_single_of_mem i hi]
  · simp only [if_true]
    rw [Finset.sum_eq_single_of_mem j hj]
    · simp
    · intro b _ hb; simp [hb]
  · intro a _ ha; simp [ha]

theorem gridSum_rhoStep (nx ny : ℕ) (bx yb dh : K) (rho F : ℕ → ℕ → K) (x y w : K) :
    gridSum nx ny (fun a b => rhoStep nx ny bx yb dh rho x y w a b * F a b) =
      gridSum nx ny (fun a b => rho a b * F a b) + w * intField nx ny bx yb dh dh F x y := by
  unfold rhoStep intField
  simp only
  by_cases hg : gridGuard nx ny (iIdx bx dh x) (iIdx yb dh y) = true
  · simp only [hg, if_true]
    unfold gridGuard at hg
    simp only [gt_iff_lt, decide_eq_true_eq] at hg
    obtain ⟨g1, g2, g3, g4⟩ := hg
    have a1 : (iIdx bx dh x).toNat ∈ Finset.Icc 1 nx := by rw [Finset.mem_Icc]; omega
    have a2 : (iIdx bx dh x).toNat + 1 ∈ Finset.Icc 1 nx := by rw [Finset.mem_Icc]; omega
    have b1 : (iIdx yb dh y).toNat ∈ Finset.Icc 1 ny := by rw [Finset.mem_Icc]; omega
    have b2 : (iIdx yb dh y).toNat + 1 ∈ Finset.Icc 1 ny := by rw [Finset.mem_Icc]; omega
    rw [gridSum_rhoAdd _ _ _ _ _ _ _ a2 b2, gridSum_rhoAdd _ _ _ _ _ _ _ a1 b2,
      gridSum_rhoAdd _ _ _ _ _ _ _ a2 b1, gridSum_rhoAdd _ _ _ _ _ _ _ a1 b1]
    ring
  · simp [hg]

theorem gridSum_computeRho (nx ny : ℕ) (bx yb dh : K) (F : ℕ → ℕ → K) (ps : List (K × K × K)) :
    gridSum nx ny (fun a b => computeRho nx ny bx yb dh ps a b * F a b) =
      (ps.map (fun p => p.2.2 * intField nx ny bx yb dh dh F p.1 p.2.1)).sum := by
  unfold computeRho
  have : ∀ rho : ℕ → ℕ → K, gridSum nx ny (fun a b => ps.foldl (fun rho p => rhoStep nx ny bx yb dh rho p.1 p.2.1 p.2.2) rho a b * F a b)
      = gridSum nx ny (fun a b => rho a b * F a b) +
        (ps.map (fun p => p.2.2 * intField nx ny bx yb dh dh F p.1 p.2.1)).sum := by
    induction ps with
    | nil => intro rho; simp
    | cons p ps ih =>
      intro rho
      simp only [List.foldl_cons, List.map_cons, List.sum_cons]
      rw [ih, gridSum_rhoStep]
      ring
  rw [this]
  simp [gridSum]

/-- the guard along one axis is the geometric condition -/
theorem iIdx_guard (n : ℕ) (bias d x : K) (hd : 0 < d) :
    (0 < iIdx bias d x ∧ iIdx bias d x < n) ↔ InAxis n bias d x := by
  have ht : (x - bias) / d * d = x - bias := by field_simp
  unfold InAxis
  constructor
  · rintro ⟨h1, h2⟩
    obtain ⟨e, h3, h4⟩ := iIdx_pos h1
    have h1' : (1 : K) ≤ (iIdx bias d x : K) := by exact_mod_cast h1
    have h2' : (iIdx bias d x : K) + 1 ≤ (n : K) := by exact_mod_cast h2
    unfold hIdx at h3 h4
    unfold fIdx at h3 h4
    have a : 0 ≤ (x - bias) / d := by linarith
    have b : (x - bias) / d < (n : K) - 1 := by linarith
    constructor
    · nlinarith
    · nlinarith
  · rintro ⟨h1, h2⟩
    have a : 0 ≤ (x - bias) / d := div_nonneg (by linarith) hd.le
    have b : (x - bias) / d < (n : K) - 1 := by rw [div_lt_iff₀ hd]; linarith
    obtain ⟨e1, e2⟩ := truncZ_of_one_le (x := fIdx bias d x) (by unfold fIdx; linarith)
    have e : iIdx bias d x = ⌊fIdx bias d x⌋ := e1
    rw [e]
    refine ⟨by omega, ?_⟩
    rw [Int.floor_lt]
    unfold fIdx
    push_cast
    linarith

theorem gridGuard_iff (nx ny : ℕ) (bx yb dx dy x y : K) (hdx : 0 < dx) (hdy : 0 < dy) :
    gridGuard nx ny (iIdx bx dx x) (iIdx yb dy y) = true ↔ InAxis nx bx dx x ∧ InAxis ny yb dy y := by
  rw [← iIdx_guard nx bx dx x hdx, ← iIdx_guard ny yb dy y hdy]
  unfold gridGuard
  simp only [gt_iff_lt, decide_eq_true_eq]
  tauto

/-- position of a particle relative to its left node -/
theorem pos_eq (n : ℕ) (bias d x : K) (hd : 0 < d) (h : InAxis n bias d x) :
    x = nodePos bias d (iIdx bias d x).toNat + hIdx bias d x * d := by
  have hg := (iIdx_guard n bias d x hd).2 h
  have e : (((iIdx bias d x).toNat : ℕ) : K) = ((iIdx bias d x : ℤ) : K) := by
    rw [← Int.cast_natCast, Int.toNat_of_nonneg (by omega)]
  unfold nodePos
  rw [e]
  unfold hIdx fIdx
  field_simp
  ring

theorem hat_eq (n : ℕ) (bias d x : K) (hd : 0 < d) (h : InAxis n bias d x) (k : ℕ) :
    hat bias d k x = (if k = (iIdx bias d x).toNat then 1 - hIdx bias d x else 0) +
      (if k = (iIdx bias d x).toNat + 1 then hIdx bias d x else 0) := by
  have hg := (iIdx_guard n bias d x hd).2 h
  obtain ⟨-, h0, h1⟩ := iIdx_pos hg.1
  have hp := pos_eq n bias d x hd h
  set a := (iIdx bias d x).toNat with ha
  set t := hIdx bias d x with htd
  have hs : |x - nodePos bias d k| / d = |(a : K) + t - k| := by
    rw [hp]
    unfold nodePos
    rw [show bias + ((a : K) - 1) * d + t * d - (bias + ((k : K) - 1) * d) = ((a : K) + t - k) * d by ring,
      abs_mul, abs_of_pos hd, mul_div_assoc, div_self hd.ne', mul_one]
  unfold hat
  rw [hs]
  rcases lt_trichotomy k a with hk | hk | hk
  · have : (k : K) + 1 ≤ (a : K) := by exact_mod_cast hk
    rw [if_neg (by omega), if_neg (by omega), abs_of_nonneg (by linarith), max_eq_left (by linarith)]
    simp
  · subst hk
    rw [if_pos rfl, if_neg (by omega), add_sub_cancel_left, abs_of_nonneg h0, max_eq_right (by linarith)]
    simp
  · by_cases hk2 : k = a + 1
    · rw [if_neg (by omega), if_pos hk2, hk2]
      push_cast
      rw [abs_of_nonpos (by linarith), max_eq_right (by linarith)]
      ring
    · have : (a : K) + 2 ≤ (k : K) := by
        have : a + 2 ≤ k := by omega
        exact_mod_cast this
      rw [if_neg (by omega), if_neg hk2, abs_of_nonpos (by linarith), max_eq_left (by linarith)]
      simp

theorem intField_in (nx ny : ℕ) (bx yb dx dy : K) (hdx : 0 < dx) (hdy : 0 < dy) (F : ℕ → ℕ → K) (x y : K)
    (hx : InAxis nx bx dx x) (hy : InAxis ny yb dy y) :
    intField nx ny bx yb dx dy F x y =
      F (iIdx bx dx x).toNat (iIdx yb dy y).toNat * (1 - hIdx bx dx x) * (1 - hIdx yb dy y)
      + F ((iIdx bx dx x).toNat + 1) (iIdx yb dy y).toNat * hIdx bx dx x * (1 - hIdx yb dy y)
      + F (iIdx bx dx x).toNat ((iIdx yb dy y).toNat + 1) * (1 - hIdx bx dx x) * hIdx yb dy y
      + F ((iIdx bx dx x).toNat + 1) ((iIdx yb dy y).toNat + 1) * hIdx bx dx x * hIdx yb dy y := by
  unfold intField
  simp only
  rw [if_pos ((gridGuard_iff nx ny bx yb dx dy x y hdx hdy).2 ⟨hx, hy⟩)]

theorem intField_out (nx ny : ℕ) (bx yb dx dy : K) (hdx : 0 < dx) (hdy : 0 < dy) (F : ℕ → ℕ → K) (x y : K)
    (h : ¬ (InAxis nx bx dx x ∧ InAxis ny yb dy y)) : intField nx ny bx yb dx dy F x y = 0 := by
  unfold intField
  simp only
  rw [if_neg (fun hg => h ((gridGuard_iff nx ny bx yb dx dy x y hdx hdy).1 hg))]

/-- the four surrounding nodes are nodes of the grid -/
theorem iIdx_mem (n : ℕ) (bias d x : K) (hd : 0 < d) (h : InAxis n bias d x) :
    (iIdx bias d x).toNat ∈ Finset.Icc 1 n ∧ (iIdx bias d x).toNat + 1 ∈ Finset.Icc 1 n := by
  have hg := (iIdx_guard n bias d x hd).2 h
  rw [Finset.mem_Icc, Finset.mem_Icc]
  omega

theorem rhoStep_pointwise (nx ny : ℕ) (bx yb dh : K) (hd : 0 < dh) (rho : ℕ → ℕ → K) (x y w : K) (i j : ℕ) :
    rhoStep nx ny bx yb dh rho x y w i j = rho i j +
      (if InAxis nx bx dh x ∧ InAxis ny yb dh y then w * (hat bx dh i x * hat yb dh j y) else 0) := by
  by_cases h : InAxis nx bx dh x ∧ InAxis ny yb dh y
  · rw [if_pos h]
    unfold rhoStep
    simp only
    rw [if_pos ((gridGuard_iff nx ny bx yb dh dh x y hd hd).2 h), hat_eq nx bx dh x hd h.1 i,
      hat_eq ny yb dh y hd h.2 j]
    unfold rhoAdd
    set a := (iIdx bx dh x).toNat
    set b := (iIdx yb dh y).toNat
    by_cases h1 : i = a
    · by_cases h2 : j = b
      · simp [h1, h2]; ring
      · by_cases h3 : j = b + 1
        · simp [h1, h3]; ring
        · simp [h1, h2, h3]
    · by_cases h1' : i = a + 1
      · by_cases h2 : j = b
        · simp [h1', h2]; ring
        · by_cases h3 : j = b + 1
          · simp [h1', h3]; ring
          · simp [h1', h2, h3]
      · simp [h1, h1']
  · rw [if_neg h, add_zero]
    unfold rhoStep
    simp only
    rw [if_neg (fun hg => h ((gridGuard_iff nx ny bx yb dh dh x y hd hd).1 hg))]

theorem updateSeg_length (h : List K) (ps : List (ℤ × K)) : (updateSeg h ps).length = h.length := by
  unfold updateSeg
  induction ps generalizing h with
  | nil => rfl
  | cons p ps ih =>
    simp only [List.foldl_cons]
    rw [ih]
    split <;> simp

theorem updateSeg_getD (h : List K) (ps : List (ℤ × K)) (k : ℕ) (hk : k < h.length) :
    (updateSeg h ps).getD k 0 = h.getD k 0 + ((ps.filter (fun p => decide (p.1 = (k : ℤ)))).map (·.2)).sum := by
  unfold updateSeg
  induction ps generalizing h with
  | nil => simp
  | cons p ps ih =>
    simp only [List.foldl_cons]
    by_cases hin : p.1 + 1 ≤ (h.length : ℤ) ∧ p.1 + 1 ≥ 1
    · rw [if_pos hin, ih _ (by simpa using hk), addAt_getD _ _ _ _ hk]
      by_cases he : p.1 = (k : ℤ)
      · rw [if_pos (by omega), List.filter_cons_of_pos (by simpa using he)]
        simp [add_assoc]
      · rw [if_neg (by omega), List.filter_cons_of_neg (by simpa using he)]
        simp
    · rw [if_neg hin, ih _ hk, List.filter_cons_of_neg (by simp only [decide_eq_true_eq]; omega)]

theorem updateSeg_sum (h : List K) (ps : List (ℤ × K)) :
    (updateSeg h ps).sum = h.sum +
      ((ps.filter (fun p => decide (0 ≤ p.1 ∧ p.1 < (h.length : ℤ)))).map (·.2)).sum := by
  unfold updateSeg
  induction ps generalizing h with
  | nil => simp
  | cons p ps ih =>
    simp only [List.foldl_cons]
    by_cases hin : p.1 + 1 ≤ (h.length : ℤ) ∧ p.1 + 1 ≥ 1
    · have hk : (p.1 + 1).toNat - 1 < h.length := by omega
      have hs : (addAt h (p.1 + 1).toNat p.2).sum = h.sum + p.2 := by
        have := addAt_take_sum h (p.1 + 1).toNat p.2 h.length hk
        rwa [if_pos hk, List.take_of_length_le (by simp), List.take_of_length_le (le_refl _)] at this
      rw [if_pos hin, ih, hs, addAt_length, List.filter_cons_of_pos (by simp only [decide_eq_true_eq]; omega)]
      simp [add_assoc]
    · rw [if_neg hin, ih, List.filter_cons_of_neg (by simp only [decide_eq_true_eq]; omega)]

end PyECLOUD
