import Verif.Model.Hist
import Verif.Spec.Hist
import Verif.Lemmas.Np

set_option linter.unusedSectionVars false

namespace PyECLOUD

variable {K : Type} [Field K] [LinearOrder K] [FloorRing K]

@[simp] theorem addAt_length (h : List K) (i : ℕ) (v : K) : (addAt h i v).length = h.length := by
  simp [addAt]

theorem addAt_getD (h : List K) (i : ℕ) (v : K) (k : ℕ) (hk : k < h.length) :
    (addAt h i v).getD k 0 = h.getD k 0 + if k = i - 1 then v else 0 := by
  unfold addAt
  rw [List.getD_eq_getElem?_getD, List.getElem?_modify, List.getD_eq_getElem?_getD,
    List.getElem?_eq_getElem hk]
  by_cases e : k = i - 1
  · simp [e]
  · have : ¬ (i - 1 = k) := fun h => e h.symm
    simp [e, this]

/-- sum of the first `m` entries -/
theorem addAt_take_sum (h : List K) (i : ℕ) (v : K) (m : ℕ) (hi : i - 1 < h.length) :
    ((addAt h i v).take m).sum = (h.take m).sum + if i - 1 < m then v else 0 := by
  unfold addAt
  generalize i - 1 = j at hi ⊢
  induction h generalizing j m with
  | nil => simp at hi
  | cons a h ih =>
    cases m with
    | zero => simp
    | succ m =>
      cases j with
      | zero => simp; ring
      | succ j =>
        have := ih m j (by simpa using hi)
        simp only [List.modify_succ_cons, List.take_succ_cons, List.sum_cons, this, Nat.add_lt_add_iff_right]
        ring

theorem take_drop_sum (h : List K) (n : ℕ) : (h.take n).sum + (h.drop n).sum = h.sum := by
  rw [← List.sum_append, List.take_append_drop]

/-- the three outcomes of a histogram step -/
theorem histStep_ok (bias dx : K) (h h' : List K) (x w : K) (hok : histStep bias dx h x w = .ok h') :
    1 ≤ truncZ (1 + (x - bias) / dx) ∧ 0 < h.length ∧
    ((truncZ (1 + (x - bias) / dx) < (h.length : ℤ) ∧
      h' = addAt (addAt h (truncZ (1 + (x - bias) / dx)).toNat
        (w * (1 - (1 + (x - bias) / dx - ((truncZ (1 + (x - bias) / dx) : ℤ) : K)))))
        ((truncZ (1 + (x - bias) / dx)).toNat + 1)
        (w * (1 + (x - bias) / dx - ((truncZ (1 + (x - bias) / dx) : ℤ) : K)))) ∨
     ((h.length : ℤ) ≤ truncZ (1 + (x - bias) / dx) ∧ h' = addAt h h.length w)) := by
  unfold histStep at hok
  simp only at hok
  split at hok
  · simp at hok
  · next h1 =>
    push Not at h1
    refine ⟨h1.1, Nat.pos_of_ne_zero h1.2, ?_⟩
    split at hok
    · next h2 =>
      simp only [Except.ok.injEq] at hok
      exact Or.inl ⟨h2, hok.symm⟩
    · next h2 =>
      simp only [Except.ok.injEq] at hok
      exact Or.inr ⟨not_lt.1 h2, hok.symm⟩

theorem histStep_length (bias dx : K) (h h' : List K) (x w : K) (hok : histStep bias dx h x w = .ok h') :
    h'.length = h.length := by
  obtain ⟨-, -, h1 | h1⟩ := histStep_ok bias dx h h' x w hok <;> rw [h1.2] <;> simp

theorem computeHist_length (bias dx : K) (h h' : List K) (ps : List (K × K))
    (hok : computeHist bias dx h ps = .ok h') : h'.length = h.length := by
  induction ps generalizing h with
  | nil => simp only [computeHist, Except.ok.injEq] at hok; rw [hok]
  | cons p ps ih =>
    unfold computeHist at hok
    split at hok
    · simp at hok
    · next h1 e => rw [ih _ hok, histStep_length _ _ _ _ _ _ e]

variable [IsStrictOrderedRing K]

theorem truncZ_pos {x : K} (h : 1 ≤ truncZ x) : truncZ x = ⌊x⌋ ∧ 1 ≤ x := by
  unfold truncZ at h ⊢
  split
  · next h0 =>
    rw [if_pos h0] at h
    refine ⟨rfl, ?_⟩
    have := Int.floor_le x
    have h' : ((1 : ℤ) : K) ≤ ((⌊x⌋ : ℤ) : K) := by exact_mod_cast h
    simp at h'
    linarith
  · next h0 =>
    rw [if_neg h0] at h
    exfalso
    have : ⌈x⌉ ≤ 0 := by rw [Int.ceil_le]; simp; exact (not_le.1 h0).le
    omega

theorem truncZ_of_one_le {x : K} (h : 1 ≤ x) : truncZ x = ⌊x⌋ ∧ 1 ≤ ⌊x⌋ := by
  have : (0 : K) ≤ x := by linarith [zero_lt_one (α := K)]
  unfold truncZ
  rw [if_pos this]
  exact ⟨rfl, by rw [Int.le_floor]; simpa using h⟩

theorem histStep_getD (bias dx : K) (h h' : List K) (x w : K) (hok : histStep bias dx h x w = .ok h')
    (k : ℕ) (hk : k < h.length) :
    h'.getD k 0 = h.getD k 0 + w * cicWeight h.length ((x - bias) / dx) k := by
  obtain ⟨h1, hpos, h2⟩ := histStep_ok bias dx h h' x w hok
  set t := (x - bias) / dx with ht
  obtain ⟨e, ht1⟩ := truncZ_pos h1
  rw [e] at h1 h2
  have hi : ⌊1 + t⌋ = 1 + ⌊t⌋ := by
    rw [add_comm, Int.floor_add_one, add_comm]
  rw [hi] at h1 h2
  have hf0 : 0 ≤ ⌊t⌋ := by omega
  obtain ⟨j, hj⟩ := Int.eq_ofNat_of_zero_le hf0
  have hle : (j : K) ≤ t := by
    have := Int.floor_le t
    rw [hj] at this; simpa using this
  have hlt : t < (j : K) + 1 := by
    have := Int.lt_floor_add_one t
    rw [hj] at this; simpa using this
  have hkc : ((k + 1 : ℕ) : K) ≤ (h.length : K) := by exact_mod_cast hk
  push_cast at hkc
  rcases h2 with ⟨h3, rfl⟩ | ⟨h3, rfl⟩
  · rw [hj] at h3
    have h3' : j + 2 ≤ h.length := by omega
    have hjn : ((j + 2 : ℕ) : K) ≤ (h.length : K) := by exact_mod_cast h3'
    push_cast at hjn
    have hmin : min t ((h.length : K) - 1) = t := min_eq_left (by linarith)
    rw [addAt_getD _ _ _ _ (by simpa using hk), addAt_getD _ _ _ _ hk, hj]
    have e1 : (1 + (j : ℤ)).toNat = j + 1 := by omega
    rw [e1]
    simp only [Nat.add_sub_cancel]
    unfold cicWeight
    rw [hmin]
    rcases Nat.lt_trichotomy k j with hkj | hkj | hkj
    · have c1 : ¬ k = j := by omega
      have c2 : ¬ k = j + 1 := by omega
      have hkj' : ((k + 1 : ℕ) : K) ≤ (j : K) := by exact_mod_cast hkj
      push_cast at hkj'
      have : max 0 (1 - |t - (k : K)|) = 0 := max_eq_left (by
        have := le_abs_self (t - (k : K)); linarith)
      simp [c1, c2, this]
    · subst hkj
      have c2 : ¬ k = k + 1 := by omega
      have : max 0 (1 - |t - (k : K)|) = 1 - (t - k) := by
        rw [abs_of_nonneg (by linarith)]
        exact max_eq_right (by linarith)
      rw [this, if_pos rfl, if_neg c2]
      push_cast; ring
    · by_cases c2 : k = j + 1
      · subst c2
        have : max 0 (1 - |t - ((j + 1 : ℕ) : K)|) = t - j := by
          push_cast
          rw [abs_of_nonpos (by linarith)]
          rw [max_eq_right (by linarith)]
          ring
        rw [this, if_neg (by omega), if_pos rfl]
        push_cast; ring
      · have hkj' : ((j + 2 : ℕ) : K) ≤ (k : K) := by exact_mod_cast (by omega : j + 2 ≤ k)
        push_cast at hkj'
        have : max 0 (1 - |t - (k : K)|) = 0 := max_eq_left (by
          have := neg_abs_le (t - (k : K)); linarith)
        rw [this, if_neg (by omega), if_neg c2]
        ring
  · rw [hj] at h3
    have h3' : h.length ≤ j + 1 := by omega
    have hjn : (h.length : K) ≤ ((j + 1 : ℕ) : K) := by exact_mod_cast h3'
    push_cast at hjn
    have hmin : min t ((h.length : K) - 1) = (h.length : K) - 1 := min_eq_right (by linarith)
    rw [addAt_getD _ _ _ _ hk]
    unfold cicWeight
    rw [hmin]
    by_cases c : k = h.length - 1
    · have : (k : K) = (h.length : K) - 1 := by
        have : k + 1 = h.length := by omega
        rw [← this]; push_cast; ring
      rw [if_pos c, this]
      simp
    · rw [if_neg c]
      have : ((k + 2 : ℕ) : K) ≤ (h.length : K) := by exact_mod_cast (by omega : k + 2 ≤ h.length)
      push_cast at this
      have : max 0 (1 - |(h.length : K) - 1 - (k : K)|) = 0 := max_eq_left (by
        have := le_abs_self ((h.length : K) - 1 - (k : K)); linarith)
      rw [this]; ring

theorem computeHist_getD (bias dx : K) (h h' : List K) (ps : List (K × K))
    (hok : computeHist bias dx h ps = .ok h') (k : ℕ) (hk : k < h.length) :
    h'.getD k 0 = h.getD k 0 + (ps.map (fun p => p.2 * cicWeight h.length ((p.1 - bias) / dx) k)).sum := by
  induction ps generalizing h with
  | nil => simp only [computeHist, Except.ok.injEq] at hok; subst hok; simp
  | cons p ps ih =>
    unfold computeHist at hok
    split at hok
    · simp at hok
    · next h1 e =>
      have hl := histStep_length _ _ _ _ _ _ e
      rw [ih h1 hok (by rw [hl]; exact hk), histStep_getD _ _ _ _ _ _ e k hk, hl]
      simp [add_assoc]

/-- each step adds exactly the weight to the total -/
theorem histStep_sum (bias dx : K) (h h' : List K) (x w : K) (hok : histStep bias dx h x w = .ok h') :
    h'.sum = h.sum + w := by
  obtain ⟨h1, hpos, h2⟩ := histStep_ok bias dx h h' x w hok
  have key : ∀ (g : List K) (i : ℕ) (v : K), i - 1 < g.length → (addAt g i v).sum = g.sum + v := by
    intro g i v hi
    have := addAt_take_sum g i v g.length hi
    rwa [if_pos hi, List.take_of_length_le (by simp), List.take_of_length_le (le_refl _)] at this
  rcases h2 with ⟨h3, rfl⟩ | ⟨h3, rfl⟩
  · rw [key _ _ _ (by simp; omega), key _ _ _ (by omega)]
    ring
  · rw [key _ _ _ (by omega)]

theorem computeHist_sum (bias dx : K) (h h' : List K) (ps : List (K × K))
    (hok : computeHist bias dx h ps = .ok h') : h'.sum = h.sum + (ps.map (·.2)).sum := by
  induction ps generalizing h with
  | nil => simp only [computeHist, Except.ok.injEq] at hok; subst hok; simp
  | cons p ps ih =>
    unfold computeHist at hok
    split at hok
    · simp at hok
    · next h1 e =>
      rw [ih h1 hok, histStep_sum _ _ _ _ _ _ e]
      simp [add_assoc]

/-- the histogram loop succeeds whenever no particle lies before the first node -/
theorem computeHist_ok (bias dx : K) (hdx : 0 < dx) (h : List K) (hpos : 0 < h.length) (ps : List (K × K))
    (hin : ∀ p ∈ ps, bias ≤ p.1) : ∃ h', computeHist bias dx h ps = .ok h' := by
  induction ps generalizing h with
  | nil => exact ⟨h, rfl⟩
  | cons p ps ih =>
    have hp := hin p (by simp)
    have h1 : (1 : K) ≤ 1 + (p.1 - bias) / dx := by
      have : 0 ≤ (p.1 - bias) / dx := div_nonneg (by linarith) hdx.le
      linarith
    have ht := truncZ_of_one_le h1
    have : ∃ h1, histStep bias dx h p.1 p.2 = .ok h1 := by
      unfold histStep
      simp only
      rw [if_neg (by push Not; exact ⟨by rw [ht.1]; exact ht.2, by omega⟩)]
      split <;> exact ⟨_, rfl⟩
    obtain ⟨h1, e⟩ := this
    obtain ⟨h', e'⟩ := ih h1 (by rw [histStep_length _ _ _ _ _ _ e]; exact hpos) (fun q hq => hin q (by simp [hq]))
    refine ⟨h', ?_⟩
    unfold computeHist
    rw [e]
    exact e'

/-- the first `m` nodes never lose, and gain the full weight of particles whose two nodes are among them -/
theorem histStep_take (bias dx : K) (h h' : List K) (x w : K) (hw : 0 ≤ w)
    (hok : histStep bias dx h x w = .ok h') (m : ℕ) :
    (h.take m).sum + (if (x - bias) / dx < (m : K) - 1 then w else 0) ≤ (h'.take m).sum := by
  obtain ⟨h1, hpos, h2⟩ := histStep_ok bias dx h h' x w hok
  set t := (x - bias) / dx with ht
  obtain ⟨e, ht1⟩ := truncZ_pos h1
  rw [e] at h1 h2
  have hi : ⌊1 + t⌋ = 1 + ⌊t⌋ := by rw [add_comm, Int.floor_add_one, add_comm]
  rw [hi] at h1 h2
  have hf0 : 0 ≤ ⌊t⌋ := by omega
  obtain ⟨j, hj⟩ := Int.eq_ofNat_of_zero_le hf0
  have hle : (j : K) ≤ t := by
    have := Int.floor_le t
    rw [hj] at this; simpa using this
  have hlt : t < (j : K) + 1 := by
    have := Int.lt_floor_add_one t
    rw [hj] at this; simpa using this
  rcases h2 with ⟨h3, rfl⟩ | ⟨h3, rfl⟩
  · rw [hj] at h3 ⊢
    have e1 : (1 + (j : ℤ)).toNat = j + 1 := by omega
    rw [e1, addAt_take_sum _ _ _ _ (by simp; omega), addAt_take_sum _ _ _ _ (by omega)]
    simp only [Nat.add_sub_cancel]
    push_cast
    have hp1 : 0 ≤ w * (1 - (1 + t - (1 + (j : K)))) := mul_nonneg hw (by linarith)
    have hp2 : 0 ≤ w * (1 + t - (1 + (j : K))) := mul_nonneg hw (by linarith)
    by_cases hc : t < (m : K) - 1
    · have : j + 1 < m := by
        have : ((j + 1 : ℕ) : K) < (m : K) := by push_cast; linarith
        exact_mod_cast this
      rw [if_pos hc, if_pos (by omega), if_pos this]
      linarith
    · rw [if_neg hc]
      split <;> split <;> linarith
  · rw [hj] at h3
    rw [addAt_take_sum _ _ _ _ (by omega)]
    by_cases hc : t < (m : K) - 1
    · have : j + 1 < m := by
        have : ((j + 1 : ℕ) : K) < (m : K) := by push_cast; linarith
        exact_mod_cast this
      rw [if_pos hc, if_pos (by omega)]
    · rw [if_neg hc]
      split <;> linarith

/-- same for the nodes from index `m` on -/
theorem histStep_drop (bias dx : K) (h h' : List K) (x w : K) (hw : 0 ≤ w)
    (hok : histStep bias dx h x w = .ok h') (m : ℕ) (hm : m < h.length) :
    (h.drop m).sum + (if (m : K) ≤ (x - bias) / dx then w else 0) ≤ (h'.drop m).sum := by
  have hs := histStep_sum bias dx h h' x w hok
  have e1 := take_drop_sum h m
  have e2 := take_drop_sum h' m
  suffices (h'.take m).sum ≤ (h.take m).sum + (if (m : K) ≤ (x - bias) / dx then 0 else w) by
    by_cases hc : (m : K) ≤ (x - bias) / dx
    · rw [if_pos hc] at this ⊢; linarith
    · rw [if_neg hc] at this ⊢; linarith
  obtain ⟨h1, hpos, h2⟩ := histStep_ok bias dx h h' x w hok
  set t := (x - bias) / dx with ht
  obtain ⟨e, ht1⟩ := truncZ_pos h1
  rw [e] at h1 h2
  have hi : ⌊1 + t⌋ = 1 + ⌊t⌋ := by rw [add_comm, Int.floor_add_one, add_comm]
  rw [hi] at h1 h2
  have hf0 : 0 ≤ ⌊t⌋ := by omega
  obtain ⟨j, hj⟩ := Int.eq_ofNat_of_zero_le hf0
  have hle : (j : K) ≤ t := by
    have := Int.floor_le t
    rw [hj] at this; simpa using this
  have hlt : t < (j : K) + 1 := by
    have := Int.lt_floor_add_one t
    rw [hj] at this; simpa using this
  rcases h2 with ⟨h3, rfl⟩ | ⟨h3, rfl⟩
  · rw [hj] at h3 ⊢
    have e1 : (1 + (j : ℤ)).toNat = j + 1 := by omega
    rw [e1, addAt_take_sum _ _ _ _ (by simp; omega), addAt_take_sum _ _ _ _ (by omega)]
    simp only [Nat.add_sub_cancel]
    push_cast
    have hp1 : 0 ≤ w * (1 - (1 + t - (1 + (j : K)))) := mul_nonneg hw (by linarith)
    have hp2 : 0 ≤ w * (1 + t - (1 + (j : K))) := mul_nonneg hw (by linarith)
    by_cases hc : (m : K) ≤ t
    · have : m < j + 1 := by
        have : (m : K) < ((j + 1 : ℕ) : K) := by push_cast; linarith
        exact_mod_cast this
      rw [if_pos hc, if_neg (by omega), if_neg (by omega)]
      linarith
    · rw [if_neg hc]
      split <;> split <;> linarith
  · rw [hj] at h3
    rw [addAt_take_sum _ _ _ _ (by omega)]
    rw [if_neg (by omega)]
    split <;> linarith

end PyECLOUD
