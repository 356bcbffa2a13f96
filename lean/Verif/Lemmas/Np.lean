import Verif.Model.Np
import Mathlib.Tactic.Ring
import Mathlib.Tactic.Linarith
import Mathlib.Tactic.FieldSimp
import Mathlib.Tactic.Positivity

namespace PyECLOUD

variable {α β : Type}

@[simp] theorem maskSel_nil (m : List Bool) : maskSel ([] : List α) m = [] := by
  cases m <;> rfl

@[simp] theorem maskSel_nil_right (l : List α) : maskSel l [] = [] := by
  cases l <;> rfl

theorem maskSel_length (l : List α) (m : List Bool) (h : m.length = l.length) :
    (maskSel l m).length = countTrue m := by
  induction l generalizing m with
  | nil => cases m <;> simp_all [countTrue]
  | cons a l ih =>
    cases m with
    | nil => simp at h
    | cons b m =>
      have := ih m (by simpa using h)
      cases b <;> simp_all [maskSel, countTrue]

theorem maskSel_map (f : α → β) (l : List α) (m : List Bool) :
    (maskSel l m).map f = maskSel (l.map f) m := by
  induction l generalizing m with
  | nil => simp
  | cons a l ih =>
    cases m with
    | nil => simp
    | cons b m => cases b <;> simp [maskSel, ih]

theorem maskSel_append (l l' : List α) (m m' : List Bool) (h : m.length = l.length) :
    maskSel (l ++ l') (m ++ m') = maskSel l m ++ maskSel l' m' := by
  induction l generalizing m with
  | nil => cases m <;> simp_all
  | cons a l ih =>
    cases m with
    | nil => simp at h
    | cons b m =>
      have := ih m (by simpa using h)
      cases b <;> simp [maskSel, this]

@[simp] theorem maskSel_false (l : List α) (n : ℕ) :
    maskSel l (List.replicate n false) = [] := by
  induction l generalizing n with
  | nil => simp
  | cons a l ih => cases n <;> simp [maskSel, List.replicate_succ, ih]

theorem maskSel_map_self (l : List α) (p : α → Bool) : maskSel l (l.map p) = l.filter p := by
  induction l with
  | nil => rfl
  | cons a l ih => by_cases h : p a <;> simp [maskSel, h, ih]

theorem maskSel_sublist (l : List α) (m : List Bool) : (maskSel l m).Sublist l := by
  induction l generalizing m with
  | nil => simp
  | cons a l ih =>
    cases m with
    | nil => simp
    | cons b m => cases b <;> simp [maskSel, ih]

/-- a mask that is `k` followed by `False`s only sees the first `k.length` entries -/
theorem maskSel_prefix (l : List α) (k : List Bool) (n : ℕ) (h : k.length ≤ l.length) :
    maskSel l (k ++ List.replicate n false) = maskSel (l.take k.length) k := by
  conv_lhs => rw [← List.take_append_drop k.length l]
  rw [maskSel_append _ _ _ _ (by simp [h])]
  simp

@[simp] theorem countTrue_append (a b : List Bool) :
    countTrue (a ++ b) = countTrue a + countTrue b := by simp [countTrue]

@[simp] theorem countTrue_replicate_false (n : ℕ) :
    countTrue (List.replicate n false) = 0 := by
  simp [countTrue, List.count_replicate]

theorem countTrue_le_length (m : List Bool) : countTrue m ≤ m.length := List.count_le_length

@[simp] theorem setPrefix_length (a src : List α) (h : src.length ≤ a.length) :
    (setPrefix a src).length = a.length := by
  simp [setPrefix]; omega

@[simp] theorem setPrefix_take (a src : List α) : (setPrefix a src).take src.length = src := by
  simp [setPrefix]

@[simp] theorem zeroTail_length [Zero α] (a : List α) (n : ℕ) : (zeroTail a n).length = a.length := by
  simp [zeroTail]; omega

theorem zeroTail_take [Zero α] (a : List α) (n : ℕ) (h : n ≤ a.length) :
    (zeroTail a n).take n = a.take n := by
  rw [zeroTail, List.take_append_of_le_length (by simp [h])]
  simp

/-- successful array assignment inside the array -/
theorem sliceAssign_array (a l : List α) (lo hi : ℕ) (h1 : lo ≤ hi) (h2 : hi ≤ a.length)
    (h3 : l.length = hi - lo) :
    sliceAssign a lo hi (.array l) = .ok (a.take lo ++ l ++ a.drop hi) := by
  have e1 : min lo a.length = lo := by omega
  have e2 : min hi a.length = hi := by omega
  have e3 : lo + (hi - lo) = hi := by omega
  simp [sliceAssign, e1, e2, e3, h3]

theorem sliceAssign_scalar (a : List α) (v : α) (lo hi : ℕ) (h1 : lo ≤ hi) (h2 : hi ≤ a.length) :
    sliceAssign a lo hi (.scalar v) = .ok (a.take lo ++ List.replicate (hi - lo) v ++ a.drop hi) := by
  have e1 : min lo a.length = lo := by omega
  have e2 : min hi a.length = hi := by omega
  have e3 : lo + (hi - lo) = hi := by omega
  simp [sliceAssign, e1, e2, e3]

theorem sliceAssign_length (a : List α) (lo hi : ℕ) (src : Src α) (r : List α)
    (h : sliceAssign a lo hi src = .ok r) : r.length = a.length := by
  unfold sliceAssign at h
  cases src with
  | scalar v =>
    simp only [Except.ok.injEq] at h
    subst h; simp; omega
  | array l =>
    simp only at h
    split at h
    · simp only [Except.ok.injEq] at h
      subst h; simp; omega
    · split at h
      · simp only [Except.ok.injEq] at h
        subst h; simp; omega
      · simp at h

/-- slice assignment never touches entries below the lower bound -/
theorem sliceAssign_take (a : List α) (lo hi : ℕ) (src : Src α) (r : List α)
    (h : sliceAssign a lo hi src = .ok r) (k : ℕ) (hk : k ≤ lo) (hl : k ≤ a.length) :
    r.take k = a.take k := by
  have key : ∀ (m t : List α), ((a.take (min lo a.length) ++ m) ++ t).take k = a.take k := by
    intro m t
    rw [List.append_assoc, List.take_append_of_le_length (by simp; omega), List.take_take]
    congr 1; omega
  unfold sliceAssign at h
  cases src with
  | scalar v =>
    simp only [Except.ok.injEq] at h
    subst h; exact key _ _
  | array l =>
    simp only at h
    split at h
    · simp only [Except.ok.injEq] at h
      subst h; exact key _ _
    · split at h
      · simp only [Except.ok.injEq] at h
        subst h; exact key _ _
      · simp at h

end PyECLOUD
