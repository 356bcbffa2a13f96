import Verif.Spec.Converge
import Verif.Lemmas.Grid
import Mathlib.Tactic.FunProp

/-! # The fields of the code are bounded and change at a bounded rate -/

set_option linter.unusedSectionVars false

namespace PyECLOUD

/-- bounded on `S` and changing at a bounded rate there -/
def BoundedRate (S : Set (ℝ × ℝ)) (f : ℝ × ℝ → ℝ) : Prop :=
  ∃ M L : ℝ, 0 ≤ M ∧ 0 ≤ L ∧ (∀ q ∈ S, |f q| ≤ M) ∧ ∀ q ∈ S, ∀ q' ∈ S, |f q - f q'| ≤ L * (|q.1 - q'.1| + |q.2 - q'.2|)

variable {S : Set (ℝ × ℝ)}

theorem BoundedRate.const (c : ℝ) : BoundedRate S (fun _ => c) :=
  ⟨|c|, 0, abs_nonneg _, le_refl _, fun _ _ => le_refl _, fun _ _ _ _ => by simp⟩

theorem BoundedRate.fst {R : ℝ} (hS : ∀ q ∈ S, |q.1| ≤ R) : BoundedRate S (fun q => q.1) :=
  ⟨|R|, 1, abs_nonneg _, zero_le_one, fun q hq => (hS q hq).trans (le_abs_self _), fun q _ q' _ => by
    have := abs_nonneg (q.2 - q'.2); linarith⟩

theorem BoundedRate.snd {R : ℝ} (hS : ∀ q ∈ S, |q.2| ≤ R) : BoundedRate S (fun q => q.2) :=
  ⟨|R|, 1, abs_nonneg _, zero_le_one, fun q hq => (hS q hq).trans (le_abs_self _), fun q _ q' _ => by
    have := abs_nonneg (q.1 - q'.1); linarith⟩

theorem BoundedRate.add {f g : ℝ × ℝ → ℝ} (hf : BoundedRate S f) (hg : BoundedRate S g) : BoundedRate S (fun q => f q + g q) := by
  obtain ⟨M, L, hM, hL, h1, h2⟩ := hf
  obtain ⟨M', L', hM', hL', h1', h2'⟩ := hg
  refine ⟨M + M', L + L', by positivity, by positivity, fun q hq => ?_, fun q hq q' hq' => ?_⟩
  · exact (abs_add_le _ _).trans (add_le_add (h1 q hq) (h1' q hq))
  · have e : f q + g q - (f q' + g q') = (f q - f q') + (g q - g q') := by ring
    rw [e, add_mul]
    exact (abs_add_le _ _).trans (add_le_add (h2 q hq q' hq') (h2' q hq q' hq'))

theorem BoundedRate.mul {f g : ℝ × ℝ → ℝ} (hf : BoundedRate S f) (hg : BoundedRate S g) : BoundedRate S (fun q => f q * g q) := by
  obtain ⟨M, L, hM, hL, h1, h2⟩ := hf
  obtain ⟨M', L', hM', hL', h1', h2'⟩ := hg
  refine ⟨M * M', L * M' + M * L', by positivity, by positivity, fun q hq => ?_, fun q hq q' hq' => ?_⟩
  · rw [abs_mul]
    exact mul_le_mul (h1 q hq) (h1' q hq) (abs_nonneg _) hM
  · have e : f q * g q - f q' * g q' = (f q - f q') * g q + f q' * (g q - g q') := by ring
    rw [e]
    refine (abs_add_le _ _).trans ?_
    rw [abs_mul, abs_mul]
    have a1 := mul_le_mul (h2 q hq q' hq') (h1' q hq) (abs_nonneg _) (by positivity)
    have a2 := mul_le_mul (h1 q' hq') (h2' q hq q' hq') (abs_nonneg _) hM
    linarith

theorem BoundedRate.sub {f g : ℝ × ℝ → ℝ} (hf : BoundedRate S f) (hg : BoundedRate S g) : BoundedRate S (fun q => f q - g q) := by
  have h := hf.add ((BoundedRate.const (S := S) (-1)).mul hg)
  have e : (fun q => f q + -1 * g q) = fun q => f q - g q := by funext q; ring
  rw [e] at h
  exact h

theorem BoundedRate.sum {ι : Type} (s : Finset ι) (f : ι → ℝ × ℝ → ℝ) (h : ∀ i ∈ s, BoundedRate S (f i)) :
    BoundedRate S (fun q => ∑ i ∈ s, f i q) := by
  classical
  induction s using Finset.induction_on with
  | empty => simpa using BoundedRate.const (S := S) 0
  | insert a s ha ih =>
    simp only [Finset.sum_insert ha]
    exact (h a (by simp)).add (ih (fun i hi => h i (by simp [hi])))

theorem BoundedRate.congr {f g : ℝ × ℝ → ℝ} (hf : BoundedRate S f) (h : ∀ q ∈ S, g q = f q) : BoundedRate S g := by
  obtain ⟨M, L, hM, hL, h1, h2⟩ := hf
  refine ⟨M, L, hM, hL, fun q hq => by rw [h q hq]; exact h1 q hq, fun q hq q' hq' => by rw [h q hq, h q' hq']; exact h2 q hq q' hq'⟩

theorem hat_rate (bias d : ℝ) (hd : 0 < d) (i : ℕ) (x x' : ℝ) : |hat bias d i x| ≤ 1 ∧ |hat bias d i x - hat bias d i x'| ≤ 1 / d * |x - x'| := by
  have h0 : 0 ≤ |x - nodePos bias d i| / d := by positivity
  constructor
  · unfold hat
    rw [abs_of_nonneg (le_max_left _ _)]
    exact max_le zero_le_one (by linarith)
  · unfold hat
    have h1 : |max 0 (1 - |x - nodePos bias d i| / d) - max 0 (1 - |x' - nodePos bias d i| / d)| ≤
        |(1 - |x - nodePos bias d i| / d) - (1 - |x' - nodePos bias d i| / d)| := by
      rw [max_comm 0, max_comm 0]
      exact abs_max_sub_max_le_abs _ _ _
    refine h1.trans ?_
    have e : (1 - |x - nodePos bias d i| / d) - (1 - |x' - nodePos bias d i| / d) = 1 / d * (|x' - nodePos bias d i| - |x - nodePos bias d i|) := by ring
    rw [e, abs_mul, abs_of_pos (by positivity : 0 < 1 / d)]
    refine mul_le_mul_of_nonneg_left ?_ (by positivity)
    have h2 := abs_abs_sub_abs_le (x' - nodePos bias d i) (x - nodePos bias d i)
    rw [sub_sub_sub_cancel_right, abs_sub_comm x' x] at h2
    exact h2

theorem intField_hat2 (nx ny : ℕ) (bx yb dx dy : ℝ) (hdx : 0 < dx) (hdy : 0 < dy) (F : ℕ → ℕ → ℝ) (x y : ℝ) (hx : InAxis nx bx dx x)
    (hy : InAxis ny yb dy y) :
    intField nx ny bx yb dx dy F x y = ∑ i ∈ Finset.Icc 1 nx, ∑ j ∈ Finset.Icc 1 ny, hat bx dx i x * (hat yb dy j y * F i j) := by
  have hy1 : ∀ f : ℕ → ℝ, ∑ j ∈ Finset.Icc 1 ny, hat yb dy j y * f j =
      (1 - hIdx yb dy y) * f (iIdx yb dy y).toNat + hIdx yb dy y * f ((iIdx yb dy y).toNat + 1) := by
    intro f
    obtain ⟨m1, m2⟩ := iIdx_mem ny yb dy y hdy hy
    simp only [hat_eq ny yb dy y hdy hy, add_mul, ite_mul, zero_mul, Finset.sum_add_distrib]
    rw [Finset.sum_ite_eq' _ _ _, Finset.sum_ite_eq' _ _ _, if_pos m1, if_pos m2]
  have hx1 : ∀ f : ℕ → ℝ, ∑ i ∈ Finset.Icc 1 nx, hat bx dx i x * f i =
      (1 - hIdx bx dx x) * f (iIdx bx dx x).toNat + hIdx bx dx x * f ((iIdx bx dx x).toNat + 1) := by
    intro f
    obtain ⟨m1, m2⟩ := iIdx_mem nx bx dx x hdx hx
    simp only [hat_eq nx bx dx x hdx hx, add_mul, ite_mul, zero_mul, Finset.sum_add_distrib]
    rw [Finset.sum_ite_eq' _ _ _, Finset.sum_ite_eq' _ _ _, if_pos m1, if_pos m2]
  simp only [← Finset.mul_sum, hy1, hx1]
  rw [intField_in nx ny bx yb dx dy hdx hdy F x y hx hy]
  ring

theorem intField_rate (nx ny : ℕ) (bx yb dx dy : ℝ) (hdx : 0 < dx) (hdy : 0 < dy) (F : ℕ → ℕ → ℝ)
    (hS : ∀ q ∈ S, InAxis nx bx dx q.1 ∧ InAxis ny yb dy q.2) : BoundedRate S (fun q => intField nx ny bx yb dx dy F q.1 q.2) := by
  refine BoundedRate.congr (f := fun q => ∑ i ∈ Finset.Icc 1 nx, ∑ j ∈ Finset.Icc 1 ny, hat bx dx i q.1 * (hat yb dy j q.2 * F i j)) ?_
    (fun q hq => intField_hat2 nx ny bx yb dx dy hdx hdy F q.1 q.2 (hS q hq).1 (hS q hq).2)
  refine BoundedRate.sum _ _ (fun i _ => BoundedRate.sum _ _ (fun j _ => BoundedRate.mul ?_ (BoundedRate.mul ?_ (BoundedRate.const _))))
  · refine ⟨1, 1 / dx, zero_le_one, by positivity, fun q _ => (hat_rate bx dx hdx i q.1 0).1, fun q _ q' _ => ?_⟩
    refine (hat_rate bx dx hdx i q.1 q'.1).2.trans (mul_le_mul_of_nonneg_left ?_ (by positivity))
    have := abs_nonneg (q.2 - q'.2); linarith
  · refine ⟨1, 1 / dy, zero_le_one, by positivity, fun q _ => (hat_rate yb dy hdy j q.2 0).1, fun q _ q' _ => ?_⟩
    refine (hat_rate yb dy hdy j q.2 q'.2).2.trans (mul_le_mul_of_nonneg_left ?_ (by positivity))
    have := abs_nonneg (q.1 - q'.1); linarith

theorem multipoleLoop_rate (hx : BoundedRate S (fun q => q.1)) (hy : BoundedRate S (fun q => q.2)) (l : List (ℝ × ℝ)) :
    ∀ (re im bx bY : ℝ × ℝ → ℝ), BoundedRate S re → BoundedRate S im → BoundedRate S bx → BoundedRate S bY →
    BoundedRate S (fun q => (multipoleLoop q.1 q.2 l (re q) (im q) (bx q) (bY q)).1) ∧
    BoundedRate S (fun q => (multipoleLoop q.1 q.2 l (re q) (im q) (bx q) (bY q)).2) := by
  induction l with
  | nil => intro re im bx bY _ _ h3 h4; exact ⟨h3, h4⟩
  | cons a l ih =>
    obtain ⟨b, s⟩ := a
    intro re im bx bY h1 h2 h3 h4
    have r1 : BoundedRate S (fun q => re q * q.1 - im q * q.2) := (h1.mul hx).sub (h2.mul hy)
    have r2 : BoundedRate S (fun q => im q * q.1 + re q * q.2) := (h2.mul hx).add (h1.mul hy)
    exact ih _ _ _ _ r1 r2 (h3.add (((BoundedRate.const b).mul r2).add ((BoundedRate.const s).mul r1)))
      (h4.add (((BoundedRate.const b).mul r1).sub ((BoundedRate.const s).mul r2)))

/-- a field that does not change in time -/
theorem BoundedRate.smooth (T : ℝ) (f : ℝ → ℝ → V3 ℝ) (h1 : BoundedRate S (fun q => (f q.1 q.2).x)) (h2 : BoundedRate S (fun q => (f q.1 q.2).y))
    (h3 : BoundedRate S (fun q => (f q.1 q.2).z)) : ∃ M L : ℝ, 0 ≤ M ∧ 0 ≤ L ∧ FieldSmooth S T M L (fun _ => f) := by
  obtain ⟨M1, L1, a1, b1, c1, d1⟩ := h1
  obtain ⟨M2, L2, a2, b2, c2, d2⟩ := h2
  obtain ⟨M3, L3, a3, b3, c3, d3⟩ := h3
  refine ⟨M1 + M2 + M3, L1 + L2 + L3, by positivity, by positivity, fun t _ q hq => ⟨?_, ?_, ?_⟩, fun t _ t' _ q hq q' hq' => ?_⟩
  · have := c1 q hq; linarith
  · have := c2 q hq; linarith
  · have := c3 q hq; linarith
  · have ht := abs_nonneg (t - t')
    have hD : 0 ≤ |q.1 - q'.1| + |q.2 - q'.2| := by positivity
    have e : ∀ Li : ℝ, 0 ≤ Li → Li ≤ L1 + L2 + L3 →
        Li * (|q.1 - q'.1| + |q.2 - q'.2|) ≤ (L1 + L2 + L3) * (|t - t'| + |q.1 - q'.1| + |q.2 - q'.2|) := fun Li h0 h =>
      mul_le_mul h (by linarith) hD (by positivity)
    exact ⟨(d1 q hq q' hq').trans (e L1 b1 (by linarith)), (d2 q hq q' hq').trans (e L2 b2 (by linarith)),
      (d3 q hq q' hq').trans (e L3 b3 (by linarith))⟩

theorem FieldSmooth.mono {T M L M' L' : ℝ} {f : ℝ → ℝ → ℝ → V3 ℝ} (h : FieldSmooth S T M L f) (hM : M ≤ M') (hL : L ≤ L') :
    FieldSmooth S T M' L' f := by
  refine ⟨fun t ht q hq => ?_, fun t ht t' ht' q hq q' hq' => ?_⟩
  · obtain ⟨a, b, c⟩ := h.1 t ht q hq
    exact ⟨a.trans hM, b.trans hM, c.trans hM⟩
  · obtain ⟨a, b, c⟩ := h.2 t ht t' ht' q hq q' hq'
    have e := mul_le_mul_of_nonneg_right hL (show 0 ≤ |t - t'| + |q.1 - q'.1| + |q.2 - q'.2| by positivity)
    exact ⟨a.trans e, b.trans e, c.trans e⟩

end PyECLOUD
