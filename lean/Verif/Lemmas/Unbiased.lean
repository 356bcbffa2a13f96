import Verif.Spec.Unbiased
import Verif.Lemmas.Rebuild
import Verif.Lemmas.RegenCut
import Verif.Lemmas.UniformDraws

/-! # Lemmas: how many macroparticles a full regeneration makes in each cell -/

set_option linter.unusedSectionVars false

namespace PyECLOUD

theorem count_flatMap_replicate {α : Type} [DecidableEq α] (l : List (α × ℕ)) (hnd : (l.map (·.1)).Nodup) (q : α × ℕ) (hq : q ∈ l) :
    (l.flatMap (fun c => List.replicate c.2 c.1)).count q.1 = q.2 := by
  induction l with
  | nil => cases hq
  | cons p l ih =>
    rw [List.map_cons, List.nodup_cons] at hnd
    rw [List.flatMap_cons, List.count_append, List.count_replicate]
    have hz : ∀ a : α, a ∉ l.map (·.1) → (l.flatMap (fun c => List.replicate c.2 c.1)).count a = 0 := by
      intro a ha
      apply List.count_eq_zero_of_not_mem
      intro hm
      obtain ⟨z, hz, hz2⟩ := List.mem_flatMap.1 hm
      exact ha (List.mem_map.2 ⟨z, hz, (List.eq_of_mem_replicate hz2).symm⟩)
    rcases List.mem_cons.1 hq with rfl | hq'
    · rw [hz _ hnd.1]; simp
    · have hne : p.1 ≠ q.1 := by
        intro e
        exact hnd.1 (List.mem_map.2 ⟨q, hq', e.symm⟩)
      rw [ih hnd.2 hq']
      simp [hne]

variable {K : Type} [Field K] [LinearOrder K] [IsStrictOrderedRing K] [FloorRing K]

theorem centre_inj (n : ℕ) (d : K) (hd : 0 < d) (i j : ℤ) (h : centre n d i = centre n d j) : i = j := by
  unfold centre at h
  have := mul_right_cancel₀ hd.ne' h
  have : i - biasOf n = j - biasOf n := by exact_mod_cast this
  omega

theorem centres_inj (c : FullCfg K) (st : Steps K) (h : 0 < st.x ∧ 0 < st.y ∧ 0 < st.vx ∧ 0 < st.vy ∧ 0 < st.vz) (k l : Cell)
    (e : centres c st k = centres c st l) : k = l := by
  obtain ⟨h1, h2, h3, h4, h5⟩ := h
  have e1 := congrArg Steps.x e
  have e2 := congrArg Steps.y e
  have e3 := congrArg Steps.vx e
  have e4 := congrArg Steps.vy e
  have e5 := congrArg Steps.vz e
  cases k; cases l
  simp only [centres] at e1 e2 e3 e4 e5
  simp only [Cell.mk.injEq]
  exact ⟨centre_inj _ _ h1 _ _ e1, centre_inj _ _ h2 _ _ e2, centre_inj _ _ h3 _ _ e3, centre_inj _ _ h4 _ _ e4, centre_inj _ _ h5 _ _ e5⟩

theorem zip_map_filter {α : Type} (l : List α) (f : α → ℤ) (g : α → K) (i : ℤ) :
    ((((l.map f).zip (l.map g)).filter (fun p => p.1 == i)).map (·.2)).sum = ((l.filter (fun a => decide (f a = i))).map g).sum := by
  induction l with
  | nil => rfl
  | cons a l ih =>
    simp only [List.map_cons, List.zip_cons_cons, List.filter_cons]
    by_cases h : f a = i
    · simp [h, ih]
    · simp [h, ih]

theorem sum_by_label {α β : Type} [DecidableEq α] (l : List β) (lab : β → α) (f : β → K) (cs : List α) (hnd : cs.Nodup)
    (hall : ∀ p ∈ l, lab p ∈ cs) :
    (cs.map (fun k => ((l.filter (fun p => decide (lab p = k))).map f).sum)).sum = (l.map f).sum := by
  induction l with
  | nil => simp
  | cons p l ih =>
    have h1 := ih (fun q hq => hall q (by simp [hq]))
    have hp := hall p (by simp)
    have key : ∀ cs : List α, cs.Nodup →
        (cs.map (fun k => (((p :: l).filter (fun p => decide (lab p = k))).map f).sum)).sum =
        (cs.map (fun k => ((l.filter (fun p => decide (lab p = k))).map f).sum)).sum + (if lab p ∈ cs then f p else 0) := by
      intro cs
      induction cs with
      | nil => simp
      | cons a cs ih2 =>
        intro hn
        rw [List.nodup_cons] at hn
        rw [List.map_cons, List.sum_cons, List.map_cons, List.sum_cons, ih2 hn.2]
        by_cases e : lab p = a
        · subst e
          rw [if_neg hn.1, List.filter_cons_of_pos (by simp)]
          simp; ring
        · rw [List.filter_cons_of_neg (by simpa using e)]
          simp only [List.mem_cons, e, false_or]
          ring
    rw [key cs hnd, if_pos hp, h1, List.map_cons, List.sum_cons, add_comm]

theorem sum_maskSel_map {α : Type} (l : List ℕ) (h : ℕ → α) (g : ℕ → Bool) (f : α → K) :
    ((maskSel (l.map h) (l.map g)).map f).sum = (l.map (fun i => if g i then f (h i) else 0)).sum := by
  induction l with
  | nil => simp [maskSel]
  | cons a l ih =>
    by_cases e : g a
    · simp [maskSel, e, ih]
    · simp [maskSel, e, ih]

/-- the `i`-th macroparticle -/
def MPs.nth (s : MPs K) (i : ℕ) : Particle K := fun f => if s.tracked f then (s.arr f).getD i 0 else -1

/-- the result of a soft regeneration in terms of the survival indicators -/
theorem soft_amount (s : MPs ℝ) (h : s.WF) (hz : s.ZeroTail) (target : ℕ) (ht : target < s.nmp) (u : Fin s.nmp → ℝ)
    (rand : ℕ → ℝ) (hr : ∀ i : Fin s.nmp, rand i = u i) (φ : Particle ℝ → ℝ) (hφ : ∀ p v, φ (p.set .nel v) = φ p) :
    amount φ (s.softRegen target rand).live =
      totalCharge s.live * (∑ i, hit (((s.nmp : ℝ) - target) / s.nmp) (u i) * ((s.nth i) .nel * φ (s.nth i))) /
        (∑ i, hit (((s.nmp : ℝ) - target) / s.nmp) (u i) * (s.nth i) .nel) := by
  have key : ∀ f : Particle ℝ → ℝ, ((maskSel s.live (softMask s target rand)).map f).sum =
      ∑ i : Fin s.nmp, hit (((s.nmp : ℝ) - target) / s.nmp) (u i) * f (s.nth i) := by
    intro f
    have e : s.live = (List.range s.nmp).map s.nth := rfl
    rw [e]
    unfold softMask
    rw [sum_maskSel_map]
    have : ∀ F : ℕ → ℝ, ((List.range s.nmp).map F).sum = ∑ i : Fin s.nmp, F i := by
      intro F
      rw [← Finset.sum_range]
      rfl
    rw [this]
    apply Finset.sum_congr rfl
    intro i _
    rw [hr i]
    unfold hit
    simp only [decide_eq_true_eq]
    split <;> simp
  rw [softRegen_live s h target rand ht]
  unfold amount
  rw [List.map_map]
  have e1 : ((fun p : Particle ℝ => p .nel * φ p) ∘ fun p : Particle ℝ => p.set .nel (p .nel *
      ((s.arr .nel).sum / totalCharge (maskSel s.live (softMask s target rand))))) =
      fun p => (p .nel * φ p) * ((s.arr .nel).sum / totalCharge (maskSel s.live (softMask s target rand))) := by
    funext p
    simp only [Function.comp, hφ]
    simp only [Particle.set, Function.update_self]
    ring
  rw [e1, List.sum_map_mul_right, key, ← charge_live_zeroTail s h hz]
  unfold totalCharge
  rw [key (fun p => p .nel), mul_div_assoc', mul_comm]

end PyECLOUD
