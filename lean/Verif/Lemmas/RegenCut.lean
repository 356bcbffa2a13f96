import Verif.Lemmas.Rebuild
import Verif.Spec.Regen

/-! # Lemmas on the horizontal cut of the full regeneration and on its inputs -/

namespace PyECLOUD

set_option linter.unusedSectionVars false

variable {K : Type} [Field K] [LinearOrder K]

theorem cutX_live (s : MPs K) (h : s.WF) (xm : K) :
    (s.cutX xm).live.map (fun p => p.set .tl 0) =
      (s.live.filter (fun p => decide (|p .x| ≤ xm))).map (fun p => p.set .tl 0) := by
  set k : List Bool := ((s.arr .x).take s.nmp).map (fun v => !decide (xm < |v|)) with hkdef
  have hm : clipMask ((s.arr .x).map (fun v => !decide (xm < |v|))) s.nmp = fullMask s k := by
    simp [clipMask, fullMask, hkdef, MPs.cap, List.map_take]
  have hk : k.length = s.nmp := by
    have := h.fits
    simp [hkdef, MPs.cap] at this ⊢; omega
  have hf : s.live.filter (fun p => decide (|p .x| ≤ xm)) = maskSel s.live k := by
    have : k = s.live.map (fun p => decide (|p .x| ≤ xm)) := by
      rw [hkdef, ← live_col_main s h .x (by decide), List.map_map]
      apply List.map_congr_left
      intro p _
      simp only [Function.comp]
      rw [← decide_not, decide_eq_decide, not_lt]
    rw [this, maskSel_map_self]
  rw [hf, ← compact_live s k h hk]
  unfold MPs.cutX
  rw [hm]
  apply particles_ext
  intro f
  rw [List.map_map, List.map_map]
  have hw1 := compact_wf s k h hk false
  have hw2 := compact_wf s k h hk s.lifetime
  by_cases hfe : f = .tl
  · subst hfe
    have : ((fun p : Particle K => p .tl) ∘ fun p : Particle K => p.set .tl 0) = fun _ => 0 := by
      funext p; simp [Particle.set]
    rw [this, List.map_const', List.map_const', live_length, live_length]
    rfl
  · have : ((fun p : Particle K => p f) ∘ fun p : Particle K => p.set .tl 0) = fun p => p f := by
      funext p; simp [Particle.set, Function.update_of_ne hfe]
    rw [this, live_col_main _ hw1 f hfe, live_col_main _ hw2 f hfe]
    cases f <;> first | rfl | exact absurd rfl hfe

/-- any main attribute of the cut cloud -/
theorem cutX_live_map (s : MPs K) (h : s.WF) (xm : K) {α : Type} (g : Particle K → α)
    (hg : ∀ p : Particle K, g (p.set .tl 0) = g p) :
    (s.cutX xm).live.map g = (s.live.filter (fun p => decide (|p .x| ≤ xm))).map g := by
  have h1 := congrArg (List.map g) (cutX_live s h xm)
  rw [List.map_map, List.map_map] at h1
  have : g ∘ (fun p : Particle K => p.set .tl 0) = g := by funext p; exact hg p
  rwa [this] at h1

theorem xnel_live (s : MPs K) (h : s.WF) :
    ((s.arr .x).zip (s.arr .nel)).take s.nmp = s.live.map (fun p => (p .x, p .nel)) := by
  rw [show ((s.arr .x).zip (s.arr .nel)).take s.nmp = ((s.arr .x).take s.nmp).zip ((s.arr .nel).take s.nmp) from
    List.take_zipWith, ← live_col_main s h .x (by decide), ← live_col_main s h .nel (by decide)]
  induction s.live with
  | nil => rfl
  | cons p l ih => simp [ih]

section Floor

variable [FloorRing K]

/-- the cell of a particle -/
def pCell (c : FullCfg K) (st : Steps K) (p : Particle K) : Cell :=
  cellOf c st (p .x) (p .y) (p .vx) (p .vy) (p .vz)

theorem indexes_live (s : MPs K) (c : FullCfg K) (st : Steps K) :
    s.indexes c st = s.live.map (fun p => encode c (pCell c st p)) := by
  unfold MPs.indexes MPs.live pCell
  rw [List.map_map]
  apply List.map_congr_left
  intro i _
  simp [MPs.tracked]

variable [IsStrictOrderedRing K]

theorem cicWeight_nonneg (n : ℕ) (t : K) (k : ℕ) : 0 ≤ cicWeight n t k := le_max_left _ _

theorem computeHist_take (bias dx : K) (h h' : List K) (ps : List (K × K)) (hw : ∀ p ∈ ps, 0 ≤ p.2)
    (hok : computeHist bias dx h ps = .ok h') (m : ℕ) :
    (h.take m).sum + ((ps.filter (fun p => decide ((p.1 - bias) / dx < (m : K) - 1))).map (·.2)).sum
      ≤ (h'.take m).sum := by
  induction ps generalizing h with
  | nil => simp only [computeHist, Except.ok.injEq] at hok; subst hok; simp
  | cons p ps ih =>
    unfold computeHist at hok
    split at hok
    · simp at hok
    · next h1 e =>
      have a1 := histStep_take bias dx h h1 p.1 p.2 (hw p (by simp)) e m
      have a2 := ih h1 (fun q hq => hw q (by simp [hq])) hok
      by_cases hc : (p.1 - bias) / dx < (m : K) - 1
      · rw [if_pos hc] at a1
        rw [List.filter_cons_of_pos (by simpa using hc), List.map_cons, List.sum_cons]
        linarith
      · rw [if_neg hc] at a1
        rw [List.filter_cons_of_neg (by simpa using hc)]
        linarith

theorem computeHist_drop (bias dx : K) (h h' : List K) (ps : List (K × K)) (hw : ∀ p ∈ ps, 0 ≤ p.2)
    (hok : computeHist bias dx h ps = .ok h') (m : ℕ) (hm : m < h.length) :
    (h.drop m).sum + ((ps.filter (fun p => decide ((m : K) ≤ (p.1 - bias) / dx))).map (·.2)).sum
      ≤ (h'.drop m).sum := by
  induction ps generalizing h with
  | nil => simp only [computeHist, Except.ok.injEq] at hok; subst hok; simp
  | cons p ps ih =>
    unfold computeHist at hok
    split at hok
    · simp at hok
    · next h1 e =>
      have a1 := histStep_drop bias dx h h1 p.1 p.2 (hw p (by simp)) e m hm
      have a2 := ih h1 (fun q hq => hw q (by simp [hq])) hok (by rw [histStep_length _ _ _ _ _ _ e]; exact hm)
      by_cases hc : (m : K) ≤ (p.1 - bias) / dx
      · rw [if_pos hc] at a1
        rw [List.filter_cons_of_pos (by simpa using hc), List.map_cons, List.sum_cons]
        linarith
      · rw [if_neg hc] at a1
        rw [List.filter_cons_of_neg (by simpa using hc)]
        linarith

theorem computeHist_nonneg (bias dx : K) (h h' : List K) (ps : List (K × K)) (hw : ∀ p ∈ ps, 0 ≤ p.2)
    (h0 : ∀ v ∈ h, 0 ≤ v) (hok : computeHist bias dx h ps = .ok h') : ∀ v ∈ h', 0 ≤ v := by
  intro v hv
  obtain ⟨k, hk, rfl⟩ := List.getElem_of_mem hv
  have hk' : k < h.length := by rw [← computeHist_length _ _ _ _ _ hok]; exact hk
  have := computeHist_getD bias dx h h' ps hok k hk'
  rw [List.getD_eq_getElem?_getD, List.getElem?_eq_getElem hk, List.getD_eq_getElem?_getD,
    List.getElem?_eq_getElem hk'] at this
  simp only [Option.getD_some] at this
  rw [this]
  apply add_nonneg (h0 _ (List.getElem_mem hk'))
  apply List.sum_nonneg
  intro x hx
  obtain ⟨p, hp, rfl⟩ := List.mem_map.1 hx
  exact mul_nonneg (hw p hp) (cicWeight_nonneg _ _ _)

/-- at half of the histogram everything has been counted at least once -/
theorem cutAway_half (h : List K) (h0 : ∀ v ∈ h, 0 ≤ v) : h.sum ≤ cutAway h ((h.length + 1) / 2) := by
  unfold cutAway
  set i := (h.length + 1) / 2 with hi
  have h1 := take_drop_sum h i
  have h2 : (h.drop i).sum ≤ (h.drop (h.length - i)).sum := by
    have e : h.drop i = (h.drop (h.length - i)).drop (i - (h.length - i)) := by
      rw [List.drop_drop]; congr 1; omega
    have := take_drop_sum (h.drop (h.length - i)) (i - (h.length - i))
    rw [e, ← this]
    have : 0 ≤ ((h.drop (h.length - i)).take (i - (h.length - i))).sum :=
      List.sum_nonneg (fun v hv => h0 v (List.mem_of_mem_drop (List.mem_of_mem_take hv)))
    linarith
  linarith

theorem maxAbs_pos (a : List K) : 0 < maxAbs a := by
  unfold maxAbs
  simp only
  have h0 : ∀ a : List K, 0 ≤ a.foldr (fun v m => max |v| m) 0 := by
    intro a
    induction a with
    | nil => simp
    | cons v a ih => exact le_max_of_le_right ih
  split
  · norm_num
  · next h => exact lt_of_le_of_ne (h0 a) (Ne.symm h)

theorem le_maxAbs (a : List K) (v : K) (hv : v ∈ a) : |v| ≤ maxAbs a := by
  have h1 : |v| ≤ a.foldr (fun v m => max |v| m) 0 := by
    induction a with
    | nil => simp at hv
    | cons w a ih =>
      rcases List.mem_cons.1 hv with rfl | h
      · exact le_max_left _ _
      · exact le_max_of_le_right (ih h)
  unfold maxAbs
  simp only
  split
  · next h =>
    rw [h] at h1
    exact h1.trans (by norm_num)
  · exact h1

theorem maxAbs_attained (a : List K) : maxAbs a = 1 / 100000 ∨ ∃ v ∈ a, maxAbs a = |v| := by
  have h0 : ∀ a : List K, a.foldr (fun v m => max |v| m) 0 = 0 ∨
      ∃ v ∈ a, a.foldr (fun v m => max |v| m) 0 = |v| := by
    intro a
    induction a with
    | nil => left; rfl
    | cons v a ih =>
      right
      simp only [List.foldr_cons]
      rcases le_total |v| (a.foldr (fun v m => max |v| m) 0) with h | h
      · rw [max_eq_right h]
        rcases ih with ih | ⟨w, hw, ih⟩
        · have : |v| = 0 := le_antisymm (by rw [← ih]; exact h) (abs_nonneg v)
          exact ⟨v, by simp, by rw [ih, this]⟩
        · exact ⟨w, by simp [hw], ih⟩
      · exact ⟨v, by simp, max_eq_left h⟩
  unfold maxAbs
  simp only
  split
  · left; rfl
  · next h =>
    right
    exact (h0 a).resolve_left h

theorem maskSel_subset {α : Type} (l : List α) (m : List Bool) : ∀ v ∈ maskSel l m, v ∈ l :=
  fun _ hv => (maskSel_sublist l m).subset hv

theorem cutX_arr_subset (s : MPs K) (xm : K) (f : Fld) (hf : f ≠ .nel) : ∀ v ∈ (s.cutX xm).arr f, v ∈ s.arr f := by
  have key : ∀ (l : List K) (m : List Bool), ∀ v ∈ setPrefix l (maskSel l m), v ∈ l := by
    intro l m v hv
    unfold setPrefix at hv
    rcases List.mem_append.1 hv with h | h
    · exact maskSel_subset _ _ v h
    · exact List.mem_of_mem_drop h
  intro v hv
  cases f <;> simp only [MPs.cutX, MPs.compact] at hv
  case nel => exact absurd rfl hf
  case tl => simpa using hv
  all_goals exact key _ _ v hv

theorem gridSteps_cutX (c : FullCfg K) (s : MPs K) (h : s.WF) (xm : K) :
    GridSteps c s xm (s.live.filter (fun p => decide (|p .x| ≤ xm))) (stepsOf c (s.cutX xm) xm) := by
  have hw := (cutX_wf s h xm).1
  have vel : ∀ f n, f ≠ .tl → f ≠ .nel →
      VelStep s f (s.live.filter (fun p => decide (|p .x| ≤ xm))) n (stepOf (maxAbs ((s.cutX xm).arr f)) n) := by
    intro f n hf hf2
    refine ⟨maxAbs ((s.cutX xm).arr f), maxAbs_pos _, rfl, ?_, ?_⟩
    · intro p hp
      apply le_maxAbs
      have e := cutX_live_map s h xm (fun p => p f) (by intro p; simp [Particle.set, Function.update_of_ne hf])
      have : p f ∈ (s.cutX xm).live.map (fun p => p f) := by rw [e]; exact List.mem_map.2 ⟨p, hp, rfl⟩
      rw [live_col_main _ hw f hf] at this
      exact List.mem_of_mem_take this
    · rcases maxAbs_attained ((s.cutX xm).arr f) with e | ⟨v, hv, e⟩
      · exact Or.inl e
      · exact Or.inr ⟨v, cutX_arr_subset s xm f hf2 v hv, e⟩
  exact ⟨rfl, rfl, vel .vx _ (by decide) (by decide), vel .vy _ (by decide) (by decide),
    vel .vz _ (by decide) (by decide)⟩

theorem stepOf_pos (m : K) (n : ℕ) (hm : 0 < m) (hn : 2 ≤ n) : 0 < stepOf m n := by
  have : (2 : K) ≤ (n : K) := by exact_mod_cast hn
  unfold stepOf
  apply div_pos <;> linarith

/-- sum of stochastic roundings -/
theorem counts_close (dens : List K) (ref : K) (hr : 0 < ref) (hd : ∀ w ∈ dens, 0 ≤ w) (u : ℕ → K)
    (hu : ∀ i, 0 ≤ u i) :
    |ref * ((cellCounts dens ref u).sum : K) - dens.sum| ≤ ref * (dens.length : K) ∧
    (dens ≠ [] → |ref * ((cellCounts dens ref u).sum : K) - dens.sum| < ref * (dens.length : K)) := by
  have one : ∀ w : K, 0 ≤ w → ∀ v : K, 0 ≤ v → |ref * ((stochRound (w / ref) v).toNat : K) - w| < ref := by
    intro w hw v hv
    have hq : 0 ≤ w / ref := div_nonneg hw hr.le
    have hfl : 0 ≤ ⌊w / ref⌋ := Int.floor_nonneg.2 hq
    have hst : 0 ≤ stochRound (w / ref) v := by
      rcases stochRound_cases (w / ref) v with e | e <;> omega
    have e0 : ((stochRound (w / ref) v).toNat : K) = ((stochRound (w / ref) v : ℤ) : K) := by
      rw [← Int.cast_natCast, Int.toNat_of_nonneg hst]
    have h1 := Int.floor_le (w / ref)
    have h2 := Int.lt_floor_add_one (w / ref)
    have h3 : |((stochRound (w / ref) v : ℤ) : K) - w / ref| < 1 := by
      unfold stochRound at hst ⊢
      split
      · next hlt =>
        push_cast; rw [abs_lt]
        constructor <;> linarith
      · push_cast; rw [abs_lt]; constructor <;> linarith
    rw [e0, show ref * ((stochRound (w / ref) v : ℤ) : K) - w
      = (((stochRound (w / ref) v : ℤ) : K) - w / ref) * ref by field_simp, abs_mul, abs_of_pos hr]
    nlinarith
  have main : ∀ (dens : List K) (u : ℕ → K), (∀ i, 0 ≤ u i) → (∀ w ∈ dens, 0 ≤ w) →
      |ref * ((cellCounts dens ref u).sum : K) - dens.sum| ≤ ref * (dens.length : K) ∧
      (dens ≠ [] → |ref * ((cellCounts dens ref u).sum : K) - dens.sum| < ref * (dens.length : K)) := by
    intro dens
    induction dens with
    | nil => intro u _ _; simp [cellCounts]
    | cons w dens ih =>
      intro u hu hd
      have h1 := one w (hd w (by simp)) (u 0) (hu 0)
      have h2 := (ih (fun i => u (i + 1)) (fun i => hu _) (fun w hw => hd w (by simp [hw]))).1
      have hlt : |ref * ((cellCounts (w :: dens) ref u).sum : K) - (w :: dens).sum|
          < ref * ((w :: dens).length : K) := by
        have e : (cellCounts (w :: dens) ref u).sum = (stochRound (w / ref) (u 0)).toNat +
            (cellCounts dens ref (fun i => u (i + 1))).sum := by
          simp [cellCounts, List.mapIdx_cons]
        rw [e, List.sum_cons, List.length_cons]
        push_cast
        have e2 : ref * ((((stochRound (w / ref) (u 0)).toNat : K)) +
            ((cellCounts dens ref (fun i => u (i + 1))).sum : K)) - (w + dens.sum)
            = (ref * ((stochRound (w / ref) (u 0)).toNat : K) - w) +
              (ref * ((cellCounts dens ref (fun i => u (i + 1))).sum : K) - dens.sum) := by ring
        rw [e2]
        have := abs_add_le (ref * ((stochRound (w / ref) (u 0)).toNat : K) - w)
          (ref * ((cellCounts dens ref (fun i => u (i + 1))).sum : K) - dens.sum)
        linarith
      exact ⟨hlt.le, fun _ => hlt⟩
  exact main dens u hu hd

end Floor

end PyECLOUD
