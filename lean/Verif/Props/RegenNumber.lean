import Verif.Lemmas.DrawVariance
import Verif.Props.Unbiased
import Verif.Props.RegenOk

/-! # Regenerations bring the number of macroparticles to the target (C170) -/

set_option linter.unusedSectionVars false

namespace PyECLOUD

open MeasureTheory

theorem hit_sq (q x : ℝ) : hit q x ^ 2 = hit q x := by
  unfold hit; split <;> simp

theorem soft_count (s : MPs ℝ) (h : s.WF) (target : ℕ) (ht : target < s.nmp) (u : Fin s.nmp → ℝ)
    (rand : ℕ → ℝ) (hr : ∀ i : Fin s.nmp, rand i = u i) :
    ((s.softRegen target rand).nmp : ℝ) = ∑ i, hit (((s.nmp : ℝ) - target) / s.nmp) (u i) := by
  have e0 : (s.softRegen target rand).nmp = (s.softRegen target rand).live.length := by simp [MPs.live]
  rw [e0, softRegen_live s h target rand ht, List.length_map]
  have e1 : ∀ l : List (Particle ℝ), ((l.length : ℕ) : ℝ) = (l.map (fun _ => (1 : ℝ))).sum := by
    intro l; simp
  rw [e1]
  have e : s.live = (List.range s.nmp).map s.nth := rfl
  rw [e]
  unfold softMask
  rw [sum_maskSel_map]
  have : ∀ F : ℕ → ℝ, ((List.range s.nmp).map F).sum = ∑ i : Fin s.nmp, F i := by
    intro F
    rw [← Finset.sum_range]
    rfl
  rw [this]
  apply Finset.sum_congr rfl
  intro i _
  rw [hr i]
  unfold hit
  simp only [decide_eq_true_eq]

/-- **C170 (soft regeneration).** A soft regeneration of a cloud with more macroparticles than the target leaves, on
average over its random numbers, exactly the target number; the mean square deviation from it is
`target * (N - target) / N`, so that a deviation by `k` or more has at most the probability `target / k²`. -/
theorem C170_soft (s : MPs ℝ) (h : s.WF) (target : ℕ) (ht : target < s.nmp)
    (rand : (Fin s.nmp → ℝ) → ℕ → ℝ) (hr : ∀ u (i : Fin s.nmp), rand u i = u i) :
    ∫ u, ((s.softRegen target (rand u)).nmp : ℝ) ∂(uniformDraws s.nmp) = target ∧
    ∫ u, (((s.softRegen target (rand u)).nmp : ℝ) - target) ^ 2 ∂(uniformDraws s.nmp) = target * (s.nmp - target) / s.nmp ∧
    ∀ k : ℝ, 0 < k → uniformDraws s.nmp {u | k ≤ |((s.softRegen target (rand u)).nmp : ℝ) - target|} ≤ ENNReal.ofReal (target / k ^ 2) := by
  set q := ((s.nmp : ℝ) - target) / s.nmp with hq
  have hn : (0 : ℝ) < s.nmp := by
    have : 0 < s.nmp := by omega
    exact_mod_cast this
  have htn : (target : ℝ) ≤ s.nmp := by exact_mod_cast ht.le
  have ht0 : (0 : ℝ) ≤ target := Nat.cast_nonneg _
  have hq0 : 0 ≤ q := div_nonneg (by linarith) hn.le
  have hq1 : q ≤ 1 := by
    rw [hq, div_le_one hn]
    linarith
  obtain ⟨-, d2, d3, d4⟩ := draws_sum s.nmp (fun _ => hit q) 0 1 (fun _ => hit_meas q) (fun _ x => ⟨(hit_bd q x).1, (hit_bd q x).2⟩)
  have hmean : ∑ _i : Fin s.nmp, ∫ x, hit q x ∂unitM = target := by
    simp only [hit_mean q hq0 hq1, Finset.sum_const, Finset.card_univ, Fintype.card_fin, nsmul_eq_mul]
    rw [hq]
    field_simp
    ring
  have hvar : ∑ _i : Fin s.nmp, (∫ x, hit q x ^ 2 ∂unitM - (∫ x, hit q x ∂unitM) ^ 2) = target * (s.nmp - target) / s.nmp := by
    simp only [hit_sq, hit_mean q hq0 hq1, Finset.sum_const, Finset.card_univ, Fintype.card_fin, nsmul_eq_mul]
    rw [hq]
    field_simp
    ring
  simp only [hmean, hvar] at d2 d3 d4
  have e : ∀ u, ((s.softRegen target (rand u)).nmp : ℝ) = ∑ i, hit q (u i) := fun u => soft_count s h target ht u (rand u) (hr u)
  simp only [e]
  refine ⟨d2, d3, fun k hk => (d4 k hk).trans (ENNReal.ofReal_le_ofReal ?_)⟩
  have hk2 : 0 < k ^ 2 := by positivity
  rw [div_le_div_iff_of_pos_right hk2, div_le_iff₀ hn]
  nlinarith

theorem round_bd (x u : ℝ) : ((stochRound x u : ℤ) : ℝ) ∈ Set.Icc ((⌊x⌋ : ℤ) : ℝ) ((⌊x⌋ : ℤ) + 1) := by
  unfold stochRound
  split <;> simp

theorem round_meas (x : ℝ) : Measurable (fun u => ((stochRound x u : ℤ) : ℝ)) := by
  have e : (fun u => ((stochRound x u : ℤ) : ℝ)) = fun u => (⌊x⌋ : ℝ) + (if u < x - (⌊x⌋ : ℝ) then 1 else 0) := by
    funext u; unfold stochRound; split <;> simp
  rw [e]
  exact measurable_const.add (Measurable.ite measurableSet_Iio measurable_const measurable_const)

theorem round_var (x : ℝ) : ∫ u, ((stochRound x u : ℤ) : ℝ) ^ 2 ∂unitM - (∫ u, ((stochRound x u : ℤ) : ℝ) ∂unitM) ^ 2 ≤ 1 / 4 := by
  have hL : MemLp (fun u => ((stochRound x u : ℤ) : ℝ)) 2 unitM :=
    memLp_of_bounded (Filter.Eventually.of_forall (round_bd x)) (round_meas x).aestronglyMeasurable 2
  have h := ProbabilityTheory.variance_le_sq_of_bounded (μ := unitM) (Filter.Eventually.of_forall (round_bd x)) (round_meas x).aemeasurable
  rw [ProbabilityTheory.variance_eq_sub hL] at h
  simp only [Pi.pow_apply] at h
  have e : ((((⌊x⌋ : ℤ) : ℝ) + 1 - ((⌊x⌋ : ℤ) : ℝ)) / 2) ^ 2 = 1 / 4 := by ring
  rwa [e] at h

/-- mean and spread of a sum of stochastic roundings -/
theorem rounds_stats (n : ℕ) (w : Fin n → ℝ) (hw : ∀ i, 0 ≤ w i) :
    ∫ u, ∑ i, ((stochRound (w i) (u i) : ℤ) : ℝ) ∂(uniformDraws n) = ∑ i, w i ∧
    ∫ u, (∑ i, ((stochRound (w i) (u i) : ℤ) : ℝ) - ∑ i, w i) ^ 2 ∂(uniformDraws n) ≤ n / 4 ∧
    ∀ k : ℝ, 0 < k → uniformDraws n {u | k ≤ |∑ i, ((stochRound (w i) (u i) : ℤ) : ℝ) - ∑ i, w i|} ≤ ENNReal.ofReal (n / 4 / k ^ 2) := by
  have hfl : ∀ i, (0 : ℝ) ≤ ((⌊w i⌋ : ℤ) : ℝ) := fun i => by exact_mod_cast Int.floor_nonneg.2 (hw i)
  have hB : ∀ (i : Fin n) (x : ℝ), ((stochRound (w i) x : ℤ) : ℝ) ∈ Set.Icc 0 (∑ i, (((⌊w i⌋ : ℤ) : ℝ) + 1)) := by
    intro i x
    have hb := round_bd (w i) x
    refine ⟨(hfl i).trans hb.1, hb.2.trans ?_⟩
    exact Finset.single_le_sum (f := fun i => (((⌊w i⌋ : ℤ) : ℝ) + 1)) (fun j _ => by have := hfl j; linarith) (Finset.mem_univ i)
  obtain ⟨-, d2, d3, d4⟩ := draws_sum n (fun i x => ((stochRound (w i) x : ℤ) : ℝ)) 0 _ (fun i => round_meas _) hB
  have hmean : ∑ i, ∫ x, ((stochRound (w i) x : ℤ) : ℝ) ∂unitM = ∑ i, w i := by
    simp only [unit_interval, C67_rounding_unbiased]
  rw [hmean] at d2 d3 d4
  have hvar : ∑ i, (∫ x, ((stochRound (w i) x : ℤ) : ℝ) ^ 2 ∂unitM - (∫ x, ((stochRound (w i) x : ℤ) : ℝ) ∂unitM) ^ 2) ≤ (n : ℝ) / 4 := by
    refine (Finset.sum_le_sum (fun i _ => round_var _)).trans (le_of_eq ?_)
    simp [div_eq_mul_inv]
  refine ⟨d2, d3.trans_le hvar, fun k hk => (d4 k hk).trans (ENNReal.ofReal_le_ofReal ?_)⟩
  exact div_le_div_of_nonneg_right hvar (by positivity)

theorem list_sum_fin {α : Type} (l : List α) (F : α → ℝ) : (l.map F).sum = ∑ i : Fin l.length, F l[(i : ℕ)] := by
  rw [← List.sum_ofFn]
  congr 1
  apply List.ext_getElem
  · simp
  · intro i h1 h2
    simp

theorem charge_cut (l : List (Particle ℝ)) (xm : ℝ) :
    totalCharge (l.filter (fun p => decide (|p .x| ≤ xm))) + totalCharge (l.filter (fun p => decide (xm < |p .x|))) = totalCharge l := by
  induction l with
  | nil => simp [totalCharge]
  | cons p l ih =>
    by_cases hx : |p .x| ≤ xm
    · rw [List.filter_cons_of_pos (by simpa using hx), List.filter_cons_of_neg (by simpa using hx)]
      simp only [totalCharge, List.map_cons, List.sum_cons] at ih ⊢
      linarith
    · rw [List.filter_cons_of_neg (by simpa using hx), List.filter_cons_of_pos (by simpa using hx)]
      simp only [totalCharge, List.map_cons, List.sum_cons] at ih ⊢
      linarith

/-- the mean number against the number asked for -/
theorem mean_range (ref0 Q A cut kept dropped : ℝ) (h0 : 0 < ref0) (hA : 0 < A) (hc : 0 ≤ cut) (hk : kept + dropped = Q) (hd : 0 ≤ dropped)
    (hQ : 0 ≤ Q) (hdrop : dropped = 0 ∨ dropped < cut * Q) :
    kept / max ref0 (Q / A) ≤ A ∧ (ref0 < Q / A → (1 - cut) * A ≤ kept / max ref0 (Q / A)) := by
  have hrp : 0 < max ref0 (Q / A) := lt_max_of_lt_left h0
  constructor
  · rw [div_le_iff₀ hrp]
    have : Q / A ≤ max ref0 (Q / A) := le_max_right _ _
    rw [div_le_iff₀ hA] at this
    nlinarith
  · intro hlt
    have hr : max ref0 (Q / A) = Q / A := max_eq_right hlt.le
    rw [le_div_iff₀ hrp, hr]
    have e : (1 - cut) * A * (Q / A) = (1 - cut) * Q := by field_simp
    rw [e]
    rcases hdrop with h | h
    · nlinarith
    · linarith

theorem cellCounts_sum (dens : List ℝ) (r : ℝ) (v : ℕ → ℝ) : (((cellCounts dens r v).sum : ℕ) : ℝ) =
    ∑ i : Fin dens.length, (((stochRound (dens[(i : ℕ)] / r) (v i)).toNat : ℕ) : ℝ) := by
  rw [← Nat.cast_sum, ← List.sum_ofFn]
  congr 2
  unfold cellCounts
  apply List.ext_getElem
  · simp
  · intro i h1 h2
    simp

/-- what a full regeneration makes: one stochastic rounding per occupied cell -/
theorem regen_counts {K : Type} [Field K] [LinearOrder K] [IsStrictOrderedRing K] [FloorRing K] (c : FullCfg K) (s : MPs K)
    (hs : RegenSetup c s) (ht : c.trigger s = true) (fuel : ℕ) (hf : c.histN ≤ fuel) :
    ∃ (xm : K) (st : Steps K) (kept : List (Particle K)) (dens : List K),
      kept = s.live.filter (fun p => decide (|p .x| ≤ xm)) ∧
      (s.live.filter (fun p => decide (xm < |p .x|)) = [] ∨
        totalCharge (s.live.filter (fun p => decide (xm < |p .x|))) < c.histCut * totalCharge s.live) ∧
      GridSteps c s xm kept st ∧ dens.length ≤ (kept.map (pointCell c st)).dedup.length ∧ dens.sum = totalCharge kept ∧ (∀ w ∈ dens, 0 ≤ w) ∧
      ∀ (d : FullDraws K) (s' : MPs K), s.checkRegen c fuel d = .ok s' →
        s'.nmp = (cellCounts dens (max s.ref0 ((s.arr .nel).sum / c.nAfter)) d.rest).sum := by
  obtain ⟨xm, s1, ⟨h1, h1'⟩, h2, h3, h4, h5, hgs, h6, hdrop⟩ := C14_cut_terminates_small c s hs ht fuel hf
  set kept := s.live.filter (fun p => decide (|p .x| ≤ xm)) with hkept
  have hmap : ∀ {α : Type} (g : Particle K → α), (∀ p : Particle K, g (p.set .tl 0) = g p) →
      s1.live.map g = kept.map g := by
    intro α g hg
    have e := congrArg (List.map g) h6
    rw [List.map_map, List.map_map] at e
    have : g ∘ (fun p : Particle K => p.set .tl 0) = g := by funext p; exact hg p
    rwa [this] at e
  have hnel : s1.live.map (fun p => p .nel) = kept.map (fun p => p .nel) := hmap _ (by intro p; simp [Particle.set])
  refine ⟨xm, stepsOf c s1 xm, kept, s1.occDens c xm, rfl, hdrop, hgs, ?_, ?_, ?_, ?_⟩
  · have hcell : s1.live.map (pCell c (stepsOf c s1 xm)) = kept.map (pCell c (stepsOf c s1 xm)) :=
      hmap _ (by intro p; simp [pCell, Particle.set])
    have hlen1 : (s1.occDens c xm).length = (s1.occCells c xm).length := by simp [MPs.occDens]
    rw [hlen1]
    have e : s1.indexes c (stepsOf c s1 xm) = (kept.map (pCell c (stepsOf c s1 xm))).map (encode c) := by
      rw [indexes_live, ← hcell, List.map_map]; rfl
    have hnd := occupied_nodup (s1.indexes c (stepsOf c s1 xm))
    have hsub : ∀ i ∈ s1.occCells c xm, i ∈ (kept.map (pCell c (stepsOf c s1 xm))).dedup.map (encode c) := by
      intro i hi
      unfold MPs.occCells at hi
      rw [mem_occupied, e] at hi
      obtain ⟨k, hk, rfl⟩ := List.mem_map.1 hi
      exact List.mem_map.2 ⟨k, List.mem_dedup.2 hk, rfl⟩
    have := (List.subperm_of_subset hnd hsub).length_le
    rwa [List.length_map] at this
  · unfold MPs.occDens MPs.occCells
    have hl : (s1.indexes c (stepsOf c s1 xm)).length = s1.nmp := by simp [MPs.indexes]
    rw [occupied_dens_sum _ _ (by rw [hl, h2.len]; exact h2.fits), hl, ← live_col_main s1 h2 .nel (by decide), hnel]
    rfl
  · intro w hw
    unfold MPs.occDens at hw
    obtain ⟨i, -, rfl⟩ := List.mem_map.1 hw
    rw [cellDens_eq]
    apply List.sum_nonneg
    intro v hv
    obtain ⟨q, hq, rfl⟩ := List.mem_map.1 hv
    have hq1 := (List.mem_filter.1 hq).1
    have : q.2 ∈ (s1.arr .nel).take s1.nmp := by
      have hl : (s1.indexes c (stepsOf c s1 xm)).length = s1.nmp := by simp [MPs.indexes]
      obtain ⟨j, hj, hje⟩ := List.getElem_of_mem hq1
      rw [List.length_zip, hl] at hj
      rw [List.getElem_zip] at hje
      rw [← hje]
      exact List.mem_take_iff_getElem.2 ⟨j, by omega, rfl⟩
    rw [← live_col_main s1 h2 .nel (by decide), hnel] at this
    obtain ⟨p, hp, e⟩ := List.mem_map.1 this
    rw [← e]
    exact hs.size p (List.mem_filter.1 hp).1
  · intro d s' hok
    rw [h5] at hok
    rw [rebuild_nmp s1 s' c xm d hok, ← h4]
    rfl

/-- **C170 (full regeneration).** The macroparticles made by a full regeneration have the size
`r = max(ref_0, charge/N_mp_after_regen)`.  On average over the rounding random numbers (at most one per occupied cell
of the grid), whatever the random numbers that place them, their number is the charge kept divided by `r`; this is at
most the number asked for, and if the size is above the initial one it is also at least the fraction `1 - cut` of the
number asked for.  The mean square deviation is at most a quarter of the number of occupied cells, and a deviation by
`k` or more has at most the probability `cells / (4 k²)`. -/
theorem C170_full (c : FullCfg ℝ) (s : MPs ℝ) (hs : RegenSetup c s) (hz : s.ZeroTail) (ht : c.trigger s = true) (hA : 0 < c.nAfter)
    (fuel : ℕ) (hf : c.histN ≤ fuel) :
    ∃ (xMax : ℝ) (st : Steps ℝ) (kept : List (Particle ℝ)) (n : ℕ) (mean : ℝ),
      kept = s.live.filter (fun p => decide (|p .x| ≤ xMax)) ∧ GridSteps c s xMax kept st ∧
      n ≤ (kept.map (pointCell c st)).dedup.length ∧
      mean = totalCharge kept / max s.ref0 (totalCharge s.live / c.nAfter) ∧ mean ≤ c.nAfter ∧
      (s.ref0 < totalCharge s.live / c.nAfter → (1 - c.histCut) * c.nAfter ≤ mean) ∧
      ∀ (d : (Fin n → ℝ) → FullDraws ℝ) (run : (Fin n → ℝ) → MPs ℝ),
        (∀ u (i : Fin n), (d u).rest i = u i) →
        (∀ u, (∀ i, u i ∈ Set.Icc (0 : ℝ) 1) → s.checkRegen c fuel (d u) = .ok (run u)) →
        ∫ u, ((run u).nmp : ℝ) ∂(uniformDraws n) = mean ∧
        ∫ u, (((run u).nmp : ℝ) - mean) ^ 2 ∂(uniformDraws n) ≤ n / 4 ∧
        ∀ k : ℝ, 0 < k → uniformDraws n {u | k ≤ |((run u).nmp : ℝ) - mean|} ≤ ENNReal.ofReal (n / 4 / k ^ 2) := by
  obtain ⟨xm, st, kept, dens, h2, hdrop, h3, hn, hsum, hnn, h6⟩ := regen_counts c s hs ht fuel hf
  rw [← charge_live_zeroTail s hs.wf hz] at h6
  set Q := totalCharge s.live with hQ
  set r := max s.ref0 (Q / c.nAfter) with hrdef
  have hrp : 0 < r := lt_max_of_lt_left hs.ref
  have hAr : (0 : ℝ) < c.nAfter := by exact_mod_cast hA
  have hsplit : totalCharge kept + totalCharge (s.live.filter (fun p => decide (xm < |p .x|))) = Q := by
    rw [h2]
    exact charge_cut _ _
  have hpos : ∀ l : List (Particle ℝ), (∀ p ∈ l, 0 ≤ p .nel) → 0 ≤ totalCharge l := by
    intro l h
    unfold totalCharge
    apply List.sum_nonneg
    intro v hv
    obtain ⟨p, hp, rfl⟩ := List.mem_map.1 hv
    exact h p hp
  have hdn : 0 ≤ totalCharge (s.live.filter (fun p => decide (xm < |p .x|))) := hpos _ (fun p hp => hs.size p (List.mem_filter.1 hp).1)
  have hQ0 : 0 ≤ Q := hpos _ hs.size
  have hdr : totalCharge (s.live.filter (fun p => decide (xm < |p .x|))) = 0 ∨
      totalCharge (s.live.filter (fun p => decide (xm < |p .x|))) < c.histCut * Q := by
    rcases hdrop with h | h
    · left; rw [h]; rfl
    · right; exact h
  obtain ⟨m1, m2⟩ := mean_range s.ref0 Q c.nAfter c.histCut _ _ hs.ref hAr hs.cut0 hsplit hdn hQ0 hdr
  refine ⟨xm, st, kept, dens.length, totalCharge kept / r, h2, h3, hn, rfl, m1, m2, ?_⟩
  intro d run hd hok
  set w : Fin dens.length → ℝ := fun i => dens[(i : ℕ)] / r with hw
  have hw0 : ∀ i, 0 ≤ w i := fun i => div_nonneg (hnn _ (List.getElem_mem _)) hrp.le
  have hcount : ∀ u, (∀ i, u i ∈ Set.Icc (0 : ℝ) 1) → ((run u).nmp : ℝ) = ∑ i, ((stochRound (w i) (u i) : ℤ) : ℝ) := by
    intro u hc
    rw [h6 (d u) (run u) (hok u hc), cellCounts_sum]
    apply Finset.sum_congr rfl
    intro i _
    rw [hd u i, stochRound_toNat _ (hw0 i)]
  have hmean : ∑ i, w i = totalCharge kept / r := by
    rw [hw, ← Finset.sum_div, ← list_sum_fin dens (fun v => v), ← hsum]
    simp
  have hae := uniformDraws_cube dens.length
  obtain ⟨d2, d3, d4⟩ := rounds_stats dens.length w hw0
  rw [hmean] at d2 d3 d4
  clear_value w
  refine ⟨?_, ?_, ?_⟩
  · rw [← d2]
    apply integral_congr_ae
    filter_upwards [hae] with u hc
    exact hcount u hc
  · refine (le_of_eq ?_).trans d3
    apply integral_congr_ae
    filter_upwards [hae] with u hc
    simp only [hcount u hc]
  · intro k hk
    refine le_trans (measure_mono_ae ?_) (d4 k hk)
    filter_upwards [hae] with u hc
    intro h
    change k ≤ _ at h
    rw [hcount u hc] at h
    exact h

/-- a cloud of three macroparticles that is to be regenerated to two: on average the number is at most two -/
example : ∃ (n : ℕ) (run : (Fin n → ℝ) → MPs ℝ), ∫ u, ((run u).nmp : ℝ) ∂(uniformDraws n) ≤ 2 := by
  obtain ⟨h1, h2, h3, -, -⟩ := realCloud_runs
  obtain ⟨xm, st, kept, n, mean, -, -, -, -, hle, -, h⟩ := C170_full realCfg realCloud h1 h2 h3 (by decide) 13 (le_refl 13)
  obtain ⟨d, run, a1, -, a3⟩ := realCloud_draws n
  have e : ((realCfg.nAfter : ℕ) : ℝ) = 2 := by norm_num [realCfg]
  rw [e] at hle
  exact ⟨n, run, by rw [(h d run a1 a3).1]; exact hle⟩

/-- two macroparticles and a target of one -/
example : twoEqual.WF ∧ 1 < twoEqual.nmp := ⟨⟨by intro f; cases f <;> rfl, le_refl 2⟩, by decide⟩

end PyECLOUD
