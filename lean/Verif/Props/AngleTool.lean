import Verif.Spec.AngleTool
import Verif.Lemmas.AngleTool
import Verif.Props.Resample
import Mathlib.MeasureTheory.Measure.Lebesgue.Basic
import Mathlib.Tactic.NormNum

/-!
# C176: photons follow the measured distribution of angles
-/

namespace PyECLOUD

variable {K : Type} [Field K] [LinearOrder K] [IsStrictOrderedRing K]

theorem areaTo_mono (h : K) (D : ℕ → K) (hh : 0 ≤ h) (hD : ∀ i, 0 ≤ D i) {i j : ℕ} (hij : i ≤ j) : areaTo h D i ≤ areaTo h D j :=
  Finset.sum_le_sum_of_subset_of_nonneg (Finset.range_mono hij) fun k _ _ => mul_nonneg hh (div_nonneg (add_nonneg (hD k) (hD (k + 1))) zero_le_two)

/-- **C176.** Let the density of the photon angles be measured at increasing angles, nowhere negative and not zero everywhere. The script makes
a table, and the angle that the simulation reads from it for a random number `x` follows the measured distribution up to one step of the
table: it is at most the angle number `j` only if `x` is at most the fraction of the photons up to this angle plus a step, and always if
`x` is less than this fraction minus a step. -/
theorem C176_angles (theta distr : List K) (lo hi : K) (n nu : ℕ) (hn : 2 ≤ n) (hnu : 2 ≤ nu) (hlh : lo < hi)
    (hsort : theta.Pairwise (· < ·)) (hlen : theta.length = distr.length) (hpos : ∀ d ∈ distr, 0 ≤ d) (D : ℕ → K)
    (hD : ∀ i : ℕ, npInterp (theta.zip distr) (lo + (i : K) * ((hi - lo) / ((n : K) - 1))) = .ok (D i))
    (htot : 0 < areaTo ((hi - lo) / ((n : K) - 1)) D (n - 1)) :
    ∃ t, angleTable theta distr lo hi n nu = .ok t ∧ ∀ x, 0 ≤ x → x ≤ 1 → ∃ th, npInterp t x = .ok th ∧ ∀ j < n,
      (th ≤ lo + (j : K) * ((hi - lo) / ((n : K) - 1)) →
        x ≤ areaTo ((hi - lo) / ((n : K) - 1)) D j / areaTo ((hi - lo) / ((n : K) - 1)) D (n - 1) + 1 / ((nu : K) - 1)) ∧
      (x < areaTo ((hi - lo) / ((n : K) - 1)) D j / areaTo ((hi - lo) / ((n : K) - 1)) D (n - 1) - 1 / ((nu : K) - 1) →
        th ≤ lo + (j : K) * ((hi - lo) / ((n : K) - 1))) := by
  obtain ⟨m, rfl⟩ : ∃ m, n = m + 2 := ⟨n - 2, by omega⟩
  obtain ⟨r, rfl⟩ : ∃ r, nu = r + 2 := ⟨nu - 2, by omega⟩
  have hm : (((m + 2 : ℕ) : K) - 1) = (m : K) + 1 := by push_cast; ring
  have hr : (((r + 2 : ℕ) : K) - 1) = (r : K) + 1 := by push_cast; ring
  have hm0 : (0 : K) < (m : K) + 1 := by positivity
  have hr0 : (0 : K) < (r : K) + 1 := by positivity
  have hms : m + 2 - 1 = m + 1 := rfl
  simp only [hm, hr, hms] at hD htot ⊢
  set h := (hi - lo) / ((m : K) + 1) with hh
  have hh0 : 0 < h := div_pos (by linarith) hm0
  have hne : theta.zip distr ≠ [] := by
    intro he
    have := hD 0
    rw [he, npInterp] at this
    cases this
  have hDv : ∀ i : ℕ, interpVal (theta.zip distr) (lo + (i : K) * h) = D i := fun i => by
    have := hD i
    rw [npInterp_val _ hne] at this
    injection this
  have hD0 : ∀ i, 0 ≤ D i := fun i => by
    rw [← hDv i]
    exact interpVal_nonneg _ (zip_rising theta distr hsort) (fun q hq => hpos _ (List.of_mem_zip hq).2) _
  set M := areaTo h D (m + 1) with hM
  have hthU : npLinspace lo hi (m + 2) = (List.range (m + 2)).map (fun i : ℕ => lo + (i : K) * h) := by
    rw [npLinspace, hm]
  have hdU : (npLinspace lo hi (m + 2)).mapM (npInterp (theta.zip distr)) = .ok ((List.range (m + 2)).map D) := by
    rw [mapM_val _ (interpVal (theta.zip distr)) _ fun x _ => npInterp_val _ hne x, hthU, List.map_map]
    congr 1
    exact List.map_congr_left fun i _ => hDv i
  have hcum : cumtrapz ((npLinspace lo hi (m + 2)).zip ((List.range (m + 2)).map D)) = (List.range (m + 1)).map (fun i => areaTo h D (i + 1)) := by
    rw [cumtrapz, hthU, List.zip_map', pairs_range, List.map_map, cumSum_range]
    refine List.map_congr_left fun i _ => ?_
    rw [zero_add, areaTo]
    refine Finset.sum_congr rfl fun k _ => ?_
    show (lo + ((k + 1 : ℕ) : K) * h - (lo + (k : K) * h)) * (D (k + 1) + D k) / 2 = _
    push_cast
    ring
  have hcons : (List.range (m + 1)).map (fun i => areaTo h D (i + 1)) = areaTo h D 1 :: (List.range m).map (fun i => areaTo h D (i + 2)) := by
    rw [List.range_succ_eq_map, List.map_cons, List.map_map]
    rfl
  have hmax : ((List.range m).map (fun i => areaTo h D (i + 2))).foldl max (areaTo h D 1) = M := by
    refine foldl_max_top _ _ ?_ _ ?_
    · rw [← hcons, List.pairwise_map]
      exact List.pairwise_lt_range.imp fun {a b} hab => areaTo_mono h D hh0.le hD0 (by omega)
    · rw [← hcons, List.getLast?_map, List.range_succ, List.getLast?_append]
      rfl
  have hcdf : (0 :: areaTo h D 1 :: (List.range m).map (fun i => areaTo h D (i + 2))).map (fun v => v / M) =
      (List.range (m + 2)).map (fun j => areaTo h D j / M) := by
    rw [← hcons, List.range_succ_eq_map (n := m + 1), List.map_cons, List.map_cons, List.map_map, List.map_map]
    congr 1
  set S := (List.range (m + 2)).map (fun j : ℕ => (areaTo h D j / M, lo + (j : K) * h)) with hS
  have hzip : ((List.range (m + 2)).map (fun j => areaTo h D j / M)).zip (npLinspace lo hi (m + 2)) = S := by
    rw [hthU, List.zip_map']
  have hSc : Climbing S := by
    rw [Climbing, hS, List.pairwise_map]
    refine List.pairwise_lt_range.imp fun {a b} hab => ⟨?_, ?_⟩
    · exact div_le_div_of_nonneg_right (areaTo_mono h D hh0.le hD0 hab.le) htot.le
    · have : (a : K) < b := by exact_mod_cast hab
      show lo + (a : K) * h < lo + (b : K) * h
      nlinarith
  obtain ⟨S0, hS0⟩ : ∃ S0, S = (0, lo) :: S0 := by
    refine ⟨(List.range (m + 1)).map (fun j : ℕ => (areaTo h D (j + 1) / M, lo + ((j + 1 : ℕ) : K) * h)), ?_⟩
    rw [hS, List.range_succ_eq_map, List.map_cons, List.map_map]
    congr 1
    simp [areaTo]
  have hSlast : S.getLast? = some (1, lo + ((m + 1 : ℕ) : K) * h) := by
    rw [hS, List.getLast?_map, List.range_succ, List.getLast?_append]
    simp [← hM, div_self htot.ne']
  have hSne : S ≠ [] := by rw [hS0]; simp
  have hSv : ∀ u, 0 ≤ u → interpVal S u = npInterpFrom (0, lo) S0 u := fun u hu => by
    rw [hS0, interpVal, if_neg (not_lt.2 hu)]
  rw [hS0] at hSc
  set T := (List.range (r + 2)).map (fun i : ℕ => ((i : K) * (1 / ((r : K) + 1)), interpVal S ((i : K) * (1 / ((r : K) + 1))))) with hT
  have htab : angleTable theta distr lo hi (m + 2) (r + 2) = .ok T := by
    unfold angleTable
    simp only [hlen, ne_eq, not_true_eq_false, if_false]
    rw [hdU]
    show (match cumtrapz ((npLinspace lo hi (m + 2)).zip ((List.range (m + 2)).map D)) with
      | [] => _
      | a :: l => _) = _
    rw [hcum, hcons]
    show ((npLinspace 0 1 (r + 2)).mapM (npInterp (List.zip (List.map _ (0 :: areaTo h D 1 :: (List.range m).map (fun i => areaTo h D (i + 2)))) _))
      >>= _) = _
    rw [hmax, hcdf, hzip, mapM_val _ (interpVal S) _ fun x _ => npInterp_val _ hSne x]
    show Except.ok ((npLinspace 0 1 (r + 2)).zip ((npLinspace 0 1 (r + 2)).map (interpVal S))) = _
    rw [npLinspace, hr, List.map_map, List.zip_map', hT]
    congr 1
    refine List.map_congr_left fun i _ => ?_
    simp
  refine ⟨T, htab, fun x hx0 hx1 => ?_⟩
  have hTr : Rising T := by
    rw [Rising, hT, List.pairwise_map]
    refine List.pairwise_lt_range.imp fun {a b} hab => ?_
    have : (a : K) < b := by exact_mod_cast hab
    exact mul_lt_mul_of_pos_right this (by positivity)
  obtain ⟨v, j', a, b, lam, ha, hb, hl0, hl1, hx, hv⟩ : ∃ v, OnCurve T x v := by
    obtain ⟨T0, hT0, hT0n⟩ : ∃ T0, T = (0, interpVal S 0) :: T0 ∧ T0 ≠ [] := by
      refine ⟨(List.range (r + 1)).map (fun i : ℕ => (((i + 1 : ℕ) : K) * (1 / ((r : K) + 1)),
        interpVal S (((i + 1 : ℕ) : K) * (1 / ((r : K) + 1))))), ?_, by simp⟩
      rw [hT, List.range_succ_eq_map, List.map_cons, List.map_map]
      congr 1
      simp
    have hTlast : T.getLast? = some (1, interpVal S 1) := by
      rw [hT, List.getLast?_map, List.range_succ, List.getLast?_append]
      have : ((r + 1 : ℕ) : K) * (1 / ((r : K) + 1)) = 1 := by push_cast; field_simp
      simp only [List.getLast?_singleton, Option.some_or, Option.map_some, this]
    rw [hT0] at hTr hTlast ⊢
    exact curve_exists x T0 _ hTr hT0n hx0 _ hTlast hx1
  have hab : a = ((j' : K) * (1 / ((r : K) + 1)), interpVal S ((j' : K) * (1 / ((r : K) + 1)))) ∧
      b = (((j' : K) + 1) * (1 / ((r : K) + 1)), interpVal S (((j' : K) + 1) * (1 / ((r : K) + 1)))) ∧ j' + 1 < r + 2 := by
    have hb' : j' + 1 < r + 2 := by simpa [hT] using (List.getElem?_eq_some_iff.1 hb).1
    rw [hT, List.getElem?_map, List.getElem?_range (by omega)] at ha hb
    refine ⟨?_, ?_, hb'⟩
    · simpa using ha.symm
    · simpa using hb.symm
  obtain ⟨ha', hb', hj'⟩ := hab
  set δ := 1 / ((r : K) + 1) with hδ
  have hδ0 : 0 < δ := by positivity
  have hu0 : 0 ≤ (j' : K) * δ := by positivity
  have hu1 : 0 ≤ ((j' : K) + 1) * δ := by positivity
  have hu1' : ((j' : K) + 1) * δ ≤ 1 := by
    have : ((j' : K) + 1) ≤ (r : K) + 1 := by
      have : j' + 1 ≤ r + 1 := by omega
      exact_mod_cast this
    rw [hδ, mul_one_div, div_le_one hr0]
    exact this
  have hmono : interpVal S ((j' : K) * δ) ≤ interpVal S (((j' : K) + 1) * δ) := by
    rw [hSv _ hu0, hSv _ hu1]
    exact climb_mono S0 _ _ _ hSc hu0 (by nlinarith)
  rw [ha', hb'] at hx hv
  simp only at hx hv
  have hx1' : x = (j' : K) * δ + lam * δ := by rw [hx]; ring
  have hv1 : interpVal S ((j' : K) * δ) ≤ v := by rw [hv]; nlinarith
  have hv2 : v ≤ interpVal S (((j' : K) + 1) * δ) := by rw [hv]; nlinarith
  refine ⟨v, npInterp_curve T hTr x v ⟨j', a, b, lam, ha, hb, hl0, hl1, by rw [ha', hb']; exact hx, by rw [ha', hb']; exact hv⟩, fun j hj => ?_⟩
  have hmem : (areaTo h D j / M, lo + (j : K) * h) ∈ (((0, lo) : K × K) :: S0) := by
    rw [← hS0, hS]
    exact List.mem_map.2 ⟨j, by simpa using hj, rfl⟩
  have hlδ : lam * δ ≤ δ := by nlinarith
  have hlδ0 : 0 ≤ lam * δ := mul_nonneg hl0 hδ0.le
  constructor
  · intro hle
    have hF : (j' : K) * δ ≤ areaTo h D j / M := by
      by_contra hlt
      have := climb_above S0 (0, lo) ((j' : K) * δ) hSc _ (hS0 ▸ hSlast) (by show (j' : K) * δ ≤ 1; linarith) _ hmem (not_le.1 hlt)
      rw [← hSv _ hu0] at this
      simp only at this
      linarith
    rw [hx1']
    linarith
  · intro hlt
    have := climb_below S0 (0, lo) (((j' : K) + 1) * δ) hSc hu1 _ hmem (by show ((j' : K) + 1) * δ < areaTo h D j / M; linarith)
    rw [← hSv _ hu1] at this
    exact hv2.trans this

/-- The probability of an angle up to each angle of the script differs from the measured one by a step of the table at most: the random
numbers are uniform between 0 and 1. -/
theorem C176_probability (theta distr : List ℝ) (lo hi : ℝ) (n nu : ℕ) (hn : 2 ≤ n) (hnu : 2 ≤ nu) (hlh : lo < hi)
    (hsort : theta.Pairwise (· < ·)) (hlen : theta.length = distr.length) (hpos : ∀ d ∈ distr, 0 ≤ d) (D : ℕ → ℝ)
    (hD : ∀ i : ℕ, npInterp (theta.zip distr) (lo + (i : ℝ) * ((hi - lo) / ((n : ℝ) - 1))) = .ok (D i))
    (htot : 0 < areaTo ((hi - lo) / ((n : ℝ) - 1)) D (n - 1)) :
    ∃ t, angleTable theta distr lo hi n nu = .ok t ∧ ∀ j < n,
      |MeasureTheory.volume.real {x : ℝ | 0 ≤ x ∧ x < 1 ∧ ∃ th, npInterp t x = .ok th ∧ th ≤ lo + (j : ℝ) * ((hi - lo) / ((n : ℝ) - 1))} -
        areaTo ((hi - lo) / ((n : ℝ) - 1)) D j / areaTo ((hi - lo) / ((n : ℝ) - 1)) D (n - 1)| ≤ 1 / ((nu : ℝ) - 1) := by
  obtain ⟨t, ht, H⟩ := C176_angles theta distr lo hi n nu hn hnu hlh hsort hlen hpos D hD htot
  refine ⟨t, ht, fun j hj => ?_⟩
  have hne : theta.zip distr ≠ [] := by
    intro he
    have := hD 0
    rw [he, npInterp] at this
    cases this
  have hD0 : ∀ i, 0 ≤ D i := fun i => by
    have := hD i
    rw [npInterp_val _ hne] at this
    injection this with this
    rw [← this]
    exact interpVal_nonneg _ (zip_rising theta distr hsort) (fun q hq => hpos _ (List.of_mem_zip hq).2) _
  have hn1 : (0 : ℝ) < (n : ℝ) - 1 := by
    have : (2 : ℝ) ≤ n := by exact_mod_cast hn
    linarith
  have hnu1 : (0 : ℝ) < 1 / ((nu : ℝ) - 1) := by
    have : (2 : ℝ) ≤ nu := by exact_mod_cast hnu
    exact one_div_pos.2 (by linarith)
  have hh : 0 ≤ (hi - lo) / ((n : ℝ) - 1) := div_nonneg (by linarith) hn1.le
  have hF0 : 0 ≤ areaTo ((hi - lo) / ((n : ℝ) - 1)) D j / areaTo ((hi - lo) / ((n : ℝ) - 1)) D (n - 1) := by
    refine div_nonneg ?_ htot.le
    have := areaTo_mono ((hi - lo) / ((n : ℝ) - 1)) D hh hD0 (Nat.zero_le j)
    simpa [areaTo] using this
  have hF1 : areaTo ((hi - lo) / ((n : ℝ) - 1)) D j / areaTo ((hi - lo) / ((n : ℝ) - 1)) D (n - 1) ≤ 1 := by
    rw [div_le_one htot]
    exact areaTo_mono _ D hh hD0 (by omega)
  set F := areaTo ((hi - lo) / ((n : ℝ) - 1)) D j / areaTo ((hi - lo) / ((n : ℝ) - 1)) D (n - 1)
  set δ := 1 / ((nu : ℝ) - 1)
  set A := {x : ℝ | 0 ≤ x ∧ x < 1 ∧ ∃ th, npInterp t x = .ok th ∧ th ≤ lo + (j : ℝ) * ((hi - lo) / ((n : ℝ) - 1))} with hA
  have hup : A ⊆ Set.Icc 0 (F + δ) := by
    rintro x ⟨h0, h1, th, hth, hle⟩
    obtain ⟨th', hth', hj'⟩ := H x h0 h1.le
    rw [hth] at hth'
    injection hth' with he
    exact ⟨h0, (hj' j hj).1 (he ▸ hle)⟩
  have hlow : Set.Ico 0 (F - δ) ⊆ A := by
    rintro x ⟨h0, h1⟩
    obtain ⟨th, hth, hj'⟩ := H x h0 (by linarith)
    exact ⟨h0, by linarith, th, hth, (hj' j hj).2 h1⟩
  have hfin : MeasureTheory.volume A ≠ ⊤ := ne_top_of_le_ne_top (by simp) (MeasureTheory.measure_mono hup)
  have h1 := MeasureTheory.measureReal_mono (μ := MeasureTheory.volume) hup (by simp)
  have h2 := MeasureTheory.measureReal_mono (μ := MeasureTheory.volume) hlow hfin
  rw [Real.volume_real_Icc_of_le (by linarith)] at h1
  rw [Real.volume_real_Ico] at h2
  have h3 := le_max_left (F - δ - 0) 0
  rw [abs_le]
  constructor <;> linarith

/-- A density that is three times as large at one end: the table is what the cumulative distribution, 3/8 at the middle, says, and the
hypotheses of the theorem are met. -/
example : angleTable (K := ℚ) [-1, 1] [1, 3] (-1) 1 3 5 = .ok [(0, -1), (1 / 4, -1 / 3), (1 / 2, 1 / 5), (3 / 4, 3 / 5), (1, 1)] ∧
    (∀ i : ℕ, npInterp (([-1, 1] : List ℚ).zip [1, 3]) (-1 + (i : ℚ) * ((1 - -1) / (((3 : ℕ) : ℚ) - 1))) = .ok (if i < 2 then 1 + (i : ℚ) else 3)) ∧
    areaTo ((1 - -1) / (((3 : ℕ) : ℚ) - 1)) (fun i : ℕ => if i < 2 then 1 + (i : ℚ) else 3) 1 /
      areaTo ((1 - -1) / (((3 : ℕ) : ℚ) - 1)) (fun i : ℕ => if i < 2 then 1 + (i : ℚ) else 3) (3 - 1) = 3 / 8 := by
  refine ⟨by decide +kernel, fun i => ?_, by decide +kernel⟩
  match i with
  | 0 => decide +kernel
  | 1 => decide +kernel
  | i + 2 =>
    have : (1 : ℚ) ≤ -1 + ((i + 2 : ℕ) : ℚ) * ((1 - -1) / (((3 : ℕ) : ℚ) - 1)) := by
      have : (0 : ℚ) ≤ i := i.cast_nonneg
      push_cast
      norm_num
    simp only [List.zip_cons_cons, List.zip_nil_right, npInterp, npInterpFrom, if_pos this,
      if_neg (by omega : ¬ i + 2 < 2)]
    rw [if_neg (by linarith)]

end PyECLOUD
