import Verif.Model.FPHelpers
import Verif.Props.FPYield
import Mathlib.Analysis.SpecialFunctions.Integrals.Basic

/-!
# Property C136: the densities and distributions offered by the Furman-Pivi model are those of the sampling
-/

namespace PyECLOUD

open Real

theorem erfR_hasDerivAt (x : ℝ) : HasDerivAt erfR (2 / √π * exp (-x ^ 2)) x := by
  unfold erfR
  refine HasDerivAt.const_mul _ ?_
  have hc : Continuous (fun t : ℝ => exp (-t ^ 2)) := by fun_prop
  exact intervalIntegral.integral_hasDerivAt_right (hc.intervalIntegrable 0 x) (hc.stronglyMeasurableAtFilter _ _) hc.continuousAt

theorem cdfBack_hasDerivAt (sg e0 e : ℝ) (hs : 0 < sg) :
    HasDerivAt (fun e => fpCdfBack erfR e e0 (some sg)) (fpPdfBack erfR false sg e e0) e := by
  have hk : 0 < √2 * sg := by positivity
  have h1 : HasDerivAt (fun e : ℝ => (e0 - e) / (√2 * sg)) (-1 / (√2 * sg)) e := by
    have := ((hasDerivAt_const e e0).sub (hasDerivAt_id e)).div_const (√2 * sg)
    simpa using this
  have h2 := (erfR_hasDerivAt ((e0 - e) / (√2 * sg))).comp e h1
  have h3 := ((hasDerivAt_const e (1 : ℝ)).sub (h2.div_const (erfR (e0 / (√2 * sg)))))
  have he : fpPdfBack erfR false sg e e0 =
      0 - 2 / √π * exp (-((e0 - e) / (√2 * sg)) ^ 2) * (-1 / (√2 * sg)) / erfR (e0 / (√2 * sg)) := by
    unfold fpPdfBack fpSigma
    simp only [Bool.false_eq_true, if_false]
    have e1 : -((e0 - e) / (√2 * sg)) ^ 2 = -(e - e0) ^ 2 / (2 * sg ^ 2) := by
      rw [div_pow, mul_pow, Real.sq_sqrt (by norm_num)]
      ring
    rw [e1, Real.sqrt_mul (by norm_num)]
    have : √π ≠ 0 := (Real.sqrt_pos.mpr Real.pi_pos).ne'
    have : (√2 : ℝ) ≠ 0 := by positivity
    by_cases hz : erfR (e0 / (√2 * sg)) = 0
    · rw [hz]; simp
    · field_simp
      ring
  rw [he]
  exact h3

theorem fpPdfBack_sigma (m : Bool) (sigmaE e e0 : ℝ) : fpPdfBack erfR m sigmaE e e0 = fpPdfBack erfR false (fpSigma m sigmaE e0) e e0 := by
  simp [fpPdfBack, fpSigma]

theorem pdfBack_integral (sg e0 e : ℝ) (hs : 0 < sg) (he : 0 < e0) :
    ∫ x in (0 : ℝ)..e, fpPdfBack erfR false sg x e0 = backCDF sg e0 e := by
  have hc : Continuous (fun x => fpPdfBack erfR false sg x e0) := by
    unfold fpPdfBack fpSigma
    simp only [Bool.false_eq_true, if_false]
    fun_prop
  rw [intervalIntegral.integral_eq_sub_of_hasDerivAt (fun x _ => cdfBack_hasDerivAt sg e0 x hs) (hc.intervalIntegrable _ _)]
  have hE : erfR (e0 / (√2 * sg)) ≠ 0 := by
    have : 0 < e0 / (√2 * sg) := by positivity
    have := erfR_strictMono this
    rw [erfR_zero] at this
    exact this.ne'
  unfold fpCdfBack backCDF
  simp [div_self hE]

/-- **C136** (backscattered electrons). The density integrated up to an energy, and the distribution function called with the width of the model, are the
probability with which the model draws at most this energy. -/
theorem C136_backscattered_partial (erfinv : ℝ → ℝ) (hinv : IsErfInv erfinv) (m : Bool) (sigmaE e0 : ℝ) (hs : 0 < fpSigma m sigmaE e0) (he : 0 < e0)
    (e : ℝ) (h0 : 0 ≤ e) (h1 : e ≤ e0) :
    MeasureTheory.volume {u : ℝ | (0 ≤ u ∧ u ≤ 1) ∧ fpEnBack erfR erfinv (fpSigma m sigmaE e0) e0 u ≤ e} =
      ENNReal.ofReal (∫ x in (0 : ℝ)..e, fpPdfBack erfR m sigmaE x e0) ∧
    MeasureTheory.volume {u : ℝ | (0 ≤ u ∧ u ≤ 1) ∧ fpEnBack erfR erfinv (fpSigma m sigmaE e0) e0 u ≤ e} =
      ENNReal.ofReal (fpCdfBack erfR e e0 (some (fpSigma m sigmaE e0))) := by
  have h := (C93_backscattered erfinv hinv _ e0 hs he).2 e h0 h1
  constructor
  · rw [h]
    simp only [fpPdfBack_sigma m]
    rw [pdfBack_integral _ _ _ hs he]
  · rw [h]
    rfl

/-- **C136** (rediffused electrons). The same for rediffused electrons, with the exponent of the model as argument. -/
theorem C136_rediffused_partial (q e0 : ℝ) (hq : -1 < q) (he : 0 < e0) : ∃ pdf : ℝ → ℝ, (∀ x, fpPdfRed x e0 (some q) = .ok (pdf x)) ∧
    ∀ e, 0 ≤ e → e ≤ e0 →
      MeasureTheory.volume {u : ℝ | (0 ≤ u ∧ u ≤ 1) ∧ fpEnRed q e0 u ≤ e} = ENNReal.ofReal (∫ x in (0 : ℝ)..e, pdf x) ∧
      MeasureTheory.volume {u : ℝ | (0 ≤ u ∧ u ≤ 1) ∧ fpEnRed q e0 u ≤ e} = ENNReal.ofReal (fpCdfRed e e0 (some q)) := by
  refine ⟨fun x => (q + 1) * x ^ q / e0 ^ (q + 1), fun x => ?_, fun e h0 h1 => ?_⟩
  · unfold fpPdfRed
    rw [if_neg (not_lt.mpr he.le)]
    rfl
  · have h := (C93_rediffused q e0 hq he).2 e h0 h1
    constructor
    · rw [h]
      congr 1
      have hq1 : q + 1 ≠ 0 := by linarith
      have : ∀ x : ℝ, (q + 1) * x ^ q / e0 ^ (q + 1) = (q + 1) / e0 ^ (q + 1) * x ^ q := fun x => by ring
      simp only [this]
      rw [intervalIntegral.integral_const_mul, integral_rpow (Or.inl hq), Real.zero_rpow hq1, sub_zero]
      unfold redCDF
      field_simp
    · rw [h]
      rfl

/-- **C136** (true secondaries). On an array of energies that ends with the energy of the impact the distribution function is the probability with which
the model draws at most each energy, and the area is that below the density. -/
theorem C136_true (inv : ℝ → ℝ → ℝ) (hinv : IsGammaInv inv) (epsN pN : List ℝ) (nn : ℕ) (hn : 1 ≤ nn) (eps p : ℝ)
    (heps : epsN[nn - 1]? = some eps) (hpn : pN[nn - 1]? = some p) (h0 : 0 < eps) (hp : 0 < p) (e0 : ℝ) (he : 0 < e0) (es : List ℝ)
    (hes : ∀ e ∈ es, 0 ≤ e ∧ e ≤ e0 ∧ 1e-12 ≤ gammaP p (e / eps)) :
    ∃ cdf area, fpCdfTrue gammaP epsN pN nn (es ++ [e0]) = .ok (cdf, area) ∧ cdf.length = es.length + 1 ∧
      ∀ (i : ℕ) (e c : ℝ), es[i]? = some e → cdf[i]? = some c →
        MeasureTheory.volume {u : ℝ | (0 ≤ u ∧ u ≤ 1) ∧ ∃ en, fpEnTrue gammaP inv epsN pN nn e0 u = .ok en ∧ en ≤ e} = ENNReal.ofReal c := by
  have hget : ∀ (l : List ℝ) (a : ℝ), l[nn - 1]? = some a → pyGet l ((nn : ℤ) - 1) = .ok a := by
    intro l a h
    unfold pyGet
    have e1 : ¬ ((nn : ℤ) - 1 < 0) := by omega
    have e2 : ((nn : ℤ) - 1).toNat = nn - 1 := by omega
    simp only [e1, if_false, e2, h]
  refine ⟨(es ++ [e0]).map (fun e => gammaP p (e / eps) / gammaP p (e0 / eps)), (es ++ [e0]).map (fun e => gammaP p (e / eps)), ?_, by simp, ?_⟩
  · unfold fpCdfTrue
    rw [hget _ _ heps, hget _ _ hpn]
    simp
  · intro i e c hi hc
    have hlt : i < es.length := (List.getElem?_eq_some_iff.mp hi).1
    rw [List.getElem?_map, List.getElem?_append_left hlt, hi] at hc
    cases hc
    have hm := hes e (List.mem_of_getElem? hi)
    exact (C93_true inv hinv epsN pN nn hn eps p heps hpn h0 hp e0 he).2 e hm.1 hm.2.1 hm.2.2

/-- **C136** (numbers of electrons, Poisson). The probability returned is that of the Poisson law cut at `M_cut`. -/
theorem C136_poisson (mCut nn : ℕ) (delta : ℝ) (h0 : nn ≠ 0) (h1 : nn ≤ mCut) :
    fpProb .poisson mCut nn delta = .ok (poissonP delta nn / ∑ k ∈ Finset.range (mCut + 1), poissonP delta k) := by
  unfold fpProb
  rw [if_neg h0]
  have hs : ((List.range (mCut + 1)).map (fun k => delta ^ k / (k.factorial : ℝ) * exp (-delta))).sum =
      ∑ k ∈ Finset.range (mCut + 1), poissonP delta k := by
    have hlist : ∀ (f : ℕ → ℝ) (n : ℕ), ((List.range n).map f).sum = ∑ k ∈ Finset.range n, f k := by
      intro f n
      induction n with
      | zero => simp
      | succ n ih => rw [List.range_succ, Finset.sum_range_succ, ← ih]; simp
    rw [hlist]
    apply Finset.sum_congr rfl
    intro k _
    unfold poissonP
    ring
  have hg : (((List.range (mCut + 1)).map (fun k => delta ^ k / (k.factorial : ℝ) * exp (-delta))).map
      (· / ((List.range (mCut + 1)).map (fun k => delta ^ k / (k.factorial : ℝ) * exp (-delta))).sum))[nn]? =
      some (poissonP delta nn / ∑ k ∈ Finset.range (mCut + 1), poissonP delta k) := by
    rw [hs, List.getElem?_map, List.getElem?_map, List.getElem?_range (by omega)]
    simp only [Option.map_some]
    congr 2
    unfold poissonP
    ring
  simp only [fpWeights, bind, Except.bind]
  rw [hg]

/-- **C136** fails for the binomial choice: whatever the yield between 0 and `M_cut`, the probabilities returned are not those of the binomial law
(the binomial coefficient is that of the number asked for in all terms, and cancels). -/
theorem C136_binomial_violated (mCut : ℕ) (hm : 2 ≤ mCut) (delta : ℝ) (h0 : 0 < delta) (h1 : delta < mCut) :
    ¬∀ nn, 1 ≤ nn → nn ≤ mCut →
      fpProb .binomial mCut nn delta = .ok (Nat.choose mCut nn * (delta / mCut) ^ nn * (1 - delta / mCut) ^ (mCut - nn)) := by
  intro h
  have hM : (0 : ℝ) < mCut := by
    have : 0 < mCut := by omega
    exact_mod_cast this
  set p := delta / mCut with hp
  have hp0 : 0 < p := div_pos h0 hM
  have hp1 : p < 1 := (div_lt_one hM).mpr h1
  set S : ℝ := ((List.range (mCut + 1)).map (fun k => p ^ k * (1 - p) ^ (mCut - k))).sum with hS
  have key : ∀ nn, 1 ≤ nn → nn ≤ mCut → fpProb .binomial mCut nn delta = .ok (p ^ nn * (1 - p) ^ (mCut - nn) / S) := by
    intro nn q0 q1
    have hc : (Nat.choose mCut nn : ℝ) ≠ 0 := by
      have := Nat.choose_pos q1
      exact_mod_cast this.ne'
    have hw : ((List.range (mCut + 1)).map (fun k => (Nat.choose mCut nn : ℝ) * p ^ k * (1 - p) ^ (mCut - k))).sum = Nat.choose mCut nn * S := by
      rw [hS, ← List.sum_map_mul_left]
      congr 1
      apply List.map_congr_left
      intro k _
      ring
    have hg : (((List.range (mCut + 1)).map (fun k => (Nat.choose mCut nn : ℝ) * p ^ k * (1 - p) ^ (mCut - k))).map
        (· / ((List.range (mCut + 1)).map (fun k => (Nat.choose mCut nn : ℝ) * p ^ k * (1 - p) ^ (mCut - k))).sum))[nn]? =
        some (p ^ nn * (1 - p) ^ (mCut - nn) / S) := by
      rw [hw, List.getElem?_map, List.getElem?_map, List.getElem?_range (by omega)]
      simp only [Option.map_some]
      rw [mul_assoc, mul_div_mul_left _ _ hc]
    unfold fpProb
    rw [if_neg (by omega)]
    simp only [fpWeights, bind, Except.bind, ← hp]
    rw [hg]
  have a1 := (key 1 le_rfl (by omega)).symm.trans (h 1 le_rfl (by omega))
  have a2 := (key mCut (by omega) le_rfl).symm.trans (h mCut (by omega) le_rfl)
  injection a1 with a1
  injection a2 with a2
  simp only [Nat.choose_self, Nat.cast_one, one_mul, Nat.sub_self, pow_zero, mul_one, pow_one, Nat.choose_one_right] at a1 a2
  have hpm : p ^ mCut ≠ 0 := (pow_pos hp0 _).ne'
  have hS1 : S = 1 := by
    have hS0 : S ≠ 0 := by
      intro z
      rw [z, div_zero] at a2
      exact hpm a2.symm
    rw [div_eq_iff hS0] at a2
    have : p ^ mCut * (S - 1) = 0 := by linarith
    rcases mul_eq_zero.mp this with z | z
    · exact absurd z hpm
    · linarith
  rw [hS1, div_one] at a1
  have hq : p * (1 - p) ^ (mCut - 1) ≠ 0 := (mul_pos hp0 (pow_pos (by linarith) _)).ne'
  have : p * (1 - p) ^ (mCut - 1) * ((mCut : ℝ) - 1) = 0 := by linarith
  rcases mul_eq_zero.mp this with z | z
  · exact hq z
  · have : (2 : ℝ) ≤ mCut := by exact_mod_cast hm
    linarith

/-- **C136** fails for the distribution functions called without their last argument: they do not look at the parameters of the model. With another
exponent than 0.5 the distribution of rediffused energies is wrong at half the energy of the impact. -/
theorem C136_rediffused_default_violated (q e0 : ℝ) (hq : -1 < q) (hne : q ≠ 0.5) (he : 0 < e0) :
    MeasureTheory.volume {u : ℝ | (0 ≤ u ∧ u ≤ 1) ∧ fpEnRed q e0 u ≤ e0 / 2} ≠ ENNReal.ofReal (fpCdfRed (e0 / 2) e0 none) := by
  rw [(C93_rediffused q e0 hq he).2 (e0 / 2) (by linarith) (by linarith)]
  have hr : ∀ r : ℝ, (e0 / 2) ^ r / e0 ^ r = (1 / 2 : ℝ) ^ r := by
    intro r
    rw [← Real.div_rpow (by linarith) he.le]
    congr 1
    field_simp
  unfold redCDF fpCdfRed
  rw [hr, hr]
  intro h
  have h2 := (ENNReal.ofReal_eq_ofReal_iff (Real.rpow_nonneg (by norm_num) _) (Real.rpow_nonneg (by norm_num) _)).mp h
  have h3 := (Real.rpow_right_inj (by norm_num : (0 : ℝ) < 1 / 2) (by norm_num)).mp h2
  simp only [Option.getD_none] at h3
  exact hne (by linarith)

/-- **C136** fails in the same way for backscattered energies: with any other width than 2 eV, the distribution function called without it is wrong
at some energy. -/
theorem C136_backscattered_default_violated (erfinv : ℝ → ℝ) (hinv : IsErfInv erfinv) (sg e0 : ℝ) (hs : 0 < sg) (hne : sg ≠ 2) (he : 0 < e0) :
    ∃ e, 0 ≤ e ∧ e ≤ e0 ∧
      MeasureTheory.volume {u : ℝ | (0 ≤ u ∧ u ≤ 1) ∧ fpEnBack erfR erfinv sg e0 u ≤ e} ≠ ENNReal.ofReal (fpCdfBack erfR e e0 none) := by
  by_contra hcon
  push Not at hcon
  have hE : ∀ s : ℝ, 0 < s → 0 < erfR (e0 / (√2 * s)) := by
    intro s q
    have : 0 < e0 / (√2 * s) := by positivity
    have := erfR_strictMono this
    rwa [erfR_zero] at this
  have hnn : ∀ s e : ℝ, 0 < s → 0 ≤ e → e ≤ e0 → 0 ≤ fpCdfBack erfR e e0 (some s) := by
    intro s e q q0 q1
    unfold fpCdfBack
    dsimp only [Option.getD_some]
    rw [sub_nonneg, div_le_one (hE s q)]
    have : 0 < √2 * s := by positivity
    exact erfR_strictMono.monotone (div_le_div_of_nonneg_right (by linarith) this.le)
  have heq : ∀ e, 0 ≤ e → e ≤ e0 → fpCdfBack erfR e e0 (some sg) = fpCdfBack erfR e e0 (some 2) := by
    intro e q0 q1
    have h1 := hcon e q0 q1
    rw [(C93_backscattered erfinv hinv sg e0 hs he).2 e q0 q1] at h1
    exact (ENNReal.ofReal_eq_ofReal_iff (hnn sg e hs q0 q1) (hnn 2 e (by norm_num) q0 q1)).mp h1
  have hder : ∀ e, 0 < e → e < e0 → fpPdfBack erfR false sg e e0 = fpPdfBack erfR false 2 e e0 := by
    intro e q0 q1
    have d1 := cdfBack_hasDerivAt sg e0 e hs
    have d2 := cdfBack_hasDerivAt 2 e0 e (by norm_num)
    refine d1.unique (d2.congr_of_eventuallyEq ?_)
    filter_upwards [Ioo_mem_nhds q0 q1] with x hx
    exact heq x hx.1.le hx.2.le
  set a : ℝ := 2 / (√(2 * π) * sg * erfR (e0 / (√2 * sg))) with ha
  set b : ℝ := 2 / (√(2 * π) * 2 * erfR (e0 / (√2 * 2))) with hb
  have hpos : 0 < √(2 * π) := Real.sqrt_pos.mpr (by positivity)
  have ha0 : 0 < a := div_pos (by norm_num) (mul_pos (mul_pos hpos hs) (hE sg hs))
  have hb0 : 0 < b := div_pos (by norm_num) (mul_pos (mul_pos hpos (by norm_num)) (hE 2 (by norm_num)))
  have hform : ∀ e, 0 < e → e < e0 → a * exp (-(e - e0) ^ 2 / (2 * sg ^ 2)) = b * exp (-(e - e0) ^ 2 / (2 * 2 ^ 2)) := by
    intro e q0 q1
    have := hder e q0 q1
    unfold fpPdfBack fpSigma at this
    simp only [Bool.false_eq_true, if_false] at this
    rw [ha, hb, div_mul_eq_mul_div, div_mul_eq_mul_div]
    exact this
  have hlog : ∀ e, 0 < e → e < e0 → log a + -(e - e0) ^ 2 / (2 * sg ^ 2) = log b + -(e - e0) ^ 2 / (2 * 2 ^ 2) := by
    intro e q0 q1
    have h1 := congrArg log (hform e q0 q1)
    rwa [Real.log_mul ha0.ne' (exp_pos _).ne', Real.log_mul hb0.ne' (exp_pos _).ne', Real.log_exp, Real.log_exp] at h1
  have l1 := hlog (e0 / 2) (by linarith) (by linarith)
  have l2 := hlog (e0 / 4) (by linarith) (by linarith)
  have hk : e0 ^ 2 * (1 / (2 * sg ^ 2) - 1 / (2 * 2 ^ 2)) = 0 := by
    have e1 : -(e0 / 2 - e0) ^ 2 / (2 * sg ^ 2) - -(e0 / 2 - e0) ^ 2 / (2 * 2 ^ 2) =
        -(1 / 4) * (e0 ^ 2 * (1 / (2 * sg ^ 2) - 1 / (2 * 2 ^ 2))) := by ring
    have e2 : -(e0 / 4 - e0) ^ 2 / (2 * sg ^ 2) - -(e0 / 4 - e0) ^ 2 / (2 * 2 ^ 2) =
        -(9 / 16) * (e0 ^ 2 * (1 / (2 * sg ^ 2) - 1 / (2 * 2 ^ 2))) := by ring
    linarith
  rcases mul_eq_zero.mp hk with z | z
  · exact absurd z (by positivity)
  · have h4 : sg ^ 2 = 2 ^ 2 := by
      have h5 : 1 / (2 * sg ^ 2) = 1 / (2 * 2 ^ 2) := by linarith
      rw [one_div, one_div, inv_inj] at h5
      linarith
    exact hne ((pow_left_inj₀ hs.le (by norm_num) (by norm_num)).mp h4)

/-- the hypotheses are met: a modified width, a table of the paper, a yield -/
example : 0 < fpSigma true 2 100 ∧ ([1.6, 2, 1.8] : List ℝ)[2 - 1]? = some 2 ∧ (2 : ℕ) ≤ 10 ∧ (0 : ℝ) < 1.8 ∧ (1.8 : ℝ) < (10 : ℕ) :=
  ⟨(C93_sigma 2 100 true (by norm_num)).1, rfl, by norm_num, by norm_num, by norm_num⟩

/-- the wrong binomial probability of one electron out of at most two, with a yield of 1: a third in place of a half -/
example : fpProb .binomial 2 1 1 = .ok (1 / 3) := by
  have : ((List.range 3).map (fun k => (Nat.choose 2 1 : ℝ) * (1 / (2 : ℕ)) ^ k * (1 - 1 / (2 : ℕ)) ^ (2 - k))) = [1 / 2, 1 / 2, 1 / 2] := by
    norm_num [List.range_succ]
  unfold fpProb fpWeights
  simp only [bind, Except.bind]
  rw [this]
  norm_num

end PyECLOUD
