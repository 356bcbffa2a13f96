import Verif.Spec.FPYield
import Verif.Props.Yield
import Mathlib.Analysis.SpecialFunctions.Gaussian.GaussianIntegral

/-!
# Properties of the Furman-Pivi yields and energies (C91, C92, C93)
-/

namespace PyECLOUD

open Real

/-! ## C91: yields -/

theorem clip1_bounds (lo c : ℝ) (h0 : 0 ≤ lo) (h1 : lo ≤ 1) : 0 ≤ clip1 lo c ∧ clip1 lo c ≤ 1 := by
  unfold clip1
  exact ⟨le_min (le_max_of_le_right h0) zero_le_one, min_le_right _ _⟩

theorem clip1_mono (lo c c' : ℝ) (h : c ≤ c') : clip1 lo c ≤ clip1 lo c' := by
  unfold clip1
  exact min_le_min_right _ (max_le_max_right _ h)

theorem clip1_one (lo : ℝ) (h1 : lo ≤ 1) : clip1 lo 1 = 1 := by
  unfold clip1
  rw [max_eq_left h1, min_self]

/-- angular factor of the form `1 + a (1 - x^b)` -/
theorem angular_ge_one (a b x : ℝ) (ha : 0 ≤ a) (hb : 0 ≤ b) (h0 : 0 ≤ x) (h1 : x ≤ 1) : 1 ≤ 1 + a * (1 - x ^ b) := by
  have := rpow_le_one h0 h1 hb
  nlinarith [mul_nonneg ha (sub_nonneg.2 this)]

theorem angular_anti (a b x y : ℝ) (ha : 0 ≤ a) (hb : 0 ≤ b) (h0 : 0 ≤ x) (h : x ≤ y) :
    1 + a * (1 - y ^ b) ≤ 1 + a * (1 - x ^ b) := by
  have := rpow_le_rpow h0 h hb
  nlinarith [mul_le_mul_of_nonneg_left this ha]

/-- **C91**, elastic yield at normal incidence: between the limits `p1EInf` (high energies) and `p1Ehat`, which it takes
at the energy `eEHat`. -/
theorem C91_elastic (P : FPPar) (hP : P.Valid) (e : ℝ) :
    min P.p1EInf P.p1Ehat ≤ fpDeltaE P e 1 ∧ fpDeltaE P e 1 ≤ max P.p1EInf P.p1Ehat ∧
    fpDeltaE P P.eEHat 1 = P.p1Ehat := by
  have hang : (if P.scale then (if P.useEcloudTheta then (1 : ℝ) else 1 + P.e1 * (1 - clip1 P.clipE 1 ^ P.e2)) else 1) = 1 := by
    rw [clip1_one _ hP.clipE.2, one_rpow]
    simp
  unfold fpDeltaE
  rw [hang]
  set x := exp (-(|e - P.eEHat| / P.w) ^ P.p / P.p) with hx
  have h0 : 0 < x := exp_pos _
  have h1 : x ≤ 1 := by
    rw [hx, exp_le_one_iff, neg_div]
    have : 0 ≤ (|e - P.eEHat| / P.w) ^ P.p := rpow_nonneg (div_nonneg (abs_nonneg _) hP.w.le) _
    exact neg_nonpos.2 (div_nonneg this hP.p.le)
  refine ⟨?_, ?_, ?_⟩
  · rcases le_total P.p1EInf P.p1Ehat with h | h
    · rw [min_eq_left h]; nlinarith
    · rw [min_eq_right h]; nlinarith
  · rcases le_total P.p1EInf P.p1Ehat with h | h
    · rw [max_eq_right h]; nlinarith
    · rw [max_eq_left h]; nlinarith
  · rw [sub_self, abs_zero, zero_div, zero_rpow hP.p.ne']
    simp

/-- **C91**, rediffused yield at normal incidence: zero at zero energy, growing with the energy, below `p1RInf`. -/
theorem C91_rediffused (P : FPPar) (hP : P.Valid) (e e' : ℝ) (he : 0 ≤ e) (h : e ≤ e') :
    fpDeltaR P 0 1 = 0 ∧ 0 ≤ fpDeltaR P e 1 ∧ fpDeltaR P e 1 ≤ fpDeltaR P e' 1 ∧ fpDeltaR P e' 1 ≤ P.p1RInf ∧
    (0 < P.p1RInf → fpDeltaR P e' 1 < P.p1RInf) := by
  have hang : (if P.scale then 1 + P.r1 * (1 - clip1 P.clipR 1 ^ P.r2) else 1) = 1 := by
    rw [clip1_one _ hP.clipR.2, one_rpow]
    simp
  have hR := hP.p1RInf
  have hx : ∀ e, 0 ≤ e → exp (-(e / P.eR) ^ P.r) ≤ 1 := by
    intro e he
    rw [exp_le_one_iff]
    exact neg_nonpos.2 (rpow_nonneg (div_nonneg he hP.eR.le) _)
  unfold fpDeltaR
  simp only [hang, mul_one]
  refine ⟨?_, mul_nonneg hR (sub_nonneg.2 (hx e he)), ?_, ?_, ?_⟩
  · rw [zero_div, zero_rpow hP.r.ne']
    simp
  · refine mul_le_mul_of_nonneg_left ?_ hR
    have : (e / P.eR) ^ P.r ≤ (e' / P.eR) ^ P.r :=
      rpow_le_rpow (div_nonneg he hP.eR.le) (div_le_div_of_nonneg_right h hP.eR.le) hP.r.le
    linarith [exp_le_exp.2 (neg_le_neg this)]
  · have := exp_pos (-(e' / P.eR) ^ P.r)
    nlinarith
  · intro hpos
    have := exp_pos (-(e' / P.eR) ^ P.r)
    nlinarith

theorem fpEHat_pos (P : FPPar) (hP : P.Valid) (cth : ℝ) (h0 : 0 ≤ cth) (h1 : cth ≤ 1) : 0 < fpEHat P cth := by
  unfold fpEHat
  split
  · have := angular_ge_one P.t3 P.t4 cth hP.t3 hP.t4 h0 h1
    exact mul_pos hP.eHat0 (by linarith)
  · exact hP.eHat0

/-- **C91**, true secondary yield: at normal incidence it never exceeds `deltaTSHat` and takes this value at `eHat0`; at
any angle the maximum over the energies is `deltaTSHat` times the angular factor, taken at the shifted energy, which is
never below `eHat0`. -/
theorem C91_true (P : FPPar) (hP : P.Valid) :
    (∀ e, 0 ≤ e → fpDeltaTS P e 1 ≤ P.deltaTSHat) ∧ fpDeltaTS P P.eHat0 1 = P.deltaTSHat ∧
    ∀ cth, 0 ≤ cth → cth ≤ 1 → P.eHat0 ≤ fpEHat P cth ∧
      ∀ e, 0 ≤ e → 0 ≤ fpDeltaTS P e cth ∧ fpDeltaTS P e cth ≤ fpDeltaTS P (fpEHat P cth) cth ∧
        P.deltaTSHat ≤ fpDeltaTS P (fpEHat P cth) cth := by
  have hD : ∀ x, 0 ≤ x → 0 ≤ fpD P.s x ∧ fpD P.s x ≤ 1 := fun x hx => by
    obtain ⟨-, a, b⟩ := shape_le_one P.s x hP.s hx
    exact ⟨a, b⟩
  have hD1 : fpD P.s 1 = 1 := by
    unfold fpD
    rw [one_rpow, mul_one, sub_add_cancel, div_self (by linarith [hP.s])]
  have hH1 : fpEHat P 1 = P.eHat0 := by
    unfold fpEHat
    simp
  set A : ℝ → ℝ := fun cth => (if P.scale then
      if P.useEcloudTheta then exp (0.5 * (1 - cth)) else 1 + P.t1 * (1 - cth ^ P.t2) else 1) with hA
  have hA1 : A 1 = 1 := by simp [hA]
  have hAge : ∀ cth, 0 ≤ cth → cth ≤ 1 → 1 ≤ A cth := by
    intro cth h0 h1
    simp only [hA]
    split
    · split
      · rw [one_le_exp_iff]; nlinarith
      · exact angular_ge_one _ _ _ hP.t1 hP.t2 h0 h1
    · exact le_refl _
  have hdef : ∀ e cth, fpDeltaTS P e cth = P.deltaTSHat * fpD P.s (e / fpEHat P cth) * A cth := fun _ _ => rfl
  have hpk : ∀ cth, 0 ≤ cth → cth ≤ 1 → fpDeltaTS P (fpEHat P cth) cth = P.deltaTSHat * A cth := by
    intro cth h0 h1
    rw [hdef, div_self (fpEHat_pos P hP cth h0 h1).ne', hD1, mul_one]
  have hT := hP.deltaTSHat
  refine ⟨fun e he => ?_, ?_, fun cth h0 h1 => ⟨?_, fun e he => ⟨?_, ?_, ?_⟩⟩⟩
  · rw [hdef, hA1, mul_one]
    have := (hD (e / fpEHat P 1) (div_nonneg he (fpEHat_pos P hP 1 zero_le_one le_rfl).le)).2
    nlinarith
  · rw [hdef, hA1, hH1, div_self hP.eHat0.ne', hD1]; ring
  · unfold fpEHat
    split
    · have := angular_ge_one P.t3 P.t4 cth hP.t3 hP.t4 h0 h1
      nlinarith [hP.eHat0]
    · exact le_refl _
  · rw [hdef]
    exact mul_nonneg (mul_nonneg hT (hD _ (div_nonneg he (fpEHat_pos P hP cth h0 h1).le)).1)
      (by linarith [hAge cth h0 h1])
  · rw [hpk cth h0 h1, hdef]
    refine mul_le_mul_of_nonneg_right ?_ (by linarith [hAge cth h0 h1])
    have := (hD (e / fpEHat P cth) (div_nonneg he (fpEHat_pos P hP cth h0 h1).le)).2
    nlinarith
  · rw [hpk cth h0 h1]
    nlinarith [hAge cth h0 h1]

/-- **C91**: the elastic and rediffused yields do not decrease when the incidence becomes more grazing, and stay constant
beyond the clipping angle; switching the angular dependence off removes it. -/
theorem C91_angle (P : FPPar) (hP : P.Valid) (e c c' : ℝ) (he : 0 ≤ e) (h : c ≤ c') :
    fpDeltaE P e c' ≤ fpDeltaE P e c ∧ fpDeltaR P e c' ≤ fpDeltaR P e c ∧
    (c ≤ P.clipE → fpDeltaE P e c = fpDeltaE P e P.clipE) ∧ (c ≤ P.clipR → fpDeltaR P e c = fpDeltaR P e P.clipR) ∧
    (P.scale = false → fpDeltaE P e c = fpDeltaE P e c' ∧ fpDeltaR P e c = fpDeltaR P e c') := by
  have hx : exp (-(|e - P.eEHat| / P.w) ^ P.p / P.p) ≤ 1 := by
    rw [exp_le_one_iff, neg_div]
    have : 0 ≤ (|e - P.eEHat| / P.w) ^ P.p := rpow_nonneg (div_nonneg (abs_nonneg _) hP.w.le) _
    exact neg_nonpos.2 (div_nonneg this hP.p.le)
  have hx0 : 0 < exp (-(|e - P.eEHat| / P.w) ^ P.p / P.p) := exp_pos _
  have hE : 0 ≤ P.p1EInf + (P.p1Ehat - P.p1EInf) * exp (-(|e - P.eEHat| / P.w) ^ P.p / P.p) := by
    have := hP.p1EInf
    have := hP.p1Ehat
    nlinarith
  have hr : exp (-(e / P.eR) ^ P.r) ≤ 1 := by
    rw [exp_le_one_iff]
    exact neg_nonpos.2 (rpow_nonneg (div_nonneg he hP.eR.le) _)
  have hR : 0 ≤ P.p1RInf * (1 - exp (-(e / P.eR) ^ P.r)) := mul_nonneg hP.p1RInf (sub_nonneg.2 hr)
  have hclip : ∀ lo, lo ≤ 1 → ∀ c ≤ lo, clip1 lo c = clip1 lo lo := by
    intro lo hl c hc
    unfold clip1
    rw [max_eq_right hc, max_self]
  refine ⟨?_, ?_, fun hc => ?_, fun hc => ?_, fun hs => ?_⟩
  · unfold fpDeltaE
    refine mul_le_mul_of_nonneg_left ?_ hE
    split
    · split
      · exact le_refl _
      · exact angular_anti _ _ _ _ hP.e1 hP.e2 (clip1_bounds _ _ hP.clipE.1 hP.clipE.2).1 (clip1_mono _ _ _ h)
    · exact le_refl _
  · unfold fpDeltaR
    refine mul_le_mul_of_nonneg_left ?_ hR
    split
    · exact angular_anti _ _ _ _ hP.r1 hP.r2 (clip1_bounds _ _ hP.clipR.1 hP.clipR.2).1 (clip1_mono _ _ _ h)
    · exact le_refl _
  · unfold fpDeltaE
    rw [hclip _ hP.clipE.2 c hc]
  · unfold fpDeltaR
    rw [hclip _ hP.clipR.2 c hc]
  · unfold fpDeltaE fpDeltaR
    simp [hs]

/-- **C91**: the clipping cosine is that of the given angle, 0 without an angle, and other angles are refused. -/
theorem C91_clip (th : Option ℝ) (c : ℝ) (h : fpClip th = .ok c) :
    (0 ≤ c ∧ c ≤ 1) ∧ (th = none → c = 0) ∧ ∀ a, th = some a → c = cos a ∧ 0 < a ∧ a < π / 2 := by
  cases th with
  | none =>
    cases h
    exact ⟨⟨le_refl _, zero_le_one⟩, fun _ => rfl, fun a ha => by cases ha⟩
  | some a =>
    simp only [fpClip] at h
    split at h
    · next ha =>
      cases h
      refine ⟨⟨(cos_pos_of_mem_Ioo ⟨by linarith [pi_pos], ha.2⟩).le, cos_le_one _⟩, fun hn => (by cases hn), fun b hb => ?_⟩
      cases hb
      exact ⟨rfl, ha.1, ha.2⟩
    · cases h

/-- **C91**: with the angular dependence of ECLOUD the energy of the maximum is shifted by the ECLOUD formula, whatever
`t3` and `t4` the surface gives; all other parameters are used as given. -/
theorem C91_ecloud_shift (P : FPPar) (hP : P.Valid) (cth : ℝ) :
    P.init.Valid ∧ (P.useEcloudTheta = false → P.init = P) ∧
    (P.useEcloudTheta = true → P.shift = true → fpEHat P.init cth = P.eHat0 * (1 + 0.7 * (1 - cth))) := by
  unfold FPPar.init
  refine ⟨?_, fun h => by simp [h], fun h hs => by simp [h, fpEHat, hs]⟩
  split
  · exact ⟨hP.p1EInf, hP.p1Ehat, hP.w, hP.p, hP.e1, hP.e2, hP.clipE, hP.p1RInf, hP.eR, hP.r, hP.q, hP.r1, hP.r2, hP.clipR,
      hP.deltaTSHat, hP.eHat0, hP.s, hP.t1, hP.t2, by norm_num, by norm_num⟩
  · exact hP

/-! ## special functions -/

theorem erf_integrand_int (a b : ℝ) : IntervalIntegrable (fun t : ℝ => exp (-t ^ 2)) MeasureTheory.volume a b :=
  (Continuous.intervalIntegrable (by fun_prop) a b)

theorem erfR_strictMono : StrictMono erfR := by
  intro x y hxy
  have h := intervalIntegral.intervalIntegral_pos_of_pos (erf_integrand_int x y) (fun t => exp_pos (-t ^ 2)) hxy
  have hs := intervalIntegral.integral_interval_sub_left (erf_integrand_int 0 y) (erf_integrand_int 0 x)
  have h2 : 0 < 2 / √π := by positivity
  unfold erfR
  refine mul_lt_mul_of_pos_left ?_ h2
  linarith

theorem erfR_zero : erfR 0 = 0 := by simp [erfR]

theorem erfR_neg (x : ℝ) : erfR (-x) = -erfR x := by
  unfold erfR
  have h := intervalIntegral.integral_comp_neg (a := 0) (b := x) (fun t : ℝ => exp (-t ^ 2))
  simp only [neg_zero, even_two.neg_pow] at h
  rw [h, intervalIntegral.integral_symm]
  ring

theorem gammaP_int (a x : ℝ) (ha : 0 < a) (b : ℝ) :
    IntervalIntegrable (fun t : ℝ => t ^ (a - 1) * exp (-t)) MeasureTheory.volume x b := by
  refine (intervalIntegral.intervalIntegrable_rpow' (by linarith)).mul_continuousOn ?_
  fun_prop

theorem gammaP_zero (a : ℝ) : gammaP a 0 = 0 := by simp [gammaP]

theorem gammaP_strictMono (a : ℝ) (ha : 0 < a) : StrictMonoOn (gammaP a) (Set.Ici 0) := by
  intro x hx y hy hxy
  have hs := intervalIntegral.integral_interval_sub_left (gammaP_int a 0 ha y) (gammaP_int a 0 ha x)
  have hp : 0 < ∫ t in x..y, t ^ (a - 1) * exp (-t) := by
    refine intervalIntegral.intervalIntegral_pos_of_pos_on (gammaP_int a x ha y) (fun t ht => ?_) hxy
    have : 0 < t := lt_of_le_of_lt hx ht.1
    positivity
  unfold gammaP
  refine div_lt_div_of_pos_right ?_ (Gamma_pos_of_pos ha)
  linarith

/-- inverses exist -/
example : ∃ f, IsErfInv f := ⟨Function.invFun erfR, Function.leftInverse_invFun erfR_strictMono.injective⟩

example : ∃ f, IsGammaInv f := by
  classical
  refine ⟨fun a => Function.invFunOn (gammaP a) (Set.Ici 0), fun a ha x hx => ?_⟩
  exact (gammaP_strictMono a ha).injOn.leftInvOn_invFunOn hx

/-! ## C93: emission energies -/

/-- measure of the draws below a bound -/
theorem volume_draws (c : ℝ) (h0 : 0 ≤ c) (h1 : c ≤ 1) :
    MeasureTheory.volume {u : ℝ | (0 ≤ u ∧ u ≤ 1) ∧ u ≤ c} = ENNReal.ofReal c := by
  have : {u : ℝ | (0 ≤ u ∧ u ≤ 1) ∧ u ≤ c} = Set.Icc 0 c := by
    ext u
    simp only [Set.mem_setOf_eq, Set.mem_Icc]
    constructor
    · rintro ⟨⟨a, -⟩, b⟩; exact ⟨a, b⟩
    · rintro ⟨a, b⟩; exact ⟨⟨a, by linarith⟩, b⟩
  rw [this, Real.volume_Icc, sub_zero]

/-- **C93**, rediffused electrons: the energy is between 0 and that of the impact, and the energies follow the law
`(q+1) E^q / E0^(q+1)` of the Furman-Pivi paper. -/
theorem C93_rediffused (q e0 : ℝ) (hq : -1 < q) (he : 0 < e0) :
    (∀ u, 0 ≤ u → u ≤ 1 → 0 ≤ fpEnRed q e0 u ∧ fpEnRed q e0 u ≤ e0) ∧
    ∀ e, 0 ≤ e → e ≤ e0 →
      MeasureTheory.volume {u : ℝ | (0 ≤ u ∧ u ≤ 1) ∧ fpEnRed q e0 u ≤ e} = ENNReal.ofReal (redCDF q e0 e) := by
  have hq1 : 0 < q + 1 := by linarith
  constructor
  · intro u h0 h1
    unfold fpEnRed
    have a := rpow_nonneg h0 (1 / (q + 1))
    have b := rpow_le_one h0 h1 (by positivity : 0 ≤ 1 / (q + 1))
    exact ⟨mul_nonneg a he.le, by nlinarith⟩
  · intro e h0 h1
    have hc : redCDF q e0 e = (e / e0) ^ (q + 1) := by
      unfold redCDF
      rw [div_rpow h0 he.le]
    have hd : 0 ≤ e / e0 := div_nonneg h0 he.le
    have hd1 : e / e0 ≤ 1 := (div_le_one he).2 h1
    rw [← volume_draws (redCDF q e0 e) (by rw [hc]; exact rpow_nonneg hd _) (by rw [hc]; exact rpow_le_one hd hd1 hq1.le)]
    congr 1
    ext u
    simp only [Set.mem_setOf_eq]
    refine and_congr_right fun hu => ?_
    unfold fpEnRed
    rw [hc, ← le_div_iff₀ he, one_div, rpow_inv_le_iff_of_pos hu.1 hd hq1]

theorem erfR_continuous : Continuous erfR := by
  unfold erfR
  exact continuous_const.mul (intervalIntegral.continuous_primitive erf_integrand_int 0)

theorem gammaP_continuous (a : ℝ) (ha : 0 < a) : Continuous (gammaP a) := by
  unfold gammaP
  exact (intervalIntegral.continuous_primitive (fun x b => gammaP_int a x ha b) 0).div_const _

/-- what `erfinv` returns for a draw -/
theorem erf_draw (erfinv : ℝ → ℝ) (hinv : IsErfInv erfinv) (x0 u : ℝ) (hx : 0 ≤ x0) (h0 : 0 ≤ u) (h1 : u ≤ 1) :
    ∃ x, erfinv ((u - 1) * erfR x0) = x ∧ erfR x = (u - 1) * erfR x0 ∧ -x0 ≤ x ∧ x ≤ 0 := by
  have hE : 0 ≤ erfR x0 := by
    rw [← erfR_zero]; exact erfR_strictMono.monotone hx
  obtain ⟨x, hx1, hx2⟩ := intermediate_value_Icc (by linarith : -x0 ≤ 0) erfR_continuous.continuousOn
    (show (u - 1) * erfR x0 ∈ Set.Icc (erfR (-x0)) (erfR 0) by
      rw [erfR_neg, erfR_zero]
      constructor <;> nlinarith)
  exact ⟨x, by rw [← hx2, hinv], hx2, hx1.1, hx1.2⟩

/-- **C93**, backscattered electrons: the energy is between 0 and that of the impact and follows the truncated Gaussian law
of the paper. -/
theorem C93_backscattered (erfinv : ℝ → ℝ) (hinv : IsErfInv erfinv) (sg e0 : ℝ) (hs : 0 < sg) (he : 0 < e0) :
    (∀ u, 0 ≤ u → u ≤ 1 → 0 ≤ fpEnBack erfR erfinv sg e0 u ∧ fpEnBack erfR erfinv sg e0 u ≤ e0) ∧
    ∀ e, 0 ≤ e → e ≤ e0 → MeasureTheory.volume {u : ℝ | (0 ≤ u ∧ u ≤ 1) ∧ fpEnBack erfR erfinv sg e0 u ≤ e} =
      ENNReal.ofReal (backCDF sg e0 e) := by
  have hk : 0 < √2 * sg := by positivity
  set x0 := e0 / (√2 * sg) with hx0
  have hx0p : 0 < x0 := div_pos he hk
  have hE : 0 < erfR x0 := by rw [← erfR_zero]; exact erfR_strictMono hx0p
  constructor
  · intro u h0 h1
    obtain ⟨x, e1, -, e3, e4⟩ := erf_draw erfinv hinv x0 u hx0p.le h0 h1
    unfold fpEnBack
    rw [← hx0, e1]
    have : √2 * sg * x0 = e0 := by rw [hx0]; field_simp
    constructor <;> nlinarith
  · intro e h0 h1
    have hf : 0 ≤ (e0 - e) / (√2 * sg) := div_nonneg (by linarith) hk.le
    have hF0 : 0 ≤ erfR ((e0 - e) / (√2 * sg)) := by rw [← erfR_zero]; exact erfR_strictMono.monotone hf
    have hF1 : erfR ((e0 - e) / (√2 * sg)) ≤ erfR x0 :=
      erfR_strictMono.monotone (div_le_div_of_nonneg_right (by linarith) hk.le)
    have hc0 : 0 ≤ backCDF sg e0 e := by
      unfold backCDF
      rw [← hx0, sub_nonneg, div_le_one hE]
      exact hF1
    have hc1 : backCDF sg e0 e ≤ 1 := by
      unfold backCDF
      rw [← hx0]
      have := div_nonneg hF0 hE.le
      linarith
    rw [← volume_draws _ hc0 hc1]
    congr 1
    ext u
    simp only [Set.mem_setOf_eq]
    refine and_congr_right fun hu => ?_
    obtain ⟨x, e1, e2, -, -⟩ := erf_draw erfinv hinv x0 u hx0p.le hu.1 hu.2
    unfold fpEnBack backCDF
    rw [← hx0, e1]
    have h2 : e0 + √2 * sg * x ≤ e ↔ x ≤ -((e0 - e) / (√2 * sg)) := by
      rw [← neg_div, le_div_iff₀ hk]
      constructor <;> intro h <;> linarith
    rw [h2, ← erfR_strictMono.le_iff_le, erfR_neg, e2, le_sub_iff_add_le, ← le_sub_iff_add_le', div_le_iff₀ hE]
    constructor <;> intro h <;> nlinarith

/-- **C93**: the modified width used for backscattered energies is positive for the standard `sigmaE` and grows with the
energy of the impact. -/
theorem C93_sigma (sigmaE e0 : ℝ) (m : Bool) (h : 1.88 ≤ sigmaE) :
    0 < fpSigma m sigmaE e0 ∧ fpSigma m sigmaE e0 < sigmaE - 1.88 + 5 + (if m then 0 else 1.88) := by
  unfold fpSigma
  have h1 := neg_one_lt_tanh (1e-2 * (e0 - 1.5e2))
  have h2 := tanh_lt_one (1e-2 * (e0 - 1.5e2))
  cases m
  · simp only [Bool.false_eq_true, if_false]
    constructor <;> norm_num at h ⊢ <;> linarith
  · simp only [if_true]
    constructor <;> nlinarith

/-- what `gammaincinv` returns for a draw -/
theorem gamma_draw (inv : ℝ → ℝ → ℝ) (hinv : IsGammaInv inv) (p x0 y : ℝ) (hp : 0 < p) (hx : 0 ≤ x0) (h0 : 0 ≤ y)
    (h1 : y ≤ gammaP p x0) : ∃ x, inv p y = x ∧ gammaP p x = y ∧ 0 ≤ x ∧ x ≤ x0 := by
  obtain ⟨x, hx1, hx2⟩ := intermediate_value_Icc hx (gammaP_continuous p hp).continuousOn
    (show y ∈ Set.Icc (gammaP p 0) (gammaP p x0) by rw [gammaP_zero]; exact ⟨h0, h1⟩)
  exact ⟨x, by rw [← hx2, hinv p hp x hx1.1], hx2, hx1.1, hx1.2⟩

/-- **C93**, true secondaries: the energy of each electron is between 0 and that of the impact, and the energies follow the
law of the paper for the given number of electrons (`E^(p_n - 1) exp(-E/eps_n)` cut at the energy of the impact); only the
resolution of the code (10^-12 in probability) limits this. -/
theorem C93_true (inv : ℝ → ℝ → ℝ) (hinv : IsGammaInv inv) (epsN pN : List ℝ) (nn : ℕ) (hn : 1 ≤ nn) (eps p : ℝ)
    (heps : epsN[nn - 1]? = some eps) (hpn : pN[nn - 1]? = some p) (h0 : 0 < eps) (hp : 0 < p) (e0 : ℝ) (he : 0 < e0) :
    (∀ u, 0 ≤ u → u ≤ 1 → ∃ en, fpEnTrue gammaP inv epsN pN nn e0 u = .ok en ∧ 0 ≤ en ∧ en ≤ e0) ∧
    ∀ e, 0 ≤ e → e ≤ e0 → 1e-12 ≤ gammaP p (e / eps) →
      MeasureTheory.volume {u : ℝ | (0 ≤ u ∧ u ≤ 1) ∧ ∃ en, fpEnTrue gammaP inv epsN pN nn e0 u = .ok en ∧ en ≤ e} =
        ENNReal.ofReal (trueCDF eps p e0 e) := by
  have hget : ∀ (l : List ℝ) (a : ℝ), l[nn - 1]? = some a → pyGet l ((nn : ℤ) - 1) = .ok a := by
    intro l a h
    unfold pyGet
    have e1 : ¬ ((nn : ℤ) - 1 < 0) := by omega
    have e2 : ((nn : ℤ) - 1).toNat = nn - 1 := by omega
    simp only [e1, if_false, e2, h]
  set x0 := e0 / eps with hx0
  have hx0p : 0 < x0 := div_pos he h0
  have hA : 0 < gammaP p x0 := by
    rw [← gammaP_zero p]
    exact gammaP_strictMono p hp (Set.mem_Ici.2 le_rfl) (Set.mem_Ici.2 hx0p.le) hx0p
  have hrun : ∀ u, 0 ≤ u → u ≤ 1 → ∃ x, fpEnTrue gammaP inv epsN pN nn e0 u = .ok (eps * x) ∧
      gammaP p x = (if u * gammaP p x0 < 1e-12 then 0 else u * gammaP p x0) ∧ 0 ≤ x ∧ x ≤ x0 := by
    intro u hu0 hu1
    have hxx : u / (1 / gammaP p x0) = u * gammaP p x0 := by rw [div_div_eq_mul_div, div_one]
    obtain ⟨x, e1, e2, e3, e4⟩ := gamma_draw inv hinv p x0 (if u * gammaP p x0 < 1e-12 then 0 else u * gammaP p x0) hp
      hx0p.le (by split <;> [exact le_refl _; positivity]) (by split <;> [exact hA.le; nlinarith])
    refine ⟨x, ?_, e2, e3, e4⟩
    unfold fpEnTrue
    rw [hget _ _ heps, hget _ _ hpn]
    simp only [← hx0, hxx]
    rw [e1]
  constructor
  · intro u hu0 hu1
    obtain ⟨x, e1, -, e3, e4⟩ := hrun u hu0 hu1
    refine ⟨_, e1, by positivity, ?_⟩
    have : eps * x0 = e0 := by rw [hx0]; field_simp
    nlinarith
  · intro e hel heu hG
    have hm := gammaP_strictMono p hp
    have hde : 0 ≤ e / eps := div_nonneg hel h0.le
    have hG1 : gammaP p (e / eps) ≤ gammaP p x0 :=
      hm.monotoneOn (Set.mem_Ici.2 hde) (Set.mem_Ici.2 hx0p.le) (div_le_div_of_nonneg_right heu h0.le)
    have hG0 : 0 ≤ gammaP p (e / eps) := le_trans (by norm_num) hG
    rw [← volume_draws (trueCDF eps p e0 e) (div_nonneg hG0 hA.le) ((div_le_one hA).2 hG1)]
    congr 1
    ext u
    simp only [Set.mem_setOf_eq]
    refine and_congr_right fun hu => ?_
    obtain ⟨x, e1, e2, e3, -⟩ := hrun u hu.1 hu.2
    have h2 : (∃ en, fpEnTrue gammaP inv epsN pN nn e0 u = .ok en ∧ en ≤ e) ↔ eps * x ≤ e := by
      constructor
      · rintro ⟨en, h, hle⟩
        rw [e1] at h
        cases h
        exact hle
      · intro h
        exact ⟨_, e1, h⟩
    rw [h2, ← le_div_iff₀' h0, ← hm.le_iff_le (Set.mem_Ici.2 e3) (Set.mem_Ici.2 hde), e2]
    unfold trueCDF
    rw [← hx0, le_div_iff₀ hA]
    split
    · next h => exact ⟨fun _ => by linarith, fun _ => hG0⟩
    · exact Iff.rfl

/-! ## a concrete surface -/

/-- copper-like parameters -/
noncomputable def fpCopper : FPPar where
  scale := true
  shift := true
  useEcloudTheta := false
  p1EInf := 0.02
  p1Ehat := 0.496
  eEHat := 0
  w := 60.86
  p := 1
  e1 := 0.26
  e2 := 2
  clipE := 0
  p1RInf := 0.2
  eR := 0.041
  r := 0.104
  q := 0.5
  r1 := 0.26
  r2 := 2
  clipR := 0
  deltaTSHat := 1.8848
  eHat0 := 276.8
  s := 1.54
  t1 := 0.66
  t2 := 0.8
  t3 := 0.7
  t4 := 1

theorem fpCopper_valid : fpCopper.Valid := by
  constructor <;> norm_num [fpCopper]

example : fpDeltaE fpCopper 0 1 = 0.496 ∧ fpDeltaTS fpCopper 276.8 1 = 1.8848 :=
  ⟨(C91_elastic fpCopper fpCopper_valid 0).2.2, (C91_true fpCopper fpCopper_valid).2.1⟩

/-- the hypotheses of C92 hold for all energies at normal incidence -/
theorem fpCopper_sum (e : ℝ) (he : 0 ≤ e) : 0 ≤ fpDeltaE fpCopper e 1 ∧ 0 ≤ fpDeltaR fpCopper e 1 ∧
    fpDeltaE fpCopper e 1 + fpDeltaR fpCopper e 1 < 1 := by
  obtain ⟨h1, h2, -⟩ := C91_elastic fpCopper fpCopper_valid e
  obtain ⟨-, h3, -, h4, -⟩ := C91_rediffused fpCopper fpCopper_valid e e he le_rfl
  have a : min fpCopper.p1EInf fpCopper.p1Ehat = 0.02 := by norm_num [fpCopper]
  have b : max fpCopper.p1EInf fpCopper.p1Ehat = 0.496 := by norm_num [fpCopper]
  have c : fpCopper.p1RInf = 0.2 := rfl
  rw [a] at h1
  rw [b] at h2
  rw [c] at h4
  norm_num at *
  refine ⟨by linarith, h3, by linarith⟩

example : fpClip (some (1 / 2)) = .ok (cos (1 / 2)) := by
  simp only [fpClip]
  rw [if_pos ⟨by norm_num, by linarith [Real.two_le_pi]⟩]

example : 0 < fpSigma true 2 100 := (C93_sigma 2 100 true (by norm_num)).1

end PyECLOUD
