import Verif.Lemmas.FaddeevaDeriv
import Verif.Spec.GaussBeam
import Mathlib.Analysis.Complex.Conformal
import Mathlib.Analysis.Complex.Liouville
import Mathlib.MeasureTheory.Integral.IntervalIntegral.FundThmCalculus

/-!
# The formula of Bassetti and Erskine solves Maxwell's equations, for C174
-/

namespace PyECLOUD

open Filter Topology Complex MeasureTheory

/-- `Ey + i Ex`. -/
noncomputable def fieldC : ℝ × ℝ →L[ℝ] ℂ :=
  ofRealCLM.comp (ContinuousLinearMap.snd ℝ ℝ ℝ) + I • ofRealCLM.comp (ContinuousLinearMap.fst ℝ ℝ ℝ)

theorem fieldC_apply (p : ℝ × ℝ) : fieldC p = p.2 + I * p.1 := by
  simp [fieldC]

/-- The field of a beam is unique. -/
theorem beamField_unique (eps0 sx sy : ℝ) (E F : ℂ → ℝ × ℝ) (hE : IsBeamField eps0 sx sy E) (hF : IsBeamField eps0 sx sy F) : E = F := by
  have hd : Differentiable ℝ fun z => fieldC (E z - F z) := fieldC.differentiable.comp (hE.diff.sub hF.diff)
  have hc : Differentiable ℂ fun z => fieldC (E z - F z) := fun z => by
    refine differentiableAt_complex_iff_differentiableAt_real.2 ⟨hd z, ?_⟩
    have hD : HasFDerivAt (fun z => fieldC (E z - F z)) (fieldC.comp (fderiv ℝ E z - fderiv ℝ F z)) z :=
      fieldC.hasFDerivAt.comp z ((hE.diff z).hasFDerivAt.sub (hF.diff z).hasFDerivAt)
    rw [hD.fderiv]
    have g1 := hE.gauss z
    have g2 := hF.gauss z
    have c1 := hE.curl z
    have c2 := hF.curl z
    simp only [ContinuousLinearMap.comp_apply, ContinuousLinearMap.sub_apply, fieldC_apply, Prod.fst_sub, Prod.snd_sub, smul_eq_mul]
    have h1 : ((fderiv ℝ E z I).2 - (fderiv ℝ F z I).2) = -((fderiv ℝ E z 1).1 - (fderiv ℝ F z 1).1) := by linarith
    have h2 : ((fderiv ℝ E z I).1 - (fderiv ℝ F z I).1) = ((fderiv ℝ E z 1).2 - (fderiv ℝ F z 1).2) := by linarith
    rw [h1, h2]
    push_cast
    linear_combination (-((fderiv ℝ E z 1).1 - (fderiv ℝ F z 1).1 : ℂ)) * I_sq
  have ht : Tendsto (fun z => fieldC (E z - F z)) (cocompact ℂ) (𝓝 0) := by
    have h0 : Tendsto (fun z => E z - F z) (cocompact ℂ) (𝓝 0) := by simpa using hE.far.sub hF.far
    have h := (fieldC.continuous.tendsto 0).comp h0
    rw [map_zero] at h
    exact h
  funext z
  have h := hc.apply_eq_of_tendsto_cocompact z ht
  rw [fieldC_apply] at h
  have h1 := congrArg Complex.re h
  have h2 := congrArg Complex.im h
  simp at h1 h2
  exact Prod.ext (by linarith) (by linarith)

/-- The beam seen with x and y exchanged. -/
theorem beamField_swap (eps0 sx sy : ℝ) (E : ℂ → ℝ × ℝ) (hE : IsBeamField eps0 sx sy E) :
    IsBeamField eps0 sy sx fun z => (E ⟨z.im, z.re⟩).swap := by
  let L : ℂ →L[ℝ] ℂ := ofRealCLM.comp imCLM + I • ofRealCLM.comp reCLM
  have hL : ∀ z : ℂ, L z = ⟨z.im, z.re⟩ := fun z => by apply Complex.ext <;> simp [L]
  let W : ℝ × ℝ →L[ℝ] ℝ × ℝ := (ContinuousLinearMap.snd ℝ ℝ ℝ).prod (ContinuousLinearMap.fst ℝ ℝ ℝ)
  have hfun : (fun z : ℂ => (E ⟨z.im, z.re⟩).swap) = fun z => W (E (L z)) := by
    funext z
    rw [hL]
    rfl
  have hD : ∀ z, HasFDerivAt (fun z => W (E (L z))) (W.comp ((fderiv ℝ E (L z)).comp L)) z := fun z =>
    W.hasFDerivAt.comp z ((hE.diff (L z)).hasFDerivAt.comp z L.hasFDerivAt)
  have hL1 : L 1 = I := by rw [hL]; apply Complex.ext <;> simp
  have hLI : L I = 1 := by rw [hL]; apply Complex.ext <;> simp
  rw [hfun]
  refine ⟨fun z => (hD z).differentiableAt, fun z => ?_, fun z => ?_, ?_⟩
  · rw [(hD z).fderiv]
    have h := hE.gauss (L z)
    simp only [ContinuousLinearMap.comp_apply, hL1, hLI]
    have e : gaussDensity sy sx z = gaussDensity sx sy (L z) := by
      rw [hL, gaussDensity, gaussDensity]
      ring_nf
    rw [e, ← h]
    exact add_comm _ _
  · rw [(hD z).fderiv]
    have h := hE.curl (L z)
    simp only [ContinuousLinearMap.comp_apply, hL1, hLI]
    show (fderiv ℝ E (L z) I).1 - (fderiv ℝ E (L z) 1).2 = 0
    linarith
  · have hLc : Tendsto L (cocompact ℂ) (cocompact ℂ) := by
      have hn : ∀ z, ‖L z‖ = ‖z‖ := fun z => by
        rw [hL, Complex.norm_def, Complex.norm_def, Complex.normSq_mk, Complex.normSq_apply, add_comm]
      rw [← Metric.cobounded_eq_cocompact, ← tendsto_norm_atTop_iff_cobounded]
      simp only [hn]
      exact tendsto_norm_cobounded_atTop
    have h := (W.continuous.tendsto 0).comp (hE.far.comp hLc)
    rw [map_zero] at h
    exact h

/-- The formula of Bassetti and Erskine with the exact complex error function, for `sy < sx`: `Ey + i Ex`. -/
noncomputable def beF (eps0 sx sy : ℝ) (z : ℂ) : ℂ :=
  (1 / (2 * eps0 * √Real.pi * √(2 * (sx * sx - sy * sy))) : ℝ) *
    (faddeeva (z / (√(2 * (sx * sx - sy * sy)) : ℝ)) -
      (Real.exp (-z.re * z.re / (2 * sx * sx) - z.im * z.im / (2 * sy * sy)) : ℝ) *
        faddeeva (⟨sy / sx * z.re / √(2 * (sx * sx - sy * sy)), sx / sy * z.im / √(2 * (sx * sx - sy * sy))⟩))

/-- Derivative of the formula in a direction. -/
theorem beF_deriv (eps0 sx sy : ℝ) (hy : 0 < sy) (hx : sy < sx) (z : ℂ) :
    ∃ D : ℂ →L[ℝ] ℂ, HasFDerivAt (beF eps0 sx sy) D z ∧ D I = I * D 1 + (gaussDensity sx sy z / eps0 : ℝ) := by
  have hx0 : 0 < sx := hy.trans hx
  have hS : 0 < 2 * (sx * sx - sy * sy) := by nlinarith
  set s := √(2 * (sx * sx - sy * sy)) with hs
  have hs0 : 0 < s := Real.sqrt_pos.2 hS
  have hss : s ^ 2 = 2 * (sx * sx - sy * sy) := Real.sq_sqrt hS.le
  set fact : ℝ := 1 / (2 * eps0 * √Real.pi * s) with hfact
  let reL : ℂ →L[ℝ] ℂ := ofRealCLM.comp reCLM
  let imL : ℂ →L[ℝ] ℂ := ofRealCLM.comp imCLM
  -- the two arguments
  have hsC : (s : ℂ) ≠ 0 := by exact_mod_cast hs0.ne'
  let L1 : ℂ →L[ℝ] ℂ := (1 / (s : ℂ)) • ContinuousLinearMap.id ℝ ℂ
  let L2 : ℂ →L[ℝ] ℂ := ((sy / sx / s : ℝ) : ℂ) • reL + (I * ((sx / sy / s : ℝ) : ℂ)) • imL
  have hL1 : ∀ w : ℂ, L1 w = w / s := fun w => by simp [L1]; ring
  have hL2 : ∀ w : ℂ, L2 w = ⟨sy / sx * w.re / s, sx / sy * w.im / s⟩ := fun w => by
    apply Complex.ext
    · simp [L2, reL, imL]; ring
    · simp [L2, reL, imL]; ring
  let Q : ℂ → ℂ := fun w => ((-(1 / (2 * sx * sx)) : ℝ) : ℂ) * ((w.re : ℂ) * (w.re : ℂ)) + ((-(1 / (2 * sy * sy)) : ℝ) : ℂ) * ((w.im : ℂ) * (w.im : ℂ))
  have hQ : ∀ w : ℂ, cexp (Q w) = (Real.exp (-w.re * w.re / (2 * sx * sx) - w.im * w.im / (2 * sy * sy)) : ℝ) := fun w => by
    rw [Complex.ofReal_exp]
    congr 1
    simp only [Q]
    push_cast
    ring
  have hre : HasFDerivAt (fun w : ℂ => (w.re : ℂ)) reL z := reL.hasFDerivAt
  have him : HasFDerivAt (fun w : ℂ => (w.im : ℂ)) imL z := imL.hasFDerivAt
  have hQ' := ((hre.mul hre).const_mul ((-(1 / (2 * sx * sx)) : ℝ) : ℂ)).add ((him.mul him).const_mul ((-(1 / (2 * sy * sy)) : ℝ) : ℂ))
  have hW1 := ((faddeeva_deriv (L1 z)).hasFDerivAt.restrictScalars ℝ).comp z L1.hasFDerivAt
  have hW2 := ((faddeeva_deriv (L2 z)).hasFDerivAt.restrictScalars ℝ).comp z L2.hasFDerivAt
  have hall := (hW1.sub (hQ'.cexp.mul hW2)).const_mul (fact : ℂ)
  have hfun : (beF eps0 sx sy) = fun w => (fact : ℂ) * ((faddeeva ∘ L1) w - cexp (Q w) * (faddeeva ∘ L2) w) := by
    funext w
    rw [beF, Function.comp, Function.comp, hL1, hL2, hQ]
  refine ⟨_, by rw [hfun]; exact hall, ?_⟩
  have hpi : (0 : ℝ) < √Real.pi := Real.sqrt_pos.2 Real.pi_pos
  have hpp : √Real.pi * √Real.pi = Real.pi := Real.mul_self_sqrt Real.pi_pos.le
  have hpq : 2 * (sx / sy / s - sy / sx / s) = s / (sx * sy) := by
    have : 2 * (sx / sy / s - sy / sx / s) = 2 * (sx * sx - sy * sy) / (sx * sy * s) := by field_simp
    rw [this, ← hss]
    field_simp
  have k3 : ((sy / sx / s : ℝ) : ℂ) * (2 * (((sx / sy / s : ℝ) : ℂ) - ((sy / sx / s : ℝ) : ℂ))) = ((1 / (2 * sx * sx) : ℝ) : ℂ) * 2 := by
    have : sy / sx / s * (2 * (sx / sy / s - sy / sx / s)) = 1 / (2 * sx * sx) * 2 := by
      rw [hpq]
      field_simp
    exact_mod_cast this
  have k4 : ((sx / sy / s : ℝ) : ℂ) * (2 * (((sx / sy / s : ℝ) : ℂ) - ((sy / sx / s : ℝ) : ℂ))) = ((1 / (2 * sy * sy) : ℝ) : ℂ) * 2 := by
    have : sx / sy / s * (2 * (sx / sy / s - sy / sx / s)) = 1 / (2 * sy * sy) * 2 := by
      rw [hpq]
      field_simp
    exact_mod_cast this
  have hdens : (fact : ℂ) * cexp (Q z) * (2 / ((√Real.pi : ℝ) : ℂ) * (((sx / sy / s : ℝ) : ℂ) - ((sy / sx / s : ℝ) : ℂ))) =
      ((gaussDensity sx sy z / eps0 : ℝ) : ℂ) := by
    rw [hQ]
    have e1 : Real.exp (-z.re * z.re / (2 * sx * sx) - z.im * z.im / (2 * sy * sy)) =
        Real.exp (-(z.re ^ 2 / (2 * sx ^ 2)) - z.im ^ 2 / (2 * sy ^ 2)) := by
      congr 1
      ring
    have : fact * Real.exp (-z.re * z.re / (2 * sx * sx) - z.im * z.im / (2 * sy * sy)) * (2 / √Real.pi * (sx / sy / s - sy / sx / s)) =
        gaussDensity sx sy z / eps0 := by
      rw [gaussDensity, e1, show 2 / √Real.pi * (sx / sy / s - sy / sx / s) = 1 / √Real.pi * (2 * (sx / sy / s - sy / sx / s)) by ring, hpq, hfact,
        ← hpp, Real.sqrt_mul_self hpi.le]
      generalize Real.exp (-(z.re ^ 2 / (2 * sx ^ 2)) - z.im ^ 2 / (2 * sy ^ 2)) = g
      generalize √Real.pi = p at hpi
      by_cases h0 : eps0 = 0
      · simp [h0]
      · field_simp
    exact_mod_cast this
  have r1 : reL 1 = 1 := by simp [reL]
  have rI : reL I = 0 := by simp [reL]
  have i1 : imL 1 = 0 := by simp [imL]
  have iI : imL I = 1 := by simp [imL]
  have a1 : L1 1 = 1 / s := hL1 1
  have aI : L1 I = I / s := hL1 I
  have b1 : L2 1 = ((sy / sx / s : ℝ) : ℂ) := by simp [L2, r1, i1]
  have bI : L2 I = I * ((sx / sy / s : ℝ) : ℂ) := by simp [L2, rI, iI]
  have bz : L2 z = ((sy / sx / s : ℝ) : ℂ) * z.re + I * ((sx / sy / s : ℝ) : ℂ) * z.im := by simp [L2, reL, imL]
  have hQz : (((-(1 / (2 * sx * sx)) : ℝ) : ℂ) * ((z.re : ℂ) * (z.re : ℂ)) + ((-(1 / (2 * sy * sy)) : ℝ) : ℂ) * ((z.im : ℂ) * (z.im : ℂ))) = Q z := rfl
  rw [Complex.ofReal_neg, Complex.ofReal_neg] at hQz
  simp only [ContinuousLinearMap.smul_apply, ContinuousLinearMap.sub_apply, ContinuousLinearMap.add_apply, ContinuousLinearMap.comp_apply,
    ContinuousLinearMap.coe_restrictScalars', ContinuousLinearMap.toSpanSingleton_apply,
    smul_eq_mul, Function.comp_apply, Pi.add_apply, Pi.mul_apply, r1, rI, i1, iI, a1, aI, b1, bI, hQz, Complex.ofReal_neg]
  generalize faddeeva (L1 z) = w1
  generalize faddeeva (L2 z) = w2
  rw [bz]
  generalize L1 z = l1
  generalize cexp (Q z) = G at hdens ⊢
  generalize ((sx / sy / s : ℝ) : ℂ) = p at k3 k4 hdens ⊢
  generalize ((sy / sx / s : ℝ) : ℂ) = q at k3 k4 hdens ⊢
  generalize ((1 / (2 * sx * sx) : ℝ) : ℂ) = m at k3 ⊢
  generalize ((1 / (2 * sy * sy) : ℝ) : ℂ) = n at k4 ⊢
  linear_combination hdens + (fact : ℂ) * G * w2 * (I * z.re * k3 - z.im * k4) +
    (fact : ℂ) * G * (-(2 / ((√Real.pi : ℝ) : ℂ)) * p + 2 / ((√Real.pi : ℝ) : ℂ) * q + 2 * w2 * p * z.im * (p - q)) * I_sq

end PyECLOUD
