import Verif.Lemmas.Faddeeva
import Mathlib.Analysis.Calculus.MeanValue

/-!
Turning the path of integration of the moments of the complex error function.
-/

namespace PyECLOUD

open MeasureTheory Set Filter Topology Complex

/-- The integrand on the path `u(1 + iτ)`. -/
noncomputable def turnF (n : ℕ) (s : ℂ) (τ u : ℝ) : ℂ :=
  (1 + τ * I) * ((u * (1 + τ * I)) ^ n * cexp (-(u * (1 + τ * I)) ^ 2 - 2 * (u * (1 + τ * I)) * s))

/-- Its derivative in `τ`, up to a factor `i`; also the derivative in `u` of `turnP`. -/
noncomputable def turnD (n : ℕ) (s : ℂ) (τ u : ℝ) : ℂ :=
  (n + 1) * ((u * (1 + τ * I)) ^ n * cexp (-(u * (1 + τ * I)) ^ 2 - 2 * (u * (1 + τ * I)) * s)) +
    (-2 * u ^ 2 * (1 + τ * I) ^ 2 - 2 * u * (1 + τ * I) * s) *
      ((u * (1 + τ * I)) ^ n * cexp (-(u * (1 + τ * I)) ^ 2 - 2 * (u * (1 + τ * I)) * s))

noncomputable def turnP (n : ℕ) (s : ℂ) (τ u : ℝ) : ℂ :=
  u * ((u * (1 + τ * I)) ^ n * cexp (-(u * (1 + τ * I)) ^ 2 - 2 * (u * (1 + τ * I)) * s))

theorem turn_core (n : ℕ) (s p : ℂ) :
    HasDerivAt (fun p : ℂ => p * (p ^ n * cexp (-p ^ 2 - 2 * p * s)))
      ((n + 1) * (p ^ n * cexp (-p ^ 2 - 2 * p * s)) + (-2 * p ^ 2 - 2 * p * s) * (p ^ n * cexp (-p ^ 2 - 2 * p * s))) p := by
  have h1 : HasDerivAt (fun p : ℂ => -p ^ 2 - 2 * p * s) (-(2 * p) - 2 * s) p := by
    have := (((hasDerivAt_id p).pow 2).neg).sub (((hasDerivAt_id p).const_mul 2).mul_const s)
    refine this.congr_deriv ?_
    simp
  have h2 : HasDerivAt (fun p : ℂ => p ^ (n + 1) * cexp (-p ^ 2 - 2 * p * s))
      ((n + 1 : ℂ) * p ^ n * cexp (-p ^ 2 - 2 * p * s) + p ^ (n + 1) * (cexp (-p ^ 2 - 2 * p * s) * (-(2 * p) - 2 * s))) p := by
    have := ((hasDerivAt_id p).pow (n + 1)).mul h1.cexp
    refine this.congr_deriv ?_
    simp
  have h3 : (fun p : ℂ => p * (p ^ n * cexp (-p ^ 2 - 2 * p * s))) = fun p : ℂ => p ^ (n + 1) * cexp (-p ^ 2 - 2 * p * s) := by
    ext p; ring
  rw [h3]
  refine h2.congr_deriv ?_
  ring

theorem turnF_deriv (n : ℕ) (s : ℂ) (τ u : ℝ) (hu : 0 < u) : HasDerivAt (fun τ => turnF n s τ u) (I * turnD n s τ u) τ := by
  have hu' : (u : ℂ) ≠ 0 := by exact_mod_cast hu.ne'
  have h1 : HasDerivAt (fun τ : ℝ => (u : ℂ) * (1 + τ * I)) (u * I) τ := by
    have h := ((Complex.ofRealCLM.hasDerivAt (x := τ)).mul_const I).const_add 1
    refine (h.const_mul (u : ℂ)).congr_deriv ?_
    simp
  have h2 := ((turn_core n s (u * (1 + τ * I))).comp τ h1).const_mul ((u : ℂ)⁻¹)
  have e : (fun τ => turnF n s τ u) = fun τ : ℝ => (u : ℂ)⁻¹ * ((fun p : ℂ => p * (p ^ n * cexp (-p ^ 2 - 2 * p * s))) ∘
      fun τ : ℝ => (u : ℂ) * (1 + τ * I)) τ := by
    ext τ
    simp only [turnF, Function.comp]
    field_simp
  rw [e]
  refine h2.congr_deriv ?_
  rw [turnD]
  field_simp

theorem turnP_deriv (n : ℕ) (s : ℂ) (τ u : ℝ) : HasDerivAt (fun u => turnP n s τ u) (turnD n s τ u) u := by
  have hc : (1 + τ * I : ℂ) ≠ 0 := fun h => by have := congrArg Complex.re h; simp at this
  have h1 : HasDerivAt (fun u : ℝ => (u : ℂ) * (1 + τ * I)) (1 + τ * I) u := by
    refine ((Complex.ofRealCLM.hasDerivAt (x := u)).mul_const (1 + τ * I : ℂ)).congr_deriv ?_
    simp
  have h2 := ((turn_core n s (u * (1 + τ * I))).comp u h1).const_mul ((1 + τ * I : ℂ)⁻¹)
  have e : (fun u => turnP n s τ u) = fun u : ℝ => (1 + τ * I : ℂ)⁻¹ * ((fun p : ℂ => p * (p ^ n * cexp (-p ^ 2 - 2 * p * s))) ∘
      fun u : ℝ => (u : ℂ) * (1 + τ * I)) u := by
    ext u
    simp only [turnP, Function.comp]
    field_simp
  rw [e]
  refine h2.congr_deriv ?_
  rw [turnD]
  field_simp

/-- The weight that dominates everything. -/
noncomputable def turnW (x u : ℝ) : ℝ := Real.exp (x ^ 2) * Real.exp (-(1 / 2) * u ^ 2) + Real.exp (-(x * u))

theorem turnW_nonneg (x u : ℝ) : 0 ≤ turnW x u := by unfold turnW; positivity

theorem turnW_int (n : ℕ) (x : ℝ) (hx : 0 < x) : IntegrableOn (fun u => u ^ n * turnW x u) (Ioi 0) := by
  have h := ((pow_exp_sq_int n (1 / 2) (by norm_num)).const_mul (Real.exp (x ^ 2))).add (pow_exp_int n x hx)
  refine h.congr (Eventually.of_forall fun u => ?_)
  simp only [turnW, Pi.add_apply]
  ring

theorem turn_exp (x y τ u : ℝ) :
    ‖cexp (-(u * (1 + τ * I)) ^ 2 - 2 * (u * (1 + τ * I)) * (⟨y, -x⟩ : ℂ))‖ =
      Real.exp (-(u ^ 2 * (1 - τ ^ 2)) - 2 * u * (y + τ * x)) := by
  rw [Complex.norm_exp]
  congr 1
  simp [sq]
  ring

theorem turn_exp_le (x y τ u : ℝ) (hx : 0 < x) (hy : 0 ≤ y) (hu : 0 ≤ u) (h0 : -(1 / 2) ≤ τ) (h1 : τ ≤ 1) :
    Real.exp (-(u ^ 2 * (1 - τ ^ 2)) - 2 * u * (y + τ * x)) ≤ turnW x u := by
  unfold turnW
  have huy : 0 ≤ u * y := by positivity
  have hux : 0 ≤ u * x := by positivity
  by_cases h : τ ≤ 1 / 2
  · refine le_trans ?_ (le_add_of_nonneg_right (Real.exp_pos _).le)
    rw [← Real.exp_add]
    refine Real.exp_le_exp.2 ?_
    have e1 : u ^ 2 * τ ^ 2 ≤ u ^ 2 * (1 / 4) := by
      refine mul_le_mul_of_nonneg_left ?_ (sq_nonneg u)
      nlinarith
    have e2 : -(u * x) ≤ 2 * (u * x) * τ := by nlinarith
    nlinarith [sq_nonneg (u / 2 - x)]
  · refine le_trans ?_ (le_add_of_nonneg_left (by positivity))
    refine Real.exp_le_exp.2 ?_
    have e1 : u ^ 2 * τ ^ 2 ≤ u ^ 2 * 1 := by
      refine mul_le_mul_of_nonneg_left ?_ (sq_nonneg u)
      nlinarith
    have e2 : u * x ≤ 2 * (u * x) * τ := by nlinarith
    nlinarith

theorem turn_c (τ : ℝ) (h0 : -(1 / 2) ≤ τ) (h1 : τ ≤ 1) : ‖(1 + τ * I : ℂ)‖ ≤ 2 := by
  refine (norm_add_le _ _).trans ?_
  rw [norm_one, norm_mul, norm_I, mul_one, Complex.norm_real, Real.norm_eq_abs]
  have : |τ| ≤ 1 := abs_le.2 ⟨by linarith, h1⟩
  linarith

theorem turn_pow_le (n : ℕ) (x y τ u : ℝ) (hx : 0 < x) (hy : 0 ≤ y) (hu : 0 ≤ u) (h0 : -(1 / 2) ≤ τ) (h1 : τ ≤ 1) :
    ‖((u * (1 + τ * I)) ^ n * cexp (-(u * (1 + τ * I)) ^ 2 - 2 * (u * (1 + τ * I)) * (⟨y, -x⟩ : ℂ)) : ℂ)‖
      ≤ 2 ^ n * (u ^ n * turnW x u) := by
  rw [norm_mul, turn_exp, norm_pow, norm_mul, Complex.norm_real, Real.norm_of_nonneg hu, mul_pow]
  calc u ^ n * ‖(1 + τ * I : ℂ)‖ ^ n * Real.exp (-(u ^ 2 * (1 - τ ^ 2)) - 2 * u * (y + τ * x))
      ≤ u ^ n * 2 ^ n * turnW x u := by
        gcongr
        · exact turn_c τ h0 h1
        · exact turn_exp_le x y τ u hx hy hu h0 h1
    _ = 2 ^ n * (u ^ n * turnW x u) := by ring

theorem turnF_le (n : ℕ) (x y τ u : ℝ) (hx : 0 < x) (hy : 0 ≤ y) (hu : 0 ≤ u) (h0 : -(1 / 2) ≤ τ) (h1 : τ ≤ 1) :
    ‖turnF n ⟨y, -x⟩ τ u‖ ≤ 2 * (2 ^ n * (u ^ n * turnW x u)) := by
  rw [turnF, norm_mul]
  have := turn_pow_le n x y τ u hx hy hu h0 h1
  have h2 := turn_c τ h0 h1
  have := turnW_nonneg x u
  gcongr

/-- The bound of the derivative. -/
noncomputable def turnB (n : ℕ) (x y u : ℝ) : ℝ :=
  (n + 1) * (2 ^ n * (u ^ n * turnW x u)) + (8 * (2 ^ n * (u ^ (n + 2) * turnW x u)) + 4 * ‖(⟨y, -x⟩ : ℂ)‖ * (2 ^ n * (u ^ (n + 1) * turnW x u)))

theorem turnD_le (n : ℕ) (x y τ u : ℝ) (hx : 0 < x) (hy : 0 ≤ y) (hu : 0 ≤ u) (h0 : -(1 / 2) ≤ τ) (h1 : τ ≤ 1) :
    ‖turnD n ⟨y, -x⟩ τ u‖ ≤ turnB n x y u := by
  rw [turnD]
  refine (norm_add_le _ _).trans ?_
  have hp := turn_pow_le n x y τ u hx hy hu h0 h1
  have hc := turn_c τ h0 h1
  have hw := turnW_nonneg x u
  have hn : ‖(n + 1 : ℂ)‖ = n + 1 := by
    rw [show (n + 1 : ℂ) = ((n + 1 : ℝ) : ℂ) by push_cast; ring, Complex.norm_real, Real.norm_of_nonneg (by positivity)]
  have hf : ‖(-2 * u ^ 2 * (1 + τ * I) ^ 2 - 2 * u * (1 + τ * I) * (⟨y, -x⟩ : ℂ) : ℂ)‖ ≤ 8 * u ^ 2 + 4 * ‖(⟨y, -x⟩ : ℂ)‖ * u := by
    refine (norm_sub_le _ _).trans ?_
    simp only [norm_mul, norm_pow, norm_neg, Complex.norm_ofNat, Complex.norm_real, Real.norm_of_nonneg hu]
    have e1 : ‖(1 + τ * I : ℂ)‖ ^ 2 ≤ 2 ^ 2 := by gcongr
    have hs := norm_nonneg (⟨y, -x⟩ : ℂ)
    have e2 : 2 * u ^ 2 * ‖(1 + τ * I : ℂ)‖ ^ 2 ≤ 2 * u ^ 2 * 2 ^ 2 := by gcongr
    have e3 : 2 * u * ‖(1 + τ * I : ℂ)‖ * ‖(⟨y, -x⟩ : ℂ)‖ ≤ 2 * u * 2 * ‖(⟨y, -x⟩ : ℂ)‖ := by gcongr
    linarith
  calc _ ≤ (n + 1) * (2 ^ n * (u ^ n * turnW x u)) + (8 * u ^ 2 + 4 * ‖(⟨y, -x⟩ : ℂ)‖ * u) * (2 ^ n * (u ^ n * turnW x u)) :=
        add_le_add (norm_mul_le_of_le hn.le hp) (norm_mul_le_of_le hf hp)
    _ = turnB n x y u := by unfold turnB; ring

theorem turnB_int (n : ℕ) (x y : ℝ) (hx : 0 < x) : IntegrableOn (fun u => turnB n x y u) (Ioi 0) := by
  unfold turnB
  exact (((turnW_int n x hx).const_mul _).const_mul _).add
    ((((turnW_int (n + 2) x hx).const_mul _).const_mul _).add (((turnW_int (n + 1) x hx).const_mul _).const_mul _))

theorem turnF_cont (n : ℕ) (s : ℂ) (τ : ℝ) : Continuous fun u => turnF n s τ u := by unfold turnF; fun_prop

theorem turnD_cont (n : ℕ) (s : ℂ) (τ : ℝ) : Continuous fun u => turnD n s τ u := by unfold turnD; fun_prop

theorem turnF_int (n : ℕ) (x y τ : ℝ) (hx : 0 < x) (hy : 0 ≤ y) (h0 : -(1 / 2) ≤ τ) (h1 : τ ≤ 1) :
    IntegrableOn (fun u => turnF n ⟨y, -x⟩ τ u) (Ioi 0) := by
  refine (((turnW_int n x hx).const_mul (2 ^ n)).const_mul 2).mono' (turnF_cont n _ τ).aestronglyMeasurable.restrict ?_
  exact (ae_restrict_mem measurableSet_Ioi).mono fun u hu => turnF_le n x y τ u hx hy (le_of_lt hu) h0 h1

theorem turnD_int (n : ℕ) (x y τ : ℝ) (hx : 0 < x) (hy : 0 ≤ y) (h0 : -(1 / 2) ≤ τ) (h1 : τ ≤ 1) :
    IntegrableOn (fun u => turnD n ⟨y, -x⟩ τ u) (Ioi 0) := by
  refine (turnB_int n x y hx).mono' (turnD_cont n _ τ).aestronglyMeasurable.restrict ?_
  exact (ae_restrict_mem measurableSet_Ioi).mono fun u hu => turnD_le n x y τ u hx hy (le_of_lt hu) h0 h1

theorem turnW_tendsto (n : ℕ) (x : ℝ) (hx : 0 < x) : Tendsto (fun u => u ^ n * turnW x u) atTop (𝓝 0) := by
  have h1 : Tendsto (fun u : ℝ => u ^ n * Real.exp (-(x * u))) atTop (𝓝 0) := by
    have h := (Real.tendsto_pow_mul_exp_neg_atTop_nhds_zero n).comp (tendsto_id.const_mul_atTop hx)
    have h' := h.const_mul ((x ^ n)⁻¹)
    rw [mul_zero] at h'
    refine h'.congr fun u => ?_
    simp only [Function.comp, id, mul_pow]
    field_simp
  have h2 : Tendsto (fun u : ℝ => Real.exp (x ^ 2) * (u ^ n * Real.exp (-u))) atTop (𝓝 0) := by
    have := (Real.tendsto_pow_mul_exp_neg_atTop_nhds_zero n).const_mul (Real.exp (x ^ 2))
    rwa [mul_zero] at this
  have h3 := h2.add h1
  rw [add_zero] at h3
  refine squeeze_zero' ?_ ?_ h3
  · filter_upwards [eventually_ge_atTop (0 : ℝ)] with u hu
    have := turnW_nonneg x u
    positivity
  · filter_upwards [eventually_ge_atTop (2 : ℝ)] with u hu
    unfold turnW
    have e : Real.exp (-(1 / 2) * u ^ 2) ≤ Real.exp (-u) := Real.exp_le_exp.2 (by nlinarith)
    have hu0 : 0 ≤ u ^ n := by positivity
    have hx0 := (Real.exp_pos (x ^ 2)).le
    calc u ^ n * (Real.exp (x ^ 2) * Real.exp (-(1 / 2) * u ^ 2) + Real.exp (-(x * u)))
        ≤ u ^ n * (Real.exp (x ^ 2) * Real.exp (-u) + Real.exp (-(x * u))) := by gcongr
      _ = _ := by ring

theorem turnD_integral (n : ℕ) (x y τ : ℝ) (hx : 0 < x) (hy : 0 ≤ y) (h0 : -(1 / 2) ≤ τ) (h1 : τ ≤ 1) :
    ∫ u in Ioi (0 : ℝ), turnD n ⟨y, -x⟩ τ u = 0 := by
  have h := integral_Ioi_of_hasDerivAt_of_tendsto' (a := (0 : ℝ)) (fun u _ => turnP_deriv n ⟨y, -x⟩ τ u) (turnD_int n x y τ hx hy h0 h1)
    (m := 0) (by
      rw [tendsto_zero_iff_norm_tendsto_zero]
      have h2 := (turnW_tendsto (n + 1) x hx).const_mul (2 ^ n)
      rw [mul_zero] at h2
      refine squeeze_zero' (Eventually.of_forall fun _ => norm_nonneg _) ?_ h2
      filter_upwards [eventually_ge_atTop (0 : ℝ)] with u hu
      rw [turnP, norm_mul, Complex.norm_real, Real.norm_of_nonneg hu]
      have := turn_pow_le n x y τ u hx hy hu h0 h1
      calc _ ≤ u * (2 ^ n * (u ^ n * turnW x u)) := by gcongr
        _ = _ := by ring)
  rw [h]
  simp [turnP]

/-- The path can be turned by 45 degrees. -/
theorem turn_eq (n : ℕ) (x y : ℝ) (hx : 0 < x) (hy : 0 ≤ y) :
    wMom n ⟨y, -x⟩ = ∫ u in Ioi (0 : ℝ), turnF n ⟨y, -x⟩ 1 u := by
  have hcont : ContinuousOn (fun τ : ℝ => ∫ u in Ioi (0 : ℝ), turnF n ⟨y, -x⟩ τ u) (Icc 0 1) := by
    refine continuousOn_of_dominated (bound := fun u => 2 * (2 ^ n * (u ^ n * turnW x u)))
      (fun τ _ => (turnF_cont n _ τ).aestronglyMeasurable.restrict) (fun τ hτ => ?_)
      (((turnW_int n x hx).const_mul (2 ^ n)).const_mul 2) (Eventually.of_forall fun u => ?_)
    · exact (ae_restrict_mem measurableSet_Ioi).mono fun u hu => turnF_le n x y τ u hx hy (le_of_lt hu) (by linarith [hτ.1]) hτ.2
    · refine Continuous.continuousOn ?_
      unfold turnF
      fun_prop
  have hderiv : ∀ τ ∈ Ico (0 : ℝ) 1, HasDerivWithinAt (fun τ : ℝ => ∫ u in Ioi (0 : ℝ), turnF n ⟨y, -x⟩ τ u) 0 (Ici τ) τ := by
    intro τ hτ
    have hs : Ioo (-(1 / 2) : ℝ) 1 ∈ 𝓝 τ := Ioo_mem_nhds (by linarith [hτ.1]) hτ.2
    have h := (hasDerivAt_integral_of_dominated_loc_of_deriv_le (μ := volume.restrict (Ioi (0 : ℝ))) (F := fun τ u => turnF n ⟨y, -x⟩ τ u)
      (F' := fun τ u => I * turnD n ⟨y, -x⟩ τ u) (bound := fun u => turnB n x y u) hs
      (Eventually.of_forall fun τ => (turnF_cont n _ τ).aestronglyMeasurable.restrict)
      (turnF_int n x y τ hx hy (by linarith [hτ.1]) hτ.2.le)
      ((turnD_cont n _ τ).const_mul I).aestronglyMeasurable.restrict
      ((ae_restrict_mem measurableSet_Ioi).mono fun u hu τ' hτ' => by
        rw [norm_mul, norm_I, one_mul]
        exact turnD_le n x y τ' u hx hy (le_of_lt hu) hτ'.1.le hτ'.2.le)
      (turnB_int n x y hx)
      ((ae_restrict_mem measurableSet_Ioi).mono fun u hu τ' _ => turnF_deriv n _ τ' u hu)).2
    rw [integral_const_mul, turnD_integral n x y τ hx hy (by linarith [hτ.1]) hτ.2.le, mul_zero] at h
    exact h.hasDerivWithinAt
  have h := constant_of_has_deriv_right_zero hcont hderiv 1 ⟨zero_le_one, le_rfl⟩
  have h0 : (∫ u in Ioi (0 : ℝ), turnF n ⟨y, -x⟩ 0 u) = wMom n ⟨y, -x⟩ := by
    simp [turnF, wMom]
  rw [← h0]
  exact h.symm

/-- Bound of the moments away from the imaginary axis. -/
theorem wMom_le_side (n : ℕ) (x y : ℝ) (hx : 0 < x) (hy : 0 ≤ y) :
    ‖wMom n ⟨y, -x⟩‖ ≤ n.factorial / (√2 * (x + y)) ^ (n + 1) := by
  have h2 : (√2 : ℝ) * √2 = 2 := Real.mul_self_sqrt (by norm_num)
  have h20 : 0 < (√2 : ℝ) := by positivity
  have hb : 0 < 2 * (x + y) := by positivity
  have hnc : ‖(1 + (1 : ℝ) * I : ℂ)‖ = √2 := by
    rw [Complex.norm_def]; congr 1; simp [normSq_apply]; norm_num
  have hR : √2 ^ (n + 1) * (n.factorial / (2 * (x + y)) ^ (n + 1)) = n.factorial / (√2 * (x + y)) ^ (n + 1) := by
    have e : 2 * (x + y) = √2 * (√2 * (x + y)) := by rw [← mul_assoc, h2]
    rw [e, mul_pow √2 (√2 * (x + y))]
    have : 0 < √2 * (x + y) := by positivity
    field_simp
  rw [turn_eq n x y hx hy, ← hR, ← pow_exp_integral n _ hb, ← integral_const_mul]
  refine norm_integral_le_of_norm_le ((pow_exp_int n _ hb).const_mul _) ?_
  refine (ae_restrict_mem measurableSet_Ioi).mono fun u hu => ?_
  have hu0 : 0 ≤ u := le_of_lt hu
  rw [turnF, norm_mul, norm_mul, turn_exp, norm_pow, norm_mul, Complex.norm_real, Real.norm_of_nonneg hu0, hnc, mul_pow]
  apply le_of_eq
  rw [show (-(u ^ 2 * (1 - (1 : ℝ) ^ 2)) - 2 * u * (y + 1 * x)) = -(2 * (x + y) * u) by ring]
  ring

end PyECLOUD
