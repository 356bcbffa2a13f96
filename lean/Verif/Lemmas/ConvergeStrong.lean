import Verif.Lemmas.ConvergeStep

/-! # Lemmas: one step of the strong-field trackers agrees with the true motion to second order -/

set_option linter.unusedSectionVars false

namespace PyECLOUD

theorem sin_sub_bound (x : ℝ) : |Real.sin x - x| ≤ 2 * x ^ 2 := by
  rcases le_total |x| 1 with h | h
  · have h1 := Real.sin_bound h
    have h2 : |Real.sin x - x| ≤ |Real.sin x - (x - x ^ 3 / 6)| + |x ^ 3 / 6| := by
      have := abs_sub (Real.sin x - (x - x ^ 3 / 6)) (x ^ 3 / 6)
      rw [show Real.sin x - (x - x ^ 3 / 6) - x ^ 3 / 6 = Real.sin x - x by ring] at this
      exact this
    have h3 : |x ^ 3 / 6| = |x| ^ 3 / 6 := by rw [abs_div, abs_pow]; norm_num
    have h4 : x ^ 2 = |x| ^ 2 := (sq_abs x).symm
    rw [h3] at h2
    rw [h4]
    have a0 := abs_nonneg x
    have h5 : |x| ^ 3 ≤ |x| ^ 2 := pow_le_pow_of_le_one a0 h (by norm_num)
    have h6 : |x| ^ 4 ≤ |x| ^ 2 := pow_le_pow_of_le_one a0 h (by norm_num)
    nlinarith
  · have h1 := abs_sub (Real.sin x) x
    have h2 := Real.abs_sin_le_one x
    have h4 : x ^ 2 = |x| ^ 2 := (sq_abs x).symm
    rw [h4]
    nlinarith

theorem cos_sub_bound (x : ℝ) : |Real.cos x - 1| ≤ x ^ 2 / 2 := by
  rw [abs_le]
  have h1 := Real.one_sub_sq_div_two_le_cos (x := x)
  have h2 := Real.cos_le_one x
  have := sq_nonneg x
  constructor <;> linarith

theorem sincc_bound (x : ℝ) : |sincc x - 1| ≤ 2 * |x| := by
  unfold sincc
  split
  · simp
  · next h =>
    have hx : x ≠ 0 := fun h0 => h (by rw [h0, abs_zero]; norm_num)
    have hx' : 0 < |x| := abs_pos.2 hx
    have e : Real.sin x / x - 1 = (Real.sin x - x) / x := by field_simp
    rw [e, abs_div, div_le_iff₀ hx']
    refine (sin_sub_bound x).trans (le_of_eq ?_)
    rw [← sq_abs]; ring

theorem cosincc_bound (x : ℝ) : |cosincc x| ≤ 1 / 2 := by
  unfold cosincc
  split
  · rw [abs_of_pos] <;> norm_num
  · next h =>
    have hx : x ≠ 0 := fun h0 => h (by rw [h0, abs_zero]; norm_num)
    have hx' : 0 < x * x := mul_self_pos.2 hx
    rw [abs_div, abs_of_pos hx', div_le_iff₀ hx', abs_sub_comm]
    refine (cos_sub_bound x).trans (le_of_eq (by ring))

theorem cubsincc_bound (x : ℝ) : |cubsincc x * x| ≤ 2 := by
  unfold cubsincc
  split
  · next h =>
    rw [abs_mul, abs_of_pos (by norm_num : (0 : ℝ) < 1 / 6)]
    linarith
  · next h =>
    have hx : x ≠ 0 := fun h0 => h (by rw [h0, abs_zero]; norm_num)
    have hx' : 0 < x ^ 2 := by positivity
    have e : (x - Real.sin x) / (x * x * x) * x = (x - Real.sin x) / x ^ 2 := by field_simp
    rw [e, abs_div, abs_of_pos hx', div_le_iff₀ hx', abs_sub_comm]
    exact sin_sub_bound x

theorem abs_mul_bound {a b A B : ℝ} (ha : |a| ≤ A) (hb : |b| ≤ B) : |a * b| ≤ A * B := by
  rw [abs_mul]; exact mul_le_mul ha hb (abs_nonneg _) ((abs_nonneg _).trans ha)

theorem abs_add3_bound {a b c A B C : ℝ} (ha : |a| ≤ A) (hb : |b| ≤ B) (hc : |c| ≤ C) : |a + b + c| ≤ A + B + C :=
  (abs_add_three a b c).trans (by linarith)

/-- the second-order remainder in the form asked for by `StepOk` -/
theorem stepOk_of_comp {kappa c eta d : ℝ} {e b : V3 ℝ} {p q : Phase ℝ} {X V : ℝ}
    (hx : |q.x - p.x - d * p.vx| ≤ X) (hy : |q.y - p.y - d * p.vy| ≤ X) (hz : |q.z - p.z - d * p.vz| ≤ X)
    (hvx : |q.vx - p.vx - d * (kappa * (e.x + (p.vy * b.z - p.vz * b.y)))| ≤ V)
    (hvy : |q.vy - p.vy - d * (kappa * (e.y + (p.vz * b.x - p.vx * b.z)))| ≤ V)
    (hvz : |q.vz - p.vz - d * (kappa * (e.z + (p.vx * b.y - p.vy * b.x)))| ≤ V)
    (hX : X ≤ c * d * d * (1 + ‖(ofPhase p).2‖)) (hV : V ≤ c * d * (d + eta) * (1 + ‖(ofPhase p).2‖)) :
    ‖(ofPhase q).1 - (ofPhase p).1 - d • (ofPhase p).2‖ ≤ c * d * d * (1 + ‖(ofPhase p).2‖) ∧
    ‖(ofPhase q).2 - (ofPhase p).2 - d • lorentz kappa e.vec b.vec (ofPhase p).2‖ ≤ c * d * (d + eta) * (1 + ‖(ofPhase p).2‖) := by
  rw [R3_norm_le, R3_norm_le]
  refine ⟨⟨hx.trans hX, hy.trans hX, hz.trans hX⟩, ?_, ?_, ?_⟩
  · refine le_trans (le_of_eq ?_) (hvx.trans hV)
    simp [lorentz, V3.vec, ofPhase, cross_apply]
  · refine le_trans (le_of_eq ?_) (hvy.trans hV)
    simp [lorentz, V3.vec, ofPhase, cross_apply]
  · refine le_trans (le_of_eq ?_) (hvz.trans hV)
    simp [lorentz, V3.vec, ofPhase, cross_apply]

theorem vec_comp {b : V3 ℝ} {M : ℝ} (h : ‖b.vec‖ ≤ M) : |b.x| ≤ M ∧ |b.y| ≤ M ∧ |b.z| ≤ M := (within_norm b M).2 h

theorem vel_comp (p : Phase ℝ) : |p.vx| ≤ ‖(ofPhase p).2‖ ∧ |p.vy| ≤ ‖(ofPhase p).2‖ ∧ |p.vz| ≤ ‖(ofPhase p).2‖ :=
  ⟨norm_le_pi_norm (ofPhase p).2 0, norm_le_pi_norm (ofPhase p).2 1, norm_le_pi_norm (ofPhase p).2 2⟩

/-- One step of the strong dipole tracker agrees with the true motion to second order. -/
theorem dipole_stepOk (qm T M : ℝ) (hM : 0 ≤ M) :
    StepOk (-qm) T M (6 * (|qm| * M) + 6 * (|qm| * M) ^ 2) 0 (fun e b => e.z = 0 ∧ b.x = 0 ∧ b.z = 0)
      (fun d e b p => dipoleMove qm b.y d e p) := by
  rintro d e b p hd - he hb ⟨hez, hbx, hbz⟩
  obtain ⟨hex, hey, -⟩ := vec_comp he
  obtain ⟨-, hby, -⟩ := vec_comp hb
  obtain ⟨hvx, hvy, hvz⟩ := vel_comp p
  obtain ⟨w, hw⟩ : ∃ w, ‖(ofPhase p).2‖ = w := ⟨_, rfl⟩
  have hw0 : 0 ≤ w := by rw [← hw]; exact norm_nonneg _
  obtain ⟨Ω, hΩ⟩ : ∃ Ω, |qm| * M = Ω := ⟨_, rfl⟩
  have hΩ0 : 0 ≤ Ω := by rw [← hΩ]; positivity
  rw [hw] at hvx hvy hvz
  have hom : |b.y * qm| ≤ Ω := by rw [← hΩ, mul_comm]; exact abs_mul_bound (le_refl _) hby
  have hqx : |qm * e.x| ≤ Ω := by rw [← hΩ]; exact abs_mul_bound (le_refl _) hex
  have hqy : |qm * e.y| ≤ Ω := by rw [← hΩ]; exact abs_mul_bound (le_refl _) hey
  obtain ⟨om, hom'⟩ : ∃ om, b.y * qm = om := ⟨_, rfl⟩
  have ad : |d| ≤ d := by rw [abs_of_nonneg hd]
  have hdd : |d * d| ≤ d * d := by rw [abs_of_nonneg]; positivity
  have f1 := sincc_bound (om * d)
  have f2 := cosincc_bound (om * d)
  have f3 := cubsincc_bound (om * d)
  have f4 := sin_sub_bound (om * d)
  have f5 := cos_sub_bound (om * d)
  have f3' : |cubsincc (om * d) * (om * d) * (d * d)| ≤ 2 * (d * d) := abs_mul_bound f3 hdd
  rw [hom'] at hom
  have hxd : |om * d| ≤ Ω * d := abs_mul_bound hom ad
  have hxd2 : (om * d) ^ 2 ≤ Ω ^ 2 * (d * d) := by
    rw [← sq_abs]
    calc |om * d| ^ 2 ≤ (Ω * d) ^ 2 := pow_le_pow_left₀ (abs_nonneg _) hxd 2
      _ = _ := by ring
  have g1 : |(sincc (om * d) - 1) * d| ≤ 2 * Ω * (d * d) := by
    refine (abs_mul_bound f1 ad).trans ?_
    have := mul_le_mul_of_nonneg_right hxd hd
    linarith
  have g2 : |cosincc (om * d) * om * (d * d)| ≤ 1 / 2 * Ω * (d * d) := abs_mul_bound (abs_mul_bound f2 hom) hdd
  have g2' : |cosincc (om * d) * (d * d)| ≤ 1 / 2 * (d * d) := abs_mul_bound f2 hdd
  have g4 : |Real.sin (om * d) - om * d| ≤ 2 * Ω ^ 2 * (d * d) := by linarith
  have g5 : |Real.cos (om * d) - 1| ≤ Ω ^ 2 * (d * d) := by
    have : 0 ≤ Ω ^ 2 * (d * d) := by positivity
    linarith
  have D0 : 0 ≤ d * d := by positivity
  have nn1 : 0 ≤ Ω * w * (d * d) := by positivity
  have nn2 : 0 ≤ Ω ^ 2 * w * (d * d) := by positivity
  have nn3 : 0 ≤ Ω * (d * d) := by positivity
  have nn4 : 0 ≤ Ω ^ 2 * (d * d) := by positivity
  refine stepOk_of_comp (X := (5 * Ω * w + 2 * Ω) * (d * d)) (V := (4 * Ω ^ 2 * w + 3 * Ω ^ 2) * (d * d)) ?_ ?_ ?_ ?_ ?_ ?_ ?_ ?_
  · have := abs_add3_bound (abs_mul_bound hvx g1) (abs_mul_bound hvz g2) (abs_mul_bound (by rw [abs_neg]; exact hqx : |-(qm * e.x)| ≤ Ω) g2')
    refine le_trans (le_of_eq (congrArg _ ?_)) (this.trans ?_)
    · simp only [dipoleMove, hom']; ring
    · linarith
  · have : |(-1 / 2 : ℝ) * (qm * e.y) * (d * d)| ≤ 1 / 2 * Ω * (d * d) := abs_mul_bound (abs_mul_bound (by norm_num [abs_of_neg]) hqy) hdd
    refine le_trans (le_of_eq (congrArg _ ?_)) (this.trans ?_)
    · simp only [dipoleMove]; ring
    · linarith
  · have := abs_add3_bound (abs_mul_bound hvz g1) (abs_mul_bound (by rw [abs_neg]; exact hvx : |-p.vx| ≤ w) g2) (abs_mul_bound hqx f3')
    refine le_trans (le_of_eq (congrArg _ ?_)) (this.trans ?_)
    · simp only [dipoleMove, hom']; ring
    · linarith
  · have := abs_add3_bound (abs_mul_bound hvx g5) (abs_mul_bound hvz g4) (abs_mul_bound (by rw [abs_neg]; exact hqx : |-(qm * e.x)| ≤ Ω) g1)
    refine le_trans (le_of_eq (congrArg _ ?_)) (this.trans ?_)
    · simp only [dipoleMove, hom', hbz]; rw [← hom']; ring
    · linarith
  · refine le_trans (le_of_eq ?_) (show 0 ≤ (4 * Ω ^ 2 * w + 3 * Ω ^ 2) * (d * d) by positivity)
    rw [abs_eq_zero]
    simp only [dipoleMove, hbz, hbx]; ring
  · have := abs_add3_bound (abs_mul_bound hvz g5) (abs_mul_bound (by rw [abs_neg]; exact hvx : |-p.vx| ≤ w) g4) (abs_mul_bound hqx g2)
    refine le_trans (le_of_eq (congrArg _ ?_)) (this.trans ?_)
    · simp only [dipoleMove, hom', hbx, hez]; rw [← hom']; ring
    · linarith
  · rw [hw, hΩ]; linarith
  · rw [hw, hΩ]; linarith

/-- the velocity and position changes of the generalised tracker above the threshold, in terms of the two remainders -/
theorem strong_forms (qm d bm ex ey bx yb vx vy vz sn cs : ℝ) (hq : qm ≠ 0) (hb : bm ≠ 0) :
    let om := bm * qm
    let σ := (sn - om * d) / om ^ 2
    let χ := (cs - 1) / om ^ 2
    let vB := (vx * yb - vy * bx) / bm
    let eB := (ex * yb - ey * bx) / (bm * bm)
    let dz := vz * sn / om + vB * cs / om + eB * (d - sn / om) - vB / om
    let dzt := (vz * (1 - cs) + vB * sn) / (om * om) + eB * (d * d / 2 + (cs - 1) / (om * om)) - vB * d / om
    let α := yb / bm
    let β := bx / bm
    dz - d * vz = vz * om * σ + (vx * α - vy * β) * om * χ + -((ex * α - ey * β) * qm * σ) ∧
    bx * dzt = -(vz * bx * χ) + (vx * α - vy * β) * bx * σ + (ex * α - ey * β) * β * (d * d / 2 + χ) ∧
    yb * dzt = -(vz * yb * χ) + (vx * α - vy * β) * yb * σ + (ex * α - ey * β) * α * (d * d / 2 + χ) ∧
    vz * cs - vB * sn + eB * (1 - cs) - vz - d * (-qm * (vx * yb - vy * bx)) =
      vz * om ^ 2 * χ + -((vx * α - vy * β) * om ^ 2 * σ) + -((ex * α - ey * β) * qm * om * χ) := by
  intro om σ χ vB eB dz dzt α β
  simp only [om, σ, χ, vB, eB, dz, dzt, α, β]
  refine ⟨?_, ?_, ?_, ?_⟩ <;> field_simp <;> ring

set_option maxHeartbeats 1000000 in
/-- One step of the generalised strong-field tracker agrees with the true motion to second order, up to the force of magnetic fields
below the threshold. -/
theorem strong_stepOk (qm thr T M : ℝ) (hM : 0 ≤ M) (hq : qm ≠ 0) (ht : 0 < thr) :
    StepOk (-qm) T M (6 * (2 * (|qm| * M)) + 6 * (2 * (|qm| * M)) ^ 2 + 2 * |qm|) thr (fun e b => e.z = 0 ∧ b.z = 0)
      (fun d e b p => strongMove qm thr d e b.x b.y p) := by
  rintro d e b p hd - he hb ⟨hez, hbz⟩
  obtain ⟨hex, hey, -⟩ := vec_comp he
  obtain ⟨hbx, hby, -⟩ := vec_comp hb
  obtain ⟨hvx, hvy, hvz⟩ := vel_comp p
  obtain ⟨w, hw⟩ : ∃ w, ‖(ofPhase p).2‖ = w := ⟨_, rfl⟩
  have hw0 : 0 ≤ w := by rw [← hw]; exact norm_nonneg _
  obtain ⟨Ω, hΩ⟩ : ∃ Ω, 2 * (|qm| * M) = Ω := ⟨_, rfl⟩
  have hk0 := abs_nonneg qm
  have hΩ0 : 0 ≤ Ω := by rw [← hΩ]; positivity
  rw [hw] at hvx hvy hvz
  have ad : |d| ≤ d := by rw [abs_of_nonneg hd]
  have hdd : |d * d| ≤ d * d := by rw [abs_of_nonneg]; positivity
  have hkM : |qm| * M ≤ Ω := by rw [← hΩ]; have := mul_nonneg hk0 hM; linarith
  have hqx : |qm * e.x| ≤ Ω := (abs_mul_bound (le_refl _) hex).trans hkM
  have hqy : |qm * e.y| ≤ Ω := (abs_mul_bound (le_refl _) hey).trans hkM
  have hqbx : |qm * b.x| ≤ Ω := (abs_mul_bound (le_refl _) hbx).trans hkM
  have hqby : |qm * b.y| ≤ Ω := (abs_mul_bound (le_refl _) hby).trans hkM
  have nn1 : 0 ≤ Ω * w * (d * d) := by positivity
  have nn2 : 0 ≤ Ω ^ 2 * w * (d * d) := by positivity
  have nn3 : 0 ≤ Ω * (d * d) := by positivity
  have nn4 : 0 ≤ Ω ^ 2 * (d * d) := by positivity
  have nn5 : 0 ≤ |qm| * (d * (d + thr)) := by positivity
  have nn6 : 0 ≤ |qm| * (d * d) * w := by positivity
  have nn7 : 0 ≤ |qm| * (d * thr) * w := by positivity
  have nn8 : 0 ≤ Ω * w * (d * thr) := by positivity
  have nn9 : 0 ≤ Ω ^ 2 * w * (d * thr) := by positivity
  have nn10 : 0 ≤ Ω * (d * thr) := by positivity
  have nn11 : 0 ≤ Ω ^ 2 * (d * thr) := by positivity
  have nn12 : 0 ≤ |qm| * (d * d) := by positivity
  have hbxm : |b.x| ≤ Real.sqrt (b.x * b.x + b.y * b.y) := by
    rw [← Real.sqrt_sq_eq_abs]
    exact Real.sqrt_le_sqrt (by have := mul_self_nonneg b.y; linarith)
  have hbym : |b.y| ≤ Real.sqrt (b.x * b.x + b.y * b.y) := by
    rw [← Real.sqrt_sq_eq_abs]
    exact Real.sqrt_le_sqrt (by have := mul_self_nonneg b.x; linarith)
  have hbm2 : Real.sqrt (b.x * b.x + b.y * b.y) ≤ 2 * M := by
    rw [Real.sqrt_le_left (by positivity)]
    have h1 : b.x * b.x ≤ M ^ 2 := by rw [← sq, ← sq_abs]; exact pow_le_pow_left₀ (abs_nonneg _) hbx 2
    have h2 : b.y * b.y ≤ M ^ 2 := by rw [← sq, ← sq_abs]; exact pow_le_pow_left₀ (abs_nonneg _) hby 2
    have h3 := sq_nonneg M
    linarith
  obtain ⟨bm, hbm⟩ : ∃ bm, Real.sqrt (b.x * b.x + b.y * b.y) = bm := ⟨_, rfl⟩
  rw [hbm] at hbxm hbym hbm2
  by_cases hz : bm < thr
  · have g1 : ∀ v f : ℝ, |v| ≤ w → |f| ≤ bm → |qm * d * (v * f)| ≤ |qm| * d * (w * thr) := fun v f hv hf =>
      abs_mul_bound (abs_mul_bound (le_refl _) ad) (abs_mul_bound hv (hf.trans hz.le))
    refine stepOk_of_comp (X := Ω * (d * d)) (V := 2 * (|qm| * d * (w * thr))) ?_ ?_ ?_ ?_ ?_ ?_ ?_ ?_
    · have : |(-1 / 2 : ℝ) * (qm * e.x) * (d * d)| ≤ 1 / 2 * Ω * (d * d) := abs_mul_bound (abs_mul_bound (by norm_num [abs_of_neg]) hqx) hdd
      refine le_trans (le_of_eq (congrArg _ ?_)) (this.trans ?_)
      · simp only [strongMove, hbm, if_pos hz]; ring
      · linarith
    · have : |(-1 / 2 : ℝ) * (qm * e.y) * (d * d)| ≤ 1 / 2 * Ω * (d * d) := abs_mul_bound (abs_mul_bound (by norm_num [abs_of_neg]) hqy) hdd
      refine le_trans (le_of_eq (congrArg _ ?_)) (this.trans ?_)
      · simp only [strongMove, hbm, if_pos hz]; ring
      · linarith
    · refine le_trans (le_of_eq ?_) nn3
      rw [abs_eq_zero]; simp only [strongMove, hbm, if_pos hz]; ring
    · have := g1 (-p.vz) b.y (by rw [abs_neg]; exact hvz) hbym
      refine le_trans (le_of_eq (congrArg _ ?_)) (this.trans ?_)
      · simp only [strongMove, hbm, if_pos hz, hbz]; ring
      · linarith
    · have := g1 p.vz b.x hvz hbxm
      refine le_trans (le_of_eq (congrArg _ ?_)) (this.trans ?_)
      · simp only [strongMove, hbm, if_pos hz, hbz]; ring
      · linarith
    · have h1 := g1 p.vx b.y hvx hbym
      have h2 := g1 (-p.vy) b.x (by rw [abs_neg]; exact hvy) hbxm
      refine le_trans (le_of_eq (congrArg _ ?_)) ((abs_add_le _ _).trans ((add_le_add h1 h2).trans ?_))
      · simp only [strongMove, hbm, if_pos hz, hez]; ring
      · linarith
    · rw [hw, hΩ]; linarith
    · rw [hw, hΩ]; linarith
  · have hbp : 0 < bm := lt_of_lt_of_le ht (not_lt.1 hz)
    have hom : |bm * qm| ≤ Ω := by
      rw [abs_mul, abs_of_pos hbp, ← hΩ]
      have := mul_le_mul_of_nonneg_right hbm2 hk0
      linarith
    have hom0 : bm * qm ≠ 0 := mul_ne_zero hbp.ne' hq
    obtain ⟨F1, F2, F3, F4⟩ := strong_forms qm d bm e.x e.y b.x b.y p.vx p.vy p.vz (Real.sin (bm * qm * d)) (Real.cos (bm * qm * d)) hq hbp.ne'
    have hσ : |(Real.sin (bm * qm * d) - bm * qm * d) / (bm * qm) ^ 2| ≤ 2 * (d * d) := by
      rw [abs_div, abs_of_pos (by positivity : 0 < (bm * qm) ^ 2), div_le_iff₀ (by positivity)]
      exact (sin_sub_bound _).trans (le_of_eq (by ring))
    have hχ : |(Real.cos (bm * qm * d) - 1) / (bm * qm) ^ 2| ≤ d * d := by
      rw [abs_div, abs_of_pos (by positivity : 0 < (bm * qm) ^ 2), div_le_iff₀ (by positivity)]
      refine (cos_sub_bound _).trans ?_
      have : 0 ≤ d * d * (bm * qm) ^ 2 := by positivity
      linarith
    have hα : |b.y / bm| ≤ 1 := by rw [abs_div, abs_of_pos hbp, div_le_one hbp]; exact hbym
    have hβ : |b.x / bm| ≤ 1 := by rw [abs_div, abs_of_pos hbp, div_le_one hbp]; exact hbxm
    obtain ⟨σ, hσe⟩ : ∃ σ, (Real.sin (bm * qm * d) - bm * qm * d) / (bm * qm) ^ 2 = σ := ⟨_, rfl⟩
    obtain ⟨χ, hχe⟩ : ∃ χ, (Real.cos (bm * qm * d) - 1) / (bm * qm) ^ 2 = χ := ⟨_, rfl⟩
    obtain ⟨α, hαe⟩ : ∃ α, b.y / bm = α := ⟨_, rfl⟩
    obtain ⟨β, hβe⟩ : ∃ β, b.x / bm = β := ⟨_, rfl⟩
    simp only [hσe, hχe, hαe, hβe] at F1 F2 F3 F4 hσ hχ hα hβ
    have hu : |p.vx * α - p.vy * β| ≤ 2 * w := by
      have h1 := abs_mul_bound hvx hα
      have h2 := abs_mul_bound hvy hβ
      have := abs_sub (p.vx * α) (p.vy * β)
      linarith
    have hg : |e.x * α - e.y * β| ≤ 2 * M := by
      have h1 := abs_mul_bound hex hα
      have h2 := abs_mul_bound hey hβ
      have := abs_sub (e.x * α) (e.y * β)
      linarith
    obtain ⟨u, hue⟩ : ∃ u, p.vx * α - p.vy * β = u := ⟨_, rfl⟩
    obtain ⟨g, hge⟩ : ∃ g, e.x * α - e.y * β = g := ⟨_, rfl⟩
    obtain ⟨om, home⟩ : ∃ om, bm * qm = om := ⟨_, rfl⟩
    rw [hue] at F1 F2 F3 F4 hu
    rw [hge] at F1 F2 F3 F4 hg
    rw [home] at F1 F2 F3 F4 hom hom0
    have hgq : |g * qm| ≤ Ω := (abs_mul_bound hg (le_refl _)).trans (le_of_eq (by rw [← hΩ]; ring))
    have hom2 : |om ^ 2| ≤ Ω ^ 2 := by rw [abs_pow]; exact pow_le_pow_left₀ (abs_nonneg _) hom 2
    have hdχ : |d * d / 2 + χ| ≤ 3 / 2 * (d * d) := by
      have := abs_add_le (d * d / 2) χ
      rw [abs_of_nonneg (by positivity : 0 ≤ d * d / 2)] at this
      linarith
    have neg : ∀ {a A : ℝ}, |a| ≤ A → |-a| ≤ A := fun h => by rw [abs_neg]; exact h
    have D1 := abs_add3_bound (abs_mul_bound (abs_mul_bound hvz hom) hσ) (abs_mul_bound (abs_mul_bound hu hom) hχ) (neg (abs_mul_bound hgq hσ))
    rw [← F1] at D1
    have D2 := abs_add3_bound (abs_mul_bound (abs_mul_bound hvz hqbx) hχ) (neg (abs_mul_bound (abs_mul_bound hu hqbx) hσ)) (neg (abs_mul_bound (abs_mul_bound hgq hβ) hdχ))
    have D3 := abs_add3_bound (neg (abs_mul_bound (abs_mul_bound hvz hqby) hχ)) (abs_mul_bound (abs_mul_bound hu hqby) hσ) (abs_mul_bound (abs_mul_bound hgq hα) hdχ)
    have D4 := abs_add3_bound (abs_mul_bound (abs_mul_bound hvz hom2) hχ) (neg (abs_mul_bound (abs_mul_bound hu hom2) hσ)) (neg (abs_mul_bound (abs_mul_bound hgq hom) hχ))
    rw [← F4] at D4
    refine stepOk_of_comp (X := (6 * Ω * w + 3 * Ω) * (d * d)) (V := (5 * Ω ^ 2 * w + 3 * Ω ^ 2) * (d * d)) ?_ ?_ ?_ ?_ ?_ ?_ ?_ ?_
    · have h1 : |(-1 / 2 : ℝ) * (qm * e.x) * (d * d)| ≤ 1 / 2 * Ω * (d * d) := abs_mul_bound (abs_mul_bound (by norm_num [abs_of_neg]) hqx) hdd
      refine le_trans (le_of_eq (congrArg _ ?_)) ((abs_add_le _ _).trans ((add_le_add h1 D3).trans ?_))
      · simp only [strongMove, hbm, if_neg hz, home]
        have : ∀ a : ℝ, p.x + p.vx * d - qm * (e.x * d * d / 2 - a) - p.x - d * p.vx = -1 / 2 * (qm * e.x) * (d * d) + qm * a := fun a => by ring
        rw [this, F3]; ring
      · linarith
    · have h1 : |(-1 / 2 : ℝ) * (qm * e.y) * (d * d)| ≤ 1 / 2 * Ω * (d * d) := abs_mul_bound (abs_mul_bound (by norm_num [abs_of_neg]) hqy) hdd
      refine le_trans (le_of_eq (congrArg _ ?_)) ((abs_add_le _ _).trans ((add_le_add h1 D2).trans ?_))
      · simp only [strongMove, hbm, if_neg hz, home]
        have : ∀ a : ℝ, p.y + p.vy * d - qm * (e.y * d * d / 2 + a) - p.y - d * p.vy = -1 / 2 * (qm * e.y) * (d * d) - qm * a := fun a => by ring
        rw [this, F2]; ring
      · linarith
    · refine le_trans (le_of_eq (congrArg _ ?_)) (D1.trans ?_)
      · simp only [strongMove, hbm, if_neg hz, home]; ring
      · linarith
    · refine le_trans (le_of_eq (congrArg _ ?_)) ((abs_mul_bound hqby D1).trans ?_)
      · simp only [strongMove, hbm, if_neg hz, home, hbz]; ring
      · linarith
    · refine le_trans (le_of_eq (congrArg _ ?_)) ((abs_mul_bound (neg hqbx) D1).trans ?_)
      · simp only [strongMove, hbm, if_neg hz, home, hbz]; ring
      · linarith
    · refine le_trans (le_of_eq (congrArg _ ?_)) (D4.trans ?_)
      · simp only [strongMove, hbm, if_neg hz, home, hez]; ring
      · linarith
    · rw [hw, hΩ]; linarith
    · rw [hw, hΩ]; linarith

/-- a tracker without sub-steps whose step moves each particle by `f` in the electric field given and a magnetic field given by the position -/
def SingleStep (tr : TrackerObj ℝ) (f : V3 ℝ → V3 ℝ → Phase ℝ → Phase ℝ) (B : ℝ → ℝ → V3 ℝ) : Prop :=
  tr.nSub = none ∧ ∀ (s : MPs ℝ) (fl : Fields ℝ) (s' : MPs ℝ), tr.step s fl = .ok s' →
    s' = s.push (fun k p => f ⟨(fl.at k).1, (fl.at k).2.1, 0⟩ (B p.x p.y) p)

/-- One motion of a cloud with such a tracker makes one step for each particle. -/
theorem cplMotion_single {G : Type} [AddCommGroup G] (C : CplCfg ℝ G) (inp : CplIn ℝ) (field : ℝ → ℝ → ℝ × ℝ) (i : ℕ)
    (f : V3 ℝ → V3 ℝ → Phase ℝ → Phase ℝ) (B : ℝ → ℝ → V3 ℝ) (ht : SingleStep (C.tr i) f B) (hu : C.unifDt = true) (hc : inp.custom = none)
    (hk : inp.kick = false) (s s' : MPs ℝ) (h : cplMotion C inp field i s = .ok s') :
    s'.nmp = s.nmp ∧ ∀ k < s.nmp, s'.phase k = f (sumField field (some inp.beam) (s.phase k).x (s.phase k).y) (B (s.phase k).x (s.phase k).y) (s.phase k) := by
  unfold cplMotion cloudMotion at h
  rw [hc, hu, hk] at h
  simp only [substepMode, ht.1, if_true, substepPlan, Bool.false_eq_true, if_false] at h
  cases hr : (C.reinterp || inp.reinterp) with
  | true => rw [hr] at h; cases h
  | false =>
    rw [hr] at h
    simp only [Bool.false_eq_true, if_false, motionLoop] at h
    split at h
    · cases h
    · next s2 h2 =>
      cases h
      have e := ht.2 _ _ _ h2
      subst e
      refine ⟨push_nmp _ _, fun k hk => ?_⟩
      rw [phase_push _ _ _ hk]
      have := motionFields_at field (some inp.beam) s k hk
      simp only [Option.map_some] at this
      rw [this]
      rfl

end PyECLOUD
