import Verif.Lemmas.ConvergeRun
import Mathlib.Analysis.SpecialFunctions.Trigonometric.Bounds

/-! # Lemmas: convergence of trackers that make one step at a time -/

set_option linter.unusedSectionVars false

namespace PyECLOUD



/-- A step `f d e b` agrees with the motion in the constant fields `e` and `b` up to second order in `d`, with a relative error `eta`
in the force; the fields satisfy `ok` and are bounded by `M`. -/
def StepOk (kappa T M c eta : ℝ) (ok : V3 ℝ → V3 ℝ → Prop) (f : ℝ → V3 ℝ → V3 ℝ → Phase ℝ → Phase ℝ) : Prop :=
  ∀ (d : ℝ) (e b : V3 ℝ) (p : Phase ℝ), 0 ≤ d → d ≤ T → ‖e.vec‖ ≤ M → ‖b.vec‖ ≤ M → ok e b →
    ‖(ofPhase (f d e b p)).1 - (ofPhase p).1 - d • (ofPhase p).2‖ ≤ c * d * d * (1 + ‖(ofPhase p).2‖) ∧
    ‖(ofPhase (f d e b p)).2 - (ofPhase p).2 - d • lorentz kappa e.vec b.vec (ofPhase p).2‖ ≤ c * d * (d + eta) * (1 + ‖(ofPhase p).2‖)

theorem lorentz_norm (kappa M : ℝ) (e b v : R3) (he : ‖e‖ ≤ M) (hb : ‖b‖ ≤ M) : ‖lorentz kappa e b v‖ ≤ |kappa| * (M + 2 * M * ‖v‖) := by
  unfold lorentz
  rw [norm_smul, Real.norm_eq_abs]
  refine mul_le_mul_of_nonneg_left ((norm_add_le _ _).trans (add_le_add he ((cross_norm v b).trans ?_))) (abs_nonneg _)
  have := mul_le_mul_of_nonneg_left hb (show 0 ≤ 2 * ‖v‖ by positivity)
  linarith

/-- a sequence of single steps with the fields taken at the start of each -/
def StepRun (d : ℝ) (f : ℝ → V3 ℝ → V3 ℝ → Phase ℝ → Phase ℝ) (E : ℝ → ℝ → ℝ → V3 ℝ) (B : ℝ → ℝ → V3 ℝ) (n : ℕ) (p : ℕ → Phase ℝ) : Prop :=
  ∀ k < n, p (k + 1) = f d (E (k * d) (p k).x (p k).y) (B (p k).x (p k).y) (p k)

theorem step_velocity {S : Set (ℝ × ℝ)} {kappa T M L c : ℝ} (hT0 : 0 ≤ T) (hM : 0 ≤ M) (hL : 0 ≤ L) (hc : 0 ≤ c)
    {ok : V3 ℝ → V3 ℝ → Prop} {E : ℝ → ℝ → ℝ → V3 ℝ} {B : ℝ → ℝ → V3 ℝ}
    (hok : ∀ t x y x' y', ok (E t x y) (B x' y'))
    (hE : FieldSmooth S T M L E) (hB : FieldSmooth S T M L (fun _ => B)) (V0 : ℝ) :
    ∃ Wn : ℝ, 0 ≤ Wn ∧ ∀ (f : ℝ → V3 ℝ → V3 ℝ → Phase ℝ → Phase ℝ) (eta : ℝ), 0 ≤ eta → eta ≤ 1 → StepOk kappa T M c eta ok f →
      ∀ (n : ℕ) (d : ℝ) (p : ℕ → Phase ℝ), 0 ≤ d → n * d ≤ T → StepRun d f E B n p →
      (∀ j < n, ((p j).x, (p j).y) ∈ S) → ‖(ofPhase (p 0)).2‖ ≤ V0 → ∀ j ≤ n, ‖(ofPhase (p j)).2‖ ≤ Wn := by
  obtain ⟨β, hβ⟩ : ∃ β, β = |kappa| * (2 * M) + c * (T + 1) := ⟨_, rfl⟩
  have hβ0 : 0 ≤ β := by rw [hβ]; positivity
  obtain ⟨γ, hγ⟩ : ∃ γ, γ = |kappa| * M + c * (T + 1) := ⟨_, rfl⟩
  have hγ0 : 0 ≤ γ := by rw [hγ]; positivity
  refine ⟨Real.exp (β * T) * (|V0| + T * γ), by positivity, ?_⟩
  intro f eta he he1 hf n d p hd hT hrun hS h0 j hj
  have hmem : ∀ i : ℕ, i ≤ n → (i : ℝ) * d ∈ Set.Icc 0 T := fun i hi => ⟨by positivity, le_trans (mul_le_mul_of_nonneg_right (by exact_mod_cast hi) hd) hT⟩
  have key := gronwall (fun j : ℕ => ‖(ofPhase (p j)).2‖) (β * d) (d * γ) (by positivity) (by positivity) (norm_nonneg _) n (fun k hk => ?_) j hj
  · refine key.trans ?_
    have hjd : (j : ℝ) * d ≤ T := (hmem j hj).2
    have e1 : Real.exp (β * d * j) ≤ Real.exp (β * T) := by
      apply Real.exp_le_exp.2
      have := mul_le_mul_of_nonneg_left hjd hβ0
      linarith
    have e2 : ‖(ofPhase (p 0)).2‖ + j * (d * γ) ≤ |V0| + T * γ := by
      have h1 := mul_le_mul_of_nonneg_right hjd hγ0
      have h2 := h0.trans (le_abs_self V0)
      linarith
    exact mul_le_mul e1 e2 (by positivity) (by positivity)
  · have hd1 : d ≤ T := by
      have : (1 : ℝ) ≤ n := by exact_mod_cast (by omega : 1 ≤ n)
      nlinarith
    have b1 := (smooth_vec hL hE (k * d) (k * d) (p k) (p k) (hmem k (by omega)) (hmem k (by omega)) (hS k (by omega)) (hS k (by omega))).1
    have b2 := (smooth_vec hL hB 0 0 (p k) (p k) ⟨le_refl _, hT0⟩ ⟨le_refl _, hT0⟩ (hS k (by omega)) (hS k (by omega))).1
    have hs := (hf d _ _ (p k) hd hd1 b1 b2 (hok _ _ _ _ _)).2
    rw [← hrun k hk] at hs
    have hl := lorentz_norm kappa M _ _ (ofPhase (p k)).2 b1 b2
    obtain ⟨G, hG⟩ : ∃ G, lorentz kappa (E (k * d) (p k).x (p k).y).vec (B (p k).x (p k).y).vec (ofPhase (p k)).2 = G := ⟨_, rfl⟩
    rw [hG] at hs hl
    have h3 := norm_add₃_le (a := (ofPhase (p (k + 1))).2 - (ofPhase (p k)).2 - d • G) (b := d • G) (c := (ofPhase (p k)).2)
    rw [sub_add_cancel, sub_add_cancel] at h3
    rw [norm_smul, Real.norm_of_nonneg hd] at h3
    have h4 := mul_le_mul_of_nonneg_left hl hd
    obtain ⟨u, hu⟩ : ∃ u, ‖(ofPhase (p k)).2‖ = u := ⟨_, rfl⟩
    have hu0 : 0 ≤ u := by rw [← hu]; exact norm_nonneg _
    rw [hu] at hs h3 h4 ⊢
    have h5 : c * d * (d + eta) * (1 + u) ≤ c * d * (T + 1) * (1 + u) := by
      apply mul_le_mul_of_nonneg_right _ (by linarith)
      exact mul_le_mul_of_nonneg_left (by linarith) (by positivity)
    rw [hβ, hγ]
    nlinarith

/-- single steps follow the true orbit -/
theorem step_converges {S : Set (ℝ × ℝ)} {kappa T M L c : ℝ} (hT0 : 0 ≤ T) (hM : 0 ≤ M) (hL : 0 ≤ L) (hc : 0 ≤ c)
    {ok : V3 ℝ → V3 ℝ → Prop} {E : ℝ → ℝ → ℝ → V3 ℝ} {B : ℝ → ℝ → V3 ℝ}
    (hok : ∀ t x y x' y', ok (E t x y) (B x' y'))
    (hE : FieldSmooth S T M L E) (hB : FieldSmooth S T M L (fun _ => B)) {P : ℝ → Phase ℝ} (h : LorentzOrbit kappa T E B P)
    (hP : ∀ t ∈ Set.Icc 0 T, ((P t).x, (P t).y) ∈ S) :
    ∃ C : ℝ, 0 ≤ C ∧ ∀ (f : ℝ → V3 ℝ → V3 ℝ → Phase ℝ → Phase ℝ) (eta : ℝ), 0 ≤ eta → eta ≤ 1 → StepOk kappa T M c eta ok f →
      ∀ (n : ℕ) (d : ℝ) (p : ℕ → Phase ℝ), 0 ≤ d → n * d ≤ T → StepRun d f E B n p →
      (∀ j < n, ((p j).x, (p j).y) ∈ S) → p 0 = P 0 →
      ∀ j ≤ n, ‖(ofPhase (p j)).1 - (ofPhase (P (j * d))).1‖ + ‖(ofPhase (p j)).2 - (ofPhase (P (j * d))).2‖ ≤ C * (d + eta) := by
  obtain ⟨W, A, C3, hW0, hA0, hC30, hW, hTay⟩ := orbit_bounds hT0 hM hL hE hB h hP
  obtain ⟨Wn, hWn0, hWn⟩ := step_velocity (kappa := kappa) hT0 hM hL hc hok hE hB ‖(ofPhase (P 0)).2‖
  obtain ⟨K, hK⟩ : ∃ K, K = 1 + |kappa| * (2 * L + 2 * M + 4 * W * L) := ⟨_, rfl⟩
  have hK0 : 0 ≤ K := by rw [hK]; positivity
  obtain ⟨C0, hC0⟩ : ∃ C0, C0 = 2 * (c * (1 + Wn)) + A + C3 := ⟨_, rfl⟩
  have hC00 : 0 ≤ C0 := by rw [hC0]; positivity
  refine ⟨Real.exp (K * T) * (T * C0), by positivity, ?_⟩
  intro f eta he he1 hf n d p hd hT hrun hS h0 j hj
  have hmem : ∀ i : ℕ, i ≤ n → (i : ℝ) * d ∈ Set.Icc 0 T := fun i hi => ⟨by positivity, le_trans (mul_le_mul_of_nonneg_right (by exact_mod_cast hi) hd) hT⟩
  have hw := hWn f eta he he1 hf n d p hd hT hrun hS (by rw [h0])
  have key := gronwall (fun j : ℕ => ‖(ofPhase (p j)).1 - (ofPhase (P (j * d))).1‖ + ‖(ofPhase (p j)).2 - (ofPhase (P (j * d))).2‖) (K * d) (d * (d + eta) * C0)
    (by positivity) (by positivity) (by positivity) n (fun k hk => ?_) j hj
  · refine key.trans ?_
    have hjd : (j : ℝ) * d ≤ T := (hmem j hj).2
    have e1 : Real.exp (K * d * j) ≤ Real.exp (K * T) := by
      apply Real.exp_le_exp.2
      have := mul_le_mul_of_nonneg_left hjd hK0
      linarith
    have e0 : ‖(ofPhase (p 0)).1 - (ofPhase (P (((0 : ℕ) : ℝ) * d))).1‖ + ‖(ofPhase (p 0)).2 - (ofPhase (P (((0 : ℕ) : ℝ) * d))).2‖ = 0 := by
      simp [h0]
    rw [e0, zero_add]
    have e2 : (j : ℝ) * (d * (d + eta) * C0) ≤ T * C0 * (d + eta) := by
      have := mul_le_mul_of_nonneg_right hjd (show 0 ≤ C0 * (d + eta) by positivity)
      linarith
    calc _ ≤ Real.exp (K * T) * (T * C0 * (d + eta)) := mul_le_mul e1 e2 (by positivity) (by positivity)
      _ = _ := by ring
  · have hd1 : d ≤ T := by
      have : (1 : ℝ) ≤ n := by exact_mod_cast (by omega : 1 ≤ n)
      nlinarith
    have hk1 : ((k + 1 : ℕ) : ℝ) * d = k * d + d := by push_cast; ring
    have hkm := hmem k (by omega)
    obtain ⟨t1, t2⟩ := hTay (k * d) d hkm.1 hd (by rw [← hk1]; exact (hmem (k + 1) (by omega)).2)
    have b1 := (smooth_vec hL hE (k * d) (k * d) (p k) (p k) hkm hkm (hS k (by omega)) (hS k (by omega))).1
    have b2 := (smooth_vec hL hB 0 0 (p k) (p k) ⟨le_refl _, hT0⟩ ⟨le_refl _, hT0⟩ (hS k (by omega)) (hS k (by omega))).1
    obtain ⟨s1, s2⟩ := hf d _ _ (p k) hd hd1 b1 b2 (hok _ _ _ _ _)
    rw [← hrun k hk] at s1 s2
    have hwk := hw k (by omega)
    rw [hk1]
    obtain ⟨x, hxd⟩ : ∃ x, (ofPhase (P (k * d))).1 = x := ⟨_, rfl⟩
    obtain ⟨v, hvd⟩ : ∃ v, (ofPhase (P (k * d))).2 = v := ⟨_, rfl⟩
    obtain ⟨x', hxd'⟩ : ∃ x, (ofPhase (P (k * d + d))).1 = x := ⟨_, rfl⟩
    obtain ⟨v', hvd'⟩ : ∃ v, (ofPhase (P (k * d + d))).2 = v := ⟨_, rfl⟩
    obtain ⟨F, hF⟩ : ∃ F, lorentz kappa (E (k * d) (P (k * d)).x (P (k * d)).y).vec (B (P (k * d)).x (P (k * d)).y).vec (ofPhase (P (k * d))).2 = F := ⟨_, rfl⟩
    obtain ⟨G, hG⟩ : ∃ G, lorentz kappa (E (k * d) (p k).x (p k).y).vec (B (p k).x (p k).y).vec (ofPhase (p k)).2 = G := ⟨_, rfl⟩
    have hFG : ‖G - F‖ ≤ |kappa| * (L * (2 * ‖(ofPhase (p k)).1 - x‖) + 2 * M * ‖(ofPhase (p k)).2 - v‖ + 2 * W * (L * (2 * ‖(ofPhase (p k)).1 - x‖))) := by
      rw [← hF, ← hG]
      have l0 := lorentz_diff kappa M W (E (k * d) (p k).x (p k).y).vec (E (k * d) (P (k * d)).x (P (k * d)).y).vec (B (p k).x (p k).y).vec
        (B (P (k * d)).x (P (k * d)).y).vec (ofPhase (p k)).2 (ofPhase (P (k * d))).2 b2 (hW _ hkm)
      refine l0.trans (mul_le_mul_of_nonneg_left ?_ (abs_nonneg kappa))
      have l1 := (smooth_vec hL hE (k * d) (k * d) (p k) (P (k * d)) hkm hkm (hS k (by omega)) (hP _ hkm)).2
      have l2 := (smooth_vec hL hB 0 0 (p k) (P (k * d)) ⟨le_refl _, hT0⟩ ⟨le_refl _, hT0⟩ (hS k (by omega)) (hP _ hkm)).2
      rw [hxd] at l1 l2
      rw [hvd]
      have l4 := mul_le_mul_of_nonneg_left l2 (show 0 ≤ 2 * W by positivity)
      simp only [sub_self, abs_zero, zero_add] at l4 l1
      linarith
    rw [hxd', hxd, hvd] at t1
    rw [hF, hvd', hvd] at t2
    rw [hxd, hvd, hxd', hvd']
    rw [hG] at s2
    have q1 : ‖(ofPhase (p (k + 1))).1 - x'‖ ≤ ‖(ofPhase (p k)).1 - x‖ + d * ‖(ofPhase (p k)).2 - v‖ + c * d * d * (1 + ‖(ofPhase (p k)).2‖) + A * d ^ 2 := by
      have e1 : (ofPhase (p (k + 1))).1 - x' = ((ofPhase (p k)).1 - x) + d • ((ofPhase (p k)).2 - v) +
          ((ofPhase (p (k + 1))).1 - (ofPhase (p k)).1 - d • (ofPhase (p k)).2) - (x' - x - d • v) := by
        rw [smul_sub]; abel
      rw [e1]
      refine (norm_sub_le _ _).trans (add_le_add ((norm_add₃_le).trans (add_le_add (add_le_add (le_refl _) ?_) s1)) t1)
      rw [norm_smul, Real.norm_of_nonneg hd]
    have q2 : ‖(ofPhase (p (k + 1))).2 - v'‖ ≤ ‖(ofPhase (p k)).2 - v‖ + d * ‖G - F‖ + c * d * (d + eta) * (1 + ‖(ofPhase (p k)).2‖) + C3 * d ^ 2 := by
      have e1 : (ofPhase (p (k + 1))).2 - v' = ((ofPhase (p k)).2 - v) + d • (G - F) + ((ofPhase (p (k + 1))).2 - (ofPhase (p k)).2 - d • G) - (v' - v - d • F) := by
        rw [smul_sub]; abel
      rw [e1]
      refine (norm_sub_le _ _).trans (add_le_add ((norm_add₃_le).trans (add_le_add (add_le_add (le_refl _) ?_) s2)) t2)
      rw [norm_smul, Real.norm_of_nonneg hd]
    have q3 := mul_le_mul_of_nonneg_left hFG hd
    have q4 : c * d * d * (1 + ‖(ofPhase (p k)).2‖) ≤ c * d * (d + eta) * (1 + Wn) :=
      mul_le_mul (mul_le_mul_of_nonneg_left (by linarith) (by positivity)) (by linarith) (by positivity) (by positivity)
    have q5 : c * d * (d + eta) * (1 + ‖(ofPhase (p k)).2‖) ≤ c * d * (d + eta) * (1 + Wn) :=
      mul_le_mul_of_nonneg_left (by linarith) (by positivity)
    have q6 : (A + C3) * d ^ 2 ≤ d * (d + eta) * (A + C3) := by
      have : 0 ≤ (A + C3) * (d * eta) := by positivity
      linarith
    obtain ⟨ex, hex⟩ : ∃ ex, ‖(ofPhase (p k)).1 - x‖ = ex := ⟨_, rfl⟩
    obtain ⟨ev, hev⟩ : ∃ ev, ‖(ofPhase (p k)).2 - v‖ = ev := ⟨_, rfl⟩
    have hex0 : 0 ≤ ex := by rw [← hex]; exact norm_nonneg _
    have hev0 : 0 ≤ ev := by rw [← hev]; exact norm_nonneg _
    rw [hex, hev] at q1 q3 ⊢
    rw [hev] at q2
    rw [hK, hC0]
    have q7 : d * (|kappa| * (L * (2 * ex) + 2 * M * ev + 2 * W * (L * (2 * ex)))) + d * ev ≤
        (1 + |kappa| * (2 * L + 2 * M + 4 * W * L)) * d * (ex + ev) := by
      have r1 : 0 ≤ d * |kappa| * L * ev := by positivity
      have r2 : 0 ≤ d * |kappa| * M * ex := by positivity
      have r3 : 0 ≤ d * |kappa| * W * L * ev := by positivity
      have r4 : 0 ≤ d * ex := by positivity
      linarith
    linarith

/-- Single steps follow the true orbit; no condition on where the steps go, only that the fields are smooth around the orbit. -/
theorem step_margin {S : Set (ℝ × ℝ)} {kappa T M L c r : ℝ} (hT0 : 0 ≤ T) (hM : 0 ≤ M) (hL : 0 ≤ L) (hc : 0 ≤ c) (hr : 0 < r)
    {ok : V3 ℝ → V3 ℝ → Prop} {E : ℝ → ℝ → ℝ → V3 ℝ} {B : ℝ → ℝ → V3 ℝ}
    (hok : ∀ t x y x' y', ok (E t x y) (B x' y'))
    (hE : FieldSmooth S T M L E) (hB : FieldSmooth S T M L (fun _ => B)) {P : ℝ → Phase ℝ} (h : LorentzOrbit kappa T E B P)
    (hP : ∀ t ∈ Set.Icc 0 T, ∀ q : ℝ × ℝ, |q.1 - (P t).x| ≤ r → |q.2 - (P t).y| ≤ r → q ∈ S) :
    ∃ C : ℝ, 0 ≤ C ∧ ∃ h0 : ℝ, 0 < h0 ∧ ∀ (f : ℝ → V3 ℝ → V3 ℝ → Phase ℝ → Phase ℝ) (eta : ℝ), 0 ≤ eta → StepOk kappa T M c eta ok f →
      ∀ (n : ℕ) (d : ℝ) (p : ℕ → Phase ℝ), 0 ≤ d → d + eta ≤ h0 → n * d ≤ T → StepRun d f E B n p → p 0 = P 0 →
      ∀ j ≤ n, (p j).Near (P (j * d)) (C * (d + eta)) := by
  obtain ⟨C, hC, hrun⟩ := step_converges hT0 hM hL hc hok hE hB h (fun t ht => hP t ht _ (by simp [hr.le]) (by simp [hr.le]))
  refine ⟨C, hC, min 1 (r / (C + 1)), by positivity, ?_⟩
  intro f eta he hf n d p hd hH hT hb h0
  have he1 : eta ≤ 1 := by have := hH.trans (min_le_left _ _); linarith
  have hCr : C * (d + eta) ≤ r := by
    have h1 : (d + eta) * (C + 1) ≤ r := (le_div_iff₀ (by positivity)).1 (hH.trans (min_le_right _ _))
    nlinarith
  have hmd : ∀ m : ℕ, m ≤ n → (m : ℝ) * d ≤ T := fun m hm => le_trans (mul_le_mul_of_nonneg_right (by exact_mod_cast hm) hd) hT
  have hS : ∀ m ≤ n, ∀ j < m, ((p j).x, (p j).y) ∈ S := by
    intro m
    induction m with
    | zero => intro _ j hj; omega
    | succ m ih =>
      intro hm j hj
      rcases Nat.lt_succ_iff_lt_or_eq.1 hj with h1 | h1
      · exact ih (by omega) j h1
      · subst h1
        have h2 := near_of_norm _ _ _ (hrun f eta he he1 hf j d p hd (hmd j (by omega)) (fun k hk => hb k (by omega)) (ih (by omega)) h0 j (le_refl _))
        exact hP (j * d) ⟨by positivity, hmd j (by omega)⟩ _ (h2.1.trans hCr) (h2.2.1.trans hCr)
  intro j hj
  exact near_of_norm _ _ _ (hrun f eta he he1 hf n d p hd hT hb (hS n (le_refl _)) h0 j hj)

end PyECLOUD
