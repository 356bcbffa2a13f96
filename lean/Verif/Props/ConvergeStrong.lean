import Verif.Props.Converge
import Verif.Lemmas.ConvergeStrong

/-! # Property C164: the strong-field trackers approach the true motion -/

set_option linter.unusedSectionVars false

namespace PyECLOUD

/-! ## one electron -/

/-- C164, the strong dipole tracker: let the electron move in a uniform vertical magnetic field `b` and in a transverse electric field
that is bounded and changes at a bounded rate around its orbit. There are `C` and `h > 0` such that for any number `N` of time steps of
length `T/N ≤ h` the tracker, with the electric field taken at the start of each step, gives at every step a position and a velocity at
most `C · T/N` away from the true ones. The charge-to-mass ratio of the electron is `-qm`. -/
theorem C164_dipole {S : Set (ℝ × ℝ)} {qm b T M L r : ℝ} (hT : 0 ≤ T) (hM : 0 ≤ M) (hL : 0 ≤ L) (hr : 0 < r) {E : ℝ → ℝ → ℝ → V3 ℝ}
    (hEz : ∀ t x y, (E t x y).z = 0) (hE : FieldSmooth S T M L E) {P : ℝ → Phase ℝ} (h : LorentzOrbit (-qm) T E (fun _ _ => ⟨0, b, 0⟩) P)
    (hP : OrbitInside S T r P) :
    ∃ C h0 : ℝ, 0 < h0 ∧ ∀ N : ℕ, 0 < N → T / N ≤ h0 → ∀ p : ℕ → Phase ℝ, p 0 = P 0 →
      (∀ k < N, p (k + 1) = dipoleMove qm b (T / N) (E (k * (T / N)) (p k).x (p k).y) (p k)) →
      ∀ k ≤ N, (p k).Near (P (k * (T / N))) (C * (T / N)) := by
  have hB : FieldSmooth S T (M + |b|) L (fun _ _ _ => ⟨0, b, 0⟩) := by
    refine ⟨fun t _ q _ => ⟨?_, ?_, ?_⟩, fun t _ t' _ q _ q' _ => ?_⟩
    · simp only [abs_zero]; positivity
    · linarith
    · simp only [abs_zero]; positivity
    · simp only [V3.diff, V3.Within, sub_self, abs_zero]
      refine ⟨?_, ?_, ?_⟩ <;> positivity
  obtain ⟨C, _, h0, hh0, hrun⟩ := step_margin (c := 6 * (|qm| * (M + |b|)) + 6 * (|qm| * (M + |b|)) ^ 2)
    (ok := fun e b => e.z = 0 ∧ b.x = 0 ∧ b.z = 0) hT (by positivity : 0 ≤ M + |b|) hL (by positivity) hr
    (fun t x y x' y' => ⟨hEz t x y, rfl, rfl⟩) (hE.mono (by linarith [abs_nonneg b]) (le_refl _)) hB h hP
  refine ⟨C, h0, hh0, fun N hN hdt p hp0 hp k hk => ?_⟩
  have hNR : (0 : ℝ) < N := by exact_mod_cast hN
  have e := hrun (fun d e b p => dipoleMove qm b.y d e p) 0 (le_refl _) (dipole_stepOk qm T (M + |b|) (by positivity)) N (T / N) p
    (by positivity) (by linarith) (by apply le_of_eq; field_simp) (fun k hk => hp k hk) hp0 k hk
  rw [add_zero] at e
  exact e

/-- C164, the generalised tracker: the same in any transverse magnetic field that is bounded and changes at a bounded rate around the
orbit, when the magnetic fields below the threshold `thr` are ignored: the distance is at most `C · (T/N + thr)`. -/
theorem C164_strong {S : Set (ℝ × ℝ)} {qm T M L r : ℝ} (hq : qm ≠ 0) (hT : 0 ≤ T) (hM : 0 ≤ M) (hL : 0 ≤ L) (hr : 0 < r) {E : ℝ → ℝ → ℝ → V3 ℝ}
    {B : ℝ → ℝ → V3 ℝ} (hEz : ∀ t x y, (E t x y).z = 0) (hBz : ∀ x y, (B x y).z = 0) (hE : FieldSmooth S T M L E)
    (hB : FieldSmooth S T M L (fun _ => B)) {P : ℝ → Phase ℝ} (h : LorentzOrbit (-qm) T E B P) (hP : OrbitInside S T r P) :
    ∃ C h0 : ℝ, 0 < h0 ∧ ∀ (N : ℕ) (thr : ℝ), 0 < N → 0 < thr → T / N + thr ≤ h0 → ∀ p : ℕ → Phase ℝ, p 0 = P 0 →
      (∀ k < N, p (k + 1) = strongMove qm thr (T / N) (E (k * (T / N)) (p k).x (p k).y) (B (p k).x (p k).y).x (B (p k).x (p k).y).y (p k)) →
      ∀ k ≤ N, (p k).Near (P (k * (T / N))) (C * (T / N + thr)) := by
  obtain ⟨C, _, h0, hh0, hrun⟩ := step_margin (c := 6 * (2 * (|qm| * M)) + 6 * (2 * (|qm| * M)) ^ 2 + 2 * |qm|)
    (ok := fun e b => e.z = 0 ∧ b.z = 0) hT hM hL (by positivity) hr (fun t x y x' y' => ⟨hEz t x y, hBz x' y'⟩) hE hB h hP
  refine ⟨C, h0, hh0, fun N thr hN ht hdt p hp0 hp k hk => ?_⟩
  have hNR : (0 : ℝ) < N := by exact_mod_cast hN
  exact hrun (fun d e b p => strongMove qm thr d e b.x b.y p) thr ht.le (strong_stepOk qm thr T M hM hq ht) N (T / N) p
    (by positivity) hdt (by apply le_of_eq; field_simp) (fun k hk => hp k hk) hp0 k hk

/-- C164, the threshold matters: in a uniform vertical field of a strength below the threshold the generalised tracker moves an
electron along a straight line, however short the steps, where the true motion is a circle. -/
theorem C164_threshold (qm b thr v T : ℝ) (hq : qm ≠ 0) (hb0 : b ≠ 0) (hb : |b| < thr) :
    ∃ P : ℝ → Phase ℝ, LorentzOrbit (-qm) T (fun _ _ _ => ⟨0, 0, 0⟩) (fun _ _ => ⟨0, b, 0⟩) P ∧ P 0 = ⟨0, 0, 0, 0, 0, v⟩ ∧
      (P T).vx = v * Real.sin (qm * b * T) ∧ (P T).vz = v * Real.cos (qm * b * T) ∧
      ∀ (N : ℕ) (p : ℕ → Phase ℝ), 0 < N → p 0 = P 0 → (∀ k < N, p (k + 1) = strongMove qm thr (T / N) ⟨0, 0, 0⟩ 0 b (p k)) →
        p N = ⟨0, 0, v * T, 0, 0, v⟩ := by
  have hom : qm * b ≠ 0 := mul_ne_zero hq hb0
  have hl : ∀ t : ℝ, HasDerivAt (fun t : ℝ => qm * b * t) (qm * b) t := fun t => by simpa using (hasDerivAt_id t).const_mul (qm * b)
  refine ⟨fun t => ⟨v / (qm * b) * (1 - Real.cos (qm * b * t)), 0, v / (qm * b) * Real.sin (qm * b * t), v * Real.sin (qm * b * t), 0,
    v * Real.cos (qm * b * t)⟩, ⟨fun t _ => ?_, fun t _ => hasDerivAt_const t 0, fun t _ => ?_, fun t _ => ?_, fun t _ => ?_, fun t _ => ?_⟩, by simp, rfl, rfl, ?_⟩
  · refine (((hl t).cos.const_sub 1).const_mul (v / (qm * b))).congr_deriv ?_
    simp only; field_simp
  · refine ((hl t).sin.const_mul (v / (qm * b))).congr_deriv ?_
    simp only; field_simp
  · refine ((hl t).sin.const_mul v).congr_deriv ?_
    simp only; ring
  · refine (hasDerivAt_const t (0 : ℝ)).congr_deriv ?_
    simp only; ring
  · refine ((hl t).cos.const_mul v).congr_deriv ?_
    simp only; ring
  · intro N p hN h0 hp
    have hNR : (0 : ℝ) < N := by exact_mod_cast hN
    have hs : Real.sqrt (0 * 0 + b * b) = |b| := by rw [zero_mul, zero_add, ← sq, Real.sqrt_sq_eq_abs]
    have hk : ∀ k ≤ N, p k = ⟨0, 0, v * (k * (T / N)), 0, 0, v⟩ := by
      intro k
      induction k with
      | zero => intro _; rw [h0]; simp
      | succ k ih =>
        intro hk
        rw [hp k (by omega), ih (by omega)]
        simp only [strongMove, hs, if_pos hb]
        rw [Phase.mk.injEq]
        refine ⟨?_, ?_, ?_, ?_, ?_, rfl⟩ <;> (push_cast; ring)
    rw [hk N (le_refl _), mul_div_cancel₀ _ hNR.ne']

/-! ## the particles of a cloud -/

/-- C164, the particles of a cloud: let `F t x y` and `Bm t x y` be the fields of the clouds and of the beams, let their sum be bounded
and change at a bounded rate around the orbit `P`. There are `c` and `h > 0` such that with the strong dipole tracker and any number of
steps of length `T/N ≤ h` every particle of the cloud that starts in the state `P 0` is, after each motion of the cloud, at most
`c · T/N` away from the orbit in each coordinate and each velocity component. -/
theorem C164_cloud_dipole {S : Set (ℝ × ℝ)} {qm b T M L r : ℝ} (hT : 0 ≤ T) (hM : 0 ≤ M) (hL : 0 ≤ L) (hr : 0 < r)
    (F Bm : ℝ → ℝ → ℝ → ℝ × ℝ)
    (hE : FieldSmooth S T M L (fun t x y => ⟨(F t x y).1 + (Bm t x y).1, (F t x y).2 + (Bm t x y).2, 0⟩)) {P : ℝ → Phase ℝ}
    (h : LorentzOrbit (-qm) T (fun t x y => ⟨(F t x y).1 + (Bm t x y).1, (F t x y).2 + (Bm t x y).2, 0⟩) (fun _ _ => ⟨0, b, 0⟩) P)
    (hP : OrbitInside S T r P) {G : Type} [AddCommGroup G] (i : ℕ) :
    ∃ c h0 : ℝ, 0 < h0 ∧ ∀ N : ℕ, 0 < N → T / N ≤ h0 →
      ∀ (C : CplCfg ℝ G) (inp : ℕ → CplIn ℝ) (ms : ℕ → MPs ℝ), C.tr i = dipoleObj qm b (T / N) → C.unifDt = true →
      (∀ k < N, (inp k).custom = none ∧ (inp k).kick = false ∧ (inp k).beam = Bm (k * (T / N)) ∧
        cplMotion C (inp k) (F (k * (T / N))) i (ms k) = .ok (ms (k + 1))) →
      ∀ j < (ms 0).nmp, (ms 0).phase j = P 0 → ∀ k ≤ N, ((ms k).phase j).Near (P (k * (T / N))) (c * (T / N)) := by
  obtain ⟨c, h0, hh0, hrun⟩ := C164_dipole hT hM hL hr (fun _ _ _ => rfl) hE h hP
  refine ⟨c, h0, hh0, fun N hN hdt C inp ms ht hu hs j hj hj0 => ?_⟩
  have hst : ∀ k < N, (ms (k + 1)).nmp = (ms k).nmp ∧ ∀ j < (ms k).nmp, (ms (k + 1)).phase j =
      dipoleMove qm b (T / N) (sumField (F (k * (T / N))) (some (Bm (k * (T / N)))) ((ms k).phase j).x ((ms k).phase j).y) ((ms k).phase j) := by
    intro k hk
    obtain ⟨h1, h2, h3, h4⟩ := hs k hk
    have := cplMotion_single C (inp k) (F (k * (T / N))) i (fun e _ p => dipoleMove qm b (T / N) e p) (fun _ _ => ⟨0, b, 0⟩)
      (by rw [ht]; exact ⟨rfl, fun s fl s' h => by cases h; rfl⟩) hu h1 h2 (ms k) (ms (k + 1)) h4
    rw [h3] at this
    exact this
  have hnmp : ∀ k ≤ N, (ms k).nmp = (ms 0).nmp := by
    intro k
    induction k with
    | zero => intro _; rfl
    | succ k ih => intro hk; rw [(hst k (by omega)).1, ih (by omega)]
  exact hrun N hN hdt (fun k => (ms k).phase j) hj0 (fun k hk => (hst k hk).2 j (by rw [hnmp k hk.le]; exact hj))

/-- C164, the same with the generalised tracker in the transverse field of a map, a quadrupole or none, plus a uniform field: the
distance is at most `c · (T/N + thr)`. -/
theorem C164_cloud_strong {S : Set (ℝ × ℝ)} {qm b0x b0y T M L r : ℝ} (hq : qm ≠ 0) (hT : 0 ≤ T) (hM : 0 ≤ M) (hL : 0 ≤ L) (hr : 0 < r)
    (F Bm : ℝ → ℝ → ℝ → ℝ × ℝ) (src : BSrc ℝ) (hsrc : src.Covers S)
    (hE : FieldSmooth S T M L (fun t x y => ⟨(F t x y).1 + (Bm t x y).1, (F t x y).2 + (Bm t x y).2, 0⟩)) {P : ℝ → Phase ℝ}
    (h : LorentzOrbit (-qm) T (fun t x y => ⟨(F t x y).1 + (Bm t x y).1, (F t x y).2 + (Bm t x y).2, 0⟩)
      (fun x y => ⟨(src.getB ⟨b0x, b0y, 0⟩ x y).x, (src.getB ⟨b0x, b0y, 0⟩ x y).y, 0⟩) P)
    (hP : OrbitInside S T r P) {G : Type} [AddCommGroup G] (i : ℕ) :
    ∃ c h0 : ℝ, 0 < h0 ∧ ∀ (N : ℕ) (thr : ℝ), 0 < N → 0 < thr → T / N + thr ≤ h0 →
      ∀ (C : CplCfg ℝ G) (inp : ℕ → CplIn ℝ) (ms : ℕ → MPs ℝ), C.tr i = strongObj src b0x b0y qm thr (T / N) → C.unifDt = true →
      (∀ k < N, (inp k).custom = none ∧ (inp k).kick = false ∧ (inp k).beam = Bm (k * (T / N)) ∧
        cplMotion C (inp k) (F (k * (T / N))) i (ms k) = .ok (ms (k + 1))) →
      ∀ j < (ms 0).nmp, (ms 0).phase j = P 0 → ∀ k ≤ N, ((ms k).phase j).Near (P (k * (T / N))) (c * (T / N + thr)) := by
  obtain ⟨M', L', hM', hL', hB⟩ := (C163_fields S T).1 src ⟨b0x, b0y, 0⟩ hsrc
  have hB' : FieldSmooth S T M' L' (fun _ x y => ⟨(src.getB ⟨b0x, b0y, 0⟩ x y).x, (src.getB ⟨b0x, b0y, 0⟩ x y).y, 0⟩) := by
    refine ⟨fun t ht q hq => ?_, fun t ht t' ht' q hq q' hq' => ?_⟩
    · obtain ⟨a1, a2, -⟩ := hB.1 t ht q hq
      exact ⟨a1, a2, by simp only [abs_zero]; exact hM'⟩
    · obtain ⟨a1, a2, -⟩ := hB.2 t ht t' ht' q hq q' hq'
      exact ⟨a1, a2, by simp only [V3.diff, sub_self, abs_zero]; positivity⟩
  obtain ⟨c, h0, hh0, hrun⟩ := C164_strong hq hT (add_nonneg hM hM') (add_nonneg hL hL') hr (fun _ _ _ => rfl) (fun _ _ => rfl)
    (hE.mono (by linarith) (by linarith)) (hB'.mono (by linarith) (by linarith)) h hP
  refine ⟨c, h0, hh0, fun N thr hN hthr hdt C inp ms ht hu hs j hj hj0 => ?_⟩
  have hst : ∀ k < N, (ms (k + 1)).nmp = (ms k).nmp ∧ ∀ j < (ms k).nmp, (ms (k + 1)).phase j =
      strongMove qm thr (T / N) (sumField (F (k * (T / N))) (some (Bm (k * (T / N)))) ((ms k).phase j).x ((ms k).phase j).y)
        (src.getB ⟨b0x, b0y, 0⟩ ((ms k).phase j).x ((ms k).phase j).y).x (src.getB ⟨b0x, b0y, 0⟩ ((ms k).phase j).x ((ms k).phase j).y).y ((ms k).phase j) := by
    intro k hk
    obtain ⟨h1, h2, h3, h4⟩ := hs k hk
    have := cplMotion_single C (inp k) (F (k * (T / N))) i (fun e b p => strongMove qm thr (T / N) e b.x b.y p) (src.getB ⟨b0x, b0y, 0⟩)
      (by rw [ht]; exact ⟨rfl, fun s fl s' h => by cases h; rfl⟩) hu h1 h2 (ms k) (ms (k + 1)) h4
    rw [h3] at this
    exact this
  have hnmp : ∀ k ≤ N, (ms k).nmp = (ms 0).nmp := by
    intro k
    induction k with
    | zero => intro _; rfl
    | succ k ih => intro hk; rw [(hst k (by omega)).1, ih (by omega)]
  exact hrun N thr hN hthr hdt (fun k => (ms k).phase j) hj0 (fun k hk => (hst k hk).2 j (by rw [hnmp k hk.le]; exact hj))

/-! ## the conditions can be met -/

/-- an electron on a circle in a vertical field, over any time -/
example (T : ℝ) :
    LorentzOrbit (-1) T (fun _ _ _ => ⟨0, 0, 0⟩) (fun x y => ⟨((BSrc.none : BSrc ℝ).getB ⟨0, 1, 0⟩ x y).x, ((BSrc.none : BSrc ℝ).getB ⟨0, 1, 0⟩ x y).y, 0⟩)
      (fun t => ⟨1 - Real.cos t, 0, Real.sin t, Real.sin t, 0, Real.cos t⟩) ∧
    OrbitInside {q | |q.1| ≤ 3 ∧ |q.2| ≤ 3} T 1 (fun t => ⟨1 - Real.cos t, 0, Real.sin t, Real.sin t, 0, Real.cos t⟩) := by
  refine ⟨⟨fun t _ => ?_, fun t _ => hasDerivAt_const t 0, fun t _ => Real.hasDerivAt_sin t, fun t _ => ?_, fun t _ => ?_, fun t _ => ?_⟩, fun t _ q h1 h2 => ?_⟩
  · refine ((Real.hasDerivAt_cos t).const_sub 1).congr_deriv ?_
    simp
  · simpa [BSrc.getB] using Real.hasDerivAt_sin t
  · simpa [BSrc.getB] using hasDerivAt_const t (0 : ℝ)
  · simpa [BSrc.getB] using Real.hasDerivAt_cos t
  · have a2 := Real.abs_cos_le_one t
    simp only [sub_zero] at h1 h2
    rw [abs_le] at a2 h1
    constructor
    · rw [abs_le]; constructor <;> linarith
    · linarith

/-- the motion of a cloud with these trackers succeeds when the field is not to be interpolated again -/
example {G : Type} [AddCommGroup G] (C0 : CplCfg ℝ G) (inp : CplIn ℝ) (hc : inp.custom = none) (hk : inp.kick = false) (hr : inp.reinterp = false)
    (s : MPs ℝ) (F : ℝ → ℝ → ℝ → ℝ × ℝ) (tr : TrackerObj ℝ) (htr : tr = dipoleObj 1 1 (1 / 10) ∨ tr = strongObj (.quad 2) 1 0 1 (1 / 100) (1 / 10)) :
    let C : CplCfg ℝ G := { C0 with tr := fun _ => tr, unifDt := true, reinterp := false }
    ∃ ms : ℕ → MPs ℝ, ms 0 = s ∧ ∀ k : ℕ, cplMotion C inp (F (k * (1 / 10))) 0 (ms k) = .ok (ms (k + 1)) := by
  intro C
  have h : ∀ (field : ℝ → ℝ → ℝ × ℝ) (s : MPs ℝ), ∃ s', cplMotion C inp field 0 s = .ok s' := by
    intro field s
    unfold cplMotion cloudMotion
    rw [hc, hk, hr]
    rcases htr with rfl | rfl <;> exact ⟨_, rfl⟩
  choose g hg using h
  exact ⟨fun k => Nat.rec s (fun k m => g (F (k * (1 / 10))) m) k, rfl, fun k => hg _ _⟩

end PyECLOUD
