import Verif.Spec.Liouville
import Mathlib.MeasureTheory.Group.Prod
import Mathlib.MeasureTheory.Constructions.Polish.Basic
import Mathlib.LinearAlgebra.Matrix.Determinant.Basic
import Mathlib.LinearAlgebra.Matrix.Notation

/-! # Lemmas on volumes in phase space -/

namespace PyECLOUD

open MeasureTheory

abbrev R3 := Fin 3 → ℝ

/-- inverse of `toPhase` -/
def ofPhase (p : Phase ℝ) : R3 × R3 := (![p.x, p.y, p.z], ![p.vx, p.vy, p.vz])

theorem toPhase_ofPhase (p : Phase ℝ) : toPhase (ofPhase p) = p := rfl

theorem ofPhase_toPhase (q : R3 × R3) : ofPhase (toPhase q) = q := by
  obtain ⟨a, b⟩ := q
  refine Prod.ext ?_ ?_
  · funext i; fin_cases i <;> rfl
  · funext i; fin_cases i <;> rfl

/-- a motion that preserves the measure and is one to one preserves volumes -/
theorem preserves_of (f : Phase ℝ → Phase ℝ) (hm : MeasurePreserving (fun q : R3 × R3 => ofPhase (f (toPhase q))))
    (hi : Function.Injective f) : PreservesVolume f := by
  intro S hS
  have hinj : Function.Injective (fun q : R3 × R3 => ofPhase (f (toPhase q))) := by
    intro a b h
    have h1 := congrArg toPhase h
    simp only [toPhase_ofPhase] at h1
    have h2 := hi h1
    rw [← ofPhase_toPhase a, ← ofPhase_toPhase b, h2]
  have hemb : MeasurableEmbedding (fun q : R3 × R3 => ofPhase (f (toPhase q))) := hm.measurable.measurableEmbedding hinj
  have e : toPhase ⁻¹' (f '' S) = (fun q : R3 × R3 => ofPhase (f (toPhase q))) '' (toPhase ⁻¹' S) := by
    ext q
    constructor
    · rintro ⟨p, hp, hq⟩
      refine ⟨ofPhase p, ?_, ?_⟩
      · change toPhase (ofPhase p) ∈ S
        rw [toPhase_ofPhase]; exact hp
      · simp only [toPhase_ofPhase]
        rw [hq, ofPhase_toPhase]
    · rintro ⟨r, hr, hq⟩
      refine ⟨toPhase r, hr, ?_⟩
      have := congrArg toPhase hq
      simp only [toPhase_ofPhase] at this
      exact this
  unfold phaseVolume
  rw [e, ← hm.measure_preimage_emb hemb, Set.preimage_image_eq _ hinj]

/-- the matrix of the rotation of the Boris scheme -/
noncomputable def rotM (t : R3) : Matrix (Fin 3) (Fin 3) ℝ :=
  let d := 1 + (t 0 * t 0 + t 1 * t 1 + t 2 * t 2)
  let s : R3 := fun i => 2 * t i / d
  !![1 - t 2 * s 2 - t 1 * s 1, s 2 + t 0 * s 1, t 0 * s 2 - s 1;
     t 1 * s 0 - s 2, 1 - t 0 * s 0 - t 2 * s 2, s 0 + t 1 * s 2;
     s 1 + t 2 * s 0, t 2 * s 1 - s 0, 1 - t 1 * s 1 - t 0 * s 0]

theorem rotM_det (t : R3) : (rotM t).det = 1 := by
  have hd : 1 + (t 0 * t 0 + t 1 * t 1 + t 2 * t 2) ≠ 0 := by
    have h0 := mul_self_nonneg (t 0)
    have h1 := mul_self_nonneg (t 1)
    have h2 := mul_self_nonneg (t 2)
    positivity
  unfold rotM
  rw [Matrix.det_fin_three]
  simp only [Matrix.of_apply, Matrix.cons_val', Matrix.cons_val_zero, Matrix.cons_val_one, Matrix.cons_val]
  field_simp
  ring

/-- the velocities after a kick: rotation between two halves of the electric kick -/
noncomputable def kickV (t h v : R3) : R3 := (rotM t).mulVec (v + h) + h

theorem kickV_volume (t h : R3) : Measure.map (kickV t h) volume = (volume : Measure R3) := by
  have hlin : Measure.map (fun v : R3 => (rotM t).mulVec v) volume = (volume : Measure R3) := by
    have := Real.map_matrix_volume_pi_eq_smul_volume_pi (M := rotM t) (by rw [rotM_det]; norm_num)
    rw [rotM_det] at this
    have e : ⇑(Matrix.toLin' (rotM t)) = fun v : R3 => (rotM t).mulVec v := funext fun v => Matrix.toLin'_apply _ _
    rw [e] at this
    simpa using this
  have hmeas : Measurable (fun v : R3 => (rotM t).mulVec v) := by
    have : Continuous (fun v : R3 => (rotM t).mulVec v) := by fun_prop
    exact this.measurable
  have m1 : MeasurePreserving (fun v : R3 => v + h) := measurePreserving_add_right volume h
  have m2 : MeasurePreserving (fun v : R3 => (rotM t).mulVec v) := ⟨hmeas, hlin⟩
  exact ((m1.comp (m2.comp m1)).map_eq)

/-- a kick of the velocities depending on the position preserves the measure -/
theorem kick_preserving (t h : R3 → R3) (ht : Measurable t) (hh : Measurable h) :
    MeasurePreserving (fun q : R3 × R3 => (q.1, kickV (t q.1) (h q.1) q.2)) := by
  have hm : Measurable (Function.uncurry (fun (x v : R3) => kickV (t x) (h x) v)) := by
    have h0 : ∀ i : Fin 3, Measurable (fun q : R3 × R3 => t q.1 i) := fun i => (measurable_pi_apply i).comp (ht.comp measurable_fst)
    have h1 : ∀ i : Fin 3, Measurable (fun q : R3 × R3 => h q.1 i) := fun i => (measurable_pi_apply i).comp (hh.comp measurable_fst)
    have h2 : ∀ i : Fin 3, Measurable (fun q : R3 × R3 => q.2 i) := fun i => (measurable_pi_apply i).comp measurable_snd
    refine measurable_pi_iff.2 (fun i => ?_)
    fin_cases i
    all_goals
      simp only [Function.uncurry, kickV, rotM, Matrix.mulVec, dotProduct, Fin.sum_univ_three, Pi.add_apply]
      simp
      have a0 := h0 0; have a1 := h0 1; have a2 := h0 2
      have b0 := h1 0; have b1 := h1 1; have b2 := h1 2
      have c0 := h2 0; have c1 := h2 1; have c2 := h2 2
      fun_prop
  exact MeasurePreserving.skew_product (MeasurePreserving.id volume) hm (Filter.Eventually.of_forall (fun x => kickV_volume (t x) (h x)))

/-- a drift preserves the measure -/
theorem drift_preserving (d : ℝ) : MeasurePreserving (fun q : R3 × R3 => (q.1 + d • q.2, q.2)) := by
  have hm : Measurable (Function.uncurry (fun (v x : R3) => x + d • v)) := by fun_prop
  have h : MeasurePreserving (fun q : R3 × R3 => (q.1, q.2 + d • q.1)) (volume.prod volume) (volume.prod volume) :=
    MeasurePreserving.skew_product (MeasurePreserving.id volume) hm
      (Filter.Eventually.of_forall (fun v => (measurePreserving_add_right volume (d • v)).map_eq))
  exact (Measure.measurePreserving_swap (μ := (volume : Measure R3)) (ν := (volume : Measure R3))).comp
    (h.comp (Measure.measurePreserving_swap (μ := (volume : Measure R3)) (ν := (volume : Measure R3))))

/-- half the rotation vector of a Boris step -/
noncomputable def tOf (qm dt : ℝ) (b : V3 ℝ) : R3 := ![1 / 2 * qm * dt * b.x, 1 / 2 * qm * dt * b.y, 1 / 2 * qm * dt * b.z]

/-- half the electric kick of a Boris step -/
noncomputable def hOf (qm dt : ℝ) (e : V3 ℝ) : R3 := ![1 / 2 * qm * e.x * dt, 1 / 2 * qm * e.y * dt, 1 / 2 * qm * e.z * dt]

theorem kickV_apply (t h v : R3) :
    let d := 1 + (t 0 * t 0 + t 1 * t 1 + t 2 * t 2)
    kickV t h v 0 = (1 - t 2 * (2 * t 2 / d) - t 1 * (2 * t 1 / d)) * (v 0 + h 0) + (2 * t 2 / d + t 0 * (2 * t 1 / d)) * (v 1 + h 1) +
      (t 0 * (2 * t 2 / d) - 2 * t 1 / d) * (v 2 + h 2) + h 0 ∧
    kickV t h v 1 = (t 1 * (2 * t 0 / d) - 2 * t 2 / d) * (v 0 + h 0) + (1 - t 0 * (2 * t 0 / d) - t 2 * (2 * t 2 / d)) * (v 1 + h 1) +
      (2 * t 0 / d + t 1 * (2 * t 2 / d)) * (v 2 + h 2) + h 1 ∧
    kickV t h v 2 = (2 * t 1 / d + t 2 * (2 * t 0 / d)) * (v 0 + h 0) + (t 2 * (2 * t 1 / d) - 2 * t 0 / d) * (v 1 + h 1) +
      (1 - t 1 * (2 * t 1 / d) - t 0 * (2 * t 0 / d)) * (v 2 + h 2) + h 2 := by
  refine ⟨?_, ?_, ?_⟩ <;>
    simp [kickV, rotM, Matrix.mulVec, dotProduct, Fin.sum_univ_three]

theorem borisKick_parts (qm dt : ℝ) (e b : V3 ℝ) (q : R3 × R3) :
    ofPhase (borisKick qm dt e b (toPhase q)) =
      (q.1 + dt • kickV (tOf qm dt b) (hOf qm dt e) q.2, kickV (tOf qm dt b) (hOf qm dt e) q.2) := by
  have hv : ∀ i : Fin 3, (ofPhase (borisKick qm dt e b (toPhase q))).2 i = kickV (tOf qm dt b) (hOf qm dt e) q.2 i := by
    intro i
    obtain ⟨k0, k1, k2⟩ := kickV_apply (tOf qm dt b) (hOf qm dt e) q.2
    fin_cases i
    · refine Eq.trans ?_ k0.symm
      change (borisKick qm dt e b (toPhase q)).vx = _
      unfold borisKick toPhase tOf hOf
      simp only [Matrix.cons_val_zero, Matrix.cons_val_one, Matrix.cons_val]
      ring
    · refine Eq.trans ?_ k1.symm
      change (borisKick qm dt e b (toPhase q)).vy = _
      unfold borisKick toPhase tOf hOf
      simp only [Matrix.cons_val_zero, Matrix.cons_val_one, Matrix.cons_val]
      ring
    · refine Eq.trans ?_ k2.symm
      change (borisKick qm dt e b (toPhase q)).vz = _
      unfold borisKick toPhase tOf hOf
      simp only [Matrix.cons_val_zero, Matrix.cons_val_one, Matrix.cons_val]
      ring
  have hx : ∀ i : Fin 3, (ofPhase (borisKick qm dt e b (toPhase q))).1 i =
      q.1 i + dt * (ofPhase (borisKick qm dt e b (toPhase q))).2 i := by
    intro i
    fin_cases i
    all_goals
      simp only [ofPhase, borisKick, toPhase, Fin.zero_eta, Fin.mk_one, Fin.reduceFinMk, Matrix.cons_val]
      ring
  refine Prod.ext (funext fun i => ?_) (funext hv)
  rw [hx, hv]
  rfl

theorem boris_measure (qm dt : ℝ) (E B : ℝ → ℝ → V3 ℝ) (hE : FieldMeasurable E) (hB : FieldMeasurable B) :
    MeasurePreserving (fun q : R3 × R3 => ofPhase (borisKick qm dt (E (toPhase q).x (toPhase q).y) (B (toPhase q).x (toPhase q).y) (toPhase q))) := by
  have hp : Measurable (fun x : R3 => ((x 0, x 1) : ℝ × ℝ)) := by fun_prop
  have ht : Measurable (fun x : R3 => tOf qm dt (B (x 0) (x 1))) := by
    refine measurable_pi_iff.2 (fun i => ?_)
    have h1 := hB.1.comp hp
    have h2 := hB.2.1.comp hp
    have h3 := hB.2.2.comp hp
    fin_cases i
    · exact h1.const_mul _
    · exact h2.const_mul _
    · exact h3.const_mul _
  have hh : Measurable (fun x : R3 => hOf qm dt (E (x 0) (x 1))) := by
    refine measurable_pi_iff.2 (fun i => ?_)
    have h1 := hE.1.comp hp
    have h2 := hE.2.1.comp hp
    have h3 := hE.2.2.comp hp
    fin_cases i
    · exact (h1.const_mul _).mul_const _
    · exact (h2.const_mul _).mul_const _
    · exact (h3.const_mul _).mul_const _
  have h := (drift_preserving dt).comp (kick_preserving _ _ ht hh)
  have e : (fun q : R3 × R3 => ofPhase (borisKick qm dt (E (toPhase q).x (toPhase q).y) (B (toPhase q).x (toPhase q).y) (toPhase q))) =
      (fun q : R3 × R3 => (q.1 + dt • q.2, q.2)) ∘ (fun q : R3 × R3 => (q.1, kickV (tOf qm dt (B (q.1 0) (q.1 1))) (hOf qm dt (E (q.1 0) (q.1 1))) q.2)) := by
    funext q
    exact borisKick_parts qm dt _ _ q
  rw [e]
  exact h

/-! ## one-to-one motions that preserve the measure -/

/-- a one-to-one motion that preserves the measure -/
structure VolMap (f : Phase ℝ → Phase ℝ) : Prop where
  measure : MeasurePreserving (fun q : R3 × R3 => ofPhase (f (toPhase q)))
  inj : Function.Injective f

theorem VolMap.preserves {f : Phase ℝ → Phase ℝ} (h : VolMap f) : PreservesVolume f := preserves_of f h.measure h.inj

theorem VolMap.id : VolMap (fun p => p) := by
  refine ⟨?_, fun _ _ h => h⟩
  have e : (fun q : R3 × R3 => ofPhase (toPhase q)) = fun q => q := funext ofPhase_toPhase
  rw [e]; exact MeasurePreserving.id _

theorem VolMap.comp {f g : Phase ℝ → Phase ℝ} (hg : VolMap g) (hf : VolMap f) : VolMap (fun p => g (f p)) := by
  refine ⟨?_, fun a b h => hf.inj (hg.inj h)⟩
  have h := hg.measure.comp hf.measure
  have e : ((fun q : R3 × R3 => ofPhase (g (toPhase q))) ∘ fun q : R3 × R3 => ofPhase (f (toPhase q))) =
      fun q : R3 × R3 => ofPhase (g (f (toPhase q))) := by
    funext q
    simp only [Function.comp_apply, toPhase_ofPhase]
  rw [e] at h
  exact h

section reverse

variable {K : Type} [Field K]

/-- A Boris step back in time with the same fields restores the velocities; the position follows from the velocity after the
step. -/
theorem borisKick_back (qm dt : K) (e b : V3 K) (p : Phase K)
    (hd : 1 + ((1 / 2 * qm * dt * b.x) * (1 / 2 * qm * dt * b.x) + (1 / 2 * qm * dt * b.y) * (1 / 2 * qm * dt * b.y) +
      (1 / 2 * qm * dt * b.z) * (1 / 2 * qm * dt * b.z)) ≠ 0) :
    (borisKick qm (-dt) e b (borisKick qm dt e b p)).vx = p.vx ∧ (borisKick qm (-dt) e b (borisKick qm dt e b p)).vy = p.vy ∧
    (borisKick qm (-dt) e b (borisKick qm dt e b p)).vz = p.vz ∧
    p.x = (borisKick qm dt e b p).x - (borisKick qm dt e b p).vx * dt ∧
    p.y = (borisKick qm dt e b p).y - (borisKick qm dt e b p).vy * dt ∧
    p.z = (borisKick qm dt e b p).z - (borisKick qm dt e b p).vz * dt := by
  unfold borisKick
  dsimp only
  have hneg : ∀ c : K, 1 / 2 * qm * -dt * c = -(1 / 2 * qm * dt * c) := fun c => by ring
  have hneg' : ∀ c : K, 1 / 2 * qm * c * -dt = -(1 / 2 * qm * c * dt) := fun c => by ring
  simp only [hneg, hneg']
  generalize 1 / 2 * qm * dt * b.x = tx at *
  generalize 1 / 2 * qm * dt * b.y = ty at *
  generalize 1 / 2 * qm * dt * b.z = tz at *
  generalize 1 / 2 * qm * e.x * dt = hx at *
  generalize 1 / 2 * qm * e.y * dt = hy at *
  generalize 1 / 2 * qm * e.z * dt = hz at *
  have hsq : 1 + (-tx * -tx + -ty * -ty + -tz * -tz) = 1 + (tx * tx + ty * ty + tz * tz) := by ring
  rw [hsq]
  obtain ⟨D, hD⟩ : ∃ D, 1 + (tx * tx + ty * ty + tz * tz) = D := ⟨_, rfl⟩
  rw [hD]
  rw [hD] at hd
  refine ⟨?_, ?_, ?_, by ring, by ring, by ring⟩
  all_goals
    field_simp
    rw [← hD]
    ring

end reverse

end PyECLOUD
