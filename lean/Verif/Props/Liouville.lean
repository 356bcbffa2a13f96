import Verif.Spec.Liouville
import Verif.Lemmas.LiouvilleRun
import Mathlib.MeasureTheory.Measure.Lebesgue.EqHaar

/-! # Property C161: tracking neither compresses nor stretches phase space -/

set_option linter.unusedSectionVars false

namespace PyECLOUD

open MeasureTheory

/-! ## the Boris tracker -/

/-- C161, going back: the Boris step with the same fields and the time step reversed restores the velocities, and the position
before the step is the one after it minus the last velocity times the time step. -/
theorem C161_reversible (qm dt : ℝ) (e b : V3 ℝ) (p : Phase ℝ) :
    (borisKick qm (-dt) e b (borisKick qm dt e b p)).vx = p.vx ∧ (borisKick qm (-dt) e b (borisKick qm dt e b p)).vy = p.vy ∧
    (borisKick qm (-dt) e b (borisKick qm dt e b p)).vz = p.vz ∧
    p.x = (borisKick qm dt e b p).x - (borisKick qm dt e b p).vx * dt ∧
    p.y = (borisKick qm dt e b p).y - (borisKick qm dt e b p).vy * dt ∧
    p.z = (borisKick qm dt e b p).z - (borisKick qm dt e b p).vz * dt :=
  borisKick_back qm dt e b p (boris_den _ _ _)

/-- C161, one sub-step: with the fields taken at the electron, any set of electrons keeps its volume and no two electrons end up
in the same state, whatever the fields, the charge and the time step. -/
theorem C161_boris (qm dt : ℝ) (E B : ℝ → ℝ → V3 ℝ) (hE : FieldMeasurable E) (hB : FieldMeasurable B) :
    PreservesVolume (fun p => borisKick qm dt (E p.x p.y) (B p.x p.y) p) ∧
    Function.Injective (fun p : Phase ℝ => borisKick qm dt (E p.x p.y) (B p.x p.y) p) :=
  ⟨(boris_vol qm dt E B hE hB).preserves, boris_inj qm dt E B⟩

/-- C161, uniform electric field: the same holds for the whole step with any number of sub-steps. -/
theorem C161_uniform (qm dt : ℝ) (e : V3 ℝ) (B : ℝ → ℝ → V3 ℝ) (hB : FieldMeasurable B) (n : ℕ) :
    PreservesVolume (borisSub qm dt e B n) ∧ Function.Injective (borisSub qm dt e B n) := by
  have h : VolMap (borisSub qm dt e B n) := by
    induction n with
    | zero => exact VolMap.id
    | succ n ih =>
      exact ih.comp (boris_vol qm dt (fun _ _ => e) B ⟨measurable_const, measurable_const, measurable_const⟩ hB)
  exact ⟨h.preserves, h.inj⟩

/-- C161, the fields of the code: the magnetic fields of the trackers (none, quadrupole, map from file, multipoles) and any field
interpolated from a grid meet the condition of the theorems, whatever the coefficients, the map and the grid. -/
theorem C161_fields :
    (∀ (src : BSrc ℝ) (b0 : V3 ℝ), FieldMeasurable (src.getB b0)) ∧
    (∀ (bf bs : List ℝ) (c : Option (V3 ℝ)), FieldMeasurable (multipoleField bf bs c)) ∧
    (∀ (nx ny : ℕ) (bx yb dx dy : ℝ) (fx fy : ℕ → ℕ → ℝ),
      Measurable (fun q : ℝ × ℝ => (intField nx ny bx yb dx dy fx q.1 q.2, intField nx ny bx yb dx dy fy q.1 q.2))) :=
  ⟨getB_measurable, multipoleField_measurable, fun nx ny bx yb dx dy fx fy =>
    (intField_measurable nx ny bx yb dx dy fx).prodMk (intField_measurable nx ny bx yb dx dy fy)⟩

/-- The electric field is taken at the electron in every sub-step: it is interpolated again before each of them, or there is one
sub-step only. -/
def FieldAtElectron {G : Type} (C : CplCfg ℝ G) (inp : CplIn ℝ) (nSub : ℕ) : Prop :=
  (C.reinterp || inp.reinterp) = true ∨ (∃ d, inp.custom = some (1, d)) ∨ (inp.custom = none ∧ C.unifDt = true ∧ nSub = 1)

theorem plan_one {G : Type} (C : CplCfg ℝ G) (inp : CplIn ℝ) (i nSub : ℕ) (hn : (C.tr i).nSub = some nSub) (h : FieldAtElectron C inp nSub) :
    ∀ mode, substepMode C.isBoris C.unifDt inp.custom (C.tr i) inp.step.dt = .ok mode →
      ∀ p, substepPlan (C.reinterp || inp.reinterp) mode = .ok p → p.nint = 1 ∧ p.dtSub.isSome := by
  intro mode hm p hp
  rcases h with h | ⟨d, h⟩ | ⟨h1, h2, h3⟩
  · rw [h] at hp
    cases mode with
    | none => cases hp
    | some nd => cases hp; exact ⟨rfl, rfl⟩
  · rw [h] at hm
    simp only [substepMode] at hm
    split at hm
    · cases hm
      simp only [substepPlan] at hp
      split at hp <;> (cases hp; exact ⟨rfl, rfl⟩)
    · cases hm
  · rw [h1, h2] at hm
    simp only [substepMode, if_true, hn, h3] at hm
    cases hm
    simp only [substepPlan] at hp
    split at hp <;> (cases hp; exact ⟨rfl, rfl⟩)

/-- C161, the motion of a cloud: with the Boris tracker, the whole motion of a time step, all its sub-steps and the kick of the
beam included, moves every electron of the cloud by one map of phase space that keeps volumes and merges no two electrons,
provided the field is taken at the electron in every sub-step. -/
theorem C161_cloud {G : Type} [AddCommGroup G] (C : CplCfg ℝ G) (inp : CplIn ℝ) (field : ℝ → ℝ → ℝ × ℝ) (i : ℕ) (src : BSrc ℝ) (b0 : V3 ℝ)
    (qm dt : ℝ) (nSub : ℕ) (htr : C.tr i = borisObj src b0 qm dt nSub) (hf : Measurable (fun q : ℝ × ℝ => field q.1 q.2))
    (hb : Measurable (fun q : ℝ × ℝ => inp.beam q.1 q.2)) (hsub : FieldAtElectron C inp nSub) :
    ∃ M : Phase ℝ → Phase ℝ, PreservesVolume M ∧ Function.Injective M ∧
      ∀ s s' : MPs ℝ, s.WF → cplMotion C inp field i s = .ok s' → s' = s.push (fun _ p => M p) := by
  obtain ⟨M, hv, hM⟩ := cplMotion_vol C inp field i qm (src.getB b0) (by rw [htr]; exact borisObj_one src b0 qm dt nSub) (getB_measurable src b0)
    hf hb (plan_one C inp i nSub (by rw [htr]; rfl) hsub)
  exact ⟨M, hv.preserves, hv.inj, hM⟩

/-- C161, the same with the multipole tracker. -/
theorem C161_cloud_multipole {G : Type} [AddCommGroup G] (C : CplCfg ℝ G) (inp : CplIn ℝ) (field : ℝ → ℝ → ℝ × ℝ) (i : ℕ) (bf bs : List ℝ)
    (b0x b0y b0z : Option ℝ) (qm dt : ℝ) (nSub : ℕ) (htr : C.tr i = multipoleObj bf bs b0x b0y b0z qm dt nSub)
    (hf : Measurable (fun q : ℝ × ℝ => field q.1 q.2)) (hb : Measurable (fun q : ℝ × ℝ => inp.beam q.1 q.2))
    (hsub : FieldAtElectron C inp nSub) :
    ∃ M : Phase ℝ → Phase ℝ, PreservesVolume M ∧ Function.Injective M ∧
      ∀ s s' : MPs ℝ, s.WF → cplMotion C inp field i s = .ok s' → s' = s.push (fun _ p => M p) := by
  obtain ⟨M, hv, hM⟩ := cplMotion_vol C inp field i qm _ (by rw [htr]; exact multipoleObj_one bf bs b0x b0y b0z qm dt nSub)
    (multipoleField_measurable bf bs _) hf hb (plan_one C inp i nSub (by rw [htr]; rfl) hsub)
  exact ⟨M, hv.preserves, hv.inj, hM⟩

/-- a configuration and an input meeting the conditions, with three sub-steps and the field taken anew at each: the motion succeeds -/
example {G : Type} [AddCommGroup G] (C0 : CplCfg ℝ G) (inp0 : CplIn ℝ) (s : MPs ℝ) :
    let C : CplCfg ℝ G := { C0 with tr := fun _ => borisObj (.quad 3) ⟨0, 1, 0⟩ (-2) 1 3, isBoris := true, unifDt := true, reinterp := true }
    let inp : CplIn ℝ := { inp0 with beam := fun x y => (x / 4, y / 4), custom := none, kick := false }
    FieldAtElectron C inp 3 ∧ Measurable (fun q : ℝ × ℝ => inp.beam q.1 q.2) ∧ ∃ s', cplMotion C inp (fun x _ => (x, 0)) 0 s = .ok s' := by
  refine ⟨Or.inl rfl, by simp only; fun_prop, ?_⟩
  exact ⟨_, rfl⟩

/-! ## the field kept during the sub-steps -/

/-- sets of electrons tied by a linear relation have no volume -/
theorem plane_null (c : ℝ) : phaseVolume {p | p.x = c * p.vx} = 0 := by
  have : toPhase ⁻¹' {p : Phase ℝ | p.x = c * p.vx} =
      (LinearMap.ker ((LinearMap.proj 0 ∘ₗ LinearMap.fst ℝ R3 R3) - c • (LinearMap.proj 0 ∘ₗ LinearMap.snd ℝ R3 R3) : R3 × R3 →ₗ[ℝ] ℝ) : Set (R3 × R3)) := by
    ext q
    simp only [toPhase, Set.mem_preimage, Set.mem_setOf_eq, SetLike.mem_coe, LinearMap.mem_ker, LinearMap.sub_apply, LinearMap.smul_apply,
      LinearMap.comp_apply, LinearMap.proj_apply, LinearMap.fst_apply, LinearMap.snd_apply, smul_eq_mul]
    exact sub_eq_zero.symm
  unfold phaseVolume
  rw [this]
  haveI : MeasureTheory.Measure.IsAddHaarMeasure (volume : MeasureTheory.Measure R3) := inferInstance
  haveI : MeasureTheory.Measure.IsAddHaarMeasure (volume : MeasureTheory.Measure (R3 × R3)) :=
    MeasureTheory.Measure.prod.instIsAddHaarMeasure _ _
  apply MeasureTheory.Measure.addHaar_submodule
  intro h
  have hm : ((fun _ => 1, fun _ => 0) : R3 × R3) ∈ LinearMap.ker ((LinearMap.proj 0 ∘ₗ LinearMap.fst ℝ R3 R3) -
      c • (LinearMap.proj 0 ∘ₗ LinearMap.snd ℝ R3 R3) : R3 × R3 →ₗ[ℝ] ℝ) := by
    rw [h]; exact Submodule.mem_top
  simp at hm

/-- a motion that ends in a set without volume does not keep volumes -/
theorem not_preserves_plane (f : Phase ℝ → Phase ℝ) (c : ℝ) (h : ∀ p, (f p).x = c * (f p).vx) : ¬ PreservesVolume f := by
  intro hp
  have h1 := hp Set.univ MeasurableSet.univ
  have h2 : phaseVolume (f '' Set.univ) = 0 := by
    refine measure_mono_null (t := toPhase ⁻¹' {p | p.x = c * p.vx}) ?_ (plane_null c)
    rintro q ⟨p, _, hq⟩
    change (toPhase q).x = c * (toPhase q).vx
    rw [← hq]
    exact h p
  rw [h2] at h1
  have h3 : phaseVolume Set.univ = ⊤ := by
    unfold phaseVolume
    rw [Set.preimage_univ]
    simp [Measure.volume_eq_prod, ← Set.univ_prod_univ]
  rw [h3] at h1
  exact absurd h1 (by simp)

/-- C161, disagreement: with several sub-steps and the field not interpolated again, the field of the first position is used for
all of them. In a field growing linearly with `x`, two sub-steps then squeeze the whole phase space into a plane, and electrons in
different states end up in the same one. -/
theorem C161_frozen_violated :
    ¬ PreservesVolume (fun p => borisSub 1 1 ⟨p.x, 0, 0⟩ (BSrc.none.getB ⟨0, 0, 0⟩) 2 p) ∧
    ¬ Function.Injective (fun p : Phase ℝ => borisSub 1 1 ⟨p.x, 0, 0⟩ (BSrc.none.getB ⟨0, 0, 0⟩) 2 p) := by
  constructor
  · refine not_preserves_plane _ 2 (fun p => ?_)
    simp only [borisSub, borisKick, BSrc.getB]
    ring
  · intro h
    have : (⟨0, 0, 0, 0, 0, 0⟩ : Phase ℝ) = ⟨1, 0, 0, -2, 0, 0⟩ := by
      apply h
      simp only [borisSub, borisKick, BSrc.getB]
      norm_num
    simp at this

/-- C161, the same for the motion of a cloud: no map of phase space that keeps volumes describes the motion with two sub-steps and
without a new interpolation. -/
theorem C161_frozen_cloud_violated {G : Type} [AddCommGroup G] (C0 : CplCfg ℝ G) (inp0 : CplIn ℝ) :
    let C : CplCfg ℝ G := { C0 with tr := fun _ => borisObj .none ⟨0, 0, 0⟩ 1 2 2, isBoris := true, unifDt := true, reinterp := false }
    let inp : CplIn ℝ := { inp0 with beam := fun _ _ => (0, 0), custom := none, kick := false, reinterp := false }
    ∀ M : Phase ℝ → Phase ℝ, (∀ s s' : MPs ℝ, s.WF → cplMotion C inp (fun x _ => (x, 0)) 0 s = .ok s' → s' = s.push (fun _ p => M p)) →
      ¬ PreservesVolume M := by
  intro C inp M h
  refine not_preserves_plane M 2 (fun p => ?_)
  let s : MPs ℝ := ⟨fun f => match f with
    | .x => [p.x] | .y => [p.y] | .z => [p.z] | .vx => [p.vx] | .vy => [p.vy] | .vz => [p.vz] | _ => [0], 1, 1, 1, 1, 1, 1, 1, false⟩
  have hw : s.WF := by
    refine ⟨fun f => ?_, le_refl 1⟩
    cases f <;> rfl
  have hk : 0 < s.nmp := Nat.one_pos
  have hph : s.phase 0 = p := rfl
  let f := motionFields (cloudFields (fun x _ : ℝ => (x, (0 : ℝ)))) (some (beamFields (fun _ _ : ℝ => ((0 : ℝ), (0 : ℝ))))) s
  have hr : cplMotion C inp (fun x _ => (x, 0)) 0 s =
      .ok (s.push (fun k => borisSub 1 (2 / ((2 : ℕ) : ℝ)) (EArr.at ⟨f.ex, f.ey, []⟩ k) (BSrc.none.getB ⟨0, 0, 0⟩) 2)) := rfl
  have e := congrArg (fun t => MPs.phase t 0) (h s _ hw hr)
  simp only [phase_push s _ 0 hk, hph] at e
  have hat : f.at 0 = fieldLoc ((p.x, 0) + (0, 0)) := motionFields_at _ (some fun _ _ => (0, 0)) s 0 hk
  simp only [Fields.at, fieldLoc, Prod.mk.injEq, Prod.fst_add, Prod.snd_add, add_zero] at hat
  have hE : EArr.at ⟨f.ex, f.ey, []⟩ 0 = ⟨p.x, 0, 0⟩ := by
    simp only [EArr.at, hat.1, hat.2.1]
    rfl
  have e4 : M p = borisSub 1 1 ⟨p.x, 0, 0⟩ (BSrc.none.getB ⟨0, 0, 0⟩) 2 p := by
    rw [← e, hE]
    norm_num
  rw [e4]
  simp only [borisSub, borisKick, BSrc.getB]
  ring

/-! ## the trackers for strong magnetic fields -/

/-- C161, strong dipole and generalised strong-field tracker: in a uniform electric field (and, for the second, a uniform magnetic
field), a whole step keeps volumes and merges no two electrons, whatever the length of the step. -/
theorem C161_strong_partial (qm b thr dt : ℝ) (e : V3 ℝ) (bx bY : ℝ) (hthr : 0 < thr) :
    (PreservesVolume (dipoleMove qm b dt e) ∧ Function.Injective (dipoleMove qm b dt e)) ∧
    (PreservesVolume (strongMove qm thr dt e bx bY) ∧ Function.Injective (strongMove qm thr dt e bx bY)) :=
  ⟨⟨(dipole_vol qm b dt e).preserves, (dipole_vol qm b dt e).inj⟩, (strong_vol qm thr dt e bx bY hthr).preserves, (strong_vol qm thr dt e bx bY hthr).inj⟩

/-- C161, disagreement: in an electric field that depends on the position these trackers do not keep volumes: with no magnetic
field and a field proportional to `x`, one step of the dipole tracker squeezes the whole phase space into a plane. -/
theorem C161_dipole_violated : ¬ PreservesVolume (fun p => dipoleMove 2 0 1 ⟨-p.x, 0, 0⟩ p) := by
  refine not_preserves_plane _ 1 (fun p => ?_)
  simp [dipoleMove, sincc, cosincc]
  ring

end PyECLOUD
