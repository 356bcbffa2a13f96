import Verif.Lemmas.Liouville
import Verif.Lemmas.Distribution
import Mathlib.MeasureTheory.Function.Floor

/-! # Volumes in phase space along the motion of a cloud -/

set_option linter.unusedSectionVars false

namespace PyECLOUD

open MeasureTheory

/-! ## one sub-step -/

theorem boris_den (qm dt : ℝ) (b : V3 ℝ) : 1 + ((1 / 2 * qm * dt * b.x) * (1 / 2 * qm * dt * b.x) + (1 / 2 * qm * dt * b.y) * (1 / 2 * qm * dt * b.y) +
      (1 / 2 * qm * dt * b.z) * (1 / 2 * qm * dt * b.z)) ≠ 0 := by
  have h0 := mul_self_nonneg (1 / 2 * qm * dt * b.x)
  have h1 := mul_self_nonneg (1 / 2 * qm * dt * b.y)
  have h2 := mul_self_nonneg (1 / 2 * qm * dt * b.z)
  have : 0 < 1 + ((1 / 2 * qm * dt * b.x) * (1 / 2 * qm * dt * b.x) + (1 / 2 * qm * dt * b.y) * (1 / 2 * qm * dt * b.y) +
      (1 / 2 * qm * dt * b.z) * (1 / 2 * qm * dt * b.z)) := by linarith
  exact this.ne'

/-- A Boris step with the fields at the electron is one-to-one. -/
theorem boris_inj (qm dt : ℝ) (E B : ℝ → ℝ → V3 ℝ) : Function.Injective (fun p : Phase ℝ => borisKick qm dt (E p.x p.y) (B p.x p.y) p) := by
  intro p q h
  simp only at h
  obtain ⟨p1, p2, p3, p4, p5, p6⟩ := borisKick_back qm dt (E p.x p.y) (B p.x p.y) p (boris_den _ _ _)
  obtain ⟨q1, q2, q3, q4, q5, q6⟩ := borisKick_back qm dt (E q.x q.y) (B q.x q.y) q (boris_den _ _ _)
  rw [h] at p1 p2 p3 p4 p5 p6
  have hx : p.x = q.x := p4.trans q4.symm
  have hy : p.y = q.y := p5.trans q5.symm
  have hz : p.z = q.z := p6.trans q6.symm
  rw [hx, hy] at p1 p2 p3
  have h1 : p.vx = q.vx := p1.symm.trans q1
  have h2 : p.vy = q.vy := p2.symm.trans q2
  have h3 : p.vz = q.vz := p3.symm.trans q3
  cases p; cases q
  simp only [Phase.mk.injEq]
  exact ⟨hx, hy, hz, h1, h2, h3⟩

theorem boris_vol (qm dt : ℝ) (E B : ℝ → ℝ → V3 ℝ) (hE : FieldMeasurable E) (hB : FieldMeasurable B) :
    VolMap (fun p : Phase ℝ => borisKick qm dt (E p.x p.y) (B p.x p.y) p) :=
  ⟨boris_measure qm dt E B hE hB, boris_inj qm dt E B⟩

/-- An instantaneous kick is a Boris step of length zero of the positions: a shear of the velocities. -/
theorem kick_vol (k : ℝ → ℝ → ℝ × ℝ) (h1 : Measurable (fun q : ℝ × ℝ => (k q.1 q.2).1)) (h2 : Measurable (fun q : ℝ × ℝ => (k q.1 q.2).2)) :
    VolMap (fun p : Phase ℝ => { p with vx := p.vx + (k p.x p.y).1, vy := p.vy + (k p.x p.y).2 }) := by
  constructor
  · have hp : Measurable (fun x : R3 => ((x 0, x 1) : ℝ × ℝ)) := by fun_prop
    let h : R3 → R3 := fun x => ![(k (x 0) (x 1)).1 / 2, (k (x 0) (x 1)).2 / 2, 0]
    have hh : Measurable h := by
      refine measurable_pi_iff.2 (fun i => ?_)
      fin_cases i
      · exact (h1.comp hp).div_const 2
      · exact (h2.comp hp).div_const 2
      · exact measurable_const
    have e := kick_preserving (fun _ => 0) h measurable_const hh
    have e2 : (fun q : R3 × R3 => (q.1, kickV 0 (h q.1) q.2)) = fun q : R3 × R3 => ofPhase
        { toPhase q with vx := (toPhase q).vx + (k (toPhase q).x (toPhase q).y).1, vy := (toPhase q).vy + (k (toPhase q).x (toPhase q).y).2 } := by
      funext q
      obtain ⟨a0, a1, a2⟩ := kickV_apply 0 (h q.1) q.2
      refine Prod.ext ?_ ?_
      · funext i; fin_cases i <;> rfl
      · funext i
        fin_cases i
        · change kickV 0 (h q.1) q.2 0 = q.2 0 + (k (q.1 0) (q.1 1)).1
          rw [a0]
          change (1 - (0 : ℝ) * _ - (0 : ℝ) * _) * (q.2 0 + (k (q.1 0) (q.1 1)).1 / 2) + _ * (q.2 1 + (k (q.1 0) (q.1 1)).2 / 2) + _ * (q.2 2 + 0) + (k (q.1 0) (q.1 1)).1 / 2 = _
          simp only [Pi.zero_apply]
          ring
        · change kickV 0 (h q.1) q.2 1 = q.2 1 + (k (q.1 0) (q.1 1)).2
          rw [a1]
          change _ * (q.2 0 + (k (q.1 0) (q.1 1)).1 / 2) + _ * (q.2 1 + (k (q.1 0) (q.1 1)).2 / 2) + _ * (q.2 2 + 0) + (k (q.1 0) (q.1 1)).2 / 2 = _
          simp only [Pi.zero_apply]
          ring
        · change kickV 0 (h q.1) q.2 2 = q.2 2
          rw [a2]
          change _ * (q.2 0 + (k (q.1 0) (q.1 1)).1 / 2) + _ * (q.2 1 + (k (q.1 0) (q.1 1)).2 / 2) + _ * (q.2 2 + 0) + 0 = _
          simp only [Pi.zero_apply]
          ring
    rw [e2] at e
    exact e
  · intro p q h
    simp only [Phase.mk.injEq] at h
    obtain ⟨hx, hy, hz, h1, h2, h3⟩ := h
    rw [hx, hy] at h1 h2
    cases p; cases q
    simp only [Phase.mk.injEq]
    exact ⟨hx, hy, hz, add_right_cancel h1, add_right_cancel h2, h3⟩

/-- A motion whose velocities undergo a linear map of determinant one and a shift, and whose positions are shifted by an amount
given by the velocities, preserves the measure. -/
theorem linear_vol (f : Phase ℝ → Phase ℝ) (R : Matrix (Fin 3) (Fin 3) ℝ) (hR : R.det = 1) (c : R3) (L : R3 → R3) (hL : Measurable L)
    (hf : ∀ q : R3 × R3, ofPhase (f (toPhase q)) = (q.1 + L q.2, R.mulVec q.2 + c)) : VolMap f := by
  constructor
  · have hv : MeasurePreserving (fun v : R3 => R.mulVec v + c) := by
      have hlin : MeasureTheory.Measure.map (fun v : R3 => R.mulVec v) volume = (volume : MeasureTheory.Measure R3) := by
        have := Real.map_matrix_volume_pi_eq_smul_volume_pi (M := R) (by rw [hR]; norm_num)
        rw [hR] at this
        have e : ⇑(Matrix.toLin' R) = fun v : R3 => R.mulVec v := funext fun v => Matrix.toLin'_apply _ _
        rw [e] at this
        simpa using this
      have hm : Measurable (fun v : R3 => R.mulVec v) := by
        have : (fun v : R3 => R.mulVec v) = ⇑(Matrix.toLin' R) := (funext fun v => Matrix.toLin'_apply _ _).symm
        rw [this]
        exact (LinearMap.continuous_of_finiteDimensional _).measurable
      exact (measurePreserving_add_right volume c).comp ⟨hm, hlin⟩
    have hm : Measurable (Function.uncurry (fun (v x : R3) => x + L v)) := by
      exact measurable_snd.add (hL.comp measurable_fst)
    have h : MeasurePreserving (fun q : R3 × R3 => (R.mulVec q.1 + c, q.2 + L q.1)) (volume.prod volume) (volume.prod volume) :=
      MeasurePreserving.skew_product hv hm
        (Filter.Eventually.of_forall (fun v => (measurePreserving_add_right volume (L v)).map_eq))
    have sw : MeasurePreserving (Prod.swap : R3 × R3 → R3 × R3) (volume.prod volume) (volume.prod volume) :=
      MeasureTheory.Measure.measurePreserving_swap
    have h2 := (sw.comp h).comp sw
    have e : (Prod.swap ∘ (fun q : R3 × R3 => (R.mulVec q.1 + c, q.2 + L q.1))) ∘ Prod.swap = fun q : R3 × R3 => ofPhase (f (toPhase q)) := by
      funext q
      rw [hf]
      rfl
    rw [e] at h2
    exact h2
  · intro p q h
    have hp := hf (ofPhase p)
    have hq := hf (ofPhase q)
    rw [toPhase_ofPhase, h] at hp
    rw [toPhase_ofPhase] at hq
    have e := hp.symm.trans hq
    simp only [Prod.mk.injEq] at e
    obtain ⟨e1, e2⟩ := e
    have hinj : Function.Injective R.mulVec := Matrix.mulVec_injective_of_isUnit ((Matrix.isUnit_iff_isUnit_det R).2 (by rw [hR]; exact isUnit_one))
    have e3 : (ofPhase p).2 = (ofPhase q).2 := hinj (add_right_cancel e2)
    rw [e3] at e1
    have e4 : (ofPhase p).1 = (ofPhase q).1 := add_right_cancel e1
    have e5 : ofPhase p = ofPhase q := Prod.ext e4 e3
    rw [← toPhase_ofPhase p, e5, toPhase_ofPhase]

theorem dipole_vol (qm b dt : ℝ) (e : V3 ℝ) : VolMap (dipoleMove qm b dt e) := by
  let om := b * qm
  let sc := sincc (om * dt)
  let cc := cosincc (om * dt)
  let cu := cubsincc (om * dt)
  let sn := Real.sin (om * dt)
  let cs := Real.cos (om * dt)
  refine linear_vol _ !![cs, 0, sn; 0, 1, 0; -sn, 0, cs] ?_ ![- qm * e.x * sc * dt, - qm * e.y * dt, qm * e.x * cc * om * dt * dt]
    (fun v => ![v 0 * sc * dt + v 2 * cc * om * dt * dt - qm * e.x * cc * dt * dt, v 1 * dt - 1 / 2 * qm * e.y * dt * dt,
      v 2 * sc * dt - v 0 * cc * om * dt * dt + qm * e.x * cu * om * dt * dt * dt]) ?_ (fun q => ?_)
  · rw [Matrix.det_fin_three]
    simp
    have := Real.sin_sq_add_cos_sq (om * dt)
    change cs * cs + sn * sn = 1
    have h : sn ^ 2 + cs ^ 2 = 1 := this
    linarith
  · refine measurable_pi_iff.2 (fun i => ?_)
    fin_cases i
    · simp only [Fin.zero_eta, Matrix.cons_val_zero]; fun_prop
    · simp only [Fin.mk_one, Matrix.cons_val_one, Matrix.cons_val_zero]; fun_prop
    · simp only [Fin.reduceFinMk, Matrix.cons_val]; fun_prop
  · refine Prod.ext ?_ ?_
    · funext i
      fin_cases i
      · change q.1 0 + q.2 0 * sc * dt + q.2 2 * cc * om * dt * dt - qm * e.x * cc * dt * dt = q.1 0 + (_)
        simp only [Fin.zero_eta, Matrix.cons_val_zero]; ring
      · change q.1 1 + q.2 1 * dt - 1 / 2 * qm * e.y * dt * dt = q.1 1 + (_)
        simp only [Fin.mk_one, Matrix.cons_val_one, Matrix.cons_val_zero]; ring
      · change q.1 2 + q.2 2 * sc * dt - q.2 0 * cc * om * dt * dt + qm * e.x * cu * om * dt * dt * dt = q.1 2 + (_)
        simp only [Fin.reduceFinMk, Matrix.cons_val]; ring
    · funext i
      fin_cases i
      · change q.2 0 * cs + q.2 2 * sn - qm * e.x * sc * dt = _
        simp [Matrix.mulVec, dotProduct, Fin.sum_univ_three]; ring
      · change q.2 1 - qm * e.y * dt = _
        simp [Matrix.mulVec, dotProduct, Fin.sum_univ_three]; ring
      · change q.2 2 * cs - q.2 0 * sn + qm * e.x * cc * om * dt * dt = _
        simp [Matrix.mulVec, dotProduct, Fin.sum_univ_three]; ring

theorem strong_vol (qm thr dt : ℝ) (e : V3 ℝ) (bx bY : ℝ) (hthr : 0 < thr) : VolMap (strongMove qm thr dt e bx bY) := by
  by_cases hz : √(bx * bx + bY * bY) < thr
  · refine linear_vol _ 1 Matrix.det_one ![- qm * e.x * dt, - qm * e.y * dt, 0]
      (fun v => ![v 0 * dt - 1 / 2 * qm * e.x * dt * dt, v 1 * dt - 1 / 2 * qm * e.y * dt * dt, v 2 * dt]) ?_ (fun q => ?_)
    · refine measurable_pi_iff.2 (fun i => ?_)
      fin_cases i
      · simp only [Fin.zero_eta, Matrix.cons_val_zero]; fun_prop
      · simp only [Fin.mk_one, Matrix.cons_val_one, Matrix.cons_val_zero]; fun_prop
      · simp only [Fin.reduceFinMk, Matrix.cons_val]; fun_prop
    · unfold strongMove
      simp only [if_pos hz, Matrix.one_mulVec]
      refine Prod.ext ?_ ?_
      · funext i
        fin_cases i
        · change q.1 0 + q.2 0 * dt - 1 / 2 * qm * e.x * dt * dt = q.1 0 + (_)
          simp only [Fin.zero_eta, Matrix.cons_val_zero]; ring
        · change q.1 1 + q.2 1 * dt - 1 / 2 * qm * e.y * dt * dt = q.1 1 + (_)
          simp only [Fin.mk_one, Matrix.cons_val_one, Matrix.cons_val_zero]; ring
        · rfl
      · funext i
        fin_cases i
        · change q.2 0 - qm * e.x * dt = q.2 0 + (- qm * e.x * dt)
          ring
        · change q.2 1 - qm * e.y * dt = q.2 1 + (- qm * e.y * dt)
          ring
        · change q.2 2 = q.2 2 + 0
          ring
  · obtain ⟨bm, hbm⟩ : ∃ bm, √(bx * bx + bY * bY) = bm := ⟨_, rfl⟩
    have hpos : 0 < bm := by rw [← hbm]; exact lt_of_lt_of_le hthr (not_lt.1 hz)
    have hsq : bx * bx + bY * bY = bm * bm := by
      rw [← hbm]
      exact (Real.mul_self_sqrt (by nlinarith [mul_self_nonneg bx, mul_self_nonneg bY])).symm
    obtain ⟨sn, hsn⟩ : ∃ sn, Real.sin (bm * qm * dt) = sn := ⟨_, rfl⟩
    obtain ⟨cs, hcs⟩ : ∃ cs, Real.cos (bm * qm * dt) = cs := ⟨_, rfl⟩
    have htr : sn ^ 2 + cs ^ 2 = 1 := by rw [← hsn, ← hcs]; exact Real.sin_sq_add_cos_sq _
    have hab : (bY / bm) * (bY / bm) + (bx / bm) * (bx / bm) = 1 := by
      field_simp
      nlinarith [hsq]
    -- the coefficients that appear in the code
    have hS : qm * bm * (sn / (bm * qm)) = sn := by
      by_cases hq : qm = 0
      · have : sn = 0 := by rw [← hsn, hq]; simp
        rw [this]; simp
      · field_simp
    have hA : qm * bm * ((cs - 1) / (bm * qm)) = cs - 1 := by
      by_cases hq : qm = 0
      · have : cs = 1 := by rw [← hcs, hq]; simp
        rw [this]; simp
      · field_simp
    obtain ⟨al, hal⟩ : ∃ al, bY / bm = al := ⟨_, rfl⟩
    obtain ⟨be, hbe⟩ : ∃ be, bx / bm = be := ⟨_, rfl⟩
    rw [hal, hbe] at hab
    have hbY : bY = al * bm := by rw [← hal]; field_simp
    have hbx : bx = be * bm := by rw [← hbe]; field_simp
    let eB := (e.x * bY - e.y * bx) / (bm * bm)
    let om := bm * qm
    refine linear_vol _ !![1 + al * al * (cs - 1), - al * be * (cs - 1), al * sn; - al * be * (cs - 1), 1 + be * be * (cs - 1), - be * sn;
        - al * sn, be * sn, cs] ?_
      ![- qm * e.x * dt + qm * bY * (eB * (dt - sn / om)), - qm * e.y * dt - qm * bx * (eB * (dt - sn / om)), eB * (1 - cs)]
      (fun v => ![v 0 * dt - qm * (e.x * dt * dt / 2 - bY * ((v 2 * (1 - cs) + (v 0 * bY - v 1 * bx) / bm * sn) / (om * om) +
          eB * (dt * dt / 2 + (cs - 1) / (om * om)) - (v 0 * bY - v 1 * bx) / bm * dt / om)),
        v 1 * dt - qm * (e.y * dt * dt / 2 + bx * ((v 2 * (1 - cs) + (v 0 * bY - v 1 * bx) / bm * sn) / (om * om) +
          eB * (dt * dt / 2 + (cs - 1) / (om * om)) - (v 0 * bY - v 1 * bx) / bm * dt / om)),
        v 2 * sn / om + (v 0 * bY - v 1 * bx) / bm * cs / om + eB * (dt - sn / om) - (v 0 * bY - v 1 * bx) / bm / om]) ?_ (fun q => ?_)
    · rw [Matrix.det_fin_three]
      simp
      linear_combination ((cs - 1) * cs + sn ^ 2) * hab + htr
    · refine measurable_pi_iff.2 (fun i => ?_)
      fin_cases i
      · simp only [Fin.zero_eta, Matrix.cons_val_zero]; fun_prop
      · simp only [Fin.mk_one, Matrix.cons_val_one, Matrix.cons_val_zero]; fun_prop
      · simp only [Fin.reduceFinMk, Matrix.cons_val]; fun_prop
    · unfold strongMove
      have hz' : ¬ bm < thr := by rw [← hbm]; exact hz
      simp only [hbm, if_neg hz', hsn, hcs]
      refine Prod.ext ?_ ?_
      · funext i
        fin_cases i
        · change q.1 0 + q.2 0 * dt - _ = q.1 0 + (q.2 0 * dt - _)
          rw [add_sub_assoc]; rfl
        · change q.1 1 + q.2 1 * dt - _ = q.1 1 + (q.2 1 * dt - _)
          rw [add_sub_assoc]; rfl
        · rfl
      · have hvB : (q.2 0 * bY - q.2 1 * bx) / bm = q.2 0 * al - q.2 1 * be := by rw [← hal, ← hbe]; ring
        have hdz : q.2 2 * sn / om + (q.2 0 * al - q.2 1 * be) * cs / om + eB * (dt - sn / om) - (q.2 0 * al - q.2 1 * be) / om =
            q.2 2 * (sn / om) + (q.2 0 * al - q.2 1 * be) * ((cs - 1) / om) + eB * (dt - sn / om) := by ring
        funext i
        fin_cases i
        · change q.2 0 - qm * (e.x * dt - bY * (q.2 2 * sn / om + (q.2 0 * bY - q.2 1 * bx) / bm * cs / om + eB * (dt - sn / om) - (q.2 0 * bY - q.2 1 * bx) / bm / om)) = _
          rw [hvB, hdz]
          simp [Matrix.mulVec, dotProduct, Fin.sum_univ_three]
          have h1 : qm * bY * (sn / om) = al * sn := by
            have hS' : qm * bm * (sn / om) = sn := hS
            linear_combination al * hS' + qm * (sn / om) * hbY
          have h2 : qm * bY * ((cs - 1) / om) = al * (cs - 1) := by
            have hA' : qm * bm * ((cs - 1) / om) = cs - 1 := hA
            linear_combination al * hA' + qm * ((cs - 1) / om) * hbY
          linear_combination q.2 2 * h1 + (q.2 0 * al - q.2 1 * be) * h2
        · change q.2 1 - qm * (e.y * dt + bx * (q.2 2 * sn / om + (q.2 0 * bY - q.2 1 * bx) / bm * cs / om + eB * (dt - sn / om) - (q.2 0 * bY - q.2 1 * bx) / bm / om)) = _
          rw [hvB, hdz]
          simp [Matrix.mulVec, dotProduct, Fin.sum_univ_three]
          have h1 : qm * bx * (sn / om) = be * sn := by
            have hS' : qm * bm * (sn / om) = sn := hS
            linear_combination be * hS' + qm * (sn / om) * hbx
          have h2 : qm * bx * ((cs - 1) / om) = be * (cs - 1) := by
            have hA' : qm * bm * ((cs - 1) / om) = cs - 1 := hA
            linear_combination be * hA' + qm * ((cs - 1) / om) * hbx
          linear_combination - q.2 2 * h1 - (q.2 0 * al - q.2 1 * be) * h2
        · change q.2 2 * cs - (q.2 0 * bY - q.2 1 * bx) / bm * sn + eB * (1 - cs) = _
          rw [hvB]
          simp [Matrix.mulVec, dotProduct, Fin.sum_univ_three]
          ring

/-! ## the fields of the code are measurable -/

theorem truncZ_measurable : Measurable (truncZ : ℝ → ℤ) := by
  unfold truncZ
  exact Measurable.ite measurableSet_Ici Int.measurable_floor Int.measurable_ceil

theorem intField_measurable (nx ny : ℕ) (bx yb dx dy : ℝ) (ef : ℕ → ℕ → ℝ) :
    Measurable (fun q : ℝ × ℝ => intField nx ny bx yb dx dy ef q.1 q.2) := by
  have fi : ∀ b d : ℝ, Measurable (fun x : ℝ => fIdx b d x) := fun b d => by unfold fIdx; fun_prop
  have ii : ∀ b d : ℝ, Measurable (fun x : ℝ => iIdx b d x) := fun b d => truncZ_measurable.comp (fi b d)
  have hh : ∀ b d : ℝ, Measurable (fun x : ℝ => hIdx b d x) := fun b d =>
    (fi b d).sub ((measurable_from_top (f := fun z : ℤ => (z : ℝ))).comp (ii b d))
  have hix : Measurable (fun q : ℝ × ℝ => iIdx bx dx q.1) := (ii bx dx).comp measurable_fst
  have hiy : Measurable (fun q : ℝ × ℝ => iIdx yb dy q.2) := (ii yb dy).comp measurable_snd
  have hhx : Measurable (fun q : ℝ × ℝ => hIdx bx dx q.1) := (hh bx dx).comp measurable_fst
  have hhy : Measurable (fun q : ℝ × ℝ => hIdx yb dy q.2) := (hh yb dy).comp measurable_snd
  have hp : Measurable (fun q : ℝ × ℝ => ((iIdx bx dx q.1, iIdx yb dy q.2) : ℤ × ℤ)) := hix.prodMk hiy
  have he : ∀ f : ℤ → ℤ → ℝ, Measurable (fun q : ℝ × ℝ => f (iIdx bx dx q.1) (iIdx yb dy q.2)) := fun f =>
    (Measurable.of_discrete (f := fun z : ℤ × ℤ => f z.1 z.2)).comp hp
  unfold intField
  refine Measurable.ite ?_ ?_ measurable_const
  · have : {q : ℝ × ℝ | gridGuard nx ny (iIdx bx dx q.1) (iIdx yb dy q.2) = true} =
        (fun q : ℝ × ℝ => ((iIdx bx dx q.1, iIdx yb dy q.2) : ℤ × ℤ)) ⁻¹' {z | gridGuard nx ny z.1 z.2 = true} := rfl
    rw [this]
    exact hp (MeasurableSet.of_discrete)
  · have c1 : Measurable (fun _ : ℝ × ℝ => (1 : ℝ)) := measurable_const
    exact (((((he (fun i j => ef i.toNat j.toNat)).mul (c1.sub hhx)).mul (c1.sub hhy)).add
      (((he (fun i j => ef (i.toNat + 1) j.toNat)).mul hhx).mul (c1.sub hhy))).add
      (((he (fun i j => ef i.toNat (j.toNat + 1))).mul (c1.sub hhx)).mul hhy)).add
      (((he (fun i j => ef (i.toNat + 1) (j.toNat + 1))).mul hhx).mul hhy)

theorem getB_measurable (src : BSrc ℝ) (b0 : V3 ℝ) : FieldMeasurable (src.getB b0) := by
  cases src with
  | none => exact ⟨by unfold BSrc.getB; fun_prop, by unfold BSrc.getB; fun_prop, by unfold BSrc.getB; fun_prop⟩
  | quad f => exact ⟨by unfold BSrc.getB; fun_prop, by unfold BSrc.getB; fun_prop, by unfold BSrc.getB; fun_prop⟩
  | file nx ny xmin ymin dx dy bx yb bz =>
    refine ⟨(intField_measurable nx ny xmin ymin dx dy bx).add_const _, (intField_measurable nx ny xmin ymin dx dy yb).add_const _, ?_⟩
    cases bz with
    | none => unfold BSrc.getB; fun_prop
    | some m => exact (intField_measurable nx ny xmin ymin dx dy m).add_const _

theorem multipoleLoop_measurable (l : List (ℝ × ℝ)) : ∀ (re im bx bY : ℝ × ℝ → ℝ), Measurable re → Measurable im → Measurable bx → Measurable bY →
    Measurable (fun q : ℝ × ℝ => multipoleLoop q.1 q.2 l (re q) (im q) (bx q) (bY q)) := by
  induction l with
  | nil => intro re im bx bY _ _ h3 h4; exact h3.prodMk h4
  | cons a l ih =>
    obtain ⟨b, s⟩ := a
    intro re im bx bY h1 h2 h3 h4
    have r1 : Measurable (fun q : ℝ × ℝ => re q * q.1 - im q * q.2) := by fun_prop
    have r2 : Measurable (fun q : ℝ × ℝ => im q * q.1 + re q * q.2) := by fun_prop
    exact ih _ _ _ _ r1 r2 (h3.add ((r2.const_mul b).add (r1.const_mul s))) (h4.add ((r1.const_mul b).sub (r2.const_mul s)))

theorem multipoleField_measurable (bf bs : List ℝ) (c : Option (V3 ℝ)) : FieldMeasurable (multipoleField bf bs c) := by
  have h := multipoleLoop_measurable ((bf.drop 1).zip (bs.drop 1)) (fun _ => 1) (fun _ => 0) (fun _ => bs.getD 0 0) (fun _ => bf.getD 0 0)
    measurable_const measurable_const measurable_const measurable_const
  cases c with
  | none => exact ⟨h.fst, h.snd, measurable_const⟩
  | some c => exact ⟨h.fst.add_const _, h.snd.add_const _, measurable_const⟩

/-! ## the loop over the sub-steps -/

/-- a tracker of which one internal sub-step is a Boris step with a magnetic field given by the position -/
def OneBoris (tr : TrackerObj ℝ) (qm : ℝ) (B : ℝ → ℝ → V3 ℝ) : Prop :=
  ∀ (s : MPs ℝ) (f : Fields ℝ) (d : ℝ) (s' : MPs ℝ), (∀ k : ℕ, (f.at k).2.2 = (0, 0, 0)) → tr.stepCustom s f d 1 = .ok s' →
    s' = s.push (fun k p => borisKick qm d ⟨(f.at k).1, (f.at k).2.1, 0⟩ (B p.x p.y) p)

theorem borisObj_one (src : BSrc ℝ) (b0 : V3 ℝ) (qm dt : ℝ) (nSub : ℕ) : OneBoris (borisObj src b0 qm dt nSub) qm (src.getB b0) := by
  intro s f d s' _ h
  cases h
  unfold borisCustomDt
  apply push_congr
  intro k hk
  rfl

theorem multipoleObj_one (bf bs : List ℝ) (b0x b0y b0z : Option ℝ) (qm dt : ℝ) (nSub : ℕ) :
    OneBoris (multipoleObj bf bs b0x b0y b0z qm dt nSub) qm (multipoleField bf bs (some ⟨b0x.getD 0, b0y.getD 0, b0z.getD 0⟩)) := by
  intro s f d s' hf h
  simp only [multipoleObj, multipoleCustomDt, ne_eq, not_true_eq_false, and_false, if_false] at h
  cases h
  apply push_congr
  intro k hk
  have h0 := hf k
  simp only [Fields.at, Prod.mk.injEq] at h0
  obtain ⟨h1, h2, h3⟩ := h0
  simp only [CustomB.at, Option.isSome_some, Bool.or_true, if_true, Option.map_some, Option.getD_some, h1, h2, h3, add_zero]
  rfl

/-- the electric field at a position: that of the clouds and, unless it acts as a kick, that of the beams -/
theorem loop_vol (tr : TrackerObj ℝ) (qm : ℝ) (B : ℝ → ℝ → V3 ℝ) (ht : OneBoris tr qm B) (hB : FieldMeasurable B) (field : ℝ → ℝ → ℝ × ℝ)
    (hf : Measurable (fun q : ℝ × ℝ => field q.1 q.2)) (b : Option (ℝ → ℝ → ℝ × ℝ)) (hb : ∀ g ∈ b, Measurable (fun q : ℝ × ℝ => g q.1 q.2))
    (d : ℝ) (n : ℕ) : ∃ M : Phase ℝ → Phase ℝ, VolMap M ∧ ∀ s s' : MPs ℝ, s.WF →
      motionLoop tr (cloudFields field) (b.map beamFields) 1 (some d) n s = .ok s' → s' = s.push (fun _ p => M p) := by
  induction n with
  | zero => exact ⟨fun p => p, VolMap.id, fun s s' hs h => by cases h; exact (push_id s hs).symm⟩
  | succ n ih =>
    obtain ⟨M, hv, hM⟩ := ih
    let E : ℝ → ℝ → V3 ℝ := fun x y => ⟨(field x y + ((b.map (fun g => g x y)).getD 0)).1, (field x y + ((b.map (fun g => g x y)).getD 0)).2, 0⟩
    have hE : FieldMeasurable E := by
      have hs : Measurable (fun q : ℝ × ℝ => field q.1 q.2 + ((b.map (fun g => g q.1 q.2)).getD 0)) := by
        cases b with
        | none => exact hf.add_const _
        | some g => exact hf.add (hb g rfl)
      exact ⟨hs.fst, hs.snd, measurable_const⟩
    refine ⟨fun p => M (borisKick qm d (E p.x p.y) (B p.x p.y) p), hv.comp (boris_vol qm d E B hE hB), fun s s' hs h => ?_⟩
    simp only [motionLoop] at h
    split at h
    · cases h
    · next s2 h2 =>
      have hz : ∀ k : ℕ, ((motionFields (cloudFields field) (b.map beamFields) s).at k).2.2 = (0, 0, 0) := by
        intro k
        cases b with
        | none => simp only [motionFields, cloudFields, Fields.at, Option.map_none, one_getD]
        | some g => simp only [motionFields, cloudFields, Fields.addE, Fields.at, Option.map_some, one_getD]
      have e2 := ht _ _ _ _ hz h2
      have e3 : s2 = s.push (fun _ p => borisKick qm d (E p.x p.y) (B p.x p.y) p) := by
        rw [e2]
        apply push_congr
        intro k hk
        rw [motionFields_at _ _ _ _ hk]
        rfl
      subst e3
      have := hM _ _ (push_WF s hs _) h
      rw [this, push_push]

/-- the plan of a motion with one internal sub-step -/
theorem cplMotion_vol {G : Type} [AddCommGroup G] (C : CplCfg ℝ G) (inp : CplIn ℝ) (field : ℝ → ℝ → ℝ × ℝ) (i : ℕ) (qm : ℝ)
    (B : ℝ → ℝ → V3 ℝ) (ht : OneBoris (C.tr i) qm B) (hB : FieldMeasurable B) (hf : Measurable (fun q : ℝ × ℝ => field q.1 q.2))
    (hb : Measurable (fun q : ℝ × ℝ => inp.beam q.1 q.2))
    (hp : ∀ mode, substepMode C.isBoris C.unifDt inp.custom (C.tr i) inp.step.dt = .ok mode →
      ∀ p, substepPlan (C.reinterp || inp.reinterp) mode = .ok p → p.nint = 1 ∧ p.dtSub.isSome) :
    ∃ M : Phase ℝ → Phase ℝ, VolMap M ∧ ∀ s s' : MPs ℝ, s.WF → cplMotion C inp field i s = .ok s' → s' = s.push (fun _ p => M p) := by
  unfold cplMotion cloudMotion
  cases hm : substepMode C.isBoris C.unifDt inp.custom (C.tr i) inp.step.dt with
  | error e => exact ⟨fun p => p, VolMap.id, fun s s' _ h => by cases h⟩
  | ok mode =>
    simp only
    cases hpl : substepPlan (C.reinterp || inp.reinterp) mode with
    | error e =>
      refine ⟨fun p => p, VolMap.id, fun s s' _ h => ?_⟩
      split at h <;> cases h
    | ok p =>
      obtain ⟨hn, hd⟩ := hp mode hm p hpl
      obtain ⟨d, hd⟩ := Option.isSome_iff_exists.1 hd
      simp only
      rw [hn, hd]
      cases hk : inp.kick with
      | false =>
        simp only [Bool.false_eq_true, if_false]
        obtain ⟨M, hv, hM⟩ := loop_vol (C.tr i) qm B ht hB field hf (some inp.beam) (fun g hg => by cases hg; exact hb) d p.next
        exact ⟨M, hv, fun s s' hs h => hM s s' hs h⟩
      | true =>
        obtain ⟨M, hv, hM⟩ := loop_vol (C.tr i) qm B ht hB field hf none (fun g hg => by cases hg) d p.next
        cases hc : inp.custom with
        | none => exact ⟨fun p => p, VolMap.id, fun s s' _ h => by cases h⟩
        | some cu =>
          simp only [if_true]
          let kv : ℝ → ℝ → ℝ × ℝ := fun x y => ((inp.beam x y).1 * (cu.2 * (cu.1 : ℝ)) * C.qm i, (inp.beam x y).2 * (cu.2 * (cu.1 : ℝ)) * C.qm i)
          let kk : Phase ℝ → Phase ℝ := fun q => { q with vx := q.vx + (kv q.x q.y).1, vy := q.vy + (kv q.x q.y).2 }
          have hkk : VolMap kk := kick_vol kv ((hb.fst.mul_const _).mul_const _) ((hb.snd.mul_const _).mul_const _)
          refine ⟨fun q => M (kk q), hv.comp hkk, fun s s' hs h => ?_⟩
          have e : kickMP s (beamFields inp.beam s).1 (beamFields inp.beam s).2 (cu.2 * (cu.1 : ℝ)) (C.qm i) = s.push (fun _ q => kk q) := by
            unfold kickMP
            apply push_congr
            intro k hk
            simp only [beamFields, range_getD0 _ _ _ hk]
            rfl
          rw [e] at h
          have := hM _ _ (push_WF s hs _) h
          rw [this, push_push]

end PyECLOUD
