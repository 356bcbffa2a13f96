import Verif.Lemmas.MPSystem
import Verif.Spec.Motion
import Mathlib.Analysis.Calculus.Deriv.Mul
import Mathlib.Analysis.Calculus.MeanValue
import Mathlib.Analysis.SpecialFunctions.Trigonometric.Deriv
import Mathlib.Analysis.Complex.Basic
import Mathlib.Tactic.FieldSimp
import Mathlib.Tactic.LinearCombination

namespace PyECLOUD

variable {K : Type} [Field K] [LinearOrder K]

set_option linter.unusedSectionVars false

theorem setPrefix_map_getD (a : List K) (n : ℕ) (g : ℕ → K) (i : ℕ) (hi : i < n) :
    (setPrefix a ((List.range n).map g)).getD i 0 = g i := by
  unfold setPrefix
  rw [List.getD_eq_getElem?_getD, List.getElem?_append_left (by simpa using hi)]
  simp [hi]

/-- a tracker moves every live particle by its own rule and touches nothing else -/
theorem live_push (s : MPs K) (step : ℕ → Phase K → Phase K) :
    (s.push step).live = s.live.mapIdx (fun i p => Particle.move p (step i p.phase)) := by
  unfold MPs.push
  by_cases h0 : s.nmp > 0
  · rw [if_pos h0]
    apply List.ext_getElem
    · simp [MPs.live]
    · intro i h1 h2
      have hi : i < s.nmp := by simpa [MPs.live] using h1
      have hph : (Particle.phase fun f => if s.tracked f = true then (s.arr f).getD i 0 else -1)
          = s.phase i := by
        simp [Particle.phase, MPs.phase, MPs.tracked]
      simp only [MPs.live, List.getElem_map, List.getElem_range, List.getElem_mapIdx]
      funext f
      rw [hph]
      cases f <;>
        simp only [List.map_map, Particle.move, MPs.tracked] <;>
        first
        | (rw [setPrefix_map_getD _ _ _ _ hi]; simp [Function.comp])
        | simp
  · have : s.nmp = 0 := by omega
    rw [if_neg h0]
    simp [MPs.live, this]

theorem push_nmp (s : MPs K) (step : ℕ → Phase K → Phase K) : (s.push step).nmp = s.nmp := by
  unfold MPs.push; split <;> rfl

theorem push_WF (s : MPs K) (h : s.WF) (step : ℕ → Phase K → Phase K) : (s.push step).WF := by
  have hl : ∀ f, ((s.push step).arr f).length = s.cap := by
    intro f
    unfold MPs.push
    split
    · cases f <;> dsimp only <;>
        first
        | exact h.len _
        | (rw [setPrefix_length _ _ (by simp; rw [h.len]; exact h.fits)]; exact h.len _)
    · exact h.len f
  exact ⟨fun f => by rw [hl]; exact (hl .x).symm, by rw [push_nmp]; exact (hl .x).ge.trans' h.fits⟩

theorem mapIdx_id {α : Type} (l : List α) (g : ℕ → α → α) (h : ∀ i, ∀ (hi : i < l.length), g i l[i] = l[i]) :
    l.mapIdx g = l := by
  apply List.ext_getElem (by simp)
  intro i h1 h2
  simp [h i h2]

theorem map_mapIdx_eq {α β : Type} (l : List α) (g : ℕ → α → α) (F : α → β)
    (h : ∀ i, ∀ (hi : i < l.length), F (g i l[i]) = F l[i]) : (l.mapIdx g).map F = l.map F := by
  apply List.ext_getElem (by simp)
  intro i h1 h2
  simp [h i (by simpa using h2)]

/-! ## Boris -/

/-- squared speed of a phase -/
def Phase.sq (p : Phase K) : K := p.vx * p.vx + p.vy * p.vy + p.vz * p.vz

theorem speedSq_move (p : Particle K) (q : Phase K) : speedSq (Particle.move p q) = q.sq := rfl

theorem speedSq_phase (p : Particle K) : speedSq p = p.phase.sq := rfl

theorem borisKick_sq [IsStrictOrderedRing K] (qm dtt : K) (b : V3 K) (p : Phase K) :
    (borisKick qm dtt ⟨0, 0, 0⟩ b p).sq = p.sq := by
  unfold borisKick Phase.sq
  simp only [mul_zero, zero_mul, add_zero]
  generalize 1 / 2 * qm * dtt * b.x = a
  generalize 1 / 2 * qm * dtt * b.y = c
  generalize 1 / 2 * qm * dtt * b.z = d
  have hD : 1 + (a * a + c * c + d * d) ≠ 0 := by
    have h1 := mul_self_nonneg a
    have h2 := mul_self_nonneg c
    have h3 := mul_self_nonneg d
    exact ne_of_gt (by linarith [zero_lt_one (α := K)])
  field_simp
  ring

theorem borisSub_sq [IsStrictOrderedRing K] (qm dtt : K) (getB : K → K → V3 K) (n : ℕ) (p : Phase K) :
    (borisSub qm dtt ⟨0, 0, 0⟩ getB n p).sq = p.sq := by
  induction n generalizing p with
  | zero => rfl
  | succ n ih => rw [borisSub, ih, borisKick_sq]

theorem borisKick_noB [CharZero K] (qm dtt : K) (e : V3 K) (p : Phase K) :
    borisKick qm dtt e ⟨0, 0, 0⟩ p =
      { x := p.x + (p.vx + qm * e.x * dtt) * dtt, y := p.y + (p.vy + qm * e.y * dtt) * dtt,
        z := p.z + (p.vz + qm * e.z * dtt) * dtt, vx := p.vx + qm * e.x * dtt,
        vy := p.vy + qm * e.y * dtt, vz := p.vz + qm * e.z * dtt } := by
  unfold borisKick
  simp only [mul_zero, zero_div, add_zero, sub_zero, zero_add]
  ext <;> ring

theorem borisSub_noB [CharZero K] (qm dtt : K) (e : V3 K) (n : ℕ) (p : Phase K) :
    borisSub qm dtt e (fun _ _ => ⟨0, 0, 0⟩) n p =
      { x := p.x + n * dtt * p.vx + qm * e.x * dtt ^ 2 * (n * (n + 1) / 2)
        y := p.y + n * dtt * p.vy + qm * e.y * dtt ^ 2 * (n * (n + 1) / 2)
        z := p.z + n * dtt * p.vz + qm * e.z * dtt ^ 2 * (n * (n + 1) / 2)
        vx := p.vx + n * (qm * e.x * dtt)
        vy := p.vy + n * (qm * e.y * dtt)
        vz := p.vz + n * (qm * e.z * dtt) } := by
  induction n generalizing p with
  | zero => simp [borisSub]
  | succ n ih =>
    rw [borisSub, ih, borisKick_noB]
    ext <;> push_cast <;> ring

theorem borisSub_congr (qm dtt : K) (e : V3 K) (g₁ g₂ : K → K → V3 K) (h : ∀ x y, g₁ x y = g₂ x y) (n : ℕ)
    (p : Phase K) : borisSub qm dtt e g₁ n p = borisSub qm dtt e g₂ n p := by
  have : g₁ = g₂ := by funext x y; exact h x y
  rw [this]

/-! ## Multipoles -/

theorem multipoleLoop_complex (x y : ℝ) (l : List (ℝ × ℝ)) (re im bx bY : ℝ) :
    (((multipoleLoop x y l re im bx bY).2 : ℝ) : ℂ) + Complex.I * ((multipoleLoop x y l re im bx bY).1 : ℝ)
      = bY + Complex.I * bx + ∑ j ∈ Finset.range l.length,
          (((l.getD j (0, 0)).1 : ℂ) + Complex.I * ((l.getD j (0, 0)).2 : ℂ))
            * (re + Complex.I * im) * ((x : ℂ) + Complex.I * y) ^ (j + 1) := by
  induction l generalizing re im bx bY with
  | nil => simp [multipoleLoop]
  | cons a l ih =>
    obtain ⟨b, s⟩ := a
    rw [multipoleLoop, ih, List.length_cons, Finset.sum_range_succ']
    simp only [List.getD_cons_succ, List.getD_cons_zero]
    push_cast
    have hI : Complex.I ^ 2 = -1 := Complex.I_sq
    have hz : ((re * x - im * y : ℂ) + Complex.I * (im * x + re * y))
        = (re + Complex.I * im) * ((x : ℂ) + Complex.I * y) := by
      linear_combination (-(im : ℂ) * y) * hI
    have hs : ((bY : ℂ) + (b * (re * x - im * y) - s * (im * x + re * y))
          + Complex.I * (bx + (b * (im * x + re * y) + s * (re * x - im * y))))
        = bY + Complex.I * bx
          + (b + Complex.I * s) * (re + Complex.I * im) * ((x : ℂ) + Complex.I * y) ^ 1 := by
      rw [pow_one, mul_assoc, ← hz]
      linear_combination (-(s : ℂ) * (im * x + re * y)) * hI
    rw [hs, hz]
    have ht : ∀ j : ℕ, (((l.getD j (0, 0)).1 : ℂ) + Complex.I * ((l.getD j (0, 0)).2 : ℂ))
          * ((re + Complex.I * im) * ((x : ℂ) + Complex.I * y)) * ((x : ℂ) + Complex.I * y) ^ (j + 1)
        = (((l.getD j (0, 0)).1 : ℂ) + Complex.I * ((l.getD j (0, 0)).2 : ℂ))
          * (re + Complex.I * im) * ((x : ℂ) + Complex.I * y) ^ (j + 1 + 1) := by
      intro j; ring
    simp only [ht]
    rw [add_comm (∑ j ∈ _, _) _, ← add_assoc]

theorem factDivFrom_length (i : ℕ) (l : List K) : (factDivFrom i l).length = l.length := by
  induction l generalizing i with
  | nil => rfl
  | cons a l ih => simp [factDivFrom, ih]

theorem factDivFrom_getD (i : ℕ) (l : List K) (j : ℕ) :
    (factDivFrom i l).getD j 0 = l.getD j 0 / ((i + j).factorial : K) := by
  induction l generalizing i j with
  | nil => simp [factDivFrom]
  | cons a l ih =>
    cases j with
    | zero => simp [factDivFrom]
    | succ j =>
      simp only [factDivFrom, List.getD_cons_succ]
      rw [ih]
      congr 3
      omega

/-! ## Motion in uniform fields -/

/-- the equation of motion determines the motion -/
theorem LorentzMotion.unique {kappa : ℝ} {e b : V3 ℝ} {T U : ℝ → Phase ℝ} (hT : LorentzMotion kappa e b T)
    (hU : LorentzMotion kappa e b U) (h0 : T 0 = U 0) (t : ℝ) : T t = U t := by
  have hen : ∀ t, ((T t).vx - (U t).vx) ^ 2 + ((T t).vy - (U t).vy) ^ 2 + ((T t).vz - (U t).vz) ^ 2 = 0 := by
    intro t
    have hd : ∀ t, HasDerivAt (fun t => ((T t).vx - (U t).vx) ^ 2 + ((T t).vy - (U t).vy) ^ 2
        + ((T t).vz - (U t).vz) ^ 2) 0 t := by
      intro t
      have := (((hT.vx t).sub (hU.vx t)).pow 2).add (((hT.vy t).sub (hU.vy t)).pow 2)
        |>.add (((hT.vz t).sub (hU.vz t)).pow 2)
      refine this.congr_deriv ?_
      simp only [Pi.sub_apply]
      push_cast
      ring
    have hc := is_const_of_deriv_eq_zero (fun t => (hd t).differentiableAt) (fun t => (hd t).deriv) t 0
    rw [hc]
    simp [h0]
  have hv : ∀ t, (T t).vx = (U t).vx ∧ (T t).vy = (U t).vy ∧ (T t).vz = (U t).vz := by
    intro t
    have := hen t
    refine ⟨?_, ?_, ?_⟩ <;> nlinarith [sq_nonneg ((T t).vx - (U t).vx), sq_nonneg ((T t).vy - (U t).vy),
      sq_nonneg ((T t).vz - (U t).vz)]
  have hpos : ∀ (f g v w : ℝ → ℝ), (∀ t, HasDerivAt f (v t) t) → (∀ t, HasDerivAt g (w t) t) →
      (∀ t, v t = w t) → f 0 = g 0 → f t = g t := by
    intro f g v w hf hg hvw h
    have hd : ∀ t, HasDerivAt (fun t => f t - g t) 0 t := by
      intro t
      have := (hf t).sub (hg t)
      rw [hvw, sub_self] at this
      exact this
    have hc := is_const_of_deriv_eq_zero (fun t => (hd t).differentiableAt) (fun t => (hd t).deriv) t 0
    simp only [h, sub_self] at hc
    linarith
  obtain ⟨h1, h2, h3⟩ := hv t
  ext
  · exact hpos _ _ _ _ hT.x hU.x (fun t => (hv t).1) (by rw [h0])
  · exact hpos _ _ _ _ hT.y hU.y (fun t => (hv t).2.1) (by rw [h0])
  · exact hpos _ _ _ _ hT.z hU.z (fun t => (hv t).2.2) (by rw [h0])
  · exact h1
  · exact h2
  · exact h3

theorem hasDerivAt_sin_mul (om t : ℝ) :
    HasDerivAt (fun t => Real.sin (om * t)) (om * Real.cos (om * t)) t := by
  have h : HasDerivAt (fun t : ℝ => om * t) om t := by simpa using (hasDerivAt_id t).const_mul om
  simpa [mul_comm] using h.sin

theorem hasDerivAt_cos_mul (om t : ℝ) :
    HasDerivAt (fun t => Real.cos (om * t)) (-(om * Real.sin (om * t))) t := by
  have h : HasDerivAt (fun t : ℝ => om * t) om t := by simpa using (hasDerivAt_id t).const_mul om
  simpa [mul_comm] using h.cos

/-- derivative of a combination of `1, t, t^2, sin, cos` -/
theorem hasDerivAt_comb (c0 c1 c2 cs cc om t : ℝ) :
    HasDerivAt (fun t => c0 + c1 * t + c2 * t ^ 2 + cs * Real.sin (om * t) + cc * Real.cos (om * t))
      (c1 + 2 * c2 * t + cs * (om * Real.cos (om * t)) - cc * (om * Real.sin (om * t))) t := by
  have h1 : HasDerivAt (fun t : ℝ => c1 * t) c1 t := by simpa using (hasDerivAt_id t).const_mul c1
  have h2 : HasDerivAt (fun t : ℝ => c2 * t ^ 2) (2 * c2 * t) t := by
    have := (hasDerivAt_pow 2 t).const_mul c2
    refine this.congr_deriv ?_
    simp; ring
  have h3 := (hasDerivAt_sin_mul om t).const_mul cs
  have h4 := (hasDerivAt_cos_mul om t).const_mul cc
  have := ((((hasDerivAt_const t c0).add h1).add h2).add h3).add h4
  refine (this.congr_deriv ?_)
  ring

theorem hasDerivAt_of_comb {f : ℝ → ℝ} {f' t : ℝ} (c0 c1 c2 cs cc om : ℝ)
    (h : ∀ t, f t = c0 + c1 * t + c2 * t ^ 2 + cs * Real.sin (om * t) + cc * Real.cos (om * t))
    (h' : f' = c1 + 2 * c2 * t + cs * (om * Real.cos (om * t)) - cc * (om * Real.sin (om * t))) :
    HasDerivAt f f' t := by
  have : f = fun t => c0 + c1 * t + c2 * t ^ 2 + cs * Real.sin (om * t) + cc * Real.cos (om * t) := funext h
  rw [this, h']
  exact hasDerivAt_comb ..

/-- the exact motion of an electron in the vertical field `om / qm` -/
noncomputable def dipoleFlow (qm om : ℝ) (e : V3 ℝ) (p : Phase ℝ) (t : ℝ) : Phase ℝ where
  x := p.x + p.vx * Real.sin (om * t) / om + p.vz * (1 - Real.cos (om * t)) / om
    - qm * e.x * (1 - Real.cos (om * t)) / om ^ 2
  y := p.y + p.vy * t - 1 / 2 * qm * e.y * t ^ 2
  z := p.z + p.vz * Real.sin (om * t) / om - p.vx * (1 - Real.cos (om * t)) / om
    + qm * e.x * (om * t - Real.sin (om * t)) / om ^ 2
  vx := p.vx * Real.cos (om * t) + p.vz * Real.sin (om * t) - qm * e.x * Real.sin (om * t) / om
  vy := p.vy - qm * e.y * t
  vz := p.vz * Real.cos (om * t) - p.vx * Real.sin (om * t) + qm * e.x * (1 - Real.cos (om * t)) / om

theorem dipoleFlow_zero (qm om : ℝ) (e : V3 ℝ) (p : Phase ℝ) : dipoleFlow qm om e p 0 = p := by
  ext <;> simp [dipoleFlow]

theorem dipoleFlow_motion (qm b : ℝ) (e : V3 ℝ) (hez : e.z = 0) (p : Phase ℝ) (hom : b * qm ≠ 0) :
    LorentzMotion (-qm) e ⟨0, b, 0⟩ (dipoleFlow qm (b * qm) e p) := by
  have hb : b ≠ 0 := left_ne_zero_of_mul hom
  have hq : qm ≠ 0 := right_ne_zero_of_mul hom
  refine ⟨fun t => ?_, fun t => ?_, fun t => ?_, fun t => ?_, fun t => ?_, fun t => ?_⟩
  · refine hasDerivAt_of_comb (p.x + p.vz / (b * qm) - qm * e.x / (b * qm) ^ 2) 0 0 (p.vx / (b * qm))
      (-(p.vz / (b * qm)) + qm * e.x / (b * qm) ^ 2) (b * qm) (fun t => ?_) ?_
    · dsimp only [dipoleFlow]; ring
    · dsimp only [dipoleFlow]; field_simp; ring
  · refine hasDerivAt_of_comb p.y p.vy (-(1 / 2 * qm * e.y)) 0 0 (b * qm) (fun t => ?_) ?_
    · dsimp only [dipoleFlow]; ring
    · dsimp only [dipoleFlow]; ring
  · refine hasDerivAt_of_comb (p.z - p.vx / (b * qm)) (qm * e.x / (b * qm)) 0
      (p.vz / (b * qm) - qm * e.x / (b * qm) ^ 2) (p.vx / (b * qm)) (b * qm) (fun t => ?_) ?_
    · dsimp only [dipoleFlow]; field_simp; ring
    · dsimp only [dipoleFlow]; field_simp; ring
  · refine hasDerivAt_of_comb 0 0 0 (p.vz - qm * e.x / (b * qm)) p.vx (b * qm) (fun t => ?_) ?_
    · dsimp only [dipoleFlow]; ring
    · dsimp only [dipoleFlow]; field_simp; ring
  · refine hasDerivAt_of_comb p.vy (-(qm * e.y)) 0 0 0 (b * qm) (fun t => ?_) ?_
    · dsimp only [dipoleFlow]; ring
    · dsimp only [dipoleFlow]; ring
  · refine hasDerivAt_of_comb (qm * e.x / (b * qm)) 0 0 (-p.vx) (p.vz - qm * e.x / (b * qm)) (b * qm)
      (fun t => ?_) ?_
    · dsimp only [dipoleFlow]; ring
    · dsimp only [dipoleFlow]; rw [hez]; field_simp; ring

theorem dipoleMove_flow (qm b dt : ℝ) (e : V3 ℝ) (p : Phase ℝ) (hth : 1 / 10000 ≤ |b * qm * dt|) :
    dipoleMove qm b dt e p = dipoleFlow qm (b * qm) e p dt := by
  have hx : b * qm * dt ≠ 0 := by
    intro h0; rw [h0, abs_zero] at hth; norm_num at hth
  have hom : b * qm ≠ 0 := left_ne_zero_of_mul hx
  have hdt : dt ≠ 0 := right_ne_zero_of_mul hx
  have hb : b ≠ 0 := left_ne_zero_of_mul hom
  have hq : qm ≠ 0 := right_ne_zero_of_mul hom
  have hn := not_lt.mpr hth
  unfold dipoleMove dipoleFlow
  simp only [sincc, cosincc, cubsincc, if_neg hn]
  ext <;> dsimp only <;> field_simp

/-- the exact motion of an electron in the transverse field `(bx, bY)` of modulus `bm` -/
noncomputable def strongFlow (qm bm : ℝ) (e : V3 ℝ) (bx bY : ℝ) (p : Phase ℝ) (t : ℝ) : Phase ℝ :=
  let om := bm * qm
  let sn := Real.sin (om * t)
  let cs := Real.cos (om * t)
  let vB := (p.vx * bY - p.vy * bx) / bm
  let eB := (e.x * bY - e.y * bx) / (bm * bm)
  let dz := p.vz * sn / om + vB * cs / om + eB * (t - sn / om) - vB / om
  let dzt := (p.vz * (1 - cs) + vB * sn) / (om * om)
    + eB * (t * t / 2 + (cs - 1) / (om * om)) - vB * t / om
  { x := p.x + p.vx * t - qm * (e.x * t * t / 2 - bY * dzt)
    y := p.y + p.vy * t - qm * (e.y * t * t / 2 + bx * dzt)
    z := p.z + dz
    vx := p.vx - qm * (e.x * t - bY * dz)
    vy := p.vy - qm * (e.y * t + bx * dz)
    vz := p.vz * cs - vB * sn + eB * (1 - cs) }

theorem strongFlow_zero (qm bm : ℝ) (e : V3 ℝ) (bx bY : ℝ) (p : Phase ℝ) :
    strongFlow qm bm e bx bY p 0 = p := by
  ext <;> simp [strongFlow]

theorem strongFlow_motion (qm bm : ℝ) (e : V3 ℝ) (hez : e.z = 0) (bx bY : ℝ) (p : Phase ℝ) (hq : qm ≠ 0)
    (hbm : bm ≠ 0) (hb : bm * bm = bx * bx + bY * bY) :
    LorentzMotion (-qm) e ⟨bx, bY, 0⟩ (strongFlow qm bm e bx bY p) := by
  set vB := (p.vx * bY - p.vy * bx) / bm with hvB
  set eB := (e.x * bY - e.y * bx) / (bm * bm) with heB
  have hvB' : p.vx * bY - p.vy * bx = vB * bm := by rw [hvB]; field_simp
  have heB' : e.x * bY - e.y * bx = eB * (bm * bm) := by rw [heB]; field_simp
  have hdz : ∀ t, HasDerivAt (fun t => (strongFlow qm bm e bx bY p t).z) (strongFlow qm bm e bx bY p t).vz t := by
    intro t
    refine hasDerivAt_of_comb (p.z - vB / (bm * qm)) eB 0 (p.vz / (bm * qm) - eB / (bm * qm)) (vB / (bm * qm))
      (bm * qm) (fun t => ?_) ?_
    · dsimp only [strongFlow]; rw [← hvB, ← heB]; ring
    · dsimp only [strongFlow]; rw [← hvB, ← heB]; field_simp; ring
  have hvx : ∀ t, HasDerivAt (fun t => (strongFlow qm bm e bx bY p t).vx)
      (-qm * (e.x + ((strongFlow qm bm e bx bY p t).vy * 0 - (strongFlow qm bm e bx bY p t).vz * bY))) t := by
    intro t
    have h1 := ((hdz t).const_mul (qm * bY)).add
      (hasDerivAt_of_comb (f := fun t => p.vx - qm * bY * p.z - qm * e.x * t) (f' := -(qm * e.x)) (t := t)
        (p.vx - qm * bY * p.z) (-(qm * e.x)) 0 0 0 0 (fun t => by ring) (by ring))
    refine (h1.congr_of_eventuallyEq (Filter.Eventually.of_forall fun t => ?_)).congr_deriv ?_
    · dsimp only [strongFlow, Pi.add_apply]; ring
    · ring
  have hvy : ∀ t, HasDerivAt (fun t => (strongFlow qm bm e bx bY p t).vy)
      (-qm * (e.y + ((strongFlow qm bm e bx bY p t).vz * bx - (strongFlow qm bm e bx bY p t).vx * 0))) t := by
    intro t
    have h1 := ((hdz t).const_mul (-(qm * bx))).add
      (hasDerivAt_of_comb (f := fun t => p.vy + qm * bx * p.z - qm * e.y * t) (f' := -(qm * e.y)) (t := t)
        (p.vy + qm * bx * p.z) (-(qm * e.y)) 0 0 0 0 (fun t => by ring) (by ring))
    refine (h1.congr_of_eventuallyEq (Filter.Eventually.of_forall fun t => ?_)).congr_deriv ?_
    · dsimp only [strongFlow, Pi.add_apply]; ring
    · ring
  refine ⟨fun t => ?_, fun t => ?_, hdz, hvx, hvy, fun t => ?_⟩
  · refine hasDerivAt_of_comb (p.x + qm * bY * (p.vz / (bm * qm) ^ 2 - eB / (bm * qm) ^ 2))
      (p.vx - qm * bY * vB / (bm * qm)) (-(qm * e.x / 2) + qm * bY * eB / 2)
      (qm * bY * vB / (bm * qm) ^ 2) (qm * bY * (-(p.vz / (bm * qm) ^ 2) + eB / (bm * qm) ^ 2))
      (bm * qm) (fun t => ?_) ?_
    · dsimp only [strongFlow]; rw [← hvB, ← heB]; ring
    · dsimp only [strongFlow]; rw [← hvB, ← heB]; field_simp; ring
  · refine hasDerivAt_of_comb (p.y - qm * bx * (p.vz / (bm * qm) ^ 2 - eB / (bm * qm) ^ 2))
      (p.vy + qm * bx * vB / (bm * qm)) (-(qm * e.y / 2) - qm * bx * eB / 2)
      (-(qm * bx * vB / (bm * qm) ^ 2)) (-(qm * bx * (-(p.vz / (bm * qm) ^ 2) + eB / (bm * qm) ^ 2)))
      (bm * qm) (fun t => ?_) ?_
    · dsimp only [strongFlow]; rw [← hvB, ← heB]; ring
    · dsimp only [strongFlow]; rw [← hvB, ← heB]; field_simp; ring
  · refine hasDerivAt_of_comb eB 0 0 (-vB) (p.vz - eB) (bm * qm) (fun t => ?_) ?_
    · dsimp only [strongFlow]; rw [← hvB, ← heB]; ring
    · dsimp only [strongFlow]; rw [← hvB, ← heB, hez]
      set dz := p.vz * Real.sin (bm * qm * t) / (bm * qm) + vB * Real.cos (bm * qm * t) / (bm * qm)
        + eB * (t - Real.sin (bm * qm * t) / (bm * qm)) - vB / (bm * qm) with hdzd
      have key : (p.vx - qm * (e.x * t - bY * dz)) * bY - (p.vy - qm * (e.y * t + bx * dz)) * bx
          = bm * (vB - qm * eB * bm * t + qm * bm * dz) := by
        linear_combination hvB' - qm * t * heB' - qm * dz * hb
      rw [key, hdzd]
      field_simp
      ring

theorem strongMove_flow (qm thr dt : ℝ) (e : V3 ℝ) (bx bY : ℝ) (p : Phase ℝ)
    (h : ¬ Real.sqrt (bx * bx + bY * bY) < thr) :
    strongMove qm thr dt e bx bY p = strongFlow qm (Real.sqrt (bx * bx + bY * bY)) e bx bY p dt := by
  unfold strongMove strongFlow
  simp only [if_neg h]

end PyECLOUD
