import Verif.Lemmas.Balance

/-! # Property C167: balances of energy and momentum along a tracked orbit, over any number of steps -/

set_option linter.unusedSectionVars false

namespace PyECLOUD

section arrays
variable {K : Type} [Field K] [LinearOrder K] [IsStrictOrderedRing K] [FloorRing K]

/-- C167, one sub-step: in any fields the velocity changes by `q/m` times the length of the sub-step times `E + v × B` with the mean
of the velocities before and after, and the electron then moves with the new velocity. -/
theorem C167_law (qm d : K) (e b : V3 K) (p : Phase K) :
    let q := borisKick qm d e b p
    q.vel.minus p.vel = V3.times (qm * d) (e.plus ((V3.times (1 / 2) (p.vel.plus q.vel)).cross b)) ∧
    q.pos = p.pos.plus (V3.times d q.vel) := by
  intro q
  obtain ⟨h1, h2, h3⟩ := kick_newton qm d e b p
  refine ⟨?_, ?_⟩
  · simp only [V3.cross, V3.plus, Phase.vel, V3.minus, V3.times, V3.mk.injEq]
    change q.vx - p.vx = _ at h1
    change q.vy - p.vy = _ at h2
    change q.vz - p.vz = _ at h3
    refine ⟨?_, ?_, ?_⟩
    · rw [h1]; ring
    · rw [h2]; ring
    · rw [h3]; ring
  · simp only [Phase.pos, V3.plus, V3.times, V3.mk.injEq]
    refine ⟨?_, ?_, ?_⟩
    · rw [mul_comm]; exact (kick_pos qm d e b p).1
    · rw [mul_comm]; exact (kick_pos qm d e b p).2.1
    · rw [mul_comm]; exact (kick_pos qm d e b p).2.2

/-- the phases of macroparticle `j` along a sequence of steps -/
theorem track_phases (N : ℕ) (g : ℕ → ℕ → Phase K → Phase K) (ms : ℕ → MPs K) (h : ∀ k < N, ms (k + 1) = (ms k).push (g k)) (j : ℕ)
    (hj : j < (ms 0).nmp) : ∀ k < N, (ms (k + 1)).phase j = g k j ((ms k).phase j) := by
  have hn : ∀ k ≤ N, (ms k).nmp = (ms 0).nmp := by
    intro k
    induction k with
    | zero => intro _; rfl
    | succ k ih => intro hk; rw [h k (by omega), push_nmp, ih (by omega)]
  intro k hk
  rw [h k hk, phase_push _ _ _ (by rw [hn k hk.le]; exact hj)]

/-- C167, work: along any number of steps of the Boris tracker, in any magnetic field and with any electric fields given to the steps,
the kinetic energy of every electron changes exactly by the work of the electric fields along the path (the path being taken half a
sub-step before the recorded positions). There is no other source or loss of energy, however long the run. -/
theorem C167_work (src : BSrc K) (b0 : V3 K) (qm dt : K) (nSub N : ℕ) (ms : ℕ → MPs K) (e : ℕ → EArr K)
    (h : ∀ k < N, ms (k + 1) = borisStep src b0 qm dt nSub (ms k) (e k)) (j : ℕ) (hj : j < (ms 0).nmp) (n : ℕ) (hn : n ≤ N) :
    ((ms n).phase j).vel.dot ((ms n).phase j).vel - ((ms 0).phase j).vel.dot ((ms 0).phase j).vel
      = 2 * qm * ((List.range n).map (fun k =>
          ((e k).at j).dot ((((ms (k + 1)).phase j).mid (dt / nSub)).minus (((ms k).phase j).mid (dt / nSub))))).sum :=
  steps_work qm (dt / nSub) (fun k => (e k).at j) (src.getB b0) nSub N (fun k => (ms k).phase j)
    (track_phases N (fun k i => borisSub qm (dt / nSub) ((e k).at i) (src.getB b0) nSub) ms h j hj) n hn

/-- C167, the same for the multipole tracker. -/
theorem C167_work_multipole (bf bs : List K) (c : CustomB K) (qm dt : K) (nSub N : ℕ) (ms : ℕ → MPs K) (ex ey : ℕ → List K) (h : ∀ k < N, multipoleStep bf bs c qm dt nSub (ms k) (ex k) (ey k) 0 = .ok (ms (k + 1)))
    (j : ℕ) (hj : j < (ms 0).nmp) (n : ℕ) (hn : n ≤ N) :
    ((ms n).phase j).vel.dot ((ms n).phase j).vel - ((ms 0).phase j).vel.dot ((ms 0).phase j).vel
      = 2 * qm * ((List.range n).map (fun k => V3.dot ⟨(ex k).getD j 0, (ey k).getD j 0, 0⟩
          ((((ms (k + 1)).phase j).mid (dt / nSub)).minus (((ms k).phase j).mid (dt / nSub))))).sum := by
  refine steps_work qm (dt / nSub) (fun k => ⟨(ex k).getD j 0, (ey k).getD j 0, 0⟩) (multipoleField bf bs (c.at j)) nSub N
    (fun k => (ms k).phase j) ?_ n hn
  refine track_phases N (fun k i => borisSub qm (dt / nSub) ⟨(ex k).getD i 0, (ey k).getD i 0, 0⟩ (multipoleField bf bs (c.at i)) nSub) ms
    (fun k hk => ?_) j hj
  have := h k hk
  simp only [multipoleStep, multipoleCustomDt, ne_eq, not_true_eq_false, and_false, if_false, Except.ok.injEq] at this
  exact this.symm

/-- C167, momentum: in a uniform magnetic field the velocity of every electron after any number of steps is the initial one plus
`q/m` times the impulse of the electric fields and `(displacement) × B`: the canonical momentum is kept exactly. -/
theorem C167_momentum (b0 : V3 K) (qm dt : K) (nSub N : ℕ) (hs : 0 < nSub) (ms : ℕ → MPs K) (e : ℕ → EArr K)
    (h : ∀ k < N, ms (k + 1) = borisStep .none b0 qm dt nSub (ms k) (e k)) (j : ℕ) (hj : j < (ms 0).nmp) (n : ℕ) (hn : n ≤ N) :
    ((ms n).phase j).vel.minus ((ms 0).phase j).vel
      = V3.times qm ((V3.times dt (((List.range n).map (fun k => (e k).at j)).foldr V3.plus ⟨0, 0, 0⟩)).plus
          ((((((ms n).phase j).mid (dt / nSub)).minus (((ms 0).phase j).mid (dt / nSub)))).cross b0)) := by
  have hb : (BSrc.none : BSrc K).getB b0 = fun _ _ => b0 := by
    funext x y; simp only [BSrc.getB, zero_mul, zero_add]
  have hs' : (nSub : K) ≠ 0 := by exact_mod_cast hs.ne'
  have e1 := steps_momentum qm (dt / nSub) (fun k => (e k).at j) b0 nSub N (fun k => (ms k).phase j)
    (track_phases N (fun k i => borisSub qm (dt / nSub) ((e k).at i) (fun _ _ => b0) nSub) ms
      (fun k hk => by rw [h k hk, borisStep, hb]) j hj) n hn
  rwa [mul_div_cancel₀ _ hs'] at e1

end arrays

/-! ## the clouds of a simulation -/

/-- in a uniform electric field a chain of sub-steps is that of the tracker -/
theorem chain_const {qm d : ℝ} {e : V3 ℝ} {E B : ℝ → ℝ → V3 ℝ} (hE : ∀ x y, E x y = e) (n : ℕ) : ∀ p p' : Phase ℝ,
    SubChain qm d E B n p p' → p' = borisSub qm d e B n p := by
  induction n with
  | zero => rintro p p' ⟨q, h0, h1, -⟩; rw [← h0, ← h1]; rfl
  | succ n ih =>
    rintro p p' ⟨q, h0, h1, h2⟩
    obtain ⟨l', -, e1⟩ := h2 n (by omega)
    rw [borisSub_iter, ← ih p (q n) ⟨q, h0, rfl, fun l hl => h2 l (by omega)⟩, ← h1, e1, hE]

/-- the motion of a cloud in a uniform electric field, macroparticle by macroparticle -/
theorem cloud_phases {G : Type} [AddCommGroup G] (C : CplCfg ℝ G) (i : ℕ) (qm : ℝ) (nSub N : ℕ) (B : ℝ → ℝ → V3 ℝ) (ht : SubBoris (C.tr i) qm B)
    (hn : (C.tr i).nSub = some nSub) (hu : C.unifDt = true) (inp : ℕ → CplIn ℝ) (F : ℕ → ℝ → ℝ → ℝ × ℝ) (ex ey : ℝ) (ms : ℕ → MPs ℝ)
    (h : ∀ k < N, (inp k).custom = none ∧ (inp k).kick = false ∧ (∀ x y, F k x y + (inp k).beam x y = (ex, ey)) ∧
      cplMotion C (inp k) (F k) i (ms k) = .ok (ms (k + 1))) (j : ℕ) (hj : j < (ms 0).nmp) :
    ∀ k < N, (ms (k + 1)).phase j = borisSub qm ((C.tr i).dt / nSub) ⟨ex, ey, 0⟩ B nSub ((ms k).phase j) := by
  have hst := fun k hk => cplMotion_chain C (inp k) (F k) i qm nSub B ht hn hu (h k hk).1 (h k hk).2.1 (ms k) (ms (k + 1)) (h k hk).2.2.2
  have hnn : ∀ k ≤ N, (ms k).nmp = (ms 0).nmp := by
    intro k
    induction k with
    | zero => intro _; rfl
    | succ k ih => intro hk; rw [(hst k (by omega)).1, ih (by omega)]
  intro k hk
  refine chain_const (fun x y => ?_) nSub _ _ ((hst k hk).2 j (by rw [hnn k hk.le]; exact hj))
  have := (h k hk).2.2.1 x y
  simp only [sumField, Option.map_some, Option.getD_some, this]

/-- C167, energy: while a cloud moves, for any number of time steps, with a Boris tracker in a uniform and constant electric field and in
any magnetic field, kinetic energy minus `q E · position` of every electron is kept exactly. -/
theorem C167_energy {G : Type} [AddCommGroup G] (C : CplCfg ℝ G) (i : ℕ) (qm dt : ℝ) (nSub N : ℕ)
    (ht : (∃ src b0, C.tr i = borisObj src b0 qm dt nSub) ∨ ∃ bf bs b0x b0y b0z, C.tr i = multipoleObj bf bs b0x b0y b0z qm dt nSub)
    (hu : C.unifDt = true) (inp : ℕ → CplIn ℝ) (F : ℕ → ℝ → ℝ → ℝ × ℝ) (ex ey : ℝ) (ms : ℕ → MPs ℝ)
    (h : ∀ k < N, (inp k).custom = none ∧ (inp k).kick = false ∧ (∀ x y, F k x y + (inp k).beam x y = (ex, ey)) ∧
      cplMotion C (inp k) (F k) i (ms k) = .ok (ms (k + 1))) (j : ℕ) (hj : j < (ms 0).nmp) (n : ℕ) (hn : n ≤ N) :
    let energy := fun p : Phase ℝ => p.vel.dot p.vel / 2 - qm * V3.dot ⟨ex, ey, 0⟩ (p.mid (dt / nSub))
    energy ((ms n).phase j) = energy ((ms 0).phase j) := by
  intro energy
  obtain ⟨B, hB, hns, hdt⟩ : ∃ B, SubBoris (C.tr i) qm B ∧ (C.tr i).nSub = some nSub ∧ (C.tr i).dt = dt := by
    rcases ht with ⟨src, b0, e⟩ | ⟨bf, bs, b0x, b0y, b0z, e⟩
    · exact ⟨_, by rw [e]; exact borisObj_sub src b0 qm dt nSub, by rw [e]; rfl, by rw [e]; rfl⟩
    · exact ⟨_, by rw [e]; exact multipoleObj_sub bf bs b0x b0y b0z qm dt nSub, by rw [e]; rfl, by rw [e]; rfl⟩
  have hq := cloud_phases C i qm nSub N B hB hns hu inp F ex ey ms h j hj
  rw [hdt] at hq
  induction n with
  | zero => rfl
  | succ n ih =>
    rw [← ih (by omega)]
    have h2 := sub_work qm (dt / nSub) ⟨ex, ey, 0⟩ B nSub ((ms n).phase j)
    rw [← hq n (by omega)] at h2
    simp only [energy]
    generalize (ms (n + 1)).phase j = a at *
    generalize (ms n).phase j = b at *
    simp only [V3.dot, V3.minus] at *
    linear_combination h2 / 2

/-- C167, drift: while a cloud moves, for any number of time steps and with any time step, with the Boris tracker in a uniform electric
field and a uniform magnetic field perpendicular to it, every electron drifts with exactly the velocity `E × B / B²` of the true motion,
gyrates around this drift with constant speed, moves uniformly along `B`, and is never further from the drifting position, across `B`, than
the diameter of the gyration, `2 |v - E × B / B²| / (|q/m| |B|)`. -/
theorem C167_drift {G : Type} [AddCommGroup G] (C : CplCfg ℝ G) (i : ℕ) (qm dt : ℝ) (nSub N : ℕ) (hs : 0 < nSub) (b0 : V3 ℝ)
    (ht : C.tr i = borisObj .none b0 qm dt nSub) (hu : C.unifDt = true) (inp : ℕ → CplIn ℝ) (F : ℕ → ℝ → ℝ → ℝ × ℝ) (ex ey : ℝ)
    (hperp : V3.dot ⟨ex, ey, 0⟩ b0 = 0) (hb : b0.dot b0 ≠ 0) (ms : ℕ → MPs ℝ)
    (h : ∀ k < N, (inp k).custom = none ∧ (inp k).kick = false ∧ (∀ x y, F k x y + (inp k).beam x y = (ex, ey)) ∧
      cplMotion C (inp k) (F k) i (ms k) = .ok (ms (k + 1))) (j : ℕ) (hj : j < (ms 0).nmp) (n : ℕ) (hn : n ≤ N) :
    let u := V3.times (1 / b0.dot b0) (V3.cross ⟨ex, ey, 0⟩ b0)
    let w := fun k => ((ms k).phase j).vel.minus u
    let D := ((((ms n).phase j).mid (dt / nSub)).minus (((ms 0).phase j).mid (dt / nSub))).minus (V3.times (n * dt) u)
    (w n).dot (w n) = (w 0).dot (w 0) ∧ D.dot b0 = n * dt * ((ms 0).phase j).vel.dot b0 ∧
      qm ^ 2 * (D.cross b0).dot (D.cross b0) ≤ 4 * (w 0).dot (w 0) := by
  intro u w D
  have hB : (BSrc.none : BSrc ℝ).getB b0 = fun _ _ => b0 := by
    funext x y; simp only [BSrc.getB, zero_mul, zero_add]
  have hs' : (nSub : ℝ) ≠ 0 := by exact_mod_cast hs.ne'
  have hq := cloud_phases C i qm nSub N _ (by rw [ht]; exact borisObj_sub .none b0 qm dt nSub) (by rw [ht]; rfl) hu inp F ex ey ms h j hj
  have hdt : (C.tr i).dt = dt := by rw [ht]; rfl
  rw [hdt, hB] at hq
  have := steps_drift qm (dt / nSub) ⟨ex, ey, 0⟩ b0 hperp hb nSub N (fun k => (ms k).phase j) hq n hn u (w 0) (w n) D rfl rfl rfl
    (by rw [mul_div_cancel₀ _ hs'])
  rw [mul_div_cancel₀ _ hs'] at this
  exact ⟨this.1, this.2.2.1, this.2.2.2⟩

/-! ## an electron bound by a linear force -/

section bound
variable {K : Type} [Field K] [LinearOrder K] [IsStrictOrderedRing K] [FloorRing K]

/-- the sub-steps in a field proportional to `x` that is kept during the sub-steps -/
theorem frozen_sub (qm d kap x0 : K) (n : ℕ) : ∀ p : Phase K,
    (borisSub qm d ⟨-kap * x0, 0, 0⟩ ((BSrc.none : BSrc K).getB ⟨0, 0, 0⟩) n p).vx = p.vx - n * (qm * kap * d) * x0 ∧
    (borisSub qm d ⟨-kap * x0, 0, 0⟩ ((BSrc.none : BSrc K).getB ⟨0, 0, 0⟩) n p).x
      = p.x + n * d * p.vx - n * (n + 1) / 2 * (qm * kap * d ^ 2) * x0 := by
  induction n with
  | zero => intro p; simp [borisSub]
  | succ n ih =>
    intro p
    simp only [borisSub]
    obtain ⟨h1, h2⟩ := ih (borisKick qm d ⟨-kap * x0, 0, 0⟩ ((BSrc.none : BSrc K).getB ⟨0, 0, 0⟩ p.x p.y) p)
    have hk : (BSrc.none : BSrc K).getB ⟨0, 0, 0⟩ p.x p.y = ⟨0, 0, 0⟩ := by simp [BSrc.getB]
    rw [hk] at h1 h2 ⊢
    obtain ⟨a1, -, -⟩ := kick_newton qm d ⟨-kap * x0, 0, 0⟩ ⟨0, 0, 0⟩ p
    obtain ⟨b1, -, -⟩ := kick_pos qm d ⟨-kap * x0, 0, 0⟩ ⟨0, 0, 0⟩ p
    generalize borisKick qm d ⟨-kap * x0, 0, 0⟩ ⟨0, 0, 0⟩ p = q at *
    have a2 : q.vx = p.vx - qm * kap * d * x0 := by simp only at a1; linear_combination a1
    rw [h1, h2, b1, a2]
    push_cast
    constructor <;> ring

/-- C167, an electron bound by a force `-m ω² x` (as in the field of a uniform beam), tracked with the field taken at its position in
every sub-step: `v² + ω² x² - ω² dt x v` is kept exactly, so that with `ω dt < 2` the electron stays bounded for ever. -/
theorem C167_oscillation (qm kap dt : K) (N : ℕ) (ms : ℕ → MPs K) (e : ℕ → EArr K)
    (h : ∀ k < N, ms (k + 1) = borisStep .none ⟨0, 0, 0⟩ qm dt 1 (ms k) (e k)) (j : ℕ) (hj : j < (ms 0).nmp)
    (he : ∀ k < N, (e k).at j = ⟨-kap * ((ms k).phase j).x, 0, 0⟩) (hw : 0 ≤ qm * kap) (hdt : qm * kap * dt ^ 2 < 4) (n : ℕ) (hn : n ≤ N) :
    let I := fun p : Phase K => p.vx ^ 2 + qm * kap * p.x ^ 2 - qm * kap * dt * p.x * p.vx
    I ((ms n).phase j) = I ((ms 0).phase j) ∧
      (1 - qm * kap * dt ^ 2 / 4) * ((ms n).phase j).vx ^ 2 ≤ I ((ms 0).phase j) ∧
      (1 - qm * kap * dt ^ 2 / 4) * (qm * kap) * ((ms n).phase j).x ^ 2 ≤ I ((ms 0).phase j) := by
  intro I
  have ht := track_phases N (fun k i => borisSub qm (dt / (1 : ℕ)) ((e k).at i) (BSrc.none.getB ⟨0, 0, 0⟩) 1) ms h j hj
  have hI : I ((ms n).phase j) = I ((ms 0).phase j) := by
    induction n with
    | zero => rfl
    | succ n ih =>
      rw [← ih (by omega)]
      have h1 := ht n (by omega)
      rw [he n (by omega)] at h1
      obtain ⟨h2, h3⟩ := frozen_sub qm (dt / (1 : ℕ)) kap ((ms n).phase j).x 1 ((ms n).phase j)
      rw [← h1] at h2 h3
      simp only [I]
      rw [h2, h3]
      push_cast
      ring
  refine ⟨hI, ?_, ?_⟩
  · rw [← hI]
    simp only [I]
    generalize ((ms n).phase j).vx = v
    generalize ((ms n).phase j).x = x
    have : 0 ≤ qm * kap * (x - dt / 2 * v) ^ 2 := mul_nonneg hw (sq_nonneg _)
    nlinarith
  · rw [← hI]
    simp only [I]
    generalize ((ms n).phase j).vx = v
    generalize ((ms n).phase j).x = x
    have : 0 ≤ (v - qm * kap * dt / 2 * x) ^ 2 := sq_nonneg _
    nlinarith

end bound

/-- C167, disagreement: with the default setting the field is kept during the sub-steps of a time step. An electron bound by a force
`-m ω² x` is then heated without limit, with any time step, however short, and any number of sub-steps larger than one: of two electrons
that are not in the same phase of the oscillation, at least one goes beyond any bound in position or velocity. -/
theorem C167_heating_violated (qm kap dt : ℝ) (nSub : ℕ) (hs : 1 < nSub) (hw : 0 < qm * kap) (hdt : dt ≠ 0) (ms : ℕ → MPs ℝ) (e : ℕ → EArr ℝ)
    (h : ∀ k, ms (k + 1) = borisStep .none ⟨0, 0, 0⟩ qm dt nSub (ms k) (e k)) (i j : ℕ) (hi : i < (ms 0).nmp) (hj : j < (ms 0).nmp)
    (he : ∀ k, (e k).at i = ⟨-kap * ((ms k).phase i).x, 0, 0⟩ ∧ (e k).at j = ⟨-kap * ((ms k).phase j).x, 0, 0⟩)
    (hij : ((ms 0).phase i).x * ((ms 0).phase j).vx ≠ ((ms 0).phase j).x * ((ms 0).phase i).vx) (R : ℝ) :
    ∃ n, R < |((ms n).phase i).x| ∨ R < |((ms n).phase i).vx| ∨ R < |((ms n).phase j).x| ∨ R < |((ms n).phase j).vx| := by
  obtain ⟨d, hd⟩ : ∃ d, d = dt / (nSub : ℝ) := ⟨_, rfl⟩
  have hsR : (1 : ℝ) < nSub := by exact_mod_cast hs
  have hd0 : d ≠ 0 := by rw [hd]; exact div_ne_zero hdt (by linarith)
  let c : ℕ → ℝ := fun n => ((ms n).phase i).x * ((ms n).phase j).vx - ((ms n).phase j).x * ((ms n).phase i).vx
  let g : ℝ := 1 + qm * kap * d ^ 2 * (nSub * (nSub - 1) / 2)
  have hg : 1 < g := by
    have : 0 < qm * kap * d ^ 2 * (nSub * (nSub - 1) / 2) := by
      have : 0 < d ^ 2 := by positivity
      have : (0 : ℝ) < nSub - 1 := by linarith
      positivity
    simp only [g]; linarith
  have hstep : ∀ (l : ℕ) (hl : l < (ms 0).nmp) (hel : ∀ k, (e k).at l = ⟨-kap * ((ms k).phase l).x, 0, 0⟩) (k : ℕ),
      ((ms (k + 1)).phase l).vx = ((ms k).phase l).vx - nSub * (qm * kap * d) * ((ms k).phase l).x ∧
      ((ms (k + 1)).phase l).x = ((ms k).phase l).x + nSub * d * ((ms k).phase l).vx
        - nSub * (nSub + 1) / 2 * (qm * kap * d ^ 2) * ((ms k).phase l).x := by
    intro l hl hel k
    have h1 := track_phases (k + 1) (fun k i => borisSub qm (dt / nSub) ((e k).at i) (BSrc.none.getB ⟨0, 0, 0⟩) nSub) ms
      (fun k _ => h k) l hl k (by omega)
    simp only [hel k, ← hd] at h1
    rw [h1]
    exact frozen_sub qm d kap _ nSub _
  have hc : ∀ n, c (n + 1) = g * c n := by
    intro n
    obtain ⟨a1, a2⟩ := hstep i hi (fun k => (he k).1) n
    obtain ⟨b1, b2⟩ := hstep j hj (fun k => (he k).2) n
    simp only [c, g]
    rw [a1, a2, b1, b2]
    ring
  have hcn : ∀ n, c n = g ^ n * c 0 := by
    intro n
    induction n with
    | zero => simp
    | succ n ih => rw [hc, ih, pow_succ]; ring
  have hc0 : 0 < |c 0| := abs_pos.mpr (sub_ne_zero.mpr hij)
  obtain ⟨n, hn⟩ := pow_unbounded_of_one_lt (2 * R ^ 2 / |c 0|) hg
  refine ⟨n, ?_⟩
  by_contra hcon
  simp only [not_or, not_lt] at hcon
  obtain ⟨x1, v1, x2, v2⟩ := hcon
  have hR : 0 ≤ R := (abs_nonneg _).trans x1
  have e1 : |c n| ≤ 2 * R ^ 2 := by
    have t1 : |((ms n).phase i).x * ((ms n).phase j).vx| ≤ R * R := by rw [abs_mul]; exact mul_le_mul x1 v2 (abs_nonneg _) hR
    have t2 : |((ms n).phase j).x * ((ms n).phase i).vx| ≤ R * R := by rw [abs_mul]; exact mul_le_mul x2 v1 (abs_nonneg _) hR
    have t3 := abs_sub (((ms n).phase i).x * ((ms n).phase j).vx) (((ms n).phase j).x * ((ms n).phase i).vx)
    simp only [c]
    linarith [sq R]
  rw [hcn, abs_mul, abs_of_pos (pow_pos (by linarith) n)] at e1
  rw [div_lt_iff₀ hc0] at hn
  linarith

/-! ## the conditions can be met -/

/-- two electrons as in the theorems on the bound electron, with any number of sub-steps -/
example (nSub : ℕ) : ∃ (ms : ℕ → MPs ℝ) (e : ℕ → EArr ℝ), (∀ k, ms (k + 1) = borisStep .none ⟨0, 0, 0⟩ (-1) 1 nSub (ms k) (e k)) ∧
    0 < (ms 0).nmp ∧ 1 < (ms 0).nmp ∧ (∀ k, (e k).at 0 = ⟨-(-1) * ((ms k).phase 0).x, 0, 0⟩ ∧ (e k).at 1 = ⟨-(-1) * ((ms k).phase 1).x, 0, 0⟩) ∧
    ((ms 0).phase 0).x * ((ms 0).phase 1).vx ≠ ((ms 0).phase 1).x * ((ms 0).phase 0).vx := by
  let E : MPs ℝ → EArr ℝ := fun s => ⟨[(s.phase 0).x, (s.phase 1).x], [], []⟩
  let s0 : MPs ℝ := { arr := fun f => match f with | .x => [1, 0] | .vx => [0, 1] | _ => [0, 0], nmp := 2, ref := 1, split := 2, clTh := 0, ref0 := 1, factSplit := 2, factClean := 0, lifetime := false }
  let ms : ℕ → MPs ℝ := fun k => Nat.rec s0 (fun _ s => borisStep .none ⟨0, 0, 0⟩ (-1) 1 nSub s (E s)) k
  refine ⟨ms, fun k => E (ms k), fun k => rfl, Nat.zero_lt_two, Nat.one_lt_two, fun k => ?_, ?_⟩
  · simp [E, EArr.at]
  · simp [ms, s0, MPs.phase]

/-- a cloud in crossed uniform fields, for any number of steps -/
example {G : Type} [AddCommGroup G] (C0 : CplCfg ℝ G) (inp0 : CplIn ℝ) (s : MPs ℝ) (b : Bool) :
    let C : CplCfg ℝ G := { C0 with tr := fun _ => borisObj .none ⟨0, 3, 0⟩ (-1) (1 / 10) 3, unifDt := true, reinterp := b }
    let inp : CplIn ℝ := { inp0 with beam := fun _ _ => (2, 0), custom := none, kick := false }
    V3.dot (⟨2, 0, 0⟩ : V3 ℝ) ⟨0, 3, 0⟩ = 0 ∧ V3.dot (⟨0, 3, 0⟩ : V3 ℝ) ⟨0, 3, 0⟩ ≠ 0 ∧ (∀ x y, (0, 0) + inp.beam x y = ((2, 0) : ℝ × ℝ)) ∧
    ∃ ms : ℕ → MPs ℝ, ms 0 = s ∧ ∀ k : ℕ, cplMotion C inp (fun _ _ => (0, 0)) 0 (ms k) = .ok (ms (k + 1)) := by
  intro C inp
  refine ⟨by simp [V3.dot], by simp [V3.dot], fun x y => by simp [inp], ?_⟩
  have hl : ∀ (m n : ℕ) (d : ℝ) (s : MPs ℝ), ∃ s',
      motionLoop (C.tr 0) (cloudFields (fun _ _ => (0, 0))) (some (beamFields inp.beam)) m (some d) n s = .ok s' := by
    intro m n d
    induction n with
    | zero => intro s; exact ⟨s, rfl⟩
    | succ n ih => intro s; exact ih _
  have h : ∀ s : MPs ℝ, ∃ s', cplMotion C inp (fun _ _ => (0, 0)) 0 s = .ok s' := by
    intro s
    unfold cplMotion cloudMotion
    cases hr : (C.reinterp || inp.reinterp) with
    | true => exact hl 1 3 _ s
    | false => exact hl 3 1 _ s
  choose g hg using h
  exact ⟨fun k => Nat.rec s (fun _ m => g m) k, rfl, fun k => hg _⟩

end PyECLOUD
