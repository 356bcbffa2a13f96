import Verif.Lemmas.Dynamics
import Verif.Props.MPSystem
import Mathlib.Data.List.GetD
import Mathlib.Analysis.Complex.RealDeriv

/-!
# Properties of the trackers (C36-C39, C60-C62)
-/

namespace PyECLOUD

set_option linter.unusedSectionVars false

section boris
variable {K : Type} [Field K] [LinearOrder K] [IsStrictOrderedRing K] [FloorRing K]

/-- **C36** (Fortran/numpy Boris). With zero electric field the speed of every macroparticle is unchanged
by any number of sub-steps of any length, for every magnetic field source. -/
theorem C36_boris_speed (src : BSrc K) (b0 : V3 K) (qm dtSub : K) (nSub : ℕ) (s : MPs K) (e : EArr K)
    (he : ∀ i < s.nmp, e.at i = ⟨0, 0, 0⟩) :
    (borisCustomDt src b0 qm s e dtSub nSub).live.map speedSq = s.live.map speedSq := by
  unfold borisCustomDt
  rw [live_push]
  apply map_mapIdx_eq
  intro i hi
  rw [speedSq_move, he i (by simpa using hi), borisSub_sq, speedSq_phase]

/-- **C36** (C multipole Boris), with any multipole, uniform and per-particle magnetic field. -/
theorem C36_multipole_speed (bf bs : List K) (c : CustomB K) (qm dtSub : K) (nSub : ℕ) (s s' : MPs K)
    (ex ey : List K) (ez : K) (hx : ∀ i < s.nmp, ex.getD i 0 = 0) (hy : ∀ i < s.nmp, ey.getD i 0 = 0)
    (h : multipoleCustomDt bf bs c qm s ex ey ez dtSub nSub = .ok s') :
    s'.live.map speedSq = s.live.map speedSq := by
  unfold multipoleCustomDt at h
  split at h
  · cases h
  · injection h with h
    subst h
    rw [live_push]
    apply map_mapIdx_eq
    intro i hi
    have hi' : i < s.nmp := by simpa using hi
    rw [speedSq_move, hx i hi', hy i hi', borisSub_sq, speedSq_phase]

/-- **C36**, the fields: the size and the last impact time of every macroparticle, and the number of
macroparticles, are untouched by a tracker. -/
theorem C36_only_phase_changes (src : BSrc K) (b0 : V3 K) (qm dtSub : K) (nSub : ℕ) (s : MPs K) (e : EArr K) :
    (borisCustomDt src b0 qm s e dtSub nSub).live.map (fun p : Particle K => (p .nel, p .tl))
      = s.live.map (fun p : Particle K => (p .nel, p .tl)) := by
  unfold borisCustomDt
  rw [live_push]
  apply map_mapIdx_eq
  intro i hi
  rfl

/-- **C37** (Fortran/numpy Boris). Without magnetic field `n ≥ 1` sub-steps of length `dt/n` change every
velocity by `q/m E dt` and every position by `v dt + q/m E dt² (n+1)/(2n)`. -/
theorem C37_boris_pure_electric (qm dt : K) (n : ℕ) (hn : n ≠ 0) (s : MPs K) (e : EArr K) :
    (borisStep .none ⟨0, 0, 0⟩ qm dt n s e).live = s.live.mapIdx (fun i p => Particle.move p
      { x := p .x + p .vx * dt + qm * e.ex.getD i 0 * dt ^ 2 * ((n + 1) / (2 * n))
        y := p .y + p .vy * dt + qm * e.ey.getD i 0 * dt ^ 2 * ((n + 1) / (2 * n))
        z := p .z + p .vz * dt + qm * e.ez.getD i 0 * dt ^ 2 * ((n + 1) / (2 * n))
        vx := p .vx + qm * e.ex.getD i 0 * dt
        vy := p .vy + qm * e.ey.getD i 0 * dt
        vz := p .vz + qm * e.ez.getD i 0 * dt }) := by
  unfold borisStep
  rw [live_push]
  have hn' : (n : K) ≠ 0 := Nat.cast_ne_zero.mpr hn
  have hB : ∀ x y : K, (BSrc.none : BSrc K).getB ⟨0, 0, 0⟩ x y = ⟨0, 0, 0⟩ := by
    intro x y; simp [BSrc.getB]
  apply congrArg (fun g => List.mapIdx g s.live)
  funext i p
  rw [borisSub_congr _ _ _ _ _ hB, borisSub_noB]
  congr 1
  ext <;> simp only [EArr.at, Particle.phase] <;> field_simp

/-- **C37** (C multipole Boris) with no coefficients and no additional field. -/
theorem C37_multipole_pure_electric (bf bs : List K) (qm dt : K) (n : ℕ) (hn : n ≠ 0) (s s' : MPs K)
    (ex ey : List K) (h0 : multipoleInit (none : Option (List K)) none = .ok (bf, bs))
    (h : multipoleStep bf bs {} qm dt n s ex ey 0 = .ok s') :
    s'.live = s.live.mapIdx (fun i p => Particle.move p
      { x := p .x + p .vx * dt + qm * ex.getD i 0 * dt ^ 2 * ((n + 1) / (2 * n))
        y := p .y + p .vy * dt + qm * ey.getD i 0 * dt ^ 2 * ((n + 1) / (2 * n))
        z := p .z + p .vz * dt
        vx := p .vx + qm * ex.getD i 0 * dt
        vy := p .vy + qm * ey.getD i 0 * dt
        vz := p .vz }) := by
  have hn' : (n : K) ≠ 0 := Nat.cast_ne_zero.mpr hn
  simp only [multipoleInit, Except.ok.injEq, Prod.mk.injEq] at h0
  obtain ⟨h1, h2⟩ := h0
  subst h1 h2
  simp only [multipoleStep, multipoleCustomDt, ne_eq, not_true_eq_false, and_false, if_false,
    Except.ok.injEq] at h
  subst h
  rw [live_push]
  have hB : ∀ i, ∀ x y : K, multipoleField (factDivFrom 0 [(0 : K)]) (List.replicate [(0 : K)].length 0)
      (({} : CustomB K).at i) x y = ⟨0, 0, 0⟩ := by
    intro i x y
    simp [multipoleField, factDivFrom, multipoleLoop, CustomB.at]
  apply congrArg (fun g => List.mapIdx g s.live)
  funext i p
  rw [borisSub_congr _ _ _ _ _ (hB i), borisSub_noB]
  congr 1
  ext <;> simp only [Particle.phase] <;> field_simp <;> ring

/-- **C61.** The two Boris implementations agree on dipole plus quadrupole fields: the Fortran/numpy
tracker with gradient `g` and uniform field `(b0x, b0y, b0z)` and the C tracker with normal coefficients
`[b0y, g]`, skew coefficients `[b0x, 0]` and longitudinal field `b0z`. -/
theorem C61_boris_agree (g b0x b0y b0z qm dt : K) (n : ℕ) (s : MPs K) (ex ey : List K) (bf bs : List K)
    (hinit : multipoleInit (some [b0y, g]) (some [b0x, 0]) = .ok (bf, bs)) :
    multipoleStep bf bs { b0z := some b0z } qm dt n s ex ey 0
      = .ok (borisStep (.quad g) ⟨b0x, b0y, b0z⟩ qm dt n s ⟨ex, ey, []⟩) := by
  simp only [multipoleInit, List.length_cons, List.length_nil, if_true, Except.ok.injEq,
    Prod.mk.injEq] at hinit
  obtain ⟨h1, h2⟩ := hinit
  subst h1 h2
  simp only [multipoleStep, multipoleCustomDt, borisStep, ne_eq, not_true_eq_false, and_false, if_false]
  congr 2
  funext i p
  have hB : ∀ x y : K, multipoleField (factDivFrom 0 [b0y, g]) (factDivFrom 0 [b0x, 0])
      (({ b0z := some b0z } : CustomB K).at i) x y = (BSrc.quad g).getB ⟨b0x, b0y, b0z⟩ x y := by
    intro x y
    simp [multipoleField, factDivFrom, multipoleLoop, CustomB.at, BSrc.getB]
    constructor <;> ring
  rw [borisSub_congr _ _ _ _ _ hB]
  rfl

/-- **C61**, uniform field given to both trackers as `B0x, B0y, B0z`. -/
theorem C61_boris_agree_uniform (b0x b0y b0z qm dt : K) (n : ℕ) (s : MPs K) (ex ey : List K) (bf bs : List K)
    (hinit : multipoleInit (none : Option (List K)) none = .ok (bf, bs)) :
    multipoleStep bf bs { b0x := some b0x, b0y := some b0y, b0z := some b0z } qm dt n s ex ey 0
      = .ok (borisStep .none ⟨b0x, b0y, b0z⟩ qm dt n s ⟨ex, ey, []⟩) := by
  simp only [multipoleInit, Except.ok.injEq, Prod.mk.injEq] at hinit
  obtain ⟨h1, h2⟩ := hinit
  subst h1 h2
  simp only [multipoleStep, multipoleCustomDt, borisStep, ne_eq, not_true_eq_false, and_false, if_false]
  congr 2
  funext i p
  have hB : ∀ x y : K, multipoleField (factDivFrom 0 [(0 : K)]) (List.replicate [(0 : K)].length 0)
      (({ b0x := some b0x, b0y := some b0y, b0z := some b0z } : CustomB K).at i) x y
        = (BSrc.none : BSrc K).getB ⟨b0x, b0y, b0z⟩ x y := by
    intro x y
    simp [multipoleField, factDivFrom, multipoleLoop, CustomB.at, BSrc.getB]
  rw [borisSub_congr _ _ _ _ _ hB]
  rfl

end boris

/-- three live particles in a system of capacity four -/
def exPush : MPs ℚ where
  arr := fun f => match f with
    | .x => [1, 2, 3, 0]
    | .y => [0, 1, -1, 0]
    | .z => [0, 0, 0, 0]
    | .vx => [1, 0, 2, 0]
    | .vy => [0, 3, 1, 0]
    | .vz => [1, 1, 1, 0]
    | .nel => [10, 20, 30, 0]
    | .tl => [-1, -1, -1, -1]
  nmp := 3
  ref := 1
  split := 2
  clTh := 0
  ref0 := 1
  factSplit := 2
  factClean := 0
  lifetime := false

/-- the speeds are conserved while the velocities really change -/
example : (borisCustomDt (.quad 2) ⟨1, 0, 1⟩ 1 exPush ⟨[0, 0, 0], [0, 0, 0], [0, 0, 0]⟩ 1 3).live.map speedSq
      = exPush.live.map speedSq ∧
    (borisCustomDt (.quad 2) ⟨1, 0, 1⟩ 1 exPush ⟨[0, 0, 0], [0, 0, 0], [0, 0, 0]⟩ 1 3).live.map
        (fun p : Particle ℚ => p .vx) ≠ exPush.live.map (fun p : Particle ℚ => p .vx) :=
  ⟨C36_boris_speed _ _ _ _ _ _ _ (by decide +kernel),
    by decide +kernel⟩

example : ∃ s', multipoleCustomDt [(1 : ℚ), 2, 3] [0, 1, 0] { b0z := some 1 } 1 exPush [0, 0, 0] [0, 0, 0] 0 1 2
      = .ok s' ∧ s'.live.map speedSq = exPush.live.map speedSq :=
  ⟨_, rfl, C36_multipole_speed [(1 : ℚ), 2, 3] [0, 1, 0] { b0z := some 1 } 1 1 2 exPush _ [0, 0, 0] [0, 0, 0] 0
    (by decide +kernel) (by decide +kernel) rfl⟩

example : ((borisStep .none ⟨0, 0, 0⟩ 2 3 4 exPush ⟨[1, 2, 3], [0, 1, 0], [0, 0, 0]⟩).live.map
    (fun p : Particle ℚ => (p .x, p .vx))) = [(61 / 4, 7), (49 / 2, 12), (171 / 4, 20)] := by
  rw [C37_boris_pure_electric _ _ _ (by decide)]
  decide +kernel

example : ∃ bf bs s', multipoleInit (none : Option (List ℚ)) none = .ok (bf, bs) ∧
    multipoleStep bf bs {} 2 3 4 exPush [1, 2, 3] [0, 1, 0] 0 = .ok s' :=
  ⟨_, _, _, rfl, rfl⟩

example : ∃ bf bs, multipoleInit (some [(3 : ℚ), 5]) (some [7, 0]) = .ok (bf, bs) := ⟨_, _, rfl⟩

/-! ## Multipole fields -/

/-- the complex multipole expansion `Σ (Bₙ + i Sₙ)/n! (x + i y)ⁿ` -/
noncomputable def multipoleSeries (normal skew : List ℝ) (w : ℂ) : ℂ :=
  ∑ n ∈ Finset.range normal.length,
    ((normal.getD n 0 : ℂ) + Complex.I * (skew.getD n 0 : ℂ)) / (n.factorial : ℂ) * w ^ n

theorem multipoleField_eq (normal skew : List ℝ) (hl : skew.length = normal.length) (hne : normal ≠ [])
    (x y : ℝ) :
    let b := multipoleField (factDivFrom 0 normal) (factDivFrom 0 skew) none x y
    (b.y : ℂ) + Complex.I * (b.x : ℂ) = multipoleSeries normal skew (x + Complex.I * y) := by
  intro b
  obtain ⟨b0, bl, rfl⟩ := List.exists_cons_of_ne_nil hne
  obtain ⟨s0, sl, rfl⟩ := List.exists_cons_of_ne_nil (l := skew) (by rintro rfl; simp at hl)
  have hl' : sl.length = bl.length := by simpa using hl
  have hb : b = ⟨(multipoleLoop x y ((factDivFrom 1 bl).zip (factDivFrom 1 sl)) 1 0 s0 b0).1,
      (multipoleLoop x y ((factDivFrom 1 bl).zip (factDivFrom 1 sl)) 1 0 s0 b0).2, 0⟩ := by
    simp [b, multipoleField, factDivFrom]
  rw [hb]
  dsimp only
  rw [multipoleLoop_complex, multipoleSeries, List.length_cons, Finset.sum_range_succ']
  have hlen : ((factDivFrom 1 bl).zip (factDivFrom 1 sl)).length = bl.length := by
    simp [factDivFrom_length, hl']
  rw [hlen, add_comm]
  congr 1
  · apply Finset.sum_congr rfl
    intro j hj
    have hj' : j < bl.length := by simpa using hj
    have hget : ((factDivFrom 1 bl).zip (factDivFrom 1 sl)).getD j (0, 0)
        = ((factDivFrom 1 bl).getD j 0, (factDivFrom 1 sl).getD j 0) := by
      rw [List.getD_eq_getElem _ _ (by rw [hlen]; exact hj'), List.getElem_zip,
        List.getD_eq_getElem _ _ (by rw [factDivFrom_length]; exact hj'),
        List.getD_eq_getElem _ _ (by rw [factDivFrom_length, hl']; exact hj')]
    rw [hget, factDivFrom_getD, factDivFrom_getD]
    simp only [List.getD_cons_succ]
    rw [add_comm 1 j]
    push_cast
    ring
  · simp

/-- **C38.** For every list of normal coefficients and every list of skew coefficients of the same length
(or no skew coefficients) the field of the multipole tracker is the complex multipole expansion. -/
theorem C38_complex_expansion_partial (normal : List ℝ) (skew : Option (List ℝ)) (hne : normal ≠ [])
    (hl : ∀ l ∈ skew, l.length = normal.length) (bf bs : List ℝ)
    (h : multipoleInit (some normal) skew = .ok (bf, bs)) (x y : ℝ) :
    let b := multipoleField bf bs none x y
    (b.y : ℂ) + Complex.I * (b.x : ℂ)
      = multipoleSeries normal (skew.getD (List.replicate normal.length 0)) (x + Complex.I * y) := by
  intro b
  obtain ⟨b0, bl, rfl⟩ := List.exists_cons_of_ne_nil hne
  have hz : ∀ (i n : ℕ), factDivFrom i (List.replicate n (0 : ℝ)) = List.replicate n 0 := by
    intro i n
    induction n generalizing i with
    | zero => rfl
    | succ n ih => simp [List.replicate_succ, factDivFrom, ih]
  cases skew with
  | none =>
    simp only [multipoleInit, Except.ok.injEq, Prod.mk.injEq] at h
    obtain ⟨h1, h2⟩ := h
    have := multipoleField_eq (b0 :: bl) (List.replicate (b0 :: bl).length 0) (by simp) hne x y
    rw [hz, h1] at this
    rw [Option.getD_none, h2]
    rw [h2] at this
    exact this
  | some l =>
    have hl' := hl l rfl
    simp only [multipoleInit, hl', if_true, Except.ok.injEq, Prod.mk.injEq] at h
    obtain ⟨h1, h2⟩ := h
    have := multipoleField_eq (b0 :: bl) l hl' hne x y
    rw [h1, h2] at this
    exact this

example : ∃ bf bs, multipoleInit (some [(1 : ℝ), 2, 3, 4]) (some [0, 1, 0, 5]) = .ok (bf, bs) :=
  ⟨_, _, rfl⟩

/-- derivative of the expansion -/
theorem multipoleSeries_hasDerivAt (normal skew : List ℝ) (w : ℂ) :
    ∃ d, HasDerivAt (multipoleSeries normal skew) d w := by
  exact ⟨_, HasDerivAt.fun_sum (A' := fun n => ((normal.getD n 0 : ℂ) + Complex.I * (skew.getD n 0 : ℂ))
    / (n.factorial : ℂ) * (n * w ^ (n - 1))) (fun n _ => (hasDerivAt_pow n w).const_mul _)⟩

/-- **C38**, Maxwell: every multipole field is divergence-free (`∂Bx/∂x + ∂By/∂y = 0`) and curl-free
(`∂By/∂x = ∂Bx/∂y`) at every point. -/
theorem C38_divergence_curl_free (normal : List ℝ) (skew : Option (List ℝ)) (hne : normal ≠ [])
    (hl : ∀ l ∈ skew, l.length = normal.length) (bf bs : List ℝ)
    (h : multipoleInit (some normal) skew = .ok (bf, bs)) (x y : ℝ) :
    ∃ a c : ℝ,
      HasDerivAt (fun t => (multipoleField bf bs none t y).x) a x ∧
      HasDerivAt (fun t => (multipoleField bf bs none x t).y) (-a) y ∧
      HasDerivAt (fun t => (multipoleField bf bs none t y).y) c x ∧
      HasDerivAt (fun t => (multipoleField bf bs none x t).x) c y := by
  set S := multipoleSeries normal (skew.getD (List.replicate normal.length 0)) with hS
  obtain ⟨d, hd⟩ := multipoleSeries_hasDerivAt normal (skew.getD (List.replicate normal.length 0))
    ((x : ℂ) + Complex.I * y)
  rw [← hS] at hd
  have hF : ∀ x y : ℝ, ((multipoleField bf bs none x y).y : ℂ)
      + Complex.I * ((multipoleField bf bs none x y).x : ℂ) = S (x + Complex.I * y) :=
    fun x y => C38_complex_expansion_partial normal skew hne hl bf bs h x y
  have hre : ∀ x y : ℝ, (multipoleField bf bs none x y).y = (S (x + Complex.I * y)).re := by
    intro x y; rw [← hF]; simp
  have him : ∀ x y : ℝ, (multipoleField bf bs none x y).x = (S (x + Complex.I * y)).im := by
    intro x y; rw [← hF]; simp
  have hx : HasDerivAt (fun t : ℝ => S ((t : ℂ) + Complex.I * y)) d x := by
    have h1 : HasDerivAt (fun t : ℝ => (t : ℂ) + Complex.I * y) 1 x := by
      simpa using (Complex.ofRealCLM.hasDerivAt (x := x)).add_const (Complex.I * (y : ℂ))
    have h2 := hd.comp_of_eq x h1 rfl
    rw [mul_one] at h2
    exact h2
  have hy : HasDerivAt (fun t : ℝ => S ((x : ℂ) + Complex.I * t)) (d * Complex.I) y := by
    have h1 : HasDerivAt (fun t : ℝ => (x : ℂ) + Complex.I * t) Complex.I y := by
      simpa using ((Complex.ofRealCLM.hasDerivAt (x := y)).const_mul Complex.I).const_add (x : ℂ)
    exact hd.comp_of_eq y h1 rfl
  have reD : ∀ {f : ℝ → ℂ} {f' : ℂ} {t : ℝ}, HasDerivAt f f' t → HasDerivAt (fun t => (f t).re) f'.re t := by
    intro f f' t hf
    exact (Complex.reCLM.hasFDerivAt.comp_hasDerivAt t hf)
  have imD : ∀ {f : ℝ → ℂ} {f' : ℂ} {t : ℝ}, HasDerivAt f f' t → HasDerivAt (fun t => (f t).im) f'.im t := by
    intro f f' t hf
    exact (Complex.imCLM.hasFDerivAt.comp_hasDerivAt t hf)
  refine ⟨d.im, d.re, ?_, ?_, ?_, ?_⟩
  · simpa only [him] using imD hx
  · have := reD hy
    simp only [Complex.mul_re, Complex.I_re, Complex.I_im, mul_zero, mul_one, zero_sub] at this
    simpa only [hre] using this
  · simpa only [hre] using reD hx
  · have := imD hy
    simp only [Complex.mul_im, Complex.I_re, Complex.I_im, mul_zero, mul_one, add_zero] at this
    simpa only [him] using this

/-- **C38 does not hold for skew lists of another length**: a skew quadrupole given without normal
coefficients is accepted and then ignored: the field is zero everywhere. -/
theorem C38_skew_violated : ∃ bf bs : List ℚ, multipoleInit none (some [0, 1]) = .ok (bf, bs) ∧
    ∀ x y, multipoleField bf bs none x y = ⟨0, 0, 0⟩ :=
  ⟨[0], [0, 1], by decide +kernel, fun x y => by simp [multipoleField, multipoleLoop]⟩

/-- **C38 does not hold for skew lists of another length**: a single skew (dipole) coefficient next to
three normal ones is repeated for every order, so a uniform skew field becomes position dependent. -/
theorem C38_single_skew_violated : ∃ bf bs : List ℚ, multipoleInit (some [0, 0, 0]) (some [1]) = .ok (bf, bs) ∧
    multipoleField bf bs none 0 0 = ⟨1, 0, 0⟩ ∧ multipoleField bf bs none 2 0 = ⟨5, 0, 0⟩ := by
  refine ⟨[0, 0, 0], [1, 1, 1 / 2], by decide +kernel, ?_, ?_⟩ <;>
    (ext <;> norm_num [multipoleField, multipoleLoop])

/-- **C38**, additional fields: a uniform field and per-particle field arrays, in any combination (each component may
or may not be given), are added to the multipole field component by component. -/
theorem C38_custom_added {K : Type} [Field K] (bf bs : List K) (c : CustomB K) (i : ℕ) (x y : K) :
    let m := multipoleField bf bs none x y
    let u : Option K → K := fun o => o.getD 0
    let a : Option (List K) → K := fun o => match o with
      | none => 0
      | some l => l.getD i 0
    multipoleField bf bs (c.at i) x y
      = ⟨m.x + (u c.b0x + a c.bx), m.y + (u c.b0y + a c.yb), m.z + (u c.b0z + a c.bz)⟩ := by
  obtain ⟨b0x, b0y, b0z, bx, yb, bz⟩ := c
  cases b0x <;> cases b0y <;> cases b0z <;> cases bx <;> cases yb <;> cases bz <;>
    simp [multipoleField, CustomB.at]

/-- only a longitudinal array -/
example : multipoleField [(2 : ℚ)] [0] (({ bz := some [5, 7] } : CustomB ℚ).at 1) 3 4 = ⟨0, 2, 7⟩ := by
  rw [C38_custom_added]
  simp [multipoleField, multipoleLoop]

/-! ## Strong-field trackers -/

/-- **C39**, exactness: away from the small-argument branch one step of the strong dipole tracker puts
every macroparticle where *any* solution of the equation of motion of an electron (charge-to-mass ratio
`-qm`) in the fields `(Ex, Ey, 0)` and `(0, B, 0)` through its current phase is at time `Dt`. -/
theorem C39_exact (qm b dt : ℝ) (hth : 1 / 10000 ≤ |b * qm * dt|) (s : MPs ℝ) (ex ey : List ℝ)
    (T : ℕ → ℝ → Phase ℝ)
    (hT : ∀ i < s.nmp, LorentzMotion (-qm) ⟨ex.getD i 0, ey.getD i 0, 0⟩ ⟨0, b, 0⟩ (T i))
    (h0 : ∀ i, ∀ (hi : i < s.live.length), T i 0 = Particle.phase s.live[i]) :
    (dipoleStep qm b dt s ex ey).live = s.live.mapIdx (fun i p => Particle.move p (T i dt)) := by
  unfold dipoleStep
  rw [live_push]
  have hx : b * qm ≠ 0 := by
    intro h0; rw [h0, zero_mul, abs_zero] at hth; norm_num at hth
  apply List.ext_getElem (by simp)
  intro i h1 h2
  have hi : i < s.live.length := by simpa using h1
  simp only [List.getElem_mapIdx]
  congr 1
  rw [dipoleMove_flow _ _ _ _ _ hth]
  exact ((hT i (by simpa using hi)).unique (dipoleFlow_motion qm b _ rfl _ hx)
    (by rw [h0 i hi, dipoleFlow_zero]) dt).symm

/-- such solutions exist for every cloud -/
example (qm b : ℝ) (hx : b * qm ≠ 0) (s : MPs ℝ) (ex ey : List ℝ) : ∃ T : ℕ → ℝ → Phase ℝ,
    (∀ i < s.nmp, LorentzMotion (-qm) ⟨ex.getD i 0, ey.getD i 0, 0⟩ ⟨0, b, 0⟩ (T i)) ∧
    ∀ i, ∀ (hi : i < s.live.length), T i 0 = Particle.phase s.live[i] :=
  ⟨fun i => dipoleFlow qm (b * qm) ⟨ex.getD i 0, ey.getD i 0, 0⟩ (s.live.getD i (fun _ => 0)).phase,
    fun i _ => dipoleFlow_motion qm b _ rfl _ hx,
    fun i hi => by dsimp only; rw [dipoleFlow_zero, List.getD_eq_getElem _ _ hi]⟩

theorem trig_small (u : ℝ) (h0 : u ≠ 0) (h : |u| < 1 / 10000) :
    |1 - Real.sin u / u| ≤ u ^ 2 / 5 ∧ |1 / 2 - (1 - Real.cos u) / (u * u)| ≤ u ^ 2 / 5 ∧
    |1 / 6 - (u - Real.sin u) / (u * u * u)| ≤ u ^ 2 / 5 := by
  have h1 : |u| ≤ 1 := by linarith
  have hs := Real.sin_bound h1
  have hc := Real.cos_bound h1
  have hp : 0 < |u| := abs_pos.2 h0
  have hsq : u ^ 2 = |u| ^ 2 := (sq_abs u).symm
  refine ⟨?_, ?_, ?_⟩
  · have e : 1 - Real.sin u / u = (u ^ 3 / 6 - (Real.sin u - (u - u ^ 3 / 6))) / u := by field_simp; ring
    rw [e, abs_div, div_le_iff₀ hp]
    calc |u ^ 3 / 6 - (Real.sin u - (u - u ^ 3 / 6))| ≤ |u ^ 3 / 6| + |Real.sin u - (u - u ^ 3 / 6)| := abs_sub _ _
      _ ≤ |u| ^ 3 / 6 + |u| ^ 5 / 100 := by
        rw [abs_div, abs_pow, abs_of_pos (by norm_num : (0:ℝ) < 6)]
        exact add_le_add le_rfl hs
      _ ≤ u ^ 2 / 5 * |u| := by
        rw [hsq]
        have : |u| ^ 2 ≤ 1 := pow_le_one₀ hp.le h1
        have h3 : 0 ≤ |u| ^ 3 := pow_nonneg hp.le 3
        nlinarith
  · have e : 1 / 2 - (1 - Real.cos u) / (u * u) = (Real.cos u - (1 - u ^ 2 / 2)) / (u * u) := by field_simp; ring
    rw [e, abs_div, abs_mul, div_le_iff₀ (by positivity)]
    refine hc.trans ?_
    rw [hsq]
    have h3 : 0 ≤ |u| ^ 4 := pow_nonneg hp.le 4
    nlinarith
  · have e : 1 / 6 - (u - Real.sin u) / (u * u * u) = (Real.sin u - (u - u ^ 3 / 6)) / (u * u * u) := by field_simp; ring
    rw [e, abs_div, abs_mul, abs_mul, div_le_iff₀ (by positivity), hsq]
    refine hs.trans ?_
    have h3 : 0 ≤ |u| ^ 5 := pow_nonneg hp.le 5
    nlinarith

theorem abs_lin2 (d a b x y : ℝ) (hx : |x| ≤ d) (hy : |y| ≤ d) : |a * x + b * y| ≤ d * (|a| + |b|) := by
  refine (abs_add_le _ _).trans ?_
  rw [abs_mul, abs_mul]
  nlinarith [abs_nonneg a, abs_nonneg b, mul_le_mul_of_nonneg_left hx (abs_nonneg a), mul_le_mul_of_nonneg_left hy (abs_nonneg b)]

theorem abs_lin3 (d a b c x y z : ℝ) (hx : |x| ≤ d) (hy : |y| ≤ d) (hz : |z| ≤ d) :
    |a * x + b * y + c * z| ≤ d * (|a| + |b| + |c|) := by
  refine (abs_add_le _ _).trans ?_
  have := abs_lin2 d a b x y hx hy
  rw [abs_mul c z]
  nlinarith [mul_le_mul_of_nonneg_left hz (abs_nonneg c)]

/-- **C39**, the small-argument branch: when the rotation angle of the step is below `1e-4` the tracker uses limits of
the trigonometric quotients instead; every macroparticle then ends within a relative `angle² / 5` (less than `2e-9`) of
each contribution to the exact motion; the vertical motion stays exact. -/
theorem C39_small (qm b dt : ℝ) (hth : |b * qm * dt| < 1 / 10000) (hb : b * qm ≠ 0) (s : MPs ℝ) (ex ey : List ℝ)
    (T : ℕ → ℝ → Phase ℝ)
    (hT : ∀ i < s.nmp, LorentzMotion (-qm) ⟨ex.getD i 0, ey.getD i 0, 0⟩ ⟨0, b, 0⟩ (T i))
    (h0 : ∀ i, ∀ (hi : i < s.live.length), T i 0 = Particle.phase s.live[i]) :
    ∃ Q : ℕ → Phase ℝ, (dipoleStep qm b dt s ex ey).live = s.live.mapIdx (fun i p => Particle.move p (Q i)) ∧
      ∀ i, ∀ (hi : i < s.live.length),
        (Q i).y = (T i dt).y ∧ (Q i).vy = (T i dt).vy ∧
        |(Q i).x - (T i dt).x| ≤ (b * qm * dt) ^ 2 / 5 *
          (|s.live[i] .vx * dt| + |s.live[i] .vz * (b * qm) * dt ^ 2| + |qm * ex.getD i 0 * dt ^ 2|) ∧
        |(Q i).z - (T i dt).z| ≤ (b * qm * dt) ^ 2 / 5 *
          (|s.live[i] .vz * dt| + |s.live[i] .vx * (b * qm) * dt ^ 2| + |qm * ex.getD i 0 * (b * qm) * dt ^ 3|) ∧
        |(Q i).vx - (T i dt).vx| ≤ (b * qm * dt) ^ 2 / 5 * |qm * ex.getD i 0 * dt| ∧
        |(Q i).vz - (T i dt).vz| ≤ (b * qm * dt) ^ 2 / 5 * |qm * ex.getD i 0 * (b * qm) * dt ^ 2| := by
  refine ⟨fun i => dipoleMove qm b dt ⟨ex.getD i 0, ey.getD i 0, 0⟩ (Particle.phase (s.live.getD i (fun _ => 0))), ?_, ?_⟩
  · unfold dipoleStep
    rw [live_push]
    apply List.ext_getElem (by simp)
    intro i h1 h2
    have hi : i < s.live.length := by simpa using h1
    simp only [List.getElem_mapIdx, List.getD_eq_getElem _ _ hi]
  · intro i hi
    have hflow : T i dt = dipoleFlow qm (b * qm) ⟨ex.getD i 0, ey.getD i 0, 0⟩ (Particle.phase s.live[i]) dt :=
      (hT i (by simpa using hi)).unique (dipoleFlow_motion qm b _ rfl _ hb) (by rw [h0 i hi, dipoleFlow_zero]) dt
    rw [hflow]
    simp only [List.getD_eq_getElem _ _ hi]
    generalize s.live[i] = p
    generalize ex.getD i 0 = ex
    generalize ey.getD i 0 = ey
    rcases eq_or_ne dt 0 with hd | hd
    · subst hd
      rw [dipoleFlow_zero]
      simp [dipoleMove]
    · have hu : b * qm * dt ≠ 0 := mul_ne_zero hb hd
      obtain ⟨hS, hC, hU⟩ := trig_small (b * qm * dt) hu hth
      have es : ∀ w, w * Real.sin (b * qm * dt) / (b * qm) = w * (Real.sin (b * qm * dt) / (b * qm * dt)) * dt := by
        intro w; field_simp
      simp only [dipoleMove, dipoleFlow, Particle.phase, sincc, cosincc, cubsincc, if_pos hth]
      have hbz : b ≠ 0 := left_ne_zero_of_mul hb
      have hqz : qm ≠ 0 := right_ne_zero_of_mul hb
      generalize hS' : Real.sin (b * qm * dt) = S at *
      generalize hC' : Real.cos (b * qm * dt) = C at *
      refine ⟨by ring, trivial, ?_, ?_, ?_, ?_⟩
      · refine le_of_eq_of_le ?_ (abs_lin3 _ (p .vx * dt) (p .vz * (b * qm) * dt ^ 2) (qm * ex * dt ^ 2) _ _ _ hS hC
          ((abs_neg _).trans_le hC))
        congr 1
        field_simp
        ring
      · have := (abs_lin3 _ (p .vz * dt) (p .vx * (b * qm) * dt ^ 2) (qm * ex * (b * qm) * dt ^ 3) _ _ _ hS
          ((abs_neg _).trans_le hC) hU)
        refine le_of_eq_of_le ?_ this
        congr 1
        field_simp
        ring
      · have := mul_le_mul_of_nonneg_left hS (abs_nonneg (qm * ex * dt))
        rw [← abs_mul, mul_comm _ ((b * qm * dt) ^ 2 / 5), ← abs_neg] at this
        refine le_of_eq_of_le ?_ this
        congr 1
        field_simp
        ring
      · have := mul_le_mul_of_nonneg_left hC (abs_nonneg (qm * ex * (b * qm) * dt ^ 2))
        rw [← abs_mul, mul_comm _ ((b * qm * dt) ^ 2 / 5)] at this
        refine le_of_eq_of_le ?_ this
        congr 1
        field_simp
        ring
/-- an angle of `1/20000` -/
example : |(1 / 20000 : ℝ) * 1 * 1| < 1 / 10000 ∧ (1 / 20000 : ℝ) * 1 ≠ 0 := by
  constructor
  · rw [abs_of_pos] <;> norm_num
  · norm_num

/-- **C39**, no magnetic field: the step is uniformly accelerated motion, whatever its length. -/
theorem C39_no_field (qm dt : ℝ) (s : MPs ℝ) (ex ey : List ℝ) :
    (dipoleStep qm 0 dt s ex ey).live = s.live.mapIdx (fun i p => Particle.move p
      { x := p .x + p .vx * dt - qm * ex.getD i 0 * dt ^ 2 / 2
        y := p .y + p .vy * dt - qm * ey.getD i 0 * dt ^ 2 / 2
        z := p .z + p .vz * dt
        vx := p .vx - qm * ex.getD i 0 * dt
        vy := p .vy - qm * ey.getD i 0 * dt
        vz := p .vz }) := by
  unfold dipoleStep
  rw [live_push]
  apply List.ext_getElem (by simp)
  intro i h1 h2
  simp only [List.getElem_mapIdx]
  congr 1
  have h : |(0 : ℝ)| < 1 / 10000 := by norm_num
  simp only [dipoleMove, Particle.phase, zero_mul, sincc, cosincc, cubsincc, if_pos h, Real.sin_zero, Real.cos_zero]
  ext <;> dsimp only <;> ring

/-- **C39**, speed: without electric field every step, of any length, conserves the speed. -/
theorem C39_speed (qm b dt : ℝ) (s : MPs ℝ) (ex ey : List ℝ) (hx : ∀ i < s.nmp, ex.getD i 0 = 0)
    (hy : ∀ i < s.nmp, ey.getD i 0 = 0) :
    (dipoleStep qm b dt s ex ey).live.map speedSq = s.live.map speedSq := by
  unfold dipoleStep
  rw [live_push]
  apply map_mapIdx_eq
  intro i hi
  have hi' : i < s.nmp := by simpa using hi
  rw [speedSq_move, hx i hi', hy i hi', speedSq_phase]
  simp only [dipoleMove, Phase.sq]
  have := Real.sin_sq_add_cos_sq (b * qm * dt)
  linear_combination ((Particle.phase s.live[i]).vx ^ 2 + (Particle.phase s.live[i]).vz ^ 2) * this

/-- **C39**, composition: a step of `dt₁` followed by a step of `dt₂` in the same fields is one step of
`dt₁ + dt₂`, when none of the three is in the small-argument branch. -/
theorem C39_composition (qm b dt₁ dt₂ : ℝ) (h1 : 1 / 10000 ≤ |b * qm * dt₁|) (h2 : 1 / 10000 ≤ |b * qm * dt₂|)
    (h3 : 1 / 10000 ≤ |b * qm * (dt₁ + dt₂)|) (s : MPs ℝ) (ex ey : List ℝ) :
    (dipoleStep qm b dt₂ (dipoleStep qm b dt₁ s ex ey) ex ey).live
      = (dipoleStep qm b (dt₁ + dt₂) s ex ey).live := by
  unfold dipoleStep
  rw [live_push, live_push, live_push]
  have hx : b * qm ≠ 0 := by
    intro h0; rw [h0, zero_mul, abs_zero] at h1; norm_num at h1
  apply List.ext_getElem (by simp)
  intro i hh1 hh2
  simp only [List.getElem_mapIdx]
  have hm : ∀ (p : Particle ℝ) (q r : Phase ℝ), Particle.move (Particle.move p q) r = Particle.move p r := by
    intro p q r; funext f; cases f <;> rfl
  rw [hm]
  congr 1
  have hph : ∀ (p : Particle ℝ) (q : Phase ℝ), Particle.phase (Particle.move p q) = q := by
    intro p q; rfl
  rw [hph, dipoleMove_flow _ _ _ _ _ h1, dipoleMove_flow _ _ _ _ _ h2, dipoleMove_flow _ _ _ _ _ h3]
  generalize Particle.phase _ = p
  have hs := Real.sin_sq_add_cos_sq (b * qm * dt₁)
  generalize hom : b * qm = om at hx hs ⊢
  simp only [dipoleFlow, mul_add, Real.sin_add, Real.cos_add]
  ext <;> dsimp only <;> field_simp <;> ring

/-- the hypotheses hold for the constants of an LHC dipole (ω ≈ 1.5e12 rad/s, Dt = 25 ps) -/
example : 1 / 10000 ≤ |(8.33 : ℝ) * 1.76e11 * 25e-12| := by norm_num [abs_of_pos]

/-- **C60.** Above the zero-field threshold one step of the generalised strong-field tracker puts every
macroparticle where any solution of the equation of motion of an electron in the electric field of the
particle and the magnetic field evaluated at its position is at time `Dt`; the same holds in the field-free
branch where the magnetic field vanishes. -/
theorem C60_exact (src : BSrc ℝ) (b0x b0y qm thr dt : ℝ) (hq : qm ≠ 0) (hthr : 0 < thr) (s : MPs ℝ)
    (ex ey : List ℝ) (T : ℕ → ℝ → Phase ℝ) (bx bY : ℕ → ℝ)
    (hb : ∀ i, ∀ (hi : i < s.live.length),
      bx i = (src.getB ⟨b0x, b0y, 0⟩ (s.live[i] .x) (s.live[i] .y)).x ∧
      bY i = (src.getB ⟨b0x, b0y, 0⟩ (s.live[i] .x) (s.live[i] .y)).y)
    (hT : ∀ i < s.nmp, LorentzMotion (-qm) ⟨ex.getD i 0, ey.getD i 0, 0⟩ ⟨bx i, bY i, 0⟩ (T i))
    (h0 : ∀ i, ∀ (hi : i < s.live.length), T i 0 = Particle.phase s.live[i])
    (hB : ∀ i < s.nmp, thr ≤ Real.sqrt (bx i * bx i + bY i * bY i) ∨ (bx i = 0 ∧ bY i = 0)) :
    (strongStep src b0x b0y qm thr dt s ex ey).live
      = s.live.mapIdx (fun i p => Particle.move p (T i dt)) := by
  unfold strongStep
  rw [live_push]
  apply List.ext_getElem (by simp)
  intro i h1 h2
  have hi : i < s.live.length := by simpa using h1
  have hi' : i < s.nmp := by simpa using hi
  simp only [List.getElem_mapIdx]
  congr 1
  obtain ⟨e1, e2⟩ := hb i hi
  have e1' : (src.getB ⟨b0x, b0y, 0⟩ (Particle.phase s.live[i]).x (Particle.phase s.live[i]).y).x = bx i := e1.symm
  have e2' : (src.getB ⟨b0x, b0y, 0⟩ (Particle.phase s.live[i]).x (Particle.phase s.live[i]).y).y = bY i := e2.symm
  rw [e1', e2']
  rcases hB i hi' with hbig | ⟨z1, z2⟩
  · rw [strongMove_flow _ _ _ _ _ _ _ (not_lt.mpr hbig)]
    have hpos : 0 < Real.sqrt (bx i * bx i + bY i * bY i) := lt_of_lt_of_le hthr hbig
    have hsq := Real.mul_self_sqrt (x := bx i * bx i + bY i * bY i)
      (by nlinarith [mul_self_nonneg (bx i), mul_self_nonneg (bY i)])
    exact ((hT i hi').unique (strongFlow_motion qm _ _ rfl _ _ _ hq hpos.ne' hsq)
      (by rw [h0 i hi, strongFlow_zero]) dt).symm
  · have hz : Real.sqrt (bx i * bx i + bY i * bY i) < thr := by rw [z1, z2]; simpa using hthr
    have hm : strongMove qm thr dt ⟨ex.getD i 0, ey.getD i 0, 0⟩ (bx i) (bY i) (Particle.phase s.live[i])
        = (fun t : ℝ => { (Particle.phase s.live[i]) with
            x := (Particle.phase s.live[i]).x + (Particle.phase s.live[i]).vx * t - 1 / 2 * qm * ex.getD i 0 * t * t
            y := (Particle.phase s.live[i]).y + (Particle.phase s.live[i]).vy * t - 1 / 2 * qm * ey.getD i 0 * t * t
            z := (Particle.phase s.live[i]).z + (Particle.phase s.live[i]).vz * t
            vx := (Particle.phase s.live[i]).vx - qm * ex.getD i 0 * t
            vy := (Particle.phase s.live[i]).vy - qm * ey.getD i 0 * t : Phase ℝ }) dt := by
      unfold strongMove
      simp only [if_pos hz]
    rw [hm]
    refine ((hT i hi').unique (U := fun t : ℝ => { (Particle.phase s.live[i]) with
            x := (Particle.phase s.live[i]).x + (Particle.phase s.live[i]).vx * t - 1 / 2 * qm * ex.getD i 0 * t * t
            y := (Particle.phase s.live[i]).y + (Particle.phase s.live[i]).vy * t - 1 / 2 * qm * ey.getD i 0 * t * t
            z := (Particle.phase s.live[i]).z + (Particle.phase s.live[i]).vz * t
            vx := (Particle.phase s.live[i]).vx - qm * ex.getD i 0 * t
            vy := (Particle.phase s.live[i]).vy - qm * ey.getD i 0 * t : Phase ℝ }) ?_ ?_ dt).symm
    · rw [z1, z2]
      generalize Particle.phase s.live[i] = p
      refine ⟨fun t => ?_, fun t => ?_, fun t => ?_, fun t => ?_, fun t => ?_, fun t => ?_⟩ <;> dsimp only
      · exact hasDerivAt_of_comb p.x p.vx (-(1 / 2 * qm * ex.getD i 0)) 0 0 0 (fun t => by ring) (by ring)
      · exact hasDerivAt_of_comb p.y p.vy (-(1 / 2 * qm * ey.getD i 0)) 0 0 0 (fun t => by ring) (by ring)
      · exact hasDerivAt_of_comb p.z p.vz 0 0 0 0 (fun t => by ring) (by ring)
      · exact hasDerivAt_of_comb p.vx (-(qm * ex.getD i 0)) 0 0 0 0 (fun t => by ring) (by ring)
      · exact hasDerivAt_of_comb p.vy (-(qm * ey.getD i 0)) 0 0 0 0 (fun t => by ring) (by ring)
      · exact hasDerivAt_of_comb p.vz 0 0 0 0 0 (fun t => by ring) (by ring)
    · rw [h0 i hi]
      ext <;> simp

/-- such solutions exist: the motion of every particle of a cloud in a uniform field above threshold -/
example (qm : ℝ) (hq : qm ≠ 0) (s : MPs ℝ) (ex ey : List ℝ) : ∃ T : ℕ → ℝ → Phase ℝ,
    (∀ i < s.nmp, LorentzMotion (-qm) ⟨ex.getD i 0, ey.getD i 0, 0⟩ ⟨3, 4, 0⟩ (T i)) ∧
    ∀ i, ∀ (hi : i < s.live.length), T i 0 = Particle.phase s.live[i] :=
  ⟨fun i => strongFlow qm 5 ⟨ex.getD i 0, ey.getD i 0, 0⟩ 3 4 (s.live.getD i (fun _ => 0)).phase,
    fun i _ => strongFlow_motion qm 5 _ rfl _ _ _ hq (by norm_num) (by norm_num),
    fun i hi => by dsimp only; rw [strongFlow_zero, List.getD_eq_getElem _ _ hi]⟩

/-! ## Choice of the tracker -/

/-- **C62.** An accepted cloud gets the tracker that was asked for; the two strong-field trackers, which
use the electron charge and mass, are accepted only for clouds within one per mille of the electron charge
and mass; electromagnetic tracking is accepted only with the multipole tracker; the Boris tracker takes
the number of sub-steps of its cloud. -/
theorem C62_tracker_choice_partial {K : Type} [Field K] [LinearOrder K] (qe me : K) (c : TrackCfg K)
    (t : Tracker K) (h : initTracker qe me c = .ok t) :
    (c.em = true → c.method = "BorisMultipole") ∧
    (match t with
      | .boris b0 n => c.method = "Boris" ∧ n = c.cloudNSub ∧
          b0 = ⟨c.b0x.getD 0, c.b0y.getD 0, c.b0z.getD 0⟩
      | .dipole b => c.method = "StrongBdip" ∧ (c.b ≠ -1 → b = c.b) ∧ (c.b = -1 → b = c.bRing) ∧
          |c.cloudCharge - (-qe)| / |qe| < 1 / 1000 ∧ |c.cloudMass - me| / me < 1 / 1000
      | .strong bx bY => c.method = "StrongBgen" ∧ bx = c.b0x ∧ bY = c.b0y ∧
          |c.cloudCharge - (-qe)| / |qe| < 1 / 1000 ∧ |c.cloudMass - me| / me < 1 / 1000
      | .multipole _ => c.method = "BorisMultipole") := by
  unfold initTracker at h
  by_cases m1 : c.method = "Boris"
  · rw [if_pos m1] at h
    by_cases hem : c.em = true
    · rw [if_pos hem] at h; cases h
    · rw [if_neg hem] at h
      injection h with h; subst h
      exact ⟨fun h => absurd h hem, m1, rfl, rfl⟩
  rw [if_neg m1] at h
  by_cases m2 : c.method = "StrongBdip"
  · rw [if_pos m2] at h
    by_cases hem : c.em = true
    · rw [if_pos hem] at h; cases h
    · rw [if_neg hem] at h
      split at h
      · cases h
      · next hel =>
        injection h with h; subst h
        rw [not_not] at hel
        exact ⟨fun h => absurd h hem, m2, fun hb => by rw [if_neg hb], fun hb => by rw [if_pos hb], hel⟩
  rw [if_neg m2] at h
  by_cases m3 : c.method = "StrongBgen"
  · rw [if_pos m3] at h
    by_cases hem : c.em = true
    · rw [if_pos hem] at h; cases h
    · rw [if_neg hem] at h
      split at h
      · cases h
      · next hel =>
        injection h with h; subst h
        rw [not_not] at hel
        exact ⟨fun h => absurd h hem, m3, rfl, rfl, hel⟩
  rw [if_neg m3] at h
  by_cases m4 : c.method = "BorisMultipole"
  · rw [if_pos m4] at h
    injection h with h; subst h
    exact ⟨fun _ => m4, m4⟩
  · rw [if_neg m4] at h; cases h

/-- an electron cloud and an ion cloud -/
def exElectron (method : String) : TrackCfg ℚ :=
  { method := method, em := false, b0x := none, b0y := some 2, b0z := none, b := -1, bRing := 8, nSub := 1,
    cloudCharge := -1, cloudMass := 1, cloudNSub := 4 }

example : ∃ t, initTracker 1 1 (exElectron "StrongBdip") = .ok t ∧
    initTracker 1 1 { exElectron "StrongBdip" with cloudCharge := 1, cloudMass := 2000 } = .error .valueError :=
  ⟨.dipole 8, by decide +kernel, by decide +kernel⟩

/-- **C62 does not hold for the multipole tracker's sub-steps**: a cloud whose own input asks for four
sub-steps gets the number of the main configuration. -/
theorem C62_substeps_violated :
    ∃ n, initTracker 1 1 (exElectron "BorisMultipole") = .ok (.multipole n) ∧
      n ≠ (exElectron "BorisMultipole").cloudNSub :=
  ⟨1, by decide +kernel, by decide⟩

end PyECLOUD
