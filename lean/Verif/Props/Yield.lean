import Verif.Model.Yield
import Verif.Props.Emission
import Mathlib.Analysis.Convex.SpecificFunctions.Basic
import Mathlib.Analysis.SpecialFunctions.Trigonometric.Basic
import Mathlib.MeasureTheory.Integral.IntervalIntegral.Basic

/-!
# Properties of the secondary yields (C23, C26-C29)
-/

set_option linter.unusedSectionVars false

namespace PyECLOUD

open Real

/-- the parameters for which the yield is meant to be used -/
structure YieldPar.Valid (p : YieldPar) : Prop where
  s : 1 < p.s
  r0 : 0 ≤ p.r0
  e0 : 0 < p.e0
  eMax : 0 < p.eMax
  delMax : 0 < p.delMax

/-! ## C23 -/

/-- the shape function `s x / (s - 1 + x^s)` lies between 0 and 1 -/
theorem shape_le_one (s x : ℝ) (hs : 1 < s) (hx : 0 ≤ x) :
    0 < s - 1 + x ^ s ∧ 0 ≤ (s * x) / (s - 1 + x ^ s) ∧ (s * x) / (s - 1 + x ^ s) ≤ 1 := by
  have hp : 0 ≤ x ^ s := rpow_nonneg hx s
  have h0 : 0 < s - 1 + x ^ s := by linarith
  refine ⟨h0, div_nonneg (mul_nonneg (by linarith) hx) h0.le, ?_⟩
  rw [div_le_one h0]
  have := one_add_mul_self_le_rpow_one_add (by linarith : -1 ≤ x - 1) hs.le
  have e : 1 + (x - 1) = x := by ring
  rw [e] at this
  nlinarith

theorem shift_pos (p : YieldPar) (hp : p.Valid) (cth : ℝ) (hc : cth ≤ 1) :
    0 < (if p.shift then p.eMax * (1 + 0.7 * (1 - cth)) else p.eMax) := by
  have := hp.eMax
  split
  · apply mul_pos this; nlinarith
  · exact this

theorem yieldTrue_bounds (p : YieldPar) (hp : p.Valid) (e cth : ℝ) (he : 0 ≤ e) (hc : cth ≤ 1) :
    0 ≤ yieldTrue p e cth ∧ yieldTrue p e cth ≤ (if p.scale then p.delMax * exp (0.5 * (1 - cth)) else p.delMax) := by
  have hem := shift_pos p hp cth hc
  have hx : 0 ≤ e / (if p.shift then p.eMax * (1 + 0.7 * (1 - cth)) else p.eMax) := div_nonneg he hem.le
  obtain ⟨h0, h1, h2⟩ := shape_le_one p.s _ hp.s hx
  have hd : 0 < (if p.scale then p.delMax * exp (0.5 * (1 - cth)) else p.delMax) := by
    have := hp.delMax
    split
    · positivity
    · exact this
  unfold yieldTrue
  dsimp only
  rw [mul_div_assoc]
  exact ⟨mul_nonneg hd.le h1, mul_le_of_le_one_right hd.le h2⟩

theorem yieldRefl_bounds (p : YieldPar) (hp : p.Valid) (e : ℝ) (he : 0 ≤ e) :
    0 ≤ yieldRefl p e ∧ yieldRefl p e ≤ p.r0 := by
  have h1 := sqrt_nonneg e
  have h2 : 0 < √(e + p.e0) := sqrt_pos.2 (by have := hp.e0; linarith)
  unfold yieldRefl
  refine ⟨mul_nonneg hp.r0 (sq_nonneg _), mul_le_of_le_one_right hp.r0 ?_⟩
  rw [sq_le_one_iff_abs_le_one, abs_div, abs_of_pos (by linarith : 0 < √e + √(e + p.e0)), div_le_one (by linarith), abs_le]
  constructor <;> linarith

theorem maskedFrac_bounds (refl t : ℝ) (hr : 0 ≤ refl) (ht : 0 ≤ t) :
    0 ≤ maskedFrac refl (t + refl) ∧ maskedFrac refl (t + refl) ≤ 1 := by
  unfold maskedFrac
  split
  · next h => exact ⟨div_nonneg hr h.le, by rw [div_le_one h]; linarith⟩
  · simp

/-- C23: the total yield is non-negative, the reflected fraction is in [0,1] and is the reflected part of the
yield, for every energy and every angle. -/
theorem C23_yield_fraction (p : YieldPar) (hp : p.Valid) (e cth : ℝ) (he : 0 ≤ e) (hc : cth ≤ 1) :
    0 ≤ (yieldECLOUD p e cth).1 ∧ 0 ≤ (yieldECLOUD p e cth).2 ∧ (yieldECLOUD p e cth).2 ≤ 1 ∧
    (yieldECLOUD p e cth).2 * (yieldECLOUD p e cth).1 = yieldRefl p e ∧
    (1 - (yieldECLOUD p e cth).2) * (yieldECLOUD p e cth).1 = yieldTrue p e cth := by
  obtain ⟨ht, -⟩ := yieldTrue_bounds p hp e cth he hc
  obtain ⟨hr, -⟩ := yieldRefl_bounds p hp e he
  have hb := maskedFrac_bounds _ _ hr ht
  have hm : (yieldECLOUD p e cth).2 * (yieldECLOUD p e cth).1 = yieldRefl p e := by
    unfold yieldECLOUD maskedFrac
    dsimp only
    split
    · next h => field_simp
    · next h =>
      have : yieldTrue p e cth + yieldRefl p e = 0 := le_antisymm (not_lt.1 h) (by linarith)
      have : yieldRefl p e = 0 := by linarith
      simp [this]
  refine ⟨add_nonneg ht hr, hb.1, hb.2, hm, ?_⟩
  rw [sub_mul, hm, one_mul]
  simp [yieldECLOUD]

/-- C23: the true-secondary yield at normal incidence never exceeds `del_max` and equals it at `Emax`; at any
other angle it is bounded by the scaled maximum, reached at the shifted energy; the reflected yield is at most
`R0`, reached at zero energy. -/
theorem C23_maximum (p : YieldPar) (hp : p.Valid) :
    (∀ e, 0 ≤ e → yieldTrue p e 1 ≤ p.delMax) ∧
    yieldTrue p p.eMax 1 = p.delMax ∧
    (∀ e cth, 0 ≤ e → cth ≤ 1 → yieldTrue p e cth ≤ (if p.scale then p.delMax * exp (0.5 * (1 - cth)) else p.delMax)) ∧
    (∀ cth, cth ≤ 1 → yieldTrue p (if p.shift then p.eMax * (1 + 0.7 * (1 - cth)) else p.eMax) cth =
      (if p.scale then p.delMax * exp (0.5 * (1 - cth)) else p.delMax)) ∧
    (∀ e, 0 ≤ e → yieldRefl p e ≤ p.r0) ∧ yieldRefl p 0 = p.r0 := by
  have hpeak : ∀ cth, cth ≤ 1 → yieldTrue p (if p.shift then p.eMax * (1 + 0.7 * (1 - cth)) else p.eMax) cth =
      (if p.scale then p.delMax * exp (0.5 * (1 - cth)) else p.delMax) := by
    intro cth hc
    have hem := shift_pos p hp cth hc
    have hs := hp.s
    unfold yieldTrue
    dsimp only
    rw [div_self hem.ne', one_rpow, mul_one, mul_div_assoc]
    have : p.s - 1 + 1 = p.s := by ring
    rw [this, div_self (by linarith), mul_one]
  refine ⟨?_, ?_, fun e cth he hc => (yieldTrue_bounds p hp e cth he hc).2, hpeak,
    fun e he => (yieldRefl_bounds p hp e he).2, ?_⟩
  · intro e he
    have := (yieldTrue_bounds p hp e 1 he le_rfl).2
    simpa using this
  · have := hpeak 1 le_rfl
    simpa using this
  · have h2 : 0 < √p.e0 := sqrt_pos.2 hp.e0
    unfold yieldRefl
    simp [h2.ne', neg_div, div_self]

/-- LHC-like parameters satisfy the assumptions -/
noncomputable def lhcPar : YieldPar := ⟨332, 1.7, 0.7, 150, 1.35, true, true⟩

theorem lhcPar_valid : lhcPar.Valid := by
  constructor <;> norm_num [lhcPar]

example : lhcPar.Valid ∧ yieldTrue lhcPar 332 1 = 1.7 ∧ yieldRefl lhcPar 0 = 0.7 := by
  have := C23_maximum lhcPar lhcPar_valid
  exact ⟨lhcPar_valid, this.2.1, this.2.2.2.2.2⟩

/-- C23 for the cosine low-energy model (its `ref_frac` is an unguarded quotient: the yield is positive for
positive energies). -/
theorem C23_cosine_model (p : YieldPar) (hp : p.Valid) (e cth : ℝ) (he : 0 < e) (hc : cth ≤ 1) :
    0 < (yieldCos p e cth).1 ∧ 0 ≤ (yieldCos p e cth).2 ∧ (yieldCos p e cth).2 ≤ 1 ∧
    (p.e0 ≤ e → (yieldCos p e cth).2 = 0) ∧
    (yieldCos p e cth).2 * (yieldCos p e cth).1 ≤ p.r0 := by
  have hem := shift_pos p hp cth hc
  have hx : 0 < e / (if p.shift then p.eMax * (1 + 0.7 * (1 - cth)) else p.eMax) := div_pos he hem
  obtain ⟨h0, -, -⟩ := shape_le_one p.s _ hp.s hx.le
  have hs := hp.s
  have hd : 0 < (if p.scale then p.delMax * exp (0.5 * (1 - cth)) else p.delMax) := by
    have := hp.delMax
    split
    · positivity
    · exact this
  have ht : 0 < yieldTrue p e cth := by
    unfold yieldTrue
    dsimp only
    exact div_pos (mul_pos hd (mul_pos (by linarith) hx)) h0
  have hr : 0 ≤ cosRefl p e ∧ cosRefl p e ≤ p.r0 := by
    unfold cosRefl
    split
    · exact ⟨mul_nonneg hp.r0 (sq_nonneg _), mul_le_of_le_one_right hp.r0 (cos_sq_le_one _)⟩
    · exact ⟨le_rfl, hp.r0⟩
  have hpos : 0 < yieldTrue p e cth + cosRefl p e := by linarith [hr.1]
  refine ⟨hpos, div_nonneg hr.1 hpos.le, by
    show cosRefl p e / _ ≤ 1
    rw [div_le_one hpos]; linarith, ?_, ?_⟩
  · intro h
    show cosRefl p e / _ = 0
    unfold cosRefl
    rw [if_neg (not_lt.2 h), zero_div]
  · show cosRefl p e / _ * (yieldTrue p e cth + cosRefl p e) ≤ p.r0
    rw [div_mul_cancel₀ _ hpos.ne']
    exact hr.2

/-- average of a two-valued outcome over a uniform draw -/
theorem average_two (r a b : ℝ) (h0 : 0 ≤ r) (h1 : r ≤ 1) :
    ∫ u in (0 : ℝ)..1, (if u < r then a else b) = r * a + (1 - r) * b := by
  have hI : ∀ x y : ℝ, ∀ f : ℝ → ℝ, ∀ c, x ≤ y → (∀ u ∈ Set.Ioo x y, f u = c) →
      IntervalIntegrable f MeasureTheory.volume x y ∧ ∫ u in x..y, f u = (y - x) * c := by
    intro x y f c hxy hf
    have hae : ∀ᵐ u ∂MeasureTheory.volume, u ∈ Set.uIoc x y → c = f u := by
      have : ∀ᵐ u ∂(MeasureTheory.volume : MeasureTheory.Measure ℝ), u ≠ y := by
        simp [MeasureTheory.ae_iff, MeasureTheory.measure_singleton]
      filter_upwards [this] with u hu hm
      rw [Set.uIoc_of_le hxy] at hm
      exact (hf u ⟨hm.1, lt_of_le_of_ne hm.2 hu⟩).symm
    constructor
    · exact (intervalIntegrable_const (c := c)).congr_ae (by
        rw [Filter.EventuallyEq, MeasureTheory.ae_restrict_iff' measurableSet_uIoc]
        exact hae)
    · rw [← intervalIntegral.integral_congr_ae hae]
      simp
  obtain ⟨i1, e1⟩ := hI 0 r (fun u => if u < r then a else b) a h0 (fun u hu => if_pos hu.2)
  obtain ⟨i2, e2⟩ := hI r 1 (fun u => if u < r then a else b) b h1 (fun u hu => if_neg (not_lt.2 hu.1.le))
  rw [← intervalIntegral.integral_add_adjacent_intervals i1 i2, e1, e2]
  ring

/-- C59: in the accurate low-energy model (macroparticles are reflected whole or emit true secondaries) the
emitted charge averaged over the draw is the impacting charge times the total yield, for every energy and
angle with a reflected yield below one. -/
theorem C59_average_yield (p : YieldPar) (hp : p.Valid) (e cth nel : ℝ) (he : 0 ≤ e) (hr : yieldRefl p e < 1) :
    ∫ u in (0 : ℝ)..1, (accProcess p e cth nel u).1 = nel * (yieldTrue p e cth + yieldRefl p e) := by
  have h := average_two (yieldRefl p e) nel (nel * (yieldTrue p e cth / (1 - yieldRefl p e)))
    (yieldRefl_bounds p hp e he).1 hr.le
  have e1 : (fun u => (accProcess p e cth nel u).1) =
      fun u => if u < yieldRefl p e then nel else nel * (yieldTrue p e cth / (1 - yieldRefl p e)) := by
    funext u
    unfold accProcess
    dsimp only
    split <;> rfl
  rw [e1, h]
  have : 1 - yieldRefl p e ≠ 0 := by linarith
  field_simp
  ring

/-- C59 for the other models: the elastically reflected charge averaged over the draw is the reflected yield. -/
theorem C59_average_reflected (p : YieldPar) (hp : p.Valid) (e cth nel : ℝ) (he : 0 ≤ e) (hc : cth ≤ 1) :
    ∫ u in (0 : ℝ)..1, (if (seyProcess (yieldECLOUD p e cth) nel u).2 then (seyProcess (yieldECLOUD p e cth) nel u).1 else 0)
      = nel * yieldRefl p e := by
  obtain ⟨-, h0, h1, h2, -⟩ := C23_yield_fraction p hp e cth he hc
  have h := average_two (yieldECLOUD p e cth).2 (nel * (yieldECLOUD p e cth).1) 0 h0 h1
  have e1 : (fun u => if (seyProcess (yieldECLOUD p e cth) nel u).2 = true then (seyProcess (yieldECLOUD p e cth) nel u).1 else 0) =
      fun u => if u < (yieldECLOUD p e cth).2 then nel * (yieldECLOUD p e cth).1 else 0 := by
    funext u
    simp [seyProcess]
  rw [e1, h]
  linear_combination nel * h2

example : yieldRefl lhcPar 10 < 1 :=
  lt_of_le_of_lt (yieldRefl_bounds lhcPar lhcPar_valid 10 (by norm_num)).2 (by norm_num [lhcPar])

/-! ## C26 -/

/-- C26 fails: the flat low-energy model never reflects, because the array holding the true-secondary yield is
overwritten together with the total yield. Below `Emax` where the true yield is smaller than `R0` the reflected
fraction should be `(R0 - true)/R0 > 0`, the code returns 0. -/
theorem C26_violated :
    (∀ p e cth, (yieldFlat p e cth).2 = 0) ∧
    (∃ p : YieldPar, p.Valid ∧ ∃ e cth, 0 ≤ e ∧ cth = 1 ∧ (yieldFlat p e cth).1 = p.r0 ∧ 0 < p.r0 ∧
      yieldTrue p e cth < p.r0 ∧ (yieldFlat p e cth).2 ≠ (p.r0 - yieldTrue p e cth) / p.r0) := by
  refine ⟨fun p e cth => by simp [yieldFlat], lhcPar, lhcPar_valid, 0, 1, le_rfl, rfl, ?_⟩
  have h0 : yieldTrue lhcPar 0 1 = 0 := by simp [yieldTrue, lhcPar]
  have h1 : lhcPar.r0 = 0.7 := rfl
  have h2 : lhcPar.eMax = 332 := rfl
  refine ⟨?_, by rw [h1]; norm_num, by rw [h0, h1]; norm_num, ?_⟩
  · unfold yieldFlat
    dsimp only
    rw [h0, if_pos]
    rw [h1, h2]; norm_num
  · have : (yieldFlat lhcPar 0 1).2 = 0 := by simp [yieldFlat]
    rw [this, h0, h1]; norm_num

/-- C26, what holds: the total yield is `R0` where the true yield is below `R0` and the energy below `Emax`, the
true yield elsewhere. Missing: the reflected fraction (see `C26_violated`). -/
theorem C26_total_yield_partial (p : YieldPar) (e cth : ℝ) :
    (e < p.eMax → (yieldFlat p e cth).1 = max p.r0 (yieldTrue p e cth)) ∧
    (p.eMax ≤ e → (yieldFlat p e cth).1 = yieldTrue p e cth) := by
  unfold yieldFlat
  dsimp only
  constructor
  · intro he
    by_cases h : yieldTrue p e cth < p.r0
    · rw [if_pos ⟨h, he⟩, max_eq_left h.le]
    · rw [if_neg (fun hh => h hh.1), max_eq_right (not_lt.1 h)]
  · intro he
    rw [if_neg (fun hh => absurd hh.2 (not_lt.2 he))]

/-! ## C28 -/

theorem pyGet_nat {α : Type} (l : List α) (k : ℕ) (a : α) (h : l[k]? = some a) : pyGet l (k : ℤ) = .ok a := by
  unfold pyGet
  have h0 : ¬ ((k : ℤ) < 0) := by omega
  simp only [h0, if_false, Int.toNat_natCast, h]

theorem mapM_getElem? {α β : Type} (f : α → Except PyErr β) (l : List α) (r : List β) (h : l.mapM f = .ok r) :
    r.length = l.length ∧ ∀ (k : ℕ) (a : α) (b : β), l[k]? = some a → r[k]? = some b → f a = .ok b := by
  have h := mapM_ok f l r h
  refine ⟨h.length_eq.symm, ?_⟩
  intro k a b ha hb
  obtain ⟨h1, rfl⟩ := List.getElem?_eq_some_iff.1 ha
  obtain ⟨h2, rfl⟩ := List.getElem?_eq_some_iff.1 hb
  exact (List.forall₂_iff_get.1 h).2 k h1 h2

/-- C28: the emitted charge and the elastic decision of each impact are those of the ECLOUD yield with the
parameters stored for the segment that was hit (the global ones where the segment has a negative value). -/
theorem C28_segment_parameters (e0 delMax r0 eMax : ℝ) (raw : List Segment) (u : ℕ → ℝ) (imps : List (Impact ℝ))
    (r : List (ℝ × Bool))
    (h : nunifProcess e0 (raw.map (Segment.fill delMax r0 eMax)) u imps = .ok r) :
    r.length = imps.length ∧
    ∀ (k j : ℕ) (i : Impact ℝ) (g : Segment) (q : ℝ × Bool), imps[k]? = some i → i.seg = (j : ℤ) → raw[j]? = some g →
      r[k]? = some q →
      let p : YieldPar := ⟨if g.eMax < 0 then eMax else g.eMax, if g.delMax < 0 then delMax else g.delMax,
        if g.r0 < 0 then r0 else g.r0, e0, 1.35, true, true⟩
      q.1 = i.nel * (yieldECLOUD p i.en i.cth).1 ∧ q.2 = decide (u k < (yieldECLOUD p i.en i.cth).2) := by
  unfold nunifProcess at h
  split at h
  · cases h
  next ys hys =>
  cases h
  obtain ⟨hl, hy⟩ := mapM_getElem? _ _ _ hys
  refine ⟨by simp [hl], ?_⟩
  intro k j i g q hi hj hg hq
  have hk : k < ys.length := by rw [hl]; exact (List.getElem?_eq_some_iff.1 hi).1
  have hyk : ys[k]? = some ys[k] := List.getElem?_eq_getElem hk
  have hz : (imps.zip ys)[k]? = some (i, ys[k]) := by
    rw [List.getElem?_zip_eq_some]; exact ⟨hi, hyk⟩
  have h1 := hy k i ys[k] hi hyk
  unfold yieldNunif at h1
  rw [hj, pyGet_nat _ j (g.fill delMax r0 eMax) (by rw [List.getElem?_map, hg]; rfl)] at h1
  simp only [Except.ok.injEq] at h1
  rw [List.getElem?_mapIdx, hz] at hq
  simp only [Option.map_some, Option.some.injEq] at hq
  rw [← hq]
  simp only [seyProcess, ← h1]
  exact ⟨rfl, rfl⟩

/-- C28: the yield of an impact does not depend on the parameters of the other segments. -/
theorem C28_local (e0 : ℝ) (segs segs' : List Segment) (i : Impact ℝ) (j : ℕ) (hj : i.seg = (j : ℤ))
    (hlt : j < segs.length) (h : segs[j]? = segs'[j]?) : yieldNunif e0 segs i = yieldNunif e0 segs' i := by
  have h1 : segs[j]? = some segs[j] := List.getElem?_eq_getElem hlt
  unfold yieldNunif
  rw [hj, pyGet_nat _ j _ h1, pyGet_nat _ j _ (h ▸ h1)]

/-- two segments: the first inherits `del_max`, both are in range -/
noncomputable def exSegs : List Segment := [⟨-1, 0.5, 200, true, 2, 30, 1, 2⟩, ⟨1.2, 0.7, 250, false, 1, 1, 0, 3⟩]

noncomputable def exImps : List (Impact ℝ) :=
  [⟨4, 0, 0, 0, 0, 0, 0, 1, 0, 0, 0, 0, 1⟩, ⟨6, 0, 0, 0, 0, 0, 0, 1, 0, 1, 0, 250, 1⟩]

theorem exSegs_run (u : ℕ → ℝ) (f : Segment → Segment) (e0 : ℝ) :
    ∃ r, nunifProcess e0 (exSegs.map f) u exImps = .ok r := by
  simp [nunifProcess, exSegs, exImps, yieldNunif, pyGet]
  exact ⟨_, rfl⟩

example : ∃ r, nunifProcess 150 (exSegs.map (Segment.fill 1.7 0.7 332)) (fun _ => 0.5) exImps = .ok r :=
  exSegs_run _ _ _

/-! ## C27 -/

/-- a clamped charge is between zero and the maximum -/
theorem clampQ_eq (q qMax : ℝ) (h : 0 ≤ qMax) : clampQ q qMax = max 0 (min q qMax) := by
  unfold clampQ
  dsimp only
  by_cases h1 : q < 0
  · rw [if_pos h1, if_neg (not_lt.2 h), min_eq_left (by linarith), max_eq_left h1.le]
  · have h1' := not_lt.1 h1
    rw [if_neg h1]
    by_cases h2 : qMax < q
    · rw [if_pos h2, min_eq_right h2.le, max_eq_right h]
    · rw [if_neg h2, min_eq_left (not_lt.1 h2), max_eq_right h1']

/-- C27: the effective yield of a charged segment interpolates between the bare yield and `1 - exp(-E/EQ)`, with
weight the charge clamped to `[0, Qmax]`; without charging it is the bare yield; the elastic fraction is unchanged. -/
theorem C27_effective_yield (e0 : ℝ) (g : Segment) (q e cth : ℝ) (hq : 0 < g.qMax) :
    (g.charging = false → yieldCharge e0 g q e cth = yieldECLOUD (g.par e0) e cth) ∧
    (yieldCharge e0 g q e cth).2 = (yieldECLOUD (g.par e0) e cth).2 ∧
    (g.charging = true → ∃ f, 0 ≤ f ∧ f ≤ 1 ∧ f * g.qMax = max 0 (min q g.qMax) ∧
      (yieldCharge e0 g q e cth).1 = (1 - f) * (yieldECLOUD (g.par e0) e cth).1 + f * (1 - exp (-e / g.eq))) ∧
    (q ≤ 0 → (yieldCharge e0 g q e cth).1 = (yieldECLOUD (g.par e0) e cth).1) ∧
    (g.charging = true → g.qMax ≤ q → (yieldCharge e0 g q e cth).1 = 1 - exp (-e / g.eq)) := by
  unfold yieldCharge
  refine ⟨fun h => by simp [h], by dsimp only; split <;> rfl, ?_, ?_, ?_⟩
  · intro h
    refine ⟨clampQ q g.qMax / g.qMax, ?_, ?_, ?_, ?_⟩
    · rw [clampQ_eq _ _ hq.le]; positivity
    · rw [clampQ_eq _ _ hq.le, div_le_one hq]
      exact max_le hq.le (min_le_right _ _)
    · rw [div_mul_cancel₀ _ hq.ne', clampQ_eq _ _ hq.le]
    · simp only [h, if_true]; ring
  · intro h
    dsimp only
    split
    · rw [clampQ_eq _ _ hq.le, min_eq_left (by linarith), max_eq_left h]; simp
    · rfl
  · intro h hq2
    rw [if_pos h, clampQ_eq _ _ hq.le, min_eq_right hq2, max_eq_right hq.le, div_self hq.ne']; simp

/-- C27: exact balance of one batch of impacts. Every charging segment gains the net charge left by the impacts
reported on it (per unit length), every other segment is unchanged; each impact emits its size times the
effective yield at the charge before the batch. -/
theorem C27_batch_balance (qe e0 : ℝ) (segs : List Segment) (qs : List ℝ) (hlen : qs.length = segs.length)
    (u : ℕ → ℝ) (imps : List (Impact ℝ)) (r : List (ℝ × Bool)) (qs' : List ℝ)
    (h : chargingProcess qe e0 segs qs u imps = .ok (r, qs')) :
    r.length = imps.length ∧ qs'.length = segs.length ∧
    (∀ (k j : ℕ) (i : Impact ℝ) (g : Segment) (q : ℝ) (ev : ℝ × Bool), imps[k]? = some i → i.seg = (j : ℤ) →
      segs[j]? = some g → qs[j]? = some q → r[k]? = some ev →
      ev.1 = i.nel * (yieldCharge e0 g q i.en i.cth).1 ∧ ev.2 = decide (u k < (yieldCharge e0 g q i.en i.cth).2)) ∧
    (∀ (j : ℕ) (g : Segment) (q q' : ℝ), segs[j]? = some g → qs[j]? = some q → qs'[j]? = some q' →
      q' = if g.charging then q - qe * (((imps.zip r).filter (fun t => decide (t.1.seg = (j : ℤ)))).map
        (fun t => t.1.nel - t.2.1)).sum / g.len else q) := by
  unfold chargingProcess at h
  split at h
  · cases h
  next ys hys =>
  dsimp only at h
  simp only [Except.ok.injEq, Prod.mk.injEq] at h
  obtain ⟨hl, hy⟩ := mapM_getElem? _ _ _ hys
  obtain ⟨hr, hq'⟩ := h
  refine ⟨by rw [← hr]; simp [hl], by rw [← hq']; simp [hlen], ?_, ?_⟩
  · intro k j i g q ev hi hj hg hq hev
    have hk : k < ys.length := by rw [hl]; exact (List.getElem?_eq_some_iff.1 hi).1
    have hyk : ys[k]? = some ys[k] := List.getElem?_eq_getElem hk
    have hz : (imps.zip ys)[k]? = some (i, ys[k]) := by
      rw [List.getElem?_zip_eq_some]; exact ⟨hi, hyk⟩
    have h1 := hy k i ys[k] hi hyk
    unfold chargeAt at h1
    rw [hj, pyGet_nat _ j (g, q) (by rw [List.getElem?_zip_eq_some]; exact ⟨hg, hq⟩)] at h1
    simp only [Except.ok.injEq] at h1
    rw [← hr, List.getElem?_mapIdx, hz] at hev
    simp only [Option.map_some, Option.some.injEq] at hev
    rw [← hev]
    simp only [seyProcess, ← h1, and_self]
  · intro j g q q' hg hq hqj
    have hz : (segs.zip qs)[j]? = some (g, q) := by
      rw [List.getElem?_zip_eq_some]; exact ⟨hg, hq⟩
    rw [← hq', List.getElem?_mapIdx, hz] at hqj
    simp only [Option.map_some, Option.some.injEq] at hqj
    rw [← hqj, hr]
    by_cases hc : g.charging = true
    · rw [if_pos hc, if_pos hc]
      generalize (imps.zip r).filter (fun t => decide (t.1.seg = (j : ℤ))) = l
      have : (l.map (fun t => t.1.nel - t.2.1)).sum = (l.map (fun q => q.1.nel)).sum - (l.map (fun q => q.2.1)).sum := by
        induction l with
        | nil => simp
        | cons a l ih => simp only [List.map_cons, List.sum_cons, ih]; ring
      rw [this]; ring
    · rw [if_neg hc, if_neg hc]

/-- C27: the decay at the end of a step. -/
theorem C27_decay (segs : List Segment) (dt : ℝ) (qs : List ℝ) (hlen : qs.length = segs.length) :
    (chargeEvol segs dt qs).length = segs.length ∧
    ∀ (j : ℕ) (g : Segment) (q : ℝ), segs[j]? = some g → qs[j]? = some q →
      (chargeEvol segs dt qs)[j]? = some (if g.charging = true ∧ 0 < g.tau then q * exp (-dt / g.tau) else q) := by
  refine ⟨by simp [chargeEvol, hlen], ?_⟩
  intro j g q hg hq
  have hz : (segs.zip qs)[j]? = some (g, q) := by
    rw [List.getElem?_zip_eq_some]; exact ⟨hg, hq⟩
  unfold chargeEvol
  rw [List.getElem?_map, hz]
  rfl

theorem chargeRun_length (qe e0 : ℝ) (segs : List Segment) (ops : List ChargeOp) (qs qs' : List ℝ)
    (hlen : qs.length = segs.length) (h : chargeRun qe e0 segs ops qs = .ok qs') : qs'.length = segs.length := by
  induction ops generalizing qs with
  | nil => cases h; exact hlen
  | cons op ops ih =>
    cases op with
    | impacts u imps =>
      unfold chargeRun at h
      split at h
      · cases h
      next r hr => exact ih _ (C27_batch_balance qe e0 segs qs hlen u imps r.1 r.2 hr).2.1 h
    | evol dt => exact ih _ (C27_decay segs dt qs hlen).1 h

/-- C27: a segment that is not a charging one never acquires charge, over any history of batches and steps. -/
theorem C27_other_segments_neutral (qe e0 : ℝ) (segs : List Segment) (ops : List ChargeOp) (qs' : List ℝ)
    (h : chargeRun qe e0 segs ops (segs.map (fun _ => 0)) = .ok qs') (j : ℕ) (g : Segment) (hg : segs[j]? = some g)
    (hc : g.charging = false) : qs'[j]? = some 0 := by
  have key : ∀ (ops : List ChargeOp) (qs : List ℝ), qs.length = segs.length → qs[j]? = some 0 →
      chargeRun qe e0 segs ops qs = .ok qs' → qs'[j]? = some 0 := by
    intro ops
    induction ops with
    | nil => intro qs _ h0 h; cases h; exact h0
    | cons op ops ih =>
      intro qs hl h0 h
      cases op with
      | impacts u imps =>
        unfold chargeRun at h
        split at h
        · cases h
        next r hr =>
          obtain ⟨-, h2, -, h4⟩ := C27_batch_balance qe e0 segs qs hl u imps r.1 r.2 hr
          refine ih _ h2 ?_ h
          have hlt : j < r.2.length := by rw [h2]; exact (List.getElem?_eq_some_iff.1 hg).1
          have := h4 j g 0 r.2[j] hg h0 (List.getElem?_eq_getElem hlt)
          rw [List.getElem?_eq_getElem hlt, this]
          simp [hc]
      | evol dt =>
        obtain ⟨h1, h2⟩ := C27_decay segs dt qs hl
        refine ih _ h1 ?_ h
        have := h2 j g 0 hg h0
        simpa [hc] using this
  exact key ops _ (by simp) (by rw [List.getElem?_map, hg]; rfl) h

theorem sum_by_seg (l : List (Impact ℝ × ℝ)) (n : ℕ) (h : ∀ t ∈ l, 0 ≤ t.1.seg ∧ t.1.seg < (n : ℤ)) :
    ((List.range n).map (fun (j : ℕ) => ((l.filter (fun t => decide (t.1.seg = (j : ℤ)))).map (fun t => t.2)).sum)).sum
      = (l.map (fun t => t.2)).sum := by
  induction l with
  | nil => simp
  | cons a l ih =>
    have ih' := ih (fun t ht => h t (by simp [ht]))
    obtain ⟨h0, h1⟩ := h a (by simp)
    obtain ⟨m, hm⟩ := Int.eq_ofNat_of_zero_le h0
    have hmn : m < n := by omega
    have e : ∀ j : ℕ, (((a :: l).filter (fun t => decide (t.1.seg = (j : ℤ)))).map (fun t => t.2)).sum
        = (if j = m then a.2 else 0) + ((l.filter (fun t => decide (t.1.seg = (j : ℤ)))).map (fun t => t.2)).sum := by
      intro j
      rw [List.filter_cons]
      by_cases hj : j = m
      · subst hj; simp [hm]
      · have : ¬ a.1.seg = (j : ℤ) := by rw [hm]; omega
        simp [this, hj]
    simp only [e, List.sum_map_add]
    rw [ih', List.map_cons, List.sum_cons]
    congr 1
    rw [List.sum_map_ite_eq]
    simp [List.count_eq_one_of_mem List.nodup_range (List.mem_range.2 hmn)]

/-- C27: wall and cloud together: if every segment is a charging one, the charge gained by the wall in a batch
(charge per area times length, summed over the segments) is `-qe` times the charge lost by the cloud. -/
theorem C27_wall_and_cloud (qe e0 : ℝ) (segs : List Segment) (qs : List ℝ) (hlen : qs.length = segs.length)
    (hall : ∀ g ∈ segs, g.charging = true ∧ g.len ≠ 0)
    (u : ℕ → ℝ) (imps : List (Impact ℝ)) (hseg : ∀ i ∈ imps, 0 ≤ i.seg ∧ i.seg < (segs.length : ℤ))
    (r : List (ℝ × Bool)) (qs' : List ℝ) (h : chargingProcess qe e0 segs qs u imps = .ok (r, qs')) :
    ((segs.zip qs').map (fun g => g.1.len * g.2)).sum = ((segs.zip qs).map (fun g => g.1.len * g.2)).sum
      - qe * ((imps.map (fun i => i.nel)).sum - (r.map (fun q => q.1)).sum) := by
  obtain ⟨h1, h2, -, h4⟩ := C27_batch_balance qe e0 segs qs hlen u imps r qs' h
  set net : ℕ → ℝ := fun j => (((imps.zip r).filter (fun t => decide (t.1.seg = (j : ℤ)))).map
        (fun t => t.1.nel - t.2.1)).sum with hnet
  have hsum : ((segs.zip qs').map (fun g => g.1.len * g.2)).sum = ((segs.zip qs).map (fun g => g.1.len * g.2)).sum
      - qe * ((List.range segs.length).map net).sum := by
    have e1 : (segs.zip qs').map (fun g => g.1.len * g.2) =
        (List.range segs.length).map (fun j => (segs.zip qs |>.map (fun g => g.1.len * g.2)).getD j 0 - qe * net j) := by
      apply List.ext_getElem
      · simp [h2]
      · intro j hj1 hj2
        have hj : j < segs.length := by simpa using hj2
        have h5 := h4 j segs[j] qs[j] qs'[j] (List.getElem?_eq_getElem hj) (List.getElem?_eq_getElem (by omega))
          (List.getElem?_eq_getElem (by omega))
        obtain ⟨hc, hL⟩ := hall segs[j] (List.getElem_mem hj)
        rw [if_pos hc] at h5
        simp only [List.getElem_map, List.getElem_zip, List.getElem_range]
        rw [List.getD_eq_getElem?_getD, List.getElem?_map, List.getElem?_eq_getElem (by simp; omega)]
        simp only [List.getElem_zip, Option.map_some, Option.getD_some]
        rw [h5]
        field_simp
        rfl
    rw [e1]
    have e2 : ∀ (l : List ℕ) (f g : ℕ → ℝ), (l.map (fun j => f j - qe * g j)).sum = (l.map f).sum - qe * (l.map g).sum := by
      intro l f g
      induction l with
      | nil => simp
      | cons a l ih => simp only [List.map_cons, List.sum_cons, ih]; ring
    rw [e2]
    congr 2
    apply List.ext_getElem
    · simp [hlen]
    · intro j hj1 hj2
      simp only [List.getElem_map, List.getElem_range]
      rw [List.getD_eq_getElem?_getD, List.getElem?_eq_getElem (by simpa using hj2)]
      simp
  rw [hsum]
  have e3 := sum_by_seg ((imps.zip r).map (fun t => (t.1, t.1.nel - t.2.1))) segs.length (by
    intro t ht
    obtain ⟨q, hq, rfl⟩ := List.mem_map.1 ht
    exact hseg q.1 (List.of_mem_zip hq).1)
  have e4 : ∀ j : ℕ, ((((imps.zip r).map (fun t => (t.1, t.1.nel - t.2.1))).filter (fun t => decide (t.1.seg = (j : ℤ)))).map
      (fun t => t.2)).sum = net j := by
    intro j
    rw [hnet, List.filter_map, List.map_map]
    rfl
  simp only [e4] at e3
  rw [e3, List.map_map]
  congr 2
  have e5 : ∀ (a : List (Impact ℝ)) (b : List (ℝ × Bool)), b.length = a.length →
      ((a.zip b).map ((fun t : Impact ℝ × ℝ => t.2) ∘ fun t : Impact ℝ × ℝ × Bool => (t.1, t.1.nel - t.2.1))).sum =
      (a.map (fun i => i.nel)).sum - (b.map (fun q => q.1)).sum := by
    intro a
    induction a with
    | nil => intro b hb; cases b with
      | nil => simp
      | cons _ _ => simp at hb
    | cons x a ih => intro b hb; cases b with
      | nil => simp at hb
      | cons y b =>
        have := ih b (by simpa using hb)
        simp only [List.zip_cons_cons, List.map_cons, List.sum_cons, this, Function.comp_apply]
        ring
  exact e5 imps r h1

theorem exCharge_run (qs : List ℝ) (hl : qs.length = 2) (u : ℕ → ℝ) (qe e0 : ℝ) :
    ∃ r, chargingProcess qe e0 exSegs qs u exImps = .ok r := by
  match qs, hl with
  | [a, b], _ =>
    simp [chargingProcess, exSegs, exImps, chargeAt, pyGet]
    exact ⟨_, _, rfl⟩

/-- one batch and one decay on a chamber with one charging and one ordinary segment; all segments charging and in range for
`C27_wall_and_cloud` -/
example : (∃ qs, chargeRun 1 150 exSegs [.impacts (fun _ => 0.5) exImps, .evol 1] (exSegs.map (fun _ => 0)) = .ok qs) ∧
    (∀ i ∈ exImps, 0 ≤ i.seg ∧ i.seg < (exSegs.length : ℤ)) := by
  constructor
  · obtain ⟨r, hr⟩ := exCharge_run (exSegs.map (fun _ => 0)) rfl (fun _ => 0.5) 1 150
    refine ⟨chargeEvol exSegs 1 r.2, ?_⟩
    unfold chargeRun
    rw [hr]
    rfl
  · intro i hi
    simp only [exImps, List.mem_cons, List.not_mem_nil, or_false] at hi
    rcases hi with rfl | rfl <;> simp [exSegs]

/-! ## C29 -/

section table

variable {K : Type} [Field K] [LinearOrder K] [FloorRing K] [IsStrictOrderedRing K]

omit [Field K] [FloorRing K] [IsStrictOrderedRing K] in
theorem foldl_max_eq (es : List K) (a m : K) (h1 : ∀ x ∈ es, x ≤ m) (h2 : a ≤ m) (h3 : m ∈ a :: es) :
    es.foldl max a = m := by
  induction es generalizing a with
  | nil => simp at h3; simp [h3]
  | cons b es ih =>
    rw [List.foldl_cons]
    refine ih (max a b) (fun x hx => h1 x (by simp [hx])) (max_le h2 (h1 b (by simp))) ?_
    rcases List.mem_cons.1 h3 with h | h
    · have : max a b = m := by rw [h]; exact max_eq_left (h ▸ h1 b (by simp))
      simp [this]
    · rcases List.mem_cons.1 h with h | h
      · have : max a b = m := by rw [h]; exact max_eq_right (h ▸ h2)
        simp [this]
      · simp [h]

omit [Field K] [FloorRing K] [IsStrictOrderedRing K] in
theorem foldl_min_eq (es : List K) (a : K) (h1 : ∀ x ∈ es, a ≤ x) : es.foldl min a = a := by
  induction es with
  | nil => rfl
  | cons b es ih =>
    rw [List.foldl_cons, min_eq_left (h1 b (by simp))]
    exact ih (fun x hx => h1 x (by simp [hx]))

/-- the energies of an equally spaced table -/
def tabEnergies (e0 d : K) (n : ℕ) : List K := (List.range n).map (fun k : ℕ => e0 + (k : K) * d)

theorem seyTableOf_grid (e0 d : K) (n : ℕ) (hn : 2 ≤ n) (hd : 0 < d) (hr : round3 d = d) (tr el : List K)
    (cT gT cE gE : K) (scale shift : Bool) :
    seyTableOf (tabEnergies e0 d n) tr el cT gT cE gE scale shift =
      .ok ⟨e0, e0 + ((n : K) - 1) * d, d, tr, el, cT, gT, cE, gE, scale, shift⟩ := by
  obtain ⟨m, rfl⟩ : ∃ m, n = m + 2 := ⟨n - 2, by omega⟩
  have hE : tabEnergies e0 d (m + 2) = e0 :: (List.range (m + 1)).map (fun k : ℕ => e0 + ((k : K) + 1) * d) := by
    unfold tabEnergies
    rw [List.range_succ_eq_map, List.map_cons, List.map_map]
    congr 1
    · simp
    · apply List.map_congr_left; intro k _; simp
  have hdiff : (List.zipWith (fun a b => b - a) (tabEnergies e0 d (m + 2)) (tabEnergies e0 d (m + 2)).tail).map round3
      = List.replicate (m + 1) d := by
    rw [List.eq_replicate_iff]
    refine ⟨by simp [tabEnergies], ?_⟩
    intro b hb
    obtain ⟨x, hx, rfl⟩ := List.mem_map.1 hb
    obtain ⟨k, hk, rfl⟩ := List.getElem_of_mem hx
    have : (List.zipWith (fun a b => b - a) (tabEnergies e0 d (m + 2)) (tabEnergies e0 d (m + 2)).tail)[k] = d := by
      simp only [tabEnergies, List.getElem_zipWith, List.getElem_tail, List.getElem_map, List.getElem_range]
      push_cast; ring
    rw [this, hr]
  unfold seyTableOf
  dsimp only
  rw [hdiff, List.replicate_succ]
  dsimp only
  rw [if_neg (by simp), hE]
  dsimp only
  rw [foldl_min_eq, foldl_max_eq _ _ (e0 + (((m + 2 : ℕ) : K) - 1) * d)]
  · intro x hx
    obtain ⟨k, hk, rfl⟩ := List.mem_map.1 hx
    have hk' : (k : K) ≤ m := by exact_mod_cast Nat.lt_succ_iff.1 (List.mem_range.1 hk)
    push_cast
    nlinarith
  · have : (0 : K) ≤ m := Nat.cast_nonneg m
    push_cast
    nlinarith
  · refine List.mem_cons_of_mem _ (List.mem_map.2 ⟨m, by simp, ?_⟩)
    push_cast; ring
  · intro x hx
    obtain ⟨k, hk, rfl⟩ := List.mem_map.1 hx
    have : (0 : K) ≤ k := Nat.cast_nonneg k
    nlinarith

theorem tabInterp_cell (t : SeyTable K) (col : List K) (k : ℕ) (a b e : K) (hd : 0 < t.dE)
    (ha : col[k]? = some a) (hb : col[k + 1]? = some b)
    (h1 : t.eMin + (k : K) * t.dE ≤ e) (h2 : e < t.eMin + ((k : K) + 1) * t.dE) :
    tabInterp t col e = .ok (a + ((e - t.eMin) / t.dE - k) * (b - a)) := by
  have hf : ⌊(e - t.eMin) / t.dE⌋ = (k : ℤ) := by
    rw [Int.floor_eq_iff]
    constructor
    · rw [le_div_iff₀ hd]; push_cast; linarith
    · rw [div_lt_iff₀ hd]; push_cast; linarith
  have h0 : 0 ≤ (e - t.eMin) / t.dE := by
    have : (0 : K) ≤ (k : K) * t.dE := mul_nonneg (Nat.cast_nonneg k) hd.le
    exact div_nonneg (by linarith) hd.le
  unfold tabInterp truncZ
  dsimp only
  rw [if_pos h0, hf, pyGet_nat _ k a ha]
  have hlt : k + 1 < col.length := (List.getElem?_eq_some_iff.1 hb).1
  have hz : (List.zipWith (fun a b => b - a) col col.tail ++ [0])[k]? = some (b - a) := by
    rw [List.getElem?_append_left (by simp; omega), List.getElem?_zipWith, ha, List.getElem?_tail, hb]
  simp only [pyGet_nat _ k (b - a) hz]
  push_cast
  rfl

theorem tabInterp_last (t : SeyTable K) (col : List K) (k : ℕ) (a e : K) (hd : 0 < t.dE)
    (ha : col[k]? = some a) (hlen : col.length = k + 1) (h1 : e = t.eMin + (k : K) * t.dE) :
    tabInterp t col e = .ok a := by
  have hq : (e - t.eMin) / t.dE = (k : K) := by rw [h1, add_sub_cancel_left, mul_div_cancel_right₀ _ hd.ne']
  unfold tabInterp truncZ
  dsimp only
  rw [hq, if_pos (Nat.cast_nonneg k), Int.floor_natCast, pyGet_nat _ k a ha]
  have hz : (List.zipWith (fun a b => b - a) col col.tail ++ [0])[k]? = some 0 := by
    rw [List.getElem?_append_right (by simp [hlen])]
    simp [hlen]
  simp only [pyGet_nat _ k 0 hz]
  simp

/-- C29, what holds: for a table whose step is a whole number of meV, the value at any energy within the table is
the linear interpolation between the two neighbouring entries (so between them, and exact at the nodes), and the
configured line above the table. Missing: steps that are not a multiple of 0.001 eV, and energies below the first
entry (see the two `C29_violated` theorems). -/
theorem C29_interpolation_partial (e0 d : K) (n : ℕ) (hn : 2 ≤ n) (hd : 0 < d) (hr : round3 d = d) (tr el : List K)
    (cT gT cE gE : K) (scale shift : Bool) (t : SeyTable K)
    (ht : seyTableOf (tabEnergies e0 d n) tr el cT gT cE gE scale shift = .ok t)
    (col : List K) (hlen : col.length = n) (c g : K) :
    (∀ (k : ℕ) (a b lam : K), col[k]? = some a → col[k + 1]? = some b → 0 ≤ lam → lam ≤ 1 →
      tabValue t col c g ((1 - lam) * (e0 + (k : K) * d) + lam * (e0 + ((k : K) + 1) * d)) =
        .ok ((1 - lam) * a + lam * b)) ∧
    (∀ (k : ℕ) (a : K), col[k]? = some a → tabValue t col c g (e0 + (k : K) * d) = .ok a) ∧
    (∀ e, e0 ≤ e → e ≤ e0 + ((n : K) - 1) * d → ∃ (k : ℕ) (a b v : K), col[k]? = some a ∧ col[k + 1]? = some b ∧
      e0 + (k : K) * d ≤ e ∧ e ≤ e0 + ((k : K) + 1) * d ∧
      tabValue t col c g e = .ok v ∧ min a b ≤ v ∧ v ≤ max a b) ∧
    (∀ e, e0 + ((n : K) - 1) * d < e → tabValue t col c g e = .ok (c + g * e)) := by
  rw [seyTableOf_grid e0 d n hn hd hr] at ht
  cases ht
  set t : SeyTable K := ⟨e0, e0 + ((n : K) - 1) * d, d, tr, el, cT, gT, cE, gE, scale, shift⟩ with htt
  have hnode : ∀ (k : ℕ) (a : K), col[k]? = some a → tabValue t col c g (e0 + (k : K) * d) = .ok a := by
    intro k a ha
    have hk : k < n := by rw [← hlen]; exact (List.getElem?_eq_some_iff.1 ha).1
    have hkn : (k : K) ≤ (n : K) - 1 := by
      have : (k : K) + 1 ≤ n := by exact_mod_cast hk
      linarith
    unfold tabValue
    rw [if_neg (by
      show ¬ (e0 + ((n : K) - 1) * d < e0 + (k : K) * d)
      rw [not_lt]; nlinarith)]
    by_cases hl : k + 1 < n
    · have hb : col[k + 1]? = some col[k + 1] := List.getElem?_eq_getElem (by omega)
      rw [tabInterp_cell t col k a _ _ hd ha hb le_rfl (by
        show e0 + (k : K) * d < e0 + ((k : K) + 1) * d
        nlinarith)]
      have : (e0 + (k : K) * d - t.eMin) / t.dE = k := by
        show (e0 + (k : K) * d - e0) / d = k
        rw [add_sub_cancel_left, mul_div_cancel_right₀ _ hd.ne']
      rw [this]; simp
    · exact tabInterp_last t col k a _ hd ha (by omega) rfl
  have hcell : ∀ (k : ℕ) (a b lam : K), col[k]? = some a → col[k + 1]? = some b → 0 ≤ lam → lam ≤ 1 →
      tabValue t col c g ((1 - lam) * (e0 + (k : K) * d) + lam * (e0 + ((k : K) + 1) * d)) =
        .ok ((1 - lam) * a + lam * b) := by
    intro k a b lam ha hb h0 h1
    rcases eq_or_lt_of_le h1 with h1 | h1
    · subst h1
      have := hnode (k + 1) b hb
      push_cast at this
      simpa using this
    · have hk : k + 1 < n := by rw [← hlen]; exact (List.getElem?_eq_some_iff.1 hb).1
      have hkn : (k : K) + 1 ≤ (n : K) - 1 := by
        have : ((k + 1 : ℕ) : K) + 1 ≤ n := by exact_mod_cast hk
        push_cast at this
        linarith
      unfold tabValue
      rw [if_neg (by
        show ¬ (e0 + ((n : K) - 1) * d < _)
        rw [not_lt]
        nlinarith [mul_nonneg h0 hd.le]), tabInterp_cell t col k a b _ hd ha hb (by
          show e0 + (k : K) * d ≤ _
          nlinarith [mul_nonneg h0 hd.le]) (by
          show _ < e0 + ((k : K) + 1) * d
          nlinarith [mul_pos (sub_pos.2 h1) hd])]
      congr 1
      show a + (((1 - lam) * (e0 + (k : K) * d) + lam * (e0 + ((k : K) + 1) * d) - e0) / d - k) * (b - a) = _
      have hd' := hd.ne'
      field_simp
      ring
  refine ⟨hcell, hnode, ?_, ?_⟩
  · intro e h1 h2
    have hq0 : 0 ≤ (e - e0) / d := div_nonneg (by linarith) hd.le
    have hqn : (e - e0) / d ≤ (n : K) - 1 := by rw [div_le_iff₀ hd]; linarith
    -- the cell
    obtain ⟨k, hk, hk1, hk2⟩ : ∃ k : ℕ, k + 1 < n ∧ (k : K) ≤ (e - e0) / d ∧ (e - e0) / d ≤ (k : K) + 1 := by
      by_cases hlt : (e - e0) / d < (n : K) - 1
      · refine ⟨⌊(e - e0) / d⌋₊, ?_, Nat.floor_le hq0, (Nat.lt_floor_add_one _).le⟩
        have := lt_of_le_of_lt (Nat.floor_le hq0) hlt
        have : (⌊(e - e0) / d⌋₊ : K) + 1 < n := by linarith
        exact_mod_cast this
      · refine ⟨n - 2, by omega, ?_, ?_⟩
        · have : ((n - 2 : ℕ) : K) = (n : K) - 2 := by push_cast [Nat.cast_sub hn]; ring
          rw [this]; linarith [not_lt.1 hlt]
        · have : ((n - 2 : ℕ) : K) = (n : K) - 2 := by push_cast [Nat.cast_sub hn]; ring
          rw [this]; linarith
    have ha : col[k]? = some col[k] := List.getElem?_eq_getElem (by omega)
    have hb : col[k + 1]? = some col[k + 1] := List.getElem?_eq_getElem (by omega)
    have hc := hcell k _ _ ((e - e0) / d - k) ha hb (by linarith) (by linarith)
    have he : (1 - ((e - e0) / d - k)) * (e0 + (k : K) * d) + ((e - e0) / d - k) * (e0 + ((k : K) + 1) * d) = e := by
      have hd' := hd.ne'
      field_simp
      ring
    rw [he] at hc
    refine ⟨k, _, _, _, ha, hb, ?_, ?_, hc, ?_, ?_⟩
    · rw [le_div_iff₀ hd] at hk1; linarith
    · rw [div_le_iff₀ hd] at hk2; linarith
    · set l := (e - e0) / d - k
      have hl0 : 0 ≤ l := by simp only [l]; linarith
      have hl1 : l ≤ 1 := by simp only [l]; linarith
      nlinarith [min_le_left col[k] col[k + 1], min_le_right col[k] col[k + 1]]
    · set l := (e - e0) / d - k
      have hl0 : 0 ≤ l := by simp only [l]; linarith
      have hl1 : l ≤ 1 := by simp only [l]; linarith
      nlinarith [le_max_left col[k] col[k + 1], le_max_right col[k] col[k + 1]]
  · intro e he
    unfold tabValue
    rw [if_pos he]

/-- table of four entries with step 0.5 eV -/
example : round3 (1 / 2 : ℚ) = 1 / 2 ∧
    ∃ t, seyTableOf (tabEnergies (0 : ℚ) (1 / 2) 4) [0, 1, 3, 2] [1, 0, 0, 0] 2 0 0 0 true true = .ok t ∧
    (tabValue t [0, 1, 3, 2] 2 0 (3 / 4) = .ok 2 ∧ tabValue t [0, 1, 3, 2] 2 0 (3 / 2) = .ok 2 ∧
     tabValue t [0, 1, 3, 2] 2 0 100 = .ok 2) :=
  ⟨by decide +kernel, exists_ok (by decide +kernel)⟩

/-- C29 fails below the table: one step below the first energy (10 eV) the LAST entry of the table is returned. -/
theorem C29_violated_below : ∃ t, seyTableOf (tabEnergies (10 : ℚ) 5 3) [1, 2, 7] [0, 0, 0] 0 0 0 0 false false = .ok t ∧
    (tabValue t [1, 2, 7] 0 0 5 = .ok 7 ∧ tabValue t [1, 2, 7] 0 0 0 = .ok 2 ∧
     tabValue t [1, 2, 7] 0 0 (-10) = .error .indexError) :=
  exists_ok (by decide +kernel)

/-- C29 fails when the energy step is not a multiple of 0.001 eV: the step is rounded to three decimals before it is
used, so the table with step 1/3 eV is not reproduced at its own nodes (energy 1 eV is entry 3). -/
theorem C29_violated_step : ∃ t, seyTableOf (tabEnergies (0 : ℚ) (1 / 3) 5) [0, 0, 0, 0, 1] [0, 0, 0, 0, 0] 0 0 0 0 false false = .ok t ∧
    (tabValue t [0, 0, 0, 0, 1] 0 0 1 = .ok (1 / 333) ∧ [(0 : ℚ), 0, 0, 0, 1][3]? = some 0) :=
  exists_ok (by decide +kernel)

omit [FloorRing K] in
theorem tabClip_nonneg (d : K) : 0 ≤ tabClip d := by
  unfold tabClip
  split
  · exact le_rfl
  · next h => exact le_trans (by positivity) (not_lt.1 h)

/-- C29: the tabulated model always returns a non-negative yield and a fraction in [0,1]. The yield is the sum of the
tabulated elastic part and the tabulated true part, values below 1e-10 counting as zero; the angular options move the energy at
which the true part is read by `1/(1 + 0.7 (1 - cos))` and multiply the true part by `exp(0.5 (1 - cos))`. -/
theorem C29_values (expf : K → K) (t : SeyTable K) (e cth : K) (r : K × K) (h : seyValues expf t e cth = .ok r) :
    0 ≤ r.1 ∧ 0 ≤ r.2 ∧ r.2 ≤ 1 ∧
    ∃ a b, tabValue t t.true' t.constTrue t.gradTrue (if t.shift then e / (1 + 7 / 10 * (1 - cth)) else e) = .ok a ∧
      tabValue t t.elast t.constElast t.gradElast e = .ok b ∧
      r.1 = (if a * (if t.scale then expf (1 / 2 * (1 - cth)) else 1) < 1 / 10000000000 then 0
        else a * (if t.scale then expf (1 / 2 * (1 - cth)) else 1)) + (if b < 1 / 10000000000 then 0 else b) ∧
      r.2 * r.1 = (if b < 1 / 10000000000 then 0 else b) := by
  unfold seyValues at h
  split at h
  · cases h
  next dt0 h1 =>
  split at h
  · cases h
  next de0 h2 =>
  split at h
  · cases h
  next dt1 h3 =>
  dsimp only at h
  simp only [Except.ok.injEq] at h
  generalize hA : tabClip (if t.scale = true then dt1 * expf (1 / 2 * (1 - cth)) else dt1) = A at h
  have ha : 0 ≤ A := hA ▸ tabClip_nonneg _
  have hb := tabClip_nonneg de0
  have hm : r.2 * r.1 = tabClip de0 := by
    rw [← h]
    dsimp only
    split
    · next h0 => rw [div_mul_cancel₀ _ h0.ne']
    · next h0 =>
      have : tabClip de0 = 0 := by linarith [not_lt.1 h0]
      have hA0 : A = 0 := by linarith [not_lt.1 h0]
      rw [this, hA0]; simp
  refine ⟨by rw [← h]; exact add_nonneg ha hb, ?_, ?_, ?_⟩
  · rw [← h]
    dsimp only
    split
    · next h0 => exact div_nonneg hb h0.le
    · simp
  · rw [← h]
    dsimp only
    split
    · next h0 => rw [div_le_one h0]; linarith
    · simp
  · refine ⟨dt1, de0, ?_, h2, ?_, hm⟩
    · cases hsh : t.shift with
      | true =>
        rw [hsh] at h3
        simpa using h3
      | false =>
        rw [hsh] at h3
        simp only [Bool.false_eq_true, if_false, Except.ok.injEq] at h3
        simp only [Bool.false_eq_true, if_false]
        rw [h1, h3]
    · rw [← h, ← hA]
      cases t.scale <;> simp [tabClip]

example : ∃ t, seyTableOf (tabEnergies (0 : ℚ) (1 / 2) 4) [0, 1, 3, 2] [1, 0, 0, 0] 2 0 0 0 true true = .ok t ∧
    (seyValues (fun x => x) t (17 / 20) 0 = .ok (1 / 2, 0)) :=
  exists_ok (by decide +kernel)

/-- C29: a table is accepted only if it has at least two energies and all the steps between neighbouring energies, rounded to
three decimals, are the step of the grid. -/
theorem C29_accepted (energies tr el : List K) (cT gT cE gE : K) (scale shift : Bool) (t : SeyTable K)
    (h : seyTableOf energies tr el cT gT cE gE scale shift = .ok t) :
    2 ≤ energies.length ∧ ∀ (i : ℕ) (a b : K), energies[i]? = some a → energies[i + 1]? = some b → round3 (b - a) = t.dE := by
  unfold seyTableOf at h
  generalize hd : (List.zipWith (fun a b => b - a) energies energies.tail).map round3 = diffs at h
  dsimp only at h
  cases diffs with
  | nil => simp at h
  | cons d ds =>
    dsimp only at h
    by_cases hall : (d :: ds).any (fun e => decide (e ≠ d)) = true
    · rw [if_pos hall] at h; cases h
    · rw [if_neg hall] at h
      have hlen := congrArg List.length hd
      simp only [List.length_map, List.length_zipWith, List.length_tail, List.length_cons] at hlen
      cases energies with
      | nil => simp at hlen
      | cons e0 es =>
        simp only [Except.ok.injEq] at h
        refine ⟨by simp only [List.length_cons] at hlen ⊢; omega, fun i a b ha hb => ?_⟩
        have hm : round3 (b - a) ∈ d :: ds := by
          rw [← hd]
          refine List.mem_map.2 ⟨b - a, ?_, rfl⟩
          refine List.mem_of_getElem? (i := i) ?_
          rw [List.getElem?_zipWith, ha, List.getElem?_tail, hb]
        rw [← h]
        by_contra hne
        exact hall (List.any_eq_true.2 ⟨_, hm, by simpa using hne⟩)

example : ∃ t, seyTableOf (tabEnergies (0 : ℚ) (1 / 2) 4) [0, 1, 3, 2] [1, 0, 0, 0] 2 0 0 0 true true = .ok t := exists_ok (p := fun _ => True) (by decide +kernel) |>.imp fun _ h => h.1

example : ∃ t, seyTableOf (tabEnergies (0 : ℚ) (1 / 2) 4) [0, 1, 3, 2] [1, 0, 0, 0] 2 0 0 0 false false = .ok t ∧
    (seyValues (fun x => x) t (1 / 4) 1 = .ok (1, 1 / 2)) :=
  exists_ok (by decide +kernel)

end table

end PyECLOUD
