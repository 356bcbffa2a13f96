import Verif.Model.Extract
import Verif.Spec.EmitMean
import Verif.Props.Extract
import Verif.Props.Yield
import Mathlib.Probability.Moments.Variance

/-! # Property C185: on average a surface reflects its elastic yield and emits its true secondary yield -/

namespace PyECLOUD

open MeasureTheory ProbabilityTheory

/-! ## one draw -/

theorem unitDraw_prob : IsProbabilityMeasure (volume.restrict (Set.Icc (0 : ℝ) 1)) := ⟨by simp⟩

attribute [local instance] unitDraw_prob

theorem unitDraw_below (f : ℝ) (h0 : 0 ≤ f) (h1 : f ≤ 1) : (volume.restrict (Set.Icc (0 : ℝ) 1)).real (Set.Iio f) = f := by
  have : Set.Iio f ∩ Set.Icc (0 : ℝ) 1 = Set.Ico 0 f := by
    ext x; simp only [Set.mem_inter_iff, Set.mem_Iio, Set.mem_Icc, Set.mem_Ico]
    constructor
    · rintro ⟨a, b, -⟩; exact ⟨b, a⟩
    · rintro ⟨a, b⟩; exact ⟨b, a, by linarith⟩
  rw [measureReal_restrict_apply measurableSet_Iio, this]
  simp [Measure.real, h0]

/-- the charge `c` if the draw is below `f` -/
noncomputable def below (c f : ℝ) : ℝ → ℝ := (Set.Iio f).indicator (fun _ => c)

theorem below_apply (c f u : ℝ) : below c f u = if u < f then c else 0 := by
  unfold below
  by_cases h : u < f
  · rw [Set.indicator_of_mem (by exact h), if_pos h]
  · rw [Set.indicator_of_notMem (by exact h), if_neg h]

theorem below_mean (c f : ℝ) (h0 : 0 ≤ f) (h1 : f ≤ 1) : ∫ u, below c f u ∂(volume.restrict (Set.Icc (0 : ℝ) 1)) = c * f := by
  unfold below
  rw [integral_indicator_const _ measurableSet_Iio, unitDraw_below f h0 h1, smul_eq_mul, mul_comm]

theorem below_memLp (c f : ℝ) (q : ENNReal) : MemLp (below c f) q (volume.restrict (Set.Icc (0 : ℝ) 1)) :=
  memLp_indicator_const q measurableSet_Iio c (Or.inr (measure_ne_top _ _))

theorem below_var (c f : ℝ) (h0 : 0 ≤ f) (h1 : f ≤ 1) : Var[below c f; volume.restrict (Set.Icc (0 : ℝ) 1)] ≤ c ^ 2 / 4 := by
  rw [variance_eq_sub (below_memLp c f 2)]
  have h2 : (below c f ^ 2 : ℝ → ℝ) = below (c ^ 2) f := by
    funext u
    simp only [Pi.pow_apply, below_apply]
    split <;> simp
  rw [h2, below_mean _ _ h0 h1, below_mean _ _ h0 h1]
  nlinarith [mul_nonneg (sq_nonneg c) (sq_nonneg (f - 1 / 2))]

/-! ## the draws of a call -/

variable {n : ℕ}

theorem uniformDraws_mean (X : Fin n → ℝ → ℝ) (h : ∀ i, Integrable (X i) (volume.restrict (Set.Icc (0 : ℝ) 1))) :
    ∫ ω, ∑ i, X i (ω i) ∂(uniformDraws n) = ∑ i, ∫ u, X i u ∂(volume.restrict (Set.Icc (0 : ℝ) 1)) := by
  unfold uniformDraws
  rw [integral_finsetSum]
  · refine Finset.sum_congr rfl (fun i _ => ?_)
    have hp := measurePreserving_eval (fun _ : Fin n => volume.restrict (Set.Icc (0 : ℝ) 1)) i
    have := integral_map (μ := Measure.pi (fun _ : Fin n => volume.restrict (Set.Icc (0 : ℝ) 1))) (φ := Function.eval i)
      hp.measurable.aemeasurable (f := X i) (by rw [hp.map_eq]; exact (h i).aestronglyMeasurable)
    rw [hp.map_eq] at this
    exact this.symm
  · intro i _
    exact (measurePreserving_eval (fun _ : Fin n => volume.restrict (Set.Icc (0 : ℝ) 1)) i).integrable_comp_of_integrable (h i)

theorem below_sum (c f : Fin n → ℝ) (h0 : ∀ i, 0 ≤ f i) (h1 : ∀ i, f i ≤ 1) :
    (∫ ω, ∑ i, below (c i) (f i) (ω i) ∂(uniformDraws n) = ∑ i, c i * f i) ∧
    ∀ ε, 0 < ε → uniformDraws n {ω | ε ≤ |∑ i, below (c i) (f i) (ω i) - ∑ i, c i * f i|} ≤
      ENNReal.ofReal ((∑ i, c i ^ 2) / (4 * ε ^ 2)) := by
  have hm : ∫ ω, ∑ i, below (c i) (f i) (ω i) ∂(uniformDraws n) = ∑ i, c i * f i := by
    rw [uniformDraws_mean _ (fun i => (below_memLp (c i) (f i) 1).integrable le_rfl)]
    exact Finset.sum_congr rfl (fun i _ => below_mean _ _ (h0 i) (h1 i))
  refine ⟨hm, fun ε hε => ?_⟩
  haveI : IsProbabilityMeasure (uniformDraws n) := by unfold uniformDraws; infer_instance
  have hL : MemLp (∑ i, fun ω : Fin n → ℝ => below (c i) (f i) (ω i)) 2 (uniformDraws n) := by
    refine memLp_finsetSum' _ (fun i _ => ?_)
    exact (below_memLp (c i) (f i) 2).comp_measurePreserving
      (measurePreserving_eval (fun _ : Fin n => volume.restrict (Set.Icc (0 : ℝ) 1)) i)
  have hv : Var[∑ i, fun ω : Fin n → ℝ => below (c i) (f i) (ω i); uniformDraws n] ≤ ∑ i, c i ^ 2 / 4 := by
    unfold uniformDraws
    rw [variance_sum_pi (fun i => below_memLp (c i) (f i) 2)]
    exact Finset.sum_le_sum (fun i _ => below_var _ _ (h0 i) (h1 i))
  have hc := meas_ge_le_variance_div_sq hL hε
  have he : (∫ ω, (∑ i, fun ω : Fin n → ℝ => below (c i) (f i) (ω i)) ω ∂(uniformDraws n)) = ∑ i, c i * f i := by
    rw [← hm]; simp only [Finset.sum_apply]
  rw [he] at hc
  simp only [Finset.sum_apply] at hc
  refine hc.trans (ENNReal.ofReal_le_ofReal ?_)
  calc Var[∑ i, fun ω : Fin n → ℝ => below (c i) (f i) (ω i); uniformDraws n] / ε ^ 2
      ≤ (∑ i, c i ^ 2 / 4) / ε ^ 2 := by gcongr
    _ = (∑ i, c i ^ 2) / (4 * ε ^ 2) := by rw [← Finset.sum_div, div_div]

/-! ## the charges of a call -/

theorem flaggedCharge_mapIdx (imps : List (Impact ℝ)) (f : ℕ → Impact ℝ → ℝ × Bool) (b : Bool) :
    flaggedCharge b (imps.mapIdx f) = ∑ i : Fin imps.length, if (f i imps[i]).2 = b then (f i imps[i]).1 else 0 := by
  have h1 : ∀ l : List (ℝ × Bool), flaggedCharge b l = (l.map (fun q => if q.2 = b then q.1 else 0)).sum := by
    intro l
    induction l with
    | nil => rfl
    | cons q l ih =>
      unfold flaggedCharge at ih ⊢
      by_cases hq : q.2 = b
      · simp [hq, ih]
      · simp [hq, ih]
  have e : (imps.mapIdx f).map (fun q => if q.2 = b then q.1 else 0) =
      List.ofFn (fun i : Fin imps.length => if (f i imps[i]).2 = b then (f i imps[i]).1 else 0) := by
    apply List.ext_getElem <;> simp
  rw [h1, e, List.sum_ofFn]

theorem drawFn_fin (ω : Fin n → ℝ) (i : Fin n) : drawFn ω (i : ℕ) = ω i := by simp [drawFn]

/-- the general statement: events that are elastic with the charge `c`, or true secondary with the charge `d` -/
theorem call_mean (imps : List (Impact ℝ)) (proc : Impact ℝ → ℝ → ℝ × Bool) (c d f : Impact ℝ → ℝ)
    (hp : ∀ i ∈ imps, ∀ u, proc i u = if u < f i then (c i, true) else (d i, false))
    (h0 : ∀ i ∈ imps, 0 ≤ f i) (h1 : ∀ i ∈ imps, f i ≤ 1) :
    (∫ ω, flaggedCharge true (imps.mapIdx (fun k i => proc i (drawFn ω k))) ∂(uniformDraws imps.length) = (imps.map (fun i => c i * f i)).sum) ∧
    (∫ ω, flaggedCharge false (imps.mapIdx (fun k i => proc i (drawFn ω k))) ∂(uniformDraws imps.length) =
      (imps.map (fun i => d i * (1 - f i))).sum) ∧
    ∀ ε, 0 < ε → uniformDraws imps.length
        {ω | ε ≤ |flaggedCharge true (imps.mapIdx (fun k i => proc i (drawFn ω k))) - (imps.map (fun i => c i * f i)).sum|} ≤
      ENNReal.ofReal ((imps.map (fun i => c i ^ 2)).sum / (4 * ε ^ 2)) := by
  have hsum : ∀ g : Impact ℝ → ℝ, (imps.map g).sum = ∑ i : Fin imps.length, g imps[i] := by
    intro g
    have e : imps.map g = List.ofFn (fun i : Fin imps.length => g imps[i]) := by
      apply List.ext_getElem <;> simp
    rw [e, List.sum_ofFn]
  have hT : ∀ ω : Fin imps.length → ℝ, flaggedCharge true (imps.mapIdx (fun k i => proc i (drawFn ω k))) =
      ∑ i : Fin imps.length, below (c imps[i]) (f imps[i]) (ω i) := by
    intro ω
    rw [flaggedCharge_mapIdx]
    refine Finset.sum_congr rfl (fun i _ => ?_)
    rw [hp imps[i] (List.getElem_mem i.2), drawFn_fin, below_apply]
    split <;> simp
  have hF : ∀ ω : Fin imps.length → ℝ, flaggedCharge false (imps.mapIdx (fun k i => proc i (drawFn ω k))) =
      ∑ i : Fin imps.length, (d imps[i] - below (d imps[i]) (f imps[i]) (ω i)) := by
    intro ω
    rw [flaggedCharge_mapIdx]
    refine Finset.sum_congr rfl (fun i _ => ?_)
    rw [hp imps[i] (List.getElem_mem i.2), drawFn_fin, below_apply]
    split <;> simp
  have hb := below_sum (fun i : Fin imps.length => c imps[i]) (fun i => f imps[i]) (fun i => h0 imps[i] (List.getElem_mem i.2))
    (fun i => h1 imps[i] (List.getElem_mem i.2))
  simp only [hT, hF, hsum]
  refine ⟨hb.1, ?_, hb.2⟩
  rw [uniformDraws_mean (fun i u => d imps[i] - below (d imps[i]) (f imps[i]) u)
    (fun i => (integrable_const _).sub ((below_memLp _ _ 1).integrable le_rfl))]
  refine Finset.sum_congr rfl (fun i _ => ?_)
  rw [integral_sub (integrable_const _) ((below_memLp _ _ 1).integrable le_rfl), below_mean _ _ (h0 imps[i] (List.getElem_mem i.2))
    (h1 imps[i] (List.getElem_mem i.2))]
  simp
  ring

/-- **C185** (ECLOUD surface). For any impacts of one call and independent uniform draws: the charge sent back is the same for all
draws, `nel` times the sum of both yields; on average the elastic events carry the elastic yield and the true secondary events the true
secondary yield; and the elastic charge is further than `ε` from its average with a probability that falls with the number of
macroparticles the charge is made of. -/
theorem C185_ecloud (p : YieldPar) (hp : p.Valid) (imps : List (Impact ℝ)) (he : ∀ i ∈ imps, 0 ≤ i.en) (hc : ∀ i ∈ imps, i.cth ≤ 1)
    (out : (Fin imps.length → ℝ) → List (ℝ × Bool))
    (hout : ∀ ω, uniformProc (yieldECLOUD p) (fun _ => drawFn ω) 0 () imps = .ok (out ω, ())) :
    (∀ ω, ((out ω).map (fun q => q.1)).sum = (imps.map (fun i => i.nel * (yieldTrue p i.en i.cth + yieldRefl p i.en))).sum) ∧
    (∫ ω, flaggedCharge true (out ω) ∂(uniformDraws imps.length) = (imps.map (fun i => i.nel * yieldRefl p i.en)).sum) ∧
    (∫ ω, flaggedCharge false (out ω) ∂(uniformDraws imps.length) = (imps.map (fun i => i.nel * yieldTrue p i.en i.cth)).sum) ∧
    ∀ ε, 0 < ε → uniformDraws imps.length {ω | ε ≤ |flaggedCharge true (out ω) - (imps.map (fun i => i.nel * yieldRefl p i.en)).sum|} ≤
      ENNReal.ofReal ((imps.map (fun i => (i.nel * (yieldTrue p i.en i.cth + yieldRefl p i.en)) ^ 2)).sum / (4 * ε ^ 2)) := by
  have ho : ∀ ω, out ω = imps.mapIdx (fun k i => seyProcess (yieldECLOUD p i.en i.cth) i.nel (drawFn ω k)) := by
    intro ω
    have := hout ω
    unfold uniformProc at this
    injection this with h
    exact (congrArg Prod.fst h).symm
  obtain ⟨m1, m2, m3⟩ := call_mean imps (fun i u => seyProcess (yieldECLOUD p i.en i.cth) i.nel u)
    (fun i => i.nel * (yieldECLOUD p i.en i.cth).1) (fun i => i.nel * (yieldECLOUD p i.en i.cth).1)
    (fun i => (yieldECLOUD p i.en i.cth).2) (fun i _ u => by unfold seyProcess; split <;> simp_all)
    (fun i hi => (C23_yield_fraction p hp i.en i.cth (he i hi) (hc i hi)).2.1)
    (fun i hi => (C23_yield_fraction p hp i.en i.cth (he i hi) (hc i hi)).2.2.1)
  have e1 : imps.map (fun i => i.nel * (yieldECLOUD p i.en i.cth).1 * (yieldECLOUD p i.en i.cth).2) =
      imps.map (fun i => i.nel * yieldRefl p i.en) := by
    refine List.map_congr_left (fun i hi => ?_)
    rw [← (C23_yield_fraction p hp i.en i.cth (he i hi) (hc i hi)).2.2.2.1]; ring
  have e2 : imps.map (fun i => i.nel * (yieldECLOUD p i.en i.cth).1 * (1 - (yieldECLOUD p i.en i.cth).2)) =
      imps.map (fun i => i.nel * yieldTrue p i.en i.cth) := by
    refine List.map_congr_left (fun i hi => ?_)
    rw [← (C23_yield_fraction p hp i.en i.cth (he i hi) (hc i hi)).2.2.2.2]; ring
  rw [e1] at m1 m3
  rw [e2] at m2
  refine ⟨fun ω => ?_, by simpa only [ho] using m1, by simpa only [ho] using m2, by simp only [ho]; exact m3⟩
  have : (imps.mapIdx (fun k i => seyProcess (yieldECLOUD p i.en i.cth) i.nel (drawFn ω k))).map (fun q => q.1) =
      imps.map (fun i => i.nel * (yieldTrue p i.en i.cth + yieldRefl p i.en)) := by
    apply List.ext_getElem?
    intro k
    simp [seyProcess, yieldECLOUD, List.getElem?_mapIdx, List.getElem?_map, Option.map_map, Function.comp_def]
  rw [ho, this]

/-- **C185** (accurate low energy model). The elastic events carry the elastic yield on average and the true secondary events the true
secondary yield, although the charge sent back now depends on the draws. -/
theorem C185_accurate (p : YieldPar) (hp : p.Valid) (hr : p.r0 < 1) (imps : List (Impact ℝ)) (he : ∀ i ∈ imps, 0 ≤ i.en) :
    let out : (Fin imps.length → ℝ) → List (ℝ × Bool) := fun ω => imps.mapIdx (fun k i => accProcess p i.en i.cth i.nel (drawFn ω k))
    (∫ ω, flaggedCharge true (out ω) ∂(uniformDraws imps.length) = (imps.map (fun i => i.nel * yieldRefl p i.en)).sum) ∧
    (∫ ω, flaggedCharge false (out ω) ∂(uniformDraws imps.length) = (imps.map (fun i => i.nel * yieldTrue p i.en i.cth)).sum) ∧
    ∀ ε, 0 < ε → uniformDraws imps.length {ω | ε ≤ |flaggedCharge true (out ω) - (imps.map (fun i => i.nel * yieldRefl p i.en)).sum|} ≤
      ENNReal.ofReal ((imps.map (fun i => i.nel ^ 2)).sum / (4 * ε ^ 2)) := by
  intro out
  obtain ⟨m1, m2, m3⟩ := call_mean imps (fun i u => accProcess p i.en i.cth i.nel u) (fun i => i.nel)
    (fun i => i.nel * (yieldTrue p i.en i.cth / (1 - yieldRefl p i.en))) (fun i => yieldRefl p i.en) (fun i _ u => rfl)
    (fun i hi => (yieldRefl_bounds p hp i.en (he i hi)).1) (fun i hi => (yieldRefl_bounds p hp i.en (he i hi)).2.trans hr.le)
  refine ⟨m1, ?_, m3⟩
  rw [m2]
  congr 1
  refine List.map_congr_left (fun i hi => ?_)
  have : 1 - yieldRefl p i.en ≠ 0 := by
    have := (yieldRefl_bounds p hp i.en (he i hi)).2
    linarith
  field_simp

/-- **C185** (cosine model), for impacts of positive energy. -/
theorem C185_cosine (p : YieldPar) (hp : p.Valid) (imps : List (Impact ℝ)) (he : ∀ i ∈ imps, 0 < i.en) (hc : ∀ i ∈ imps, i.cth ≤ 1)
    (out : (Fin imps.length → ℝ) → List (ℝ × Bool))
    (hout : ∀ ω, uniformProc (yieldCos p) (fun _ => drawFn ω) 0 () imps = .ok (out ω, ())) :
    (∫ ω, flaggedCharge true (out ω) ∂(uniformDraws imps.length) = (imps.map (fun i => i.nel * cosRefl p i.en)).sum) ∧
    (∫ ω, flaggedCharge false (out ω) ∂(uniformDraws imps.length) = (imps.map (fun i => i.nel * yieldTrue p i.en i.cth)).sum) := by
  have ho : ∀ ω, out ω = imps.mapIdx (fun k i => seyProcess (yieldCos p i.en i.cth) i.nel (drawFn ω k)) := by
    intro ω
    have := hout ω
    unfold uniformProc at this
    injection this with h
    exact (congrArg Prod.fst h).symm
  have hb := fun i (hi : i ∈ imps) => C23_cosine_model p hp i.en i.cth (he i hi) (hc i hi)
  obtain ⟨m1, m2, -⟩ := call_mean imps (fun i u => seyProcess (yieldCos p i.en i.cth) i.nel u)
    (fun i => i.nel * (yieldCos p i.en i.cth).1) (fun i => i.nel * (yieldCos p i.en i.cth).1)
    (fun i => (yieldCos p i.en i.cth).2) (fun i _ u => by unfold seyProcess; split <;> simp_all)
    (fun i hi => (hb i hi).2.1) (fun i hi => (hb i hi).2.2.1)
  have hd : ∀ i ∈ imps, (yieldTrue p i.en i.cth + cosRefl p i.en) ≠ 0 := fun i hi => (hb i hi).1.ne'
  simp only [ho]
  rw [m1, m2]
  constructor
  · congr 1
    refine List.map_congr_left (fun i hi => ?_)
    have := hd i hi
    simp only [yieldCos]
    field_simp
  · congr 1
    refine List.map_congr_left (fun i hi => ?_)
    have := hd i hi
    simp only [yieldCos]
    field_simp
    ring

/-- **C185** (table). For a surface given by a table: on average the elastic events carry the tabulated elastic yield at the energy of the
impact (zero where the table is below 1e-10), the true secondary events the rest of the yield. -/
theorem C185_table (t : SeyTable ℝ) (imps : List (Impact ℝ)) (yld : ℝ → ℝ → ℝ × ℝ) (el : Impact ℝ → ℝ)
    (hy : ∀ i ∈ imps, seyValues Real.exp t i.en i.cth = .ok (yld i.en i.cth))
    (hel : ∀ i ∈ imps, tabValue t t.elast t.constElast t.gradElast i.en = .ok (el i))
    (out : (Fin imps.length → ℝ) → List (ℝ × Bool))
    (hout : ∀ ω, uniformProc yld (fun _ => drawFn ω) 0 () imps = .ok (out ω, ())) :
    (∫ ω, flaggedCharge true (out ω) ∂(uniformDraws imps.length) =
      (imps.map (fun i => i.nel * (if el i < 1 / 10000000000 then 0 else el i))).sum) ∧
    (∫ ω, flaggedCharge false (out ω) ∂(uniformDraws imps.length) =
      (imps.map (fun i => i.nel * ((yld i.en i.cth).1 - (if el i < 1 / 10000000000 then 0 else el i)))).sum) := by
  have ho : ∀ ω, out ω = imps.mapIdx (fun k i => seyProcess (yld i.en i.cth) i.nel (drawFn ω k)) := by
    intro ω
    have := hout ω
    unfold uniformProc at this
    injection this with h
    exact (congrArg Prod.fst h).symm
  have hclip : ∀ d : ℝ, 0 ≤ tabClip d := by
    intro d
    unfold tabClip
    split
    · exact le_rfl
    · rename_i h
      have := not_lt.1 h
      exact le_trans (by norm_num) this
  have hb : ∀ i ∈ imps, 0 ≤ (yld i.en i.cth).2 ∧ (yld i.en i.cth).2 ≤ 1 ∧ (yld i.en i.cth).1 * (yld i.en i.cth).2 = tabClip (el i) := by
    intro i hi
    have h1 := hy i hi
    unfold seyValues at h1
    rw [hel i hi] at h1
    cases h2 : tabValue t t.true' t.constTrue t.gradTrue i.en with
    | error e => rw [h2] at h1; cases h1
    | ok dt0 =>
      rw [h2] at h1
      dsimp only at h1
      cases h3 : (if t.shift then tabValue t t.true' t.constTrue t.gradTrue (i.en / (1 + 7 / 10 * (1 - i.cth))) else Except.ok dt0) with
      | error e => rw [h3] at h1; cases h1
      | ok dt1 =>
        rw [h3] at h1
        injection h1 with h1
        rw [← h1]
        have a := hclip (if t.scale then dt1 * Real.exp (1 / 2 * (1 - i.cth)) else dt1)
        have b := hclip (el i)
        generalize tabClip (if t.scale then dt1 * Real.exp (1 / 2 * (1 - i.cth)) else dt1) = T at a ⊢
        generalize tabClip (el i) = R at b ⊢
        dsimp only
        split
        · rename_i hpos
          refine ⟨div_nonneg b hpos.le, (div_le_one hpos).2 (by linarith), ?_⟩
          field_simp
        · rename_i hneg
          have : R = 0 := by linarith [not_lt.1 hneg]
          refine ⟨by simp, by simp, by simp [this]⟩
  obtain ⟨m1, m2, -⟩ := call_mean imps (fun i u => seyProcess (yld i.en i.cth) i.nel u)
    (fun i => i.nel * (yld i.en i.cth).1) (fun i => i.nel * (yld i.en i.cth).1)
    (fun i => (yld i.en i.cth).2) (fun i _ u => by unfold seyProcess; split <;> simp_all)
    (fun i hi => (hb i hi).1) (fun i hi => (hb i hi).2.1)
  simp only [ho]
  rw [m1, m2]
  constructor
  · congr 1
    refine List.map_congr_left (fun i hi => ?_)
    have h := (hb i hi).2.2
    unfold tabClip at h
    rw [← h]; ring
  · congr 1
    refine List.map_congr_left (fun i hi => ?_)
    have h := (hb i hi).2.2
    unfold tabClip at h
    rw [← h]; ring

/-- **C185** (extracted curve). One point of the elastic yield curve saved at the start of a simulation, made of `nRep` test impacts, is
further than `ε` from the elastic yield with a probability of at most `δ² / (4 nRep ε²)`, `δ` the total yield. -/
theorem C185_curve (p : YieldPar) (hp : p.Valid) (sq : ℝ → ℝ) (qe mass e ct : ℝ) (he : 0 ≤ e) (hc : ct ≤ 1) (nRep : ℕ) (hn : 0 < nRep)
    (ε : ℝ) (hε : 0 < ε) :
    uniformDraws nRep {ω | ∃ v w, extractSey (uniformProc (yieldECLOUD p) (fun _ => drawFn ω)) (testImpact sq qe mass) nRep 0 [(ct, e)] () =
        .ok ([(v, w)], ()) ∧ ε ≤ |v - yieldRefl p e|} ≤
      ENNReal.ofReal ((yieldTrue p e ct + yieldRefl p e) ^ 2 / (4 * nRep * ε ^ 2)) := by
  have hn' : (0 : ℝ) < nRep := by exact_mod_cast hn
  have hy := C23_yield_fraction p hp e ct he hc
  have hb := below_sum (n := nRep) (fun _ => (yieldECLOUD p e ct).1) (fun _ => (yieldECLOUD p e ct).2) (fun _ => hy.2.1) (fun _ => hy.2.2.1)
  have h := hb.2 (ε * nRep) (by positivity)
  have hv : (∑ _i : Fin nRep, (yieldECLOUD p e ct).1 ^ 2) / (4 * (ε * nRep) ^ 2) =
      (yieldTrue p e ct + yieldRefl p e) ^ 2 / (4 * nRep * ε ^ 2) := by
    rw [Finset.sum_const, Finset.card_univ, Fintype.card_fin, nsmul_eq_mul]
    have : (yieldECLOUD p e ct).1 = yieldTrue p e ct + yieldRefl p e := rfl
    rw [this]
    field_simp
  rw [hv] at h
  refine (measure_mono ?_).trans h
  rintro ω ⟨v, w, hx, hle⟩
  have hi : (testImpact sq qe mass e ct).nel = 1 := rfl
  have hen : (testImpact sq qe mass e ct).en = e := by simp [testImpact]
  have hct : (testImpact sq qe mass e ct).cth = ct := by simp [testImpact]
  simp only [extractSey, uniformProc] at hx
  injection hx with hx
  have hv0 : curvePoint (List.replicate nRep (testImpact sq qe mass e ct))
      ((List.replicate nRep (testImpact sq qe mass e ct)).mapIdx
        (fun k i => seyProcess (yieldECLOUD p i.en i.cth) i.nel (drawFn ω k))) true = v := by
    have := congrArg Prod.fst hx
    simp only [List.cons.injEq, Prod.mk.injEq] at this
    exact this.1.1
  have hcp : v = (∑ i : Fin nRep, below (yieldECLOUD p e ct).1 (yieldECLOUD p e ct).2 (ω i)) / nRep := by
    rw [← hv0, curvePoint, List.map_replicate, hi, List.sum_replicate, nsmul_eq_mul, mul_one]
    congr 1
    have : (List.replicate nRep (testImpact sq qe mass e ct)).mapIdx
        (fun k i => seyProcess (yieldECLOUD p i.en i.cth) i.nel (drawFn ω k)) =
        List.ofFn (fun k : Fin nRep => seyProcess (yieldECLOUD p e ct) 1 (ω k)) := by
      rw [mapIdx_replicate_const]
      apply List.ext_getElem
      · simp
      · intro k h1 h2
        simp only [List.length_map, List.length_range] at h1
        simp [hen, hct, hi, drawFn, h1]
    rw [this]
    have h1 : ∀ l : List (ℝ × Bool), ((l.filter (fun q => q.2 == true)).map (fun q => q.1)).sum =
        (l.map (fun q => if q.2 = true then q.1 else 0)).sum := by
      intro l
      induction l with
      | nil => rfl
      | cons q l ih =>
        by_cases hq : q.2 = true
        · simp only [List.filter_cons, hq, beq_self_eq_true, if_true, List.map_cons, List.sum_cons]; rw [← ih]
        · have hq' : q.2 = false := by simpa using hq
          simp only [List.filter_cons, hq', List.map_cons, List.sum_cons]; simp only [Bool.false_eq_true, if_false, zero_add]
          simpa using ih
    rw [h1, List.map_ofFn, List.sum_ofFn]
    refine Finset.sum_congr rfl (fun i _ => ?_)
    simp only [Function.comp, seyProcess, below_apply, one_mul, decide_eq_true_eq]
  have hs : ∑ _i : Fin nRep, (yieldECLOUD p e ct).1 * (yieldECLOUD p e ct).2 = nRep * yieldRefl p e := by
    rw [Finset.sum_const, Finset.card_univ, Fintype.card_fin, nsmul_eq_mul, ← hy.2.2.2.1]; ring
  change ε * nRep ≤ _
  rw [hs]
  have : (∑ i : Fin nRep, below (yieldECLOUD p e ct).1 (yieldECLOUD p e ct).2 (ω i)) - nRep * yieldRefl p e =
      nRep * (v - yieldRefl p e) := by
    rw [hcp]; field_simp
  rw [this, abs_mul, abs_of_pos hn', mul_comm]
  gcongr

/-- The hypotheses are met by the usual parameters and one impact at the energy of the maximum. -/
example : ∃ (p : YieldPar) (i : Impact ℝ), p.Valid ∧ p.r0 < 1 ∧ 0 < i.en ∧ i.cth ≤ 1 ∧
    (∀ ω : Fin [i].length → ℝ, ∃ out, uniformProc (yieldECLOUD p) (fun _ => drawFn ω) 0 () [i] = .ok (out, ())) :=
  ⟨⟨332, 1.7, 0.7, 150, 1.35, true, true⟩, ⟨1, 0, 0, 0, 0, 0, 0, 1, 0, 0, 0, 332, 1⟩,
    ⟨by norm_num, by norm_num, by norm_num, by norm_num, by norm_num⟩, by norm_num, by norm_num, le_rfl, fun ω => ⟨_, rfl⟩⟩

/-- The hypotheses for a table are met: two energies, yields 1 and 1/2, an impact on the first node. -/
example : ∃ (t : SeyTable ℝ) (i : Impact ℝ) (y : ℝ × ℝ), seyValues Real.exp t i.en i.cth = .ok y ∧
    tabValue t t.elast t.constElast t.gradElast i.en = .ok (1 / 2) ∧ y.1 = 3 / 2 := by
  refine ⟨⟨0, 1, 1, [1, 1], [1 / 2, 1 / 2], 0, 0, 0, 0, false, false⟩, ⟨1, 0, 0, 0, 0, 0, 0, 1, 0, 0, 0, 0, 1⟩, (3 / 2, 1 / 3), ?_, ?_, rfl⟩
  · norm_num [seyValues, tabValue, tabInterp, pyGet, truncZ, tabClip]
  · norm_num [tabValue, tabInterp, pyGet, truncZ]

end PyECLOUD
