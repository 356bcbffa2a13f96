import Verif.Lemmas.Rejection
import Verif.Lemmas.MPSources
import Verif.Model.Sources
import Verif.Model.Ellipse
import Verif.Model.Geometry
import Mathlib.Probability.Distributions.Gaussian.Real

/-! # Property C162: quantities redrawn until acceptable follow the truncated distribution -/

set_option linter.unusedSectionVars false

namespace PyECLOUD

open MeasureTheory ProbabilityTheory

/-- the numbers a loop over energies finds in the stream: the first draw of each entry and those of the repetitions -/
def hillDraws {n k : ℕ} (ω : Fin n → Fin (k + 1) → ℝ) (su : ℕ → ℝ) : HillDraws ℝ := ⟨drawAt ω 0, (List.range' 1 k).map (drawAt ω), su⟩

/-- the energies returned by a call, when it returns -/
def energiesOf : Except PyErr (List ℝ) → Option (ℕ → ℝ)
  | .ok r => some (fun i => r.getD i 0)
  | .error _ => none

theorem mapIdx_range (eImp : List ℝ) (f : ℕ → ℝ) : eImp.mapIdx (fun i e => (e, f i)) = (List.range eImp.length).map (fun i => (eImp.getD i 0, f i)) := by
  apply List.ext_getElem
  · simp
  · intro i h1 h2
    have : i < eImp.length := by simpa using h1
    simp [this, List.getD_eq_getElem?_getD]

theorem gLoop_length {β R : Type} (bad : β → Bool) (upd : R → ℕ → β → β) (rs : List R) (es r : List β) (h : gLoop bad upd rs es = some r) :
    r.length = es.length := ((gLoop_iff bad upd rs es r).1 h).1

theorem okSome_some {β : Type} {x : Except PyErr β} {r : β} (h : okSome x = some r) : x = .ok r := by
  cases x with
  | error e => cases h
  | ok v => cases h; rfl

theorem okSome_none {β : Type} {x : Except PyErr β} (h : okSome x = none) : ∃ e, x = .error e := by
  cases x with
  | error e => exact ⟨e, rfl⟩
  | ok v => cases h

/-! ## energies of secondaries -/

/-- C162, secondary energies without the cut at the impact energy: the energies returned are independent and follow the law `ν`
of the generator (a lognormal law in the code) conditioned on not exceeding `E_th`. -/
theorem C162_energies (ν : MeasureTheory.Measure ℝ) [IsProbabilityMeasure ν] (eTh thLow : ℝ) (su : ℕ → ℝ) (eImp : List ℝ) :
    TruncatedLaw (fun _ => ν) eImp.length (fun _ => Set.Iic eTh) (fun _ x => x)
      (fun k ω => energiesOf (hilleret 0 eTh thLow (hillDraws (k := k) ω su) eImp)) := by
  have h := truncated_gLoop (fun _ => ν) eImp.length (fun i => eImp.getD i 0) (fun _ x => x) (fun _ e => decide (eTh < e)) (fun _ p => p.2) 0
    (fun i _ => by
      have : {x : ℝ | decide (eTh < x) = false} = Set.Iic eTh := by ext x; simp
      rw [this]; exact measurableSet_Iic)
    (fun i _ => measurable_id)
  refine h.congr (fun i _ => ?_) (fun i _ => rfl) (fun k ω => ?_) (fun k ω r r' h1 h2 i hi => ?_)
  · ext x; simp
  all_goals
    have hg := enReject_gLoop (fun (_ : ℝ) e => decide (eTh < e)) ((List.range' 1 k).map (drawAt ω))
      ((List.range eImp.length).map (fun i => (eImp.getD i 0, drawAt ω 0 i)))
  · unfold hilleret hillDraws
    rw [if_pos rfl, mapIdx_range]
    simp only
    rw [Option.isSome_map, ← hg]
    cases enReject (fun (_ : ℝ) e => decide (eTh < e)) ((List.range' 1 k).map (drawAt ω))
      ((List.range eImp.length).map (fun i => (eImp.getD i 0, drawAt ω 0 i))) <;> rfl
  · unfold hilleret hillDraws at h2
    rw [if_pos rfl, mapIdx_range] at h2
    simp only at h2
    rw [Option.map_eq_some_iff] at h1
    obtain ⟨l, hl, rfl⟩ := h1
    rw [hl] at hg
    rw [okSome_some hg] at h2
    cases h2
    have := gLoop_length _ _ _ _ _ hl
    have hi2 : i < l.length := by rw [this]; simpa using hi
    simp [List.getD_eq_getElem?_getD, hi2]

/-- C162, secondary energies cut at the impact energy: for impacts at or above the low-energy threshold, the energy follows the law of
the generator conditioned on not exceeding `E_th` nor the impact energy; below it, it is the impact energy times the root of a
uniform number. -/
theorem C162_energies_cut (ν : MeasureTheory.Measure ℝ) [IsProbabilityMeasure ν] (eTh thLow : ℝ) (su : ℕ → ℝ) (eImp : List ℝ) :
    TruncatedLaw (fun _ => ν) eImp.length
      (fun i => if eImp.getD i 0 < thLow then Set.univ else Set.Iic (min eTh (eImp.getD i 0)))
      (fun i x => if eImp.getD i 0 < thLow then eImp.getD i 0 * su i else x)
      (fun k ω => energiesOf (hilleret 2 eTh thLow (hillDraws (k := k) ω su) eImp)) := by
  let cap : ℝ → ℝ := fun e => if eTh < e then eTh else e
  have hcap : ∀ e, cap e = min eTh e := by
    intro e
    simp only [cap]
    split_ifs with hh
    · exact (min_eq_left hh.le).symm
    · exact (min_eq_right (not_lt.1 hh)).symm
  have hset : ∀ i, {x : ℝ | (decide (cap (eImp.getD i 0) < x) && !decide (eImp.getD i 0 < thLow)) = false} =
      if eImp.getD i 0 < thLow then Set.univ else Set.Iic (min eTh (eImp.getD i 0)) := by
    intro i
    rw [hcap]
    ext x
    split_ifs with hh
    · simp only [hh, decide_true, Bool.not_true, Bool.and_false, Set.mem_setOf_eq, Set.mem_univ]
    · simp only [hh, decide_false, Bool.not_false, Bool.and_true, decide_eq_false_iff_not, not_lt, Set.mem_setOf_eq, Set.mem_Iic]
  have h := truncated_gLoop (fun _ => ν) eImp.length (fun i => eImp.getD i 0) (fun _ x => x)
    (fun eI e => decide (cap eI < e) && !decide (eI < thLow)) (fun i p => if p.1 < thLow then p.1 * su i else p.2) 0
    (fun i _ => by
      rw [hset]
      split_ifs
      · exact MeasurableSet.univ
      · exact measurableSet_Iic)
    (fun i _ => by
      simp only
      split_ifs
      · exact measurable_const
      · exact measurable_id)
  refine h.congr (fun i _ => (hset i).symm) (fun i _ => rfl) (fun k ω => ?_) (fun k ω r r' h1 h2 i hi => ?_)
  all_goals
    have hg := enReject_gLoop (fun (eI : ℝ) e => decide (cap eI < e) && !decide (eI < thLow)) ((List.range' 1 k).map (drawAt ω))
      ((List.range eImp.length).map (fun i => (eImp.getD i 0, drawAt ω 0 i)))
  · unfold hilleret hillDraws
    rw [if_neg (by decide), if_pos rfl, mapIdx_range]
    simp only
    rw [Option.isSome_map, ← hg]
    cases enReject (fun (eI : ℝ) e => decide (cap eI < e) && !decide (eI < thLow)) ((List.range' 1 k).map (drawAt ω))
      ((List.range eImp.length).map (fun i => (eImp.getD i 0, drawAt ω 0 i))) <;> rfl
  · unfold hilleret hillDraws at h2
    rw [if_neg (by decide), if_pos rfl, mapIdx_range] at h2
    simp only at h2
    rw [Option.map_eq_some_iff] at h1
    obtain ⟨l, hl, rfl⟩ := h1
    rw [hl] at hg
    have hg' : enReject (fun eI e => decide ((if eTh < eI then eTh else eI) < e) && !decide (eI < thLow)) ((List.range' 1 k).map (drawAt ω))
      ((List.range eImp.length).map (fun i => (eImp.getD i 0, drawAt ω 0 i))) = .ok l := okSome_some hg
    rw [hg'] at h2
    cases h2
    have := gLoop_length _ _ _ _ _ hl
    have hi2 : i < l.length := by rw [this]; simpa using hi
    simp [List.getD_eq_getElem?_getD, hi2]

/-- C162, low impact energies: the impact energy times the root of a uniform number has a density that grows linearly up to the impact
energy, that is, it is at most `t` with probability `(t/E)²`. -/
theorem C162_low (e t : ℝ) (he : 0 < e) (ht : 0 ≤ t) (hte : t ≤ e) :
    volume {u : ℝ | u ∈ Set.Icc (0 : ℝ) 1 ∧ e * √u ≤ t} = ENNReal.ofReal ((t / e) ^ 2) := by
  have h0 : 0 ≤ t / e := div_nonneg ht he.le
  have h1 : t / e ≤ 1 := (div_le_one he).2 hte
  have : {u : ℝ | u ∈ Set.Icc (0 : ℝ) 1 ∧ e * √u ≤ t} = Set.Icc 0 ((t / e) ^ 2) := by
    ext u
    simp only [Set.mem_setOf_eq, Set.mem_Icc]
    rw [mul_comm, ← le_div_iff₀ he]
    constructor
    · rintro ⟨⟨ha, hb⟩, hc⟩
      exact ⟨ha, (Real.sqrt_le_left h0).1 hc⟩
    · rintro ⟨ha, hb⟩
      refine ⟨⟨ha, hb.trans ?_⟩, (Real.sqrt_le_left h0).2 hb⟩
      exact pow_le_one₀ h0 h1
  rw [this, Real.volume_Icc, sub_zero]

/-- the law of the energy generator of the code: exponential of a normal variable -/
noncomputable def lognormalLaw (mu : ℝ) (v : NNReal) : MeasureTheory.Measure ℝ := (gaussianReal mu v).map Real.exp

instance (mu : ℝ) (v : NNReal) : IsProbabilityMeasure (lognormalLaw mu v) :=
  MeasureTheory.Measure.isProbabilityMeasure_map (Real.measurable_exp.aemeasurable)

theorem lognormal_Iic (mu : ℝ) (v : NNReal) (hv : v ≠ 0) (t : ℝ) (ht : 0 < t) : lognormalLaw mu v (Set.Iic t) ≠ 0 := by
  unfold lognormalLaw
  rw [MeasureTheory.Measure.map_apply Real.measurable_exp measurableSet_Iic]
  have : Real.exp ⁻¹' Set.Iic t = Set.Iic (Real.log t) := by
    ext x
    simp only [Set.mem_preimage, Set.mem_Iic]
    exact (Real.le_log_iff_exp_le ht).symm
  rw [this]
  intro h
  have h2 := (gaussianReal_absolutelyContinuous' mu hv) h
  rw [Real.volume_Iic] at h2
  exact absurd h2 (by simp)

/-- C162, termination: with the lognormal generator of the code, both loops over the energies end with probability one, for any positive
`E_th` and, in the second, any positive impact energies. -/
theorem C162_energies_end (mu : ℝ) (v : NNReal) (hv : v ≠ 0) (eTh thLow : ℝ) (hth : 0 < eTh) (su : ℕ → ℝ) (eImp : List ℝ)
    (hpos : ∀ e ∈ eImp, 0 < e) :
    Filter.Tendsto (fun k => drawLaw (fun _ => lognormalLaw mu v) eImp.length k
      {ω | (energiesOf (hilleret 0 eTh thLow (hillDraws ω su) eImp)).isSome}) Filter.atTop (nhds 1) ∧
    Filter.Tendsto (fun k => drawLaw (fun _ => lognormalLaw mu v) eImp.length k
      {ω | (energiesOf (hilleret 2 eTh thLow (hillDraws ω su) eImp)).isSome}) Filter.atTop (nhds 1) := by
  refine ⟨(C162_energies (lognormalLaw mu v) eTh thLow su eImp).almostSurely (fun i _ => lognormal_Iic mu v hv eTh hth),
    (C162_energies_cut (lognormalLaw mu v) eTh thLow su eImp).almostSurely (fun i hi => ?_)⟩
  split_ifs with h
  · rw [measure_univ]; exact one_ne_zero
  · have hp : 0 < eImp.getD i 0 := by
      rw [List.getD_eq_getElem?_getD, List.getElem?_eq_getElem hi]
      exact hpos _ (List.getElem_mem hi)
    exact lognormal_Iic mu v hv _ (lt_min hth hp)

/-- Non-vacuity: two impacts of 40 and 300 eV, threshold 35 eV, lognormal energies. -/
example := C162_energies_end 1 2 (by norm_num) 35 0 (by norm_num) (fun _ => 0) [40, 300] (by intro e he; fin_cases he <;> norm_num)

/-! ## energies of photoelectrons -/

/-- C162, photoelectron energies: with the Gaussian distribution, the energies are independent and follow the normal law of the given
width and mean conditioned on not being negative; the loop ends with probability one. -/
theorem C162_gaussian (sigma mean : ℝ) (hs : 0 < sigma) (n : ℕ) :
    let res : (k : ℕ) → (Fin n → Fin (k + 1) → ℝ) → Option (ℕ → ℝ) :=
      fun k ω => energiesOf (gaussEnergies sigma mean n (drawAt ω 0) ((List.range' 1 k).map (drawAt ω)))
    TruncatedLaw (fun _ => gaussianReal 0 1) n (fun _ => {x | 0 ≤ x * sigma + mean}) (fun _ x => x * sigma + mean) res ∧
    Filter.Tendsto (fun k => drawLaw (fun _ => gaussianReal 0 1) n k {ω | (res k ω).isSome}) Filter.atTop (nhds 1) := by
  intro res
  have hmeas : Measurable (fun x : ℝ => x * sigma + mean) := by fun_prop
  have h := truncated_gLoop (fun _ => gaussianReal 0 1) n (fun _ => ()) (fun _ x => x * sigma + mean) (fun _ e => decide (e < 0)) (fun _ p => p.2) 0
    (fun i _ => by
      have : {x : ℝ | decide (x * sigma + mean < 0) = false} = (fun x : ℝ => x * sigma + mean) ⁻¹' Set.Ici 0 := by ext x; simp
      rw [this]; exact hmeas measurableSet_Ici)
    (fun i _ => hmeas)
  have hT : TruncatedLaw (fun _ => gaussianReal 0 1) n (fun _ => {x | 0 ≤ x * sigma + mean}) (fun _ x => x * sigma + mean) res := by
    have hmap : ∀ (rs : List (ℕ → ℝ)) (es : List (Unit × ℝ)),
        gLoop (fun p : Unit × ℝ => decide (p.2 < 0)) (fun (r : ℕ → ℝ) i p => (p.1, r i)) (rs.map (fun r i => r i * sigma + mean)) es =
        gLoop (fun p : Unit × ℝ => decide (p.2 < 0)) (fun (r : ℕ → ℝ) i p => (p.1, r i * sigma + mean)) rs es := by
      intro rs
      induction rs with
      | nil => intro es; rw [List.map_nil, gLoop, gLoop]
      | cons r rs ih => intro es; rw [List.map_cons, gLoop, gLoop]; simp only [ih]
    have hg : ∀ (k : ℕ) (ω : Fin n → Fin (k + 1) → ℝ), okSome (enReject (fun (_ : Unit) e => decide (e < 0))
        (((List.range' 1 k).map (drawAt ω)).map (fun r i => r i * sigma + mean)) ((List.range n).map (fun i => ((), drawAt ω 0 i * sigma + mean)))) = _ :=
      fun k ω => (enReject_gLoop _ _ _).trans (hmap _ _)
    refine h.congr (fun i _ => ?_) (fun i _ => rfl) (fun k ω => ?_) (fun k ω r r' h1 h2 i hi => ?_)
    · ext x; simp
    · simp only [res]
      unfold gaussEnergies
      rw [Option.isSome_map, ← hg k ω]
      cases enReject (fun (_ : Unit) e => decide (e < 0)) (((List.range' 1 k).map (drawAt ω)).map (fun r i => r i * sigma + mean))
        ((List.range n).map (fun i => ((), drawAt ω 0 i * sigma + mean))) <;> rfl
    · simp only [res] at h2
      unfold gaussEnergies at h2
      rw [Option.map_eq_some_iff] at h1
      obtain ⟨l, hl, rfl⟩ := h1
      have hg' := hg k ω
      rw [hl] at hg'
      rw [okSome_some hg'] at h2
      cases h2
      have := gLoop_length _ _ _ _ _ hl
      have hi2 : i < l.length := by rw [this]; simpa using hi
      simp [List.getD_eq_getElem?_getD, hi2]
  refine ⟨hT, hT.almostSurely (fun i _ h0 => ?_)⟩
  have h2 := (gaussianReal_absolutelyContinuous' 0 one_ne_zero) h0
  have h3 : {x : ℝ | 0 ≤ x * sigma + mean} = Set.Ici (-mean / sigma) := by
    ext x
    simp only [Set.mem_setOf_eq, Set.mem_Ici]
    rw [div_le_iff₀ hs]
    constructor <;> intro h <;> linarith
  rw [h3, Real.volume_Ici] at h2
  exact absurd h2 (by simp)

/-! ## positions -/

/-- two uniform numbers between 0 and 1 -/
noncomputable def unitSquare : MeasureTheory.Measure (ℝ × ℝ) := volume.restrict (Set.Icc 0 1 ×ˢ Set.Icc 0 1)

instance : IsProbabilityMeasure unitSquare := by
  constructor
  unfold unitSquare
  rw [MeasureTheory.Measure.restrict_apply MeasurableSet.univ, Set.univ_inter, MeasureTheory.Measure.volume_eq_prod, MeasureTheory.Measure.prod_prod]
  simp

/-- the rectangle of the limits -/
def Rect.region (r : Rect ℝ) : Set (ℝ × ℝ) := Set.Icc r.xMin r.xMax ×ˢ Set.Icc r.yMin r.yMax

/-- the draws of a call of the uniform source -/
def uniDraws {n k : ℕ} (u rvx rvy rvz : ℝ) (ω : Fin n → Fin (k + 1) → ℝ × ℝ) : UniDraws ℝ where
  u := u
  x0 := fun i => (drawAt ω 0 i).1
  y0 := fun i => (drawAt ω 0 i).2
  rounds := ((List.range' 1 k).map (drawAt ω)).map (fun r => (fun i => (r i).1, fun i => (r i).2))
  rvx := rvx
  rvy := rvy
  rvz := rvz

theorem affine_volume (a b c d : ℝ) (ha : 0 < a) (hc : 0 < c) (S : Set (ℝ × ℝ)) (hS : MeasurableSet S) :
    volume ((fun q : ℝ × ℝ => (a * q.1 + b, c * q.2 + d)) ⁻¹' S) = ENNReal.ofReal (a⁻¹ * c⁻¹) * volume S := by
  have one : ∀ a b : ℝ, 0 < a → MeasureTheory.Measure.map (fun x : ℝ => a * x + b) volume = ENNReal.ofReal a⁻¹ • volume := by
    intro a b ha
    have h1 := Real.map_volume_mul_left ha.ne'
    have h2 : (fun x : ℝ => a * x + b) = (fun x => x + b) ∘ (fun x => a * x) := rfl
    rw [h2, ← MeasureTheory.Measure.map_map (by fun_prop) (by fun_prop), h1, MeasureTheory.Measure.map_smul, map_add_right_eq_self,
      abs_of_pos (inv_pos.2 ha)]
  have hm : Measurable (fun q : ℝ × ℝ => (a * q.1 + b, c * q.2 + d)) := by fun_prop
  rw [← MeasureTheory.Measure.map_apply hm hS]
  have h : MeasureTheory.Measure.map (fun q : ℝ × ℝ => (a * q.1 + b, c * q.2 + d)) volume =
      (MeasureTheory.Measure.map (fun x : ℝ => a * x + b) volume).prod (MeasureTheory.Measure.map (fun x : ℝ => c * x + d) volume) := by
    rw [MeasureTheory.Measure.map_prod_map _ _ (by fun_prop) (by fun_prop)]
    rfl
  rw [h, one a b ha, one c d hc, MeasureTheory.Measure.prod_smul_left, MeasureTheory.Measure.prod_smul_right, smul_smul,
    MeasureTheory.Measure.smul_apply, ← ENNReal.ofReal_mul (inv_pos.2 ha).le]
  rfl

theorem square_affine (a b c d : ℝ) (ha : 0 < a) (hc : 0 < c) (S : Set (ℝ × ℝ)) (hS : MeasurableSet S) :
    unitSquare ((fun q : ℝ × ℝ => (a * q.1 + b, c * q.2 + d)) ⁻¹' S) =
      ENNReal.ofReal (a⁻¹ * c⁻¹) * volume (S ∩ (Set.Icc b (a + b) ×ˢ Set.Icc d (c + d))) := by
  have hm : Measurable (fun q : ℝ × ℝ => (a * q.1 + b, c * q.2 + d)) := by fun_prop
  unfold unitSquare
  rw [MeasureTheory.Measure.restrict_apply (hm hS), ← affine_volume a b c d ha hc _ (hS.inter (measurableSet_Icc.prod measurableSet_Icc)),
    Set.preimage_inter]
  congr 2
  ext q
  simp only [Set.mem_prod, Set.mem_Icc, Set.mem_preimage]
  constructor
  · rintro ⟨⟨h1, h2⟩, h3, h4⟩
    exact ⟨⟨by nlinarith, by nlinarith⟩, by nlinarith, by nlinarith⟩
  · rintro ⟨⟨h1, h2⟩, h3, h4⟩
    refine ⟨⟨?_, ?_⟩, ?_, ?_⟩
    · by_contra hh; nlinarith
    · by_contra hh; nlinarith
    · by_contra hh; nlinarith
    · by_contra hh; nlinarith

/-- conditioned on a set, the affine image of uniform numbers is uniform on the part of the rectangle in that set -/
theorem cond_uniform (a b c d : ℝ) (ha : 0 < a) (hc : 0 < c) (C B : Set (ℝ × ℝ)) (hC : MeasurableSet C) (hB : MeasurableSet B) :
    unitSquare[|(fun q : ℝ × ℝ => (a * q.1 + b, c * q.2 + d)) ⁻¹' C] ((fun q : ℝ × ℝ => (a * q.1 + b, c * q.2 + d)) ⁻¹' B) =
      volume (B ∩ (C ∩ (Set.Icc b (a + b) ×ˢ Set.Icc d (c + d)))) / volume (C ∩ (Set.Icc b (a + b) ×ˢ Set.Icc d (c + d))) := by
  have hm : Measurable (fun q : ℝ × ℝ => (a * q.1 + b, c * q.2 + d)) := by fun_prop
  rw [cond_apply (hm hC), ← Set.preimage_inter, square_affine a b c d ha hc _ hC, square_affine a b c d ha hc _ (hC.inter hB)]
  have hk : ENNReal.ofReal (a⁻¹ * c⁻¹) ≠ 0 := by
    simp only [ne_eq, ENNReal.ofReal_eq_zero, not_le]; positivity
  have hk2 : ENNReal.ofReal (a⁻¹ * c⁻¹) ≠ ⊤ := ENNReal.ofReal_ne_top
  have hs : C ∩ B ∩ (Set.Icc b (a + b) ×ˢ Set.Icc d (c + d)) = B ∩ (C ∩ (Set.Icc b (a + b) ×ˢ Set.Icc d (c + d))) := by
    ext q; simp only [Set.mem_inter_iff]; tauto
  rw [hs, ENNReal.mul_inv (Or.inl hk) (Or.inl hk2), ENNReal.div_eq_inv_mul]
  rw [show ∀ x y z : ENNReal, (ENNReal.ofReal (a⁻¹ * c⁻¹))⁻¹ * x * (ENNReal.ofReal (a⁻¹ * c⁻¹) * y) =
    ((ENNReal.ofReal (a⁻¹ * c⁻¹))⁻¹ * ENNReal.ofReal (a⁻¹ * c⁻¹)) * (x * y) from fun x y z => by ring, ENNReal.inv_mul_cancel hk hk2, one_mul]
  exact 0

/-- the positions of the macroparticles added to a cloud -/
noncomputable def addedPositions (s : MPs ℝ) : Except PyErr (MPs ℝ) → Option (ℕ → ℝ × ℝ)
  | .ok s' => some (fun i => ((s'.arr .x).getD (s.nmp + i) 0, (s'.arr .y).getD (s.nmp + i) 0))
  | .error _ => none

theorem getD_block (a b c : List ℝ) (n i : ℕ) (ha : a.length = n) (hi : i < b.length) : (a ++ b ++ c).getD (n + i) 0 = b.getD i 0 := by
  rw [List.append_assoc, List.getD_append_right _ _ _ _ (by omega), ha, Nat.add_sub_cancel_left, List.getD_append _ _ _ _ hi]

/-- with room in the arrays, the uniform source fails only with its loop, and stores the points the loop returns -/
theorem addUniform_positions (s : MPs ℝ) (hwf : s.WF) (o : ℝ → ℝ → Bool) (r : Rect ℝ) (v q : ℝ) (d : UniDraws ℝ) (n : ℕ)
    (hn : n = (stochRound (q / s.ref) d.u).toNat) (hpos : 0 < n) (hfit : s.nmp + n ≤ s.cap) :
    match rejectLoop o (uniGen r.xMax r.xMin r.yMax r.yMin) d.rounds
        ((List.range n).map (fun i => ((), uniGen r.xMax r.xMin r.yMax r.yMin () (d.x0 i) (d.y0 i)))) with
    | .error _ => addedPositions s (s.addUniform o r v q d) = none
    | .ok pts => ∃ p, addedPositions s (s.addUniform o r v q d) = some p ∧ ∀ i < n, p i = (pts[i]?.map (·.2)).getD (0, 0) := by
  unfold MPs.addUniform
  simp only [← hn, if_pos hpos]
  split
  · next e he => rw [he]; rfl
  · next pts he =>
    rw [he]
    simp only
    have hpl := rejectLoop_length _ _ _ _ _ he
    simp only [List.length_map, List.length_range] at hpl
    have hsrc : ∀ f ∈ Fld.main, (uniSrc s v d pts f).Fits n := by
      intro f hf
      cases f <;> simp [uniSrc, Src.Fits, hpl]
    rw [assignAll_ok s.arr Fld.main (by decide) _ _ _ hsrc (fun f _ => by rw [hwf.len]; exact hfit)]
    simp only
    obtain ⟨arr1, h1⟩ : ∃ arr1 : Fld → List ℝ, arr1 = (fun f => if f ∈ Fld.main then
      (s.arr f).take s.nmp ++ (uniSrc s v d pts f).expand n ++ (s.arr f).drop (s.nmp + n) else s.arr f) := ⟨_, rfl⟩
    rw [← h1]
    have hx : arr1 .x = (s.arr .x).take s.nmp ++ pts.map (·.2.1) ++ (s.arr .x).drop (s.nmp + n) := by rw [h1]; simp [Fld.main, uniSrc, Src.expand]
    have hy : arr1 .y = (s.arr .y).take s.nmp ++ pts.map (·.2.2) ++ (s.arr .y).drop (s.nmp + n) := by rw [h1]; simp [Fld.main, uniSrc, Src.expand]
    have key : ∃ arr2 : Fld → List ℝ, (if s.lifetime = true then assignAll arr1 [.tl] (s.nmp + n) (s.nmp + n + n) (uniSrc s v d pts)
        else .ok arr1) = .ok arr2 ∧ arr2 .x = arr1 .x ∧ arr2 .y = arr1 .y := by
      by_cases hl : s.lifetime = true
      · rw [if_pos hl]
        refine ⟨_, by simp only [assignAll, sliceAssign, uniSrc]; rfl, ?_, ?_⟩
        · rw [Function.update_of_ne (by decide)]
        · rw [Function.update_of_ne (by decide)]
      · rw [if_neg hl]; exact ⟨_, rfl, rfl, rfl⟩
    obtain ⟨arr2, h2, h2x, h2y⟩ := key
    rw [h2]
    refine ⟨_, rfl, fun i hi => ?_⟩
    have lx := hwf.len .x
    have ly := hwf.len .y
    have hip : i < pts.length := by omega
    simp only [h2x, h2y, hx, hy]
    rw [getD_block _ _ _ _ _ (by simp; omega) (by simpa using hip), getD_block _ _ _ _ _ (by simp; omega) (by simpa using hip)]
    simp [List.getD_eq_getElem?_getD, hip]

/-- C162, initial positions: the macroparticles of a uniform distribution with a given number of electrons are independent and each is
uniform on the part `C` of the rectangle inside the chamber, that is, it is in a set `B` with probability `volume (B ∩ C) / volume C`; and
when `C` has positive area the source ends with probability one. -/
theorem C162_uniform (s : MPs ℝ) (hwf : s.WF) (outside : ℝ → ℝ → Bool) (hout : MeasurableSet {q : ℝ × ℝ | outside q.1 q.2 = false}) (r : Rect ℝ)
    (hx : r.xMin < r.xMax) (hy : r.yMin < r.yMax) (v q u rvx rvy rvz : ℝ) (n : ℕ) (hn : n = (stochRound (q / s.ref) u).toNat) (hpos : 0 < n)
    (hfit : s.nmp + n ≤ s.cap) :
    let C : Set (ℝ × ℝ) := {q | outside q.1 q.2 = false} ∩ r.region
    let res : (k : ℕ) → (Fin n → Fin (k + 1) → ℝ × ℝ) → Option (ℕ → ℝ × ℝ) :=
      fun k ω => addedPositions s (s.addUniform outside r v q (uniDraws u rvx rvy rvz ω))
    (∀ (k : ℕ) (B : ℕ → Set (ℝ × ℝ)), (∀ i, MeasurableSet (B i)) →
      drawLaw (fun _ => unitSquare) n k {ω | ∃ p, res k ω = some p ∧ ∀ i < n, p i ∈ B i} =
        drawLaw (fun _ => unitSquare) n k {ω | (res k ω).isSome} * ∏ i ∈ Finset.range n, volume (B i ∩ C) / volume C) ∧
    (volume C ≠ 0 → Filter.Tendsto (fun k => drawLaw (fun _ => unitSquare) n k {ω | (res k ω).isSome}) Filter.atTop (nhds 1)) := by
  intro C res
  have hm : Measurable (fun q : ℝ × ℝ => ((r.xMax - r.xMin) * q.1 + r.xMin, (r.yMax - r.yMin) * q.2 + r.yMin)) := by fun_prop
  have h := truncated_gLoop (fun _ => unitSquare) n (fun _ => ()) (fun _ q => uniGen r.xMax r.xMin r.yMax r.yMin () q.1 q.2)
    (fun _ e => outside e.1 e.2) (fun _ p => p.2) (0, 0) (fun i _ => hm hout) (fun i _ => hm)
  have hT : TruncatedLaw (fun _ => unitSquare) n (fun _ => (fun q : ℝ × ℝ => ((r.xMax - r.xMin) * q.1 + r.xMin, (r.yMax - r.yMin) * q.2 + r.yMin)) ⁻¹'
      {q | outside q.1 q.2 = false}) (fun _ q => ((r.xMax - r.xMin) * q.1 + r.xMin, (r.yMax - r.yMin) * q.2 + r.yMin)) res := by
    have hg : ∀ (k : ℕ) (ω : Fin n → Fin (k + 1) → ℝ × ℝ), okSome (rejectLoop outside (uniGen r.xMax r.xMin r.yMax r.yMin) (uniDraws u rvx rvy rvz ω).rounds
        ((List.range n).map (fun i => ((), uniGen r.xMax r.xMin r.yMax r.yMin () ((uniDraws u rvx rvy rvz ω).x0 i) ((uniDraws u rvx rvy rvz ω).y0 i))))) = _ :=
      fun k ω => rejectLoop_gLoop _ _ _ _
    refine h.congr (fun i _ => rfl) (fun i _ => rfl) (fun k ω => ?_) (fun k ω p p' h1 h2 i hi => ?_)
    · have hp := addUniform_positions s hwf outside r v q (uniDraws u rvx rvy rvz ω) n hn hpos hfit
      rw [Option.isSome_map]
      refine Eq.trans ?_ (congrArg Option.isSome (hg k ω))
      revert hp
      cases rejectLoop outside (uniGen r.xMax r.xMin r.yMax r.yMin) (uniDraws u rvx rvy rvz ω).rounds
        ((List.range n).map (fun i => ((), uniGen r.xMax r.xMin r.yMax r.yMin () ((uniDraws u rvx rvy rvz ω).x0 i) ((uniDraws u rvx rvy rvz ω).y0 i)))) with
      | error e => intro hp; simp only [res]; rw [hp]; rfl
      | ok pts => rintro ⟨p, hp, -⟩; simp only [res]; rw [hp]; rfl
    · have hp := addUniform_positions s hwf outside r v q (uniDraws u rvx rvy rvz ω) n hn hpos hfit
      rw [Option.map_eq_some_iff] at h1
      obtain ⟨l, hl, rfl⟩ := h1
      have hg' := (hg k ω).trans hl
      rw [okSome_some hg'] at hp
      obtain ⟨p2, hp2, hp3⟩ := hp
      simp only [res] at h2
      rw [hp2] at h2
      cases h2
      exact hp3 i hi
  have hax : 0 < r.xMax - r.xMin := sub_pos.2 hx
  have hay : 0 < r.yMax - r.yMin := sub_pos.2 hy
  have hreg : r.region = Set.Icc r.xMin (r.xMax - r.xMin + r.xMin) ×ˢ Set.Icc r.yMin (r.yMax - r.yMin + r.yMin) := by
    rw [sub_add_cancel, sub_add_cancel]; rfl
  refine ⟨fun k B hB => ?_, fun hC => hT.almostSurely (fun i _ h0 => hC ?_)⟩
  · rw [hT.law k B hB]
    congr 1
    refine Finset.prod_congr rfl (fun i _ => ?_)
    rw [cond_uniform _ _ _ _ hax hay _ _ hout (hB i), ← hreg]
  · rw [square_affine _ _ _ _ hax hay _ hout, ← hreg] at h0
    refine (mul_eq_zero.1 h0).resolve_left ?_
    simp only [ENNReal.ofReal_eq_zero, not_le]; positivity

/-! ## gas ionisation -/

/-- two standard normal numbers -/
noncomputable def normalPair : MeasureTheory.Measure (ℝ × ℝ) := (gaussianReal 0 1).prod (gaussianReal 0 1)

instance : IsProbabilityMeasure normalPair := by unfold normalPair; infer_instance

/-- the transverse distribution of a Gaussian beam -/
noncomputable def beamSpot (sx sy xb yb : ℝ) : MeasureTheory.Measure (ℝ × ℝ) :=
  (gaussianReal xb (.mk (sx ^ 2) (sq_nonneg sx))).prod (gaussianReal yb (.mk (sy ^ 2) (sq_nonneg sy)))

theorem normalPair_map (sx sy xb yb : ℝ) :
    MeasureTheory.Measure.map (fun q : ℝ × ℝ => (sx * q.1 + xb, sy * q.2 + yb)) normalPair = beamSpot sx sy xb yb := by
  have one : ∀ s b : ℝ, MeasureTheory.Measure.map (fun x : ℝ => s * x + b) (gaussianReal 0 1) = gaussianReal b (.mk (s ^ 2) (sq_nonneg s)) := by
    intro s b
    have h2 : (fun x : ℝ => s * x + b) = (fun x => x + b) ∘ (fun x => s * x) := rfl
    rw [h2, ← MeasureTheory.Measure.map_map (by fun_prop) (by fun_prop), gaussianReal_map_const_mul, gaussianReal_map_add_const, mul_zero, zero_add, mul_one]
  unfold normalPair beamSpot
  rw [← one sx xb, ← one sy yb, MeasureTheory.Measure.map_prod_map _ _ (by fun_prop) (by fun_prop)]
  rfl

theorem cond_preimage {X Y : Type} [MeasurableSpace X] [MeasurableSpace Y] (ν : MeasureTheory.Measure X) (f : X → Y) (hf : Measurable f) (A B : Set Y)
    (hA : MeasurableSet A) (hB : MeasurableSet B) : ν[|f ⁻¹' A] (f ⁻¹' B) = (MeasureTheory.Measure.map f ν)[|A] B := by
  rw [cond_apply (hf hA), cond_apply hA, MeasureTheory.Measure.map_apply hf hA, MeasureTheory.Measure.map_apply hf (hA.inter hB), Set.preimage_inter]

theorem beamSpot_pos (sx sy xb yb : ℝ) (hx : sx ≠ 0) (hy : sy ≠ 0) : (volume : MeasureTheory.Measure (ℝ × ℝ)) ≪ beamSpot sx sy xb yb := by
  rw [MeasureTheory.Measure.volume_eq_prod]
  unfold beamSpot
  refine MeasureTheory.Measure.AbsolutelyContinuous.prod (gaussianReal_absolutelyContinuous' _ ?_) (gaussianReal_absolutelyContinuous' _ ?_)
  · intro h; exact hx (by simpa using congrArg NNReal.toReal h)
  · intro h; exact hy (by simpa using congrArg NNReal.toReal h)

/-- the draws of a call of the gas source: the number of macroparticles and which of them are uniform are decided before -/
def gasDraws {n k : ℕ} (u rvx rvy rvz : ℝ) (kind : ℕ → ℝ) (ω : Fin n → Fin (k + 1) → ℝ × ℝ) : GasDraws ℝ where
  u := u
  kind := kind
  x0 := fun i => (drawAt ω 0 i).1
  y0 := fun i => (drawAt ω 0 i).2
  rounds := ((List.range' 1 k).map (drawAt ω)).map (fun r => (fun i => (r i).1, fun i => (r i).2))
  rvx := rvx
  rvy := rvy
  rvz := rvz

/-- uniform numbers for the uniform macroparticles, normal ones for the others -/
noncomputable def gasNu (kind : ℕ → ℝ) (frac : ℝ) (i : ℕ) : MeasureTheory.Measure (ℝ × ℝ) := if kind i < frac then unitSquare else normalPair

instance (kind : ℕ → ℝ) (frac : ℝ) (i : ℕ) : IsProbabilityMeasure (gasNu kind frac i) := by unfold gasNu; split_ifs <;> infer_instance

/-- with room in the arrays, the gas source fails only with its loop, and stores the points the loop returns -/
theorem gasGenerate_positions (s : MPs ℝ) (hwf : s.WF) (o : ℝ → ℝ → Bool) (frac xa ya kIon v lam dt sx sy xb yb : ℝ) (d : GasDraws ℝ) (n : ℕ)
    (hn : n = (stochRound (kIon * lam * dt / s.ref) d.u).toNat) (hpos : 0 < n) (hfit : s.nmp + n ≤ s.cap) :
    match rejectLoop o (gasGen xa ya sx sy xb yb) d.rounds
        ((List.range n).map (fun i => (decide (d.kind i < frac), gasGen xa ya sx sy xb yb (decide (d.kind i < frac)) (d.x0 i) (d.y0 i)))) with
    | .error _ => addedPositions s (gasGenerate o frac xa ya kIon v lam dt sx sy xb yb d s) = none
    | .ok pts => ∃ p, addedPositions s (gasGenerate o frac xa ya kIon v lam dt sx sy xb yb d s) = some p ∧ ∀ i < n, p i = (pts[i]?.map (·.2)).getD (0, 0) := by
  unfold gasGenerate
  simp only [← hn, if_pos hpos]
  split
  · next e he => rw [he]; rfl
  · next pts he =>
    rw [he]
    simp only
    have hpl := rejectLoop_length _ _ _ _ _ he
    simp only [List.length_map, List.length_range] at hpl
    have hsrc : ∀ f, (gasSrc s v d pts f).Fits n := by
      intro f
      cases f <;> simp [gasSrc, Src.Fits, hpl]
    unfold MPs.addNew
    rw [assignAll_ok s.arr _ (addFields_nodup _) _ _ _ (fun f _ => hsrc f) (fun f _ => by rw [hwf.len]; exact hfit)]
    refine ⟨_, rfl, fun i hi => ?_⟩
    have lx := hwf.len .x
    have ly := hwf.len .y
    have hip : i < pts.length := by omega
    have hmx : Fld.x ∈ Fld.main ++ (if s.lifetime = true then [Fld.tl] else []) := by simp [Fld.main]
    have hmy : Fld.y ∈ Fld.main ++ (if s.lifetime = true then [Fld.tl] else []) := by simp [Fld.main]
    simp only [if_pos hmx, if_pos hmy, gasSrc, Src.expand]
    rw [getD_block _ _ _ _ _ (by simp; omega) (by simpa using hip), getD_block _ _ _ _ _ (by simp; omega) (by simpa using hip)]
    simp [List.getD_eq_getElem?_getD, hip]

/-- C162, ionised gas: the new macroparticles are independent. One that was chosen to be uniform is uniform on the part `C` of the aperture
rectangle inside the chamber; every other one follows the transverse distribution of the beam conditioned on being inside. When `C` has
positive area the source ends with probability one. -/
theorem C162_gas (s : MPs ℝ) (hwf : s.WF) (outside : ℝ → ℝ → Bool) (hout : MeasurableSet {q : ℝ × ℝ | outside q.1 q.2 = false})
    (frac xa ya kIon v lam dt sx sy xb yb u rvx rvy rvz : ℝ) (kind : ℕ → ℝ) (hx : 0 < xa) (hy : 0 < ya) (hsx : sx ≠ 0) (hsy : sy ≠ 0) (n : ℕ)
    (hn : n = (stochRound (kIon * lam * dt / s.ref) u).toNat) (hpos : 0 < n) (hfit : s.nmp + n ≤ s.cap) :
    let I : Set (ℝ × ℝ) := {q | outside q.1 q.2 = false}
    let C : Set (ℝ × ℝ) := I ∩ (Set.Icc (-xa) xa ×ˢ Set.Icc (-ya) ya)
    let res : (k : ℕ) → (Fin n → Fin (k + 1) → ℝ × ℝ) → Option (ℕ → ℝ × ℝ) :=
      fun k ω => addedPositions s (gasGenerate outside frac xa ya kIon v lam dt sx sy xb yb (gasDraws u rvx rvy rvz kind ω) s)
    (∀ (k : ℕ) (B : ℕ → Set (ℝ × ℝ)), (∀ i, MeasurableSet (B i)) →
      drawLaw (gasNu kind frac) n k {ω | ∃ p, res k ω = some p ∧ ∀ i < n, p i ∈ B i} =
        drawLaw (gasNu kind frac) n k {ω | (res k ω).isSome} *
          ∏ i ∈ Finset.range n, if kind i < frac then volume (B i ∩ C) / volume C else (beamSpot sx sy xb yb)[|I] (B i)) ∧
    (volume C ≠ 0 → Filter.Tendsto (fun k => drawLaw (gasNu kind frac) n k {ω | (res k ω).isSome}) Filter.atTop (nhds 1)) := by
  intro I C res
  have hmu : Measurable (fun q : ℝ × ℝ => (2 * xa * q.1 + -xa, 2 * ya * q.2 + -ya)) := by fun_prop
  have hmg : Measurable (fun q : ℝ × ℝ => (sx * q.1 + xb, sy * q.2 + yb)) := by fun_prop
  have hgt : ∀ q : ℝ × ℝ, gasGen xa ya sx sy xb yb true q.1 q.2 = (2 * xa * q.1 + -xa, 2 * ya * q.2 + -ya) := by
    intro q; simp only [gasGen, if_true]; rw [Prod.mk.injEq]; constructor <;> ring
  have hgf : ∀ q : ℝ × ℝ, gasGen xa ya sx sy xb yb false q.1 q.2 = (sx * q.1 + xb, sy * q.2 + yb) := by
    intro q; simp [gasGen]
  have hm : ∀ b : Bool, Measurable (fun q : ℝ × ℝ => gasGen xa ya sx sy xb yb b q.1 q.2) := by
    intro b; cases b
    · simp only [hgf]; exact hmg
    · simp only [hgt]; exact hmu
  have h := truncated_gLoop (gasNu kind frac) n (fun i => decide (kind i < frac)) (fun b q => gasGen xa ya sx sy xb yb b q.1 q.2)
    (fun _ e => outside e.1 e.2) (fun _ p => p.2) (0, 0) (fun i _ => (hm _) hout) (fun i _ => hm _)
  have hT : TruncatedLaw (gasNu kind frac) n (fun i => (fun q : ℝ × ℝ => gasGen xa ya sx sy xb yb (decide (kind i < frac)) q.1 q.2) ⁻¹' I)
      (fun i q => gasGen xa ya sx sy xb yb (decide (kind i < frac)) q.1 q.2) res := by
    have hg : ∀ (k : ℕ) (ω : Fin n → Fin (k + 1) → ℝ × ℝ), okSome (rejectLoop outside (gasGen xa ya sx sy xb yb) (gasDraws u rvx rvy rvz kind ω).rounds
        ((List.range n).map (fun i => (decide ((gasDraws u rvx rvy rvz kind ω).kind i < frac), gasGen xa ya sx sy xb yb
          (decide ((gasDraws u rvx rvy rvz kind ω).kind i < frac)) ((gasDraws u rvx rvy rvz kind ω).x0 i) ((gasDraws u rvx rvy rvz kind ω).y0 i))))) = _ :=
      fun k ω => rejectLoop_gLoop _ _ _ _
    refine h.congr (fun i _ => rfl) (fun i _ => rfl) (fun k ω => ?_) (fun k ω p p' h1 h2 i hi => ?_)
    · have hp := gasGenerate_positions s hwf outside frac xa ya kIon v lam dt sx sy xb yb (gasDraws u rvx rvy rvz kind ω) n hn hpos hfit
      rw [Option.isSome_map]
      refine Eq.trans ?_ (congrArg Option.isSome (hg k ω))
      revert hp
      cases rejectLoop outside (gasGen xa ya sx sy xb yb) (gasDraws u rvx rvy rvz kind ω).rounds
        ((List.range n).map (fun i => (decide ((gasDraws u rvx rvy rvz kind ω).kind i < frac), gasGen xa ya sx sy xb yb
          (decide ((gasDraws u rvx rvy rvz kind ω).kind i < frac)) ((gasDraws u rvx rvy rvz kind ω).x0 i) ((gasDraws u rvx rvy rvz kind ω).y0 i)))) with
      | error e => intro hp; simp only [res]; rw [hp]; rfl
      | ok pts => rintro ⟨p, hp, -⟩; simp only [res]; rw [hp]; rfl
    · have hp := gasGenerate_positions s hwf outside frac xa ya kIon v lam dt sx sy xb yb (gasDraws u rvx rvy rvz kind ω) n hn hpos hfit
      rw [Option.map_eq_some_iff] at h1
      obtain ⟨l, hl, rfl⟩ := h1
      have hg' := (hg k ω).trans hl
      rw [okSome_some hg'] at hp
      obtain ⟨p2, hp2, hp3⟩ := hp
      simp only [res] at h2
      rw [hp2] at h2
      cases h2
      exact hp3 i hi
  have hax : 0 < 2 * xa := by linarith
  have hay : 0 < 2 * ya := by linarith
  have hreg : C = I ∩ (Set.Icc (-xa) (2 * xa + -xa) ×ˢ Set.Icc (-ya) (2 * ya + -ya)) := by
    rw [show 2 * xa + -xa = xa by ring, show 2 * ya + -ya = ya by ring]
  refine ⟨fun k B hB => ?_, fun hC => hT.almostSurely (fun i _ h0 => hC ?_)⟩
  · rw [hT.law k B hB]
    congr 1
    refine Finset.prod_congr rfl (fun i _ => ?_)
    by_cases hk : kind i < frac
    · simp only [hk, decide_true, if_true, gasNu, hgt]
      rw [cond_uniform _ _ _ _ hax hay _ _ hout (hB i), ← hreg]
    · simp only [hk, decide_false, if_false, gasNu, hgf]
      rw [cond_preimage _ _ hmg _ _ hout (hB i), normalPair_map]
  · by_cases hk : kind i < frac
    · simp only [hk, decide_true, if_true, gasNu, hgt] at h0
      rw [square_affine _ _ _ _ hax hay _ hout, ← hreg] at h0
      refine (mul_eq_zero.1 h0).resolve_left ?_
      simp only [ENNReal.ofReal_eq_zero, not_le]; positivity
    · simp only [hk, decide_false, if_false, gasNu, hgf] at h0
      rw [← MeasureTheory.Measure.map_apply hmg hout, normalPair_map] at h0
      exact measure_mono_null Set.inter_subset_left ((beamSpot_pos sx sy xb yb hsx hsy) h0)

/-! ## chambers -/

theorem measurable_decide {P : ℝ × ℝ → Prop} [DecidablePred P] (h : MeasurableSet {q | P q}) : Measurable (fun q => decide (P q)) := by
  refine measurable_to_bool ?_
  have : (fun q => decide (P q)) ⁻¹' {true} = {q | P q} := by ext q; simp
  rw [this]; exact h

theorem inside_of_measurable {f : ℝ × ℝ → Bool} (h : Measurable f) : MeasurableSet {q | f q = false} := h (MeasurableSet.singleton false)

/-- the chambers the sources are given meet the hypothesis of `C162_uniform` and `C162_gas`: elliptical ones -/
theorem C162_ellipse (a b : ℝ) (ha : 0 < a) (hb : 0 < b) : MeasurableSet {q : ℝ × ℝ | ellOutside a b q.1 q.2 = false} ∧
    volume ({q : ℝ × ℝ | ellOutside a b q.1 q.2 = false} ∩ (Set.Icc (-a) a ×ˢ Set.Icc (-b) b)) ≠ 0 := by
  have hc : Continuous (fun q : ℝ × ℝ => ellLevel a b q.1 q.2) := by unfold ellLevel; fun_prop
  have e : {q : ℝ × ℝ | ellOutside a b q.1 q.2 = false} = (fun q : ℝ × ℝ => ellLevel a b q.1 q.2) ⁻¹' Set.Iio 1 := by
    ext q; simp [ellOutside]
  have ho : IsOpen {q : ℝ × ℝ | ellOutside a b q.1 q.2 = false} := by rw [e]; exact isOpen_Iio.preimage hc
  refine ⟨ho.measurableSet, ?_⟩
  have h1 : IsOpen ({q : ℝ × ℝ | ellOutside a b q.1 q.2 = false} ∩ (Set.Ioo (-a) a ×ˢ Set.Ioo (-b) b)) := ho.inter (isOpen_Ioo.prod isOpen_Ioo)
  have h2 := h1.measure_pos volume ⟨(0, 0), by simp [ellOutside, ellLevel], by simp [ha, hb]⟩
  refine (h2.trans_le (measure_mono (Set.inter_subset_inter_right _ (Set.prod_mono Set.Ioo_subset_Icc_self Set.Ioo_subset_Icc_self)))).ne'

/-- and polygonal ones, with either test -/
theorem C162_polygon (P : Poly ℝ) : MeasurableSet {q : ℝ × ℝ | P.outside q.1 q.2 = false} := by
  have hell : Measurable (fun q : ℝ × ℝ => inEllipse P.cx P.cy q.1 q.2) := by
    unfold inEllipse
    exact measurable_decide (measurableSet_le (by fun_prop) (by fun_prop))
  have hside : ∀ e : Edge ℝ, Measurable (fun q : ℝ × ℝ => decide (0 < e.side q.1 q.2)) := by
    intro e
    unfold Edge.side
    exact measurable_decide (measurableSet_lt (by fun_prop) (by fun_prop))
  have hall : ∀ es : List (Edge ℝ), Measurable (fun q : ℝ × ℝ => es.all (fun e => decide (0 < e.side q.1 q.2))) := by
    intro es
    induction es with
    | nil => simp only [List.all_nil]; exact measurable_const
    | cons e es ih =>
      simp only [List.all_cons]
      exact (measurable_from_prod_countable_left (f := fun p : Bool × Bool => p.1 && p.2) (fun _ => measurable_from_top)).comp ((hside e).prodMk ih)
  have hcross : ∀ vi vj : ℝ × ℝ, Measurable (fun q : ℝ × ℝ => crossing vi vj q.1 q.2) := by
    intro vi vj
    unfold crossing
    have h1 : Measurable (fun q : ℝ × ℝ => decide (q.2 < vi.2)) := measurable_decide (measurableSet_lt (by fun_prop) (by fun_prop))
    have h2 : Measurable (fun q : ℝ × ℝ => decide (q.2 < vj.2)) := measurable_decide (measurableSet_lt (by fun_prop) (by fun_prop))
    have h3 : Measurable (fun q : ℝ × ℝ => decide (q.1 < (vj.1 - vi.1) * (q.2 - vi.2) / (vj.2 - vi.2) + vi.1)) :=
      measurable_decide (measurableSet_lt (by fun_prop) (by fun_prop))
    exact (Measurable.of_discrete (f := fun p : (Bool × Bool) × Bool => (p.1.1 != p.1.2) && p.2)).comp ((h1.prodMk h2).prodMk h3)
  have heo : ∀ (l : List (ℝ × ℝ)) (vj : ℝ × ℝ) (f : ℝ × ℝ → Bool), Measurable f → Measurable (fun q : ℝ × ℝ => evenOddLoop q.1 q.2 l vj (f q)) := by
    intro l
    induction l with
    | nil => intro vj f hf; simpa only [evenOddLoop] using hf
    | cons vi l ih =>
      intro vj f hf
      simp only [evenOddLoop]
      exact ih vi _ ((Measurable.of_discrete (f := fun p : Bool × Bool => if p.1 = true then !p.2 else p.2)).comp ((hcross vi vj).prodMk hf))
  refine inside_of_measurable (f := fun q => P.outside q.1 q.2) ?_
  unfold Poly.outside outsideConvex outsideNonconvex
  split_ifs
  · exact (Measurable.of_discrete (f := fun p : Bool × Bool => !(p.1 || p.2))).comp (hell.prodMk (hall _))
  · exact (Measurable.of_discrete (f := fun p : Bool × Bool => !(p.1 || p.2))).comp (hell.prodMk (heo _ _ _ measurable_const))

/-- two macroparticles in a round chamber, in an empty cloud with room for four -/
example : ∃ (s : MPs ℝ) (n : ℕ), s.WF ∧ n = (stochRound (2 / s.ref) (1 / 2)).toNat ∧ 0 < n ∧ s.nmp + n ≤ s.cap ∧
    Filter.Tendsto (fun k => drawLaw (fun _ => unitSquare) n k {ω | (addedPositions s (s.addUniform (ellOutside 1 1) ⟨1, -1, 1, -1⟩ 0 2
      (uniDraws (1 / 2) 0 0 0 ω))).isSome}) Filter.atTop (nhds 1) := by
  have hw : (MPs.init 4 (1 : ℝ) 2 1 false).WF := ⟨fun f => by cases f <;> simp [MPs.init, MPs.cap], by simp [MPs.init]⟩
  have hn : 2 = (stochRound (2 / (MPs.init 4 (1 : ℝ) 2 1 false).ref) (1 / 2 : ℝ)).toNat := by
    have hf : ⌊(2 : ℝ) / 1⌋ = 2 := by rw [div_one]; norm_num
    change 2 = (stochRound ((2 : ℝ) / 1) (1 / 2)).toNat
    unfold stochRound
    rw [hf]; norm_num; rfl
  have hfit : (MPs.init 4 (1 : ℝ) 2 1 false).nmp + 2 ≤ (MPs.init 4 (1 : ℝ) 2 1 false).cap := by simp [MPs.init, MPs.cap]
  obtain ⟨hm, hv⟩ := C162_ellipse 1 1 one_pos one_pos
  refine ⟨MPs.init 4 1 2 1 false, 2, hw, hn, by norm_num, hfit, ?_⟩
  exact (C162_uniform _ hw (ellOutside 1 1) hm ⟨1, -1, 1, -1⟩ (by norm_num) (by norm_num) 0 2 (1 / 2) 0 0 0 2 hn (by norm_num) hfit).2 hv

end PyECLOUD
