import Verif.Model.SliceSize
import Verif.Spec.SliceSize
import Verif.Props.Rejection
import Mathlib.Probability.Distributions.Gaussian.Real
import Mathlib.MeasureTheory.Measure.Prod

/-! # Property C184: where the electrons made on the residual gas appear in a coupled simulation -/

namespace PyECLOUD

open ProbabilityTheory MeasureTheory

theorem map_sq_sum_nonneg {α : Type} (f : α → ℝ) (l : List α) : 0 ≤ (l.map (fun q => f q ^ 2)).sum := by
  apply List.sum_nonneg
  intro y hy
  obtain ⟨q, -, rfl⟩ := List.mem_map.1 hy
  positivity

theorem npStd_sq (f : ℝ × ℝ → ℝ) (pos : List (ℝ × ℝ)) : npStd (pos.map f) ^ 2 = (varOf f pos : ℝ) := by
  have h0 : 0 ≤ (pos.map (fun q => (f q - meanOf f pos) ^ 2)).sum / (pos.length : ℝ) :=
    div_nonneg (map_sq_sum_nonneg (fun q => f q - meanOf f pos) pos) (Nat.cast_nonneg _)
  have he : npMean ((pos.map f).map (fun x => (x - npMean (pos.map f)) ^ 2)) =
      (pos.map (fun q => (f q - meanOf f pos) ^ 2)).sum / (pos.length : ℝ) := by
    simp [npMean, meanOf, List.map_map, Function.comp_def]
  rw [npStd, he, Real.sq_sqrt h0, varOf, Real.coe_toNNReal _ h0]

theorem gauss_affine (s m : ℝ) (v : NNReal) (h : s ^ 2 = (v : ℝ)) :
    (gaussianReal 0 1).map (fun u => s * u + m) = gaussianReal m v := by
  have h1 : (fun u : ℝ => s * u + m) = (fun x => x + m) ∘ (fun u => s * u) := rfl
  rw [h1, ← Measure.map_map (by fun_prop) (by fun_prop), gaussianReal_map_const_mul, gaussianReal_map_add_const]
  have h2 : (NNReal.mk (s ^ 2) (sq_nonneg _) * 1 : NNReal) = v := by
    apply NNReal.eq
    simp [h]
  rw [h2]; simp

/-- **C184** (law). A slice that interacts and has particles: with independent standard normal draws, a candidate position of an electron
made on the residual gas is Gaussian in both planes, independently, around the mean position of the particles of the slice (shifted by the
offset of the beam) and with the variance of their positions. -/
theorem C184_law (g : EcCfg ℝ) (ppm xAper yAper : ℝ) (sl : SliceIn ℝ) (hi : sl.interacts = true) (hp : sl.pos ≠ []) :
    ((gaussianReal 0 1).prod (gaussianReal 0 1)).map (fun p => sliceGasPos g ppm xAper yAper sl false p.1 p.2) =
      (gaussianReal (meanOf (·.1) sl.pos + g.xOff) (varOf (·.1) sl.pos)).prod
        (gaussianReal (meanOf (·.2) sl.pos + g.yOff) (varOf (·.2) sl.pos)) := by
  have he : (fun p : ℝ × ℝ => sliceGasPos g ppm xAper yAper sl false p.1 p.2) =
      Prod.map (fun u => npStd (sl.pos.map (·.1)) * u + (meanOf (·.1) sl.pos + g.xOff))
        (fun v => npStd (sl.pos.map (·.2)) * v + (meanOf (·.2) sl.pos + g.yOff)) := by
    funext p
    simp [sliceGasPos, gasGen, dummySize, dummyBeam, hi, hp, npMean, meanOf, Prod.map]
  rw [he, ← Measure.map_prod_map _ _ (by fun_prop) (by fun_prop), gauss_affine _ _ _ (npStd_sq _ _),
    gauss_affine _ _ _ (npStd_sq _ _)]

/-- **C184**: a slice without particles, or one that does not interact, has no size: both components are zero. -/
theorem C184_empty (sl : SliceIn ℝ) (h : sl.pos = [] ∨ sl.interacts = false) : (dummySize sl).1 = 0 ∧ (dummySize sl).2 = 0 := by
  rcases h with h | h <;> simp [dummySize, h]

/-- **C184** (size). The sizes of a slice with particles are not negative, and the horizontal one vanishes exactly if all its particles are
at the same horizontal position; likewise vertically. -/
theorem C184_size (sl : SliceIn ℝ) (hi : sl.interacts = true) (hp : sl.pos ≠ []) :
    0 ≤ (dummySize sl).1 ∧ 0 ≤ (dummySize sl).2 ∧
    ((dummySize sl).1 = 0 ↔ ∀ q ∈ sl.pos, ∀ q' ∈ sl.pos, q.1 = q'.1) ∧
    ((dummySize sl).2 = 0 ↔ ∀ q ∈ sl.pos, ∀ q' ∈ sl.pos, q.2 = q'.2) := by
  have key : ∀ f : ℝ × ℝ → ℝ, npStd (sl.pos.map f) = 0 ↔ ∀ q ∈ sl.pos, ∀ q' ∈ sl.pos, f q = f q' := by
    intro f
    have hlen : (0 : ℝ) < sl.pos.length := by exact_mod_cast List.length_pos_iff.2 hp
    have hs := npStd_sq f sl.pos
    rw [varOf, Real.coe_toNNReal _ (div_nonneg (map_sq_sum_nonneg (fun q => f q - meanOf f sl.pos) sl.pos) hlen.le)] at hs
    rw [← sq_eq_zero_iff, hs, div_eq_zero_iff, or_iff_left hlen.ne']
    constructor
    · intro h0
      have hz : ∀ q ∈ sl.pos, f q = meanOf f sl.pos := by
        intro q hq
        have hle : (f q - meanOf f sl.pos) ^ 2 ≤ (sl.pos.map (fun q => (f q - meanOf f sl.pos) ^ 2)).sum := by
          apply List.single_le_sum
          · intro y hy
            obtain ⟨q, -, rfl⟩ := List.mem_map.1 hy
            positivity
          · exact List.mem_map.2 ⟨q, hq, rfl⟩
        have : (f q - meanOf f sl.pos) ^ 2 = 0 := le_antisymm (h0 ▸ hle) (sq_nonneg _)
        have := pow_eq_zero_iff (two_ne_zero) |>.1 this
        linarith
      intro q hq q' hq'
      rw [hz q hq, hz q' hq']
    · intro h
      obtain ⟨q0, hq0⟩ := List.exists_mem_of_ne_nil _ hp
      have hm : meanOf f sl.pos = f q0 := by
        have : sl.pos.map f = sl.pos.map (fun _ => f q0) := List.map_congr_left (fun q hq => h q hq q0 hq0)
        rw [meanOf, this]
        simp only [List.map_const', List.sum_replicate, nsmul_eq_mul]
        field_simp
      have : sl.pos.map (fun q => (f q - meanOf f sl.pos) ^ 2) = sl.pos.map (fun _ => (0 : ℝ)) :=
        List.map_congr_left (fun q hq => by rw [hm, h q hq q0 hq0]; ring)
      rw [this]; simp
  have hd : dummySize sl = (npStd (sl.pos.map (·.1)), npStd (sl.pos.map (·.2))) := by simp [dummySize, hi, hp]
  rw [hd]
  exact ⟨Real.sqrt_nonneg _, Real.sqrt_nonneg _, key _, key _⟩

/-- **C184** (moved slice). Moving the particles of a slice and stretching their distances moves and stretches the candidate positions in
the same way, for the same draws. -/
theorem C184_moved (g : EcCfg ℝ) (ppm xAper yAper : ℝ) (sl sl' : SliceIn ℝ) (a b bx by' : ℝ) (ha : 0 ≤ a) (hb : 0 ≤ b)
    (hx : g.xOff = 0) (hy : g.yOff = 0) (hi : sl.interacts = true) (hi' : sl'.interacts = true) (hp : sl.pos ≠ [])
    (hpos : sl'.pos = sl.pos.map (fun q => (a * q.1 + bx, b * q.2 + by'))) (u v : ℝ) :
    sliceGasPos g ppm xAper yAper sl' false u v =
      (a * (sliceGasPos g ppm xAper yAper sl false u v).1 + bx, b * (sliceGasPos g ppm xAper yAper sl false u v).2 + by') := by
  have hlen : ((sl.pos.length : ℕ) : ℝ) ≠ 0 := by exact_mod_cast (List.length_pos_iff.2 hp).ne'
  have hmean : ∀ (f f' : ℝ × ℝ → ℝ) (s t : ℝ), (∀ q, f' (a * q.1 + bx, b * q.2 + by') = s * f q + t) →
      npMean (sl'.pos.map f') = s * npMean (sl.pos.map f) + t := by
    intro f f' s t hf
    rw [hpos]
    simp only [npMean, List.map_map, Function.comp_def, hf, List.length_map, List.sum_map_add, List.sum_map_mul_left,
      List.map_const', List.sum_replicate, nsmul_eq_mul]
    field_simp
  have hstd : ∀ (f f' : ℝ × ℝ → ℝ) (s t : ℝ), 0 ≤ s → (∀ q, f' (a * q.1 + bx, b * q.2 + by') = s * f q + t) →
      npStd (sl'.pos.map f') = s * npStd (sl.pos.map f) := by
    intro f f' s t hs hf
    have hm := hmean f f' s t hf
    unfold npStd
    rw [hm]
    have : npMean ((sl'.pos.map f').map (fun x => (x - (s * npMean (sl.pos.map f) + t)) ^ 2)) =
        s ^ 2 * npMean ((sl.pos.map f).map (fun x => (x - npMean (sl.pos.map f)) ^ 2)) := by
      generalize npMean (sl.pos.map f) = m
      rw [hpos]
      have e : ∀ q : ℝ × ℝ, (s * f q + t - (s * m + t)) ^ 2 = s ^ 2 * (f q - m) ^ 2 := fun q => by ring
      simp only [npMean, List.map_map, Function.comp_def, hf, List.length_map, e, List.sum_map_mul_left]
      ring
    rw [this, Real.sqrt_mul (sq_nonneg s), Real.sqrt_sq hs]
  have hp' : sl'.pos ≠ [] := by rw [hpos]; simpa using hp
  have h1 := hstd (·.1) (·.1) a bx ha (fun q => rfl)
  have h2 := hstd (·.2) (·.2) b by' hb (fun q => rfl)
  have h3 := hmean (·.1) (·.1) a bx (fun q => rfl)
  have h4 := hmean (·.2) (·.2) b by' (fun q => rfl)
  simp only [sliceGasPos, gasGen, dummySize, dummyBeam, hi, hi', hp, hp', List.isEmpty_iff, h1, h2, h3, h4, hx, hy,
    Bool.not_true, Bool.or_false, Bool.false_eq_true, if_false, add_zero]
  ext <;> simp <;> ring

/-- **C184** (nothing to ionise). A slice without particles, or one that does not interact with the cloud, makes no electrons on the gas,
whatever the draws in [0, 1). -/
theorem C184_none (outside : ℝ → ℝ → Bool) (unifFrac xAper yAper kIon v0 : ℝ) (g : EcCfg ℝ) (ppm dt : ℝ) (sl : SliceIn ℝ)
    (d : GasDraws ℝ) (s : MPs ℝ) (h : sl.interacts = false ∨ sl.pos = []) (hu : 0 ≤ d.u) :
    sliceGas outside unifFrac xAper yAper kIon v0 g ppm dt sl d s = .ok s := by
  have hl : (dummyBeam g ppm sl).lam = 0 := by
    rcases h with h | h <;> simp [dummyBeam, h]
  simp [sliceGas, gasGenerate, hl, stochRound, not_lt.2 hu]

/-- **C184** (accepted positions). One cloud step of a slice whose particles are not all at the same place in either plane: the new
macroparticles are independent, and each one not chosen to be uniform follows the Gaussian with the mean (plus offset) and the variances of
the particles of the slice, conditioned on lying in the chamber. If the part of the aperture inside the chamber has positive area, the step
ends with probability one. -/
theorem C184_accepted (s : MPs ℝ) (hwf : s.WF) (outside : ℝ → ℝ → Bool) (hout : MeasurableSet {q : ℝ × ℝ | outside q.1 q.2 = false})
    (frac xa ya kIon v0 : ℝ) (g : EcCfg ℝ) (ppm dt : ℝ) (sl : SliceIn ℝ) (u rvx rvy rvz : ℝ) (kind : ℕ → ℝ) (hx : 0 < xa) (hy : 0 < ya)
    (hi : sl.interacts = true) (hsx : ∃ q ∈ sl.pos, ∃ q' ∈ sl.pos, q.1 ≠ q'.1) (hsy : ∃ q ∈ sl.pos, ∃ q' ∈ sl.pos, q.2 ≠ q'.2) (n : ℕ)
    (hn : n = (stochRound (kIon * (ppm / sl.dz * sl.pos.length) * dt / s.ref) u).toNat) (hpos : 0 < n) (hfit : s.nmp + n ≤ s.cap) :
    let I : Set (ℝ × ℝ) := {q | outside q.1 q.2 = false}
    let C : Set (ℝ × ℝ) := I ∩ (Set.Icc (-xa) xa ×ˢ Set.Icc (-ya) ya)
    let beam : MeasureTheory.Measure (ℝ × ℝ) := (gaussianReal (meanOf (·.1) sl.pos + g.xOff) (varOf (·.1) sl.pos)).prod
      (gaussianReal (meanOf (·.2) sl.pos + g.yOff) (varOf (·.2) sl.pos))
    let res : (k : ℕ) → (Fin n → Fin (k + 1) → ℝ × ℝ) → Option (ℕ → ℝ × ℝ) :=
      fun k ω => addedPositions s (sliceGas outside frac xa ya kIon v0 g ppm dt sl (gasDraws u rvx rvy rvz kind ω) s)
    (∀ (k : ℕ) (B : ℕ → Set (ℝ × ℝ)), (∀ i, MeasurableSet (B i)) →
      drawLaw (gasNu kind frac) n k {ω | ∃ p, res k ω = some p ∧ ∀ i < n, p i ∈ B i} =
        drawLaw (gasNu kind frac) n k {ω | (res k ω).isSome} *
          ∏ i ∈ Finset.range n, if kind i < frac then volume (B i ∩ C) / volume C else beam[|I] (B i)) ∧
    (volume C ≠ 0 → Filter.Tendsto (fun k => drawLaw (gasNu kind frac) n k {ω | (res k ω).isSome}) Filter.atTop (nhds 1)) := by
  intro I C beam res
  have hp : sl.pos ≠ [] := by
    obtain ⟨q, hq, -⟩ := hsx
    exact List.ne_nil_of_mem hq
  obtain ⟨-, -, z1, z2⟩ := C184_size sl hi hp
  have h1 : (dummySize sl).1 ≠ 0 := by
    intro h0
    obtain ⟨q, hq, q', hq', hne⟩ := hsx
    exact hne (z1.1 h0 q hq q' hq')
  have h2 : (dummySize sl).2 ≠ 0 := by
    intro h0
    obtain ⟨q, hq, q', hq', hne⟩ := hsy
    exact hne (z2.1 h0 q hq q' hq')
  have hd : dummySize sl = (npStd (sl.pos.map (·.1)), npStd (sl.pos.map (·.2))) := by simp [dummySize, hi, hp]
  have hb : dummyBeam g ppm sl =
      ⟨ppm / sl.dz * (sl.pos.length : ℝ), meanOf (·.1) sl.pos + g.xOff, meanOf (·.2) sl.pos + g.yOff, true⟩ := by
    simp [dummyBeam, hi, hp, npMean, meanOf]
  have hbeam : beamSpot (dummySize sl).1 (dummySize sl).2 (dummyBeam g ppm sl).xPos (dummyBeam g ppm sl).yPos = beam := by
    have e1 : (NNReal.mk (npStd (sl.pos.map (·.1)) ^ 2) (sq_nonneg _) : NNReal) = varOf (·.1) sl.pos := NNReal.eq (npStd_sq _ _)
    have e2 : (NNReal.mk (npStd (sl.pos.map (·.2)) ^ 2) (sq_nonneg _) : NNReal) = varOf (·.2) sl.pos := NNReal.eq (npStd_sq _ _)
    rw [hd, hb, beamSpot]
    simp only [e1, e2, beam]
  have h := C162_gas s hwf outside hout frac xa ya kIon v0 (dummyBeam g ppm sl).lam dt (dummySize sl).1 (dummySize sl).2
    (dummyBeam g ppm sl).xPos (dummyBeam g ppm sl).yPos u rvx rvy rvz kind hx hy h1 h2 n (by rw [hn, hb]) hpos hfit
  rw [hbeam] at h
  exact h

/-- Three particles at 0, 1 and 2: mean 1, variance 2/3. -/
example : let sl : SliceIn ℝ := ⟨1, none, [(0, 0), (1, 0), (2, 0)], []⟩
    sl.interacts = true ∧ sl.pos ≠ [] ∧ meanOf (·.1) sl.pos = 1 ∧ (varOf (·.1) sl.pos : ℝ) = 2 / 3 ∧ (dummySize sl).2 = 0 := by
  intro sl
  have hm : meanOf (·.1) sl.pos = 1 := by norm_num [meanOf, sl]
  refine ⟨rfl, by simp [sl], hm, ?_, ?_⟩
  · rw [varOf, hm, Real.coe_toNNReal _ (by simp [sl]; positivity)]
    norm_num [sl]
  · exact ((C184_size sl rfl (by simp [sl])).2.2.2).2 (by simp [sl])

/-- The hypotheses of the moved slice are met: twice the distances, moved by one. -/
example : ∃ sl sl' : SliceIn ℝ, sl.interacts = true ∧ sl'.interacts = true ∧ sl.pos ≠ [] ∧
    sl'.pos = sl.pos.map (fun q => (2 * q.1 + 1, 1 * q.2 + 0)) :=
  ⟨⟨1, none, [(0, 0), (1, 3)], []⟩, ⟨1, none, [(1, 0), (3, 3)], []⟩, rfl, rfl, by simp, by norm_num⟩

/-- The hypotheses of the accepted positions are met: a round chamber, two particles, two new macroparticles. -/
example : ∃ (s : MPs ℝ) (sl : SliceIn ℝ) (n : ℕ), s.WF ∧ MeasurableSet {q : ℝ × ℝ | ellOutside 1 1 q.1 q.2 = false} ∧ sl.interacts = true ∧
    (∃ q ∈ sl.pos, ∃ q' ∈ sl.pos, q.1 ≠ q'.1) ∧ (∃ q ∈ sl.pos, ∃ q' ∈ sl.pos, q.2 ≠ q'.2) ∧
    n = (stochRound (1 * (1 / sl.dz * sl.pos.length) * 1 / s.ref) (1 / 2)).toNat ∧ 0 < n ∧ s.nmp + n ≤ s.cap := by
  refine ⟨MPs.init 4 (1 : ℝ) 2 1 false, ⟨1, none, [(0, 0), (1, 1)], []⟩, 2,
    ⟨fun f => by cases f <;> simp [MPs.init, MPs.cap], by simp [MPs.init]⟩, (C162_ellipse 1 1 one_pos one_pos).1, rfl,
    ⟨(0, 0), by simp, (1, 1), by simp, by norm_num⟩, ⟨(0, 0), by simp, (1, 1), by simp, by norm_num⟩, ?_, by norm_num,
    by simp [MPs.init, MPs.cap]⟩
  have e : (1 : ℝ) * (1 / 1 * (([(0, 0), (1, 1)] : List (ℝ × ℝ)).length : ℝ)) * 1 / 1 = 2 := by norm_num
  change 2 = (stochRound ((1 : ℝ) * (1 / 1 * (([(0, 0), (1, 1)] : List (ℝ × ℝ)).length : ℝ)) * 1 / 1) (1 / 2)).toNat
  rw [e]
  have hf : ⌊(2 : ℝ)⌋ = 2 := by norm_num
  unfold stochRound
  rw [hf]; norm_num; rfl

end PyECLOUD
