import Verif.Lemmas.Unbiased
import Verif.Props.Regen
import Verif.Props.Sources
import Mathlib.MeasureTheory.Integral.Pi
import Mathlib.Data.List.GetD

/-! # Regenerations do not bias the cloud (C168) -/

set_option linter.unusedSectionVars false

namespace PyECLOUD

section Cells

variable {K : Type} [Field K] [LinearOrder K] [IsStrictOrderedRing K] [FloorRing K]

/-- the cut, the grid and the occupied cells -/
theorem regen_cells (c : FullCfg K) (s : MPs K) (hs : RegenSetup c s) (ht : c.trigger s = true)
    (hy : ∀ p ∈ s.live, |p .y| ≤ c.yAper)
    (h4y : c.ny % 4 ≠ 0) (h4vx : c.nvx % 4 ≠ 0) (h4vy : c.nvy % 4 ≠ 0) (h4vz : c.nvz % 4 ≠ 0)
    (fuel : ℕ) (hf : c.histN ≤ fuel) :
    ∃ (xm : K) (s1 : MPs K) (st : Steps K) (kept : List (Particle K)), c.histDx ≤ xm ∧ s1.WF ∧ s1.cap = s.cap ∧
      s1.ref = max s.ref0 ((s.arr .nel).sum / c.nAfter) ∧ (∀ d, s.checkRegen c fuel d = s1.rebuild c xm d) ∧
      st = stepsOf c s1 xm ∧ kept = s.live.filter (fun p => decide (|p .x| ≤ xm)) ∧
      (s.live.filter (fun p => decide (xm < |p .x|)) = [] ∨
        totalCharge (s.live.filter (fun p => decide (xm < |p .x|))) < c.histCut * totalCharge s.live) ∧
      GridSteps c s xm kept st ∧ (0 < st.x ∧ 0 < st.y ∧ 0 < st.vx ∧ 0 < st.vy ∧ 0 < st.vz) ∧
      (∀ i ∈ s1.occCells c xm, encode c (decode c i) = i) ∧ ((s1.occCells c xm).map (decode c)).Nodup ∧
      (∀ k, k ∈ (s1.occCells c xm).map (decode c) ↔ ∃ p ∈ kept, pointCell c st p = k) ∧
      ∀ i ∈ s1.occCells c xm, cellDens ((s1.indexes c st).zip (s1.arr .nel)) i = cellCharge c st kept (decode c i) := by
  obtain ⟨xm, s1, ⟨h1, h1'⟩, h2, h3, h4, h5, hgs, h6, hdrop⟩ := C14_cut_terminates_small c s hs ht fuel hf
  have hd := hs.dx
  have px := stepOf_pos xm c.nx (lt_of_lt_of_le hd h1) hs.nx
  have py := stepOf_pos c.yAper c.ny hs.ya hs.ny
  have pvx := stepOf_pos _ c.nvx (maxAbs_pos (s1.arr .vx)) hs.nvx
  have pvy := stepOf_pos _ c.nvy (maxAbs_pos (s1.arr .vy)) hs.nvy
  have pvz := stepOf_pos _ c.nvz (maxAbs_pos (s1.arr .vz)) hs.nvz
  set st := stepsOf c s1 xm with hstdef
  set kept := s.live.filter (fun p => decide (|p .x| ≤ xm)) with hkept
  have hmap : ∀ {α : Type} (g : Particle K → α), (∀ p : Particle K, g (p.set .tl 0) = g p) →
      s1.live.map g = kept.map g := by
    intro α g hg
    have e := congrArg (List.map g) h6
    rw [List.map_map, List.map_map] at e
    have : g ∘ (fun p : Particle K => p.set .tl 0) = g := by funext p; exact hg p
    rwa [this] at e
  have inarr : ∀ q1 ∈ s1.live, ∀ f, f ≠ .tl → q1 f ∈ s1.arr f := by
    intro q1 hq1 f hf
    have : q1 f ∈ s1.live.map (fun p => p f) := List.mem_map.2 ⟨q1, hq1, rfl⟩
    rw [live_col_main s1 h2 f hf] at this
    exact List.mem_of_mem_take this
  have hy1 : ∀ q1 ∈ s1.live, |q1 .y| ≤ c.yAper := by
    intro q1 hq1
    have hm := hmap (fun p : Particle K => p .y) (by intro p; simp [Particle.set])
    have : q1 .y ∈ kept.map (fun p => p .y) := by rw [← hm]; exact List.mem_map.2 ⟨q1, hq1, rfl⟩
    obtain ⟨q, hq, e⟩ := List.mem_map.1 this
    rw [← e]
    exact hy q (List.mem_filter.1 hq).1
  have hdec : ∀ q1 ∈ s1.live, decode c (encode c (pCell c st q1)) = pCell c st q1 := by
    intro q1 hq1
    exact decode_encode c _ (axisIdx_range c.ny hs.ny c.yAper (q1 .y) hs.ya (hy1 q1 hq1) (Or.inl h4y))
      (axisIdx_range c.nvx hs.nvx _ (q1 .vx) (maxAbs_pos (s1.arr .vx)) (le_maxAbs _ _ (inarr q1 hq1 .vx (by decide))) (Or.inl h4vx))
      (axisIdx_range c.nvy hs.nvy _ (q1 .vy) (maxAbs_pos (s1.arr .vy)) (le_maxAbs _ _ (inarr q1 hq1 .vy (by decide))) (Or.inl h4vy))
      (axisIdx_range c.nvz hs.nvz _ (q1 .vz) (maxAbs_pos (s1.arr .vz)) (le_maxAbs _ _ (inarr q1 hq1 .vz (by decide))) (Or.inl h4vz))
  have hcellmap : s1.live.map (pCell c st) = kept.map (pCell c st) := hmap _ (by intro p; simp [pCell, Particle.set])
  have hpair : s1.live.map (fun p => (pCell c st p, p .nel)) = kept.map (fun p => (pCell c st p, p .nel)) :=
    hmap _ (by intro p; simp [pCell, Particle.set])
  have hocc : ∀ i ∈ s1.occCells c xm, ∃ q ∈ s1.live, encode c (pCell c st q) = i := by
    intro i hi
    unfold MPs.occCells at hi
    rw [mem_occupied, indexes_live] at hi
    exact List.mem_map.1 hi
  -- the cells
  have hencdec : ∀ i ∈ s1.occCells c xm, encode c (decode c i) = i := by
    intro i hi
    obtain ⟨q, hq, rfl⟩ := hocc i hi
    rw [hdec q hq]
  have hnd : ((s1.occCells c xm).map (decode c)).Nodup := by
    apply List.Nodup.map_on
    · intro i hi j hj e
      rw [← hencdec i hi, e, hencdec j hj]
    · exact occupied_nodup _
  have hmemc : ∀ k, k ∈ (s1.occCells c xm).map (decode c) ↔ ∃ p ∈ kept, pointCell c st p = k := by
    intro k
    have e1 : (∃ p ∈ kept, pointCell c st p = k) ↔ k ∈ s1.live.map (pCell c st) := by
      rw [hcellmap, List.mem_map]; rfl
    rw [e1]
    constructor
    · intro hk
      obtain ⟨i, hi, rfl⟩ := List.mem_map.1 hk
      obtain ⟨q, hq, rfl⟩ := hocc i hi
      exact List.mem_map.2 ⟨q, hq, (hdec q hq).symm⟩
    · intro hk
      obtain ⟨q, hq, rfl⟩ := List.mem_map.1 hk
      refine List.mem_map.2 ⟨encode c (pCell c st q), ?_, hdec q hq⟩
      unfold MPs.occCells
      rw [mem_occupied, indexes_live]
      exact List.mem_map.2 ⟨q, hq, rfl⟩
  -- the charge in them
  have hdens : ∀ i ∈ s1.occCells c xm,
      cellDens ((s1.indexes c st).zip (s1.arr .nel)) i = cellCharge c st kept (decode c i) := by
    intro i hi
    rw [cellDens_eq]
    have hz : (s1.indexes c st).zip (s1.arr .nel) =
        (s1.live.map (fun p => encode c (pCell c st p))).zip (s1.live.map (fun p => p .nel)) := by
      rw [live_col_main s1 h2 .nel (by decide), indexes_live]
      have hll : (s1.live.map (fun p => encode c (pCell c st p))).length = s1.nmp := by simp [MPs.live]
      conv_lhs => rw [List.zip_eq_zip_take_min]
      have hle : s1.nmp ≤ (s1.arr .nel).length := by rw [h2.len]; exact h2.fits
      rw [hll, Nat.min_eq_left hle]
      congr 1
      rw [List.take_of_length_le hll.le]
    rw [hz, zip_map_filter]
    unfold cellCharge totalCharge
    have e2 : ∀ l : List (Particle K), (l.filter (fun p => decide (pointCell c st p = decode c i))).map (fun p => p .nel) =
        ((l.map (fun p => (pCell c st p, p .nel))).filter (fun q => decide (q.1 = decode c i))).map (·.2) := by
      intro l
      rw [List.filter_map, List.map_map]
      rfl
    rw [e2 kept, ← hpair, ← e2 s1.live]
    congr 2
    apply List.filter_congr
    intro q hq
    have : encode c (pCell c st q) = i ↔ pointCell c st q = decode c i := by
      constructor
      · intro e; rw [← e, hdec q hq]; rfl
      · intro e
        have e' : pCell c st q = decode c i := e
        rw [e', hencdec i hi]
    simp only [this]
  exact ⟨xm, s1, st, kept, h1, h2, h3, h4, h5, rfl, rfl, hdrop, hgs, ⟨px, py, pvx, pvy, pvz⟩, hencdec, hnd, hmemc, hdens⟩

/-- **C168 (counts).** A full regeneration fixes a cut, a phase-space grid and a list of the occupied cells before
any random number is drawn.  Whatever the random numbers, the `i`-th of these cells then receives its number of
electrons divided by the new reference size, rounded up or down by the `i`-th random number, and nothing is made
in any other cell. -/
theorem C168_full_cells (c : FullCfg K) (s : MPs K) (hs : RegenSetup c s) (ht : c.trigger s = true)
    (hy : ∀ p ∈ s.live, |p .y| ≤ c.yAper)
    (h4y : c.ny % 4 ≠ 0) (h4vx : c.nvx % 4 ≠ 0) (h4vy : c.nvy % 4 ≠ 0) (h4vz : c.nvz % 4 ≠ 0)
    (fuel : ℕ) (hf : c.histN ≤ fuel) :
    ∃ (xMax : K) (st : Steps K) (kept : List (Particle K)) (cells : List Cell),
      c.histDx ≤ xMax ∧ kept = s.live.filter (fun p => decide (|p .x| ≤ xMax)) ∧
      (s.live.filter (fun p => decide (xMax < |p .x|)) = [] ∨
        totalCharge (s.live.filter (fun p => decide (xMax < |p .x|))) < c.histCut * totalCharge s.live) ∧
      GridSteps c s xMax kept st ∧ cells.Nodup ∧ (∀ k, k ∈ cells ↔ ∃ p ∈ kept, pointCell c st p = k) ∧
      ∀ (d : FullDraws K) (s' : MPs K), (∀ k, (d.pass k).Unit) → s.checkRegen c fuel d = .ok s' →
        ∃ G : List (Cell × Particle K), s'.live = G.map (·.2) ∧
          (∀ g ∈ G, g.1 ∈ cells ∧ c.outside (g.2 .x) (g.2 .y) = false ∧
            NearCentre st ⟨axisCentre c.nx st.x g.1.ix, axisCentre c.ny st.y g.1.iy, axisCentre c.nvx st.vx g.1.ivx,
              axisCentre c.nvy st.vy g.1.ivy, axisCentre c.nvz st.vz g.1.ivz⟩ g.2 ∧
            g.2 .nel = max s.ref0 ((s.arr .nel).sum / c.nAfter)) ∧
          ∀ (i : ℕ) (hi : i < cells.length),
            (G.filter (fun g => decide (g.1 = cells[i]))).length =
              (stochRound (cellCharge c st kept cells[i] / max s.ref0 ((s.arr .nel).sum / c.nAfter)) (d.rest i)).toNat := by
  obtain ⟨xm, s1, st, kept, h1, h2, h3, h4, h5, hste, hkept, hdrop, hgs, hsp, hencdec, hnd, hmemc, hdens⟩ :=
    regen_cells c s hs ht hy h4y h4vx h4vy h4vz fuel hf
  have hst : st.Nonneg := ⟨hsp.1.le, hsp.2.1.le, hsp.2.2.1.le, hsp.2.2.2.1.le, hsp.2.2.2.2.le⟩
  refine ⟨xm, st, kept, (s1.occCells c xm).map (decode c), h1, hkept, hdrop, hgs, hnd, hmemc, ?_⟩
  intro d s' hu hok
  rw [h5] at hok
  obtain ⟨G, hperm, hG, hl⟩ := rebuild_content s1 s' h2 (by rw [h3]; exact hs.cap) c xm d hu (hste ▸ hst) hok
  rw [← hste] at hperm hG
  -- labels: the cell with the given centre
  have hlab : ∀ g ∈ G, ∃ k ∈ (s1.occCells c xm).map (decode c), g.1 = centres c st k := by
    intro g hg
    have hmem := hperm.subset (List.mem_map.2 ⟨g, hg, rfl⟩)
    obtain ⟨z, hz, hz2⟩ := List.mem_flatMap.1 hmem
    have hz3 := List.eq_of_mem_replicate hz2
    have hz4 := (List.of_mem_zip (a := z.1) (b := z.2) hz).1
    obtain ⟨i, hi, hie⟩ := List.mem_map.1 hz4
    exact ⟨decode c i, List.mem_map.2 ⟨i, hi, rfl⟩, by rw [hz3, ← hie]⟩
  classical
  let lab : Steps K → Cell := fun w =>
    if h : ∃ k ∈ (s1.occCells c xm).map (decode c), w = centres c st k then h.choose else ⟨0, 0, 0, 0, 0⟩
  have hlab2 : ∀ g ∈ G, lab g.1 ∈ (s1.occCells c xm).map (decode c) ∧ g.1 = centres c st (lab g.1) := by
    intro g hg
    have h := hlab g hg
    simp only [lab, dif_pos h]
    exact h.choose_spec
  refine ⟨G.map (fun g => (lab g.1, g.2)), ?_, ?_, ?_⟩
  · rw [hl, List.map_map]; rfl
  · intro g hg
    obtain ⟨g0, hg0, rfl⟩ := List.mem_map.1 hg
    obtain ⟨a, b, _, e, _⟩ := hG g0 hg0
    refine ⟨(hlab2 g0 hg0).1, a, ?_, by rw [e, h4]⟩
    have hn := b
    rw [(hlab2 g0 hg0).2] at hn
    have hc : ∀ (n : ℕ) (D : K) (i : ℤ), axisCentre n D i = centre n D i := by
      intro n D i
      unfold axisCentre centre biasOf
      rw [Int.cast_sub, Int.cast_natCast]
    simp only [hc]
    exact hn
  · intro i hi
    have hi' : i < (s1.occCells c xm).length := by simpa using hi
    have hk : ((s1.occCells c xm).map (decode c))[i] = decode c ((s1.occCells c xm)[i]) := by simp
    rw [hk]
    rw [List.filter_map, List.length_map]
    have e1 : (G.filter ((fun g : Cell × Particle K => decide (g.1 = decode c ((s1.occCells c xm)[i]))) ∘
        (fun g => (lab g.1, g.2)))) = G.filter (fun g => decide (g.1 = centres c st (decode c ((s1.occCells c xm)[i])))) := by
      apply List.filter_congr
      intro g hg
      have := (hlab2 g hg).2
      have h' : lab g.1 = decode c ((s1.occCells c xm)[i]) ↔ g.1 = centres c st (decode c ((s1.occCells c xm)[i])) := by
        constructor
        · intro e; rw [← e]; exact this
        · intro e
          exact centres_inj c st hsp _ _ (this.symm.trans e)
      simp only [Function.comp, h']
    rw [e1]
    have e2 : (G.filter (fun g => decide (g.1 = centres c st (decode c ((s1.occCells c xm)[i]))))).length =
        (G.map (·.1)).count (centres c st (decode c ((s1.occCells c xm)[i]))) := by
      rw [List.count_eq_length_filter, List.filter_map, List.length_map]
      congr 1
    rw [e2, hperm.count_eq]
    have hci : i < (s1.occCounts c xm d).length := by rw [occCells_length]; exact hi'
    have hnd2 : ((((s1.occCells c xm).map (fun j => centres c st (decode c j))).zip (s1.occCounts c xm d)).map (·.1)).Nodup := by
      rw [List.map_fst_zip (by rw [List.length_map, occCells_length])]
      apply List.Nodup.map_on
      · intro a ha b hb e
        have := centres_inj c st hsp _ _ e
        rw [← hencdec a ha, this, hencdec b hb]
      · exact occupied_nodup _
    have hq : (centres c st (decode c ((s1.occCells c xm)[i])), (s1.occCounts c xm d)[i]) ∈
        ((s1.occCells c xm).map (fun j => centres c st (decode c j))).zip (s1.occCounts c xm d) := by
      rw [List.mem_iff_getElem]
      refine ⟨i, by simp [hi', hci], by simp⟩
    rw [count_flatMap_replicate _ hnd2 _ hq]
    simp only [MPs.occCounts, cellCounts, MPs.occDens, List.getElem_mapIdx, List.getElem_map]
    have hd' := hdens _ (List.getElem_mem hi')
    rw [hste] at hd' ⊢
    rw [hd', h4]

end Cells

section Mean

open MeasureTheory

theorem cellCharge_nonneg (c : FullCfg ℝ) (st : Steps ℝ) (l : List (Particle ℝ)) (h : ∀ p ∈ l, 0 ≤ p .nel) (k : Cell) :
    0 ≤ cellCharge c st l k := by
  unfold cellCharge totalCharge
  apply List.sum_nonneg
  intro v hv
  obtain ⟨p, hp, rfl⟩ := List.mem_map.1 hv
  exact h p (List.mem_filter.1 hp).1

theorem stochRound_toNat (x : ℝ) (hx : 0 ≤ x) (u : ℝ) : (((stochRound x u).toNat : ℕ) : ℝ) = ((stochRound x u : ℤ) : ℝ) := by
  have : 0 ≤ stochRound x u := by
    have := Int.floor_nonneg.2 hx
    unfold stochRound
    split <;> omega
  rw [← Int.cast_natCast, Int.toNat_of_nonneg this]

theorem round_int (x : ℝ) : Integrable (fun u => ((stochRound x u : ℤ) : ℝ)) unitM := by
  have e : (fun u => ((stochRound x u : ℤ) : ℝ)) = fun u => (⌊x⌋ : ℝ) + (if u < x - (⌊x⌋ : ℝ) then 1 else 0) := by
    funext u; unfold stochRound; split <;> simp
  rw [e]
  refine (integrable_const _).add (Integrable.of_bound ?_ 1 (Filter.Eventually.of_forall ?_))
  · exact (Measurable.ite measurableSet_Iio measurable_const measurable_const).aestronglyMeasurable
  · intro u
    split <;> simp

/-- average over all the draws of the number of macroparticles made in one cell -/
theorem round_mean (n : ℕ) (i : Fin n) (r w : ℝ) (hr : 0 < r) (hw : 0 ≤ w) :
    Integrable (fun u : Fin n → ℝ => r * (((stochRound (w / r) (u i)).toNat : ℕ) : ℝ)) (uniformDraws n) ∧
    ∫ u, r * (((stochRound (w / r) (u i)).toNat : ℕ) : ℝ) ∂(uniformDraws n) = w := by
  have hq : 0 ≤ w / r := div_nonneg hw hr.le
  simp only [stochRound_toNat _ hq]
  refine ⟨(uniformDraws_integrable_eval n i _ (round_int (w / r))).const_mul r, ?_⟩
  rw [integral_const_mul, uniformDraws_eval n i (fun x => ((stochRound (w / r) x : ℤ) : ℝ)) (round_int _).aestronglyMeasurable,
    unit_interval, C67_rounding_unbiased, mul_div_cancel₀ _ hr.ne']

/-- **C168 (full regeneration).** A full regeneration is unbiased in every cell of its phase-space grid.  The grid and
the occupied cells do not depend on the random numbers; there is one rounding random number per occupied cell.
Averaged over these, whatever the random numbers that place the new macroparticles inside their cells, the charge
made in each cell is exactly the charge that the kept macroparticles had in it, and the total charge made is exactly
the charge kept. -/
theorem C168_full_unbiased (c : FullCfg ℝ) (s : MPs ℝ) (hs : RegenSetup c s) (ht : c.trigger s = true)
    (hy : ∀ p ∈ s.live, |p .y| ≤ c.yAper)
    (h4y : c.ny % 4 ≠ 0) (h4vx : c.nvx % 4 ≠ 0) (h4vy : c.nvy % 4 ≠ 0) (h4vz : c.nvz % 4 ≠ 0)
    (fuel : ℕ) (hf : c.histN ≤ fuel) :
    ∃ (xMax : ℝ) (st : Steps ℝ) (kept : List (Particle ℝ)) (n : ℕ),
      c.histDx ≤ xMax ∧ kept = s.live.filter (fun p => decide (|p .x| ≤ xMax)) ∧ GridSteps c s xMax kept st ∧
      n = (kept.map (pointCell c st)).dedup.length ∧
      ∀ (d : (Fin n → ℝ) → FullDraws ℝ) (run : (Fin n → ℝ) → MPs ℝ),
        (∀ u (i : Fin n), (d u).rest i = u i) → (∀ u k, ((d u).pass k).Unit) →
        (∀ u, (∀ i, u i ∈ Set.Icc (0 : ℝ) 1) → s.checkRegen c fuel (d u) = .ok (run u)) →
        (∃ made : (Fin n → ℝ) → Cell → List (Particle ℝ),
          (∀ u, (∀ i, u i ∈ Set.Icc (0 : ℝ) 1) → ∀ k, (made u k).Sublist (run u).live ∧
            ∀ p ∈ made u k, NearCentre st ⟨axisCentre c.nx st.x k.ix, axisCentre c.ny st.y k.iy,
              axisCentre c.nvx st.vx k.ivx, axisCentre c.nvy st.vy k.ivy, axisCentre c.nvz st.vz k.ivz⟩ p) ∧
          (∀ u, (∀ i, u i ∈ Set.Icc (0 : ℝ) 1) → ∀ p ∈ (run u).live, ∃ k, p ∈ made u k) ∧
          ∀ k, ∫ u, totalCharge (made u k) ∂(uniformDraws n) = cellCharge c st kept k) ∧
        ∫ u, totalCharge (run u).live ∂(uniformDraws n) = totalCharge kept := by
  obtain ⟨xm, st, kept, cells, h1, h2, -, h3, h4, h5, h6⟩ := C168_full_cells c s hs ht hy h4y h4vx h4vy h4vz fuel hf
  set r := max s.ref0 ((s.arr .nel).sum / c.nAfter) with hrdef
  have hrp : 0 < r := lt_max_of_lt_left hs.ref
  have hkn : ∀ p ∈ kept, 0 ≤ p .nel := by
    intro p hp; rw [h2] at hp; exact hs.size p (List.mem_filter.1 hp).1
  have hn : cells.length = (kept.map (pointCell c st)).dedup.length := by
    apply List.Perm.length_eq
    rw [List.perm_ext_iff_of_nodup h4 (List.nodup_dedup _)]
    intro k
    rw [h5, List.mem_dedup, List.mem_map]
  refine ⟨xm, st, kept, cells.length, h1, h2, h3, hn, ?_⟩
  intro d run hd hu hok
  classical
  have hG : ∀ u : Fin cells.length → ℝ, ∃ G : List (Cell × Particle ℝ), (∀ i, u i ∈ Set.Icc (0 : ℝ) 1) →
      (run u).live = G.map (·.2) ∧
      (∀ g ∈ G, g.1 ∈ cells ∧ c.outside (g.2 .x) (g.2 .y) = false ∧
            NearCentre st ⟨axisCentre c.nx st.x g.1.ix, axisCentre c.ny st.y g.1.iy, axisCentre c.nvx st.vx g.1.ivx,
              axisCentre c.nvy st.vy g.1.ivy, axisCentre c.nvz st.vz g.1.ivz⟩ g.2 ∧ g.2 .nel = r) ∧
      ∀ (i : ℕ) (hi : i < cells.length), (G.filter (fun g => decide (g.1 = cells[i]))).length =
              (stochRound (cellCharge c st kept cells[i] / r) ((d u).rest i)).toNat := by
    intro u
    by_cases hc : ∀ i, u i ∈ Set.Icc (0 : ℝ) 1
    · obtain ⟨G, hG⟩ := h6 (d u) (run u) (hu u) (hok u hc)
      exact ⟨G, fun _ => hG⟩
    · exact ⟨[], fun h => absurd h hc⟩
  choose G hG using hG
  have hcharge : ∀ u, (∀ i, u i ∈ Set.Icc (0 : ℝ) 1) → ∀ i : Fin cells.length,
      totalCharge (((G u).filter (fun g => decide (g.1 = cells[(i : ℕ)]))).map (·.2)) =
        r * (((stochRound (cellCharge c st kept cells[(i : ℕ)] / r) (u i)).toNat : ℕ) : ℝ) := by
    intro u hc i
    obtain ⟨-, a, b⟩ := hG u hc
    rw [← hd u i, ← b i i.2]
    unfold totalCharge
    rw [List.map_map]
    have : (((G u).filter (fun g => decide (g.1 = cells[(i : ℕ)]))).map ((fun p : Particle ℝ => p .nel) ∘ fun g => g.2)) =
        List.replicate ((G u).filter (fun g => decide (g.1 = cells[(i : ℕ)]))).length r := by
      rw [List.eq_replicate_iff]
      refine ⟨by simp, ?_⟩
      intro v hv
      obtain ⟨g, hg, rfl⟩ := List.mem_map.1 hv
      exact (a g (List.mem_filter.1 hg).1).2.2.2
    rw [this, List.sum_replicate, nsmul_eq_mul, mul_comm]
  have hae := uniformDraws_cube cells.length
  refine ⟨⟨fun u k => ((G u).filter (fun g => decide (g.1 = k))).map (·.2), ?_, ?_, ?_⟩, ?_⟩
  · intro u hc k
    obtain ⟨a, b, -⟩ := hG u hc
    refine ⟨?_, ?_⟩
    · rw [a]; exact List.Sublist.map _ List.filter_sublist
    · intro p hp
      obtain ⟨g, hg, rfl⟩ := List.mem_map.1 hp
      obtain ⟨g1, g2⟩ := List.mem_filter.1 hg
      have : g.1 = k := by simpa using g2
      rw [← this]
      exact (b g g1).2.2.1
  · intro u hc p hp
    obtain ⟨a, -, -⟩ := hG u hc
    rw [a] at hp
    obtain ⟨g, hg, rfl⟩ := List.mem_map.1 hp
    exact ⟨g.1, List.mem_map.2 ⟨g, List.mem_filter.2 ⟨hg, by simp⟩, rfl⟩⟩
  · intro k
    by_cases hk : k ∈ cells
    · obtain ⟨i, hi, rfl⟩ := List.mem_iff_getElem.1 hk
      rw [← (round_mean cells.length ⟨i, hi⟩ r (cellCharge c st kept cells[i]) hrp (cellCharge_nonneg c st kept hkn _)).2]
      apply integral_congr_ae
      filter_upwards [hae] with u hc
      exact hcharge u hc ⟨i, hi⟩
    · have e0 : cellCharge c st kept k = 0 := by
        unfold cellCharge
        rw [List.filter_eq_nil_iff.2]
        · rfl
        · intro p hp
          have : pointCell c st p ≠ k := fun e => hk ((h5 k).2 ⟨p, hp, e⟩)
          simpa using this
      rw [e0]
      have : (fun u => totalCharge (((G u).filter (fun g => decide (g.1 = k))).map (·.2))) =ᵐ[uniformDraws cells.length] fun _ => 0 := by
        filter_upwards [hae] with u hc
        obtain ⟨-, b, -⟩ := hG u hc
        rw [List.filter_eq_nil_iff.2]
        · rfl
        · intro g hg
          have : g.1 ≠ k := fun e => hk (e ▸ (b g hg).1)
          simpa using this
      rw [integral_congr_ae this]
      simp
  · have hsum : ∀ F : Cell → ℝ, (cells.map F).sum = ∑ i : Fin cells.length, F cells[(i : ℕ)] := by
      intro F
      rw [← List.sum_ofFn]
      congr 1
      apply List.ext_getElem <;> simp
    have e1 : (fun u => totalCharge (run u).live) =ᵐ[uniformDraws cells.length] fun u =>
        ∑ i : Fin cells.length, r * (((stochRound (cellCharge c st kept cells[(i : ℕ)] / r) (u i)).toNat : ℕ) : ℝ) := by
      filter_upwards [hae] with u hc
      obtain ⟨a, b, -⟩ := hG u hc
      rw [a, Finset.sum_congr rfl (fun i _ => (hcharge u hc i).symm)]
      rw [← hsum (fun k => totalCharge (((G u).filter (fun g => decide (g.1 = k))).map (·.2)))]
      have := sum_by_label (G u) (fun g => g.1) (fun g => g.2 .nel) cells h4 (fun g hg => (b g hg).1)
      unfold totalCharge
      simp only [List.map_map]
      exact this.symm
    rw [integral_congr_ae e1, integral_finsetSum _ (fun i _ =>
      (round_mean cells.length i r (cellCharge c st kept cells[(i : ℕ)]) hrp (cellCharge_nonneg c st kept hkn _)).1)]
    rw [Finset.sum_congr rfl (fun i _ =>
      (round_mean cells.length i r (cellCharge c st kept cells[(i : ℕ)]) hrp (cellCharge_nonneg c st kept hkn _)).2)]
    rw [← hsum (fun k => cellCharge c st kept k)]
    exact sum_by_label kept (pointCell c st) (fun p => p .nel) cells h4 (fun p hp => (h5 _).2 ⟨p, hp, rfl⟩)

/-- **C168 (soft regeneration, partial).** If all macroparticles have the same size, a soft regeneration does not bias
the cloud: averaged over its random numbers, the charge in any region of phase space (more generally, weighted with
any function of the macroparticles that does not look at their sizes) is what it was, up to the probability that
nobody survives.  Missing: macroparticles of different sizes, see `C168_soft_violated`. -/
theorem C168_soft_unbiased_partial (s : MPs ℝ) (h : s.WF) (hz : s.ZeroTail) (target : ℕ) (ht : target < s.nmp)
    (w : ℝ) (hw : w ≠ 0) (hsize : ∀ p ∈ s.live, p .nel = w)
    (rand : (Fin s.nmp → ℝ) → ℕ → ℝ) (hr : ∀ u (i : Fin s.nmp), rand u i = u i)
    (φ : Particle ℝ → ℝ) (hφ : ∀ p v, φ (p.set .nel v) = φ p) :
    ∫ u, amount φ (s.softRegen target (rand u)).live ∂(uniformDraws s.nmp) =
      (1 - (((s.nmp : ℝ) - target) / s.nmp) ^ s.nmp) * amount φ s.live := by
  set q := ((s.nmp : ℝ) - target) / s.nmp with hq
  have hn : (0 : ℝ) < s.nmp := by
    have : 0 < s.nmp := by omega
    exact_mod_cast this
  have htn : (target : ℝ) ≤ s.nmp := by exact_mod_cast ht.le
  have hq0 : 0 ≤ q := div_nonneg (by linarith) hn.le
  have hq1 : q ≤ 1 := by
    rw [hq, div_le_one hn]
    have : (0 : ℝ) ≤ target := Nat.cast_nonneg _
    linarith
  have hlive : s.live = (List.range s.nmp).map s.nth := rfl
  have hnel : ∀ i : Fin s.nmp, (s.nth i) .nel = w := by
    intro i
    apply hsize
    rw [hlive]
    exact List.mem_map.2 ⟨i, List.mem_range.2 i.2, rfl⟩
  have hs : ∀ F : Particle ℝ → ℝ, (s.live.map F).sum = ∑ i : Fin s.nmp, F (s.nth i) := by
    intro F
    rw [hlive, List.map_map, ← Finset.sum_range (fun i => F (s.nth i))]
    rfl
  have htot : totalCharge s.live = s.nmp * w := by
    unfold totalCharge
    rw [hs, Finset.sum_congr rfl (fun i _ => hnel i)]
    simp
  have e : ∀ u, amount φ (s.softRegen target (rand u)).live = ∑ i : Fin s.nmp, (s.nmp * w * φ (s.nth i)) * (hit q (u i) / hits q u) := by
    intro u
    rw [soft_amount s h hz target ht u (rand u) (hr u) φ hφ, htot]
    simp only [hnel, ← hq]
    rw [← Finset.sum_mul]
    change _ / (hits q u * w) = _
    rw [Finset.mul_sum, Finset.sum_div]
    apply Finset.sum_congr rfl
    intro i _
    by_cases h0 : hits q u = 0
    · simp [h0]
    · field_simp
  simp only [e]
  rw [integral_finsetSum _ (fun i _ => (share_int q s.nmp i).const_mul _)]
  simp only [integral_const_mul, share_mean q hq0 hq1]
  unfold amount
  rw [hs, Finset.mul_sum]
  apply Finset.sum_congr rfl
  intro i _
  rw [hnel i]
  field_simp

/-- a cloud of one small and one large macroparticle -/
noncomputable def smallLarge : MPs ℝ where
  nmp := 2
  ref := 1
  split := 3
  clTh := 0
  ref0 := 1
  factSplit := 3
  factClean := 0
  lifetime := false
  arr := fun f => match f with
    | .x => [1, 0]
    | .nel => [1, 3]
    | _ => [0, 0]

theorem smallLarge_wf : smallLarge.WF := by
  constructor
  all_goals first
    | (intro f; cases f <;> rfl)
    | exact le_refl 2

/-- **C168 violated for unequal sizes.** A soft regeneration favours small macroparticles.  Here a macroparticle of
size 1 at x = 1 and one of size 3 at x = 0 are thinned to a target of one.  Averaged over the random numbers the
charge at x = 1 becomes 5/4, although the total charge decreases on average. -/
theorem C168_soft_violated : smallLarge.WF ∧ smallLarge.ZeroTail ∧ (∀ p ∈ smallLarge.live, 0 < p .nel) ∧
    amount (fun p => p .x) smallLarge.live = 1 ∧
    ∀ rand : (Fin 2 → ℝ) → ℕ → ℝ, (∀ u (i : Fin 2), rand u i = u i) →
      ∫ u, amount (fun p => p .x) (smallLarge.softRegen 1 (rand u)).live ∂(uniformDraws 2) = 5 / 4 ∧
      ∫ u, amount (fun _ => 1) (smallLarge.softRegen 1 (rand u)).live ∂(uniformDraws 2) = 3 / 4 * totalCharge smallLarge.live := by
  have hz : smallLarge.ZeroTail := by
    intro i hi
    have hi' : 2 ≤ i := hi
    rw [List.getD_eq_default]
    simpa [smallLarge] using hi'
  have hl : smallLarge.live = [smallLarge.nth 0, smallLarge.nth 1] := rfl
  have n0 : (smallLarge.nth 0) .nel = 1 := by simp [MPs.nth, MPs.tracked, smallLarge]
  have n1 : (smallLarge.nth 1) .nel = 3 := by simp [MPs.nth, MPs.tracked, smallLarge]
  have x0 : (smallLarge.nth 0) .x = 1 := by simp [MPs.nth, MPs.tracked, smallLarge]
  have x1 : (smallLarge.nth 1) .x = 0 := by simp [MPs.nth, MPs.tracked, smallLarge]
  refine ⟨smallLarge_wf, hz, ?_, ?_, ?_⟩
  · intro p hp
    rw [hl] at hp
    simp only [List.mem_cons, List.not_mem_nil, or_false] at hp
    rcases hp with rfl | rfl
    · rw [n0]; norm_num
    · rw [n1]; norm_num
  · rw [hl]; simp [amount, n0, n1, x0, x1]
  intro rand hr
  have htot : totalCharge smallLarge.live = 4 := by
    rw [hl]; simp [totalCharge, n0, n1]; norm_num
  have hs : ∀ F : Fin smallLarge.nmp → ℝ, ∑ i, F i = F (0 : Fin 2) + F (1 : Fin 2) := fun F => Fin.sum_univ_two F
  have hq : ((smallLarge.nmp : ℝ) - ((1 : ℕ) : ℝ)) / smallLarge.nmp = 1 / 2 := by
    have : smallLarge.nmp = 2 := rfl
    rw [this]; norm_num
  have key : ∀ (φ : Particle ℝ → ℝ), (∀ p v, φ (p.set .nel v) = φ p) → ∀ u : Fin 2 → ℝ,
      amount φ (smallLarge.softRegen 1 (rand u)).live =
        4 * (hit (1 / 2) (u 0) * φ (smallLarge.nth 0) + hit (1 / 2) (u 1) * (3 * φ (smallLarge.nth 1))) /
          (hit (1 / 2) (u 0) + hit (1 / 2) (u 1) * 3) := by
    intro φ hφ u
    rw [soft_amount smallLarge smallLarge_wf hz 1 (by decide) u (rand u) (hr u) φ hφ, htot, hq, hs, hs]
    change 4 * (hit (1 / 2) (u 0) * ((smallLarge.nth 0) .nel * φ (smallLarge.nth 0)) +
      hit (1 / 2) (u 1) * ((smallLarge.nth 1) .nel * φ (smallLarge.nth 1))) /
      (hit (1 / 2) (u 0) * (smallLarge.nth 0) .nel + hit (1 / 2) (u 1) * (smallLarge.nth 1) .nel) = _
    rw [n0, n1, one_mul, mul_one]
  have hm : ∀ i : Fin 2, ∫ u, hit (1 / 2) (u i) ∂(uniformDraws 2) = 1 / 2 := by
    intro i
    rw [uniformDraws_eval 2 i _ (hit_meas _).aestronglyMeasurable, hit_mean _ (by norm_num) (by norm_num)]
    norm_num
  have hi : ∀ i : Fin 2, Integrable (fun u : Fin 2 → ℝ => hit (1 / 2) (u i)) (uniformDraws 2) :=
    fun i => uniformDraws_integrable_eval 2 i _ (hit_int _)
  have hp : ∫ u : Fin 2 → ℝ, hit (1 / 2) (u 0) * hit (1 / 2) (u 1) ∂(uniformDraws 2) = 1 / 4 := by
    have := integral_fintype_prod_eq_prod (ι := Fin 2) (μ := fun _ => unitM) (fun _ x => hit (1 / 2) x)
    simp only [Fin.prod_univ_two] at this
    unfold uniformDraws
    rw [this, hit_mean _ (by norm_num) (by norm_num)]
    norm_num
  have hpi : Integrable (fun u : Fin 2 → ℝ => hit (1 / 2) (u 0) * hit (1 / 2) (u 1)) (uniformDraws 2) := by
    have := Integrable.fintype_prod (ι := Fin 2) (μ := fun _ => unitM) (f := fun _ x => hit (1 / 2) x) (fun _ => hit_int _)
    simp only [Fin.prod_univ_two] at this
    exact this
  have c01 : ∀ x : ℝ, hit (1 / 2) x = 0 ∨ hit (1 / 2) x = 1 := by
    intro x; unfold hit; split <;> simp
  constructor
  · have e : ∀ u : Fin 2 → ℝ, amount (fun p => p .x) (smallLarge.softRegen 1 (rand u)).live =
        4 * hit (1 / 2) (u 0) - 3 * (hit (1 / 2) (u 0) * hit (1 / 2) (u 1)) := by
      intro u
      rw [key (fun p => p .x) (by intro p v; simp [Particle.set]) u, x0, x1]
      rcases c01 (u 0) with a | a <;> rcases c01 (u 1) with b | b <;> rw [a, b] <;> norm_num
    simp only [e]
    rw [integral_sub ((hi 0).const_mul 4) (hpi.const_mul 3), integral_const_mul, integral_const_mul, hm, hp]
    norm_num
  · have e : ∀ u : Fin 2 → ℝ, amount (fun _ => 1) (smallLarge.softRegen 1 (rand u)).live =
        4 * hit (1 / 2) (u 0) + (4 * hit (1 / 2) (u 1) - 4 * (hit (1 / 2) (u 0) * hit (1 / 2) (u 1))) := by
      intro u
      rw [key (fun _ => 1) (by intro p v; rfl) u]
      rcases c01 (u 0) with a | a <;> rcases c01 (u 1) with b | b <;> rw [a, b] <;> norm_num
    simp only [e]
    have hsub : Integrable (fun u : Fin 2 → ℝ => 4 * hit (1 / 2) (u 1) - 4 * (hit (1 / 2) (u 0) * hit (1 / 2) (u 1)))
      (uniformDraws 2) := ((hi 1).const_mul 4).sub (hpi.const_mul 4)
    rw [integral_add ((hi 0).const_mul 4) hsub,
      integral_sub ((hi 1).const_mul 4) (hpi.const_mul 4), integral_const_mul, integral_const_mul, integral_const_mul, hm, hm, hp, htot]
    norm_num

/-- two macroparticles of the same size -/
noncomputable def twoEqual : MPs ℝ := { smallLarge with arr := fun f => match f with
    | .x => [1, 0]
    | .nel => [2, 2]
    | _ => [0, 0] }

example : twoEqual.WF ∧ twoEqual.ZeroTail ∧ 1 < twoEqual.nmp ∧ (∀ p ∈ twoEqual.live, p .nel = 2) := by
  refine ⟨⟨by intro f; cases f <;> rfl, le_refl 2⟩, ?_, by decide, ?_⟩
  · intro i hi
    have hi' : 2 ≤ i := hi
    rw [List.getD_eq_default]
    simpa [twoEqual] using hi'
  · intro p hp
    have hl : twoEqual.live = [twoEqual.nth 0, twoEqual.nth 1] := rfl
    rw [hl] at hp
    simp only [List.mem_cons, List.not_mem_nil, or_false] at hp
    rcases hp with rfl | rfl <;> simp [MPs.nth, MPs.tracked, twoEqual, smallLarge]

end Mean

end PyECLOUD
