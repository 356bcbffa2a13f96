import Verif.Lemmas.RegenCut
import Verif.Model.Grid
import Verif.Spec.Regen
import Verif.Props.MPSystem

/-! # Properties of the full regeneration (C11-C14) and of the 1D deposition (C20) -/

set_option linter.unusedSectionVars false

namespace PyECLOUD

variable {K : Type} [Field K] [LinearOrder K] [FloorRing K] [IsStrictOrderedRing K]

/-! ## C14 -/

/-- C14: the horizontal cut always terminates (with as many steps as the histogram has nodes), the
remaining cloud consists of exactly the macroparticles with `|x| <= x_max`, `x_max` is at least one
histogram bin, and the discarded macroparticles are either none or carry less than the configured
fraction of the total charge. The rest of the regeneration works on that cut cloud. -/
theorem C14_cut_terminates_small (c : FullCfg K) (s : MPs K) (hs : RegenSetup c s) (ht : c.trigger s = true)
    (fuel : ℕ) (hf : c.histN ≤ fuel) :
    ∃ (xMax : K) (s1 : MPs K), (c.histDx ≤ xMax ∧ xMax ≤ -c.histBias + c.histDx) ∧ s1.WF ∧ s1.cap = s.cap ∧
      s1.ref = max s.ref0 ((s.arr .nel).sum / c.nAfter) ∧
      (∀ d, s.checkRegen c fuel d = s1.rebuild c xMax d) ∧
      GridSteps c s xMax (s.live.filter (fun p => decide (|p .x| ≤ xMax))) (stepsOf c s1 xMax) ∧
      s1.live.map (fun p => p.set .tl 0) =
        (s.live.filter (fun p => decide (|p .x| ≤ xMax))).map (fun p => p.set .tl 0) ∧
      (s.live.filter (fun p => decide (xMax < |p .x|)) = [] ∨
        totalCharge (s.live.filter (fun p => decide (xMax < |p .x|))) < c.histCut * totalCharge s.live) := by
  have hps := xnel_live s hs.wf
  obtain ⟨hist, hh⟩ := computeHist_ok c.histBias c.histDx hs.dx (List.replicate c.histN 0) (by simp [hs.n])
    (s.live.map (fun p => (p .x, p .nel))) (by
      intro q hq
      obtain ⟨p, hp, rfl⟩ := List.mem_map.1 hq
      have := abs_le.1 (hs.inX p hp)
      simp only; linarith)
  have hw : ∀ q ∈ s.live.map (fun p => (p .x, p .nel)), (0 : K) ≤ q.2 := by
    intro q hq
    obtain ⟨p, hp, rfl⟩ := List.mem_map.1 hq
    exact hs.size p hp
  have hlen : hist.length = c.histN := by
    rw [computeHist_length _ _ _ _ _ hh]; simp
  have h0 : ∀ v ∈ hist, 0 ≤ v := computeHist_nonneg _ _ _ _ _ hw (by
    intro v hv; rw [List.eq_of_mem_replicate hv]) hh
  have hsum : hist.sum = totalCharge s.live := by
    have := computeHist_sum _ _ _ _ _ hh
    simpa [totalCharge, List.map_map, Function.comp_def] using this
  have hs0 : 0 ≤ hist.sum := List.sum_nonneg h0
  have hhalf := cutAway_half hist h0
  obtain ⟨iCut, hcut, hle⟩ := cutLoop_terminates hist (c.histCut * hist.sum) fuel 1 ((hist.length + 1) / 2)
    (by
      have := hs.cut1
      have : c.histCut * hist.sum ≤ hist.sum := by nlinarith
      linarith)
    (by rw [hlen]; have := hs.n; omega) (by rw [hlen]; omega)
  obtain ⟨hi1, -, hprev⟩ := cutLoop_ok _ _ _ _ _ hcut
  set xm := xMaxOf c hist.length iCut with hxm
  have hsetwf := setRef_wf s (s.newRef c.nAfter) hs.wf
  have hcx := cutX_wf (s.setRef (s.newRef c.nAfter)) hsetwf xm
  have hN : (hist.length : K) = (c.histN : K) := by rw [hlen]
  have hiK : (iCut : K) ≤ ((c.histN : K) + 1) / 2 := by
    have : 2 * iCut ≤ c.histN + 1 := by rw [hlen] at hle; omega
    have : ((2 * iCut : ℕ) : K) ≤ ((c.histN + 1 : ℕ) : K) := by exact_mod_cast this
    push_cast at this
    linarith
  have hxe : xm = ((c.histN : K) - iCut + 1 - ((c.histN : K) - 1) / 2) * c.histDx := by
    rw [hxm]; unfold xMaxOf; rw [hN, hs.sym]; ring
  have hg := gridSteps_cutX c (s.setRef (s.newRef c.nAfter)) hsetwf xm
  refine ⟨xm, (s.setRef (s.newRef c.nAfter)).cutX xm, ?_, hcx.1, hcx.2.1, ?_, ?_,
    ⟨hg.x, hg.y, hg.vx, hg.vy, hg.vz⟩, ?_, ?_⟩
  · have := hs.dx
    have hi1' : (1 : K) ≤ (iCut : K) := by exact_mod_cast hi1
    rw [hxe, hs.sym]
    constructor <;> nlinarith
  · have : ((s.setRef (s.newRef c.nAfter)).cutX xm).ref = s.newRef c.nAfter := rfl
    rw [this]
    unfold MPs.newRef
    simp only
    split
    · next hl => rw [max_eq_left hl.le]
    · next hl => rw [max_eq_right (not_lt.1 hl)]
  · intro d
    unfold MPs.checkRegen
    rw [if_pos ht]
    simp only
    have e1 : ((((s.setRef (s.newRef c.nAfter)).arr .x).zip ((s.setRef (s.newRef c.nAfter)).arr .nel)).take
        (s.setRef (s.newRef c.nAfter)).nmp) = s.live.map (fun p => (p .x, p .nel)) := hps
    rw [e1, hh]
    simp only
    rw [hcut]
  · exact cutX_live _ hsetwf xm
  · by_cases h1 : iCut = 1
    · left
      rw [List.filter_eq_nil_iff]
      intro p hp
      have := hs.inX p hp
      rw [hs.sym, neg_neg] at this
      have hd := hs.dx
      simp only [decide_eq_true_eq, not_lt]
      rw [hxe, h1]
      push_cast
      nlinarith
    · right
      have hlt := hprev (by omega)
      have htk := computeHist_take _ _ _ _ _ hw hh (iCut - 1)
      have hdr := computeHist_drop _ _ _ _ _ hw hh (hist.length - (iCut - 1)) (by
        rw [List.length_replicate, ← hlen]; rw [hlen] at hle ⊢; have := hs.n; omega)
      have z1 : ∀ m, ((List.replicate c.histN (0 : K)).take m).sum = 0 := by
        intro m; simp
      have z2 : ∀ m, ((List.replicate c.histN (0 : K)).drop m).sum = 0 := by
        intro m; simp
      rw [z1, zero_add] at htk
      rw [z2, zero_add] at hdr
      have hc1 : ((iCut - 1 : ℕ) : K) = (iCut : K) - 1 := by push_cast [hi1]; ring
      have hc2 : ((hist.length - (iCut - 1) : ℕ) : K) = (c.histN : K) - iCut + 1 := by
        rw [Nat.cast_sub (by rw [hlen] at hle ⊢; omega), hc1, hN]; ring
      rw [hc1] at htk
      rw [hc2] at hdr
      -- the discarded charge is counted in the two tails
      have key : ∀ l : List (Particle K), (∀ p ∈ l, 0 ≤ p .nel) →
          totalCharge (l.filter (fun p => decide (xm < |p .x|))) ≤
          (((l.map (fun p => (p .x, p .nel))).filter
            (fun q => decide ((q.1 - c.histBias) / c.histDx < (iCut : K) - 1 - 1))).map (·.2)).sum +
          (((l.map (fun p => (p .x, p .nel))).filter
            (fun q => decide ((c.histN : K) - iCut + 1 ≤ (q.1 - c.histBias) / c.histDx))).map (·.2)).sum := by
        intro l
        induction l with
        | nil => simp [totalCharge]
        | cons p l ih =>
          intro hl
          have ih' := ih (fun q hq => hl q (by simp [hq]))
          have hp0 := hl p (by simp)
          have hA : 0 ≤ (if decide ((p .x - c.histBias) / c.histDx < (iCut : K) - 1 - 1) = true then p .nel else 0) := by
            split <;> simp [hp0]
          have hB : 0 ≤ (if decide ((c.histN : K) - iCut + 1 ≤ (p .x - c.histBias) / c.histDx) = true then p .nel else 0) := by
            split <;> simp [hp0]
          have split1 : ∀ (g : K × K → Bool), ((((p :: l).map (fun p => (p .x, p .nel))).filter g).map (·.2)).sum
              = (if g (p .x, p .nel) = true then p .nel else 0) + (((l.map (fun p => (p .x, p .nel))).filter g).map (·.2)).sum := by
            intro g
            rw [List.map_cons, List.filter_cons]
            split <;> simp
          rw [split1, split1]
          by_cases hx : xm < |p .x|
          · rw [List.filter_cons_of_pos (by simpa using hx)]
            have hd := hs.dx
            have : p .nel ≤ (if decide ((p .x - c.histBias) / c.histDx < (iCut : K) - 1 - 1) = true then p .nel else 0)
                + (if decide ((c.histN : K) - iCut + 1 ≤ (p .x - c.histBias) / c.histDx) = true then p .nel else 0) := by
              rcases lt_abs.1 hx with hx | hx
              · have : (c.histN : K) - iCut + 1 ≤ (p .x - c.histBias) / c.histDx := by
                  rw [le_div_iff₀ hd, hs.sym]
                  rw [hxe] at hx
                  linarith
                have e : (if decide ((c.histN : K) - iCut + 1 ≤ (p .x - c.histBias) / c.histDx) = true then p .nel else 0)
                    = p .nel := if_pos (decide_eq_true this)
                linarith
              · have : (p .x - c.histBias) / c.histDx < (iCut : K) - 1 - 1 := by
                  rw [div_lt_iff₀ hd, hs.sym]
                  rw [hxe] at hx
                  linarith
                have e : (if decide ((p .x - c.histBias) / c.histDx < (iCut : K) - 1 - 1) = true then p .nel else 0)
                    = p .nel := if_pos (decide_eq_true this)
                linarith
            simp only [totalCharge, List.map_cons, List.sum_cons] at ih' ⊢
            linarith
          · rw [List.filter_cons_of_neg (by simpa using hx)]
            linarith
      have hk := key s.live hs.size
      unfold cutAway at hlt
      rw [hsum] at hlt
      linarith

/-! ## C11, C12, C13 -/

/-- C11: after a full regeneration all live macroparticles have exactly the (new) reference size, lie
inside the chamber, have `z = 0` and no impact history. -/
theorem C11_full_regen_uniform (c : FullCfg K) (s s' : MPs K) (hs : RegenSetup c s) (ht : c.trigger s = true)
    (fuel : ℕ) (hf : c.histN ≤ fuel) (d : FullDraws K) (hu : ∀ k, (d.pass k).Unit)
    (hok : s.checkRegen c fuel d = .ok s') :
    ∀ p ∈ s'.live, p .nel = s'.ref ∧ c.outside (p .x) (p .y) = false ∧ p .z = 0 ∧ p .tl = -1 := by
  obtain ⟨xm, s1, ⟨h1, h1'⟩, h2, h3, h4, h5, -, -, -⟩ := C14_cut_terminates_small c s hs ht fuel hf
  rw [h5] at hok
  have hst : (stepsOf c s1 xm).Nonneg := by
    have hd := hs.dx
    constructor
    · exact (stepOf_pos _ _ (lt_of_lt_of_le hd h1) hs.nx).le
    · exact (stepOf_pos _ _ hs.ya hs.ny).le
    · exact (stepOf_pos _ _ (maxAbs_pos _) hs.nvx).le
    · exact (stepOf_pos _ _ (maxAbs_pos _) hs.nvy).le
    · exact (stepOf_pos _ _ (maxAbs_pos _) hs.nvz).le
  obtain ⟨G, -, hG, hl⟩ := rebuild_content s1 s' h2 (by rw [h3]; exact hs.cap) c xm d hu hst hok
  have href : s'.ref = s1.ref := by
    obtain ⟨_, _, -, -, e⟩ := rebuild_ok s1 s' c xm d hok
    rw [e]
  intro p hp
  rw [hl] at hp
  obtain ⟨g, hg, rfl⟩ := List.mem_map.1 hp
  obtain ⟨a1, -, a3, a4, a5⟩ := hG g hg
  exact ⟨by rw [a4, href], a1, a3, a5⟩

/-- C12: the charge of the regenerated cloud differs from the charge left by the horizontal cut by less
than one reference size per occupied phase-space cell (and by nothing when no cell is occupied). -/
theorem C12_full_regen_charge (c : FullCfg K) (s s' : MPs K) (hs : RegenSetup c s) (ht : c.trigger s = true)
    (fuel : ℕ) (hf : c.histN ≤ fuel) (d : FullDraws K) (hr : ∀ i, 0 ≤ d.rest i)
    (hok : s.checkRegen c fuel d = .ok s') :
    ∃ (xMax : K) (st : Steps K), c.histDx ≤ xMax ∧
      (s.live.filter (fun p => decide (xMax < |p .x|)) = [] ∨
        totalCharge (s.live.filter (fun p => decide (xMax < |p .x|))) < c.histCut * totalCharge s.live) ∧
      (∀ kept, kept = s.live.filter (fun p => decide (|p .x| ≤ xMax)) →
        GridSteps c s xMax kept st ∧
        (kept = [] → totalCharge s'.live = 0) ∧
        (kept ≠ [] → |totalCharge s'.live - totalCharge kept| <
          s'.ref * (((kept.map (pCell c st)).dedup.length : ℕ) : K))) := by
  obtain ⟨xm, s1, ⟨h1, h1'⟩, h2, h3, h4, h5, hgs, h6, hdrop⟩ := C14_cut_terminates_small c s hs ht fuel hf
  rw [h5] at hok
  have hc1 : 0 < s1.cap := by rw [h3]; exact hs.cap
  refine ⟨xm, stepsOf c s1 xm, h1, hdrop, ?_⟩
  rintro kept rfl
  refine ⟨hgs, ?_⟩
  set kept := s.live.filter (fun p => decide (|p .x| ≤ xm)) with hkept
  have href : s'.ref = s1.ref := by
    obtain ⟨_, _, -, -, e⟩ := rebuild_ok s1 s' c xm d hok
    rw [e]
  have hrp : 0 < s1.ref := by rw [h4]; exact lt_max_of_lt_left hs.ref
  have hmap : ∀ {α : Type} (g : Particle K → α), (∀ p : Particle K, g (p.set .tl 0) = g p) →
      s1.live.map g = kept.map g := by
    intro α g hg
    have e := congrArg (List.map g) h6
    rw [List.map_map, List.map_map] at e
    have : g ∘ (fun p : Particle K => p.set .tl 0) = g := by funext p; exact hg p
    rwa [this] at e
  have hnel : s1.live.map (fun p => p .nel) = kept.map (fun p => p .nel) := hmap _ (by intro p; simp [Particle.set])
  have hcell : s1.live.map (pCell c (stepsOf c s1 xm)) = kept.map (pCell c (stepsOf c s1 xm)) :=
    hmap _ (by intro p; simp [pCell, Particle.set])
  have hnmp := rebuild_nmp s1 s' c xm d hok
  have hcharge : totalCharge s'.live = s1.ref * ((s1.occCounts c xm d).sum : K) := by
    have hw' := rebuild_wf s1 s' h2 hc1 c xm d hok
    rw [charge_live s' hw'.1, rebuild_nel s1 s' h2 hc1 c xm d hok]
    rw [List.take_append_of_le_length (by simp)]
    simp [hnmp, mul_comm]
  have hdens : (s1.occDens c xm).sum = totalCharge kept := by
    unfold MPs.occDens MPs.occCells
    have hl : (s1.indexes c (stepsOf c s1 xm)).length = s1.nmp := by simp [MPs.indexes]
    rw [occupied_dens_sum _ _ (by rw [hl, h2.len]; exact h2.fits), hl, ← live_col_main s1 h2 .nel (by decide), hnel]
    rfl
  have hnn : ∀ w ∈ s1.occDens c xm, 0 ≤ w := by
    intro w hw
    unfold MPs.occDens at hw
    obtain ⟨i, -, rfl⟩ := List.mem_map.1 hw
    rw [cellDens_eq]
    apply List.sum_nonneg
    intro v hv
    obtain ⟨q, hq, rfl⟩ := List.mem_map.1 hv
    have hq1 := (List.mem_filter.1 hq).1
    have : q.2 ∈ (s1.arr .nel).take s1.nmp := by
      have hl : (s1.indexes c (stepsOf c s1 xm)).length = s1.nmp := by simp [MPs.indexes]
      obtain ⟨j, hj, hje⟩ := List.getElem_of_mem hq1
      rw [List.length_zip, hl] at hj
      rw [List.getElem_zip] at hje
      rw [← hje]
      exact List.mem_take_iff_getElem.2 ⟨j, by omega, rfl⟩
    rw [← live_col_main s1 h2 .nel (by decide), hnel] at this
    obtain ⟨p, hp, e⟩ := List.mem_map.1 this
    rw [← e]
    exact hs.size p (List.mem_filter.1 hp).1
  have hcc := counts_close (s1.occDens c xm) s1.ref hrp hnn d.rest hr
  have hlen1 : (s1.occDens c xm).length = (s1.occCells c xm).length := by simp [MPs.occDens]
  have hcells : (s1.occCells c xm).length ≤ (kept.map (pCell c (stepsOf c s1 xm))).dedup.length := by
    have e : s1.indexes c (stepsOf c s1 xm) = (kept.map (pCell c (stepsOf c s1 xm))).map (encode c) := by
      rw [indexes_live, ← hcell, List.map_map]; rfl
    have hnd := occupied_nodup (s1.indexes c (stepsOf c s1 xm))
    have hsub : ∀ i ∈ s1.occCells c xm, i ∈ (kept.map (pCell c (stepsOf c s1 xm))).dedup.map (encode c) := by
      intro i hi
      unfold MPs.occCells at hi
      rw [mem_occupied, e] at hi
      obtain ⟨k, hk, rfl⟩ := List.mem_map.1 hi
      exact List.mem_map.2 ⟨k, List.mem_dedup.2 hk, rfl⟩
    have := (List.subperm_of_subset hnd hsub).length_le
    rwa [List.length_map] at this
  have hkl : kept.length = s1.nmp := by
    have := congrArg List.length hnel
    rw [List.length_map, List.length_map, live_length] at this
    exact this.symm
  have hcc' : (s1.occCounts c xm d) = cellCounts (s1.occDens c xm) s1.ref d.rest := rfl
  constructor
  · intro hk
    have h0 : s1.nmp = 0 := by rw [← hkl, hk]; rfl
    have : s1.occDens c xm = [] := by
      unfold MPs.occDens MPs.occCells MPs.indexes
      rw [h0]; rfl
    rw [hcharge, hcc', this]
    simp [cellCounts]
  · intro hk
    have hne : s1.occDens c xm ≠ [] := by
      intro he
      have hz : (s1.occCells c xm) = [] := by
        apply List.eq_nil_of_length_eq_zero; rw [← hlen1, he]; rfl
      have hpos : 0 < s1.nmp := by rw [← hkl]; exact List.length_pos_of_ne_nil hk
      have hmem : (s1.indexes c (stepsOf c s1 xm))[0]'(by simp [MPs.indexes, hpos]) ∈ s1.occCells c xm := by
        unfold MPs.occCells
        rw [mem_occupied]
        exact List.getElem_mem _
      rw [hz] at hmem
      simp at hmem
    have := hcc.2 hne
    rw [hcharge, hcc', ← hdens, href]
    refine lt_of_lt_of_le this ?_
    apply mul_le_mul_of_nonneg_left _ hrp.le
    rw [hlen1]
    exact_mod_cast hcells

/-- C13 (partial), one axis: a coordinate in `[-m, m]` is assigned to a cell `1..n` whose centre is the
nearest one (within half a cell). Missing: `n` a multiple of 4 with the coordinate exactly at `-m`, which
is assigned to the non-existing cell 0 (`C13_violated`). -/
theorem C13_nearest_cell_partial (n : ℕ) (hn : 2 ≤ n) (m v : K) (hm : 0 < m) (hv : |v| ≤ m)
    (h4 : n % 4 ≠ 0 ∨ v ≠ -m) :
    1 ≤ axisIdx n (stepOf m n) v ∧ axisIdx n (stepOf m n) v ≤ n ∧
    |v - axisCentre n (stepOf m n) (axisIdx n (stepOf m n) v)| ≤ stepOf m n / 2 ∧
    (∀ j : ℤ, |v - axisCentre n (stepOf m n) (axisIdx n (stepOf m n) v)| ≤
      |v - axisCentre n (stepOf m n) j|) := by
  have hd := stepOf_pos m n hm hn
  have e : ∀ j : ℤ, axisCentre n (stepOf m n) j = centre n (stepOf m n) j := by
    intro j; unfold axisCentre centre biasOf; rw [Int.cast_sub, Int.cast_natCast]
  obtain ⟨r1, r2⟩ := axisIdx_range n hn m v hm hv (h4.imp id (fun h =>
    lt_of_le_of_ne (abs_le.1 hv).1 (Ne.symm h)))
  refine ⟨r1, r2, ?_, ?_⟩
  · rw [e]; exact axisIdx_near n _ v hd
  · intro j; rw [e, e]; exact axisIdx_nearest n _ v hd j

/-- C13 (partial), decoding: within the index ranges, decoding the linear index of a cell returns the cell;
no two cells collide. -/
theorem C13_decode_partial (c : FullCfg K) (k k' : Cell)
    (h : ∀ q : Cell, q = k ∨ q = k' → (1 ≤ q.iy ∧ q.iy ≤ c.ny) ∧ (1 ≤ q.ivx ∧ q.ivx ≤ c.nvx) ∧
      (1 ≤ q.ivy ∧ q.ivy ≤ c.nvy) ∧ (1 ≤ q.ivz ∧ q.ivz ≤ c.nvz)) :
    decode c (encode c k) = k ∧ (encode c k = encode c k' → k = k') := by
  obtain ⟨a1, a2, a3, a4⟩ := h k (Or.inl rfl)
  obtain ⟨b1, b2, b3, b4⟩ := h k' (Or.inr rfl)
  have e1 := decode_encode c k a1 a2 a3 a4
  have e2 := decode_encode c k' b1 b2 b3 b4
  exact ⟨e1, fun he => by rw [← e1, ← e2, he]⟩

/-- C13, end to end (partial): no grid size a multiple of 4 and all macroparticles within the vertical
aperture: every regenerated macroparticle is within one cell, in all five coordinates, of a macroparticle
that existed before. -/
theorem C13_regen_local_partial (c : FullCfg K) (s s' : MPs K) (hs : RegenSetup c s) (ht : c.trigger s = true)
    (hy : ∀ p ∈ s.live, |p .y| ≤ c.yAper)
    (h4y : c.ny % 4 ≠ 0) (h4vx : c.nvx % 4 ≠ 0) (h4vy : c.nvy % 4 ≠ 0) (h4vz : c.nvz % 4 ≠ 0)
    (fuel : ℕ) (hf : c.histN ≤ fuel) (d : FullDraws K) (hu : ∀ k, (d.pass k).Unit)
    (hok : s.checkRegen c fuel d = .ok s') :
    ∃ (xMax : K) (st : Steps K), c.histDx ≤ xMax ∧ xMax ≤ -c.histBias + c.histDx ∧
      GridSteps c s xMax (s.live.filter (fun p => decide (|p .x| ≤ xMax))) st ∧
      ∀ p ∈ s'.live, ∃ q ∈ s.live, |q .x| ≤ xMax ∧ |p .x - q .x| ≤ st.x ∧ |p .y - q .y| ≤ st.y ∧
      |p .vx - q .vx| ≤ st.vx ∧ |p .vy - q .vy| ≤ st.vy ∧ |p .vz - q .vz| ≤ st.vz := by
  obtain ⟨xm, s1, ⟨h1, h1'⟩, h2, h3, h4, h5, hgs, h6, hdrop⟩ := C14_cut_terminates_small c s hs ht fuel hf
  rw [h5] at hok
  have hd := hs.dx
  have px := stepOf_pos xm c.nx (lt_of_lt_of_le hd h1) hs.nx
  have py := stepOf_pos c.yAper c.ny hs.ya hs.ny
  have pvx := stepOf_pos _ c.nvx (maxAbs_pos (s1.arr .vx)) hs.nvx
  have pvy := stepOf_pos _ c.nvy (maxAbs_pos (s1.arr .vy)) hs.nvy
  have pvz := stepOf_pos _ c.nvz (maxAbs_pos (s1.arr .vz)) hs.nvz
  have hst : (stepsOf c s1 xm).Nonneg := ⟨px.le, py.le, pvx.le, pvy.le, pvz.le⟩
  obtain ⟨G, hperm, hG, hl⟩ := rebuild_content s1 s' h2 (by rw [h3]; exact hs.cap) c xm d hu hst hok
  refine ⟨xm, stepsOf c s1 xm, h1, h1', hgs, ?_⟩
  intro p hp
  rw [hl] at hp
  obtain ⟨g, hg, rfl⟩ := List.mem_map.1 hp
  have hmem : g.1 ∈ (((s1.occCells c xm).map (fun i => centres c (stepsOf c s1 xm) (decode c i))).zip
        (s1.occCounts c xm d)).flatMap (fun c => List.replicate c.2 c.1) :=
    hperm.subset (List.mem_map.2 ⟨g, hg, rfl⟩)
  obtain ⟨z, hz, hz2⟩ := List.mem_flatMap.1 hmem
  have hz3 := List.eq_of_mem_replicate hz2
  have hz4 := (List.of_mem_zip (a := z.1) (b := z.2) hz).1
  obtain ⟨i, hi, hie⟩ := List.mem_map.1 hz4
  unfold MPs.occCells at hi
  rw [mem_occupied, indexes_live] at hi
  obtain ⟨q1, hq1, rfl⟩ := List.mem_map.1 hi
  -- the old macroparticle
  have hq' : q1.set .tl 0 ∈ s1.live.map (fun p => p.set .tl 0) := List.mem_map.2 ⟨q1, hq1, rfl⟩
  rw [h6] at hq'
  obtain ⟨q, hq, hqe⟩ := List.mem_map.1 hq'
  have hqf : ∀ f, f ≠ .tl → q f = q1 f := by
    intro f hf
    have := congrFun hqe f
    simpa [Particle.set, Function.update_of_ne hf] using this
  have hqlive := (List.mem_filter.1 hq).1
  refine ⟨q, hqlive, by simpa using (List.mem_filter.1 hq).2, ?_⟩
  have inarr : ∀ f, f ≠ .tl → q1 f ∈ s1.arr f := by
    intro f hf
    have : q1 f ∈ s1.live.map (fun p => p f) := List.mem_map.2 ⟨q1, hq1, rfl⟩
    rw [live_col_main s1 h2 f hf] at this
    exact List.mem_of_mem_take this
  have ry := axisIdx_range c.ny hs.ny c.yAper (q1 .y) hs.ya (by rw [← hqf .y (by decide)]; exact hy q hqlive) (Or.inl h4y)
  have rvx := axisIdx_range c.nvx hs.nvx _ (q1 .vx) (maxAbs_pos (s1.arr .vx)) (le_maxAbs _ _ (inarr .vx (by decide))) (Or.inl h4vx)
  have rvy := axisIdx_range c.nvy hs.nvy _ (q1 .vy) (maxAbs_pos (s1.arr .vy)) (le_maxAbs _ _ (inarr .vy (by decide))) (Or.inl h4vy)
  have rvz := axisIdx_range c.nvz hs.nvz _ (q1 .vz) (maxAbs_pos (s1.arr .vz)) (le_maxAbs _ _ (inarr .vz (by decide))) (Or.inl h4vz)
  have hdec : decode c (encode c (pCell c (stepsOf c s1 xm) q1)) = pCell c (stepsOf c s1 xm) q1 :=
    decode_encode c _ ry rvx rvy rvz
  rw [hdec] at hie
  obtain ⟨-, hn, -⟩ := hG g hg
  rw [hz3, ← hie] at hn
  have near : ∀ (n : ℕ) (D a b : K), 0 < D → |a - centre n D (axisIdx n D b)| ≤ D / 2 → |a - b| ≤ D := by
    intro n D a b hD hab
    have h1 := axisIdx_near n D b hD
    have := abs_sub_le a (centre n D (axisIdx n D b)) b
    rw [abs_sub_comm (centre n D (axisIdx n D b)) b] at this
    linarith
  rw [hqf .x (by decide), hqf .y (by decide), hqf .vx (by decide), hqf .vy (by decide), hqf .vz (by decide)]
  exact ⟨near _ _ _ _ px hn.x, near _ _ _ _ py hn.y, near _ _ _ _ pvx hn.vx, near _ _ _ _ pvy hn.vy,
    near _ _ _ _ pvz hn.vz⟩

/-- a grid with 4 cells along y -/
def fourCfg : FullCfg ℚ := { toyCfg with ny := 4 }

/-- C13 violated: on an axis with 4 cells, a coordinate at the negative end of the range gets cell index 0,
and the linear index decodes to a different cell: the macroparticle is regenerated in the neighbouring
x cell, at the opposite end of the y axis. -/
theorem C13_violated : axisIdx 4 (stepOf 5 4) (-5 : ℚ) = 0 ∧
    decode fourCfg (encode fourCfg (cellOf fourCfg ⟨1, stepOf 5 4, 1, 1, 1⟩ 0 (-5) 0 0 0))
      ≠ cellOf fourCfg ⟨1, stepOf 5 4, 1, 1, 1⟩ 0 (-5) 0 0 0 ∧
    (cellOf fourCfg ⟨1, stepOf 5 4, 1, 1, 1⟩ 0 (-5) 0 0 0).ix = 2 ∧
    (decode fourCfg (encode fourCfg (cellOf fourCfg ⟨1, stepOf 5 4, 1, 1, 1⟩ 0 (-5) 0 0 0))).ix = 1 ∧
    (decode fourCfg (encode fourCfg (cellOf fourCfg ⟨1, stepOf 5 4, 1, 1, 1⟩ 0 (-5) 0 0 0))).iy = 4 := by
  decide +kernel

/-- the toy cloud triggers a full regeneration with this configuration -/
def regenCfg : FullCfg ℚ := { toyCfg with nRegen := 2, histCut := 1 / 10 }

/-- all draws one half -/
def halfDraws : FullDraws ℚ where
  rest := fun _ => 1 / 2
  pass := fun _ => ⟨fun _ => 1 / 2, fun _ => 1 / 2, fun _ => 1 / 2, fun _ => 1 / 2, fun _ => 1 / 2, []⟩

theorem regenCfg_setup : RegenSetup regenCfg toy where
  wf := toy_wf
  cap := by decide
  dx := by decide +kernel
  n := by decide
  sym := by decide +kernel
  cut0 := by decide +kernel
  cut1 := by decide +kernel
  nx := by decide
  ny := by decide
  nvx := by decide
  nvy := by decide
  nvz := by decide
  ya := by decide +kernel
  inX := by
    intro p hp
    obtain ⟨i, hi, rfl⟩ := List.mem_map.1 hp
    have hi' : i < 3 := by simpa [toy] using hi
    match i, hi' with
    | 0, _ => decide +kernel
    | 1, _ => decide +kernel
    | 2, _ => decide +kernel
  size := by
    intro p hp
    obtain ⟨i, hi, rfl⟩ := List.mem_map.1 hp
    have hi' : i < 3 := by simpa [toy] using hi
    match i, hi' with
    | 0, _ => decide +kernel
    | 1, _ => decide +kernel
    | 2, _ => decide +kernel
  ref := by decide +kernel

example : RegenSetup regenCfg toy ∧ regenCfg.trigger toy = true ∧ (∀ k, (halfDraws.pass k).Unit) ∧
    ∃ s', toy.checkRegen regenCfg 13 halfDraws = .ok s' ∧ s'.nmp = 2 ∧ s'.ref = 31 / 2 ∧
      totalCharge s'.live = 31 := by
  refine ⟨regenCfg_setup, by decide +kernel, ?_, exists_ok (by decide +kernel)⟩
  intro k
  have h : ∀ _ : ℕ, InUnit (1 / 2 : ℚ) := fun _ => by constructor <;> norm_num
  refine ⟨h, h, h, h, h, ?_, ?_⟩ <;> simp [halfDraws]

example : (2 : ℕ) ≤ 5 ∧ |(-3 : ℚ)| ≤ 3 ∧ 5 % 4 ≠ 0 := by decide +kernel

/-! ## C20 -/

/-- C20: every node of a 1D histogram receives, for every entry, its weight times the hat function of
that node (entries beyond the last node count as on the last node); nothing else changes and the total
added equals the total weight. -/
theorem C20_compute_hist (bias dx : K) (h h' : List K) (ps : List (K × K))
    (hok : computeHist bias dx h ps = .ok h') :
    h'.length = h.length ∧
    (∀ k < h.length, h'.getD k 0 = h.getD k 0 +
      (ps.map (fun p => p.2 * max 0 (1 - |min ((p.1 - bias) / dx) ((h.length : K) - 1) - (k : K)|))).sum) ∧
    h'.sum = h.sum + (ps.map (·.2)).sum :=
  ⟨computeHist_length _ _ _ _ _ hok, fun k hk => computeHist_getD _ _ _ _ _ hok k hk,
    computeHist_sum _ _ _ _ _ hok⟩

/-- C20, sum of a vector: the compiled loop adds up all the entries. -/
theorem C20_vect_sum (l : List K) : vectSum l = l.sum := by
  unfold vectSum
  rw [List.sum_eq_foldl]

/-- C20: no entry at or to the right of the first node can make the deposition fail. -/
theorem C20_compute_hist_total (bias dx : K) (hdx : 0 < dx) (h : List K) (hpos : 0 < h.length) (ps : List (K × K))
    (hin : ∀ p ∈ ps, bias ≤ p.1) : ∃ h', computeHist bias dx h ps = .ok h' :=
  computeHist_ok bias dx hdx h hpos ps hin

example : ∃ h, computeHist (-1 : ℚ) (1 / 2) [0, 0, 0, 0, 0] [(0, 4), (1 / 4, 2), (7, 3)] = .ok h ∧
    h = [0, 0, 5, 1, 3] := exists_ok (by decide +kernel)

end PyECLOUD
