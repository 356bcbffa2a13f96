import Verif.Lemmas.RegenOk
import Verif.Props.Unbiased

/-! # A full regeneration goes through when there is room (C169) -/

set_option linter.unusedSectionVars false

namespace PyECLOUD

variable {K : Type} [Field K] [LinearOrder K] [IsStrictOrderedRing K] [FloorRing K]

theorem le_foldr_max (l : List ℕ) : ∀ x ∈ l, x ≤ l.foldr max 0 := by
  induction l with
  | nil => intro x hx; cases hx
  | cons a l ih =>
    intro x hx
    rcases List.mem_cons.1 hx with rfl | hx
    · exact le_max_left _ _
    · exact le_trans (ih x hx) (le_max_right _ _)

/-- **C169.** A full regeneration succeeds whenever the arrays have room for the configured number of macroparticles
plus one per occupied cell of phase space and the random positions eventually fall inside the chamber.  The
number of macroparticles it leaves stays below that sum.  The cut and the grid do not depend on the random numbers. -/
theorem C169_regen_succeeds (c : FullCfg K) (s : MPs K) (hs : RegenSetup c s) (hz : s.ZeroTail) (ht : c.trigger s = true)
    (hy : ∀ p ∈ s.live, |p .y| ≤ c.yAper) (hn : 0 < c.nAfter)
    (h4y : c.ny % 4 ≠ 0) (h4vx : c.nvx % 4 ≠ 0) (h4vy : c.nvy % 4 ≠ 0) (h4vz : c.nvz % 4 ≠ 0)
    (fuel : ℕ) (hf : c.histN ≤ fuel) :
    ∃ (xMax : K) (st : Steps K) (kept : List (Particle K)),
      c.histDx ≤ xMax ∧ kept = s.live.filter (fun p => decide (|p .x| ≤ xMax)) ∧ GridSteps c s xMax kept st ∧
      (c.nAfter + (kept.map (pointCell c st)).dedup.length ≤ s.cap →
        ∀ d : FullDraws K, (∀ i, 0 ≤ d.rest i) →
          (∀ k i, ∀ q ∈ kept, (d.pass k).Settles c.outside st.x st.y (axisCentre c.nx st.x (pointCell c st q).ix)
            (axisCentre c.ny st.y (pointCell c st q).iy) i) →
          ∃ s', s.checkRegen c fuel d = .ok s' ∧
            (kept = [] → s'.nmp = 0) ∧
            (kept ≠ [] → s'.nmp < c.nAfter + (kept.map (pointCell c st)).dedup.length)) := by
  obtain ⟨xm, s1, st, kept, h1, h2, h3, h4, h5, hste, hkept, -, hgs, hsp, hencdec, hnd, hmemc, hdens⟩ :=
    regen_cells c s hs ht hy h4y h4vx h4vy h4vz fuel hf
  refine ⟨xm, st, kept, h1, hkept, hgs, ?_⟩
  intro hcap d hrest hset
  have hrp : 0 < s1.ref := by rw [h4]; exact lt_max_of_lt_left hs.ref
  have hkn : ∀ p ∈ kept, 0 ≤ p .nel := by
    intro p hp; rw [hkept] at hp; exact hs.size p (List.mem_filter.1 hp).1
  -- number of cells
  have hcells : (s1.occCells c xm).length = (kept.map (pointCell c st)).dedup.length := by
    rw [← List.length_map (f := decode c)]
    apply List.Perm.length_eq
    rw [List.perm_ext_iff_of_nodup hnd (List.nodup_dedup _)]
    intro k
    rw [hmemc, List.mem_dedup, List.mem_map]
  have hdl : (s1.occDens c xm).length = (kept.map (pointCell c st)).dedup.length := by
    unfold MPs.occDens; rw [List.length_map, hcells]
  have hde : s1.occDens c xm = ((s1.occCells c xm).map (decode c)).map (cellCharge c st kept) := by
    unfold MPs.occDens
    rw [List.map_map]
    apply List.map_congr_left
    intro i hi
    have := hdens i hi
    rw [hste] at this ⊢
    exact this
  have hds : (s1.occDens c xm).sum = totalCharge kept := by
    rw [hde]
    exact sum_by_label kept (pointCell c st) (fun p => p .nel) _ hnd (fun p hp => (hmemc _).2 ⟨p, hp, rfl⟩)
  have hdn : ∀ w ∈ s1.occDens c xm, 0 ≤ w := by
    intro w hw
    rw [hde] at hw
    obtain ⟨k, -, rfl⟩ := List.mem_map.1 hw
    unfold cellCharge totalCharge
    apply List.sum_nonneg
    intro v hv
    obtain ⟨p, hp, rfl⟩ := List.mem_map.1 hv
    exact hkn p (List.mem_filter.1 hp).1
  -- the charge fits into nAfter macroparticles
  have hnA : (0 : K) < c.nAfter := by exact_mod_cast hn
  have hq : totalCharge kept ≤ c.nAfter * s1.ref := by
    have e1 : totalCharge kept ≤ totalCharge s.live := by
      rw [hkept]
      exact List.Sublist.sum_le_sum (List.Sublist.map _ List.filter_sublist) (by
        intro v hv
        obtain ⟨p, hp, rfl⟩ := List.mem_map.1 hv
        exact hs.size p hp)
    have e2 : (s.arr .nel).sum / c.nAfter ≤ s1.ref := by rw [h4]; exact le_max_right _ _
    rw [charge_live_zeroTail s hs.wf hz] at e1
    rw [div_le_iff₀ hnA] at e2
    linarith [mul_comm s1.ref (c.nAfter : K)]
  obtain ⟨hc1, hc2⟩ := counts_close (s1.occDens c xm) s1.ref hrp hdn d.rest hrest
  have hsumcounts : (s1.occCounts c xm d).sum ≤ c.nAfter + (kept.map (pointCell c st)).dedup.length ∧
      (kept ≠ [] → (s1.occCounts c xm d).sum < c.nAfter + (kept.map (pointCell c st)).dedup.length) := by
    have e : s1.occCounts c xm d = cellCounts (s1.occDens c xm) s1.ref d.rest := rfl
    rw [e]
    rw [hds, hdl] at hc1 hc2
    have low := (abs_le.1 hc1).2
    constructor
    · have : ((cellCounts (s1.occDens c xm) s1.ref d.rest).sum : K) ≤ ((c.nAfter + (kept.map (pointCell c st)).dedup.length : ℕ) : K) := by
        refine le_of_mul_le_mul_left ?_ hrp
        rw [Nat.cast_add]
        linarith [mul_comm s1.ref (c.nAfter : K), mul_add s1.ref (c.nAfter : K) ((kept.map (pointCell c st)).dedup.length : K)]
      exact_mod_cast this
    · intro hk
      have hne : s1.occDens c xm ≠ [] := by
        intro e0
        have : (kept.map (pointCell c st)).dedup.length = 0 := by rw [← hdl, e0]; rfl
        rw [List.length_eq_zero_iff, List.dedup_eq_nil, List.map_eq_nil_iff] at this
        exact hk this
      have low := (abs_lt.1 (hc2 hne)).2
      have : ((cellCounts (s1.occDens c xm) s1.ref d.rest).sum : K) < ((c.nAfter + (kept.map (pointCell c st)).dedup.length : ℕ) : K) := by
        refine lt_of_mul_lt_mul_left ?_ hrp.le
        rw [Nat.cast_add]
        linarith [mul_comm s1.ref (c.nAfter : K), mul_add s1.ref (c.nAfter : K) ((kept.map (pointCell c st)).dedup.length : K)]
      exact_mod_cast this
  have hfit : (s1.occCounts c xm d).sum ≤ s1.cap := by rw [h3]; omega
  have hax : ∀ (n : ℕ) (D : K) (i : ℤ), axisCentre n D i = centre n D i := by
    intro n D i
    unfold axisCentre centre biasOf
    rw [Int.cast_sub, Int.cast_natCast]
  -- success
  have hok : ∃ s', s1.rebuild c xm d = .ok s' := by
    have hzl : ((s1.arr .nel).map (fun _ => (0 : K))).length = s1.cap := by rw [List.length_map, h2.len]
    have e1 := sliceAssign_array ((s1.arr .nel).map (fun _ => (0 : K))) (List.replicate (s1.occCounts c xm d).sum s1.ref) 0
      (s1.occCounts c xm d).sum (Nat.zero_le _) (by rw [hzl]; exact hfit) (by simp)
    obtain ⟨r, hr⟩ := regenLoop_ok c.outside (stepsOf c s1 xm) d.pass ((s1.occCounts c xm d).foldr max 0) 0
      (((s1.occCells c xm).map (fun i => centres c (stepsOf c s1 xm) (decode c i))).zip (s1.occCounts c xm d))
      (Function.update (fun f => if f = .tl then s1.arr .tl else (s1.arr f).map (fun _ => 0)) .nel
        (((s1.arr .nel).map (fun _ => (0 : K))).take 0 ++ List.replicate (s1.occCounts c xm d).sum s1.ref ++
          ((s1.arr .nel).map (fun _ => (0 : K))).drop (s1.occCounts c xm d).sum)) 0 (by
        intro z hz2 k i
        have hz4 := (List.of_mem_zip (a := z.1) (b := z.2) hz2).1
        obtain ⟨j, hj, hje⟩ := List.mem_map.1 hz4
        obtain ⟨q, hq1, hq2⟩ := (hmemc (decode c j)).1 (List.mem_map.2 ⟨j, hj, rfl⟩)
        have := hset k i q hq1
        rw [hq2, hax, hax, hste] at this
        rw [← hje]
        exact this) (by
        intro z hz2
        exact le_foldr_max _ _ (List.of_mem_zip (a := z.1) (b := z.2) hz2).2) (by
        intro f hf
        have hne : f ≠ .nel ∧ f ≠ .tl := by revert f; decide
        rw [Nat.zero_add, zip_snd_sum _ _ (by rw [List.length_map, occCells_length]), Function.update_of_ne hne.1]
        simp only [hne.2, if_false, List.length_map, h2.len]
        exact hfit)
    unfold MPs.occCounts MPs.occDens MPs.occCells at e1 hr
    unfold MPs.rebuild
    simp only [reduceCtorEq, if_false]
    rw [e1]
    simp only
    rw [hr]
    exact ⟨_, rfl⟩
  obtain ⟨s', hs'⟩ := hok
  have hnmp := rebuild_nmp s1 s' c xm d hs'
  refine ⟨s', by rw [h5, hs'], ?_, ?_⟩
  · intro hk
    have : s1.occCounts c xm d = [] := by
      rw [← List.length_eq_zero_iff, occCells_length, hcells, hk]; rfl
    rw [hnmp, this]; rfl
  · intro hk
    rw [hnmp]
    exact hsumcounts.2 hk

/-! ## A concrete cloud -/

/-- a grid of three cells per axis, the chamber is larger than the grid -/
noncomputable def realCfg : FullCfg ℝ where
  nRegenLow := 0
  nRegen := 2
  nAfter := 2
  histCut := 1 / 10
  nx := 3
  ny := 3
  nvx := 3
  nvy := 3
  nvz := 3
  histN := 13
  histBias := -6
  histDx := 1
  yAper := 5
  outside := fun _ _ => false

/-- three macroparticles in arrays of six -/
noncomputable def realCloud : MPs ℝ where
  nmp := 3
  ref := 4
  split := 12
  clTh := 2
  ref0 := 4
  factSplit := 3
  factClean := 1 / 2
  lifetime := false
  arr := fun f => match f with
    | .x => [1, 2, 3, 0, 0, 0]
    | .y => [0, 1, 0, 0, 0, 0]
    | .nel => [10, 1, 20, 0, 0, 0]
    | .vx => [1, -1, 2, 0, 0, 0]
    | _ => [0, 0, 0, 0, 0, 0]

theorem realCloud_live (p : Particle ℝ) (hp : p ∈ realCloud.live) : |p .x| ≤ 6 ∧ |p .y| ≤ 5 ∧ 0 ≤ p .nel := by
  have hl : realCloud.live = [realCloud.nth 0, realCloud.nth 1, realCloud.nth 2] := rfl
  rw [hl] at hp
  simp only [List.mem_cons, List.not_mem_nil, or_false] at hp
  rcases hp with rfl | rfl | rfl <;> refine ⟨?_, ?_, ?_⟩ <;> simp [MPs.nth, MPs.tracked, realCloud] <;> norm_num

theorem realCloud_setup : RegenSetup realCfg realCloud where
  wf := ⟨by intro f; cases f <;> rfl, by decide⟩
  cap := by decide
  dx := by norm_num [realCfg]
  n := by decide
  sym := by norm_num [realCfg]
  cut0 := by norm_num [realCfg]
  cut1 := by norm_num [realCfg]
  nx := by decide
  ny := by decide
  nvx := by decide
  nvy := by decide
  nvz := by decide
  ya := by norm_num [realCfg]
  inX := by
    intro p hp
    have := (realCloud_live p hp).1
    simpa [realCfg] using this
  size := fun p hp => (realCloud_live p hp).2.2
  ref := by norm_num [realCloud]

theorem realCloud_zeroTail : realCloud.ZeroTail := by
  intro i hi
  have hi' : 3 ≤ i := hi
  match i, hi' with
  | 3, _ => rfl
  | 4, _ => rfl
  | 5, _ => rfl
  | n + 6, _ => rfl

/-- the cloud above meets the hypotheses of C168 and C169: the regeneration fires and succeeds for all the random numbers -/
theorem realCloud_runs : RegenSetup realCfg realCloud ∧ realCloud.ZeroTail ∧ realCfg.trigger realCloud = true ∧
    (∀ p ∈ realCloud.live, |p .y| ≤ realCfg.yAper) ∧
    ∀ d : FullDraws ℝ, (∀ i, 0 ≤ d.rest i) → ∃ s', realCloud.checkRegen realCfg 13 d = .ok s' := by
  have ht : realCfg.trigger realCloud = true := by
    unfold FullCfg.trigger
    simp [realCfg, realCloud]
  have hy : ∀ p ∈ realCloud.live, |p .y| ≤ realCfg.yAper := fun p hp => (realCloud_live p hp).2.1
  refine ⟨realCloud_setup, realCloud_zeroTail, ht, hy, ?_⟩
  obtain ⟨xm, st, kept, -, hk, -, h⟩ := C169_regen_succeeds realCfg realCloud realCloud_setup realCloud_zeroTail ht hy
    (by decide) (by decide) (by decide) (by decide) (by decide) 13 (le_refl 13)
  intro d hd
  obtain ⟨s', hs', -⟩ := h (by
    have h1 : (kept.map (pointCell realCfg st)).dedup.length ≤ kept.length := by
      have := (List.dedup_sublist (kept.map (pointCell realCfg st))).length_le
      rwa [List.length_map] at this
    have h2 : kept.length ≤ 3 := by
      rw [hk]
      exact List.length_filter_le _ _
    have h3 : realCfg.nAfter = 2 := rfl
    have h4 : realCloud.cap = 6 := rfl
    omega) d hd (fun k i q _ => ⟨_, Or.inl rfl, rfl⟩)
  exact ⟨s', hs'⟩

theorem realCloud_draws (n : ℕ) : ∃ (d : (Fin n → ℝ) → FullDraws ℝ) (run : (Fin n → ℝ) → MPs ℝ),
    (∀ u (i : Fin n), (d u).rest i = u i) ∧ (∀ u k, ((d u).pass k).Unit) ∧
    (∀ u, (∀ i, u i ∈ Set.Icc (0 : ℝ) 1) → realCloud.checkRegen realCfg 13 (d u) = .ok (run u)) := by
  classical
  have h : ∀ _ : ℕ, InUnit (1 / 2 : ℝ) := fun _ => by constructor <;> norm_num
  let d : (Fin n → ℝ) → FullDraws ℝ := fun u => ⟨fun i => if h : i < n then u ⟨i, h⟩ else 0,
    fun _ => ⟨fun _ => 1 / 2, fun _ => 1 / 2, fun _ => 1 / 2, fun _ => 1 / 2, fun _ => 1 / 2, []⟩⟩
  have hr : ∀ u : Fin n → ℝ, ∃ s', (∀ i, u i ∈ Set.Icc (0 : ℝ) 1) → realCloud.checkRegen realCfg 13 (d u) = .ok s' := by
    intro u
    by_cases hu : ∀ i, u i ∈ Set.Icc (0 : ℝ) 1
    · obtain ⟨s', hs'⟩ := realCloud_runs.2.2.2.2 (d u) (by
        intro i
        simp only [d]
        split
        · exact (hu _).1
        · exact le_refl 0)
      exact ⟨s', fun _ => hs'⟩
    · exact ⟨realCloud, fun h => absurd h hu⟩
  choose run hrun using hr
  refine ⟨d, run, ?_, ?_, hrun⟩
  · intro u i
    simp [d]
  · intro u k
    refine ⟨h, h, h, h, h, ?_, ?_⟩ <;> simp [d]

end PyECLOUD
