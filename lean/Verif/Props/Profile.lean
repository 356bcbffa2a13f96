import Verif.Model.Profile
import Verif.Props.Timing
import Verif.Props.BeamMap
import Verif.Props.Grid

/-!
# Properties C134, C135: filling patterns and magnetic field maps
-/

namespace PyECLOUD

set_option linter.unusedSectionVars false

/-! ## C134 -/

/-- the pattern a user describes: intensities in the slots -/
def FillPat.describes (load : String → Except PyErr FillFile) (pat : FillPat) (ppb : List ℝ) : Prop :=
  pat = .direct ppb ∨ ∃ n f, pat = .file n ∧ load n = .ok f ∧ (f.ppb = .vec ppb ∨ ∃ v, f.ppb = .scalar v ∧ ppb = [v])

theorem fillLoad_file (load : String → Except PyErr FillFile) (n : String) (hn : ".mat".toList <:+: n.toList) :
    fillLoad load (.file n) = load n := by
  change (if ".mat".toList <:+: n.toList then load n else _) = _
  rw [if_pos hn]

/-- **C134** (construction). The bunches are set up exactly for a list or a `.mat` file with several slots, with a bunch length or with enough
bunch lengths in the file. -/
theorem C134_built_iff (load : String → Except PyErr FillFile) (pat : FillPat) (sigmaz : ℝ) :
    (∃ l, beamTrain load pat sigmaz = .ok l) ↔
      ∃ f ppb, (pat = .direct ppb ∧ f = ⟨.vec ppb, false, none⟩ ∨ ∃ n, pat = .file n ∧ ".mat".toList <:+: n.toList ∧ load n = .ok f) ∧
        f.ppb = .vec ppb ∧ ((f.sigmaz = none ∧ sigmaz ≠ -1) ∨ (∃ sz, f.sigmaz = some (.vec sz) ∧ ppb.length ≤ sz.length) ∨
          ((∃ v, f.sigmaz = some (.scalar v)) ∧ ppb = [])) := by
  have hload : ∀ f, fillLoad load pat = .ok f ↔
      ((∃ ppb, pat = .direct ppb ∧ f = ⟨.vec ppb, false, none⟩) ∨ ∃ n, pat = .file n ∧ ".mat".toList <:+: n.toList ∧ load n = .ok f) := by
    intro f
    cases pat with
    | direct l =>
      unfold fillLoad
      constructor
      · intro h
        cases h
        exact Or.inl ⟨l, rfl, rfl⟩
      · rintro (⟨ppb, h1, h2⟩ | ⟨n, h1, -⟩)
        · cases h1
          rw [h2]
        · cases h1
    | file n =>
      have he : fillLoad load (.file n) = if ".mat".toList <:+: n.toList then load n else .error .valueError := rfl
      rw [he]
      constructor
      · intro h
        by_cases hm : ".mat".toList <:+: n.toList
        · rw [if_pos hm] at h
          exact Or.inr ⟨n, rfl, hm, h⟩
        · rw [if_neg hm] at h
          cases h
      · rintro (⟨ppb, h1, -⟩ | ⟨n', h1, h2, h3⟩)
        · cases h1
        · cases h1
          rw [if_pos h2]
          exact h3
  constructor
  · rintro ⟨l, h⟩
    unfold beamTrain at h
    obtain ⟨f, h1, h2⟩ := bind_ok h
    have hf := (hload f).mp h1
    cases hp : f.ppb with
    | scalar v => simp only [hp] at h2; cases h2
    | vec ppb =>
      simp only [hp] at h2
      refine ⟨f, ppb, ?_, hp, ?_⟩
      · rcases hf with ⟨ppb', q1, q2⟩ | q
        · refine Or.inl ⟨?_, ?_⟩
          · rw [q2] at hp
            cases hp
            exact q1
          · rw [q2] at hp ⊢
            cases hp
            rfl
        · exact Or.inr q
      · cases hs : f.sigmaz with
        | none =>
          simp only [hs] at h2
          refine Or.inl ⟨rfl, fun q => ?_⟩
          rw [if_pos q] at h2
          cases h2
        | some v =>
          cases v with
          | vec sz =>
            simp only [hs] at h2
            refine Or.inr (Or.inl ⟨sz, rfl, ?_⟩)
            by_contra q
            rw [if_neg q] at h2
            cases h2
          | scalar v =>
            simp only [hs] at h2
            refine Or.inr (Or.inr ⟨⟨v, rfl⟩, ?_⟩)
            by_contra q
            rw [if_neg (fun e => q (List.length_eq_zero_iff.mp e))] at h2
            cases h2
  · rintro ⟨f, ppb, h1, h2, h3⟩
    have hf : fillLoad load pat = .ok f := (hload f).mpr (by
      rcases h1 with ⟨q1, q2⟩ | q
      · exact Or.inl ⟨ppb, q1, q2⟩
      · exact Or.inr q)
    unfold beamTrain
    rw [hf]
    simp only [bind, Except.bind, h2]
    rcases h3 with ⟨q1, q2⟩ | ⟨sz, q1, q2⟩ | ⟨⟨v, q1⟩, q2⟩
    · simp only [q1, if_neg q2]
      exact ⟨_, rfl⟩
    · simp only [q1, if_pos q2]
      exact ⟨_, rfl⟩
    · simp only [q1, q2, List.length_nil, if_true]
      exact ⟨_, rfl⟩

/-- **C134** (density, partial: patterns given as a list, or in files as floating point numbers for several slots). The beam has in each slot a Gaussian
bunch of the intensity described, of the configured length. -/
theorem C134_density_partial (load : String → Except PyErr FillFile) (pat : FillPat) (σ : ℝ) (hσ : 0 < σ) (ppb : List ℝ)
    (hp : ∀ p ∈ ppb, 0 ≤ p)
    (hd : pat = .direct ppb ∨ ∃ n, pat = .file n ∧ ".mat".toList <:+: n.toList ∧ load n = .ok ⟨.vec ppb, false, none⟩) :
    ∃ l, beamTrain load pat σ = .ok l ∧ ∀ c t bSpac tOffs factBeam coast, trainDensity c t bSpac tOffs factBeam coast l =
      factBeam * (∑ i ∈ Finset.range ppb.length, gaussBunch (ppb.getD i 0) σ (c * t - c * (tOffs + i * bSpac))) + coast := by
  have hf : fillLoad load pat = .ok ⟨.vec ppb, false, none⟩ := by
    rcases hd with h | ⟨n, h1, h2, h3⟩
    · rw [h]; rfl
    · rw [h1, fillLoad_file load n h2, h3]
  refine ⟨ppb.zip (sigmaFill false σ ppb), ?_, fun c t bSpac tOffs factBeam coast => ?_⟩
  · unfold beamTrain
    rw [hf]
    simp only [bind, Except.bind]
    rw [if_neg (by linarith)]
  · rw [← C65_bunch_train c t bSpac tOffs factBeam coast σ hσ ppb hp]
    unfold trainDensity lineDensity
    have : sigmaFill false σ ppb = sigmazVect ppb σ := by
      unfold sigmaFill sigmazVect
      simp
    rw [this]

/-- **C134** (own lengths). With bunch lengths in the file each bunch has the length of its slot. -/
theorem C134_own_lengths (load : String → Except PyErr FillFile) (n : String) (hn : ".mat".toList <:+: n.toList) (isInt : Bool) (σ : ℝ)
    (ppb sz : List ℝ) (hl : load n = .ok ⟨.vec ppb, isInt, some (.vec sz)⟩) (hlen : ppb.length ≤ sz.length)
    (hs : ∀ i, i < ppb.length → 0 < sz.getD i 0 ∨ (sz.getD i 0 = 0 ∧ ppb.getD i 0 = 0)) :
    ∃ l, beamTrain load (.file n) σ = .ok l ∧ ∀ c t bSpac tOffs factBeam coast, trainDensity c t bSpac tOffs factBeam coast l =
      factBeam * (∑ i ∈ Finset.range ppb.length, gaussBunch (ppb.getD i 0) (sz.getD i 0) (c * t - c * (tOffs + i * bSpac))) + coast := by
  refine ⟨ppb.zip sz, ?_, fun c t bSpac tOffs factBeam coast => ?_⟩
  · unfold beamTrain
    rw [fillLoad_file load n hn, hl]
    simp only [bind, Except.bind]
    rw [if_pos hlen]
  · unfold trainDensity
    rw [trainAt_sum, zero_add]
    have hz : (ppb.zip sz).length = ppb.length := by simp [hlen]
    rw [hz]
    congr 2
    apply Finset.sum_congr rfl
    intro i hi
    have hi' : i < ppb.length := by simpa using hi
    have hg : (ppb.zip sz).getD i (0, 0) = (ppb.getD i 0, sz.getD i 0) := by
      rw [List.getD_eq_getElem _ _ (by rw [hz]; exact hi'), List.getD_eq_getElem _ _ hi',
        List.getD_eq_getElem _ _ (lt_of_lt_of_le hi' hlen)]
      simp
    rw [hg, Nat.zero_add]
    dsimp only
    rcases hs i hi' with h | ⟨h1, h2⟩
    · unfold bunchAt gaussBunch
      rw [if_pos h]
      dsimp only
      split
      · congr 2; ring_nf
      · rfl
    · rw [h1, h2]
      simp [bunchAt, gaussBunch]

/-- **C134** fails for intensities stored as integers: with a bunch length below one metre the beam has no bunches at all, whatever the
intensities, while the same pattern as a list has. -/
theorem C134_integer_violated (load : String → Except PyErr FillFile) (n : String) (hn : ".mat".toList <:+: n.toList) (σ : ℝ)
    (h0 : 0 < σ) (h1 : σ < 1) (ppb : List ℝ) (hl : load n = .ok ⟨.vec ppb, true, none⟩) :
    (∃ l, beamTrain load (.file n) σ = .ok l ∧ ∀ c t bSpac tOffs factBeam coast, trainDensity c t bSpac tOffs factBeam coast l = coast) ∧
    (∀ i, i < ppb.length → (∀ p ∈ ppb, 0 ≤ p) → 0 < ppb.getD i 0 → ∃ l, beamTrain load (.direct ppb) σ = .ok l ∧
      ∀ c bSpac tOffs factBeam coast, 0 < factBeam → coast < trainDensity c (tOffs + i * bSpac) bSpac tOffs factBeam coast l) := by
  constructor
  · refine ⟨ppb.zip (sigmaFill true σ ppb), ?_, fun c t bSpac tOffs factBeam coast => ?_⟩
    · unfold beamTrain
      rw [fillLoad_file load n hn, hl]
      simp only [bind, Except.bind]
      rw [if_neg (by linarith)]
    · unfold trainDensity
      rw [trainAt_sum, zero_add]
      have ht : truncZ σ = 0 := by
        unfold truncZ
        rw [if_pos h0.le]
        exact Int.floor_eq_zero_iff.mpr ⟨h0.le, h1⟩
      have : ∀ k ∈ Finset.range (ppb.zip (sigmaFill true σ ppb)).length,
          bunchAt c t tOffs bSpac (0 + k) ((ppb.zip (sigmaFill true σ ppb)).getD k (0, 0)).1
            ((ppb.zip (sigmaFill true σ ppb)).getD k (0, 0)).2 = 0 := by
        intro k hk
        have hk' : k < (ppb.zip (sigmaFill true σ ppb)).length := by simpa using hk
        have hz : ((ppb.zip (sigmaFill true σ ppb)).getD k (0, 0)).2 = 0 := by
          rw [List.getD_eq_getElem _ _ hk']
          simp [sigmaFill, ht]
        unfold bunchAt
        rw [hz]
        simp
      rw [Finset.sum_eq_zero this]
      simp
  · intro i hi hp hpos
    obtain ⟨l, q1, q2⟩ := C134_density_partial load (.direct ppb) σ h0 ppb hp (Or.inl rfl)
    refine ⟨l, q1, fun c bSpac tOffs factBeam coast hf => ?_⟩
    rw [q2]
    have hnn : ∀ k ∈ Finset.range ppb.length, 0 ≤ gaussBunch (ppb.getD k 0) σ (c * (tOffs + i * bSpac) - c * (tOffs + k * bSpac)) := by
      intro k hk
      have hk' : k < ppb.length := by simpa using hk
      have hk0 : 0 ≤ ppb.getD k 0 := by
        rw [List.getD_eq_getElem _ _ hk']
        exact hp _ (List.getElem_mem hk')
      unfold gaussBunch
      split
      · exact mul_nonneg (div_nonneg hk0 (mul_nonneg h0.le (Real.sqrt_nonneg _))) (Real.exp_pos _).le
      · exact le_refl _
    have hsum := Finset.single_le_sum hnn (Finset.mem_range.mpr hi)
    have hterm : 0 < gaussBunch (ppb.getD i 0) σ (c * (tOffs + i * bSpac) - c * (tOffs + i * bSpac)) := by
      unfold gaussBunch
      rw [sub_self, abs_zero, if_pos (by linarith)]
      exact mul_pos (div_pos hpos (mul_pos h0 (Real.sqrt_pos.mpr (by positivity)))) (Real.exp_pos _)
    have := mul_pos hf (lt_of_lt_of_le hterm hsum)
    linarith

/-- **C134** fails for a file with a single bunch: it is refused with a TypeError, while the same bunch as a list, or a number, is accepted. -/
theorem C134_single_violated (load : String → Except PyErr FillFile) (n : String) (hn : ".mat".toList <:+: n.toList) (σ v : ℝ)
    (hσ : σ ≠ -1) (f : FillFile) (hf : f.ppb = .scalar v) (hl : load n = .ok f) :
    beamTrain load (.file n) σ = .error .typeError ∧ beamTrain load (.direct [v]) σ = .ok [(v, if v > 0 then σ else 0)] := by
  constructor
  · unfold beamTrain
    rw [fillLoad_file load n hn, hl]
    simp only [bind, Except.bind, hf]
  · unfold beamTrain fillLoad
    simp only [bind, Except.bind]
    rw [if_neg hσ]
    simp [sigmaFill]

/-- the hypotheses of the last two are met -/
example : ".mat".toList <:+: "fill.mat".toList ∧ (0 : ℝ) < 1 / 10 ∧ (1 / 10 : ℝ) < 1 ∧
    (fun _ => .ok ⟨.vec [1, 0, 1], true, none⟩ : String → Except PyErr FillFile) "fill.mat" = .ok ⟨.vec [1, 0, 1], true, none⟩ :=
  ⟨by decide +kernel, by norm_num, by norm_num, rfl⟩

/-- a file with lengths, the third slot empty -/
example : ∃ l, beamTrain (fun _ => .ok ⟨.vec [1, 2, 0], false, some (.vec [1 / 10, 1 / 5, 0, 7])⟩) (.file "a.mat") (-1) = .ok l ∧
    l = [(1, 1 / 10), (2, 1 / 5), (0, 0)] := by
  refine ⟨_, ?_, rfl⟩
  unfold beamTrain
  rw [fillLoad_file _ _ (by decide +kernel)]
  simp [bind, Except.bind]

/-! ## C135 -/

section bmap

variable {K : Type} [Field K] [LinearOrder K] [IsStrictOrderedRing K] [FloorRing K]

theorem getD_map2 (fact : K) (m : List (List K)) (i j : ℕ) :
    (((m.map (fun r => r.map (fun v => fact * v))).getD i []).getD j 0) = fact * (m.getD i []).getD j 0 := by
  rw [List.getD_eq_getElem?_getD, List.getD_eq_getElem?_getD, List.getElem?_map]
  cases hm : m[i]? with
  | none => simp [List.getD_eq_getElem?_getD, hm]
  | some r =>
    simp only [Option.map_some, Option.getD_some, List.getD_eq_getElem?_getD, List.getElem?_map, hm]
    cases hr : r[j]? with
    | none => simp
    | some v => simp

/-- **C135** (nodes, partial: axes of constant positive step). At a node of the map the magnetic field is the value in the map times the factor, plus the
uniform field; the longitudinal component is the uniform one if the map has none. -/
theorem C135_nodes_partial (fact : K) (m : AxMap K) (bz : Option (List (List K))) (src : BSrc K) (h : bmapLoad fact m bz = .ok src)
    (b0 : V3 K) (x0 y0 dx dy : K) (hdx : 0 < dx) (hdy : 0 < dy)
    (hx : ∀ i, i < m.xx.length → m.xx[i]? = some (x0 + (i : K) * dx)) (hy : ∀ j, j < m.yy.length → m.yy[j]? = some (y0 + (j : K) * dy))
    (hr : m.ex.length = m.xx.length) (hc : ∀ r ∈ m.ex, r.length = m.yy.length)
    (i j : ℕ) (hi : i + 1 < m.xx.length) (hj : j + 1 < m.yy.length) (x y : K) (ex : m.xx[i]? = some x) (ey : m.yy[j]? = some y) :
    src.getB b0 x y = ⟨fact * (m.ex.getD i []).getD j 0 + b0.x, fact * (m.ey.getD i []).getD j 0 + b0.y,
      (match bz with
        | none => 0
        | some b => fact * (b.getD i []).getD j 0) + b0.z⟩ := by
  unfold bmapLoad at h
  have hcs : ∀ l : List (List K), (∀ r ∈ l, r.length = m.yy.length) → ∀ r ∈ scaleMap fact l, r.length = m.yy.length := by
    intro l hl r hr
    obtain ⟨q, q1, q2⟩ := List.mem_map.mp hr
    rw [← q2, List.length_map]
    exact hl q q1
  cases hg : AxMap.grid { m with ex := scaleMap fact m.ex, ey := scaleMap fact m.ey } with
  | error e => simp only [hg] at h; cases h
  | ok g =>
    simp only [hg] at h
    cases h
    obtain ⟨n1, n2⟩ := C107_nodes_partial { m with ex := scaleMap fact m.ex, ey := scaleMap fact m.ey } g hg x0 y0 dx dy hdx hdy hx hy
      (by simp [scaleMap, hr]) (hcs _ hc) i j hi hj x y ex ey
    unfold BSrc.getB
    dsimp only
    rw [n1, n2]
    have e1 : ((scaleMap fact m.ex).getD i []).getD j 0 = fact * (m.ex.getD i []).getD j 0 := getD_map2 fact m.ex i j
    have e2 : ((scaleMap fact m.ey).getD i []).getD j 0 = fact * (m.ey.getD i []).getD j 0 := getD_map2 fact m.ey i j
    dsimp only
    rw [e1, e2]
    congr 2
    cases bz with
    | none => simp
    | some b =>
      dsimp only [Option.map_some]
      have hg2 : AxMap.grid { m with ex := scaleMap fact m.ex, ey := scaleMap fact b } = .ok { g with ey := nodeVal (scaleMap fact b) } := by
        unfold AxMap.grid at hg ⊢
        dsimp only at hg ⊢
        split at hg
        next a b' xs c d ys hxx hyy =>
          cases hg
          rfl
        next => cases hg
      obtain ⟨-, n3⟩ := C107_nodes_partial { m with ex := scaleMap fact m.ex, ey := scaleMap fact b } _ hg2 x0 y0 dx dy hdx hdy hx hy
        (by simp [scaleMap, hr]) (hcs _ hc) i j hi hj x y ex ey
      dsimp only at n3
      rw [n3]
      exact getD_map2 fact b i j

/-- **C135** (outside). Outside the map only the uniform field is left. -/
theorem C135_outside (fact : K) (m : AxMap K) (bz : Option (List (List K))) (src : BSrc K) (h : bmapLoad fact m bz = .ok src)
    (b0 : V3 K) (g : BeamMap K) (hg : m.grid = .ok g) (hdx : 0 < g.dx) (hdy : 0 < g.dy) (x y : K)
    (ho : x < g.xmin ∨ y < g.ymin ∨ g.xmin + ((m.ex.length : K) - 1) * g.dx ≤ x ∨ g.ymin + (((m.ex.headD []).length : K) - 1) * g.dy ≤ y) :
    src.getB b0 x y = b0 := by
  unfold bmapLoad at h
  have hg2 : AxMap.grid { m with ex := scaleMap fact m.ex, ey := scaleMap fact m.ey } = .ok { g with ex := nodeVal (scaleMap fact m.ex), ey := nodeVal (scaleMap fact m.ey) } ∧
      g.nx = m.ex.length ∧ g.ny = (m.ex.headD []).length := by
    unfold AxMap.grid at hg ⊢
    dsimp only at hg ⊢
    split at hg
    next a b' xs c d ys hxx hyy =>
      cases hg
      refine ⟨?_, rfl, rfl⟩
      congr 2
      · simp [scaleMap]
      · cases m.ex with
        | nil => rfl
        | cons r l => simp [scaleMap]
    next => cases hg
  rw [hg2.1] at h
  cases h
  have hn : ¬(InAxis g.nx g.xmin g.dx x ∧ InAxis g.ny g.ymin g.dy y) := by
    rw [hg2.2.1, hg2.2.2]
    rintro ⟨⟨a1, a2⟩, b1, b2⟩
    rcases ho with q | q | q | q
    · exact absurd a1 (not_le.mpr q)
    · exact absurd b1 (not_le.mpr q)
    · exact absurd a2 (not_lt.mpr q)
    · exact absurd b2 (not_lt.mpr q)
  unfold BSrc.getB
  dsimp only
  rw [C22_zero_outside _ _ _ _ _ _ hdx hdy _ _ _ hn, C22_zero_outside _ _ _ _ _ _ hdx hdy _ _ _ hn]
  cases bz with
  | none => simp
  | some b =>
    dsimp only [Option.map_some]
    rw [C22_zero_outside _ _ _ _ _ _ hdx hdy _ _ _ hn]
    simp

end bmap

/-- a map of three by three nodes with factor 2 in a uniform field: at a node, and outside -/
example : ∃ src : BSrc ℚ, bmapLoad 2 ⟨[0, 1, 2], [0, 1, 2], [[0, 0, 0], [0, 3, 0], [0, 0, 0]], [[0, 0, 0], [0, 4, 0], [0, 0, 0]]⟩
      (some [[0, 0, 0], [0, 5, 0], [0, 0, 0]]) = .ok src ∧
    (src.getB ⟨1, 0, 0⟩ 1 1 = ⟨7, 8, 10⟩ ∧ src.getB ⟨1, 0, 0⟩ 3 1 = ⟨1, 0, 0⟩ ∧ src.getB ⟨1, 0, 0⟩ (1 / 2) 1 = ⟨4, 4, 5⟩) := by
  refine ⟨_, rfl, ?_⟩
  refine ⟨?_, ?_, ?_⟩ <;>
  · simp only [V3.mk.injEq, BSrc.getB]
    decide +kernel

/-- **C135** fails where the axes of the file are not checked: in a map with a wider last step the field at its nodes is another one. -/
theorem C135_axes_violated : ∃ src : BSrc ℚ,
    bmapLoad 1 ⟨[0, 1, 3, 4], [0, 1, 2], [[0, 0, 0], [1, 1, 1], [2, 2, 2], [3, 3, 3]], [[0, 0, 0], [0, 0, 0], [0, 0, 0], [0, 0, 0]]⟩ none = .ok src ∧
    (src.getB ⟨0, 0, 0⟩ 3 1).x = 0 := by
  refine ⟨_, rfl, ?_⟩
  decide +kernel

end PyECLOUD
