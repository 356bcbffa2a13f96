import Verif.Lemmas.SegShare

/-! # C148: surface parameters of the segments with several clouds -/

namespace PyECLOUD

variable {K : Type} [Field K] [LinearOrder K]

/-- **C148**, when it holds: all clouds use the columns as meant if and only if every column is not in double precision, or has no
negative value, or all clouds with a non-uniform surface give it the same global parameter. The full claim has no such condition and
is refuted below. -/
theorem C148_own_partial (ch : NuCol → SegCol K) (ps : List (Option (NuCol → K))) :
    (∀ i, CloudOwn ch ps i) ↔
      ∀ c, (ch c).f64 = false ∨ (∀ a ∈ (ch c).vals, 0 ≤ a) ∨ ∀ p q, some p ∈ ps → some q ∈ ps → p c = q c := by
  constructor
  · intro h c
    rcases hf : (ch c).f64 with _ | _
    · exact Or.inl rfl
    · by_cases hn : ∀ a ∈ (ch c).vals, 0 ≤ a
      · exact Or.inr (Or.inl hn)
      · refine Or.inr (Or.inr (fun p q hp hq => ?_))
        push Not at hn
        obtain ⟨a, ha, ha0⟩ := hn
        obtain ⟨k, hk⟩ := List.mem_iff_getElem?.mp ha
        obtain ⟨i, hi⟩ := List.mem_iff_getElem?.mp hp
        obtain ⟨j, hj⟩ := List.mem_iff_getElem?.mp hq
        obtain ⟨u, hu, hou⟩ := h i p hi c
        obtain ⟨w, hw, how⟩ := h j q hj c
        rw [nunifUsed_shared ch ps c hf i p hi] at hu
        rw [nunifUsed_shared ch ps c hf j q hj] at hw
        have huw : u = w := by
          have := hu.symm.trans hw
          simpa using this
        have h1 := (hou.2 k a hk).2 ha0
        have h2 := (how.2 k a hk).2 ha0
        rw [huw, h2] at h1
        simpa using h1.symm
  · intro h i p hp c
    rcases hf : (ch c).f64 with _ | _
    · exact ⟨_, nunifUsed_own ch ps c hf i p hp, negTo_usesOwn _ _⟩
    · refine ⟨_, nunifUsed_shared ch ps c hf i p hp, ?_⟩
      have hpm : some p ∈ ps := List.mem_of_getElem? hp
      rcases h c with h1 | h1 | h1
      · rw [hf] at h1; cases h1
      · rw [foldl_negTo_nonneg c _ _ h1]
        have := negTo_usesOwn (p c) (ch c).vals
        rwa [negTo_of_nonneg _ _ h1] at this
      · have h2 : ∀ q ∈ ps.filterMap id, q c = p c := by
          intro q hq
          obtain ⟨o, ho, hoq⟩ := List.mem_filterMap.mp hq
          simp only [id] at hoq
          subst hoq
          exact h1 q p ho hpm
        have h3 : ps.filterMap id ≠ [] := by
          intro hnil
          have : p ∈ ps.filterMap id := List.mem_filterMap.mpr ⟨some p, hpm, rfl⟩
          rw [hnil] at this
          cases this
        rw [foldl_negTo_same c (p c) _ h2 h3]
        exact negTo_usesOwn _ _

/-- **C148**, what happens instead: with columns in double precision and admissible (non-negative) parameters every cloud uses the
parameters of the first cloud that has a non-uniform surface. -/
theorem C148_first (ch : NuCol → SegCol K) (n : ℕ) (p : NuCol → K) (ps : List (Option (NuCol → K)))
    (hp : ∀ c, 0 ≤ p c) (hf : ∀ c, (ch c).f64 = true) (i : ℕ) (q : NuCol → K)
    (hq : (List.replicate n none ++ some p :: ps)[i]? = some (some q)) (c : NuCol) :
    ∃ used, (nunifUsed ch (List.replicate n none ++ some p :: ps) c)[i]? = some (some used) ∧
      UsesOwn (ch c).vals (p c) used := by
  refine ⟨_, nunifUsed_shared ch _ c (hf c) i q hq, ?_⟩
  have hr : ∀ m, (List.replicate m (none : Option (NuCol → K))).filterMap id = [] := by
    intro m
    induction m with
    | zero => rfl
    | succ m ih => simp
  rw [List.filterMap_append, hr, List.nil_append, List.filterMap_cons]
  simp only [id, List.foldl_cons]
  rw [foldl_negTo_nonneg c _ _ (negTo_nonneg _ (hp c) _)]
  exact negTo_usesOwn _ _

/-- **C148**, a simulation with one cloud on a non-uniform surface (whatever the others use) is always as meant. -/
theorem C148_single (ch : NuCol → SegCol K) (a b : ℕ) (p : NuCol → K) (i : ℕ) :
    CloudOwn ch (List.replicate a none ++ some p :: List.replicate b none) i := by
  refine (C148_own_partial ch _).mpr (fun c => Or.inr (Or.inr (fun x y hx hy => ?_))) i
  have : ∀ x : NuCol → K, some x ∈ (List.replicate a none ++ some p :: List.replicate b none) → x = p := by
    intro x hx
    rcases List.mem_append.mp hx with h | h
    · cases List.eq_of_mem_replicate h
    · rcases List.mem_cons.mp h with h | h
      · exact Option.some.inj h
      · cases List.eq_of_mem_replicate h
  rw [this x hx, this y hy]

/-- A chamber of two segments: the first with its own parameters, the second without. -/
def twoSegs (f64 : Bool) : NuCol → SegCol ℚ
  | .delMax => ⟨[1.2, -1], f64⟩
  | .r0 => ⟨[0.5, -1], f64⟩
  | .eMax => ⟨[250, -1], f64⟩

/-- Global parameters with maximum yield `d`. -/
def yieldPars (d : ℚ) : NuCol → ℚ
  | .delMax => d
  | .r0 => 0.7
  | .eMax => 332

/-- **C148** is violated: an ion cloud listed after the electron cloud gets the yield of the electrons on the second segment. -/
theorem C148_own_violated : ∃ (ch : NuCol → SegCol ℚ) (p q : NuCol → ℚ), (∀ c, 0 ≤ p c ∧ 0 ≤ q c) ∧
    ¬ CloudOwn ch [some p, some q] 1 ∧ (nunifUsed ch [some p, some q] .delMax)[1]? = some (some [(1.2 : ℚ), 1.7]) ∧ q .delMax = 0 := by
  refine ⟨twoSegs true, yieldPars 1.7, yieldPars 0, ?_, ?_, by decide +kernel, rfl⟩
  · intro c; cases c <;> decide +kernel
  · intro h
    obtain ⟨u, hu, hou⟩ := h (yieldPars 0) rfl .delMax
    have h1 : (nunifUsed (twoSegs true) [some (yieldPars 1.7), some (yieldPars 0)] .delMax)[1]? = some (some [(1.2 : ℚ), 1.7]) := by
      decide +kernel
    rw [h1] at hu
    have hu' : [(1.2 : ℚ), 1.7] = u := by simpa using hu
    subst hu'
    have h2 := (hou.2 1 (-1) (by decide +kernel)).2 (by norm_num)
    norm_num [yieldPars] at h2

/-- Non-vacuity: the same clouds with columns stored as whole numbers or single precision, and equal clouds. -/
example (i : ℕ) : CloudOwn (twoSegs false) [some (yieldPars 1.7), some (yieldPars 0)] i :=
  (C148_own_partial _ _).mpr (fun c => Or.inl (by cases c <;> rfl)) i
example : nunifUsed (twoSegs false) [some (yieldPars 1.7), none, some (yieldPars 0)] .delMax =
    [some [1.2, 1.7], none, some [1.2, 0]] := by decide +kernel
example : nunifUsed (twoSegs true) [none, some (yieldPars 1.7), some (yieldPars 0)] .delMax =
    [none, some [1.2, 1.7], some [1.2, 1.7]] := by decide +kernel

end PyECLOUD
