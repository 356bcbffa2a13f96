import Verif.Spec.Rejection
import Verif.Model.Emission
import Mathlib.Analysis.SpecificLimits.Basic
import Mathlib.Data.List.GetD

/-! # Rejection loops entry by entry, and their law -/

set_option linter.unusedSectionVars false

namespace PyECLOUD

open MeasureTheory ProbabilityTheory

section loop

variable {β R : Type}

/-- a rejection loop: entries that are bad are replaced, round by round, until none is bad -/
def gLoop (bad : β → Bool) (upd : R → ℕ → β → β) : List R → List β → Option (List β)
  | rs, es =>
    if es.all (fun p => !bad p) then some es
    else match rs with
      | [] => none
      | r :: rs => gLoop bad upd rs (es.mapIdx (fun i p => if bad p then upd r i p else p))

/-- one entry of the loop -/
def entryRun (bad : β → Bool) (upd : R → ℕ → β → β) (i : ℕ) : List R → β → Option β
  | rs, p =>
    if bad p then
      match rs with
      | [] => none
      | r :: rs => entryRun bad upd i rs (upd r i p)
    else some p

theorem entryRun_good (bad : β → Bool) (upd : R → ℕ → β → β) (i : ℕ) (rs : List R) (p : β) (h : bad p = false) :
    entryRun bad upd i rs p = some p := by
  cases rs <;> simp [entryRun, h]

/-- The loop ends with a given result exactly when every entry does. -/
theorem gLoop_iff (bad : β → Bool) (upd : R → ℕ → β → β) (rs : List R) : ∀ (es r : List β),
    gLoop bad upd rs es = some r ↔ r.length = es.length ∧ ∀ i : ℕ, ∀ p, es[i]? = some p → entryRun bad upd i rs p = r[i]? := by
  induction rs with
  | nil =>
    intro es r
    unfold gLoop
    by_cases h : es.all (fun p => !bad p) = true
    · rw [if_pos h]
      rw [List.all_eq_true] at h
      constructor
      · intro e
        cases e
        refine ⟨rfl, fun i p hp => ?_⟩
        have := h p (List.mem_of_getElem? hp)
        simp only [Bool.not_eq_true'] at this
        rw [entryRun_good _ _ _ _ _ this, hp]
      · rintro ⟨hl, hr⟩
        congr 1
        apply List.ext_getElem?
        intro i
        rcases hp : es[i]? with _ | p
        · rw [List.getElem?_eq_none_iff] at hp
          exact (List.getElem?_eq_none (by omega)).symm
        · have := h p (List.mem_of_getElem? hp)
          simp only [Bool.not_eq_true'] at this
          rw [← hr i p hp, entryRun_good _ _ _ _ _ this]
    · rw [if_neg h]
      simp only [reduceCtorEq, false_iff, not_and]
      intro hl hr
      apply h
      rw [List.all_eq_true]
      intro p hp
      obtain ⟨i, hi⟩ := List.mem_iff_getElem?.1 hp
      have := hr i p hi
      by_contra hb
      simp only [Bool.not_eq_true', Bool.not_eq_false] at hb
      rw [entryRun] at this
      simp only [hb, if_true] at this
      have hi2 : i < r.length := by
        rw [hl]
        exact (List.getElem?_eq_some_iff.1 hi).1
      rw [List.getElem?_eq_getElem hi2] at this
      cases this
  | cons r0 rs ih =>
    intro es r
    unfold gLoop
    by_cases h : es.all (fun p => !bad p) = true
    · rw [if_pos h]
      rw [List.all_eq_true] at h
      constructor
      · intro e
        cases e
        refine ⟨rfl, fun i p hp => ?_⟩
        have := h p (List.mem_of_getElem? hp)
        simp only [Bool.not_eq_true'] at this
        rw [entryRun_good _ _ _ _ _ this, hp]
      · rintro ⟨hl, hr⟩
        congr 1
        apply List.ext_getElem?
        intro i
        rcases hp : es[i]? with _ | p
        · rw [List.getElem?_eq_none_iff] at hp
          exact (List.getElem?_eq_none (by omega)).symm
        · have := h p (List.mem_of_getElem? hp)
          simp only [Bool.not_eq_true'] at this
          rw [← hr i p hp, entryRun_good _ _ _ _ _ this]
    · rw [if_neg h]
      simp only
      rw [ih]
      rw [List.length_mapIdx]
      refine and_congr_right (fun hl => ?_)
      constructor
      · intro hr i p hp
        have h1 := hr i (if bad p then upd r0 i p else p) (by rw [List.getElem?_mapIdx, hp]; rfl)
        rw [entryRun]
        by_cases hb : bad p
        · simp only [hb, if_true] at h1 ⊢
          exact h1
        · simp only [hb, Bool.false_eq_true, if_false] at h1 ⊢
          rw [entryRun_good _ _ _ _ _ (by simpa using hb)] at h1
          exact h1
      · intro hr i p hp
        rw [List.getElem?_mapIdx] at hp
        rcases hq : es[i]? with _ | q
        · rw [hq] at hp; cases hp
        · rw [hq] at hp
          cases hp
          have h1 := hr i q hq
          rw [entryRun] at h1
          by_cases hb : bad q
          · simp only [hb, if_true] at h1 ⊢
            exact h1
          · simp only [hb, Bool.false_eq_true, if_false] at h1 ⊢
            rw [entryRun_good _ _ _ _ _ (by simpa using hb)]
            exact h1

end loop

section draws

variable {α X Y : Type} (bad : α → Y → Bool) (F : α → X → Y)

/-- The entry takes its first acceptable draw. -/
theorem entryRun_draws (x : ℕ → ℕ → X) (i : ℕ) (c : α) (k : ℕ) : ∀ (m : ℕ) (v : α × Y),
    entryRun (fun p : α × Y => bad p.1 p.2) (fun (r : ℕ → X) i p => (p.1, F p.1 (r i))) i ((List.range' (m + 1) k).map x) (c, F c (x m i)) = some v ↔
      ∃ j, m ≤ j ∧ j ≤ m + k ∧ bad c (F c (x j i)) = false ∧ (∀ l, m ≤ l → l < j → bad c (F c (x l i)) = true) ∧ v = (c, F c (x j i)) := by
  induction k with
  | zero =>
    intro m v
    simp only [List.range'_zero, List.map_nil, entryRun]
    by_cases hb : bad c (F c (x m i)) = true
    · simp only [hb, if_true, reduceCtorEq, false_iff, not_exists, not_and]
      intro j h1 h2 h3
      have : j = m := by omega
      subst this
      rw [hb] at h3; cases h3
    · simp only [hb, Bool.false_eq_true, if_false, Option.some.injEq]
      constructor
      · rintro rfl
        exact ⟨m, le_refl _, by omega, by simpa using hb, fun l h1 h2 => by omega, rfl⟩
      · rintro ⟨j, h1, h2, -, -, rfl⟩
        have : j = m := by omega
        rw [this]
  | succ k ih =>
    intro m v
    rw [List.range'_succ, List.map_cons, entryRun]
    by_cases hb : bad c (F c (x m i)) = true
    · simp only [hb, if_true]
      rw [ih]
      constructor
      · rintro ⟨j, h1, h2, h3, h4, h5⟩
        refine ⟨j, by omega, by omega, h3, fun l hl1 hl2 => ?_, h5⟩
        rcases Nat.eq_or_lt_of_le hl1 with rfl | hl
        · exact hb
        · exact h4 l hl hl2
      · rintro ⟨j, h1, h2, h3, h4, h5⟩
        have hjm : j ≠ m := by rintro rfl; rw [hb] at h3; cases h3
        exact ⟨j, by omega, by omega, h3, fun l hl1 hl2 => h4 l (by omega) hl2, h5⟩
    · simp only [hb, Bool.false_eq_true, if_false, Option.some.injEq]
      constructor
      · rintro rfl
        exact ⟨m, le_refl _, by omega, by simpa using hb, fun l h1 h2 => by omega, rfl⟩
      · rintro ⟨j, h1, h2, h3, h4, rfl⟩
        rcases Nat.eq_or_lt_of_le h1 with rfl | hj
        · rfl
        · exact absurd (h4 m (le_refl _) hj) hb

end draws

/-! ## the law of one entry -/

section law

variable {X : Type} [MeasurableSpace X] (ν : MeasureTheory.Measure X) [IsProbabilityMeasure ν]

/-- draws of which the first acceptable one lies in `B` -/
def firstIn (k : ℕ) (A B : Set X) : Set (Fin (k + 1) → X) := {x | ∃ j : Fin (k + 1), x j ∈ A ∧ (∀ l < j, x l ∉ A) ∧ x j ∈ B}

theorem firstIn_law (k : ℕ) (A B : Set X) (hA : MeasurableSet A) (hB : MeasurableSet B) :
    MeasureTheory.Measure.pi (fun _ : Fin (k + 1) => ν) (firstIn k A B) = ∑ j ∈ Finset.range (k + 1), ν Aᶜ ^ j * ν (A ∩ B) := by
  let S : Fin (k + 1) → Fin (k + 1) → Set X := fun j l => if l < j then Aᶜ else if l = j then A ∩ B else Set.univ
  have hS : ∀ j l, MeasurableSet (S j l) := by
    intro j l
    simp only [S]
    split_ifs
    · exact hA.compl
    · exact hA.inter hB
    · exact MeasurableSet.univ
  have hU : firstIn k A B = ⋃ j, Set.univ.pi (S j) := by
    ext x
    simp only [firstIn, Set.mem_setOf_eq, Set.mem_iUnion, Set.mem_univ_pi, S]
    refine exists_congr (fun j => ?_)
    constructor
    · rintro ⟨h1, h2, h3⟩ l
      split_ifs with ha hb
      · exact h2 l ha
      · subst hb; exact ⟨h1, h3⟩
      · trivial
    · intro h
      have hj := h j
      rw [if_neg (lt_irrefl j), if_pos rfl] at hj
      refine ⟨hj.1, fun l hl => ?_, hj.2⟩
      have := h l
      rw [if_pos hl] at this
      exact this
  have hdis : Pairwise (Function.onFun Disjoint (fun j => Set.univ.pi (S j))) := by
    intro a b hab
    rw [Function.onFun, Set.disjoint_left]
    intro x ha hb
    rw [Set.mem_univ_pi] at ha hb
    rcases lt_or_gt_of_ne hab with h | h
    · have h1 := ha a
      have h2 := hb a
      simp only [S, lt_irrefl, if_false, if_true, if_pos h] at h1 h2
      exact h2 h1.1
    · have h1 := ha b
      have h2 := hb b
      simp only [S, lt_irrefl, if_false, if_true, if_pos h] at h1 h2
      exact h1 h2.1
  rw [hU, measure_iUnion hdis (fun j => MeasurableSet.univ_pi (hS j)), tsum_fintype]
  have hr : ∀ j : Fin (k + 1), MeasureTheory.Measure.pi (fun _ : Fin (k + 1) => ν) (Set.univ.pi (S j)) = ν Aᶜ ^ (j : ℕ) * ν (A ∩ B) := by
    intro j
    rw [MeasureTheory.Measure.pi_pi]
    have hs : ∀ l : Fin (k + 1), ν (S j l) = (if l < j then ν Aᶜ else 1) * (if l = j then ν (A ∩ B) else 1) := by
      intro l
      simp only [S]
      by_cases h1 : l < j
      · rw [if_pos h1, if_pos h1, if_neg (ne_of_lt h1), mul_one]
      · rw [if_neg h1, if_neg h1, one_mul]
        split_ifs
        · rfl
        · exact measure_univ
    simp only [hs]
    rw [Finset.prod_mul_distrib, Finset.prod_ite_eq' Finset.univ j, if_pos (Finset.mem_univ _), Finset.prod_ite]
    simp only [Finset.prod_const, one_pow, mul_one]
    congr 2
    have : Finset.univ.filter (fun l : Fin (k + 1) => l < j) = Finset.Iio j := by ext; simp
    rw [this, Fin.card_Iio]
  simp only [hr]
  exact (Finset.sum_range (fun j => ν Aᶜ ^ j * ν (A ∩ B))).symm

theorem geom_ends (A : Set X) (hA : MeasurableSet A) (k : ℕ) : ∑ j ∈ Finset.range (k + 1), ν Aᶜ ^ j * ν A = 1 - ν Aᶜ ^ (k + 1) := by
  have h1 : ν A = 1 - ν Aᶜ := by
    rw [prob_compl_eq_one_sub hA]
    exact (ENNReal.sub_sub_cancel ENNReal.one_ne_top prob_le_one).symm
  have hq : ν Aᶜ ≤ 1 := prob_le_one
  generalize ν Aᶜ = q at *
  rw [h1]
  have hq2 : q ≠ ⊤ := ne_top_of_le_ne_top ENNReal.one_ne_top hq
  lift q to NNReal using hq2
  have hq' : q ≤ 1 := by exact_mod_cast hq
  have : ∀ k : ℕ, ∑ j ∈ Finset.range k, q ^ j * (1 - q) = 1 - q ^ k := by
    intro k
    induction k with
    | zero => simp
    | succ k ih =>
      rw [Finset.sum_range_succ, ih]
      have h2 : q ^ k ≤ 1 := pow_le_one₀ zero_le' hq'
      have h3 : q ^ (k + 1) ≤ q ^ k := pow_le_pow_of_le_one zero_le' hq' (Nat.le_succ k)
      have h4 : q ^ k * (1 - q) = q ^ k - q ^ (k + 1) := by rw [mul_tsub, mul_one, pow_succ]
      rw [h4]
      exact tsub_add_tsub_cancel h2 h3
  have e := this (k + 1)
  have e2 := congrArg (fun t : NNReal => (t : ENNReal)) e
  push_cast at e2
  exact e2

/-- a loop whose entries take their first acceptable draw follows the truncated law -/
theorem truncated_of (ν : ℕ → MeasureTheory.Measure X) [∀ i, IsProbabilityMeasure (ν i)] {Y : Type} [MeasurableSpace Y] [Inhabited X] (n : ℕ) (acc : ℕ → Set X) (val : ℕ → X → Y) (res : (k : ℕ) → (Fin n → Fin (k + 1) → X) → Option (ℕ → Y))
    (hacc : ∀ i < n, MeasurableSet (acc i)) (hval : ∀ i < n, Measurable (val i))
    (hres : ∀ (k : ℕ) (ω : Fin n → Fin (k + 1) → X), ((res k ω).isSome ↔ ∀ i : Fin n, ∃ j, ω i j ∈ acc i) ∧
      ∀ r, res k ω = some r → ∀ i : Fin n, ∃ j, ω i j ∈ acc i ∧ (∀ l < j, ω i l ∉ acc i) ∧ r i = val i (ω i j)) :
    TruncatedLaw ν n acc val res := by
  have first : ∀ {k : ℕ} (x : Fin (k + 1) → X) (A : Set X), (∃ j, x j ∈ A) → ∃ j, x j ∈ A ∧ ∀ l < j, x l ∉ A := by
    classical
    intro k x A h
    refine ⟨Fin.find (fun j => x j ∈ A) h, Fin.find_spec h, fun l hl => ?_⟩
    exact Fin.find_min h hl
  have uniq : ∀ {k : ℕ} (x : Fin (k + 1) → X) (A : Set X) (j j' : Fin (k + 1)), (x j ∈ A ∧ ∀ l < j, x l ∉ A) → (x j' ∈ A ∧ ∀ l < j', x l ∉ A) → j = j' := by
    intro k x A j j' h h'
    rcases lt_trichotomy j j' with hl | hl | hl
    · exact absurd h.1 (h'.2 j hl)
    · exact hl
    · exact absurd h'.1 (h.2 j' hl)
  have hset : ∀ (k : ℕ) (B : ℕ → Set Y), {ω | ∃ r, res k ω = some r ∧ ∀ i < n, r i ∈ B i} =
      Set.univ.pi (fun i : Fin n => firstIn k (acc i) (val i ⁻¹' B i)) := by
    intro k B
    ext ω
    simp only [Set.mem_setOf_eq, Set.mem_univ_pi, firstIn]
    constructor
    · rintro ⟨r, hr, hB⟩ i
      obtain ⟨j, h1, h2, h3⟩ := (hres k ω).2 r hr i
      refine ⟨j, h1, h2, ?_⟩
      rw [Set.mem_preimage, ← h3]
      exact hB i i.2
    · intro h
      have hs : (res k ω).isSome := (hres k ω).1.2 (fun i => ⟨(h i).choose, (h i).choose_spec.1⟩)
      obtain ⟨r, hr⟩ := Option.isSome_iff_exists.1 hs
      refine ⟨r, hr, fun i hi => ?_⟩
      obtain ⟨j, h1, h2, h3⟩ := (hres k ω).2 r hr ⟨i, hi⟩
      obtain ⟨j', h1', h2', h3'⟩ := h ⟨i, hi⟩
      have e := uniq _ _ j j' ⟨h1, h2⟩ ⟨h1', h2'⟩
      subst e
      have : r i = val i (ω ⟨i, hi⟩ j) := h3
      rw [this]
      exact h3'
  have hdone : ∀ k : ℕ, {ω | (res k ω).isSome = true} = Set.univ.pi (fun i : Fin n => firstIn k (acc i) Set.univ) := by
    intro k
    have := hset k (fun _ => Set.univ)
    simp only [Set.preimage_univ, Set.mem_univ, implies_true, and_true] at this
    rw [← this]
    ext ω
    simp only [Set.mem_setOf_eq, Option.isSome_iff_exists]
  have hends : ∀ k : ℕ, drawLaw ν n k {ω | (res k ω).isSome = true} = ∏ i ∈ Finset.range n, (1 - ν i (acc i)ᶜ ^ (k + 1)) := by
    intro k
    rw [hdone, drawLaw, MeasureTheory.Measure.pi_pi, Finset.prod_range (fun i => 1 - ν i (acc i)ᶜ ^ (k + 1))]
    refine Finset.prod_congr rfl (fun i _ => ?_)
    rw [firstIn_law (ν i) k _ _ (hacc i i.2) MeasurableSet.univ, Set.inter_univ, geom_ends (ν i) _ (hacc i i.2)]
  refine ⟨fun k B hB => ?_, hends, fun hpos => ?_⟩
  · rw [hends, hset, drawLaw, MeasureTheory.Measure.pi_pi, ← Finset.prod_mul_distrib,
      Finset.prod_range (fun i => (1 - ν i (acc i)ᶜ ^ (k + 1)) * (ν i)[|acc i] (val i ⁻¹' B i))]
    refine Finset.prod_congr rfl (fun i _ => ?_)
    rw [firstIn_law (ν i) k _ _ (hacc i i.2) (hval i i.2 (hB i)), ← geom_ends (ν i) _ (hacc i i.2), cond_apply (hacc i i.2)]
    rw [← Finset.sum_mul, ← Finset.sum_mul, mul_assoc]
    congr 1
    by_cases h0 : ν i (acc i) = 0
    · rw [h0, zero_mul]
      exact measure_mono_null Set.inter_subset_left h0
    · rw [← mul_assoc, ENNReal.mul_inv_cancel h0 (measure_ne_top (ν i) _), one_mul]
  · simp only [hends]
    have ht : ∀ i ∈ Finset.range n, Filter.Tendsto (fun k => 1 - ν i (acc i)ᶜ ^ (k + 1)) Filter.atTop (nhds 1) := by
      intro i hi
      have hi' := Finset.mem_range.1 hi
      have hlt : ν i (acc i)ᶜ < 1 := by
        rw [prob_compl_eq_one_sub (hacc i hi')]
        exact ENNReal.sub_lt_self ENNReal.one_ne_top one_ne_zero (hpos i hi')
      have h1 : Filter.Tendsto (fun k => ν i (acc i)ᶜ ^ (k + 1)) Filter.atTop (nhds 0) :=
        (ENNReal.tendsto_pow_atTop_nhds_zero_of_lt_one hlt).comp (Filter.tendsto_add_atTop_nat 1)
      have h2 := ENNReal.Tendsto.sub (tendsto_const_nhds (x := (1 : ENNReal))) h1 (Or.inl ENNReal.one_ne_top)
      simpa using h2
    have h := ENNReal.tendsto_finsetProd_of_ne_top (Finset.range n) ht (fun _ _ => ENNReal.one_ne_top)
    simpa using h

/-- A rejection loop over the given draws follows the truncated law: entry `i` carries the data `c i`, takes the value `F (c i) x` when
it draws `x`, and is redrawn while `bad`. -/
theorem truncated_gLoop (ν : ℕ → MeasureTheory.Measure X) [∀ i, IsProbabilityMeasure (ν i)] {α Y Z : Type} [MeasurableSpace Z] [Inhabited X] (n : ℕ) (c : ℕ → α) (F : α → X → Y) (bad : α → Y → Bool)
    (G : ℕ → α × Y → Z) (d : Z) (hacc : ∀ i < n, MeasurableSet {x : X | bad (c i) (F (c i) x) = false})
    (hval : ∀ i < n, Measurable (fun x => G i (c i, F (c i) x))) :
    TruncatedLaw ν n (fun i => {x : X | bad (c i) (F (c i) x) = false}) (fun i x => G i (c i, F (c i) x)) (fun k ω =>
      (gLoop (fun p : α × Y => bad p.1 p.2) (fun (r : ℕ → X) i p => (p.1, F p.1 (r i))) ((List.range' 1 k).map (drawAt ω))
        ((List.range n).map (fun i => (c i, F (c i) (drawAt ω 0 i))))).map (fun r i => (r[i]?.map (G i)).getD d)) := by
  refine truncated_of ν n _ _ _ hacc hval (fun k ω => ?_)
  have hent : ∀ i < n, ((List.range n).map (fun i => (c i, F (c i) (drawAt ω 0 i))))[i]? = some (c i, F (c i) (drawAt ω 0 i)) := by
    intro i hi
    simp [hi]
  have hdr : ∀ (i : Fin n) (j : Fin (k + 1)), drawAt ω j i = ω i j := by
    intro i j
    simp only [drawAt, i.2, j.2, and_self, dif_pos]
  constructor
  · rw [Option.isSome_map, Option.isSome_iff_exists]
    constructor
    · rintro ⟨r, hr⟩ i
      rw [gLoop_iff] at hr
      obtain ⟨hl, hr⟩ := hr
      have h1 := hr i _ (hent i i.2)
      have hi : (i : ℕ) < r.length := by rw [hl]; simp
      rw [List.getElem?_eq_getElem hi, entryRun_draws bad F (drawAt ω) i (c i) k 0] at h1
      obtain ⟨j, -, hj, hb, -, -⟩ := h1
      refine ⟨⟨j, by omega⟩, ?_⟩
      rw [← hdr i ⟨j, by omega⟩]
      exact hb
    · intro h
      classical
      have hx : ∀ i : Fin n, ∃ v, entryRun (fun p : α × Y => bad p.1 p.2) (fun (r : ℕ → X) i p => (p.1, F p.1 (r i))) i
          ((List.range' 1 k).map (drawAt ω)) (c i, F (c i) (drawAt ω 0 i)) = some v := by
        intro i
        obtain ⟨j, hj⟩ := h i
        have hf : ∃ j, bad (c i) (F (c i) (drawAt ω j i)) = false := ⟨j, by rw [hdr]; exact hj⟩
        refine ⟨_, (entryRun_draws bad F (drawAt ω) i (c i) k 0 _).2 ⟨Nat.find hf, Nat.zero_le _, ?_, Nat.find_spec hf, fun l _ hl => ?_, rfl⟩⟩
        · have : Nat.find hf ≤ j := Nat.find_min' hf (by rw [hdr]; exact hj)
          omega
        · have := Nat.find_min hf hl
          simpa using this
      choose v hv using hx
      refine ⟨List.ofFn v, (gLoop_iff _ _ _ _ _).2 ⟨by simp, fun i p hp => ?_⟩⟩
      have hi : i < n := by
        have := (List.getElem?_eq_some_iff.1 hp).1
        simpa using this
      rw [hent i hi] at hp
      cases hp
      rw [hv ⟨i, hi⟩]
      simp [hi]
  · intro r0 hr0 i
    rw [Option.map_eq_some_iff] at hr0
    obtain ⟨r, hr, rfl⟩ := hr0
    rw [gLoop_iff] at hr
    obtain ⟨hl, hr⟩ := hr
    have h1 := hr i _ (hent i i.2)
    have hi : (i : ℕ) < r.length := by rw [hl]; simp
    rw [List.getElem?_eq_getElem hi, entryRun_draws bad F (drawAt ω) i (c i) k 0] at h1
    obtain ⟨j, -, hj, hb, hbl, hv⟩ := h1
    refine ⟨⟨j, by omega⟩, ?_, fun l hl => ?_, ?_⟩
    · rw [← hdr i ⟨j, by omega⟩]
      exact hb
    · have := hbl l (Nat.zero_le _) hl
      rw [hdr] at this
      simp only [Set.mem_setOf_eq, this, Bool.true_eq_false, not_false_eq_true]
    · simp only [List.getElem?_eq_getElem hi, Option.map_some, Option.getD_some, hv]
      rw [← hdr i ⟨j, by omega⟩]

end law

/-- results that agree on the entries have the same law -/
theorem TruncatedLaw.congr {X Y : Type} [MeasurableSpace X] [MeasurableSpace Y] {ν : ℕ → MeasureTheory.Measure X} {n : ℕ} {acc acc' : ℕ → Set X}
    {val val' : ℕ → X → Y} {res res' : (k : ℕ) → (Fin n → Fin (k + 1) → X) → Option (ℕ → Y)} (h : TruncatedLaw ν n acc val res)
    (ha : ∀ i < n, acc' i = acc i) (hv : ∀ i < n, val' i = val i) (hs : ∀ k ω, (res' k ω).isSome = (res k ω).isSome)
    (hr : ∀ k ω r r', res k ω = some r → res' k ω = some r' → ∀ i < n, r' i = r i) : TruncatedLaw ν n acc' val' res' := by
  have hset : ∀ k, {ω | (res' k ω).isSome = true} = {ω | (res k ω).isSome = true} := fun k => by ext ω; simp only [Set.mem_setOf_eq, hs]
  refine ⟨fun k B hB => ?_, fun k => ?_, fun hp => ?_⟩
  · have e : {ω | ∃ r, res' k ω = some r ∧ ∀ i < n, r i ∈ B i} = {ω | ∃ r, res k ω = some r ∧ ∀ i < n, r i ∈ B i} := by
      ext ω
      constructor
      · rintro ⟨r', h1, h2⟩
        have h3 : (res k ω).isSome := by rw [← hs, h1]; rfl
        obtain ⟨r, h3⟩ := Option.isSome_iff_exists.1 h3
        exact ⟨r, h3, fun i hi => by rw [← hr k ω r r' h3 h1 i hi]; exact h2 i hi⟩
      · rintro ⟨r, h1, h2⟩
        have h3 : (res' k ω).isSome := by rw [hs, h1]; rfl
        obtain ⟨r', h3⟩ := Option.isSome_iff_exists.1 h3
        exact ⟨r', h3, fun i hi => by rw [hr k ω r r' h1 h3 i hi]; exact h2 i hi⟩
    rw [e, hset, h.law k B hB]
    congr 1
    refine Finset.prod_congr rfl (fun i hi => ?_)
    rw [ha i (Finset.mem_range.1 hi), hv i (Finset.mem_range.1 hi)]
  · rw [hset, h.ends]
    refine Finset.prod_congr rfl (fun i hi => ?_)
    rw [ha i (Finset.mem_range.1 hi)]
  · simp only [hset]
    exact h.almostSurely (fun i hi => by rw [← ha i hi]; exact hp i hi)

/-! ## the loops of the code -/

/-- the result of a loop, when it ended -/
def okSome {β : Type} : Except PyErr β → Option β
  | .ok r => some r
  | .error _ => none

theorem enReject_gLoop {α : Type} (bad : α → ℝ → Bool) (rs : List (ℕ → ℝ)) : ∀ es : List (α × ℝ),
    okSome (enReject bad rs es) = gLoop (fun p : α × ℝ => bad p.1 p.2) (fun (r : ℕ → ℝ) i p => (p.1, r i)) rs es := by
  induction rs with
  | nil =>
    intro es
    unfold enReject gLoop
    split <;> rfl
  | cons r rs ih =>
    intro es
    unfold enReject gLoop
    split
    · rfl
    · simp only
      rw [ih]
      rfl

theorem rejectLoop_gLoop {α : Type} (outside : ℝ → ℝ → Bool) (gen : α → ℝ → ℝ → ℝ × ℝ) (rs : List (ℕ → ℝ × ℝ)) : ∀ es : List (α × ℝ × ℝ),
    okSome (rejectLoop outside gen (rs.map (fun r => (fun i => (r i).1, fun i => (r i).2))) es) =
      gLoop (fun p : α × ℝ × ℝ => outside p.2.1 p.2.2) (fun (r : ℕ → ℝ × ℝ) i p => (p.1, gen p.1 (r i).1 (r i).2)) rs es := by
  induction rs with
  | nil =>
    intro es
    unfold rejectLoop gLoop
    split <;> rfl
  | cons r rs ih =>
    intro es
    unfold gLoop
    rw [List.map_cons, rejectLoop]
    split
    · rfl
    · simp only
      rw [ih]
      rfl

theorem rejectLoop_gLoop1 {α : Type} (outside : ℝ → ℝ → Bool) (gen : α → ℝ → ℝ → ℝ × ℝ) (rs : List (ℕ → ℝ)) : ∀ es : List (α × ℝ × ℝ),
    okSome (rejectLoop outside gen (rs.map (fun r => (r, r))) es) =
      gLoop (fun p : α × ℝ × ℝ => outside p.2.1 p.2.2) (fun (r : ℕ → ℝ) i p => (p.1, gen p.1 (r i) (r i))) rs es := by
  induction rs with
  | nil =>
    intro es
    unfold rejectLoop gLoop
    split <;> rfl
  | cons r rs ih =>
    intro es
    unfold gLoop
    rw [List.map_cons, rejectLoop]
    split
    · rfl
    · simp only
      rw [ih]
      rfl

end PyECLOUD
