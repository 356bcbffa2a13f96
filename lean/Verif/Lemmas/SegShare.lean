import Verif.Spec.SegShare
import Mathlib.Tactic.Linarith

/-! # Lemmas on shared segment parameters -/

namespace PyECLOUD

variable {K : Type} [Field K] [LinearOrder K]

lemma negTo_length (v : K) (l : List K) : (negTo v l).length = l.length := by simp [negTo]

lemma negTo_usesOwn (v : K) (l : List K) : UsesOwn l v (negTo v l) := by
  refine ⟨negTo_length v l, fun k a ha => ⟨fun h => ?_, fun h => ?_⟩⟩
  · simp [negTo, ha, not_lt.mpr h]
  · simp [negTo, ha, h]

lemma usesOwn_unique (v : K) (l u : List K) (h : UsesOwn l v u) : u = negTo v l := by
  apply List.ext_getElem?
  intro k
  rcases hk : l[k]? with _ | a
  · have h1 : l.length ≤ k := by simpa using hk
    rw [List.getElem?_eq_none (by rw [h.1]; exact h1), List.getElem?_eq_none (by rw [negTo_length]; exact h1)]
  · rcases lt_or_ge a 0 with ha | ha
    · rw [(h.2 k a hk).2 ha, ((negTo_usesOwn v l).2 k a hk).2 ha]
    · rw [(h.2 k a hk).1 ha, ((negTo_usesOwn v l).2 k a hk).1 ha]

lemma negTo_of_nonneg (v : K) (l : List K) (h : ∀ a ∈ l, 0 ≤ a) : negTo v l = l := by
  unfold negTo
  conv_rhs => rw [← List.map_id l]
  exact List.map_congr_left (fun a ha => by simp [not_lt.mpr (h a ha)])

lemma negTo_negTo (v : K) (l : List K) : negTo v (negTo v l) = negTo v l := by
  unfold negTo
  rw [List.map_map]
  refine List.map_congr_left (fun a _ => ?_)
  by_cases h : a < 0
  · simp [h]
  · simp [h]

lemma negTo_nonneg (v : K) (hv : 0 ≤ v) (l : List K) : ∀ a ∈ negTo v l, 0 ≤ a := by
  intro a ha
  obtain ⟨b, -, rfl⟩ := List.mem_map.mp ha
  by_cases h : b < 0
  · simpa [h] using hv
  · simpa [h] using not_lt.mp h

/-- The column of the chamber in the end. -/
lemma nunifAll_f64 (ps : List (Option (NuCol → K))) (c : NuCol) : ∀ ch : NuCol → SegCol K,
    ((nunifAll ch ps).1 c).f64 = (ch c).f64 := by
  induction ps with
  | nil => intro ch; rfl
  | cons o l ih =>
    intro ch
    cases o with
    | none => exact ih ch
    | some p =>
      refine (ih _).trans ?_
      simp only [nunifInit, colInit]
      split <;> rfl

lemma nunifAll_vals (ps : List (Option (NuCol → K))) (c : NuCol) : ∀ ch : NuCol → SegCol K, (ch c).f64 = true →
    ((nunifAll ch ps).1 c).vals = (ps.filterMap id).foldl (fun l p => negTo (p c) l) (ch c).vals := by
  induction ps with
  | nil => intro ch _; rfl
  | cons o l ih =>
    intro ch h
    cases o with
    | none => exact ih ch h
    | some p =>
      have h1 : ((nunifInit ch p).1 c).f64 = true := by simp [nunifInit, colInit, h]
      have h2 := ih _ h1
      simp only [nunifAll, List.filterMap_cons, id, List.foldl_cons]
      rw [h2]
      simp [nunifInit, colInit, h]

/-- What the models hold. -/
lemma nunifAll_shared (ps : List (Option (NuCol → K))) (c : NuCol) : ∀ (ch : NuCol → SegCol K), (ch c).f64 = true →
    ∀ (i : ℕ) p, ps[i]? = some (some p) → ∃ r, (nunifAll ch ps).2[i]? = some (some r) ∧ r c = .chamber := by
  induction ps with
  | nil => intro ch _ i p h; simp at h
  | cons o l ih =>
    intro ch h i p hp
    cases o with
    | none =>
      cases i with
      | zero => simp at hp
      | succ i => simpa [nunifAll] using ih ch h i p (by simpa using hp)
    | some q =>
      have h1 : ((nunifInit ch q).1 c).f64 = true := by simp [nunifInit, colInit, h]
      cases i with
      | zero => exact ⟨(nunifInit ch q).2, by simp [nunifAll], by simp [nunifInit, colInit, h]⟩
      | succ i => simpa [nunifAll] using ih _ h1 i p (by simpa using hp)

lemma nunifAll_own (ps : List (Option (NuCol → K))) (c : NuCol) : ∀ (ch : NuCol → SegCol K), (ch c).f64 = false →
    ∀ (i : ℕ) p, ps[i]? = some (some p) →
      ∃ r, (nunifAll ch ps).2[i]? = some (some r) ∧ r c = .own (negTo (p c) (ch c).vals) := by
  induction ps with
  | nil => intro ch _ i p h; simp at h
  | cons o l ih =>
    intro ch h i p hp
    cases o with
    | none =>
      cases i with
      | zero => simp at hp
      | succ i => simpa [nunifAll] using ih ch h i p (by simpa using hp)
    | some q =>
      have h1 : (nunifInit ch q).1 c = ch c := by simp [nunifInit, colInit, h]
      cases i with
      | zero =>
        have hq : q = p := by simpa using hp
        subst hq
        exact ⟨(nunifInit ch q).2, by simp [nunifAll], by simp [nunifInit, colInit, h]⟩
      | succ i =>
        have h2 := ih (nunifInit ch q).1 (by rw [h1]; exact h) i p (by simpa using hp)
        rw [h1] at h2
        simpa [nunifAll] using h2

lemma nunifUsed_shared (ch : NuCol → SegCol K) (ps : List (Option (NuCol → K))) (c : NuCol) (h : (ch c).f64 = true) (i : ℕ)
    (p : NuCol → K) (hp : ps[i]? = some (some p)) :
    (nunifUsed ch ps c)[i]? = some (some ((ps.filterMap id).foldl (fun l q => negTo (q c) l) (ch c).vals)) := by
  obtain ⟨r, hr, hrc⟩ := nunifAll_shared ps c ch h i p hp
  simp [nunifUsed, hr, hrc, ColRef.read, nunifAll_vals ps c ch h]

lemma nunifUsed_own (ch : NuCol → SegCol K) (ps : List (Option (NuCol → K))) (c : NuCol) (h : (ch c).f64 = false) (i : ℕ)
    (p : NuCol → K) (hp : ps[i]? = some (some p)) :
    (nunifUsed ch ps c)[i]? = some (some (negTo (p c) (ch c).vals)) := by
  obtain ⟨r, hr, hrc⟩ := nunifAll_own ps c ch h i p hp
  simp [nunifUsed, hr, hrc, ColRef.read]

lemma foldl_negTo_nonneg (c : NuCol) (qs : List (NuCol → K)) (l : List K) (h : ∀ a ∈ l, 0 ≤ a) :
    qs.foldl (fun l q => negTo (q c) l) l = l := by
  induction qs with
  | nil => rfl
  | cons q qs ih => rw [List.foldl_cons, negTo_of_nonneg _ _ h, ih]

lemma foldl_negTo_same (c : NuCol) (v : K) (qs : List (NuCol → K)) (h : ∀ q ∈ qs, q c = v) (hn : qs ≠ []) (l : List K) :
    qs.foldl (fun l q => negTo (q c) l) l = negTo v l := by
  induction qs generalizing l with
  | nil => exact absurd rfl hn
  | cons q qs ih =>
    rw [List.foldl_cons, h q (by simp)]
    by_cases hq : qs = []
    · subst hq; rfl
    · rw [ih (fun x hx => h x (by simp [hx])) hq, negTo_negTo]

end PyECLOUD
