import Verif.Spec.RegenOk
import Verif.Lemmas.Rebuild
import Verif.Lemmas.RegenCut

/-! # Lemmas: success of the full regeneration -/

set_option linter.unusedSectionVars false

namespace PyECLOUD

variable {K : Type} [Field K] [LinearOrder K] [FloorRing K]

theorem rejectLoop_settles {α : Type} (o : K → K → Bool) (g : α → K → K → K × K) (rounds : List ((ℕ → K) × (ℕ → K)))
    (pts : List (α × K × K))
    (h : ∀ (i : ℕ) (p : α × K × K), pts[i]? = some p → o p.2.1 p.2.2 = false ∨
      ∃ r ∈ rounds, o (g p.1 (r.1 i) (r.2 i)).1 (g p.1 (r.1 i) (r.2 i)).2 = false) :
    ∃ r, rejectLoop o g rounds pts = .ok r := by
  induction rounds generalizing pts with
  | nil =>
    refine ⟨pts, ?_⟩
    unfold rejectLoop
    rw [if_pos]
    rw [List.all_eq_true]
    intro p hp
    obtain ⟨i, hi, rfl⟩ := List.mem_iff_getElem.1 hp
    rcases h i _ (List.getElem?_eq_getElem hi) with h | ⟨r, hr, -⟩
    · simp [h]
    · cases hr
  | cons r rs ih =>
    unfold rejectLoop
    by_cases hall : (pts.all (fun p => !o p.2.1 p.2.2)) = true
    · exact ⟨pts, by rw [if_pos hall]⟩
    · rw [if_neg hall]
      apply ih
      intro i p hp
      unfold redraw at hp
      rw [List.getElem?_mapIdx] at hp
      cases e : pts[i]? with
      | none => rw [e] at hp; simp at hp
      | some p0 =>
        rw [e] at hp
        simp only [Option.map_some, Option.some.injEq] at hp
        by_cases ho : o p0.2.1 p0.2.2 = true
        · rw [if_pos ho] at hp
          subst hp
          rcases h i p0 e with h | ⟨r', hr', hr2⟩
          · rw [h] at ho; simp at ho
          · rcases List.mem_cons.1 hr' with rfl | hr'
            · exact Or.inl hr2
            · exact Or.inr ⟨r', hr', hr2⟩
        · rw [if_neg ho] at hp
          subst hp
          exact Or.inl (by simpa using ho)

theorem passPoints_ok (o : K → K → Bool) (st : Steps K) (cs : List (Steps K)) (d : PassDraws K)
    (h : ∀ ctr ∈ cs, ∀ i, d.Settles o st.x st.y ctr.x ctr.y i) :
    ∃ cols, passPoints o st cs d = .ok cols ∧ ∀ f ∈ passFields, (cols f).length = cs.length := by
  obtain ⟨r, hr⟩ := rejectLoop_settles o (cellGen st) d.rounds
    (cs.mapIdx (fun i ctr => (ctr, cellGen st ctr (d.x0 i) (d.y0 i)))) (by
      intro i p hp
      rw [List.getElem?_mapIdx] at hp
      cases e : cs[i]? with
      | none => rw [e] at hp; simp at hp
      | some ctr =>
        rw [e] at hp
        simp only [Option.map_some, Option.some.injEq] at hp
        subst hp
        have hm : ctr ∈ cs := List.mem_of_getElem? e
        obtain ⟨q, hq, hq2⟩ := h ctr hm i
        rcases hq with rfl | ⟨r, hr, rfl⟩
        · exact Or.inl hq2
        · exact Or.inr ⟨r, hr, hq2⟩)
  refine ⟨_, by unfold passPoints; rw [hr], ?_⟩
  have hl := rejectLoop_length _ _ _ _ _ hr
  rw [List.length_mapIdx] at hl
  intro f hf
  simp only [passFields, List.mem_cons, List.not_mem_nil, or_false] at hf
  rcases hf with rfl | rfl | rfl | rfl | rfl <;> simp [hl]

theorem regenLoop_ok (o : K → K → Bool) (st : Steps K) (pass : ℕ → PassDraws K) (fuel k : ℕ)
    (cells : List (Steps K × ℕ)) (arr : Fld → List K) (nmp : ℕ)
    (hs : ∀ c ∈ cells, ∀ k i, (pass k).Settles o st.x st.y c.1.x c.1.y i)
    (hfuel : ∀ c ∈ cells, c.2 ≤ fuel)
    (hlen : ∀ f ∈ passFields, nmp + (cells.map (·.2)).sum ≤ (arr f).length) :
    ∃ r, regenLoop o st pass fuel k cells arr nmp = .ok r := by
  induction fuel generalizing k cells arr nmp with
  | zero =>
    unfold regenLoop
    rw [if_pos]
    · exact ⟨_, rfl⟩
    · rw [List.length_eq_zero_iff, List.filter_eq_nil_iff]
      intro c hc
      have := hfuel c hc
      simp; omega
  | succ fuel ih =>
    unfold regenLoop
    by_cases h0 : (cells.filter (fun c => decide (0 < c.2))).length = 0
    · rw [if_pos h0]; exact ⟨_, rfl⟩
    · simp only [if_neg h0]
      obtain ⟨cols, hc, hcl⟩ := passPoints_ok o st ((cells.filter (fun c : Steps K × ℕ => decide (0 < c.2))).map (fun c : Steps K × ℕ => c.1)) (pass k) (by
        intro ctr hctr i
        obtain ⟨c, hc, rfl⟩ := List.mem_map.1 hctr
        exact hs c (List.mem_filter.1 hc).1 k i)
      rw [hc]
      have hsum : (cells.filter (fun c => decide (0 < c.2))).length + ((cells.map (fun c => (c.1, c.2 - 1))).map (·.2)).sum
          = (cells.map (·.2)).sum := by
        clear h0 hc hcl hlen hfuel hs
        induction cells with
        | nil => rfl
        | cons c cells ih =>
          simp only [List.map_cons, List.sum_cons, List.filter_cons]
          by_cases hp : 0 < c.2
          · simp only [hp, decide_true, if_true, List.length_cons]; omega
          · simp only [hp, decide_false, Bool.false_eq_true, if_false]; omega
      have ha := assignAll_ok arr passFields (by decide) nmp (cells.filter (fun c => decide (0 < c.2))).length
        (fun f => .array (cols f)) (by
          intro f hf
          change (cols f).length = _
          rw [hcl f hf, List.length_map]) (by
          intro f hf
          have := hlen f hf
          omega)
      simp only [ha]
      apply ih
      · intro c hc
        obtain ⟨c0, hc0, rfl⟩ := List.mem_map.1 hc
        exact hs c0 hc0
      · intro c hc
        obtain ⟨c0, hc0, rfl⟩ := List.mem_map.1 hc
        have := hfuel c0 hc0
        change c0.2 - 1 ≤ fuel
        omega
      · intro f hf
        have h1 := assignAll_len _ _ _ _ _ _ ha f
        have h2 := hlen f hf
        rw [h1]
        omega

end PyECLOUD
