import Verif.Props.Checkpoint

/-!
# Copies of the main output: C149
-/

set_option linter.unusedSectionVars false

namespace PyECLOUD

variable {K S M : Type} [Field K] [LinearOrder K] [IsStrictOrderedRing K]

theorem applyAll_split (d d' : Disk S M) (a b : List (FOp S M)) (h : d.applyAll (a ++ b) = .ok d') :
    ∃ d1, d.applyAll a = .ok d1 ∧ d1.applyAll b = .ok d' := by
  induction a generalizing d with
  | nil => exact ⟨d, rfl, h⟩
  | cons o a ih =>
    simp only [List.cons_append, Disk.applyAll] at h ⊢
    cases ho : d.apply o with
    | error e => rw [ho] at h; cases h
    | ok d1 => rw [ho] at h; exact ih d1 h

/-- the copy operations -/
theorem applyAll_copy (d d' : Disk S M) (h : d.applyAll copyOps = .ok d') : d'.mat = d.mat ∧ d'.cp = d.mat := by
  simp only [copyOps, Disk.applyAll, Disk.apply] at h
  cases hm : d.mat with
  | none => rw [hm] at h; cases h
  | some v => rw [hm] at h; cases h; exact ⟨rfl, rfl⟩

theorem applyAll_mat (c : CkCfg K) (e : PassEv K S M) (d d' : Disk S M) (h : d.applyAll (matOps c e) = .ok d') :
    d'.mat = mainAfter c.matEvery d.mat [e] ∧ d'.cp = d.cp := by
  unfold matOps at h
  simp only [mainAfter, List.foldl_cons, List.foldl_nil, Int.dvd_iff_emod_eq_zero]
  split at h
  · rename_i hd
    rw [if_pos hd]
    cases h
    exact ⟨rfl, rfl⟩
  · rename_i hd
    rw [if_neg hd]
    cases h
    exact ⟨rfl, rfl⟩

theorem applyAll_ck1 (b : Bool) (i : ℕ) (x : S) (d d' : Disk S M)
    (h : d.applyAll (if b then [.ckBegin i, .ckEnd i x] else []) = .ok d') : d'.mat = d.mat ∧ d'.cp = d.cp := by
  cases b <;> cases h <;> exact ⟨rfl, rfl⟩

theorem applyAll_rm (p : Prop) [Decidable p] (i : ℕ) (d d' : Disk S M)
    (h : d.applyAll (if p then [.ckRemove i] else []) = .ok d') : d'.mat = d.mat ∧ d'.cp = d.cp := by
  split at h
  · simp only [Disk.applyAll, Disk.apply] at h
    split at h
    · rename_i d1 hd
      split at hd
      · cases hd
        cases h
        exact ⟨rfl, rfl⟩
      · cases hd
    · cases h
  · cases h
    exact ⟨rfl, rfl⟩

theorem applyAll_ck (c : CkCfg K) (st : CkSt K) (e : PassEv K S M) (d d' : Disk S M)
    (h : d.applyAll (ckOps c st e).1 = .ok d') : d'.mat = d.mat ∧
      ((d'.cp = d.mat ∧ (ckOps c st e).2.tCopy = e.tt) ∨ (d'.cp = d.cp ∧ (ckOps c st e).2.tCopy = st.tCopy)) := by
  unfold ckOps at h ⊢
  split at h
  · cases h
    exact ⟨rfl, Or.inr ⟨rfl, rfl⟩⟩
  · split at h
    · rename_i dt hdt hd
      obtain ⟨d2, h2, h3⟩ := applyAll_split _ _ _ _ h
      obtain ⟨d1, h1, h2⟩ := applyAll_split _ _ _ _ h2
      obtain ⟨a1, a2⟩ := applyAll_ck1 _ _ _ _ _ h1
      obtain ⟨b1, b2⟩ := applyAll_rm _ _ _ _ h3
      rw [if_pos hd]
      cases hc : c.copyFolder with
      | true =>
        rw [hc] at h2
        simp only [if_true] at h2 ⊢
        obtain ⟨c1, c2⟩ := applyAll_copy _ _ h2
        exact ⟨by rw [b1, c1, a1], Or.inl ⟨by rw [b2, c2, a1], trivial⟩⟩
      | false =>
        rw [hc] at h2
        cases h2
        exact ⟨by rw [b1, a1], Or.inr ⟨by rw [b2, a2], rfl⟩⟩
    · rename_i hd
      rw [if_neg hd]
      cases h
      exact ⟨rfl, Or.inr ⟨rfl, rfl⟩⟩

/-- what a passage does to the main output and its copy -/
theorem applyAll_pass (c : CkCfg K) (dt : K) (hdt : c.copyDt = some dt) (st : CkSt K) (e : PassEv K S M) (d d' : Disk S M)
    (h : d.applyAll (passOps c st e).1 = .ok d') : d'.mat = mainAfter c.matEvery d.mat [e] ∧
      ((d'.cp = d'.mat ∧ (passOps c st e).2.tCopy = e.tt) ∨
        (d'.cp = d.cp ∧ (passOps c st e).2.tCopy = st.tCopy ∧ e.tt - st.tCopy < dt)) := by
  unfold passOps at h ⊢
  obtain ⟨d2, h2, h3⟩ := applyAll_split _ _ _ _ h
  obtain ⟨d1, h1, h2⟩ := applyAll_split _ _ _ _ h2
  obtain ⟨a1, a2⟩ := applyAll_mat _ _ _ _ h1
  obtain ⟨b1, b2⟩ := applyAll_ck _ _ _ _ _ h2
  dsimp only
  unfold copySaveOps at h3 ⊢
  rw [hdt] at h3 ⊢
  dsimp only at h3 ⊢
  split at h3
  · rename_i hd
    rw [if_pos hd]
    obtain ⟨c1, c2⟩ := applyAll_copy _ _ h3
    exact ⟨by rw [c1, b1, a1], Or.inl ⟨by rw [c1, c2], rfl⟩⟩
  · rename_i hd
    rw [if_neg hd]
    cases h3
    refine ⟨by rw [b1, a1], ?_⟩
    rcases b2 with ⟨b2, b3⟩ | ⟨b2, b3⟩
    · exact Or.inl ⟨by rw [b2, b1], b3⟩
    · exact Or.inr ⟨by rw [b2, a2], b3, by rw [b3] at hd; exact not_le.1 hd⟩

/-- **C149**: after any number of passages, the main output is the one of the last passage at which it was to be written, and its
copy is the main output as it was at some passage, where no later passage was `copy_main_outp_DT` or more after that one; or no
passage came so long after the beginning, and the copy, if any, is still the one found there. -/
theorem C149_copy_recent (c : CkCfg K) (dt : K) (hdt : c.copyDt = some dt) (st : CkSt K) (evs : List (PassEv K S M))
    (d d' : Disk S M) (h : d.applyAll (lifeOps c st evs) = .ok d') :
    d'.mat = mainAfter c.matEvery d.mat evs ∧
    ((∃ a e b, evs = a ++ e :: b ∧ d'.cp = mainAfter c.matEvery d.mat (a ++ [e]) ∧ ∀ x ∈ b, x.tt - e.tt < dt) ∨
      (d'.cp = d.cp ∧ ∀ x ∈ evs, x.tt - st.tCopy < dt)) := by
  induction evs generalizing st d with
  | nil =>
    cases h
    exact ⟨rfl, Or.inr ⟨rfl, by simp⟩⟩
  | cons e l ih =>
    simp only [lifeOps] at h
    obtain ⟨d1, h1, h2⟩ := applyAll_split _ _ _ _ h
    obtain ⟨a1, a2⟩ := applyAll_pass c dt hdt st e d d1 h1
    obtain ⟨i1, i2⟩ := ih _ _ h2
    have hm : ∀ l' : List (PassEv K S M), mainAfter c.matEvery d.mat (e :: l') = mainAfter c.matEvery d1.mat l' := by
      intro l'
      rw [a1]
      rfl
    refine ⟨by rw [i1, hm], ?_⟩
    rcases i2 with ⟨a, e', b, rfl, j2, j3⟩ | ⟨j1, j2⟩
    · exact Or.inl ⟨e :: a, e', b, rfl, by rw [j2, List.cons_append, hm], j3⟩
    · rcases a2 with ⟨k1, k2⟩ | ⟨k1, k2, k3⟩
      · refine Or.inl ⟨[], e, l, rfl, ?_, fun x hx => by rw [← k2]; exact j2 x hx⟩
        rw [j1, k1, List.nil_append, hm]
        rfl
      · refine Or.inr ⟨by rw [j1, k1], fun x hx => ?_⟩
        rcases List.mem_cons.1 hx with rfl | hx
        · exact k3
        · rw [← k2]
          exact j2 x hx

theorem copies_append (a b : List (FOp S M)) : copies (a ++ b) = copies a + copies b := List.countP_append

/-- **C149**: when the checkpoints make no copies of their own, a copy is made at the first passage at least
`copy_main_outp_DT` after the previous copy, and at no other. -/
theorem C149_pacing (c : CkCfg K) (hno : c.dt = none ∨ c.copyFolder = false) (dt : K) (hdt : c.copyDt = some dt) (st : CkSt K)
    (evs : List (PassEv K S M)) :
    ∃ (gs : List (List (PassEv K S M) × PassEv K S M)) (opn : List (PassEv K S M)),
      evs = gs.flatMap (fun g => g.1 ++ [g.2]) ++ opn ∧ Paced dt st.tCopy gs opn ∧
      copies (lifeOps c st evs) = gs.length := by
  induction evs generalizing st with
  | nil => exact ⟨[], [], rfl, fun e he => absurd he (by simp), rfl⟩
  | cons e l ih =>
    have hck : copies (ckOps c st e).1 = 0 ∧ (ckOps c st e).2.tCopy = st.tCopy := by
      unfold ckOps
      rcases hno with h | h
      · rw [h]
        exact ⟨rfl, rfl⟩
      · rw [h]
        split
        · exact ⟨rfl, rfl⟩
        · split
          · refine ⟨?_, rfl⟩
            rw [copies_append, copies_append]
            have e1 : copies (if c.lastCloud then [(.ckBegin st.i : FOp S M), .ckEnd st.i e.st] else []) = 0 := by
              split <;> rfl
            have e2 : copies (if 0 < st.i ∧ c.lastCloud = true then [(.ckRemove (st.i - 1) : FOp S M)] else []) = 0 := by
              split <;> rfl
            rw [e1, e2]
            rfl
          · exact ⟨rfl, rfl⟩
    have hmat : copies (matOps c e : List (FOp S M)) = 0 := by
      unfold matOps
      split <;> rfl
    have hc : copies (lifeOps c st (e :: l)) =
        copies (copySaveOps c (ckOps c st e).2 e).1 + copies (lifeOps c (passOps c st e).2 l) := by
      simp only [lifeOps, passOps]
      rw [copies_append, copies_append, copies_append, hmat, hck.1]
      omega
    obtain ⟨gs, opn, g1, g2, g3⟩ := ih (passOps c st e).2
    by_cases hd : e.tt - st.tCopy ≥ dt
    · have hs : copySaveOps c (ckOps c st e).2 e = (copyOps, { (ckOps c st e).2 with tCopy := e.tt }) := by
        unfold copySaveOps
        rw [hdt, hck.2]
        dsimp only
        rw [if_pos hd]
      have et : (passOps c st e).2.tCopy = e.tt := by
        unfold passOps
        rw [hs]
      rw [et] at g2
      refine ⟨([], e) :: gs, opn, by rw [g1]; rfl, ⟨by simp, by linarith, g2⟩, ?_⟩
      rw [hc, hs, g3, List.length_cons, Nat.add_comm]
      rfl
    · have hs : copySaveOps c (ckOps c st e).2 e = ([], (ckOps c st e).2) := by
        unfold copySaveOps
        rw [hdt, hck.2]
        dsimp only
        rw [if_neg hd]
      have et : (passOps c st e).2.tCopy = st.tCopy := by
        unfold passOps
        rw [hs]
        exact hck.2
      rw [et] at g2
      have hlt : e.tt < st.tCopy + dt := by
        have := not_le.1 hd
        linarith
      have hc' : copies (lifeOps c st (e :: l)) = gs.length := by
        rw [hc, hs, g3]
        exact Nat.zero_add _
      cases gs with
      | nil =>
        refine ⟨[], e :: opn, by rw [g1]; rfl, ?_, hc'⟩
        intro e' he'
        rcases List.mem_cons.1 he' with rfl | he'
        · exact hlt
        · exact g2 e' he'
      | cons g gs =>
        refine ⟨(e :: g.1, g.2) :: gs, opn, by rw [g1]; simp, ⟨?_, g2.2.1, g2.2.2⟩, hc'⟩
        intro e' he'
        rcases List.mem_cons.1 he' with rfl | he'
        · exact hlt
        · exact g2.1 e' he'

/-- seven passages, the output written at every second one, a copy every three: the copy is that of the passage at 6, with the
output of that passage, and there were two copies -/
example : (⟨[], none, none⟩ : Disk ℚ ℕ).applyAll (lifeOps ⟨some 4, true, false, some 3, 2⟩ CkSt.init ((List.range 7).map ckToyEv))
      = .ok ⟨[(0, some 4)], some (some 5), some (some 5)⟩ ∧
    copies (lifeOps ⟨some 4, true, false, some 3, 2⟩ CkSt.init ((List.range 7).map ckToyEv)) = 2 := by
  decide +kernel

end PyECLOUD
