import Verif.Lemmas.Checkpoint
import Verif.Props.Regen
import Verif.Model.MPHistory

/-!
# Checkpoints: C55, C75, C76
-/

set_option linter.unusedSectionVars false

namespace PyECLOUD

section Files

variable {K S M : Type} [Field K] [LinearOrder K]

/-- **C55**: after any history of crashes and restarts, the last checkpoint that was completed is in the folder, complete;
and there are never more than two files. -/
theorem C55_survives (c : CkCfg K) (hlast : c.lastCloud = true) (time : S → K) (d : Disk S M) (i : ℕ) (s : S)
    (h : Reach c time d (some (i, s))) : (i, some s) ∈ d.ck ∧ d.ck.length ≤ 2 := by
  have hi := reach_inv c hlast time d _ h
  generalize hl : d.ck = l at hi
  cases hi with
  | one => simp
  | writing => simp
  | two => simp

/-- **C55**: a restart that succeeds loads the last completed checkpoint, with a complete output file; a new simulation is
started only if no checkpoint was ever completed. -/
theorem C55_loads_latest (c : CkCfg K) (hlast : c.lastCloud = true) (time : S → K) (d : Disk S M) (last : Option (ℕ × S))
    (h : Reach c time d last) (r : Option (ℕ × S × M)) (hs : startup c.copyFolder d = .ok r) :
    (r = none ∧ last = none) ∨ ∃ i s m, r = some (i, s, m) ∧ last = some (i, s) ∧
      (if c.copyFolder then d.cp else d.mat) = some (some m) := by
  have hi := reach_inv c hlast time d _ h
  unfold startup at hs
  generalize hl : d.ck = l at hi
  rw [hl] at hs
  cases hi with
  | empty => left; exact ⟨(Except.ok.inj hs).symm, rfl⟩
  | torn0 => cases hs
  | one i s =>
    right
    simp only at hs
    split at hs
    · cases hs
    · cases hs
    · next m hm =>
      exact ⟨i, s, m, (Except.ok.inj hs).symm, rfl, hm⟩
  | writing => cases hs
  | two => cases hs

/-- **C55** (partial): if the last run ended between two passages (not while writing) and left a complete output file, the
restart loads the last completed checkpoint. Missing: the other crash points, see `C55_violated`. -/
theorem C55_restart_partial (c : CkCfg K) (hlast : c.lastCloud = true) (time : S → K) (d : Disk S M)
    (last : Option (ℕ × S)) (h : Reach c time d last) (r : Option (ℕ × S × M)) (hs : startup c.copyFolder d = .ok r)
    (evs : List (PassEv K S M)) (d' : Disk S M) (hd : d.applyAll (lifeOps c (resume time r) evs) = .ok d')
    (i : ℕ) (s : S) (hl : lastDone last (lifeOps c (resume time r) evs) = some (i, s)) (m : M)
    (hm : (if c.copyFolder then d'.cp else d'.mat) = some (some m)) :
    startup c.copyFolder d' = .ok (some (i, s, m)) := by
  obtain ⟨k, hb⟩ := (life_prefix c hlast evs d d' last _ (startup_bd _ d last (reach_inv c hlast time d _ h) r hs time) _
    (List.prefix_refl _) hd).2 rfl
  rw [hl] at hb
  unfold startup
  generalize d'.ck = l at hb
  cases hb with
  | one => simp only [hm]

/-- **C55 fails** whenever two files are left: the restart raises an error. -/
theorem C55_two_files (cf : Bool) (d : Disk S M) (h : d.ck.length = 2) : startup cf d = .error .valueError := by
  unfold startup
  match hc : d.ck, h with
  | [(_, none), _], _ => rfl
  | [(_, some _), _], _ => rfl

theorem written_append (a b : List (FOp S M)) : written (a ++ b) = written a ++ written b := by
  unfold written; rw [List.filterMap_append]

theorem written_neutral (a : List (FOp S M)) (h : ∀ o ∈ a, o.neutral) : written a = [] := by
  unfold written
  rw [List.filterMap_eq_nil_iff]
  intro o ho
  have := h o ho
  cases o <;> first | rfl | exact absurd this id

theorem written_ckOps (c : CkCfg K) (hlast : c.lastCloud = true) (dt : K) (hdt : c.dt = some dt) (st : CkSt K)
    (e : PassEv K S M) :
    (e.tt - st.tLast ≥ dt → written (ckOps c st e).1 = [(st.i, e.st)] ∧ (ckOps c st e).2.i = st.i + 1 ∧
      (ckOps c st e).2.tLast = e.tt) ∧
    (¬ e.tt - st.tLast ≥ dt → written (ckOps c st e).1 = [] ∧ (ckOps c st e).2 = st) := by
  constructor
  · intro hd
    unfold ckOps
    simp only [hdt, if_pos hd, hlast, if_true, and_true]
    rw [written_append, written_append]
    have h2 : written (if c.copyFolder = true then copyOps else ([] : List (FOp S M))) = [] := by
      apply written_neutral
      split
      · exact copyOps_neutral
      · simp
    have h3 : written (if 0 < st.i then [(.ckRemove (st.i - 1) : FOp S M)] else []) = [] := by
      split <;> rfl
    rw [h2, h3]
    rfl
  · intro hd
    unfold ckOps
    simp [hdt, hd, written]

end Files

section Paced

variable {K S M : Type} [Field K] [LinearOrder K] [IsStrictOrderedRing K]

/-- **C75**: a checkpoint is written at the first passage at least `checkpoint_DT` after the previous one (after time zero
for the first), and at no other passage, and the checkpoints are numbered consecutively. -/
theorem C75_pacing (c : CkCfg K) (hlast : c.lastCloud = true) (dt : K) (hdt : c.dt = some dt) (st : CkSt K)
    (evs : List (PassEv K S M)) :
    ∃ (gs : List (List (PassEv K S M) × PassEv K S M)) (opn : List (PassEv K S M)),
      evs = gs.flatMap (fun g => g.1 ++ [g.2]) ++ opn ∧ Paced dt st.tLast gs opn ∧
      written (lifeOps c st evs) = gs.mapIdx (fun k g => (st.i + k, g.2.st)) := by
  induction evs generalizing st with
  | nil => exact ⟨[], [], rfl, fun e he => absurd he (by simp), rfl⟩
  | cons e l ih =>
    obtain ⟨cn1, cn2, cn3⟩ := copySaveOps_neutral c (ckOps c st e).2 e
    have hw : written (lifeOps c st (e :: l)) = written (ckOps c st e).1 ++ written (lifeOps c (passOps c st e).2 l) := by
      simp only [lifeOps]
      rw [written_append]
      congr 1
      unfold passOps
      rw [written_append, written_append, written_neutral _ (matOps_neutral c e), written_neutral _ cn1]
      simp
    obtain ⟨k1, k2⟩ := written_ckOps c hlast dt hdt st e
    obtain ⟨gs, opn, g1, g2, g3⟩ := ih (passOps c st e).2
    by_cases hd : e.tt - st.tLast ≥ dt
    · obtain ⟨w1, w2, w3⟩ := k1 hd
      have ei : (passOps c st e).2.i = st.i + 1 := cn2.trans w2
      have et : (passOps c st e).2.tLast = e.tt := cn3.trans w3
      rw [et] at g2
      refine ⟨([], e) :: gs, opn, by rw [g1]; rfl, ⟨by simp, by linarith, g2⟩, ?_⟩
      rw [hw, w1, g3, ei, List.mapIdx_cons]
      simp only [List.singleton_append, Nat.add_zero]
      congr 1
      apply List.mapIdx_eq_mapIdx_iff.2
      intro k hk
      rw [Nat.add_assoc, Nat.add_comm 1 k]
    · obtain ⟨w1, w2⟩ := k2 hd
      have ei : (passOps c st e).2.i = st.i := cn2.trans (by rw [w2])
      have et : (passOps c st e).2.tLast = st.tLast := cn3.trans (by rw [w2])
      rw [et] at g2
      have hlt : e.tt < st.tLast + dt := by
        have := not_le.1 hd
        linarith
      cases gs with
      | nil =>
        refine ⟨[], e :: opn, by rw [g1]; rfl, ?_, by rw [hw, w1, g3]; rfl⟩
        intro e' he'
        rcases List.mem_cons.1 he' with rfl | he'
        · exact hlt
        · exact g2 e' he'
      | cons g gs =>
        refine ⟨(e :: g.1, g.2) :: gs, opn, by rw [g1]; simp, ⟨?_, g2.2.1, g2.2.2⟩, ?_⟩
        · intro e' he'
          rcases List.mem_cons.1 he' with rfl | he'
          · exact hlt
          · exact g2.1 e' he'
        · rw [hw, w1, g3, ei]
          simp

end Paced

/-! Witnesses: passages at times 1, 2, 3, a checkpoint at each. -/

/-- passage number `k`; the state is its own time, the output the number of passages -/
def ckToyEv (k : ℕ) : PassEv ℚ ℚ ℕ := ⟨(k : ℚ) + 1, k, (k : ℚ) + 1, k⟩

def ckToyCfg : CkCfg ℚ := ⟨some 1, true, false, none, 1⟩

def ckToyCfgCopy : CkCfg ℚ := ⟨some 1, true, true, none, 1⟩

/-- the disk after the given number of operations of a first run with three passages -/
def ckToyDisk (c : CkCfg ℚ) (n : ℕ) : Except FsErr (Disk ℚ ℕ) :=
  (⟨[], none, none⟩ : Disk ℚ ℕ).applyAll ((lifeOps c CkSt.init ((List.range 3).map ckToyEv)).take n)

theorem reach_toy (c : CkCfg ℚ) (n : ℕ) (d : Disk ℚ ℕ) (last : Option (ℕ × ℚ)) (h : ckToyDisk c n = .ok d)
    (hl : lastDone none ((lifeOps c CkSt.init ((List.range 3).map ckToyEv)).take n) = last) : Reach c id d last :=
  hl ▸ .life ⟨[], none, none⟩ none none ((List.range 3).map ckToyEv) _ d .fresh rfl (List.take_prefix _ _) h

/-- **C55 fails** (witness): the run dies while writing its second checkpoint; the first one is complete, but the restart
refuses to start. -/
theorem C55_violated : ∃ d : Disk ℚ ℕ, Reach ckToyCfg id d (some (0, 1)) ∧ startup false d = .error .valueError :=
  ⟨⟨[(0, some 1), (1, none)], some (some 1), none⟩, reach_toy ckToyCfg 7 _ _ (by decide +kernel) (by decide +kernel), rfl⟩

/-- **C55 fails** (witness): the run dies while writing its first checkpoint; the restart then fails although a new simulation
could start. -/
theorem C55_violated_first : ∃ d : Disk ℚ ℕ, Reach ckToyCfg id d none ∧ startup false d = .error .corrupt :=
  ⟨⟨[(0, none)], some (some 0), none⟩, reach_toy ckToyCfg 3 _ _ (by decide +kernel) (by decide +kernel), rfl⟩

/-- **C55 fails** (witness): without a copy of the output, a run that dies while writing the main output cannot be
restarted, although the checkpoint is complete. -/
theorem C55_violated_output : ∃ d : Disk ℚ ℕ, Reach ckToyCfg id d (some (0, 1)) ∧ d.ck = [(0, some 1)] ∧
    startup false d = .error .corrupt :=
  ⟨⟨[(0, some 1)], some none, none⟩, reach_toy ckToyCfg 5 _ _ (by decide +kernel) (by decide +kernel), rfl, rfl⟩

/-- **C55 fails** (witness): with a copy of the output, a run that dies between its first checkpoint and the first copy
cannot be restarted. -/
theorem C55_violated_copy : ∃ d : Disk ℚ ℕ, Reach ckToyCfgCopy id d (some (0, 1)) ∧ d.ck = [(0, some 1)] ∧
    startup true d = .error .notFound :=
  ⟨⟨[(0, some 1)], some (some 0), none⟩, reach_toy ckToyCfgCopy 4 _ _ (by decide +kernel) (by decide +kernel), rfl, rfl⟩

/-- **C55 fails** (witness): when the output is not written at every passage, the copy made at the checkpoint can fail. -/
theorem C55_violated_no_output : (⟨[], none, none⟩ : Disk ℚ ℕ).applyAll
    (lifeOps { ckToyCfgCopy with matEvery := 5 } CkSt.init ((List.range 3).map ckToyEv)) = .error .notFound := by
  decide +kernel

/-- the hypotheses of `C55_restart_partial` hold for a restart from the second checkpoint after a crash -/
example : ∃ d r d', Reach ckToyCfg (id : ℚ → ℚ) (d : Disk ℚ ℕ) (some (1, 2)) ∧ startup false d = .ok r ∧
    d.applyAll (lifeOps ckToyCfg (resume id r) [ckToyEv 2]) = .ok d' ∧ startup false d' = .ok (some (2, 3, 2)) :=
  ⟨⟨[(1, some 2)], some (some 1), none⟩, some (1, 2, 1), ⟨[(2, some 3)], some (some 2), none⟩, reach_toy ckToyCfg 9 _ _ (by decide +kernel) (by decide +kernel),
    rfl, by decide +kernel, rfl⟩

/-- checkpoints less often than passages -/
example : written (lifeOps { ckToyCfg with dt := some 2 } (CkSt.init : CkSt ℚ) ((List.range 7).map ckToyEv)) =
    [(0, 2), (1, 4), (2, 6)] := by decide +kernel

/-! ### The state at a restart -/

section Resume

variable {K : Type} [Field K] [LinearOrder K]

/-- **C76** (partial): a run restarted from a checkpoint gives the same result as the run that went on, provided cleaning and
regeneration had nothing to do at the checkpoint's passage. Missing: otherwise they are skipped, see `C76_violated`. -/
theorem C76_restart_partial {E X : Type} (body maint : E → X → Except PyErr X) (s : X) (e : E) (rest : List E)
    (hm : ∀ s1, body e s = .ok s1 → maint e s1 = .ok s1) :
    runRestarted body maint s e rest = runOn body maint s e rest := by
  unfold runRestarted runOn
  rw [List.foldlM_cons]
  unfold simStep
  cases hb : body e s with
  | error x => rfl
  | ok s1 =>
    have := hm s1 hb
    simp only [bind, Except.bind, this]

end Resume

/-- maintenance of the toy cloud, at a passage or not -/
def maintToy (newPass : Bool) (s : MPs ℚ) : Except PyErr (MPs ℚ) :=
  s.maintenance newPass false false toyCfg ⟨none, none⟩ 5 halfDraws (fun _ => 0) (fun _ => 0)

/-- **C76 fails** (witness): the checkpoint holds the cloud before cleaning, and the restarted run never does the cleaning of
that passage: a macroparticle below the threshold, removed in the run that goes on, is still there. -/
theorem C76_violated :
    (∃ s, runOn (fun _ s => .ok s) maintToy toy true [false, false] = .ok s ∧ s.live.map (fun p => p .nel) = [10, 20]) ∧
    ∃ s, runRestarted (fun _ s => .ok s) maintToy toy true [false, false] = .ok s ∧
      s.live.map (fun p => p .nel) = [10, 1, 20] :=
  ⟨exists_ok (by decide +kernel), exists_ok (by decide +kernel)⟩

/-- maintenance has nothing to do for a cloud without small macroparticles, away from passages -/
example : ∀ s1, (Except.ok toy : Except PyErr (MPs ℚ)) = .ok s1 → maintToy false s1 = .ok s1 := by
  intro s1 h
  cases h
  rfl

end PyECLOUD
