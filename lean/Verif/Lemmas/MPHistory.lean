import Verif.Model.MPHistory
import Verif.Lemmas.MPSystem

set_option linter.unusedSectionVars false

namespace PyECLOUD

variable {K : Type} [Field K] [LinearOrder K] [FloorRing K]

/-- thresholds locked to the reference size, which is at least its initial value -/
structure MPs.Locked (s : MPs K) : Prop where
  split : s.split = s.factSplit * s.ref
  clTh : s.clTh = s.factClean * s.ref
  ref : s.ref0 ≤ s.ref

/-- all size parameters agree -/
structure SameSizes (s s' : MPs K) : Prop where
  ref : s'.ref = s.ref
  split : s'.split = s.split
  clTh : s'.clTh = s.clTh
  ref0 : s'.ref0 = s.ref0
  factSplit : s'.factSplit = s.factSplit
  factClean : s'.factClean = s.factClean
  lifetime : s'.lifetime = s.lifetime

/-- the settings fixed at construction agree -/
structure SameCfg (s s' : MPs K) : Prop where
  ref0 : s'.ref0 = s.ref0
  factSplit : s'.factSplit = s.factSplit
  factClean : s'.factClean = s.factClean
  lifetime : s'.lifetime = s.lifetime

theorem SameSizes.toCfg {s s' : MPs K} (h : SameSizes s s') : SameCfg s s' :=
  ⟨h.ref0, h.factSplit, h.factClean, h.lifetime⟩

theorem SameCfg.refl (s : MPs K) : SameCfg s s := ⟨rfl, rfl, rfl, rfl⟩

theorem SameSizes.refl (s : MPs K) : SameSizes s s := ⟨rfl, rfl, rfl, rfl, rfl, rfl, rfl⟩

theorem SameCfg.trans {a b c : MPs K} (h : SameCfg a b) (h' : SameCfg b c) : SameCfg a c :=
  ⟨h'.1.trans h.1, h'.2.trans h.2, h'.3.trans h.3, h'.4.trans h.4⟩

theorem SameSizes.trans {a b c : MPs K} (h : SameSizes a b) (h' : SameSizes b c) : SameSizes a c :=
  ⟨h'.1.trans h.1, h'.2.trans h.2, h'.3.trans h.3, h'.4.trans h.4, h'.5.trans h.5, h'.6.trans h.6,
    h'.7.trans h.7⟩

theorem SameSizes.locked {s s' : MPs K} (h : SameSizes s s') (hl : s.Locked) : s'.Locked := by
  refine ⟨?_, ?_, ?_⟩
  · rw [h.split, h.factSplit, h.ref]; exact hl.split
  · rw [h.clTh, h.factClean, h.ref]; exact hl.clTh
  · rw [h.ref0, h.ref]; exact hl.ref

theorem setRef_locked (s : MPs K) (v : K) (h : s.ref0 ≤ v) : (s.setRef v).Locked := ⟨rfl, rfl, h⟩

theorem newRef_ge (s : MPs K) (t : ℕ) : s.ref0 ≤ s.newRef t := by
  unfold MPs.newRef
  simp only
  split
  · exact le_refl _
  · next h => exact not_lt.1 h

theorem clean_locked (s : MPs K) (h : s.Locked) : s.clean.Locked := by
  unfold MPs.clean
  simp only
  split
  · exact setRef_locked _ _ (le_refl _)
  · exact ⟨h.split, h.clTh, h.ref⟩

theorem clean_sameCfg (s : MPs K) : SameCfg s s.clean := by
  unfold MPs.clean
  simp only
  split <;> exact ⟨rfl, rfl, rfl, rfl⟩

theorem softRegen_sameCfg (s : MPs K) (t : ℕ) (r : ℕ → K) : SameCfg s (s.softRegen t r) := by
  unfold MPs.softRegen
  simp only
  split <;> exact ⟨rfl, rfl, rfl, rfl⟩

theorem softRegen_ref (s : MPs K) (t : ℕ) (r : ℕ → K) (h : t < s.nmp) :
    (s.softRegen t r).ref = s.newRef t := by
  unfold MPs.softRegen
  rw [if_pos h]
  rfl

theorem softRegen_locked (s : MPs K) (h : s.Locked) (t : ℕ) (r : ℕ → K) : (s.softRegen t r).Locked := by
  by_cases ht : t < s.nmp
  · have e := softRegen_ref s t r ht
    have hc := softRegen_sameCfg s t r
    unfold MPs.softRegen at e ⊢
    rw [if_pos ht] at e ⊢
    exact ⟨rfl, rfl, newRef_ge s t⟩
  · unfold MPs.softRegen; rw [if_neg ht]; exact h

theorem checkSoft_cases (s : MPs K) (cfg : RegenCfg) (r : ℕ → K) (P : MPs K → Prop)
    (h0 : P s) (h1 : ∀ thr t, cfg.soft = some (thr, t) → thr < s.nmp → P (s.softRegen t r)) :
    P (s.checkSoft cfg r) := by
  unfold MPs.checkSoft
  split
  · exact h0
  · next thr t he =>
    split
    · next h => exact h1 thr t he h
    · exact h0

theorem checkAsync_cases (s : MPs K) (cfg : RegenCfg) (r : ℕ → K) (P : MPs K → Prop)
    (h0 : P s) (h1 : P s.clean) (h2 : ∀ t, P (s.clean.softRegen t r)) :
    P (s.checkAsync cfg r) := by
  unfold MPs.checkAsync
  split
  · exact h0
  · split
    · simp only
      split
      · exact h2 _
      · exact h1
    · exact h0

theorem addNew_sameSizes (s s' : MPs K) (n : ℕ) (src : Fld → Src K) (h : s.addNew n src = .ok s') :
    SameSizes s s' ∧ s'.nmp = s.nmp + n := by
  unfold MPs.addNew at h
  split at h
  · simp at h
  · simp only [Except.ok.injEq] at h
    subst h
    exact ⟨⟨rfl, rfl, rfl, rfl, rfl, rfl, rfl⟩, rfl⟩

theorem addUniform_sameSizes (s s' : MPs K) (o : K → K → Bool) (r : Rect K) (v q : K) (d : UniDraws K)
    (h : s.addUniform o r v q d = .ok s') : SameSizes s s' := by
  unfold MPs.addUniform at h
  simp only at h
  split at h
  · split at h
    · simp at h
    · split at h
      · simp at h
      · split at h
        · simp at h
        · simp only [Except.ok.injEq] at h
          subst h
          exact ⟨rfl, rfl, rfl, rfl, rfl, rfl, rfl⟩
  · simp only [Except.ok.injEq] at h
    subst h
    exact SameSizes.refl _

theorem addDensity_sameSizes (s s' : MPs K) (o : K → K → Bool) (r : Rect K) (v q : K) (d : UniDraws K)
    (h : s.addDensity o r v q d = .ok s') : SameSizes s s' := by
  unfold MPs.addDensity at h
  simp only at h
  split at h
  · simp at h
  · split at h
    · simp at h
    · simp only [Except.ok.injEq] at h
      subst h
      exact ⟨rfl, rfl, rfl, rfl, rfl, rfl, rfl⟩

theorem addDict_eq (s : MPs K) (d : MPDict K) : s.addDict d = s.addNew d.n (dictSrc d) := rfl

theorem rebuild_sameSizes (s s' : MPs K) (c : FullCfg K) (xm : K) (d : FullDraws K)
    (h : s.rebuild c xm d = .ok s') : SameSizes s s' := by
  unfold MPs.rebuild at h
  simp only at h
  split at h
  · simp at h
  · split at h
    · simp at h
    · simp only [Except.ok.injEq] at h
      subst h
      exact ⟨rfl, rfl, rfl, rfl, rfl, rfl, rfl⟩

/-- successful triggered full regeneration, split into its stages -/
theorem checkRegen_ok (s s' : MPs K) (c : FullCfg K) (fuel : ℕ) (d : FullDraws K)
    (h : s.checkRegen c fuel d = .ok s') (ht : c.trigger s = true) :
    ∃ hist iCut, computeHist c.histBias c.histDx (List.replicate c.histN 0)
        (((s.arr .x).zip (s.arr .nel)).take s.nmp) = .ok hist ∧
      cutLoop hist (c.histCut * hist.sum) fuel 1 = .ok iCut ∧
      ((s.setRef (s.newRef c.nAfter)).cutX (xMaxOf c hist.length iCut)).rebuild c
        (xMaxOf c hist.length iCut) d = .ok s' := by
  unfold MPs.checkRegen at h
  rw [if_pos ht] at h
  simp only at h
  split at h
  · simp at h
  · next hist e1 =>
    split at h
    · simp at h
    · next iCut e2 => exact ⟨hist, iCut, e1, e2, h⟩

theorem checkRegen_not_trigger (s : MPs K) (c : FullCfg K) (fuel : ℕ) (d : FullDraws K)
    (ht : c.trigger s = false) : s.checkRegen c fuel d = .ok s := by
  unfold MPs.checkRegen
  simp [ht]

theorem checkRegen_ref (s s' : MPs K) (c : FullCfg K) (fuel : ℕ) (d : FullDraws K)
    (h : s.checkRegen c fuel d = .ok s') (ht : c.trigger s = true) :
    s'.ref = s.newRef c.nAfter ∧ s'.Locked ∧ SameCfg s s' := by
  obtain ⟨hist, iCut, -, -, h3⟩ := checkRegen_ok s s' c fuel d h ht
  have hs := rebuild_sameSizes _ _ _ _ _ h3
  have hl : ((s.setRef (s.newRef c.nAfter)).cutX (xMaxOf c hist.length iCut)).Locked :=
    ⟨rfl, rfl, newRef_ge s c.nAfter⟩
  exact ⟨hs.ref, hs.locked hl, ⟨hs.ref0, hs.factSplit, hs.factClean, hs.lifetime⟩⟩

theorem step_locked (s s' : MPs K) (op : MPOp K) (hl : s.Locked) (h : s.step op = .ok s') :
    s'.Locked ∧ SameCfg s s' := by
  cases op with
  | clean =>
    simp only [MPs.step, Except.ok.injEq] at h; subst h
    exact ⟨clean_locked s hl, clean_sameCfg s⟩
  | soft t r =>
    simp only [MPs.step, Except.ok.injEq] at h; subst h
    exact ⟨softRegen_locked s hl t r, softRegen_sameCfg s t r⟩
  | checkSoft c r =>
    simp only [MPs.step, Except.ok.injEq] at h; subst h
    exact checkSoft_cases s c r (fun s' => s'.Locked ∧ SameCfg s s') ⟨hl, SameCfg.refl s⟩
      (fun _ t _ _ => ⟨softRegen_locked s hl t r, softRegen_sameCfg s t r⟩)
  | checkAsync c r =>
    simp only [MPs.step, Except.ok.injEq] at h; subst h
    exact checkAsync_cases s c r (fun s' => s'.Locked ∧ SameCfg s s') ⟨hl, SameCfg.refl s⟩
      ⟨clean_locked s hl, clean_sameCfg s⟩
      (fun t => ⟨softRegen_locked _ (clean_locked s hl) t r,
        (clean_sameCfg s).trans (softRegen_sameCfg _ t r)⟩)
  | regen c fuel d =>
    simp only [MPs.step] at h
    by_cases ht : c.trigger s = true
    · have := checkRegen_ref s s' c fuel d h ht
      exact ⟨this.2.1, this.2.2⟩
    · rw [checkRegen_not_trigger s c fuel d (by simpa using ht)] at h
      simp only [Except.ok.injEq] at h; subst h
      exact ⟨hl, SameCfg.refl s⟩
  | addNew n src =>
    have := (addNew_sameSizes s s' n src h).1
    exact ⟨this.locked hl, this.toCfg⟩
  | addUniform o r v q d =>
    have := addUniform_sameSizes s s' o r v q d h
    exact ⟨this.locked hl, this.toCfg⟩
  | addDensity o r v q d =>
    have := addDensity_sameSizes s s' o r v q d h
    exact ⟨this.locked hl, this.toCfg⟩
  | addDict d =>
    have := (addNew_sameSizes s s' _ _ h).1
    exact ⟨this.locked hl, this.toCfg⟩
  | initDict d =>
    have := (addNew_sameSizes { s with nmp := 0 } s' _ _ h).1
    exact ⟨this.locked ⟨hl.1, hl.2, hl.3⟩, ⟨this.ref0, this.factSplit, this.factClean, this.lifetime⟩⟩
  | resetRef =>
    simp only [MPs.step, Except.ok.injEq] at h; subst h
    exact ⟨setRef_locked s _ (le_refl _), ⟨rfl, rfl, rfl, rfl⟩⟩
  | mutate v =>
    simp only [MPs.step, Except.ok.injEq] at h; subst h
    exact ⟨⟨hl.1, hl.2, hl.3⟩, ⟨rfl, rfl, rfl, rfl⟩⟩

theorem runOps_locked (s s' : MPs K) (ops : List (MPOp K)) (hl : s.Locked) (h : s.runOps ops = .ok s') :
    s'.Locked ∧ SameCfg s s' := by
  induction ops generalizing s with
  | nil => simp only [MPs.runOps, Except.ok.injEq] at h; subst h; exact ⟨hl, SameCfg.refl s⟩
  | cons op ops ih =>
    unfold MPs.runOps at h
    split at h
    · simp at h
    · next s1 e =>
      have h1 := step_locked s s1 op hl e
      have h2 := ih s1 h1.1 h
      exact ⟨h2.1, h1.2.trans h2.2⟩

end PyECLOUD
