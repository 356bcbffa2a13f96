import Verif.Lemmas.Observed
import Verif.Props.SimStep
import Mathlib.Algebra.BigOperators.Intervals

/-! # C140, C141: the simulation with its savers -/

set_option linter.unusedSectionVars false

namespace PyECLOUD

variable {K : Type} [Field K] [LinearOrder K] [IsStrictOrderedRing K] [FloorRing K]

/-! ## Specification -/

/-- the same clouds, targets and counters of the last step, whatever the histograms -/
structure SameClouds (a b : SimSt K) : Prop where
  clouds : a.clouds = b.clouds
  cross : a.cross = b.cross
  cnt : a.cnt = b.cnt

/-- all that was ever put into a histogram, measured by `φ` (the content of a bin, the sum of the bins): the rows in the output
and the current content -/
def histTotal (φ : List K → K) (v : HistSav K) (h : ImpHist K) (a : HKey) : K := ((v.rows a).map φ).sum + φ (h.key a)

/-- all that was ever put into bin `k` of a histogram: the rows in the output and the current content -/
def binTotal (v : HistSav K) (h : ImpHist K) (a : HKey) (k : ℕ) : K :=
  ((v.rows a).map (fun r => r.getD k 0)).sum + (h.key a).getD k 0

/-- a measure of the content of a histogram -/
structure Measure (φ : List K → K) : Prop where
  zero : ∀ l, φ (zeroed l) = 0
  shift : ∀ h g h' g' : List K, h.length = g.length → h'.length = h.length → g'.length = g.length → Shift h g h' g' →
    φ h' - φ h = φ g' - φ g

/-! ## Operations -/

theorem SameClouds.refl (a : SimSt K) : SameClouds a a := ⟨rfl, rfl, rfl⟩

theorem SameClouds.symm {a b : SimSt K} (h : SameClouds a b) : SameClouds b a := ⟨h.clouds.symm, h.cross.symm, h.cnt.symm⟩

theorem SameClouds.trans {a b c : SimSt K} (h : SameClouds a b) (g : SameClouds b c) : SameClouds a c :=
  ⟨h.clouds.trans g.clouds, h.cross.trans g.cross, h.cnt.trans g.cnt⟩

/-- operations other than the impacts neither see nor change histograms -/
theorem apply_other (S : SimCfg K) (imp : ℕ → ImpCfg K) (op : SimOp K) (hop : ∀ i s e t, op ≠ .track i s e t)
    (st st1 : SimSt K) (H : ℕ → ImpHist K) (h : op.apply S st = .ok st1) :
    op.apply { S with imp := imp } { st with hists := H } = .ok { st1 with hists := H } ∧ st1.hists = st.hists := by
  have hput : ∀ (i : ℕ) (f : MPs K → Except PyErr (MPs K)), st.onCloud i f = .ok st1 →
      SimSt.onCloud { st with hists := H } i f = .ok { st1 with hists := H } ∧ st1.hists = st.hists := by
    intro i f h
    unfold SimSt.onCloud at *
    simp only
    split at h
    · cases h
    · split at h
      · cases h
      · cases h
        refine ⟨?_, rfl⟩
        simp_all [SimSt.put]
  cases op with
  | track i step sey tt => exact absurd rfl (hop i step sey tt)
  | gas i lam dt sx sy xb yb d => exact hput _ _ h
  | rays i lam dt u vel ends =>
    simp only [SimOp.apply] at h ⊢
    cases hp : S.photo i with
    | rays kc mean => rw [hp] at h; exact hput _ _ h
    | off => rw [hp] at h; cases h; exact ⟨rfl, rfl⟩
    | segs kc mean l cdf => rw [hp] at h; cases h; exact ⟨rfl, rfl⟩
  | segs i lam dt u vel seg r0 rounds =>
    simp only [SimOp.apply] at h ⊢
    cases hp : S.photo i with
    | segs kc mean l cdf => rw [hp] at h; exact hput _ _ h
    | off => rw [hp] at h; cases h; exact ⟨rfl, rfl⟩
    | rays kc mean => rw [hp] at h; cases h; exact ⟨rfl, rfl⟩
  | cross dt d =>
    simp only [SimOp.apply] at h ⊢
    cases hx : st.cross with
    | none => rw [hx] at h; cases h; exact ⟨by simp [hx], rfl⟩
    | some x =>
      rw [hx] at h
      simp only at h ⊢
      split at h
      · cases h
      · next x' cs hg => cases h; exact ⟨rfl, rfl⟩
  | maintain i newPass skipClean skipRegen d rs ra => simp only [SimOp.apply] at h ⊢; exact hput _ _ h

/-- an operation in a simulation with other histograms of the same sizes, some of them perhaps switched off -/
theorem apply_shift (S S' : SimCfg K) (hS : S' = { S with imp := S'.imp }) (q : ∀ i, Quieter (S'.imp i) (S.imp i)) (op : SimOp K)
    (st st' st1 : SimSt K) (hs : SameClouds st st') (sh : ∀ i, SameShape (st.hists i) (st'.hists i))
    (h : op.apply S st = .ok st1) :
    ∃ st1', op.apply S' st' = .ok st1' ∧ SameClouds st1 st1' ∧ (∀ i, SameShape (st.hists i) (st1.hists i)) ∧
      (∀ i, SameShape (st'.hists i) (st1'.hists i)) ∧
      ((∀ i, S'.imp i = S.imp i) → ∀ i, ShiftAll (st.hists i) (st'.hists i) (st1.hists i) (st1'.hists i)) := by
  have e0 : st' = { st with hists := st'.hists } := by
    cases st'; cases st
    obtain ⟨a, b, c⟩ := hs
    simp only at a b c
    subst a b c
    rfl
  by_cases hop : ∀ i s e t, op ≠ .track i s e t
  · obtain ⟨h1, h2⟩ := apply_other S S'.imp op hop st st1 st'.hists h
    rw [← hS, ← e0] at h1
    exact ⟨_, h1, ⟨rfl, rfl, rfl⟩, fun i => by rw [h2]; exact SameShape.refl _, fun i => SameShape.refl _,
      fun _ i => by rw [h2]; exact ShiftAll.refl _ _⟩
  · push Not at hop
    obtain ⟨i, step, sey, tt, rfl⟩ := hop
    simp only [SimOp.apply, SimSt.track] at h ⊢
    have hsq : S'.sq = S.sq := by rw [hS]
    have hch : S'.ch = S.ch := by rw [hS]
    rw [hsq, hch, ← hs.clouds]
    split at h
    · cases h
    · next c hc =>
      split at h
      · cases h
      · next m k n hi =>
        cases h
        obtain ⟨g', b1, b2, b3, b4⟩ := impactStep_shift S.sq (S.imp i) (S'.imp i) (q i) S.ch sey _ _ tt (st.hists i) (st'.hists i)
          (sh i) m k n hi
        rw [b1]
        refine ⟨_, rfl, ⟨by simp [SimSt.put, hs.clouds], by simp [SimSt.put, hs.cross], by simp [hs.cnt]⟩, ?_, ?_, ?_⟩
        · intro j
          by_cases e : j = i
          · subst e; simpa using b2
          · simpa [Function.update_of_ne e, SimSt.put] using SameShape.refl (st.hists j)
        · intro j
          by_cases e : j = i
          · subst e; simpa using b3
          · simpa [Function.update_of_ne e, SimSt.put] using SameShape.refl (st'.hists j)
        · intro hq j
          by_cases e : j = i
          · subst e; simpa using b4 (hq j)
          · simpa [Function.update_of_ne e, SimSt.put] using ShiftAll.refl (st.hists j) (st'.hists j)

theorem simRun_shift (S S' : SimCfg K) (hS : S' = { S with imp := S'.imp }) (q : ∀ i, Quieter (S'.imp i) (S.imp i))
    (ops : List (SimOp K)) (st st' st1 : SimSt K) (hs : SameClouds st st') (sh : ∀ i, SameShape (st.hists i) (st'.hists i))
    (h : simRun S ops st = .ok st1) :
    ∃ st1', simRun S' ops st' = .ok st1' ∧ SameClouds st1 st1' ∧ (∀ i, SameShape (st.hists i) (st1.hists i)) ∧
      (∀ i, SameShape (st'.hists i) (st1'.hists i)) ∧
      ((∀ i, S'.imp i = S.imp i) → ∀ i, ShiftAll (st.hists i) (st'.hists i) (st1.hists i) (st1'.hists i)) := by
  induction ops generalizing st st' with
  | nil =>
    cases h
    exact ⟨st', rfl, hs, fun i => SameShape.refl _, fun i => SameShape.refl _, fun _ i => ShiftAll.refl _ _⟩
  | cons op ops ih =>
    simp only [simRun] at h ⊢
    split at h
    · cases h
    · next st2 h2 =>
      obtain ⟨st2', a1, a2, a3, a4, a5⟩ := apply_shift S S' hS q op st st' st2 hs sh h2
      rw [a1]
      obtain ⟨st3', b1, b2, b3, b4, b5⟩ := ih st2 st2' a2 (fun i => ((a3 i).symm.trans (sh i)).trans (a4 i)) h
      exact ⟨st3', b1, b2, fun i => (a3 i).trans (b3 i), fun i => (a4 i).trans (b4 i),
        fun e i => (a5 e i).trans (b5 e i)⟩

/-! ## The saver -/

theorem zeroed_getD (l : List K) (k : ℕ) : (zeroed l).getD k 0 = 0 := by
  unfold zeroed
  by_cases h : k < l.length
  · rw [List.getD_eq_getElem?_getD, List.getElem?_map, List.getElem?_eq_getElem h]
    simp
  · rw [List.getD_eq_default]
    simp; omega

theorem zeroed_length (l : List K) : (zeroed l).length = l.length := by simp [zeroed]

/-- lengths of the lists of spectra agree -/
def LinesOk (v : HistSav K) (h : ImpHist K) : Prop := v.segEnLines.length = h.segEnLines.length

theorem getD_sum (l : List K) : l.sum = ∑ k ∈ Finset.range l.length, l.getD k 0 := by
  induction l with
  | nil => simp
  | cons a l ih => rw [List.sum_cons, ih, List.length_cons, Finset.sum_range_succ']; simp [add_comm]

theorem measure_bin (k : ℕ) : Measure (fun l : List K => l.getD k 0) := ⟨fun l => zeroed_getD l k, fun _ _ _ _ _ _ _ h => h k⟩

theorem measure_sum : Measure (fun l : List K => l.sum) := by
  refine ⟨fun l => ?_, fun h g h' g' e1 e2 e3 hs => ?_⟩
  · rw [getD_sum]
    exact Finset.sum_eq_zero (fun k _ => zeroed_getD l k)
  · simp only [getD_sum]
    rw [e2, e3, ← e1, ← Finset.sum_sub_distrib, ← Finset.sum_sub_distrib]
    exact Finset.sum_congr rfl (fun k _ => hs k)

theorem rows_append {φ : List K → K} (hφ : Measure φ) (l : List (List K)) (r : List K) :
    ((l ++ [r]).map φ).sum + φ (zeroed r) = (l.map φ).sum + φ r := by
  rw [hφ.zero]
  simp

theorem enSave_moves {φ : List K → K} (hφ : Measure φ) (c : HistCfg K) (v v' : HistSav K) (h h' : ImpHist K) (i : WitIn K) (hl : LinesOk v h)
    (hok : v.enSave c h i = .ok (v', h')) :
    (∀ a, histTotal φ v' h' a = histTotal φ v h a) ∧ SameShape h h' ∧ LinesOk v' h' := by
  unfold HistSav.enSave at hok
  split at hok
  · obtain ⟨ek, -, hok⟩ := bind_ok hok
    have e := Except.ok.inj hok
    simp only [Prod.mk.injEq] at e
    obtain ⟨rfl, rfl⟩ := e
    refine ⟨?_, ⟨?_, ?_⟩, ?_⟩
    · rintro (_ | _ | _ | _ | _ | _ | _ | _ | _ | j)
      case cos =>
        simp only [histTotal, HistSav.rows, ImpHist.key]
        cases c.flagCos
        · simp
        · exact rows_append hφ _ _
      case enLine => exact rows_append hφ _ _
      case segE =>
        simp only [histTotal, HistSav.rows, ImpHist.key]
        by_cases hf : (c.flagSeg && c.flagEnSeg) = true
        · simp only [hf, if_true]
          by_cases hj : j < v.segEnLines.length
          · have hj' : j < h.segEnLines.length := by rw [← hl]; exact hj
            have e1 : ((v.segEnLines.zip h.segEnLines).map (fun q => q.1 ++ [q.2])).getD j []
                = v.segEnLines.getD j [] ++ [h.segEnLines.getD j []] := by
              simp [List.getD_eq_getElem?_getD, hj, hj']
            have e2 : (h.segEnLines.map zeroed).getD j [] = zeroed (h.segEnLines.getD j []) := by
              simp [List.getD_eq_getElem?_getD, hj']
            rw [e1, e2]
            exact rows_append hφ _ _
          · have hj' : ¬ j < h.segEnLines.length := by rw [← hl]; exact hj
            have e1 : ((v.segEnLines.zip h.segEnLines).map (fun q => q.1 ++ [q.2])).getD j [] = [] :=
              List.getD_eq_default _ _ (by simp; omega)
            have e2 : (h.segEnLines.map zeroed).getD j [] = [] := List.getD_eq_default _ _ (by simp; omega)
            have e3 : v.segEnLines.getD j [] = [] := List.getD_eq_default _ _ (by omega)
            have e4 : h.segEnLines.getD j [] = [] := List.getD_eq_default _ _ (by omega)
            rw [e1, e2, e3, e4]
        · simp only [hf, if_false, Bool.false_eq_true]
      all_goals rfl
    · rintro (_ | _ | _ | _ | _ | _ | _ | _ | _ | j)
      case cos => simp only [ImpHist.key]; cases c.flagCos <;> simp [zeroed]
      case enLine => simp [ImpHist.key, zeroed]
      case segE =>
        simp only [ImpHist.key]
        by_cases hf : (c.flagSeg && c.flagEnSeg) = true
        · simp only [hf, if_true]
          by_cases hj' : j < h.segEnLines.length
          · simp [List.getD_eq_getElem?_getD, hj', zeroed]
          · rw [List.getD_eq_default _ _ (by omega), List.getD_eq_default _ _ (by simp; omega)]
        · simp only [hf, if_false, Bool.false_eq_true]
      all_goals rfl
    · simp only; split <;> simp
    · unfold LinesOk at *
      simp only
      split <;> simp [hl]
  · cases hok
    exact ⟨fun _ => rfl, SameShape.refl _, hl⟩

theorem lifeSave_moves {φ : List K → K} (hφ : Measure φ) (c : HistCfg K) (v : HistSav K) (h : ImpHist K) (i : WitIn K) (hl : LinesOk v h) :
    (∀ a, histTotal φ (HistSav.lifeSave c v h i).1 (HistSav.lifeSave c v h i).2 a = histTotal φ v h a) ∧
      SameShape h (HistSav.lifeSave c v h i).2 ∧ LinesOk (HistSav.lifeSave c v h i).1 (HistSav.lifeSave c v h i).2 := by
  unfold HistSav.lifeSave
  split
  · refine ⟨?_, ⟨?_, rfl⟩, hl⟩
    · rintro (_ | _ | _ | _ | _ | _ | _ | _ | _ | j)
      case life => exact rows_append hφ _ _
      all_goals rfl
    · rintro (_ | _ | _ | _ | _ | _ | _ | _ | _ | j)
      case life => simp [ImpHist.key, zeroed]
      all_goals rfl
  · exact ⟨fun _ => rfl, SameShape.refl _, hl⟩

theorem passSave_moves {φ : List K → K} (hφ : Measure φ) (c : HistCfg K) (v v' : HistSav K) (h h' : ImpHist K) (i : WitIn K) (hl : LinesOk v h)
    (hok : v.passSave c h i = .ok (v', h')) :
    (∀ a, histTotal φ v' h' a = histTotal φ v h a) ∧ SameShape h h' ∧ LinesOk v' h' := by
  unfold HistSav.passSave at hok
  obtain ⟨l, -, hok⟩ := bind_ok hok
  obtain ⟨d, -, hok⟩ := bind_ok hok
  have e := Except.ok.inj hok
  simp only [Prod.mk.injEq] at e
  obtain ⟨rfl, rfl⟩ := e
  refine ⟨?_, ⟨?_, rfl⟩, hl⟩
  · rintro (_ | _ | _ | _ | _ | _ | _ | _ | _ | j)
    case tot => exact rows_append hφ _ _
    case scrub => exact rows_append hφ _ _
    case energ => exact rows_append hφ _ _
    case segNel =>
      simp only [histTotal, HistSav.rows, ImpHist.key, HistCfg.passOn, ImpHist.resetPass, ImpHist.pass]
      by_cases hf : c.flagSeg = true
      · simp only [hf, if_true]
        exact rows_append hφ _ _
      · simp only [hf, if_false, Bool.false_eq_true]
    case segEmit =>
      simp only [histTotal, HistSav.rows, ImpHist.key, HistCfg.passOn, ImpHist.resetPass, ImpHist.pass]
      by_cases hf : c.flagSeg = true
      · simp only [hf, if_true]
        exact rows_append hφ _ _
      · simp only [hf, if_false, Bool.false_eq_true]
    case segEn =>
      simp only [histTotal, HistSav.rows, ImpHist.key, HistCfg.passOn, ImpHist.resetPass, ImpHist.pass]
      by_cases hf : c.flagSeg = true
      · simp only [hf, if_true]
        exact rows_append hφ _ _
      · simp only [hf, if_false, Bool.false_eq_true]
    all_goals rfl
  · rintro (_ | _ | _ | _ | _ | _ | _ | _ | _ | j)
    all_goals simp only [ImpHist.key, ImpHist.resetPass]
    all_goals cases c.flagSeg <;> simp [zeroed]

theorem witness_moves {φ : List K → K} (hφ : Measure φ) (c : HistCfg K) (v v' : HistSav K) (h h' : ImpHist K) (i : WitIn K) (hl : LinesOk v h)
    (hok : HistSav.witness c v h i = .ok (v', h')) :
    (∀ a, histTotal φ v' h' a = histTotal φ v h a) ∧ SameShape h h' ∧ LinesOk v' h' := by
  unfold HistSav.witness at hok
  obtain ⟨⟨v1, h1⟩, a1, hok⟩ := bind_ok hok
  obtain ⟨b1, b2, b3⟩ := enSave_moves hφ c v v1 h h1 i hl a1
  obtain ⟨c1, c2, c3⟩ := lifeSave_moves hφ c v1 h1 i b3
  simp only at hok
  split at hok
  · obtain ⟨d1, d2, d3⟩ := passSave_moves hφ c _ v' _ h' i c3 hok
    exact ⟨fun a => by rw [d1, c1, b1], (b2.trans c2).trans d2, d3⟩
  · have e := Except.ok.inj hok
    rw [e] at c1 c2 c3
    exact ⟨fun a => by rw [c1, b1], b2.trans c2, c3⟩

/-- what saving the output of some clouds does to the simulation -/
theorem saveAll_moves {φ : List K → K} (hφ : Measure φ) (hc : ℕ → Option (HistCfg K)) (inp : StepIn K) (w : ℕ → WitIn K) (l : List ℕ) (st st1 : ObservedSt K)
    (hl : ∀ i, LinesOk (st.sav i) (st.sim.hists i)) (h : saveAll hc inp w l st = .ok st1) :
    SameClouds st.sim st1.sim ∧ (∀ i, SameShape (st.sim.hists i) (st1.sim.hists i)) ∧
    (∀ i a, histTotal φ (st1.sav i) (st1.sim.hists i) a = histTotal φ (st.sav i) (st.sim.hists i) a) ∧
    (∀ i, LinesOk (st1.sav i) (st1.sim.hists i)) := by
  induction l generalizing st with
  | nil =>
    cases h
    exact ⟨SameClouds.refl _, fun i => SameShape.refl _, fun _ _ => rfl, hl⟩
  | cons j l ih =>
    simp only [saveAll] at h
    split at h
    · cases h
    · next st2 h2 =>
      suffices key : SameClouds st.sim st2.sim ∧ (∀ i, SameShape (st.sim.hists i) (st2.sim.hists i)) ∧
          (∀ i a, histTotal φ (st2.sav i) (st2.sim.hists i) a = histTotal φ (st.sav i) (st.sim.hists i) a) ∧
          (∀ i, LinesOk (st2.sav i) (st2.sim.hists i)) by
        obtain ⟨k1, k2, k3, k4⟩ := key
        obtain ⟨m1, m2, m3, m4⟩ := ih st2 k4 h
        exact ⟨k1.trans m1, fun i => (k2 i).trans (m2 i), fun i a => by rw [m3, k3], m4⟩
      unfold saveOne at h2
      split at h2
      · cases h2
        exact ⟨SameClouds.refl _, fun i => SameShape.refl _, fun _ _ => rfl, hl⟩
      · split at h2
        · cases h2
        · split at h2
          · cases h2
          · next r hr =>
            cases h2
            obtain ⟨x1, x2, x3⟩ := witness_moves hφ _ (st.sav j) r.1 (st.sim.hists j) r.2 _ (hl j) hr
            refine ⟨⟨rfl, rfl, rfl⟩, fun i => ?_, fun i a => ?_, fun i => ?_⟩
            · by_cases e : i = j
              · subst e; simpa using x2
              · simpa [Function.update_of_ne e] using SameShape.refl (st.sim.hists i)
            · by_cases e : i = j
              · subst e; simpa using x1 a
              · simp [Function.update_of_ne e]
            · by_cases e : i = j
              · subst e; simpa using x3
              · simpa [Function.update_of_ne e] using hl i

theorem ops_split (S : SimCfg K) (n : ℕ) (inp : StepIn K) : inp.ops S n = inp.moveOps S n ++ inp.maintOps n := rfl

/-- one observed time step, next to the same step without savers -/
theorem obsStep_shift {φ : List K → K} (hφ : Measure φ) (S S' : SimCfg K) (hS : S' = { S with imp := S'.imp }) (q : ∀ i, Quieter (S'.imp i) (S.imp i))
    (hc : ℕ → Option (HistCfg K)) (inp : StepIn K) (w : ℕ → WitIn K) (st st1 : ObservedSt K) (st' : SimSt K)
    (hs : SameClouds st.sim st') (sh : ∀ i, SameShape (st.sim.hists i) (st'.hists i))
    (hl : ∀ i, LinesOk (st.sav i) (st.sim.hists i)) (h : obsStep S hc inp w st = .ok st1) :
    ∃ st1', simTimeStep S' inp st' = .ok st1' ∧ SameClouds st1.sim st1' ∧ (∀ i, SameShape (st1.sim.hists i) (st1'.hists i)) ∧
      (∀ i, LinesOk (st1.sav i) (st1.sim.hists i)) ∧ ((∀ i, S'.imp i = S.imp i) → ∀ i a,
        histTotal φ (st1.sav i) (st1.sim.hists i) a - histTotal φ (st.sav i) (st.sim.hists i) a =
          φ ((st1'.hists i).key a) - φ ((st'.hists i).key a)) := by
  unfold obsStep at h
  split at h
  · cases h
  · next s1 h1 =>
    split at h
    · cases h
    · next s2 h2 =>
      split at h
      · cases h
      · next s3 h3 =>
        cases h
        obtain ⟨t1, a1, a2, a3, a4, a5⟩ := simRun_shift S S' hS q _ st.sim st' s1 hs sh h1
        obtain ⟨b1, b2, b3, b4⟩ := saveAll_moves hφ hc inp w _ ⟨s1, st.sav⟩ s2
          (fun i => (hl i).trans (a3 i).seg) h2
        obtain ⟨t3, c1, c2, c3, c4, c5⟩ := simRun_shift S S' hS q _ s2.sim t1 s3 (b1.symm.trans a2)
          (fun i => (((b2 i).symm.trans (a3 i).symm).trans (sh i)).trans (a4 i)) h3
        refine ⟨t3, ?_, c2, ?_, ?_, ?_⟩
        · unfold simTimeStep
          rw [ops_split, simRun_append, ← hs.clouds]
          have e1 : inp.moveOps S' st.sim.clouds.length = inp.moveOps S st.sim.clouds.length := by rw [hS]; rfl
          rw [e1, a1]
          exact c1
        · intro i
          exact ((((c3 i).symm.trans (b2 i).symm).trans (a3 i).symm).trans (sh i)).trans ((a4 i).trans (c4 i))
        · intro i
          exact (b4 i).trans (c3 i).seg
        · intro e i a
          have x1 := hφ.shift _ _ _ _ ((sh i).key a) ((a3 i).key a).symm ((a4 i).key a).symm (a5 e i a)
          have x2 := b3 i a
          have x3 := hφ.shift _ _ _ _ (((((b2 i).symm.trans (a3 i).symm).trans (sh i)).trans (a4 i)).key a) ((c3 i).key a).symm
            ((c4 i).key a).symm (c5 e i a)
          unfold histTotal at *
          simp only at *
          linear_combination x1 + x2 + x3

/-! ## C140 -/

theorem obsRun_shift {φ : List K → K} (hφ : Measure φ) (S S' : SimCfg K) (hS : S' = { S with imp := S'.imp }) (q : ∀ i, Quieter (S'.imp i) (S.imp i))
    (hc : ℕ → Option (HistCfg K)) (steps : List (StepIn K × (ℕ → WitIn K))) (st st1 : ObservedSt K) (st' : SimSt K)
    (hs : SameClouds st.sim st') (sh : ∀ i, SameShape (st.sim.hists i) (st'.hists i))
    (hl : ∀ i, LinesOk (st.sav i) (st.sim.hists i)) (h : obsRun S hc steps st = .ok st1) :
    ∃ st1', simulate S' (steps.map (fun e => e.1)) st' = .ok st1' ∧ SameClouds st1.sim st1' ∧
      ((∀ i, S'.imp i = S.imp i) → ∀ i a,
        histTotal φ (st1.sav i) (st1.sim.hists i) a - histTotal φ (st.sav i) (st.sim.hists i) a =
          φ ((st1'.hists i).key a) - φ ((st'.hists i).key a)) := by
  induction steps generalizing st st' with
  | nil =>
    cases h
    exact ⟨st', rfl, hs, fun _ i a => by ring⟩
  | cons e l ih =>
    simp only [obsRun] at h
    split at h
    · cases h
    · next st2 h2 =>
      obtain ⟨t2, a1, a2, a3, a4, a5⟩ := obsStep_shift hφ S S' hS q hc e.1 e.2 st st2 st' hs sh hl h2
      obtain ⟨t3, b1, b2, b3⟩ := ih st2 t2 a2 a3 a4 h
      refine ⟨t3, ?_, b2, fun hq i a => ?_⟩
      · simp only [List.map_cons, simulate, a1]
        exact b1
      · linear_combination a5 hq i a + b3 hq i a

/-- **C140**: a simulation that runs with savers and optional histograms also runs without the savers, and with any of the optional
histograms switched off, and the clouds, the ionisation targets and the counters of the last step are the same. -/
theorem C140_unobserved (S S' : SimCfg K) (hS : S' = { S with imp := S'.imp }) (q : ∀ i, Quieter (S'.imp i) (S.imp i))
    (hc : ℕ → Option (HistCfg K)) (steps : List (StepIn K × (ℕ → WitIn K))) (st st1 : ObservedSt K)
    (hl : ∀ i, (st.sav i).segEnLines.length = (st.sim.hists i).segEnLines.length) (h : obsRun S hc steps st = .ok st1) :
    ∃ r, simulate S' (steps.map (fun e => e.1)) st.sim = .ok r ∧ SameClouds st1.sim r := by
  obtain ⟨r, h1, h2, -⟩ := obsRun_shift measure_sum S S' hS q hc steps st st1 st.sim (SameClouds.refl _) (fun i => SameShape.refl _) hl h
  exact ⟨r, h1, h2⟩

/-- **C140**: two simulations with the same inputs and the same histogram axes, but different savers, that both run to the end,
have the same clouds, targets and counters: what is saved, and how often, does not matter. -/
theorem C140_savers (S : SimCfg K) (hc hc' : ℕ → Option (HistCfg K)) (steps steps' : List (StepIn K × (ℕ → WitIn K)))
    (hin : steps.map (fun e => e.1) = steps'.map (fun e => e.1)) (st st' st1 st1' : ObservedSt K) (hsim : st.sim = st'.sim)
    (hl : ∀ i, (st.sav i).segEnLines.length = (st.sim.hists i).segEnLines.length)
    (hl' : ∀ i, (st'.sav i).segEnLines.length = (st'.sim.hists i).segEnLines.length)
    (h : obsRun S hc steps st = .ok st1) (h' : obsRun S hc' steps' st' = .ok st1') : SameClouds st1.sim st1'.sim := by
  obtain ⟨r, h1, h2⟩ := C140_unobserved S S rfl (fun i => Quieter.refl _) hc steps st st1 hl h
  obtain ⟨r', h3, h4⟩ := C140_unobserved S S rfl (fun i => Quieter.refl _) hc' steps' st' st1' hl' h'
  rw [hin, hsim] at h1
  have e : r = r' := Except.ok.inj (h1.symm.trans h3)
  subst e
  exact h2.trans h4.symm

/-! ## C141 -/

/-- **C141**: bin by bin, the rows saved during a simulation and what is left in the impact managers at the end are together what
the impact managers would hold if nothing had been saved: no impact is lost or saved twice. -/
theorem C141_nothing_lost (S : SimCfg K) (hc : ℕ → Option (HistCfg K)) (steps : List (StepIn K × (ℕ → WitIn K)))
    (st st1 : ObservedSt K) (hl : ∀ i, (st.sav i).segEnLines.length = (st.sim.hists i).segEnLines.length)
    (h : obsRun S hc steps st = .ok st1) :
    ∃ r, simulate S (steps.map (fun e => e.1)) st.sim = .ok r ∧ ∀ i a k,
      binTotal (st1.sav i) (st1.sim.hists i) a k = ((st.sav i).rows a |>.map (fun r => r.getD k 0)).sum +
        ((r.hists i).key a).getD k 0 := by
  obtain ⟨r, h1, -⟩ := obsRun_shift measure_sum S S rfl (fun i => Quieter.refl _) hc steps st st1 st.sim (SameClouds.refl _)
    (fun i => SameShape.refl _) hl h
  refine ⟨r, h1, fun i a k => ?_⟩
  obtain ⟨r', h1', -, h3⟩ := obsRun_shift (measure_bin k) S S rfl (fun i => Quieter.refl _) hc steps st st1 st.sim
    (SameClouds.refl _) (fun i => SameShape.refl _) hl h
  have er : r = r' := Except.ok.inj (h1.symm.trans h1')
  subst er
  have := h3 (fun _ => rfl) i a
  change binTotal _ _ a k - binTotal _ _ a k = _ at this
  have e : binTotal (st.sav i) (st.sim.hists i) a k =
      ((st.sav i).rows a |>.map (fun r => r.getD k 0)).sum + ((st.sim.hists i).key a).getD k 0 := rfl
  linear_combination this + e

/-- **C141** for the charge and the energy: over a whole simulation the rows saved for the impacting electrons of cloud `i`, summed over
all bins and passages, and what is left in the impact manager at the end, are the charge reported to hit the wall; likewise the
energy spectra; and the rows of the deposited energy are the impacting minus the emitted energy. -/
theorem C141_wall (S : SimCfg K) (hS : S.Ok) (hc : ℕ → Option (HistCfg K)) (steps : List (StepIn K × (ℕ → WitIn K)))
    (hsteps : ∀ e ∈ steps, e.1.Ok S) (st st1 : ObservedSt K) (hinv : ∀ c ∈ st.sim.clouds, CloudOk S.ch c.mps)
    (hnd : (st.sim.clouds.map (fun c => c.name)).Nodup)
    (hh : RunHealthy S (simOps S st.sim.clouds.length (steps.map (fun e => e.1))) st.sim)
    (hl : ∀ i, (st.sav i).segEnLines.length = (st.sim.hists i).segEnLines.length)
    (h : obsRun S hc steps st = .ok st1) (i : ℕ) :
    let ops := simOps S st.sim.clouds.length (steps.map (fun e => e.1))
    (((st1.sav i).pass .tot).map List.sum).sum + (st1.sim.hists i).tot.sum =
      (((st.sav i).pass .tot).map List.sum).sum + (st.sim.hists i).tot.sum + simWall S i (fun n => n.nelImp) ops st.sim ∧
    (((st1.sav i).en).map List.sum).sum + (st1.sim.hists i).enLine.sum =
      (((st.sav i).en).map List.sum).sum + (st.sim.hists i).enLine.sum + simWall S i (fun n => n.nelImp) ops st.sim ∧
    (((st1.sav i).pass .energ).map List.sum).sum + (st1.sim.hists i).energ.sum =
      (((st.sav i).pass .energ).map List.sum).sum + (st.sim.hists i).energ.sum +
        simWall S i (fun n => n.enImp - n.enEmit) ops st.sim := by
  intro ops
  obtain ⟨r, h1, -, h3⟩ := obsRun_shift measure_sum S S rfl (fun i => Quieter.refl _) hc steps st st1 st.sim
    (SameClouds.refl _) (fun i => SameShape.refl _) hl h
  obtain ⟨w1, w2, w3⟩ := C90_wall S hS (steps.map (fun e => e.1)) (fun inp hi => by
    obtain ⟨e, he, rfl⟩ := List.mem_map.1 hi
    exact hsteps e he) st.sim hinv hnd hh r h1 i
  refine ⟨?_, ?_, ?_⟩
  · have := h3 (fun _ => rfl) i .tot
    simp only [histTotal, HistSav.rows, ImpHist.key] at this
    linear_combination this + w1
  · have := h3 (fun _ => rfl) i .enLine
    simp only [histTotal, HistSav.rows, ImpHist.key] at this
    linear_combination this + w2
  · have := h3 (fun _ => rfl) i .energ
    simp only [histTotal, HistSav.rows, ImpHist.key] at this
    linear_combination this + w3

/-- **C89** for observed simulations: the clouds stay in good order. -/
theorem C140_invariant (S : SimCfg K) (hS : S.Ok) (hc : ℕ → Option (HistCfg K)) (steps : List (StepIn K × (ℕ → WitIn K)))
    (hsteps : ∀ e ∈ steps, e.1.Ok S) (st st1 : ObservedSt K) (hinv : ∀ c ∈ st.sim.clouds, CloudOk S.ch c.mps)
    (hnd : (st.sim.clouds.map (fun c => c.name)).Nodup)
    (hh : RunHealthy S (simOps S st.sim.clouds.length (steps.map (fun e => e.1))) st.sim)
    (hl : ∀ i, (st.sav i).segEnLines.length = (st.sim.hists i).segEnLines.length)
    (h : obsRun S hc steps st = .ok st1) : ∀ c ∈ st1.sim.clouds, CloudOk S.ch c.mps := by
  obtain ⟨r, h1, h2⟩ := C140_unobserved S S rfl (fun i => Quieter.refl _) hc steps st st1 hl h
  rw [h2.clouds]
  exact (C89_simulation S hS (steps.map (fun e => e.1)) (fun inp hi => by
    obtain ⟨e, he, rfl⟩ := List.mem_map.1 hi
    exact hsteps e he) st.sim hinv hnd hh r h1).1

/-! ## The savers do not stop a simulation -/

/-- histogram axes of a saver that reach to the left of everything inside the chamber; energies are not negative -/
structure AxesOk (S : SimCfg K) (c : HistCfg K) : Prop where
  dx : 0 < c.dxHist
  bias : ∀ x y, S.ch.outside x y = false → c.biasX ≤ x
  dEn : 0 < c.dEn
  ke : 0 ≤ c.ke
  nBin : 0 < c.nBin
  det : ∀ d, c.det = some d → 0 < d.dx ∧ d.bias ≤ d.xMin

/-- the saver has bins -/
def HasBins (c : HistCfg K) (v : HistSav K) : Prop := 0 < v.line.length ∧ (c.det.isSome = true → 0 < v.detLine.length)

theorem zero_mul_length (l : List K) : (l.map (fun v => 0 * v)).length = l.length := by simp

theorem enSave_total (S : SimCfg K) (c : HistCfg K) (ha : AxesOk S c) (v : HistSav K) (h : ImpHist K) (i : WitIn K)
    (hb : HasBins c v) : ∃ r, v.enSave c h i = .ok r ∧ HasBins c r.1 := by
  unfold HistSav.enSave
  split
  · have : ∃ ek, ekinHist c i.cloud = .ok ek := by
      unfold ekinHist
      split
      · refine computeHist_ok 0 c.dEn ha.dEn _ (by simpa using ha.nBin) _ ?_
        intro p hp
        unfold ekinData at hp
        obtain ⟨j, -, rfl⟩ := List.mem_map.1 hp
        have := ha.ke
        positivity
      · exact ⟨_, rfl⟩
    obtain ⟨ek, he⟩ := this
    rw [he]
    exact ⟨_, rfl, hb⟩
  · exact ⟨_, rfl, hb⟩

theorem passSave_total (S : SimCfg K) (c : HistCfg K) (ha : AxesOk S c) (v : HistSav K) (h : ImpHist K) (i : WitIn K)
    (hb : HasBins c v) (hi : CloudOk S.ch i.cloud) : ∃ r, v.passSave c h i = .ok r ∧ HasBins c r.1 := by
  have hx : ∀ p ∈ (i.cloud.head .x).zip (i.cloud.head .nel), c.biasX ≤ p.1 := by
    intro p hp
    have hm := (List.of_mem_zip hp).1
    obtain ⟨j, hj, e⟩ := List.getElem_of_mem hm
    have hj2 : j < i.cloud.nmp := by
      unfold MPs.head at hj
      simp only [List.length_take] at hj
      omega
    have hlive : (fun f => if i.cloud.tracked f then (i.cloud.arr f).getD j 0 else -1) ∈ i.cloud.live := List.mem_map.2 ⟨j, List.mem_range.2 hj2, rfl⟩
    have := ha.bias _ _ (hi.inside _ hlive)
    have e2 : (if i.cloud.tracked .x then (i.cloud.arr .x).getD j 0 else -1) = p.1 := by
      rw [if_pos (by rfl)]
      have e3 := List.getElem?_eq_getElem hj
      rw [e] at e3
      unfold MPs.head at e3
      rw [List.getElem?_take_of_lt hj2] at e3
      rw [List.getD_eq_getElem?_getD, e3]
      rfl
    rw [e2] at this
    exact this
  have h1 : ∃ l, cloudLine c i.cloud v.line = .ok l ∧ l.length = v.line.length := by
    unfold cloudLine
    split
    · obtain ⟨l, hl⟩ := computeHist_ok c.biasX c.dxHist ha.dx (v.line.map (fun v => 0 * v)) (by rw [zero_mul_length]; exact hb.1) _ hx
      exact ⟨l, hl, by rw [computeHist_length _ _ _ _ _ hl, zero_mul_length]⟩
    · exact ⟨_, rfl, zero_mul_length _⟩
  have h2 : ∃ l, detLineOf c i.cloud v.detLine = .ok l ∧ l.length = v.detLine.length := by
    unfold detLineOf
    split
    · exact ⟨_, rfl, rfl⟩
    · next d hd =>
      split
      · unfold detUpdate
        split
        · obtain ⟨l, hl⟩ := computeHist_ok d.bias d.dx (ha.det d hd).1 (v.detLine.map (fun v => 0 * v))
            (by rw [zero_mul_length]; exact hb.2 (by rw [hd]; rfl)) (detSel d i.cloud) (by
              intro p hp
              unfold detSel at hp
              obtain ⟨j, hj, rfl⟩ := List.mem_map.1 hp
              have := (List.mem_filter.1 hj).2
              simp only [Bool.and_eq_true, decide_eq_true_eq] at this
              have := (ha.det d hd).2
              simp only
              linarith [this])
          exact ⟨l, hl, by rw [computeHist_length _ _ _ _ _ hl, zero_mul_length]⟩
        · exact ⟨_, rfl, zero_mul_length _⟩
      · exact ⟨_, rfl, rfl⟩
  obtain ⟨l, e1, l1⟩ := h1
  obtain ⟨d, e2, l2⟩ := h2
  unfold HistSav.passSave
  rw [e1]
  simp only [bind, Except.bind, e2]
  exact ⟨_, rfl, by simp only; rw [l1]; exact hb.1, fun h => by simp only; rw [l2]; exact hb.2 h⟩

theorem witness_total (S : SimCfg K) (c : HistCfg K) (ha : AxesOk S c) (v : HistSav K) (h : ImpHist K) (i : WitIn K)
    (hb : HasBins c v) (hi : CloudOk S.ch i.cloud) : ∃ r, HistSav.witness c v h i = .ok r ∧ HasBins c r.1 := by
  obtain ⟨⟨v1, h1⟩, e1, b1⟩ := enSave_total S c ha v h i hb
  have b2 : HasBins c (HistSav.lifeSave c v1 h1 i).1 := by
    unfold HistSav.lifeSave
    split <;> exact b1
  unfold HistSav.witness
  rw [e1]
  simp only [bind, Except.bind]
  split
  · exact passSave_total S c ha _ _ i b2 hi
  · exact ⟨_, rfl, b2⟩

theorem saveAll_total (S : SimCfg K) (hc : ℕ → Option (HistCfg K)) (ha : ∀ i c, hc i = some c → AxesOk S c) (inp : StepIn K)
    (w : ℕ → WitIn K) (l : List ℕ) (st : ObservedSt K) (hin : ∀ i ∈ l, i < st.sim.clouds.length)
    (hok : ∀ c ∈ st.sim.clouds, CloudOk S.ch c.mps) (hb : ∀ i c, hc i = some c → HasBins c (st.sav i)) :
    ∃ st1, saveAll hc inp w l st = .ok st1 ∧ ∀ i c, hc i = some c → HasBins c (st1.sav i) := by
  induction l generalizing st with
  | nil => exact ⟨st, rfl, hb⟩
  | cons j l ih =>
    have hj := hin j (by simp)
    have : ∃ st2, saveOne hc inp w j st = .ok st2 ∧ st2.sim.clouds = st.sim.clouds ∧
        ∀ i c, hc i = some c → HasBins c (st2.sav i) := by
      unfold saveOne
      cases hcj : hc j with
      | none => exact ⟨st, rfl, rfl, hb⟩
      | some c =>
        simp only [List.getElem?_eq_getElem hj]
        obtain ⟨r, e1, b1⟩ := witness_total S c (ha j c hcj) (st.sav j) (st.sim.hists j)
          { w j with tt := inp.tt, newPass := inp.newPass, cnt := st.sim.cnt j, cloud := st.sim.clouds[j].mps } (hb j c hcj)
          (hok _ (List.getElem_mem hj))
        rw [e1]
        refine ⟨_, rfl, rfl, fun i d hd => ?_⟩
        by_cases e : i = j
        · subst e
          rw [hcj] at hd
          cases hd
          simpa using b1
        · simpa [Function.update_of_ne e] using hb i d hd
    obtain ⟨st2, e2, e3, e4⟩ := this
    obtain ⟨st3, e5, e6⟩ := ih st2 (fun i hi => by rw [e3]; exact hin i (List.mem_cons_of_mem _ hi)) (by rw [e3]; exact hok) e4
    exact ⟨st3, by simp only [saveAll, e2]; exact e5, e6⟩

theorem RunHealthy.append {S : SimCfg K} {a b : List (SimOp K)} {st st1 : SimSt K}
    (h : RunHealthy S (a ++ b) st) (h1 : simRun S a st = .ok st1) : RunHealthy S b st1 := by
  intro pre hp st2 h2
  refine h (a ++ pre) ((List.prefix_append_right_inj a).2 hp) st2 ?_
  rw [simRun_append, h1]
  exact h2

/-- **C140**: the savers do not stop a simulation. If it runs to the end without savers, it does so with savers whose histogram axes
reach to the left of the chamber, with the same clouds, targets and counters. -/
theorem C140_observed (S : SimCfg K) (hS : S.Ok) (hc : ℕ → Option (HistCfg K)) (ha : ∀ i c, hc i = some c → AxesOk S c)
    (steps : List (StepIn K × (ℕ → WitIn K))) (hsteps : ∀ e ∈ steps, e.1.Ok S) (st : ObservedSt K)
    (hinv : ∀ c ∈ st.sim.clouds, CloudOk S.ch c.mps) (hnd : (st.sim.clouds.map (fun c => c.name)).Nodup)
    (hl : ∀ i, (st.sav i).segEnLines.length = (st.sim.hists i).segEnLines.length)
    (hb : ∀ i c, hc i = some c → HasBins c (st.sav i))
    (hh : RunHealthy S (simOps S st.sim.clouds.length (steps.map (fun e => e.1))) st.sim)
    (r : SimSt K) (h : simulate S (steps.map (fun e => e.1)) st.sim = .ok r) :
    ∃ st1, obsRun S hc steps st = .ok st1 ∧ SameClouds st1.sim r := by
  suffices key : ∀ (st : ObservedSt K) (st' : SimSt K), SameClouds st.sim st' → (∀ i, SameShape (st.sim.hists i) (st'.hists i)) →
      (∀ c ∈ st'.clouds, CloudOk S.ch c.mps) → (st'.clouds.map (fun c => c.name)).Nodup →
      (∀ i, LinesOk (st.sav i) (st.sim.hists i)) → (∀ i c, hc i = some c → HasBins c (st.sav i)) →
      RunHealthy S (simOps S st'.clouds.length (steps.map (fun e => e.1))) st' →
      simulate S (steps.map (fun e => e.1)) st' = .ok r → ∃ st1, obsRun S hc steps st = .ok st1 ∧ SameClouds st1.sim r from
    key st st.sim (SameClouds.refl _) (fun i => SameShape.refl _) hinv hnd hl hb hh h
  clear hinv hnd hl hb hh h st
  induction steps with
  | nil =>
    intro st st' hs _ _ _ _ _ _ h
    cases h
    exact ⟨st, rfl, hs⟩
  | cons e l ih =>
    intro st st' hs sh hinv hnd hl hb hh h
    simp only [List.map_cons, simulate] at h
    split at h
    · cases h
    · next t3 h3 =>
      have hstep := hsteps e (by simp)
      -- the step without savers, cut where the output is saved
      have h3' := h3
      unfold simTimeStep at h3'
      rw [ops_split, simRun_append] at h3'
      split at h3'
      · cases h3'
      · next t1 h1 =>
        have hops1 : ∀ op ∈ e.1.moveOps S st'.clouds.length, OpOk S op := fun op ho =>
          ops_ok S e.1 hstep _ op (by rw [ops_split]; exact List.mem_append_left _ ho)
        have hhe : RunHealthy S (e.1.ops S st'.clouds.length ++ simOps S st'.clouds.length (l.map (fun e => e.1))) st' := by
          simpa [simOps] using hh
        have hpre : RunHealthy S (e.1.moveOps S st'.clouds.length) st' := fun p hp =>
          hhe p (hp.trans (by rw [ops_split, List.append_assoc]; exact List.prefix_append _ _))
        obtain ⟨q1, -, -⟩ := run_spec S hS _ hops1 st' t1 hinv hnd hpre h1
        have hallops : ∀ op ∈ e.1.ops S st'.clouds.length, OpOk S op := ops_ok S e.1 hstep _
        obtain ⟨q3, -, -⟩ := run_spec S hS _ hallops st' t3 hinv hnd
          (fun p hp => hhe p (hp.trans (List.prefix_append _ _))) h3
        -- the same with savers
        obtain ⟨s1, a1, a2, a3, a4, -⟩ := simRun_shift S S rfl (fun i => Quieter.refl _) _ st' st.sim t1 hs.symm
          (fun i => (sh i).symm) h1
        have hn : st.sim.clouds.length = st'.clouds.length := by rw [hs.clouds]
        obtain ⟨s2, b1, b2⟩ := saveAll_total S hc ha e.1 e.2 (List.range st.sim.clouds.length) ⟨s1, st.sav⟩
          (fun i hi => by
            have := List.mem_range.1 hi
            have e2 := simRun_length S _ st' t1 h1
            simp only
            rw [← a2.clouds, e2, ← hn]
            exact this) (by
            simp only
            rw [← a2.clouds]
            exact q1.ok) hb
        obtain ⟨c1, c2, c3, c4⟩ := saveAll_moves measure_sum hc e.1 e.2 _ ⟨s1, st.sav⟩ s2 (fun i => (hl i).trans (a4 i).seg) b1
        obtain ⟨s3, d1, d2, d3, d4, -⟩ := simRun_shift S S rfl (fun i => Quieter.refl _) _ t1 s2.sim t3 (a2.trans c1)
          (fun i => (((a3 i).symm.trans (sh i).symm).trans (a4 i)).trans (c2 i)) h3'
        have hobs : obsStep S hc e.1 e.2 st = .ok ⟨s3, s2.sav⟩ := by
          unfold obsStep
          rw [hn, a1]
          simp only
          rw [← hn, b1]
          simp only
          rw [hn, d1]
        have hlen : t3.clouds.length = st'.clouds.length := simRun_length S _ st' t3 h3
        obtain ⟨st4, f1, f2⟩ := ih (fun x hx => hsteps x (List.mem_cons_of_mem _ hx)) ⟨s3, s2.sav⟩ t3 d2.symm
          (fun i => ((d4 i).symm.trans ((c2 i).symm.trans ((a4 i).symm.trans ((sh i).trans (a3 i))))).trans (d3 i))
          q3.ok (by rw [q3.names]; exact hnd) (fun i => (c4 i).trans (d4 i).seg) b2
          (by rw [hlen]; exact hhe.append h3) h
        exact ⟨st4, by simp only [obsRun, hobs]; exact f1, f2⟩

/-! ## A concrete run -/

/-- a saver for the slab chamber -/
def obsExCfg : HistCfg ℚ where
  biasX := -3
  dxHist := 1
  flagSeg := true
  flagEnSeg := true
  det := some ⟨-1, 1, -1, 1, -2, 1 / 2⟩
  dtEn := 0
  flagCos := true
  flagLife := true
  dtLife := 0
  ke := 1
  dEn := 10
  nBin := 2

def obsExW : ℕ → WitIn ℚ := fun _ => ⟨1, 0, ⟨0, 0, 0, 0⟩, simCloud, 0, (0, 0, 0), fun _ => 0, true, 1, 0, 0, true, 0⟩

/-- the first cloud has a saver, the second one has none -/
def obsExHc : ℕ → Option (HistCfg ℚ) := fun i => if i = 0 then some obsExCfg else none

def obsExSt : ObservedSt ℚ := ⟨simExSt, fun _ => HistSav.init 7 9 2⟩

def obsExSteps : List (StepIn ℚ × (ℕ → WitIn ℚ)) :=
  [(simExStep true, obsExW), ({ simExStep false with tt := 2 }, obsExW), ({ simExStep true with tt := 3 }, obsExW)]

/-- three steps: the impacts of the first step are in the first row, those of the other two in the second -/
theorem obsEx_run : ∃ r, obsRun (simExCfg 100) obsExHc obsExSteps obsExSt = .ok r ∧
    (((r.sav 0).pass .tot).map List.sum = [20, 10] ∧ (r.sim.hists 0).tot.sum = 0 ∧ (r.sav 0).tHist = [1, 3]) ∧
    ((r.sav 1).tHist = [] ∧ (r.sav 0).en.length = 3) := exists_ok (by decide +kernel)

/-- hypotheses of the theorems of this file -/
example : (simExCfg 100).Ok ∧ (∀ i c, obsExHc i = some c → AxesOk (simExCfg 100) c) ∧
    (∀ e ∈ obsExSteps, e.1.Ok (simExCfg 100)) ∧ (∀ c ∈ obsExSt.sim.clouds, CloudOk (simExCfg 100).ch c.mps) ∧
    (obsExSt.sim.clouds.map (fun c => c.name)).Nodup ∧
    (∀ i, (obsExSt.sav i).segEnLines.length = (obsExSt.sim.hists i).segEnLines.length) ∧
    (∀ i c, obsExHc i = some c → HasBins c (obsExSt.sav i)) ∧
    RunHealthy (simExCfg 100) (simOps (simExCfg 100) obsExSt.sim.clouds.length (obsExSteps.map (fun e => e.1))) obsExSt.sim ∧
    (∃ r, simulate (simExCfg 100) (obsExSteps.map (fun e => e.1)) obsExSt.sim = .ok r) ∧
    ∃ r, obsRun (simExCfg 100) obsExHc obsExSteps obsExSt = .ok r := by
  have hcfg : ∀ i c, obsExHc i = some c → c = obsExCfg := by
    intro i c h
    unfold obsExHc at h
    split at h
    · exact (Option.some.inj h).symm
    · cases h
  refine ⟨simExCfg_ok 100, ?_, ?_, simExSt_ok, by decide, fun _ => rfl, ?_, roomRun_healthy _ _ _ (by decide +kernel),
    (exists_ok (p := fun _ => True) (by decide +kernel)).imp fun _ h => h.1, obsEx_run.imp fun _ h => h.1⟩
  · intro i c h
    rw [hcfg i c h]
    refine ⟨by norm_num [obsExCfg], ?_, by norm_num [obsExCfg], by norm_num [obsExCfg], by norm_num [obsExCfg], ?_⟩
    · intro x y hx
      simp only [simExCfg, slab, decide_eq_false_iff_not, not_lt] at hx
      simp only [obsExCfg]
      linarith [abs_le.1 hx]
    · intro d hd
      simp only [obsExCfg, Option.some.injEq] at hd
      subst hd
      norm_num
  · intro e he
    simp only [obsExSteps, List.mem_cons, List.not_mem_nil, or_false] at he
    rcases he with rfl | rfl | rfl
    · exact simExStep_ok 100 _
    · exact { simExStep_ok 100 false with }
    · exact { simExStep_ok 100 true with }
  · intro i c h
    rw [hcfg i c h]
    exact ⟨by change 0 < 7; decide, fun _ => by change 0 < 9; decide⟩

end PyECLOUD
