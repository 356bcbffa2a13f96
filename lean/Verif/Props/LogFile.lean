import Verif.Spec.LogFile
import Verif.Props.Timing

/-! # Property C165: log, progress and stop files -/

set_option linter.unusedSectionVars false

namespace PyECLOUD

variable {K : Type} [Field K] [LinearOrder K] [IsStrictOrderedRing K] [FloorRing K]

/-! ## one call, one step, the run -/

theorem upToFirst_append {α : Type} (p : α → Bool) (a b : List α) :
    upToFirst p (a ++ b) = if a.any p then upToFirst p a else a ++ upToFirst p b := by
  induction a with
  | nil => simp
  | cons x a ih =>
    simp only [List.cons_append, upToFirst, List.any_cons]
    by_cases h : p x = true
    · simp [h]
    · simp only [h, Bool.false_eq_true, if_false, Bool.false_or, ih]; split <;> rfl

/-- the files after the passages `ps` -/
structure LogAfter (tot : ℤ) (ps : List (ℤ × LogCfg × LogIn K)) (fs fs' : LogFs K) : Prop where
  log : ∀ q, fs'.log q = if logLines q tot ps = [] then fs.log q else some ((fs.log q).getD [] ++ logLines q tot ps)
  prog : ∀ q, fs'.prog q = match (progPasses q ps).getLast? with
    | none => fs.prog q
    | some n => some ((n : K) / (tot : K))

theorem LogAfter.nil (tot : ℤ) (fs : LogFs K) : LogAfter tot [] fs fs := ⟨fun q => by simp [logLines], fun q => by simp [progPasses]⟩

theorem LogAfter.append {tot : ℤ} {ps ps' : List (ℤ × LogCfg × LogIn K)} {fs fs' fs'' : LogFs K} (h : LogAfter tot ps fs fs')
    (h' : LogAfter tot ps' fs' fs'') : LogAfter tot (ps ++ ps') fs fs'' := by
  constructor
  · intro q
    have e : logLines q tot (ps ++ ps') = logLines q tot ps ++ logLines q tot ps' := by simp [logLines]
    rw [h'.log, h.log, e]
    by_cases h1 : logLines q tot ps = [] <;> by_cases h2 : logLines q tot ps' = [] <;> simp [h1, h2]
  · intro q
    have e : progPasses q (ps ++ ps') = progPasses q ps ++ progPasses q ps' := by simp [progPasses]
    rw [h'.prog, h.prog, e, List.getLast?_append]
    cases (progPasses q ps').getLast? <;> simp

theorem passLog_after (c : LogCfg) (n tot : ℤ) (i : LogIn K) (fs : LogFs K) : LogAfter tot [(n, c, i)] fs (passLog c n tot i fs) := by
  constructor
  · intro q
    have e : (passLog c n tot i fs).log q = (match c.logfile with
        | none => fs
        | some p => if i.okLog then fs.addLog p (.pass n tot c.cloud i.nel i.nmp) else fs).log q := by
      unfold passLog
      cases c.progress with
      | none => rfl
      | some p => simp only []; split <;> rfl
    rw [e]
    cases hl : c.logfile with
    | none => simp [logLines, hl]
    | some p =>
      cases ho : i.okLog with
      | false => simp [logLines, hl, ho]
      | true =>
        by_cases hq : p = q
        · subst hq; simp [logLines, hl, ho, LogFs.addLog, LogFs.putLog]
        · simp [logLines, hl, ho, hq, LogFs.addLog, LogFs.putLog, Function.update_of_ne (Ne.symm hq)]
  · intro q
    have e : ∀ f : LogFs K, f.prog = fs.prog → (match c.progress with
        | none => f
        | some p => if i.okProg then { f with prog := Function.update f.prog p (some ((n : K) / (tot : K))) } else f).prog q =
          match (progPasses q [(n, c, i)]).getLast? with
          | none => fs.prog q
          | some n => some ((n : K) / (tot : K)) := by
      intro f hf
      cases hl : c.progress with
      | none => simp [progPasses, hl, hf]
      | some p =>
        cases ho : i.okProg with
        | false => simp [progPasses, hl, ho, hf]
        | true =>
          by_cases hq : p = q
          · subst hq; simp [progPasses, hl, ho]
          · simp [progPasses, hl, ho, hq, hf, Function.update_of_ne (Ne.symm hq)]
    refine e _ ?_
    cases c.logfile with
    | none => rfl
    | some p => simp only []; split <;> rfl

theorem logClouds_after (n tot : ℤ) (l : List (LogCfg × LogIn K)) : ∀ fs : LogFs K,
    LogAfter tot (upToFirst (fun c => c.2.2.stop) (l.map (fun ci => (n, ci.1, ci.2)))) fs (logClouds n tot l fs).1 ∧
    (logClouds n tot l fs).2 = l.any (fun ci => ci.2.stop) := by
  induction l with
  | nil => intro fs; exact ⟨LogAfter.nil tot fs, rfl⟩
  | cons a l ih =>
    intro fs
    obtain ⟨c, i⟩ := a
    have h1 := passLog_after c n tot i fs
    cases hs : i.stop with
    | true => simp only [logClouds, List.map_cons, upToFirst, hs, if_true, List.any_cons, Bool.true_or]; exact ⟨h1, trivial⟩
    | false =>
      simp only [logClouds, List.map_cons, upToFirst, hs, Bool.false_eq_true, if_false, List.any_cons, Bool.false_or]
      exact ⟨h1.append (ih _).1, (ih _).2⟩

/-- C165, the files during a run: the passages that leave a trace are those up to the first one at which the stop file is found, with the
clouds in their order. Every log file has got exactly one line for each of them, in this order, by the clouds that use this file and
can write it, after what it held before; every progress file shows the last of them written to it; and the run is stopped if and
only if the stop file is found at a passage. -/
theorem C165_files (cs : List LogCfg) (tot : ℤ) (steps : List (BeamSt K × List (LogIn K))) (fs : LogFs K) :
    let ps := upToFirst (fun c => c.2.2.stop) (passages cs steps)
    (∀ q, (((logRun cs tot steps fs).1.log q).getD [] = (fs.log q).getD [] ++ logLines q tot ps) ∧
      (((logRun cs tot steps fs).1.log q).isSome ↔ (fs.log q).isSome ∨ logLines q tot ps ≠ [])) ∧
    (∀ q, (logRun cs tot steps fs).1.prog q = match (progPasses q ps).getLast? with
      | none => fs.prog q
      | some n => some ((n : K) / (tot : K))) ∧
    ((logRun cs tot steps fs).2 = true ↔ ∃ c ∈ passages cs steps, c.2.2.stop = true) := by
  have key : ∀ (steps : List (BeamSt K × List (LogIn K))) (fs : LogFs K),
      LogAfter tot (upToFirst (fun c => c.2.2.stop) (passages cs steps)) fs (logRun cs tot steps fs).1 ∧
      (logRun cs tot steps fs).2 = (passages cs steps).any (fun c => c.2.2.stop) := by
    intro steps
    induction steps with
    | nil => intro fs; exact ⟨LogAfter.nil tot fs, rfl⟩
    | cons s l ih =>
      intro fs
      obtain ⟨b, ins⟩ := s
      cases hb : b.newPass with
      | false =>
        have e : passages cs ((b, ins) :: l) = passages cs l := by simp [passages, hb]
        rw [e]
        have e2 : logRun cs tot ((b, ins) :: l) fs = logRun cs tot l fs := by simp [logRun, logStep, hb]
        rw [e2]
        exact ih fs
      | true =>
        have e : passages cs ((b, ins) :: l) = (cs.zip ins).map (fun ci => (b.pass.getD 0, ci.1, ci.2)) ++ passages cs l := by
          simp [passages, hb]
        obtain ⟨h1, h2⟩ := logClouds_after (b.pass.getD 0) tot (cs.zip ins) fs
        rw [e, upToFirst_append, List.any_append]
        have e3 : ((cs.zip ins).map (fun ci => (b.pass.getD 0, ci.1, ci.2))).any (fun c => c.2.2.stop) = (cs.zip ins).any (fun ci => ci.2.stop) := by
          rw [List.any_map]; rfl
        rw [e3]
        cases hs : (cs.zip ins).any (fun ci => ci.2.stop) with
        | true =>
          rw [hs] at h2
          have e2 : logRun cs tot ((b, ins) :: l) fs = logClouds (b.pass.getD 0) tot (cs.zip ins) fs := by simp [logRun, logStep, hb, h2]
          rw [e2, h2]
          exact ⟨by simpa using h1, by simp⟩
        | false =>
          rw [hs] at h2
          have e2 : logRun cs tot ((b, ins) :: l) fs = logRun cs tot l (logClouds (b.pass.getD 0) tot (cs.zip ins) fs).1 := by simp [logRun, logStep, hb, h2]
          rw [e2]
          obtain ⟨h3, h4⟩ := ih (logClouds (b.pass.getD 0) tot (cs.zip ins) fs).1
          have h5 : upToFirst (fun c : ℤ × LogCfg × LogIn K => c.2.2.stop) ((cs.zip ins).map (fun ci => (b.pass.getD 0, ci.1, ci.2))) =
              (cs.zip ins).map (fun ci => (b.pass.getD 0, ci.1, ci.2)) := by
            have := upToFirst_append (fun c : ℤ × LogCfg × LogIn K => c.2.2.stop) ((cs.zip ins).map (fun ci => (b.pass.getD 0, ci.1, ci.2))) []
            rw [e3, hs, List.append_nil] at this
            simpa [upToFirst] using this
          rw [h5] at h1
          exact ⟨by simpa using h1.append h3, by simpa using h4⟩
  intro ps
  obtain ⟨h1, h2⟩ := key steps fs
  refine ⟨fun q => ?_, h1.prog, ?_⟩
  · have := h1.log q
    rw [this]
    by_cases he : logLines q tot ps = []
    · simp only [ps] at he; simp [ps, he]
    · simp only [ps] at he; simp [ps, he]
  · rw [h2, List.any_eq_true]

/-- C165, the passages of a run: on a time axis that starts at a non-negative time a cloud that can write its files and is not stopped
leaves in its log one line for every passage number of the run, in increasing order, with the electrons and macroparticles that it has
at that passage; the number in the progress file is the fraction of the passages before the last one begun, at least 0 and below 1. -/
theorem C165_passages (g : BeamGrid K) (hb : 0 < g.bSpac) (ht : g.t.Pairwise (· < ·)) (hl : g.lam.length = g.t.length) (h0 : ∀ t ∈ g.t, 0 ≤ t)
    (h2 : 2 ≤ g.t.length) (c : LogCfg) (q q' : String) (hq : c.logfile = some q) (hq' : c.progress = some q') :
    ∃ (b : BeamSt K) (bs : List (BeamSt K)),
      (∀ fuel : ℕ, g.t.length < fuel → runLoop g (fun b (l : List (BeamSt K)) => .ok (l ++ [b])) none fuel BeamSt.init [] = .ok (b, bs)) ∧
      ∀ (nel : BeamSt K → K) (nmp : BeamSt K → ℕ) (fs : LogFs K),
        ∃ ps : List (BeamSt K), ps.Sublist bs ∧ (ps.map (fun b => b.pass.getD 0)).Pairwise (· < ·) ∧
          (∀ n : ℤ, n ∈ ps.map (fun b => b.pass.getD 0) ↔ ∃ i < g.t.length - 1, ∃ t, g.t[i]? = some t ∧ n = ⌊t / g.bSpac⌋) ∧
          ((logRun [c] (nPassTot g.t g.bSpac) (bs.map (fun b => (b, [⟨nel b, nmp b, true, true, false⟩]))) fs).1.log q).getD [] =
            (fs.log q).getD [] ++ ps.map (fun b => .pass (b.pass.getD 0) (nPassTot g.t g.bSpac) c.cloud (nel b) (nmp b)) ∧
          ∃ n : ℤ, (ps.map (fun b => b.pass.getD 0)).getLast? = some n ∧
            (logRun [c] (nPassTot g.t g.bSpac) (bs.map (fun b => (b, [⟨nel b, nmp b, true, true, false⟩]))) fs).1.prog q' =
              some ((n : K) / (nPassTot g.t g.bSpac : K)) ∧
            0 ≤ (n : K) / (nPassTot g.t g.bSpac : K) ∧ (n : K) / (nPassTot g.t g.bSpac : K) < 1 := by
  have hmono : ∀ i j, i ≤ j → j < g.t.length - 1 → passOf g (g.t.getD i 0) ≤ passOf g (g.t.getD j 0) := by
    intro i j hij hj
    rcases Nat.eq_or_lt_of_le hij with rfl | hlt
    · exact le_rfl
    · exact passOf_mono g hb (grid_mono g.t ht i j hlt (by omega)).le
  have hflag : ∀ i < g.t.length - 1, (beamAt g i).newPass = true ↔
      0 ≤ passOf g (g.t.getD i 0) ∧ ∀ j < i, passOf g (g.t.getD j 0) < passOf g (g.t.getD i 0) := by
    intro i hi
    simp only [beamAt, decide_eq_true_eq]
    by_cases h0 : i = 0
    · subst h0
      simp; omega
    · rw [if_neg h0]
      constructor
      · intro h
        have h1 : (-1 : ℤ) < passOf g (g.t.getD i 0) := lt_of_le_of_lt (le_max_left _ _) h
        refine ⟨by omega, fun j hj => ?_⟩
        exact lt_of_le_of_lt (hmono j (i - 1) (by omega) (by omega)) (lt_of_le_of_lt (le_max_right _ _) h)
      · rintro ⟨h1, h2⟩
        exact max_lt (by omega) (h2 (i - 1) (by omega))
  have hnn : ∀ i < g.t.length - 1, 0 ≤ passOf g (g.t.getD i 0) := by
    intro i hi
    have : 0 ≤ g.t.getD i 0 := by
      rw [List.getD_eq_getElem _ _ (by omega)]
      exact h0 _ (List.getElem_mem _)
    exact Int.floor_nonneg.mpr (div_nonneg this hb.le)
  have hlt : ∀ i < g.t.length - 1, passOf g (g.t.getD i 0) < nPassTot g.t g.bSpac := by
    intro i hi
    have e : g.t.getLastD 0 = g.t.getD (g.t.length - 1) 0 := by
      rw [List.getLastD_eq_getLast?, List.getLast?_eq_getElem?, List.getD_eq_getElem?_getD]
    have h1 := grid_mono g.t ht i (g.t.length - 1) (by omega) (by omega)
    rw [← e] at h1
    unfold passOf nPassTot
    rw [Int.lt_ceil]
    exact lt_of_le_of_lt (Int.floor_le _) (div_lt_div_of_pos_right h1 hb)
  have honce := flag_once (g.t.length - 1) (fun i => passOf g (g.t.getD i 0)) (fun i => (beamAt g i).newPass) hmono hnn hflag
  refine ⟨beamBefore g (g.t.length - 1), (List.range (g.t.length - 1)).map (beamAt g), fun fuel hf => ?_, fun nel nmp fs => ?_⟩
  · have h := runLoop_none g hb ht hl (fun b (l : List (BeamSt K)) => .ok (l ++ [b])) fuel 0 [] (by omega) (by omega) (by omega)
    refine h.trans ?_
    have hfold : ∀ (i n : ℕ) (l : List (BeamSt K)),
        foldSteps g (fun b (l : List (BeamSt K)) => .ok (l ++ [b])) i n l = .ok (l ++ (List.range' i n).map (beamAt g)) := by
      intro i n
      induction n generalizing i with
      | zero => intro l; simp [foldSteps]
      | succ n ih =>
        intro l
        simp only [foldSteps, ih, List.range'_succ, List.map_cons, List.append_assoc, List.singleton_append]
    rw [hfold, List.range_eq_range']
    rfl
  · obtain ⟨bs, hbs⟩ : ∃ bs, bs = (List.range (g.t.length - 1)).map (beamAt g) := ⟨_, rfl⟩
    rw [← hbs]
    have hmem : ∀ n : ℤ, n ∈ (bs.filter (fun b => b.newPass)).map (fun b => b.pass.getD 0) ↔
        ∃ i < g.t.length - 1, ∃ t, g.t[i]? = some t ∧ n = ⌊t / g.bSpac⌋ := by
      intro n
      simp only [hbs, List.mem_map, List.mem_filter, List.mem_range]
      constructor
      · rintro ⟨b, ⟨⟨i, hi, rfl⟩, -⟩, rfl⟩
        exact ⟨i, hi, g.t[i], List.getElem?_eq_getElem _, by simp only [beamAt, Option.getD_some, passOf]; rw [List.getD_eq_getElem _ _ (by omega)]⟩
      · rintro ⟨i, hi, t, hit, rfl⟩
        obtain ⟨k, hk, hf, hp, -⟩ := honce i hi
        refine ⟨beamAt g k, ⟨⟨k, by omega, rfl⟩, hf⟩, ?_⟩
        change passOf g (g.t.getD k 0) = _
        refine Eq.trans hp ?_
        simp only [passOf]
        rw [List.getD_eq_getElem?_getD, hit]; rfl
    have hpair : ((bs.filter (fun b => b.newPass)).map (fun b => b.pass.getD 0)).Pairwise (· < ·) := by
      rw [List.pairwise_map, List.pairwise_filter, hbs, List.pairwise_map]
      refine List.Pairwise.imp_of_mem ?_ List.pairwise_lt_range
      intro i j hi hj hij _ hfj
      exact ((hflag j (List.mem_range.1 hj)).1 hfj).2 i hij
    have hps : passages [c] (bs.map (fun b => (b, [(⟨nel b, nmp b, true, true, false⟩ : LogIn K)]))) =
        (bs.filter (fun b => b.newPass)).map (fun b => (b.pass.getD 0, c, ⟨nel b, nmp b, true, true, false⟩)) := by
      clear hmem hpair hbs
      unfold passages
      induction bs with
      | nil => rfl
      | cons b l ih =>
        cases hn : b.newPass with
        | true => simp only [List.map_cons, List.filter_cons, hn, if_true, List.flatMap_cons, ih]; rfl
        | false => simp only [List.map_cons, List.filter_cons, hn, Bool.false_eq_true, if_false, ih]
    have hup : ∀ l : List (BeamSt K), upToFirst (fun c : ℤ × LogCfg × LogIn K => c.2.2.stop)
        (l.map (fun b => (b.pass.getD 0, c, ⟨nel b, nmp b, true, true, false⟩))) = l.map (fun b => (b.pass.getD 0, c, ⟨nel b, nmp b, true, true, false⟩)) := by
      intro l
      induction l with
      | nil => rfl
      | cons b l ih => simp [upToFirst, ih]
    have hC := C165_files [c] (nPassTot g.t g.bSpac) (bs.map (fun b => (b, [(⟨nel b, nmp b, true, true, false⟩ : LogIn K)]))) fs
    simp only [hps, hup] at hC
    obtain ⟨hC1, hC2, -⟩ := hC
    have hll : logLines q (nPassTot g.t g.bSpac) ((bs.filter (fun b => b.newPass)).map (fun b => (b.pass.getD 0, c, (⟨nel b, nmp b, true, true, false⟩ : LogIn K)))) =
        (bs.filter (fun b => b.newPass)).map (fun b => .pass (b.pass.getD 0) (nPassTot g.t g.bSpac) c.cloud (nel b) (nmp b)) := by
      unfold logLines
      rw [List.filter_eq_self.2 (by intro a ha; obtain ⟨b, -, rfl⟩ := List.mem_map.1 ha; simp [hq]), List.map_map]
      rfl
    have hpp : progPasses q' ((bs.filter (fun b => b.newPass)).map (fun b => (b.pass.getD 0, c, (⟨nel b, nmp b, true, true, false⟩ : LogIn K)))) =
        (bs.filter (fun b => b.newPass)).map (fun b => b.pass.getD 0) := by
      unfold progPasses
      rw [List.filter_eq_self.2 (by intro a ha; obtain ⟨b, -, rfl⟩ := List.mem_map.1 ha; simp [hq']), List.map_map]
      rfl
    refine ⟨bs.filter (fun b => b.newPass), List.filter_sublist, hpair, hmem, ?_, ?_⟩
    · rw [(hC1 q).1, hll]
    · have hne : (bs.filter (fun b => b.newPass)).map (fun b => b.pass.getD 0) ≠ [] := by
        intro he
        have := (hmem _).2 ⟨0, by omega, g.t[0]'(by omega), List.getElem?_eq_getElem _, rfl⟩
        rw [he] at this
        simp at this
      obtain ⟨n, hn⟩ : ∃ n, ((bs.filter (fun b => b.newPass)).map (fun b => b.pass.getD 0)).getLast? = some n :=
        ⟨_, List.getLast?_eq_some_getLast hne⟩
      have hP := hC2 q'
      rw [hpp, hn] at hP
      obtain ⟨i, hi, t, hit, rfl⟩ := (hmem n).1 (List.mem_of_getLast? hn)
      have e : passOf g (g.t.getD i 0) = ⌊t / g.bSpac⌋ := by
        simp only [passOf]; rw [List.getD_eq_getElem?_getD, hit]; rfl
      have h1 := hnn i hi
      have h3 := hlt i hi
      rw [e] at h1 h3
      have h4 : (0 : K) < (nPassTot g.t g.bSpac : K) := by exact_mod_cast lt_of_le_of_lt h1 h3
      refine ⟨_, hn, hP, div_nonneg (by exact_mod_cast h1) h4.le, ?_⟩
      rw [div_lt_one h4]
      exact_mod_cast h3

/-! ## the start of the log -/

/-- C165, the start of the log: if every cloud that logs has its own log file and the files can be opened, then after the set-up every
log file holds the four lines about the program and its start, then the line about the end of the initialisation, and nothing of an
earlier run; if a log file cannot be opened, be it at the start or at the end of the initialisation, there is no simulation; files of no
cloud are left alone. -/
theorem C165_start_partial (cs : List (LogCfg × Bool × Bool)) (fs : LogFs K)
    (hown : cs.Pairwise (fun c c' => c.1.logfile = none ∨ c.1.logfile ≠ c'.1.logfile)) :
    ((∀ c ∈ cs, c.1.logfile ≠ none → c.2.1 = true ∧ c.2.2 = true) → ∃ fs', logSetup cs fs = some fs' ∧
      (∀ c ∈ cs, ∀ q, c.1.logfile = some q → fs'.log q = some [.version, .gitHash, .gitBranch, .started, .initDone]) ∧
      (∀ q, (∀ c ∈ cs, c.1.logfile ≠ some q) → fs'.log q = fs.log q) ∧ fs'.prog = fs.prog) ∧
    ((∃ c ∈ cs, c.1.logfile ≠ none ∧ (c.2.1 = false ∨ c.2.2 = false)) → logSetup cs fs = none) := by
  constructor
  · intro hok
    induction cs generalizing fs with
    | nil => exact ⟨fs, rfl, by simp, by simp, rfl⟩
    | cons c l ih =>
      rw [List.pairwise_cons] at hown
      obtain ⟨ho1, ho2⟩ := hown
      have hk := hok c (List.mem_cons_self ..)
      have hl : ∀ c ∈ l, c.1.logfile ≠ none → c.2.1 = true ∧ c.2.2 = true := fun c' hc' => hok c' (List.mem_cons_of_mem _ hc')
      obtain ⟨c, ok, ok'⟩ := c
      cases hc : c.logfile with
      | none =>
        obtain ⟨fs', h1, h2, h3, h4⟩ := ih fs ho2 hl
        refine ⟨fs', by simpa [logSetup, logInit, logStart, hc] using h1, ?_, ?_, h4⟩
        · intro c' hc' q hq
          rcases List.mem_cons.1 hc' with rfl | hm
          · simp only at hq
            rw [hc] at hq; cases hq
          · exact h2 c' hm q hq
        · intro q hq
          exact h3 q (fun c' hc' => hq c' (List.mem_cons_of_mem _ hc'))
      | some p =>
        obtain ⟨hk1, hk2⟩ := hk (by simp [hc])
        simp only at hk1 hk2
        subst hk1 hk2
        obtain ⟨fs', h1, h2, h3, h4⟩ := ih ((fs.putLog p [.version, .gitHash, .gitBranch, .started]).addLog p .initDone) ho2 hl
        refine ⟨fs', by simpa [logSetup, logInit, logStart, hc] using h1, ?_, ?_, by rw [h4]; rfl⟩
        · intro c' hc' q hq
          rcases List.mem_cons.1 hc' with rfl | hm
          · simp only at hq
            rw [hc] at hq
            cases hq
            rw [h3 p (fun c' hc' => ?_)]
            · simp [LogFs.addLog, LogFs.putLog]
            · rcases ho1 c' hc' with h | h
              · simp only at h; rw [hc] at h; cases h
              · simp only at h; rw [hc] at h; exact fun h' => h h'.symm
          · exact h2 c' hm q hq
        · intro q hq
          rw [h3 q (fun c' hc' => hq c' (List.mem_cons_of_mem _ hc'))]
          have : q ≠ p := fun h => hq (c, true, true) (List.mem_cons_self ..) (by simp only; rw [hc, h])
          simp [LogFs.addLog, LogFs.putLog, Function.update_of_ne this]
  · rintro ⟨c, hc, hne, hf⟩
    clear hown
    induction cs generalizing fs with
    | nil => simp at hc
    | cons c0 l ih =>
      obtain ⟨c0, ok, ok'⟩ := c0
      rcases List.mem_cons.1 hc with rfl | hm
      · simp only at hne hf
        cases h0 : c0.logfile with
        | none => exact absurd h0 hne
        | some p => cases ok <;> cases ok' <;> simp_all [logSetup, logInit, logStart]
      · cases h0 : c0.logfile with
        | none => simpa [logSetup, logInit, logStart, h0] using ih fs hm
        | some p =>
          cases ok <;> cases ok' <;> simp [logSetup, logInit, logStart, h0]
          exact ih _ hm

/-- C165 is violated for clouds that share a log file, which is what additional clouds do that do not set their own: the lines of the
first cloud are gone when the second one starts its log. -/
theorem C165_start_violated (q : String) (c d : String) (fs : LogFs K) :
    ∃ fs', logSetup [(⟨some q, none, c⟩, true, true), (⟨some q, none, d⟩, true, true)] fs = some fs' ∧
      fs'.log q = some [.version, .gitHash, .gitBranch, .started, .initDone] := by
  refine ⟨_, rfl, ?_⟩
  simp [LogFs.addLog, LogFs.putLog]

/-! ## the conditions can be met -/

/-- two clouds with a common log file, three steps of which the first and the third are passages: the second cloud cannot write at the
first passage, the stop file is found by the first cloud at the second passage -/
example : let cs : List LogCfg := [⟨some "log", some "p", "a"⟩, ⟨some "log", none, "b"⟩]
    let st : ℤ → Bool → BeamSt ℚ := fun n f => ⟨0, none, none, none, some n, n, f⟩
    let r := logRun cs 4 [(st 0 true, [⟨10, 1, true, true, false⟩, ⟨20, 2, false, true, false⟩]), (st 0 false, [⟨11, 1, true, true, false⟩, ⟨21, 2, true, true, false⟩]),
      (st 1 true, [⟨12, 1, true, true, true⟩, ⟨22, 2, true, true, false⟩])] ⟨fun _ => none, fun _ => none⟩
    r.1.log "log" = some [.pass 0 4 "a" 10 1, .pass 1 4 "a" 12 1] ∧ r.1.prog "p" = some (1 / 4) ∧ r.2 = true := by
  decide +kernel

/-- the example grid meets the conditions of the theorem on the passages -/
example : 0 < exGrid.bSpac ∧ exGrid.t.Pairwise (· < ·) ∧ exGrid.lam.length = exGrid.t.length ∧ (∀ t ∈ exGrid.t, 0 ≤ t) ∧ 2 ≤ exGrid.t.length := by
  decide +kernel

end PyECLOUD
