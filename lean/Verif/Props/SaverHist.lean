import Verif.Spec.SaverHist
import Verif.Lemmas.Impact
import Verif.Lemmas.Hist
import Verif.Props.SaverSteps

/-!
# Saved histograms: C53, C54, C74
-/

set_option linter.unusedSectionVars false

namespace PyECLOUD

variable {K : Type} [Field K] [LinearOrder K]

theorem map_snoc {α β : Type} (f : α → β) (l : List α) (a : α) : (l ++ [a]).map f = l.map f ++ [f a] := by simp

theorem groupedBy_open (due : K → WitIn K → Bool) (tp : K) (gs : List (HGroup K)) (opn : List (HistEv K)) (e : HistEv K)
    (h : GroupedBy due tp gs opn) (tl : K) (htl : tl = (gs.getLast?.map (fun g => g.2.2.tt)).getD tp) (he : due tl e.2 = false) :
    GroupedBy due tp gs (opn ++ [e]) := by
  induction gs generalizing tp with
  | nil =>
    intro j hj
    simp only [List.getLast?_nil, Option.map_none, Option.getD_none] at htl
    rcases List.mem_append.1 hj with hj | hj
    · exact h j hj
    · rw [List.mem_singleton.1 hj, ← htl]; exact he
  | cons g gs ih =>
    refine ⟨h.1, h.2.1, ih _ h.2.2 ?_⟩
    rw [htl, List.getLast?_cons]
    cases gs.getLast? <;> rfl

theorem groupedBy_close (due : K → WitIn K → Bool) (tp : K) (gs : List (HGroup K)) (opn : List (HistEv K)) (e : HistEv K)
    (h : GroupedBy due tp gs opn) (tl : K) (htl : tl = (gs.getLast?.map (fun g => g.2.2.tt)).getD tp) (he : due tl e.2 = true) :
    GroupedBy due tp (gs ++ [(opn, e)]) [] := by
  induction gs generalizing tp with
  | nil =>
    simp only [List.getLast?_nil, Option.map_none, Option.getD_none] at htl
    rw [htl] at he
    exact ⟨h, he, fun j hj => absurd hj (by simp)⟩
  | cons g gs ih =>
    refine ⟨h.1, h.2.1, ih _ h.2.2 ?_⟩
    rw [htl, List.getLast?_cons]
    cases gs.getLast? <;> rfl

theorem binSums_nil (n : ℕ) : binSums n ([] : List (List K)) = List.replicate n 0 := by
  unfold binSums
  simp

theorem addL_binSums (n : ℕ) (ds : List (List K)) (d : List K) (hd : d.length = n) :
    addL (binSums n ds) d = binSums n (ds ++ [d]) := by
  unfold addL binSums
  apply List.ext_getElem
  · simp [hd]
  · intro k h1 h2
    have hk : k < d.length := by simp at h2; omega
    simp [hk]

theorem zeroed_binSums (n : ℕ) (ds : List (List K)) : zeroed (binSums n ds) = binSums n [] := by
  unfold zeroed binSums
  rw [List.map_map]
  apply List.map_congr_left
  intro k _
  simp

section Floor

variable [FloorRing K]

theorem run_append (c : HistCfg K) (r r' : HistSav K × ImpHist K) (l : List (HistEv K)) (e : HistEv K)
    (h : HistSav.run c r (l ++ [e]) = .ok r') :
    ∃ q, HistSav.run c r l = .ok q ∧ HistSav.witness c q.1 (q.2.add e.1) e.2 = .ok r' := by
  induction l generalizing r with
  | nil =>
    simp only [List.nil_append, HistSav.run] at h
    refine ⟨r, rfl, ?_⟩
    cases hw : HistSav.witness c r.1 (r.2.add e.1) e.2 with
    | ok x => rw [hw] at h; exact h
    | error x => rw [hw] at h; cases h
  | cons a l ih =>
    simp only [List.cons_append, HistSav.run] at h ⊢
    cases hw : HistSav.witness c r.1 (r.2.add a.1) a.2 with
    | ok x => rw [hw] at h; exact ih x h
    | error x => rw [hw] at h; cases h

/-- effect of the energy part on everything else -/
theorem enSave_frame (c : HistCfg K) (v v' : HistSav K) (h h' : ImpHist K) (i : WitIn K)
    (hok : v.enSave c h i = .ok (v', h')) :
    (v'.pass = v.pass ∧ v'.tHist = v.tHist ∧ v'.nel = v.nel ∧ v'.det = v.det ∧ v'.line = v.line ∧ v'.detLine = v.detLine ∧
      v'.nMp = v.nMp ∧ v'.ref = v.ref ∧ v'.tLastLife = v.tLastLife ∧ v'.tLife = v.tLife ∧ v'.life = v.life) ∧
    (∀ ph, h'.pass ph = h.pass ph) ∧ h'.life = h.life := by
  unfold HistSav.enSave at hok
  split at hok
  · obtain ⟨ek, -, hok⟩ := bind_ok hok
    cases hok
    exact ⟨⟨rfl, rfl, rfl, rfl, rfl, rfl, rfl, rfl, rfl, rfl, rfl⟩, fun ph => by cases ph <;> rfl, rfl⟩
  · cases hok
    exact ⟨⟨rfl, rfl, rfl, rfl, rfl, rfl, rfl, rfl, rfl, rfl, rfl⟩, fun ph => rfl, rfl⟩

/-- effect of the energy part on its own data -/
theorem enSave_own (c : HistCfg K) (v v' : HistSav K) (h h' : ImpHist K) (i : WitIn K)
    (hok : v.enSave c h i = .ok (v', h')) :
    (histDue i.tt v.tLastEn c.dtEn = false ∧ v' = v ∧ h' = h) ∨
    (histDue i.tt v.tLastEn c.dtEn = true ∧ v'.tLastEn = i.tt ∧ v'.tEn = v.tEn ++ [i.tt] ∧ v'.en = v.en ++ [h.enLine] ∧
      h'.enLine = zeroed h.enLine ∧
      (c.flagCos = true → v'.cos = v.cos ++ [h.cos] ∧ h'.cos = zeroed h.cos) ∧
      (∃ ek, ekinHist c i.cloud = .ok ek ∧ v'.ekin = v.ekin ++ [ek]) ∧
      ((c.flagSeg && c.flagEnSeg) = true → v'.segEnLines = (v.segEnLines.zip h.segEnLines).map (fun q => q.1 ++ [q.2]) ∧
        h'.segEnLines = h.segEnLines.map zeroed)) := by
  unfold HistSav.enSave at hok
  by_cases hd : histDue i.tt v.tLastEn c.dtEn = true
  · rw [if_pos hd] at hok
    obtain ⟨ek, e1, hok⟩ := bind_ok hok
    cases hok
    refine Or.inr ⟨hd, rfl, rfl, rfl, rfl, fun hc => ?_, ⟨ek, e1, rfl⟩, fun hc => ?_⟩
    · simp only [hc, if_true, and_self]
    · simp only [hc, if_true, and_self]
  · rw [if_neg hd] at hok
    cases hok
    exact Or.inl ⟨by simpa using hd, rfl, rfl⟩

theorem lifeSave_frame (c : HistCfg K) (v : HistSav K) (h : ImpHist K) (i : WitIn K) :
    ((HistSav.lifeSave c v h i).1.pass = v.pass ∧ (HistSav.lifeSave c v h i).1.tHist = v.tHist ∧
      (HistSav.lifeSave c v h i).1.nel = v.nel ∧ (HistSav.lifeSave c v h i).1.det = v.det ∧
      (HistSav.lifeSave c v h i).1.line = v.line ∧ (HistSav.lifeSave c v h i).1.detLine = v.detLine ∧
      (HistSav.lifeSave c v h i).1.nMp = v.nMp ∧ (HistSav.lifeSave c v h i).1.ref = v.ref ∧
      (HistSav.lifeSave c v h i).1.tLastEn = v.tLastEn ∧ (HistSav.lifeSave c v h i).1.tEn = v.tEn ∧
      (HistSav.lifeSave c v h i).1.en = v.en ∧ (HistSav.lifeSave c v h i).1.cos = v.cos ∧
      (HistSav.lifeSave c v h i).1.ekin = v.ekin ∧ (HistSav.lifeSave c v h i).1.segEnLines = v.segEnLines) ∧
    (∀ ph, (HistSav.lifeSave c v h i).2.pass ph = h.pass ph) ∧ (HistSav.lifeSave c v h i).2.enLine = h.enLine ∧
      (HistSav.lifeSave c v h i).2.cos = h.cos ∧ (HistSav.lifeSave c v h i).2.segEnLines = h.segEnLines := by
  unfold HistSav.lifeSave
  split
  · exact ⟨⟨rfl, rfl, rfl, rfl, rfl, rfl, rfl, rfl, rfl, rfl, rfl, rfl, rfl, rfl⟩, fun ph => by cases ph <;> rfl, rfl, rfl, rfl⟩
  · exact ⟨⟨rfl, rfl, rfl, rfl, rfl, rfl, rfl, rfl, rfl, rfl, rfl, rfl, rfl, rfl⟩, fun ph => rfl, rfl, rfl, rfl⟩

theorem resetPass_pass (h : ImpHist K) (c : HistCfg K) (ph : PassH) (hon : c.passOn ph = true) :
    (h.resetPass c.flagSeg).pass ph = zeroed (h.pass ph) := by
  cases ph <;> simp_all [HistCfg.passOn, ImpHist.resetPass, ImpHist.pass]

/-- what one call does to the per-passage data -/
theorem witness_pass (c : HistCfg K) (v v' : HistSav K) (h h' : ImpHist K) (i : WitIn K)
    (hok : HistSav.witness c v h i = .ok (v', h')) :
    (i.newPass = false ∧ v'.pass = v.pass ∧ v'.tHist = v.tHist ∧ v'.nel = v.nel ∧ v'.det = v.det ∧ v'.line = v.line ∧
      v'.detLine = v.detLine ∧ v'.nMp = v.nMp ∧ v'.ref = v.ref ∧ ∀ ph, h'.pass ph = h.pass ph) ∨
    (i.newPass = true ∧ (∀ ph, c.passOn ph = true → v'.pass ph = v.pass ph ++ [h.pass ph] ∧ h'.pass ph = zeroed (h.pass ph)) ∧
      v'.tHist = v.tHist ++ [i.tt] ∧ v'.nMp = v.nMp ++ [(i.cloud.nmp : K)] ∧ v'.ref = v.ref ++ [i.cloud.ref] ∧
      cloudLine c i.cloud v.line = .ok v'.line ∧ v'.nel = v.nel ++ [v'.line] ∧
      detLineOf c i.cloud v.detLine = .ok v'.detLine ∧ (c.det.isSome = true → v'.det = v.det ++ [v'.detLine])) := by
  unfold HistSav.witness at hok
  obtain ⟨⟨v1, h1⟩, e1, hok⟩ := bind_ok hok
  obtain ⟨⟨a1, a2, a3, a4, a5, a6, a7, a8, a9, -, -⟩, b1, b2⟩ := enSave_frame c v v1 h h1 i e1
  obtain ⟨⟨l1, l2, l3, l4, l5, l6, l7, l8, -⟩, m1, -⟩ := lifeSave_frame c v1 h1 i
  obtain ⟨q, hq⟩ : ∃ q, q = HistSav.lifeSave c v1 h1 i := ⟨_, rfl⟩
  simp only [← hq] at hok l1 l2 l3 l4 l5 l6 l7 l8 m1
  by_cases hn : i.newPass = true
  · rw [if_pos hn] at hok
    right
    unfold HistSav.passSave at hok
    obtain ⟨line, e2, hok⟩ := bind_ok hok
    obtain ⟨dl, e3, hok⟩ := bind_ok hok
    cases hok
    refine ⟨hn, fun ph hon => ?_, ?_, ?_, ?_, ?_, ?_, ?_, ?_⟩
    · simp only [hon, if_true]
      rw [resetPass_pass _ _ _ hon, m1 ph, b1 ph, l1, a1]
      exact ⟨rfl, rfl⟩
    · simp only [l2, a2]
    · simp only [l7, a7]
    · simp only [l8, a8]
    · rw [l5, a5] at e2
      exact e2
    · simp only [l3, a3]
    · rw [l6, a6] at e3
      exact e3
    · intro hd
      simp only [hd, if_true, l4, a4]
  · rw [if_neg hn] at hok
    have hq' := Except.ok.inj hok
    rw [hq'] at l1 l2 l3 l4 l5 l6 l7 l8 m1
    left
    exact ⟨by simpa using hn, l1.trans a1, l2.trans a2, l3.trans a3, l4.trans a4, l5.trans a5, l6.trans a6,
      l7.trans a7, l8.trans a8, fun ph => (m1 ph).trans (b1 ph)⟩

theorem add_pass (h d : ImpHist K) (ph : PassH) : (h.add d).pass ph = addL (h.pass ph) (d.pass ph) := by
  cases ph <;> rfl

theorem enSave_counts (c : HistCfg K) (v v' : HistSav K) (h h' : ImpHist K) (i : WitIn K)
    (hok : v.enSave c h i = .ok (v', h')) : v'.nHit = v.nHit ∧ v'.nCorr = v.nCorr := by
  unfold HistSav.enSave at hok
  split at hok
  · obtain ⟨ek, -, hok⟩ := bind_ok hok
    cases hok
    exact ⟨rfl, rfl⟩
  · cases hok
    exact ⟨rfl, rfl⟩

theorem lifeSave_counts (c : HistCfg K) (v : HistSav K) (h : ImpHist K) (i : WitIn K) :
    (HistSav.lifeSave c v h i).1.nHit = v.nHit ∧ (HistSav.lifeSave c v h i).1.nCorr = v.nCorr := by
  unfold HistSav.lifeSave
  split <;> exact ⟨rfl, rfl⟩

theorem witness_counts (c : HistCfg K) (v v' : HistSav K) (h h' : ImpHist K) (i : WitIn K)
    (hok : HistSav.witness c v h i = .ok (v', h')) :
    v'.nHit = v.nHit ++ (if i.newPass then [i.nHit] else []) ∧
    v'.nCorr = v.nCorr ++ (if i.newPass then [i.nCorr] else []) := by
  unfold HistSav.witness at hok
  obtain ⟨⟨v1, h1⟩, e1, hok⟩ := bind_ok hok
  obtain ⟨a1, a2⟩ := enSave_counts c v v1 h h1 i e1
  obtain ⟨b1, b2⟩ := lifeSave_counts c v1 h1 i
  by_cases hn : i.newPass = true
  · rw [if_pos hn] at hok
    unfold HistSav.passSave at hok
    obtain ⟨line, -, hok⟩ := bind_ok hok
    obtain ⟨dl, -, hok⟩ := bind_ok hok
    cases hok
    simp only [hn, if_true]
    rw [b1, b2, a1, a2]
    exact ⟨rfl, rfl⟩
  · rw [if_neg hn] at hok
    have hv : (HistSav.lifeSave c v1 h1 i).1 = v' := congrArg Prod.fst (Except.ok.inj hok)
    rw [← hv]
    simp only [hn, Bool.false_eq_true, if_false, List.append_nil]
    exact ⟨b1.trans a1, b2.trans a2⟩

/-- **C53**: at each passage, and only then, one sample is recorded of the time, of the number of macroparticles, of the
reference size, of the number of impacts and of the number of corrected impacts: those of that very step. -/
theorem C53_counters (c : HistCfg K) (v0 : HistSav K) (h0 : ImpHist K) (evs : List (HistEv K)) (v : HistSav K)
    (h : ImpHist K) (hok : HistSav.run c (v0, h0) evs = .ok (v, h)) :
    let at_passes : (WitIn K → K) → List K := fun f => (evs.filter (fun e => e.2.newPass)).map (fun e => f e.2)
    v.tHist = v0.tHist ++ at_passes (fun i => i.tt) ∧
    v.nMp = v0.nMp ++ at_passes (fun i => (i.cloud.nmp : K)) ∧
    v.ref = v0.ref ++ at_passes (fun i => i.cloud.ref) ∧
    v.nHit = v0.nHit ++ at_passes (fun i => i.nHit) ∧
    v.nCorr = v0.nCorr ++ at_passes (fun i => i.nCorr) := by
  intro at_passes
  simp only [at_passes]
  induction evs using List.reverseRecOn generalizing v h with
  | nil => cases hok; simp
  | append_singleton l e ih =>
    obtain ⟨q, h1, h2⟩ := run_append c _ _ l e hok
    obtain ⟨g1, g2, g3, g4, g5⟩ := ih q.1 q.2 h1
    obtain ⟨k1, k2⟩ := witness_counts c q.1 v _ h e.2 h2
    rcases witness_pass c q.1 v _ h e.2 h2 with ⟨w1, -, w3, -, -, -, -, w8, w9, -⟩ | ⟨w1, -, w3, w4, w5, -⟩
    · simp only [w1, Bool.false_eq_true, if_false, List.append_nil] at k1 k2
      rw [w3, w8, w9, k1, k2, g1, g2, g3, g4, g5]
      simp [w1]
    · simp only [w1, if_true] at k1 k2
      rw [w3, w4, w5, k1, k2, g1, g2, g3, g4, g5]
      simp [w1]

/-- **C53**: the impact histograms written at each passage contain exactly the impacts since the previous passage, bin
by bin, and those still in the impact manager exactly the impacts since the last passage. -/
theorem C53_passes (c : HistCfg K) (v0 : HistSav K) (h0 : ImpHist K) (N : PassH → ℕ) (hv0 : ∀ ph, v0.pass ph = [])
    (ht0 : v0.tHist = []) (hh0 : ∀ ph, h0.pass ph = List.replicate (N ph) 0) (evs : List (HistEv K))
    (hshape : ∀ e ∈ evs, ∀ ph, (e.1.pass ph).length = N ph) (v : HistSav K) (h : ImpHist K)
    (hok : HistSav.run c (v0, h0) evs = .ok (v, h)) :
    ∃ (gs : List (HGroup K)) (opn : List (HistEv K)), evs = gs.flatMap HGroup.steps ++ opn ∧
      (∀ g ∈ gs, (∀ e ∈ g.1, e.2.newPass = false) ∧ g.2.2.newPass = true) ∧ (∀ e ∈ opn, e.2.newPass = false) ∧
      v.tHist = gs.map (fun g => g.2.2.tt) ∧
      ∀ ph, c.passOn ph = true →
        v.pass ph = gs.map (fun g => binSums (N ph) (g.steps.map (fun e => e.1.pass ph))) ∧
        h.pass ph = binSums (N ph) (opn.map (fun e => e.1.pass ph)) := by
  induction evs using List.reverseRecOn generalizing v h with
  | nil =>
    cases hok
    refine ⟨[], [], rfl, by simp, by simp, ht0, fun ph _ => ⟨hv0 ph, ?_⟩⟩
    rw [hh0 ph, List.map_nil, binSums_nil]
  | append_singleton l e ih =>
    obtain ⟨q, h1, h2⟩ := run_append c _ _ l e hok
    obtain ⟨gs, opn, g1, g2, g3, g4, g5⟩ := ih (fun e' he' => hshape e' (by simp [he'])) q.1 q.2 h1
    have hs := hshape e (by simp)
    rcases witness_pass c q.1 v _ h e.2 h2 with ⟨w1, w2, w3, -, -, -, -, -, -, w4⟩ | ⟨w1, w2, w3, -⟩
    · refine ⟨gs, opn ++ [e], by rw [g1, List.append_assoc], g2, ?_, by rw [w3]; exact g4, fun ph hon => ?_⟩
      · intro e' he'
        rcases List.mem_append.1 he' with he' | he'
        · exact g3 e' he'
        · rw [List.mem_singleton.1 he']; exact w1
      · refine ⟨by rw [w2]; exact (g5 ph hon).1, ?_⟩
        rw [w4 ph, add_pass, (g5 ph hon).2, addL_binSums _ _ _ (hs ph), List.map_append]
        rfl
    · refine ⟨gs ++ [(opn, e)], [], ?_, ?_, by simp, ?_, fun ph hon => ?_⟩
      · rw [g1, List.flatMap_append]
        simp [HGroup.steps]
      · intro g hg
        rcases List.mem_append.1 hg with hg | hg
        · exact g2 g hg
        · rw [List.mem_singleton.1 hg]; exact ⟨g3, w1⟩
      · rw [w3, g4, List.map_append]; rfl
      · obtain ⟨x1, x2⟩ := w2 ph hon
        rw [add_pass, (g5 ph hon).2, addL_binSums _ _ _ (hs ph)] at x1 x2
        refine ⟨?_, ?_⟩
        · rw [x1, (g5 ph hon).1, List.map_append]
          congr 1
          simp [HGroup.steps]
        · rw [x2, zeroed_binSums]
          rfl

theorem hsum_groups (f : HistEv K → K) (gs : List (HGroup K)) (opn : List (HistEv K)) :
    (gs.map (fun g => (g.steps.map f).sum)).sum + (opn.map f).sum = ((gs.flatMap HGroup.steps ++ opn).map f).sum := by
  rw [List.map_append, List.sum_append]
  congr 1
  induction gs with
  | nil => rfl
  | cons g gs ih => simp only [List.map_cons, List.sum_cons, List.flatMap_cons, List.map_append, List.sum_append, ih]

theorem binSums_getD (n : ℕ) (ds : List (List K)) (k : ℕ) (hk : k < n) :
    (binSums n ds).getD k 0 = (ds.map (fun d => d.getD k 0)).sum := by
  unfold binSums
  simp [List.getD, hk]

/-- **C53**: summed over passages plus the open one, the histograms equal all impacts of the run, in every bin. -/
theorem C53_total (c : HistCfg K) (v0 : HistSav K) (h0 : ImpHist K) (N : PassH → ℕ) (hv0 : ∀ ph, v0.pass ph = [])
    (ht0 : v0.tHist = []) (hh0 : ∀ ph, h0.pass ph = List.replicate (N ph) 0) (evs : List (HistEv K))
    (hshape : ∀ e ∈ evs, ∀ ph, (e.1.pass ph).length = N ph) (v : HistSav K) (h : ImpHist K)
    (hok : HistSav.run c (v0, h0) evs = .ok (v, h)) (ph : PassH) (hon : c.passOn ph = true) (k : ℕ) (hk : k < N ph) :
    ((v.pass ph).map (fun r => r.getD k 0)).sum + (h.pass ph).getD k 0 =
      (evs.map (fun e => (e.1.pass ph).getD k 0)).sum := by
  obtain ⟨gs, opn, g1, -, -, -, g5⟩ := C53_passes c v0 h0 N hv0 ht0 hh0 evs hshape v h hok
  obtain ⟨x1, x2⟩ := g5 ph hon
  rw [x1, x2, binSums_getD _ _ _ hk, g1, List.map_map, List.map_map,
    ← hsum_groups (fun e : HistEv K => (e.1.pass ph).getD k 0) gs opn]
  congr 2
  apply List.map_congr_left
  intro g _
  simp only [Function.comp_apply]
  rw [binSums_getD _ _ _ hk, List.map_map]
  rfl

theorem addL_sum (a b : List K) (h : a.length = b.length) : (addL a b).sum = a.sum + b.sum := by
  unfold addL
  induction a generalizing b with
  | nil => cases b with
    | nil => simp
    | cons => simp at h
  | cons x a ih => cases b with
    | nil => simp at h
    | cons y b =>
      simp only [List.length_cons, Nat.add_right_cancel_iff] at h
      simp only [List.zipWith_cons_cons, List.sum_cons, ih b h]
      ring

theorem binSums_sum (n : ℕ) (ds : List (List K)) (h : ∀ d ∈ ds, d.length = n) :
    (binSums n ds).sum = (ds.map List.sum).sum := by
  induction ds using List.reverseRecOn with
  | nil => rw [binSums_nil]; simp
  | append_singleton l d ih =>
    have hd := h d (by simp)
    rw [← addL_binSums n l d hd, addL_sum _ _ (by simp [binSums, hd]), ih (fun d' hd' => h d' (by simp [hd']))]
    simp

/-- **C53**: the charge of the saved impact histograms plus the open one is the charge of all impacts counted by the
impact manager, when every step deposits the charge it counts (which `C19_histograms` proves of the impact step). -/
theorem C53_charge (c : HistCfg K) (v0 : HistSav K) (h0 : ImpHist K) (N : PassH → ℕ) (hv0 : ∀ ph, v0.pass ph = [])
    (ht0 : v0.tHist = []) (hh0 : ∀ ph, h0.pass ph = List.replicate (N ph) 0) (evs : List (HistEv K))
    (hshape : ∀ e ∈ evs, ∀ ph, (e.1.pass ph).length = N ph) (v : HistSav K) (h : ImpHist K)
    (hdep : ∀ e ∈ evs, e.1.tot.sum = e.2.cnt.nelImp)
    (hok : HistSav.run c (v0, h0) evs = .ok (v, h)) :
    ((v.pass .tot).map List.sum).sum + h.tot.sum = (evs.map (fun e => e.2.cnt.nelImp)).sum := by
  obtain ⟨gs, opn, g1, -, -, -, g5⟩ := C53_passes c v0 h0 N hv0 ht0 hh0 evs hshape v h hok
  obtain ⟨x1, x2⟩ := g5 .tot rfl
  have hmem : ∀ e ∈ evs, (e.1.pass .tot).sum = e.2.cnt.nelImp := hdep
  have ho : h.tot.sum = (opn.map (fun e => e.2.cnt.nelImp)).sum := by
    show (h.pass .tot).sum = _
    rw [x2, binSums_sum _ _ (by
      intro d hd
      obtain ⟨e, he, rfl⟩ := List.mem_map.1 hd
      exact hshape e (by rw [g1]; simp [he]) _), List.map_map]
    congr 1
    apply List.map_congr_left
    intro e he
    exact hmem e (by rw [g1]; simp [he])
  rw [x1, ho, g1, ← hsum_groups (fun e : HistEv K => e.2.cnt.nelImp) gs opn, List.map_map]
  congr 2
  apply List.map_congr_left
  intro g hg
  have hin : ∀ e ∈ g.steps, e ∈ evs := by
    intro e he
    rw [g1]
    exact List.mem_append_left _ (List.mem_flatMap.2 ⟨g, hg, he⟩)
  simp only [Function.comp_apply]
  rw [binSums_sum _ _ (by
      intro d hd
      obtain ⟨e, he, rfl⟩ := List.mem_map.1 hd
      exact hshape e (hin e he) _), List.map_map]
  congr 1
  apply List.map_congr_left
  intro e he
  exact hmem e (hin e he)

/-- what one call does to the energy and angle histograms -/
theorem witness_en (c : HistCfg K) (v v' : HistSav K) (h h' : ImpHist K) (i : WitIn K)
    (hok : HistSav.witness c v h i = .ok (v', h')) :
    (histDue i.tt v.tLastEn c.dtEn = false ∧ v'.tLastEn = v.tLastEn ∧ v'.tEn = v.tEn ∧ v'.en = v.en ∧ v'.cos = v.cos ∧
      h'.enLine = h.enLine ∧ h'.cos = h.cos ∧ v'.ekin = v.ekin ∧ v'.segEnLines = v.segEnLines ∧
      h'.segEnLines = h.segEnLines) ∨
    (histDue i.tt v.tLastEn c.dtEn = true ∧ v'.tLastEn = i.tt ∧ v'.tEn = v.tEn ++ [i.tt] ∧ v'.en = v.en ++ [h.enLine] ∧
      h'.enLine = zeroed h.enLine ∧ (c.flagCos = true → v'.cos = v.cos ++ [h.cos] ∧ h'.cos = zeroed h.cos) ∧
      (∃ ek, ekinHist c i.cloud = .ok ek ∧ v'.ekin = v.ekin ++ [ek]) ∧
      ((c.flagSeg && c.flagEnSeg) = true → v'.segEnLines = (v.segEnLines.zip h.segEnLines).map (fun q => q.1 ++ [q.2]) ∧
        h'.segEnLines = h.segEnLines.map zeroed)) := by
  unfold HistSav.witness at hok
  obtain ⟨⟨v1, h1⟩, e1, hok⟩ := bind_ok hok
  obtain ⟨⟨-, -, -, -, -, -, -, -, l9, l10, l11, l12, l13, l14⟩, -, m2, m3, m4⟩ := lifeSave_frame c v1 h1 i
  obtain ⟨q, hq⟩ : ∃ q, q = HistSav.lifeSave c v1 h1 i := ⟨_, rfl⟩
  simp only [← hq] at hok l9 l10 l11 l12 l13 l14 m2 m3 m4
  have key : v'.tLastEn = q.1.tLastEn ∧ v'.tEn = q.1.tEn ∧ v'.en = q.1.en ∧ v'.cos = q.1.cos ∧ v'.ekin = q.1.ekin ∧
      v'.segEnLines = q.1.segEnLines ∧ h'.enLine = q.2.enLine ∧ h'.cos = q.2.cos ∧ h'.segEnLines = q.2.segEnLines := by
    by_cases hn : i.newPass = true
    · rw [if_pos hn] at hok
      unfold HistSav.passSave at hok
      obtain ⟨line, e2, hok⟩ := bind_ok hok
      obtain ⟨dl, e3, hok⟩ := bind_ok hok
      cases hok
      exact ⟨rfl, rfl, rfl, rfl, rfl, rfl, rfl, rfl, rfl⟩
    · rw [if_neg hn] at hok
      rw [Except.ok.inj hok]
      exact ⟨rfl, rfl, rfl, rfl, rfl, rfl, rfl, rfl, rfl⟩
  obtain ⟨k1, k2, k3, k4, k5, k6, k7, k8, k9⟩ := key
  rw [l9] at k1
  rw [l10] at k2
  rw [l11] at k3
  rw [l12] at k4
  rw [l13] at k5
  rw [l14] at k6
  rw [m2] at k7
  rw [m3] at k8
  rw [m4] at k9
  rw [k1, k2, k3, k4, k5, k6, k7, k8, k9]
  rcases enSave_own c v v1 h h1 i e1 with ⟨o1, o2, o3⟩ | ho
  · rw [o2, o3]
    exact Or.inl ⟨o1, rfl, rfl, rfl, rfl, rfl, rfl, rfl, rfl, rfl⟩
  · exact Or.inr ho

theorem histDue_eq (tt tp dt : K) : histDue tt tp dt = dueAt tp dt tt := by
  unfold histDue closeTo dueAt
  rw [Bool.decide_or]
  norm_num

/-- **C74**: the impact energy and angle histograms are written at the first step that comes at least `Dt_En_hist` after
the previous record (up to a relative rounding of 1e-10), and each record contains exactly the impacts since the
previous one. -/
theorem C74_energy (c : HistCfg K) (v0 : HistSav K) (h0 : ImpHist K) (n m : ℕ) (hen : v0.en = []) (htE : v0.tEn = [])
    (hcos : v0.cos = []) (htl : v0.tLastEn = -1) (hh0 : h0.enLine = List.replicate n 0) (hc0 : h0.cos = List.replicate m 0)
    (evs : List (HistEv K)) (hshape : ∀ e ∈ evs, e.1.enLine.length = n ∧ e.1.cos.length = m) (v : HistSav K)
    (h : ImpHist K) (hok : HistSav.run c (v0, h0) evs = .ok (v, h)) :
    ∃ (gs : List (HGroup K)) (opn : List (HistEv K)), evs = gs.flatMap HGroup.steps ++ opn ∧
      GroupedBy (fun tp i => dueAt tp c.dtEn i.tt) (-1) gs opn ∧
      v.tEn = gs.map (fun g => g.2.2.tt) ∧
      v.en = gs.map (fun g => binSums n (g.steps.map (fun e => e.1.enLine))) ∧
      h.enLine = binSums n (opn.map (fun e => e.1.enLine)) ∧
      (c.flagCos = true → v.cos = gs.map (fun g => binSums m (g.steps.map (fun e => e.1.cos))) ∧
        h.cos = binSums m (opn.map (fun e => e.1.cos))) := by
  suffices hsuf : ∃ (gs : List (HGroup K)) (opn : List (HistEv K)), evs = gs.flatMap HGroup.steps ++ opn ∧
      GroupedBy (fun tp i => histDue i.tt tp c.dtEn) (-1) gs opn ∧
      v.tEn = gs.map (fun g => g.2.2.tt) ∧
      v.en = gs.map (fun g => binSums n (g.steps.map (fun e => e.1.enLine))) ∧
      h.enLine = binSums n (opn.map (fun e => e.1.enLine)) ∧
      (c.flagCos = true → v.cos = gs.map (fun g => binSums m (g.steps.map (fun e => e.1.cos))) ∧
        h.cos = binSums m (opn.map (fun e => e.1.cos))) ∧
      v.tLastEn = (gs.getLast?.map (fun g => g.2.2.tt)).getD (-1) by
    obtain ⟨gs, opn, a1, a2, a3, a4, a5, a6, -⟩ := hsuf
    exact ⟨gs, opn, a1, by simpa only [← histDue_eq] using a2, a3, a4, a5, a6⟩
  induction evs using List.reverseRecOn generalizing v h with
  | nil =>
    cases hok
    refine ⟨[], [], rfl, fun e he => absurd he (by simp), htE, hen, ?_, fun _ => ⟨hcos, ?_⟩, htl⟩
    · rw [hh0, List.map_nil, binSums_nil]
    · rw [hc0, List.map_nil, binSums_nil]
  | append_singleton l e ih =>
    obtain ⟨q, h1, h2⟩ := run_append c _ _ l e hok
    obtain ⟨gs, opn, g1, g2, g3, g4, g5, g6, g7⟩ := ih (fun e' he' => hshape e' (by simp [he'])) q.1 q.2 h1
    obtain ⟨hs1, hs2⟩ := hshape e (by simp)
    have a1 : (q.2.add e.1).enLine = binSums n ((opn ++ [e]).map (fun e => e.1.enLine)) := by
      show addL q.2.enLine e.1.enLine = _
      rw [g5, addL_binSums _ _ _ hs1, List.map_append]; rfl
    have a2 : c.flagCos = true → (q.2.add e.1).cos = binSums m ((opn ++ [e]).map (fun e => e.1.cos)) := by
      intro hc
      show addL q.2.cos e.1.cos = _
      rw [(g6 hc).2, addL_binSums _ _ _ hs2, List.map_append]; rfl
    rcases witness_en c q.1 v _ h e.2 h2 with ⟨w1, w2, w3, w4, w5, w6, w7, -⟩ | ⟨w1, w2, w3, w4, w5, w6, -⟩
    · refine ⟨gs, opn ++ [e], by rw [g1, List.append_assoc], groupedBy_open _ _ _ _ _ g2 _ g7 w1, by rw [w3]; exact g3,
        by rw [w4]; exact g4, by rw [w6]; exact a1, fun hc => ⟨by rw [w5]; exact (g6 hc).1, by rw [w7]; exact a2 hc⟩,
        by rw [w2]; exact g7⟩
    · refine ⟨gs ++ [(opn, e)], [], ?_, groupedBy_close _ _ _ _ _ g2 _ g7 w1, ?_, ?_, ?_, fun hc => ⟨?_, ?_⟩, ?_⟩
      · rw [g1, List.flatMap_append]
        simp [HGroup.steps]
      · rw [w3, g3, List.map_append]; rfl
      · rw [w4, g4, a1]; exact (map_snoc _ gs (opn, e)).symm
      · rw [w5, a1, zeroed_binSums]; rfl
      · rw [(w6 hc).1, (g6 hc).1, a2 hc]; exact (map_snoc _ gs (opn, e)).symm
      · rw [(w6 hc).2, a2 hc, zeroed_binSums]; rfl
      · rw [w2]; simp

/-- what one call does to the lifetime histogram -/
theorem witness_life (c : HistCfg K) (hl : c.flagLife = true) (v v' : HistSav K) (h h' : ImpHist K) (i : WitIn K)
    (hok : HistSav.witness c v h i = .ok (v', h')) :
    (histDue i.tt v.tLastLife c.dtLife = false ∧ v'.tLastLife = v.tLastLife ∧ v'.tLife = v.tLife ∧ v'.life = v.life ∧
      h'.life = h.life) ∨
    (histDue i.tt v.tLastLife c.dtLife = true ∧ v'.tLastLife = i.tt ∧ v'.tLife = v.tLife ++ [i.tt] ∧
      v'.life = v.life ++ [h.life] ∧ h'.life = zeroed h.life) := by
  unfold HistSav.witness at hok
  obtain ⟨⟨v1, h1⟩, e1, hok⟩ := bind_ok hok
  obtain ⟨⟨-, -, -, -, -, -, -, -, a9, a10, a11⟩, -, b2⟩ := enSave_frame c v v1 h h1 i e1
  obtain ⟨q, hq⟩ : ∃ q, q = HistSav.lifeSave c v1 h1 i := ⟨_, rfl⟩
  simp only [← hq] at hok
  have key : v'.tLastLife = q.1.tLastLife ∧ v'.tLife = q.1.tLife ∧ v'.life = q.1.life ∧ h'.life = q.2.life := by
    by_cases hn : i.newPass = true
    · rw [if_pos hn] at hok
      unfold HistSav.passSave at hok
      obtain ⟨line, e2, hok⟩ := bind_ok hok
      obtain ⟨dl, e3, hok⟩ := bind_ok hok
      cases hok
      exact ⟨rfl, rfl, rfl, rfl⟩
    · rw [if_neg hn] at hok
      rw [Except.ok.inj hok]
      exact ⟨rfl, rfl, rfl, rfl⟩
  obtain ⟨k1, k2, k3, k4⟩ := key
  rw [k1, k2, k3, k4, hq, ← a9, ← a10, ← a11, ← b2]
  unfold HistSav.lifeSave
  by_cases hd : histDue i.tt v1.tLastLife c.dtLife = true
  · rw [if_pos (by rw [hl, hd]; rfl)]
    exact Or.inr ⟨hd, rfl, rfl, rfl, rfl⟩
  · have hd' : histDue i.tt v1.tLastLife c.dtLife = false := by simpa using hd
    rw [if_neg (by rw [hl, hd']; exact Bool.false_ne_true)]
    exact Or.inl ⟨hd', rfl, rfl, rfl, rfl⟩

/-- **C74**: the same for the lifetime histogram with its own interval. -/
theorem C74_lifetime (c : HistCfg K) (hl : c.flagLife = true) (v0 : HistSav K) (h0 : ImpHist K) (n : ℕ) (hen : v0.life = [])
    (htE : v0.tLife = []) (htl : v0.tLastLife = -1) (hh0 : h0.life = List.replicate n 0)
    (evs : List (HistEv K)) (hshape : ∀ e ∈ evs, e.1.life.length = n) (v : HistSav K)
    (h : ImpHist K) (hok : HistSav.run c (v0, h0) evs = .ok (v, h)) :
    ∃ (gs : List (HGroup K)) (opn : List (HistEv K)), evs = gs.flatMap HGroup.steps ++ opn ∧
      GroupedBy (fun tp i => dueAt tp c.dtLife i.tt) (-1) gs opn ∧
      v.tLife = gs.map (fun g => g.2.2.tt) ∧
      v.life = gs.map (fun g => binSums n (g.steps.map (fun e => e.1.life))) ∧
      h.life = binSums n (opn.map (fun e => e.1.life)) := by
  suffices hsuf : ∃ (gs : List (HGroup K)) (opn : List (HistEv K)), evs = gs.flatMap HGroup.steps ++ opn ∧
      GroupedBy (fun tp i => histDue i.tt tp c.dtLife) (-1) gs opn ∧
      v.tLife = gs.map (fun g => g.2.2.tt) ∧
      v.life = gs.map (fun g => binSums n (g.steps.map (fun e => e.1.life))) ∧
      h.life = binSums n (opn.map (fun e => e.1.life)) ∧
      v.tLastLife = (gs.getLast?.map (fun g => g.2.2.tt)).getD (-1) by
    obtain ⟨gs, opn, a1, a2, a3, a4, a5, -⟩ := hsuf
    exact ⟨gs, opn, a1, by simpa only [← histDue_eq] using a2, a3, a4, a5⟩
  induction evs using List.reverseRecOn generalizing v h with
  | nil =>
    cases hok
    refine ⟨[], [], rfl, fun e he => absurd he (by simp), htE, hen, ?_, htl⟩
    rw [hh0, List.map_nil, binSums_nil]
  | append_singleton l e ih =>
    obtain ⟨q, h1, h2⟩ := run_append c _ _ l e hok
    obtain ⟨gs, opn, g1, g2, g3, g4, g5, g7⟩ := ih (fun e' he' => hshape e' (by simp [he'])) q.1 q.2 h1
    have hs1 := hshape e (by simp)
    have a1 : (q.2.add e.1).life = binSums n ((opn ++ [e]).map (fun e => e.1.life)) := by
      show addL q.2.life e.1.life = _
      rw [g5, addL_binSums _ _ _ hs1, List.map_append]; rfl
    rcases witness_life c hl q.1 v _ h e.2 h2 with ⟨w1, w2, w3, w4, w5⟩ | ⟨w1, w2, w3, w4, w5⟩
    · refine ⟨gs, opn ++ [e], by rw [g1, List.append_assoc], groupedBy_open _ _ _ _ _ g2 _ g7 w1, by rw [w3]; exact g3,
        by rw [w4]; exact g4, by rw [w5]; exact a1, by rw [w2]; exact g7⟩
    · refine ⟨gs ++ [(opn, e)], [], ?_, groupedBy_close _ _ _ _ _ g2 _ g7 w1, ?_, ?_, ?_, ?_⟩
      · rw [g1, List.flatMap_append]
        simp [HGroup.steps]
      · rw [w3, g3, List.map_append]; rfl
      · rw [w4, g4, a1]; exact (map_snoc _ gs (opn, e)).symm
      · rw [w5, a1, zeroed_binSums]; rfl
      · rw [w2]; simp

variable [IsStrictOrderedRing K]

/-- A histogram computed from an empty one is the linear histogram of the data. -/
theorem computeHist_cic (bias dx : K) (l r : List K) (hz : ∀ v ∈ l, v = 0) (ps : List (K × K))
    (hok : computeHist bias dx l ps = .ok r) : r = cicHist l.length bias dx ps := by
  have hlen := computeHist_length _ _ _ _ _ hok
  unfold cicHist
  apply List.ext_getElem
  · simp [hlen]
  · intro k h1 h2
    have hk : k < l.length := by rw [← hlen]; exact h1
    have := computeHist_getD bias dx l r ps hok k hk
    rw [List.getD_eq_getElem?_getD, List.getD_eq_getElem?_getD, List.getElem?_eq_getElem h1, List.getElem?_eq_getElem hk,
      Option.getD_some, Option.getD_some, hz _ (List.getElem_mem hk), zero_add] at this
    rw [this]
    simp

theorem cicHist_nil (n : ℕ) (bias dx : K) : cicHist n bias dx [] = List.replicate n 0 := by
  unfold cicHist; simp

theorem zero_map (l : List K) : l.map (fun v => 0 * v) = List.replicate l.length 0 := by
  apply List.ext_getElem <;> simp

theorem head_zip (s : MPs K) (h : s.WF) : (s.head .x).zip (s.head .nel) = s.live.map (fun p => (p .x, p .nel)) := by
  have h1 := h.len .x
  have h2 := h.len .nel
  have h3 := h.fits
  unfold MPs.head MPs.live
  rw [List.map_map]
  apply List.ext_getElem
  · simp only [List.length_zip, List.length_take, List.length_map, List.length_range]; omega
  · intro k hk1 hk2
    simp only [List.length_map, List.length_range] at hk2
    have a1 : k < (s.arr .x).length := by omega
    have a2 : k < (s.arr .nel).length := by omega
    simp [MPs.tracked, a1, a2]

/-- **C54**: the position histogram written at each passage is the linear histogram of the live macroparticles of the
current cloud, hence zero when the cloud is empty. -/
theorem C54_cloud_histogram (c : HistCfg K) (v v' : HistSav K) (h h' : ImpHist K) (i : WitIn K) (hwf : i.cloud.WF)
    (hp : i.newPass = true) (hok : HistSav.witness c v h i = .ok (v', h')) :
    v'.nel = v.nel ++ [cicHist v.line.length c.biasX c.dxHist (i.cloud.live.map (fun p => (p .x, p .nel)))] ∧
    v'.line.length = v.line.length ∧ v'.tHist = v.tHist ++ [i.tt] := by
  rcases witness_pass c v v' h h' i hok with ⟨w1, -⟩ | ⟨-, -, w3, -, -, w6, w7, -⟩
  · rw [hp] at w1; cases w1
  · have key : v'.line = cicHist v.line.length c.biasX c.dxHist (i.cloud.live.map (fun p => (p .x, p .nel))) := by
      unfold cloudLine at w6
      split at w6
      · have := computeHist_cic _ _ _ _ (by intro x hx; obtain ⟨y, -, rfl⟩ := List.mem_map.1 hx; exact zero_mul y) _ w6
        rw [this, List.length_map, head_zip _ hwf]
      · next hz =>
        have h0 : i.cloud.nmp = 0 := by omega
        have hl : i.cloud.live = [] := by unfold MPs.live; rw [h0]; rfl
        rw [← Except.ok.inj w6, hl, List.map_nil, cicHist_nil, zero_map]
    refine ⟨by rw [w7, key], ?_, w3⟩
    rw [key]
    simp [cicHist]

theorem detSel_live (d : DetCfg K) (s : MPs K) : detSel d s = (s.live.filter (fun p =>
    decide (d.xMin < p .x ∧ p .x < d.xMax ∧ d.yMin < p .y ∧ p .y < d.yMax))).map (fun p => (p .x, p .nel)) := by
  unfold detSel MPs.live
  rw [List.filter_map, List.map_map]
  congr 1
  apply List.filter_congr
  intro k _
  simp only [Function.comp_apply, MPs.tracked]
  rw [Bool.eq_iff_iff]
  simp
  tauto

/-- **C54** (partial): while the cloud is not empty, the detailed histogram is the linear histogram of the live
macroparticles strictly within its limits. Missing: an empty cloud, see `C54_detailed_stale`. -/
theorem C54_detailed_partial (c : HistCfg K) (d : DetCfg K) (hd : c.det = some d) (v v' : HistSav K) (h h' : ImpHist K)
    (i : WitIn K) (hp : i.newPass = true) (hne : i.cloud.live ≠ []) (hok : HistSav.witness c v h i = .ok (v', h')) :
    v'.det = v.det ++ [cicHist v.detLine.length d.bias d.dx ((i.cloud.live.filter (fun p =>
      decide (d.xMin < p .x ∧ p .x < d.xMax ∧ d.yMin < p .y ∧ p .y < d.yMax))).map (fun p => (p .x, p .nel)))] := by
  rcases witness_pass c v v' h h' i hok with ⟨w1, -⟩ | ⟨-, -, -, -, -, -, -, w8, w9⟩
  · rw [hp] at w1; cases w1
  · rw [w9 (by rw [hd]; rfl)]
    congr 2
    have h0 : 0 < i.cloud.nmp := by
      rcases Nat.eq_zero_or_pos i.cloud.nmp with h0 | h0
      · exact absurd (by unfold MPs.live; rw [h0]; rfl) hne
      · exact h0
    unfold detLineOf at w8
    rw [hd] at w8
    simp only [if_pos h0] at w8
    unfold detUpdate at w8
    rw [← detSel_live]
    split at w8
    · have := computeHist_cic _ _ _ _ (by intro x hx; obtain ⟨y, -, rfl⟩ := List.mem_map.1 hx; exact zero_mul y) _ w8
      rw [this, List.length_map]
    · next hz =>
      have hl : detSel d i.cloud = [] := List.length_eq_zero_iff.1 (by omega)
      rw [← Except.ok.inj w8, hl, cicHist_nil, zero_map]

/-- **C54 fails for the detailed histogram of an empty cloud**: the line of the last non-empty passage is written
again. -/
theorem C54_detailed_stale (c : HistCfg K) (v v' : HistSav K) (h h' : ImpHist K) (i : WitIn K) (hp : i.newPass = true)
    (hd : c.det.isSome = true) (hempty : i.cloud.live = []) (hok : HistSav.witness c v h i = .ok (v', h')) :
    v'.det = v.det ++ [v.detLine] := by
  rcases witness_pass c v v' h h' i hok with ⟨w1, -⟩ | ⟨-, -, -, -, -, -, -, w8, w9⟩
  · rw [hp] at w1; cases w1
  · rw [w9 hd]
    have h0 : ¬ 0 < i.cloud.nmp := by
      intro h0
      have := congrArg List.length hempty
      simp [MPs.live] at this
      omega
    unfold detLineOf at w8
    cases hc : c.det with
    | none => rw [hc] at hd; cases hd
    | some d =>
      rw [hc] at w8
      simp only [if_neg h0] at w8
      rw [Except.ok.inj w8]

/-- **C54**: the kinetic energy histogram is the linear histogram of the kinetic energies of the live macroparticles. -/
theorem C54_kinetic (c : HistCfg K) (v v' : HistSav K) (h h' : ImpHist K) (i : WitIn K)
    (hok : HistSav.witness c v h i = .ok (v', h')) :
    v'.ekin = v.ekin ∨ v'.ekin = v.ekin ++ [cicHist c.nBin 0 c.dEn (i.cloud.live.map (fun p =>
      (c.ke * (p .vx ^ 2 + p .vy ^ 2 + p .vz ^ 2), p .nel)))] ∧ v'.tEn = v.tEn ++ [i.tt] := by
  rcases witness_en c v v' h h' i hok with ⟨-, -, -, -, -, -, -, w, -⟩ | ⟨-, -, w3, -, -, -, ⟨ek, w7, w8⟩, -⟩
  · exact Or.inl w
  · refine Or.inr ⟨?_, w3⟩
    rw [w8]
    congr 2
    unfold ekinHist at w7
    have hdat : ekinData c i.cloud = i.cloud.live.map (fun p => (c.ke * (p .vx ^ 2 + p .vy ^ 2 + p .vz ^ 2), p .nel)) := by
      unfold ekinData MPs.live
      rw [List.map_map]
      rfl
    split at w7
    · have := computeHist_cic _ _ _ _ (by intro x hx; exact (List.mem_replicate.1 hx).2) _ w7
      rw [this, List.length_replicate, hdat]
    · next hz =>
      have h0 : i.cloud.nmp = 0 := by omega
      have hl : i.cloud.live = [] := by unfold MPs.live; rw [h0]; rfl
      rw [← Except.ok.inj w7, hl, List.map_nil, cicHist_nil]

end Floor

/-- what a toy step deposits -/
def depToy (k : ℕ) : ImpHist ℚ :=
  ⟨[k, 1, 0], [k, 0, 0], [0, 2, 1], [1, 1], [0, 1, 0, 5], [1, 0], [], [], [], []⟩

def depZero : ImpHist ℚ :=
  ⟨List.replicate 3 0, List.replicate 3 0, List.replicate 3 0, List.replicate 2 0, List.replicate 4 0,
    List.replicate 2 0, [], [], [], []⟩

def histToyCfg : HistCfg ℚ := ⟨-20, 10, false, false, some ⟨-9, 9, -9, 9, -10, 5⟩, 2 / 100, true, true, 1 / 50, 1, 1000, 4⟩

/-- a passage every third step -/
def histToyEv (k : ℕ) : HistEv ℚ := (depToy k, { witToy k with
  newPass := decide (k % 3 = 2)
  cnt := ⟨k + 1, 2 * k, 3, 5⟩ })

/-- sizes of the per-passage histograms -/
def histToyN : PassH → ℕ
  | .tot => 3
  | .scrub => 3
  | .energ => 3
  | _ => 0

/-- the hypotheses of C53 and C74 hold for a run with two passages and an open one -/
example : (∀ ph, depZero.pass ph = List.replicate (histToyN ph) 0) ∧
    (∀ e ∈ (List.range 7).map histToyEv, ∀ ph, (e.1.pass ph).length = histToyN ph) ∧
    (∀ e ∈ (List.range 7).map histToyEv, e.1.tot.sum = e.2.cnt.nelImp) := by
  refine ⟨fun ph => by cases ph <;> rfl, fun e he ph => ?_, fun e he => ?_⟩
  · obtain ⟨k, -, rfl⟩ := List.mem_map.1 he
    cases ph <;> rfl
  · obtain ⟨k, -, rfl⟩ := List.mem_map.1 he
    show ((k : ℚ) + (1 + (0 + 0))) = k + 1
    ring

example : ∃ r, HistSav.run histToyCfg (HistSav.init 8 5 0, depZero) ((List.range 7).map histToyEv) = .ok r ∧
    (r.1.tHist = [2 / 100, 5 / 100] ∧ r.1.pass .tot = [[3, 3, 0], [12, 3, 0]] ∧ r.2.tot = [6, 1, 0] ∧
      r.1.tEn = [0, 2 / 100, 4 / 100, 6 / 100] ∧ r.1.life = [[1, 0], [2, 0], [2, 0], [2, 0]]) :=
  exists_ok (by decide +kernel)

/-- an empty cloud -/
def emptyToy : MPs ℚ := { toy with nmp := 0 }

/-- **C54 fails** (witness): a passage with an empty cloud records the previous, non-zero detailed histogram. -/
theorem C54_violated : ∃ r, HistSav.run histToyCfg (HistSav.init 8 5 0, depZero)
    [(depZero, { witToy 0 with newPass := true }),
      (depZero, { witToy 1 with newPass := true, cloud := emptyToy })] = .ok r ∧
    (r.1.det.length = 2 ∧ r.1.det.getD 1 [] = r.1.det.getD 0 [] ∧ 0 < (r.1.det.getD 1 []).sum ∧
      r.1.nel.getD 1 [] = List.replicate 8 0) :=
  exists_ok (by decide +kernel)

end PyECLOUD
